import Verif.Model.DecimalText
import Verif.Spec.DecimalText
import Verif.Lemmas.Basic
/-! Helper lemmas about decimal texts. -/
namespace Phoenix.Dec
open Phoenix Dec.Spec

theorem digit_of {c : Char} (h : c.isDigit = true) : digit c = .ok (c.toNat - '0'.toNat) := by
  unfold digit; rw [if_pos (Char.isDigit_iff_toNat.mp h)]

theorem digit_not {c : Char} (h : ¬ c.isDigit = true) : digit c = .error .panic := by
  unfold digit; rw [if_neg (fun h' => h (Char.isDigit_iff_toNat.mpr h'))]

theorem digitsFrom_of {l : List Char} {acc : Nat} (h : ∀ c ∈ l, c.isDigit = true) :
    digitsFrom acc l = .ok (Nat.ofDigitChars 10 l acc) := by
  induction l generalizing acc with
  | nil => simp [digitsFrom]
  | cons c l ih =>
    simp only [digitsFrom, bind_ok]
    refine ⟨_, digit_of (h c (List.mem_cons_self ..)), ?_⟩
    rw [ih (fun d hd => h d (List.mem_cons_of_mem _ hd)), Nat.ofDigitChars_cons]

theorem digitsFrom_not {l : List Char} {acc : Nat} {c : Char} (hc : c ∈ l) (h : ¬ c.isDigit = true) :
    ∃ e, digitsFrom acc l = .error e := by
  induction l generalizing acc with
  | nil => simp at hc
  | cons d l ih =>
    by_cases hd : d.isDigit = true
    · have hc' : c ∈ l := by
        rcases List.mem_cons.mp hc with rfl | hc
        · exact absurd hd h
        · exact hc
      obtain ⟨e, he⟩ := ih (acc := 10 * acc + (d.toNat - '0'.toNat)) hc'
      refine ⟨e, ?_⟩
      simp only [digitsFrom, digit_of hd]
      exact he
    · exact ⟨.panic, by simp only [digitsFrom, digit_not hd]; rfl⟩

theorem parseDigits_of {l : List Char} (h : Digits l) : parseDigits l = .ok (number l) := by
  obtain ⟨h1, h2⟩ := h
  cases l with
  | nil => exact absurd rfl h1
  | cons c l => exact digitsFrom_of h2

theorem parseInt_of {l : List Char} (h : Digits l) (hm : (number l : Int) ≤ I128_MAX) : parseInt l = .ok (number l : Int) := by
  have hp := parseDigits_of h
  obtain ⟨h1, h2⟩ := h
  cases l with
  | nil => exact absurd rfl h1
  | cons c l =>
    have hc := h2 c (List.mem_cons_self ..)
    have n1 : c ≠ '-' := by rintro rfl; simp at hc
    have n2 : c ≠ '+' := by rintro rfl; simp at hc
    unfold parseInt
    split
    · rename_i e; simp only [List.cons.injEq] at e; exact absurd e.1 n1
    · rename_i e; simp only [List.cons.injEq] at e; exact absurd e.1 n2
    · simp only [bind_ok, req_ok]
      exact ⟨_, hp, (), hm, rfl⟩

theorem parseInt_neg {l : List Char} (h : Digits l) (hm : -(number l : Int) ≥ I128_MIN) :
    parseInt ('-' :: l) = .ok (-(number l : Int)) := by
  simp only [parseInt, bind_ok, req_ok]
  exact ⟨_, parseDigits_of h, (), hm, rfl⟩

theorem digits_noDot {l : List Char} (h : ∀ c ∈ l, c.isDigit = true) : '.' ∉ l := by
  intro hm; have := h _ hm; simp at this

theorem splitDots_none {l : List Char} (h : '.' ∉ l) : splitDots l = [l] := by
  induction l with
  | nil => rfl
  | cons c l ih =>
    simp only [List.mem_cons, not_or] at h
    unfold splitDots
    rw [if_neg (fun e => h.1 e.symm), ih h.2]

theorem splitDots_app {l r : List Char} (h : '.' ∉ l) : splitDots (l ++ '.' :: r) = l :: splitDots r := by
  induction l with
  | nil => simp [splitDots]
  | cons c l ih =>
    simp only [List.mem_cons, not_or] at h
    simp only [List.cons_append]
    rw [splitDots, if_neg (fun e => h.1 e.symm), ih h.2]

theorem natText_digits (n : Nat) : Digits (natText n) :=
  ⟨Nat.toDigits_ne_nil, fun _ hc => Nat.isDigit_of_mem_toDigits (by decide) (by decide) hc⟩

theorem number_natText (n : Nat) : number (natText n) = n := Nat.ofDigitChars_ten_toDigits

theorem trim_split (l : List Char) : ∃ k, l = trimZeros l ++ List.replicate k '0' := by
  unfold trimZeros
  have h := List.takeWhile_append_dropWhile (p := (· == '0')) (l := l.reverse)
  have h2 : ∀ c ∈ l.reverse.takeWhile (· == '0'), c = '0' := by
    intro c hc
    have := List.all_eq_true.mp (List.all_takeWhile (p := (· == '0')) (l := l.reverse)) c hc
    simpa using this
  refine ⟨(l.reverse.takeWhile (· == '0')).length, ?_⟩
  have h3 := List.eq_replicate_iff.mpr ⟨rfl, h2⟩
  have h4 := congrArg List.reverse h
  rw [List.reverse_append, List.reverse_reverse] at h4
  conv_lhs => rw [← h4]
  congr 1
  conv_lhs => rw [h3]
  rw [List.reverse_replicate]

theorem trim_last (l : List Char) {c : Char} (h : (trimZeros l).getLast? = some c) : c ≠ '0' := by
  unfold trimZeros at h
  rw [List.getLast?_reverse] at h
  intro e; subst e
  have := List.head?_dropWhile_not (p := (· == '0')) (l := l.reverse)
  rw [h] at this
  simp at this

theorem number_append_zeros (l : List Char) (k : Nat) : number (l ++ List.replicate k '0') = number l * 10 ^ k := by
  unfold number
  rw [Nat.ofDigitChars_append, Nat.ofDigitChars_replicate_zero, Nat.mul_comm]

theorem number_zeros_append (l : List Char) (k : Nat) : number (List.replicate k '0' ++ l) = number l := by
  unfold number
  rw [Nat.ofDigitChars_append, Nat.ofDigitChars_replicate_zero, Nat.mul_zero]

/-- the fraction part of the text of a non-negative number -/
theorem fraction_text {n : Nat} (h0 : n ≠ 0) (h1 : n < 10 ^ 18) :
    ∃ k, Digits (trimZeros (padZeros 18 (natText n))) ∧ (trimZeros (padZeros 18 (natText n))).length + k = 18 ∧
      number (trimZeros (padZeros 18 (natText n))) * 10 ^ k = n := by
  have hd := natText_digits n
  have hl : (natText n).length ≤ 18 := (Nat.length_toDigits_le_iff (by decide) (by decide)).mpr h1
  have hn : number (padZeros 18 (natText n)) = n := by unfold padZeros; rw [number_zeros_append, number_natText]
  have hlen : (padZeros 18 (natText n)).length = 18 := by
    unfold padZeros; rw [List.length_append, List.length_replicate]; omega
  have hdig : ∀ c ∈ padZeros 18 (natText n), c.isDigit = true := by
    intro c hc
    unfold padZeros at hc
    rcases List.mem_append.mp hc with hc | hc
    · rw [List.eq_of_mem_replicate hc]; decide
    · exact hd.2 c hc
  generalize padZeros 18 (natText n) = p at *
  obtain ⟨k, hk⟩ := trim_split p
  have h2 : number (trimZeros p) * 10 ^ k = n := by
    rw [← number_append_zeros, ← hk]; exact hn
  refine ⟨k, ⟨?_, ?_⟩, ?_, h2⟩
  · intro e; rw [e] at h2; simp [number] at h2; omega
  · intro c hc; exact hdig c (by rw [hk]; exact List.mem_append_left _ hc)
  · have := congrArg List.length hk
    rw [List.length_append, List.length_replicate] at this
    omega

theorem pow10_of {k : Nat} (h : k ≤ 18) : pow10 k = .ok (10 ^ k) := by
  unfold pow10; rw [i128_ok]
  refine ⟨?_, rfl⟩
  have h1 : (10 : Int) ^ k ≤ 10 ^ 18 := pow_le_pow_right₀ (by decide) h
  have h2 : (0 : Int) ≤ 10 ^ k := by positivity
  simp only [InI128, I128_MIN, I128_MAX]
  have : (10 : Int) ^ 18 = 1000000000000000000 := by norm_num
  constructor <;> omega

theorem fromText_whole {w : List Char} (hw : Digits w) (h : (number w : Int) * ONE ≤ I128_MAX) :
    fromText w = .ok ((number w : Int) * ONE) := by
  unfold fromText
  rw [splitDots_none (digits_noDot hw.2)]
  simp only [bind_ok, mulI_ok]
  have h1 : (number w : Int) ≤ I128_MAX := by simp only [ONE] at h; omega
  refine ⟨_, parseInt_of hw h1, ⟨?_, h⟩, rfl⟩
  simp only [ONE, I128_MIN]; omega

theorem addFraction_of {f : List Char} {a : Int} (hf : Digits f) (hl : f.length ≤ 18) (ha : 0 ≤ a)
    (h : a + (number f : Int) * 10 ^ (18 - f.length) ≤ I128_MAX) :
    addFraction a f = .ok (a + (number f : Int) * 10 ^ (18 - f.length)) := by
  unfold addFraction
  simp only [bind_ok, req_ok, mulI_ok, addI_ok]
  have hp : (1 : Int) ≤ 10 ^ (18 - f.length) := one_le_pow₀ (by decide)
  have hn : (number f : Int) ≤ (number f : Int) * 10 ^ (18 - f.length) := le_mul_of_one_le_right (by omega) hp
  refine ⟨_, parseInt_of hf (by omega), (), hl, _, pow10_of (by omega), _, ⟨⟨?_, ?_⟩, rfl⟩, ⟨?_, h⟩, rfl⟩
  · simp only [I128_MIN]; omega
  · omega
  · simp only [I128_MIN]; omega

theorem fromText_frac {w f : List Char} (hw : Digits w) (hf : Digits f) (hl : f.length ≤ 18)
    (h : (number w : Int) * ONE + (number f : Int) * 10 ^ (18 - f.length) ≤ I128_MAX) :
    fromText (w ++ '.' :: f) = .ok ((number w : Int) * ONE + (number f : Int) * 10 ^ (18 - f.length)) := by
  unfold fromText
  rw [splitDots_app (digits_noDot hw.2), splitDots_none (digits_noDot hf.2)]
  simp only [bind_ok, mulI_ok]
  have hp : (0 : Int) ≤ (number f : Int) * 10 ^ (18 - f.length) := by positivity
  have h1 : (number w : Int) * ONE ≤ I128_MAX := by omega
  have h2 : (number w : Int) ≤ I128_MAX := by simp only [ONE] at h1; omega
  have h3 : (0 : Int) ≤ (number w : Int) * ONE := mul_nonneg (by omega) (by decide)
  refine ⟨_, parseInt_of hw h2, _, ⟨⟨?_, h1⟩, rfl⟩, addFraction_of hf hl h3 h⟩
  simp only [I128_MIN]; omega

end Phoenix.Dec
