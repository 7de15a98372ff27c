import Verif.Lemmas.DecimalText
import Mathlib.Data.List.Induction
/-!
Property theorems about decimal numbers as text (packages/decimal): C82.
-/
namespace Phoenix.Props
open Phoenix Phoenix.Dec Phoenix.Dec.Spec

theorem toText_nonneg {d : Int} (h : 0 ≤ d) :
    (d.toNat % 10 ^ 18 = 0 ∧ toText d = natText (d.toNat / 10 ^ 18)) ∨
    (d.toNat % 10 ^ 18 ≠ 0 ∧
      toText d = natText (d.toNat / 10 ^ 18) ++ '.' :: trimZeros (padZeros 18 (natText (d.toNat % 10 ^ 18)))) := by
  obtain ⟨n, rfl⟩ : ∃ n : Nat, d = n := ⟨d.toNat, by omega⟩
  have h1 : (n : Int).tdiv ONE = ((n / 10 ^ 18 : Nat) : Int) := by
    rw [Int.tdiv_eq_ediv_of_nonneg h]; simp [ONE]
  have h2 : (n : Int).tmod ONE = ((n % 10 ^ 18 : Nat) : Int) := by
    rw [Int.tmod_eq_emod_of_nonneg h]; simp [ONE]
  have hi : ∀ m : Nat, intText (m : Int) = natText m := by
    intro m; unfold intText; rw [if_neg (by omega)]; simp
  unfold toText
  simp only [h1, h2, hi, Int.toNat_natCast]
  by_cases e : n % 10 ^ 18 = 0
  · rw [if_pos (by omega)]; exact .inl ⟨e, rfl⟩
  · rw [if_neg (by omega)]; exact .inr ⟨e, rfl⟩

/-- **C82** The text of a non-negative decimal is an ordinary decimal number whose value is
exactly the value of the decimal, without trailing zeros after the dot. -/
theorem C82_text_is_exact {d : Int} (h : 0 ≤ d) :
    Reads (toText d) ((d : ℚ) / 10 ^ 18) ∧ ('.' ∈ toText d → ∀ c, (toText d).getLast? = some c → c ≠ '0') := by
  obtain ⟨n, rfl⟩ : ∃ n : Nat, d = n := ⟨d.toNat, by omega⟩
  rcases toText_nonneg h with ⟨h1, h2⟩ | ⟨h1, h2⟩
  · rw [h2]
    simp only [Int.toNat_natCast] at h1 ⊢
    refine ⟨?_, fun hd => absurd hd (digits_noDot (natText_digits _).2)⟩
    have hr := Reads.whole (natText_digits (n / 10 ^ 18))
    rw [number_natText] at hr
    have : ((n : Int) : ℚ) / 10 ^ 18 = ((n / 10 ^ 18 : Nat) : ℚ) := by
      have := Nat.div_add_mod n (10 ^ 18)
      rw [h1, Nat.add_zero] at this
      rw [div_eq_iff (by positivity)]
      have h3 : (n : ℚ) = ((10 ^ 18 * (n / 10 ^ 18) : Nat) : ℚ) := by rw [this]
      push_cast at h3 ⊢
      rw [h3]; ring
    rw [this]; exact hr
  · rw [h2]
    simp only [Int.toNat_natCast] at h1 ⊢
    obtain ⟨k, f1, f2, f3⟩ := fraction_text h1 (Nat.mod_lt n (by positivity))
    constructor
    · have hr := Reads.frac (natText_digits (n / 10 ^ 18)) f1
      rw [number_natText] at hr
      generalize trimZeros (padZeros 18 (natText (n % 10 ^ 18))) = f at *
      have : ((n : Int) : ℚ) / 10 ^ 18 = ((n / 10 ^ 18 : Nat) : ℚ) + number f / 10 ^ f.length := by
        have h3 : n = 10 ^ 18 * (n / 10 ^ 18) + number f * 10 ^ k := by
          rw [f3]; exact (Nat.div_add_mod n (10 ^ 18)).symm
        have h4 : (n : ℚ) = 10 ^ 18 * ((n / 10 ^ 18 : Nat) : ℚ) + number f * 10 ^ k := by exact_mod_cast h3
        have h5 : (10 : ℚ) ^ 18 = 10 ^ f.length * 10 ^ k := by rw [← pow_add, f2]
        have h6 : ((n : Int) : ℚ) = (n : ℚ) := by push_cast; rfl
        rw [h6, div_eq_iff (by positivity), add_mul, h4]
        congr 1
        · ring
        · rw [h5]; field_simp
      rw [this]; exact hr
    · intro _ c hc
      have hne : ('.' :: trimZeros (padZeros 18 (natText (n % 10 ^ 18)))) ≠ [] := by simp
      rw [List.getLast?_append_of_ne_nil _ hne] at hc
      obtain ⟨f0, f00⟩ := f1
      generalize hg : trimZeros (padZeros 18 (natText (n % 10 ^ 18))) = f at *
      cases f with
      | nil => exact absurd rfl f0
      | cons a l =>
        rw [List.getLast?_cons_cons, ← hg] at hc
        exact trim_last _ hc

/-- **C82** Reading back the text of a non-negative decimal gives that decimal. -/
theorem C82_round_trip {d : Int} (h : 0 ≤ d) (hm : d ≤ I128_MAX) : fromText (toText d) = .ok d := by
  obtain ⟨n, rfl⟩ : ∃ n : Nat, d = n := ⟨d.toNat, by omega⟩
  have hdm := Nat.div_add_mod n (10 ^ 18)
  have hone : ONE = 10 ^ 18 := by decide
  rcases toText_nonneg h with ⟨h1, h2⟩ | ⟨h1, h2⟩
  · rw [h2]
    simp only [Int.toNat_natCast] at h1 ⊢
    rw [h1, Nat.add_zero] at hdm
    have he : ((n / 10 ^ 18 : Nat) : Int) * ONE = n := by
      rw [hone]; conv_rhs => rw [← hdm]
      push_cast; ring
    rw [fromText_whole (natText_digits _) (by rw [number_natText, he]; exact hm), number_natText, he]
  · rw [h2]
    simp only [Int.toNat_natCast] at h1 ⊢
    obtain ⟨k, f1, f2, f3⟩ := fraction_text h1 (Nat.mod_lt n (by positivity))
    generalize trimZeros (padZeros 18 (natText (n % 10 ^ 18))) = f at *
    have he : ((n / 10 ^ 18 : Nat) : Int) * ONE + (number f : Int) * 10 ^ (18 - f.length) = n := by
      rw [show 18 - f.length = k by omega, hone]
      conv_rhs => rw [← hdm, ← f3]
      push_cast; ring
    rw [fromText_frac (natText_digits _) f1 (by omega) (by rw [number_natText, he]; exact hm), number_natText, he]

/-- **C82** Every decimal number with at most 18 digits after the dot that fits the range is
read as exactly its value. -/
theorem C82_reads_value {l : List Char} {q : ℚ} (h : Reads l q)
    (hl : ∀ w f, l = w ++ '.' :: f → Digits f → f.length ≤ 18) (hm : q * 10 ^ 18 ≤ I128_MAX) :
    ∃ d, fromText l = .ok d ∧ (d : ℚ) = q * 10 ^ 18 := by
  have hone : ONE = 10 ^ 18 := by decide
  cases h with
  | whole hw =>
    refine ⟨_, fromText_whole hw ?_, by rw [hone]; push_cast; ring⟩
    have h2 : (((number l : Int) * ONE : Int) : ℚ) ≤ (I128_MAX : Int) := by rw [hone]; push_cast; exact hm
    exact_mod_cast h2
  | @frac w f hw hf =>
    have hlen := hl w f rfl hf
    have he : (((number w : Int) * ONE + (number f : Int) * 10 ^ (18 - f.length) : Int) : ℚ) =
        ((number w : ℚ) + number f / 10 ^ f.length) * 10 ^ 18 := by
      have h5 : (10 : ℚ) ^ 18 = 10 ^ f.length * 10 ^ (18 - f.length) := by rw [← pow_add]; congr 1; omega
      rw [hone, add_mul]; push_cast
      congr 1
      rw [h5]; field_simp
    refine ⟨_, fromText_frac hw hf hlen ?_, he⟩
    have h2 : (((number w : Int) * ONE + (number f : Int) * 10 ^ (18 - f.length) : Int) : ℚ) ≤ (I128_MAX : Int) := by
      rw [he]; exact hm
    exact_mod_cast h2

/-- **C82** Different non-negative decimals have different texts. -/
theorem C82_text_injective {d e : Int} (hd : 0 ≤ d) (he : 0 ≤ e) (hd' : d ≤ I128_MAX) (he' : e ≤ I128_MAX)
    (h : toText d = toText e) : d = e := by
  have h1 := C82_round_trip hd hd'
  rw [h, C82_round_trip he he', ok_inj] at h1
  exact h1.symm

/-- 123.0456 -/
example : toText 123045600000000000000 = "123.0456".toList ∧ fromText "123.0456".toList = .ok 123045600000000000000 := by
  decide +kernel
/-- 0.000000000000000001 -/
example : toText 1 = "0.000000000000000001".toList ∧ fromText "0.000000000000000001".toList = .ok 1 := by
  decide +kernel
example : Reads "1.5".toList (((number ['1'] : Nat) : ℚ) + (number ['5'] : Nat) / 10 ^ 1) :=
  Reads.frac (w := ['1']) (f := ['5']) ⟨by simp, by decide⟩ ⟨by simp, by decide⟩

/-! What fails for negative decimals. -/

theorem intText_parse {x : Int} (h : InI128 x) : parseInt (intText x) = .ok x := by
  unfold intText
  obtain ⟨h1, h2⟩ := h
  split
  · rw [parseInt_neg (natText_digits _) (by rw [number_natText]; omega), number_natText]
    congr 1; omega
  · rw [parseInt_of (natText_digits _) (by rw [number_natText]; omega), number_natText]
    congr 1; omega

theorem intText_noDot (x : Int) : '.' ∉ intText x := by
  unfold intText
  split
  · intro h
    rcases List.mem_cons.mp h with h | h
    · simp at h
    · exact digits_noDot (natText_digits _).2 h
  · exact digits_noDot (natText_digits _).2

/-- **C82**, what fails: a negative decimal with a fraction is written with the sign inside the
fraction.  Unless the fraction has exactly 17 digits, reading the text back does not give the
decimal; if it has fewer, the text cannot be read at all. -/
theorem C82_negative_fraction_lost {d : Int} (hd : d < 0) (hm : InI128 d) (hn : d.natAbs % 10 ^ 18 ≠ 0)
    (hr : d.natAbs % 10 ^ 18 < 10 ^ 16 ∨ 10 ^ 17 ≤ d.natAbs % 10 ^ 18) :
    fromText (toText d) ≠ .ok d ∧ (d.natAbs % 10 ^ 18 < 10 ^ 16 → ∃ e, fromText (toText d) = .error e) := by
  obtain ⟨m, hm', rfl⟩ : ∃ m : Nat, 0 < m ∧ d = -(m : Int) := ⟨d.natAbs, by omega, by omega⟩
  simp only [Int.natAbs_neg, Int.natAbs_natCast] at hn hr ⊢
  have hone : ONE = ((10 ^ 18 : Nat) : Int) := by decide
  have h1 : (-(m : Int)).tdiv ONE = -((m / 10 ^ 18 : Nat) : Int) := by
    rw [Int.neg_tdiv, Int.tdiv_eq_ediv_of_nonneg (by omega), hone]; rfl
  have h2 : (-(m : Int)).tmod ONE = -((m % 10 ^ 18 : Nat) : Int) := by
    rw [Int.neg_tmod, Int.tmod_eq_emod_of_nonneg (by omega), hone]; rfl
  have hdm := Nat.div_add_mod m (10 ^ 18)
  have hlt := Nat.mod_lt m (show 0 < 10 ^ 18 by positivity)
  have ht : toText (-(m : Int)) = intText (-((m / 10 ^ 18 : Nat) : Int)) ++
      '.' :: trimZeros (padZeros 18 ('-' :: natText (m % 10 ^ 18))) := by
    unfold toText
    simp only [h1, h2]
    rw [if_neg (by omega)]
    conv_lhs => rw [intText.eq_1 (-((m % 10 ^ 18 : Nat) : Int))]
    rw [if_pos (by omega)]
    simp only [Int.natAbs_neg, Int.natAbs_natCast]
  generalize hq : m / 10 ^ 18 = q at *
  generalize hg : m % 10 ^ 18 = n at *
  have hsp : ∀ f, '.' ∉ f → fromText (intText (-(q : Int)) ++ '.' :: f) =
      (do let a ← mulI (-(q : Int)) ONE; addFraction a f) := by
    intro f hf
    unfold fromText
    rw [splitDots_app (intText_noDot _), splitDots_none hf]
    have hp : parseInt (intText (-(q : Int))) = .ok (-(q : Int)) := by
      apply intText_parse
      have := hm.1
      simp only [InI128, I128_MIN, I128_MAX] at this ⊢
      omega
    simp only [hp]; rfl
  obtain ⟨k, hk⟩ := trim_split (padZeros 18 ('-' :: natText n))
  have hdig := natText_digits n
  have hminus : '-' ∈ trimZeros (padZeros 18 ('-' :: natText n)) := by
    have : '-' ∈ padZeros 18 ('-' :: natText n) := by unfold padZeros; simp
    rw [hk] at this
    rcases List.mem_append.mp this with h | h
    · exact h
    · have := List.eq_of_mem_replicate h; simp at this
  have hdot : '.' ∉ trimZeros (padZeros 18 ('-' :: natText n)) := by
    intro h
    have : '.' ∈ padZeros 18 ('-' :: natText n) := by rw [hk]; exact List.mem_append_left _ h
    unfold padZeros at this
    rcases List.mem_append.mp this with h | h
    · have := List.eq_of_mem_replicate h; simp at this
    · rcases List.mem_cons.mp h with h | h
      · simp at h
      · exact digits_noDot hdig.2 h
  rw [ht, hsp _ hdot]
  have small : n < 10 ^ 16 → ∀ a, ∃ e, addFraction a (trimZeros (padZeros 18 ('-' :: natText n))) = .error e := by
    intro hs a
    have hl : (natText n).length ≤ 16 := (Nat.length_toDigits_le_iff (by decide) (by decide)).mpr hs
    have hp : padZeros 18 ('-' :: natText n) = '0' :: (List.replicate (16 - (natText n).length) '0' ++ '-' :: natText n) := by
      unfold padZeros
      rw [show 18 - ('-' :: natText n).length = (16 - (natText n).length) + 1 by simp only [List.length_cons]; omega,
        List.replicate_succ]; rfl
    generalize trimZeros (padZeros 18 ('-' :: natText n)) = f at *
    cases f with
    | nil => simp at hminus
    | cons c l =>
      rw [hp] at hk
      simp only [List.cons_append, List.cons.injEq] at hk
      obtain ⟨rfl, hk⟩ := hk
      have hml : '-' ∈ l := by
        rcases List.mem_cons.mp hminus with h | h
        · simp at h
        · exact h
      obtain ⟨e, he⟩ := digitsFrom_not (l := '0' :: l) (acc := 0) (List.mem_cons_of_mem _ hml) (by decide)
      have : parseInt ('0' :: l) = .error e := by
        unfold parseInt
        split
        · rename_i e; simp at e
        · rename_i e; simp at e
        · simp only [parseDigits, he]; rfl
      exact ⟨e, by unfold addFraction; simp only [this]; rfl⟩
  have err : ∀ f, (∀ a, ∃ e, addFraction a f = .error e) →
      ∃ e, (do let a ← mulI (-(q : Int)) ONE; addFraction a f) = .error e := by
    intro f hf
    cases ha : mulI (-(q : Int)) ONE with
    | error e => exact ⟨e, rfl⟩
    | ok a => obtain ⟨e, he⟩ := hf a; exact ⟨e, he⟩
  refine ⟨?_, fun hs => err _ (small hs)⟩
  rcases hr with hr | hr
  · obtain ⟨e, he⟩ := err _ (small hr)
    rw [he]; simp
  · intro hok
    simp only [bind_ok, mulI_ok] at hok
    obtain ⟨_, ⟨_, rfl⟩, hok⟩ := hok
    have hl : (natText n).length = 18 := by
      have h1 : (natText n).length ≤ 18 := (Nat.length_toDigits_le_iff (by decide) (by decide)).mpr hlt
      have h2 : ¬ (natText n).length ≤ 17 := by
        intro h
        have := (Nat.length_toDigits_le_iff (n := n) (k := 17) (b := 10) (by decide) (by decide)).mp h
        omega
      omega
    have hp : padZeros 18 ('-' :: natText n) = '-' :: natText n := by
      unfold padZeros; simp [hl]
    rw [hp] at hk hok hminus
    generalize trimZeros ('-' :: natText n) = f at *
    cases f with
    | nil => simp at hminus
    | cons c g =>
      simp only [List.cons_append, List.cons.injEq] at hk
      obtain ⟨rfl, hk⟩ := hk
      have hnum : number g * 10 ^ k = n := by
        rw [← number_append_zeros, ← hk, number_natText]
      have hgd : Digits g := by
        refine ⟨?_, fun c hc => hdig.2 c (by rw [hk]; exact List.mem_append_left _ hc)⟩
        rintro rfl; simp [number] at hnum; omega
      have hlen : g.length + k = 18 := by
        have := congrArg List.length hk
        rw [List.length_append, List.length_replicate, hl] at this
        omega
      unfold addFraction at hok
      simp only [bind_ok, req_ok, mulI_ok, addI_ok, pow10, i128_ok] at hok
      obtain ⟨fr, k1, _, k2, _, ⟨_, rfl⟩, _, ⟨_, rfl⟩, _, k3⟩ := hok
      have hfr : fr = -(number g : Int) := by
        simp only [parseInt, parseDigits_of hgd, bind_ok, req_ok, ok_inj] at k1
        obtain ⟨_, rfl, _, _, rfl⟩ := k1
        rfl
      simp only [List.length_cons] at k2 k3
      obtain ⟨j, rfl⟩ : ∃ j, k = j + 1 := ⟨k - 1, by omega⟩
      rw [show 18 - (g.length + 1) = j by omega, hfr, hone] at k3
      rw [pow_succ, ← mul_assoc] at hnum
      have hpos : 0 < number g * 10 ^ j := by
        rcases Nat.eq_zero_or_pos (number g * 10 ^ j) with h | h
        · rw [h] at hnum; omega
        · exact h
      have e1 : -(number g : Int) * 10 ^ j = -((number g * 10 ^ j : Nat) : Int) := by push_cast; ring
      rw [e1] at k3
      omega

/-- **C82**, what fails: two different decimals, -0.5 and -0.05, have the same text `0.-5`; the
text of -1.5 is `1.-5` with a leading sign, and reads back as -1.05; and `-1.5` itself is read as -0.5. -/
theorem C82_negative_wrong :
    toText (-500000000000000000) = toText (-50000000000000000) ∧
    toText (-500000000000000000) = "0.-5".toList ∧
    toText (-1500000000000000000) = "-1.-5".toList ∧
    fromText (toText (-1500000000000000000)) = .ok (-1050000000000000000) ∧
    fromText "-1.5".toList = .ok (-500000000000000000) := by
  decide +kernel

/-- **C82**, what fails: a text `-w.f` is read as `-w + f`, not as `-(w + f)`. -/
theorem C82_negative_text {w f : List Char} (hw : Digits w) (hf : Digits f) (hl : f.length ≤ 18)
    (h : -((number w : Int) * ONE) ≥ I128_MIN) :
    fromText ('-' :: w ++ '.' :: f) = .ok (-((number w : Int) * ONE) + (number f : Int) * 10 ^ (18 - f.length)) := by
  unfold fromText
  have hnd : '.' ∉ '-' :: w := by
    intro hm
    rcases List.mem_cons.mp hm with h | h
    · simp at h
    · exact digits_noDot hw.2 h
  rw [splitDots_app hnd, splitDots_none (digits_noDot hf.2)]
  have hw0 : (0 : Int) ≤ number w := by omega
  have hwI : -(number w : Int) ≥ I128_MIN := by simp only [ONE] at h; omega
  simp only [parseInt_neg hw hwI]
  have hnf : number f * 10 ^ (18 - f.length) < 10 ^ 18 := by
    have hb : ∀ (l : List Char), (∀ c ∈ l, c.isDigit = true) → number l < 10 ^ l.length := by
      intro l hl
      induction l using List.reverseRecOn with
      | nil => simp [number]
      | append_singleton l c ih =>
        have h1 := ih (fun d hd => hl d (List.mem_append_left _ hd))
        have hc := Char.isDigit_iff_toNat.mp (hl c (by simp))
        unfold number at h1 ⊢
        rw [Nat.ofDigitChars_append, Nat.ofDigitChars_cons, Nat.ofDigitChars_nil, List.length_append, List.length_singleton, pow_succ]
        have : '0'.toNat = 48 := rfl
        have : '9'.toNat = 57 := rfl
        omega
    have h1 := hb f hf.2
    calc number f * 10 ^ (18 - f.length) < 10 ^ f.length * 10 ^ (18 - f.length) :=
          Nat.mul_lt_mul_of_pos_right h1 (by positivity)
      _ = 10 ^ 18 := by rw [← pow_add]; congr 1; omega
  have hnf' : (number f : Int) * 10 ^ (18 - f.length) < 10 ^ 18 := by exact_mod_cast hnf
  have hnf0 : (0 : Int) ≤ (number f : Int) * 10 ^ (18 - f.length) := by positivity
  have hmul : mulI (-(number w : Int)) ONE = .ok (-((number w : Int) * ONE)) := by
    rw [mulI_ok]
    refine ⟨⟨?_, ?_⟩, by ring⟩
    · rw [show -(number w : Int) * ONE = -((number w : Int) * ONE) by ring]; exact h
    · simp only [ONE, I128_MAX]; omega
  show (do let a ← mulI (-(number w : Int)) ONE; addFraction a f) = _
  rw [hmul]
  show addFraction _ f = _
  unfold addFraction
  simp only [bind_ok, req_ok, mulI_ok, addI_ok]
  have hp : (1 : Int) ≤ 10 ^ (18 - f.length) := one_le_pow₀ (by decide)
  have hn : (number f : Int) ≤ (number f : Int) * 10 ^ (18 - f.length) := le_mul_of_one_le_right (by omega) hp
  generalize hX : (number f : Int) * 10 ^ (18 - f.length) = X at *
  have h18 : (10 : Int) ^ 18 = 1000000000000000000 := by norm_num
  refine ⟨_, parseInt_of hf ?_, (), hl, _, pow10_of (by omega), X, ⟨?_, hX⟩, ?_, rfl⟩
  · simp only [I128_MAX]; omega
  · simp only [InI128, I128_MIN, I128_MAX]; omega
  · simp only [InI128, I128_MIN, I128_MAX, ONE] at h ⊢; omega
example : fromText ('-' :: ['2'] ++ '.' :: ['2', '5']) = .ok (-1750000000000000000) := by decide +kernel

end Phoenix.Props
