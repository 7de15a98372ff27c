import Verif.Model.Decimal
import Verif.Model.Decimal256
import Verif.Lemmas.Basic
import Verif.Spec.Decimal
import Mathlib.Algebra.Order.Floor.Semifield
import Mathlib.Tactic.Linarith
import Mathlib.Tactic.Ring
import Mathlib.Tactic.FieldSimp
import Mathlib.Tactic.NormNum
import Mathlib.Tactic.Positivity
/-!
Property C91: the 256-bit fixed point numbers.
-/
namespace Phoenix.Props.Decimal256
open Phoenix Phoenix.Dec256 Phoenix.Dec256.Spec

theorem cut_div {a b : Nat} {q : ℚ} (h : q * 10 ^ 18 = (a : ℚ) / b) : cut q = a / b := by
  unfold cut; rw [h, Nat.floor_div_eq_div]

theorem val_nonneg (a : Nat) : 0 ≤ val a := by unfold val; positivity
theorem val_mono {a b : Nat} : val a ≤ val b ↔ a ≤ b := by
  unfold val; rw [div_le_div_iff_of_pos_right (by norm_num)]; exact_mod_cast Iff.rfl
theorem val_inj {a b : Nat} : val a = val b ↔ a = b := by
  unfold val; rw [div_left_inj' (by norm_num)]; exact_mod_cast Iff.rfl
theorem val_ONE : val ONE = 1 := by unfold val; norm_num [ONE]
theorem ONE_eq : ((ONE : Nat) : ℚ) = 10 ^ 18 := by norm_num [ONE]

/-- **C91** The rounding used below: never upwards, and by less than one unit. -/
theorem C91_cut_error {q : ℚ} (h : 0 ≤ q) : val (cut q) ≤ q ∧ q - 1 / 10 ^ 18 < val (cut q) := by
  unfold val cut
  have h1 := Nat.floor_le (show 0 ≤ q * 10 ^ 18 by positivity)
  have h2 := Nat.lt_floor_add_one (q * 10 ^ 18)
  constructor
  · rw [div_le_iff₀ (by norm_num)]; exact h1
  · rw [lt_div_iff₀ (by norm_num), sub_mul]
    norm_num at *; linarith

/-- **C91** Addition and subtraction are exact; they fail exactly when the result is not a 256-bit
number. -/
theorem C91_add_sub (a b r : Nat) :
    (Dec256.add a b = .ok r ↔ a + b < U256_LIM ∧ val r = val a + val b) ∧
    (Dec256.sub a b = .ok r ↔ b ≤ a ∧ val r = val a - val b) := by
  constructor
  · unfold Dec256.add
    rw [add256_ok]
    have : val r = val a + val b ↔ a + b = r := by
      rw [← sub_eq_zero]; unfold val; rw [← add_div, ← sub_div, div_eq_zero_iff]
      simp only [sub_eq_zero]; norm_num
      exact ⟨fun h => by exact_mod_cast h.symm, fun h => by exact_mod_cast h.symm⟩
    rw [this]
  · unfold Dec256.sub
    rw [subU_ok]
    constructor
    · rintro ⟨h, rfl⟩; refine ⟨h, ?_⟩
      unfold val; rw [Nat.cast_sub h, sub_div]
    · rintro ⟨h, e⟩; refine ⟨h, ?_⟩
      rw [← val_inj, e]; unfold val; rw [Nat.cast_sub h, sub_div]

/-- **C91** `from_ratio(n, d)` is n/d cut to 18 digits. -/
theorem C91_from_ratio (n d r : Nat) :
    Dec256.fromRatio n d = .ok r ↔ d ≠ 0 ∧ n * 10 ^ 18 < U256_LIM ∧ r = cut ((n : ℚ) / d) := by
  unfold Dec256.fromRatio
  have e : cut ((n : ℚ) / d) = n * ONE / d := cut_div (by rw [Nat.cast_mul, ONE_eq]; ring)
  rw [e]
  simp only [bind_ok, req_ok, mul256_ok, divU_ok]
  constructor
  · rintro ⟨_, h1, _, ⟨h2, rfl⟩, -, rfl⟩; exact ⟨h1, h2, rfl⟩
  · rintro ⟨h1, h2, rfl⟩; exact ⟨(), h1, _, ⟨h2, rfl⟩, h1, rfl⟩

/-- **C91** The quotient of two decimals, cut to 18 digits. -/
theorem C91_div (a b r : Nat) : Dec256.div a b = .ok r ↔ b ≠ 0 ∧ a * 10 ^ 18 < U256_LIM ∧ r = cut (val a / val b) := by
  unfold Dec256.div
  rw [C91_from_ratio]
  have : (a : ℚ) / b = val a / val b := by unfold val; rw [div_div_div_cancel_right₀ (by norm_num)]
  rw [this]

/-- **C91** The product of two decimals, cut to 18 digits; it fails exactly when the product of the
raw numbers does not fit. -/
theorem C91_mul (a b r : Nat) : Dec256.mul a b = .ok r ↔ a * b < U256_LIM ∧ r = cut (val a * val b) := by
  unfold Dec256.mul
  have e : cut (val a * val b) = a * b / ONE := cut_div (by rw [Nat.cast_mul, ONE_eq]; unfold val; field_simp)
  rw [e]
  simp only [bind_ok, mul256_ok, divU_ok]
  constructor
  · rintro ⟨_, ⟨h, rfl⟩, -, rfl⟩; exact ⟨h, rfl⟩
  · rintro ⟨h, rfl⟩; exact ⟨_, ⟨h, rfl⟩, by decide, rfl⟩

/-- **C91** Division by an integer, rounded down; it fails only for zero. -/
theorem C91_div_int (a b r : Nat) : Dec256.divInt a b = .ok r ↔ b ≠ 0 ∧ r = cut (val a / b) := by
  unfold Dec256.divInt
  have e : cut (val a / b) = a / b := cut_div (by unfold val; field_simp)
  rw [divU_ok, e]
  exact and_congr Iff.rfl ⟨Eq.symm, Eq.symm⟩

/-- **C91** `inv` is the reciprocal cut to 18 digits, `None` for zero. -/
theorem C91_inv (d : Nat) : (d = 0 ∧ Dec256.inv d = .ok none) ∨ (d ≠ 0 ∧ Dec256.inv d = .ok (some (cut (1 / val d)))) := by
  by_cases hd : d = 0
  · subst hd; exact .inl ⟨rfl, rfl⟩
  · right; refine ⟨hd, ?_⟩
    unfold Dec256.inv
    rw [if_neg hd]
    have e : cut (1 / val d) = 1000000000000000000000000000000000000 / d :=
      cut_div (by unfold val; rw [one_div_div]; push_cast; ring)
    simp only [bind_ok, divU_ok, ok_inj, e]
    exact ⟨_, ⟨hd, rfl⟩, rfl⟩

/-- **C91** `percent`, `permille` and `bps` of a u64 are exact and never fail. -/
theorem C91_units {x : Nat} (hx : x < U64_LIM) :
    (∃ r, Dec256.percent x = .ok r ∧ val r = (x : ℚ) / 100) ∧ (∃ r, Dec256.permille x = .ok r ∧ val r = (x : ℚ) / 1000) ∧
    (∃ r, Dec256.bps x = .ok r ∧ val r = (x : ℚ) / 10000) := by
  simp only [U64_LIM] at hx
  refine ⟨⟨x * 10000000000000000, ?_, ?_⟩, ⟨x * 1000000000000000, ?_, ?_⟩, ⟨x * 100000000000000, ?_, ?_⟩⟩
  · unfold Dec256.percent; rw [mul128_ok]; exact ⟨by simp only [U128_LIM]; omega, rfl⟩
  · unfold val; push_cast; ring
  · unfold Dec256.permille; rw [mul128_ok]; exact ⟨by simp only [U128_LIM]; omega, rfl⟩
  · unfold val; push_cast; ring
  · unfold Dec256.bps; rw [mul128_ok]; exact ⟨by simp only [U128_LIM]; omega, rfl⟩
  · unfold val; push_cast; ring

theorem pow10_in {n : Nat} : (10 : Nat) ^ n < U256_LIM ↔ n ≤ 77 := by
  constructor
  · intro h
    by_contra hn
    have : (10 : Nat) ^ 78 ≤ 10 ^ n := Nat.pow_le_pow_right (by norm_num) (by omega)
    have h2 : U256_LIM < 10 ^ 78 := by decide
    omega
  · intro hn
    have h1 : (10 : Nat) ^ n ≤ 10 ^ 77 := Nat.pow_le_pow_right (by norm_num) hn
    have h2 : 10 ^ 77 < U256_LIM := by decide
    omega

theorem pow10u_in {n : Nat} : (10 : Nat) ^ n < U128_LIM ↔ n ≤ 38 := by
  constructor
  · intro h
    by_contra hn
    have : (10 : Nat) ^ 39 ≤ 10 ^ n := Nat.pow_le_pow_right (by norm_num) (by omega)
    have h2 : U128_LIM < 10 ^ 39 := by decide
    omega
  · intro hn
    have h1 : (10 : Nat) ^ n ≤ 10 ^ 38 := Nat.pow_le_pow_right (by norm_num) hn
    have h2 : 10 ^ 38 < U128_LIM := by decide
    omega

/-- **C91** `to_u128_with_precision(p)`: the number times 10ᵖ, rounded down; it works for −20 ≤ p ≤ 18
and numbers whose raw value fits in 128 bits, and fails otherwise. -/
theorem C91_to_precision (d : Nat) (p : Int) (r : Nat) :
    Dec256.toPrecision d p = .ok r ↔ d < U128_LIM ∧ -20 ≤ p ∧ p ≤ 18 ∧ r = ⌊val d * (10 : ℚ) ^ p⌋₊ := by
  unfold Dec256.toPrecision Dec256.atomics Dec256.unwrap
  by_cases hd : d < U128_LIM
  · rw [if_pos hd]
    by_cases hp : p ≤ 18
    · have e : ⌊val d * (10 : ℚ) ^ p⌋₊ = d / 10 ^ (18 - p).toNat := by
        rw [← Nat.floor_div_eq_div (K := ℚ)]; congr 1; unfold val; push_cast
        have h1 : (10 : ℚ) ^ (18 - p).toNat = (10 : ℚ) ^ ((18 : Int) - p) := by
          rw [← zpow_natCast]; congr 1; omega
        rw [h1, zpow_sub₀ (by norm_num)]
        have : (10 : ℚ) ^ p ≠ 0 := zpow_ne_zero _ (by norm_num)
        field_simp
      rw [e]
      simp only [bind_ok, ok_inj, exists_eq_left', if_pos hp, Dec256.pow10u, u128_ok, pow10u_in, divU_ok]
      constructor
      · rintro ⟨_, ⟨h1, rfl⟩, -, rfl⟩; exact ⟨hd, by omega, hp, rfl⟩
      · rintro ⟨-, h1, -, rfl⟩; exact ⟨_, ⟨by omega, rfl⟩, by positivity, rfl⟩
    · simp only [bind_ok, ok_inj, exists_eq_left', if_neg hp, error_ne_ok, false_iff]
      omega
  · rw [if_neg hd]
    simp only [bind_ok, error_ne_ok, false_and, exists_false, false_iff]
    exact fun h => hd h.1

/-- **C91** `from_atomics(a, p)`: a·10⁻ᵖ cut to 18 digits; it fails exactly when the power of ten or
the product is not a 256-bit number. -/
theorem C91_from_atomics (a : Nat) (p : Int) (r : Nat) :
    Dec256.fromAtomics a p = .ok r ↔ -59 ≤ p ∧ p ≤ 95 ∧ (p < 18 → a * 10 ^ (18 - p).toNat < U256_LIM) ∧
      r = cut ((a : ℚ) * (10 : ℚ) ^ (-p)) := by
  have ez : ∀ n : Nat, ((10 : ℚ) ^ n) = (10 : ℚ) ^ (n : Int) := fun n => (zpow_natCast _ _).symm
  unfold Dec256.fromAtomics
  split
  · rename_i hp
    have e : cut ((a : ℚ) * (10 : ℚ) ^ (-p)) = a * 10 ^ (18 - p).toNat := by
      have : cut ((a : ℚ) * (10 : ℚ) ^ (-p)) = (a * 10 ^ (18 - p).toNat) / 1 := by
        refine cut_div ?_
        push_cast
        rw [ez (18 - p).toNat, Int.toNat_of_nonneg (by omega), sub_eq_add_neg, zpow_add₀ (by norm_num)]
        simp only [div_one]; ring_nf
      rw [this, Nat.div_one]
    simp only [bind_ok, Dec256.pow10, u256_ok, pow10_in, mul256_ok, e]
    constructor
    · rintro ⟨_, ⟨h1, rfl⟩, h2, rfl⟩; exact ⟨by omega, by omega, fun _ => h2, rfl⟩
    · rintro ⟨h1, -, h2, rfl⟩; exact ⟨_, ⟨by omega, rfl⟩, h2 hp, rfl⟩
  · split
    · rename_i h1 h2
      subst h2
      have e : cut ((a : ℚ) * (10 : ℚ) ^ (-18 : Int)) = a := by
        have : cut ((a : ℚ) * (10 : ℚ) ^ (-18 : Int)) = a / 1 := by
          refine cut_div ?_
          rw [mul_assoc]; norm_num
        rw [this, Nat.div_one]
      rw [ok_inj, e]
      constructor
      · rintro rfl; exact ⟨by norm_num, by norm_num, fun h => absurd h (by norm_num), rfl⟩
      · rintro ⟨-, -, -, rfl⟩; rfl
    · rename_i h1 h2
      have e : cut ((a : ℚ) * (10 : ℚ) ^ (-p)) = a / (10 ^ (p - 18).toNat) := by
        refine cut_div ?_
        push_cast
        rw [ez (p - 18).toNat, Int.toNat_of_nonneg (by omega), div_eq_mul_inv, ← zpow_neg, neg_sub, sub_eq_add_neg, zpow_add₀ (by norm_num)]
        ring_nf
      simp only [bind_ok, Dec256.pow10, u256_ok, pow10_in, divU_ok, e]
      constructor
      · rintro ⟨_, ⟨h1, rfl⟩, _, rfl⟩; exact ⟨by omega, by omega, fun h => absurd h (by omega), rfl⟩
      · rintro ⟨-, h3, -, rfl⟩
        exact ⟨_, ⟨by omega, rfl⟩, by positivity, rfl⟩

/-- **C91** `abs_diff` is the distance; it fails unless both raw numbers fit in 128 bits. -/
theorem C91_abs_diff (a b r : Nat) :
    Dec256.absDiff a b = .ok r ↔ a < U128_LIM ∧ b < U128_LIM ∧ val r = |val a - val b| := by
  have e : val r = |val a - val b| ↔ (if a ≤ b then b - a else a - b) = r := by
    rw [eq_comm (b := r), ← val_inj]
    split
    · rename_i h
      have hv := val_mono.mpr h
      rw [abs_sub_comm, abs_of_nonneg (by linarith)]
      unfold val; rw [Nat.cast_sub h, sub_div]
    · rename_i h
      have h : b ≤ a := by omega
      have hv := val_mono.mpr h
      rw [abs_of_nonneg (by linarith)]
      unfold val; rw [Nat.cast_sub h, sub_div]
  rw [e]
  have un : ∀ {d x : Nat}, Dec256.unwrap (Dec256.atomics d) = .ok x ↔ d < U128_LIM ∧ d = x := by
    intro d x
    unfold Dec256.atomics
    split
    · rename_i h; simp [Dec256.unwrap, h]
    · rename_i h; simp [Dec256.unwrap, h]
  unfold Dec256.absDiff
  simp only [bind_ok, un, ok_inj]
  constructor
  · rintro ⟨_, ⟨h1, rfl⟩, _, ⟨h2, rfl⟩, h3⟩; exact ⟨h1, h2, h3⟩
  · rintro ⟨h1, h2, h3⟩; exact ⟨_, ⟨h1, rfl⟩, _, ⟨h2, rfl⟩, h3⟩

/-- **C91** `multiply_ratio` (private, used by no code) does not compute a·n/d: its result is 10¹⁸ times
as large. -/
theorem C91_multiply_ratio_off {a n d r : Nat} (h : Dec256.multiplyRatio a n d = .ok r) :
    r = cut (10 ^ 18 * (val a * val n / val d)) := by
  unfold Dec256.multiplyRatio at h
  simp only [bind_ok, mul256_ok, C91_from_ratio] at h
  obtain ⟨_, ⟨-, rfl⟩, hd, -, rfl⟩ := h
  congr 1
  unfold val
  have : (d : ℚ) ≠ 0 := by exact_mod_cast hd
  push_cast; field_simp

/-! ### Powers -/

theorem mul_facts {a b r : Nat} (h : Dec256.mul a b = .ok r) :
    val r ≤ val a * val b ∧ val a * val b - 1 / 10 ^ 18 < val r := by
  obtain ⟨-, rfl⟩ := (C91_mul a b r).mp h
  exact C91_cut_error (mul_nonneg (val_nonneg a) (val_nonneg b))

theorem mul_mono {a b a' b' r r' : Nat} (h1 : a ≤ a') (h2 : b ≤ b') (h : Dec256.mul a b = .ok r)
    (h' : Dec256.mul a' b' = .ok r') : r ≤ r' := by
  unfold Dec256.mul at h h'
  simp only [bind_ok, mul256_ok, divU_ok] at h h'
  obtain ⟨_, ⟨-, rfl⟩, -, rfl⟩ := h
  obtain ⟨_, ⟨-, rfl⟩, -, rfl⟩ := h'
  exact Nat.div_le_div_right (Nat.mul_le_mul h1 h2)

theorem powLoop_le (x y n : Nat) : ∀ {r : Nat}, 1 ≤ n → Dec256.powLoop x y n = .ok r → val r ≤ val x ^ n * val y := by
  induction n using Nat.strong_induction_on generalizing x y with
  | _ n ih =>
    intro r hn h
    unfold Dec256.powLoop at h
    split at h
    · have : n = 1 := by omega
      subst this
      rw [pow_one]; exact (mul_facts h).1
    · split at h
      · rename_i h1 h2
        rw [bind_ok] at h
        obtain ⟨x', hx', h⟩ := h
        obtain ⟨k2, -⟩ := mul_facts hx'
        refine (ih (n / 2) (by omega) x' y (by omega) h).trans ?_
        have e : val x ^ n = (val x * val x) ^ (n / 2) := by
          rw [← pow_two, ← pow_mul]; congr 1; omega
        rw [e]
        exact mul_le_mul_of_nonneg_right (pow_le_pow_left₀ (val_nonneg _) k2 _) (val_nonneg _)
      · rename_i h1 h2
        simp only [bind_ok] at h
        obtain ⟨y', hy', x', hx', h⟩ := h
        obtain ⟨k2, -⟩ := mul_facts hx'
        obtain ⟨j2, -⟩ := mul_facts hy'
        refine (ih ((n - 1) / 2) (by omega) x' y' (by omega) h).trans ?_
        have e : val x ^ n * val y = (val x * val x) ^ ((n - 1) / 2) * (val x * val y) := by
          rw [← pow_two, ← pow_mul]
          have : n = 2 * ((n - 1) / 2) + 1 := by omega
          conv_lhs => rw [this, pow_succ]
          ring
        rw [e]
        exact mul_le_mul (pow_le_pow_left₀ (val_nonneg _) k2 _) j2 (val_nonneg _)
          (pow_nonneg (mul_nonneg (val_nonneg _) (val_nonneg _)) _)

theorem powLoop_mono (x y x2 y2 n : Nat) : ∀ {r r2 : Nat}, x ≤ x2 → y ≤ y2 →
    Dec256.powLoop x y n = .ok r → Dec256.powLoop x2 y2 n = .ok r2 → r ≤ r2 := by
  induction n using Nat.strong_induction_on generalizing x y x2 y2 with
  | _ n ih =>
    intro r r2 hxx hyy h h2
    unfold Dec256.powLoop at h h2
    split at h
    · rename_i hn
      rw [if_pos hn] at h2
      exact mul_mono hxx hyy h h2
    · rename_i hn
      rw [if_neg hn] at h2
      split at h
      · rename_i he
        rw [if_pos he, bind_ok] at h2
        rw [bind_ok] at h
        obtain ⟨x', hx', h⟩ := h
        obtain ⟨x2', hx2', h2⟩ := h2
        exact ih (n / 2) (by omega) x' y x2' y2 (mul_mono hxx hxx hx' hx2') hyy h h2
      · rename_i he
        rw [if_neg he] at h2
        simp only [bind_ok] at h h2
        obtain ⟨y', hy', x', hx', h⟩ := h
        obtain ⟨y2', hy2', x2', hx2', h2⟩ := h2
        exact ih ((n - 1) / 2) (by omega) x' y' x2' y2' (mul_mono hxx hxx hx' hx2') (mul_mono hxx hyy hy' hy2') h h2

/-- `a` stands for `b ^ k` with an error of at most `k - 1` units. -/
def Near (b : ℚ) (k : Nat) (a : Nat) : Prop := val a ≤ b ^ k ∧ b ^ k - (k - 1) / 10 ^ 18 ≤ val a

theorem near_mul {b : ℚ} (h0 : 0 ≤ b) (h1 : b ≤ 1) {k m : Nat} {p q r : Nat} (hp : Near b k p) (hq : Near b m q)
    (h : Dec256.mul p q = .ok r) : Near b (k + m) r := by
  obtain ⟨p1, p2⟩ := hp
  obtain ⟨q1, q2⟩ := hq
  obtain ⟨r1, r2⟩ := mul_facts h
  have vp := val_nonneg p
  have vq := val_nonneg q
  have bk0 : 0 ≤ b ^ k := pow_nonneg h0 _
  have bk1 : b ^ k ≤ 1 := pow_le_one₀ h0 h1
  have bm1 : b ^ m ≤ 1 := pow_le_one₀ h0 h1
  refine ⟨?_, ?_⟩
  · rw [pow_add]; exact r1.trans (mul_le_mul p1 q1 vq bk0)
  · rw [pow_add]
    have e1 : b ^ k * b ^ m - val p * val q = b ^ k * (b ^ m - val q) + val q * (b ^ k - val p) := by ring
    have e2 : b ^ k * (b ^ m - val q) ≤ 1 * (b ^ m - val q) := mul_le_mul_of_nonneg_right bk1 (by linarith)
    have e3 : val q * (b ^ k - val p) ≤ 1 * (b ^ k - val p) := mul_le_mul_of_nonneg_right (q1.trans bm1) (by linarith)
    have e4 : ((k + m : Nat) : ℚ) - 1 = (k - 1) + (m - 1) + 1 := by push_cast; ring
    rw [e4, add_div, add_div]
    linarith

theorem mul_one' {p r : Nat} (h : Dec256.mul p ONE = .ok r) : r = p := by
  unfold Dec256.mul at h
  simp only [bind_ok, mul256_ok, divU_ok] at h
  obtain ⟨_, ⟨-, rfl⟩, -, rfl⟩ := h
  exact Nat.mul_div_cancel _ (by decide)

theorem powLoop_near {b : ℚ} (h0 : 0 ≤ b) (h1 : b ≤ 1) (n : Nat) : ∀ {x y r : Nat} {k j : Nat}, 1 ≤ n → Near b k x →
    (j = 0 ∧ y = ONE ∨ Near b j y) → Dec256.powLoop x y n = .ok r → Near b (k * n + j) r := by
  induction n using Nat.strong_induction_on with
  | _ n ih =>
    intro x y r k m hn hx hy h
    have step : ∀ {z : Nat}, Dec256.mul x y = .ok z → Near b (k + m) z := by
      intro z hz
      rcases hy with ⟨rfl, rfl⟩ | hy
      · rw [mul_one' hz]; exact hx
      · exact near_mul h0 h1 hx hy hz
    unfold Dec256.powLoop at h
    split at h
    · have : n = 1 := by omega
      subst this
      rw [Nat.mul_one]; exact step h
    · split at h
      · rename_i h2 h3
        rw [bind_ok] at h
        obtain ⟨x', hx', h⟩ := h
        have := ih (n / 2) (by omega) (k := k + k) (by omega) (near_mul h0 h1 hx hx hx') hy h
        have e : (k + k) * (n / 2) + m = k * n + m := by
          have : n = 2 * (n / 2) := by omega
          conv_rhs => rw [this]
          ring
        rwa [e] at this
      · rename_i h2 h3
        simp only [bind_ok] at h
        obtain ⟨y', hy', x', hx', h⟩ := h
        have := ih ((n - 1) / 2) (by omega) (k := k + k) (j := k + m) (by omega)
          (near_mul h0 h1 hx hx hx') (.inr (step hy')) h
        have e : (k + k) * ((n - 1) / 2) + (k + m) = k * n + m := by
          have : n = 2 * ((n - 1) / 2) + 1 := by omega
          conv_rhs => rw [this]
          ring
        rwa [e] at this

/-- **C91** `pow` never exceeds the exact power. -/
theorem C91_pow_le {x r n : Nat} (h : Dec256.pow x n = .ok r) : val r ≤ val x ^ n := by
  unfold Dec256.pow at h
  split at h
  · rename_i hn; subst hn
    rw [ok_inj] at h; subst h
    rw [val_ONE]; simp
  · have h2 := powLoop_le x ONE n (by omega) h
    rwa [val_ONE, mul_one] at h2

/-- **C91** `pow` is monotone in the base. -/
theorem C91_pow_mono {x y r s n : Nat} (hxy : x ≤ y) (h : Dec256.pow x n = .ok r) (h' : Dec256.pow y n = .ok s) : r ≤ s := by
  unfold Dec256.pow at h h'
  split at h
  · rename_i hn
    rw [if_pos hn, ok_inj] at h'
    rw [ok_inj] at h
    rw [← h, ← h']
  · rename_i hn
    rw [if_neg hn] at h'
    exact powLoop_mono x ONE y ONE n hxy le_rfl h h'

/-- **C91** For a base of at most 1 the `n`-th power is off by at most `n - 1` units of 10⁻¹⁸. -/
theorem C91_pow_error {x r n : Nat} (h1 : val x ≤ 1) (hn : 1 ≤ n) (h : Dec256.pow x n = .ok r) :
    val x ^ n - (n - 1) / 10 ^ 18 ≤ val r ∧ val r ≤ val x ^ n := by
  refine ⟨?_, C91_pow_le h⟩
  unfold Dec256.pow at h
  rw [if_neg (by omega)] at h
  have := powLoop_near (val_nonneg x) h1 n (k := 1) (j := 0) hn
    ⟨by rw [pow_one], by rw [pow_one]; norm_num⟩ (.inl ⟨rfl, rfl⟩) h
  have e : 1 * n + 0 = n := by omega
  rw [e] at this
  exact this.2

theorem mul_small {a b : Nat} (ha : a ≤ ONE) (hb : b ≤ ONE) : ∃ r, Dec256.mul a b = .ok r ∧ r ≤ ONE := by
  have h : a * b ≤ ONE * ONE := Nat.mul_le_mul ha hb
  have h1 : ONE * ONE < U256_LIM := by decide
  refine ⟨a * b / ONE, ?_, ?_⟩
  · unfold Dec256.mul
    simp only [bind_ok, mul256_ok, divU_ok]
    exact ⟨_, ⟨by omega, rfl⟩, by decide, rfl⟩
  · calc a * b / ONE ≤ ONE * ONE / ONE := Nat.div_le_div_right h
      _ = ONE := Nat.mul_div_cancel _ (by decide)

theorem powLoop_works (x y n : Nat) : x ≤ ONE → y ≤ ONE → ∃ r, Dec256.powLoop x y n = .ok r := by
  induction n using Nat.strong_induction_on generalizing x y with
  | _ n ih =>
    intro hx hy
    unfold Dec256.powLoop
    split
    · obtain ⟨r, hr, -⟩ := mul_small hx hy; exact ⟨r, hr⟩
    · obtain ⟨x', ex, hx'⟩ := mul_small hx hx
      split
      · obtain ⟨r, hr⟩ := ih (n / 2) (by omega) x' y hx' hy
        exact ⟨r, by rw [bind_ok]; exact ⟨_, ex, hr⟩⟩
      · obtain ⟨y', ey, hy'⟩ := mul_small hx hy
        obtain ⟨r, hr⟩ := ih ((n - 1) / 2) (by omega) x' y' hx' hy'
        exact ⟨r, by simp only [bind_ok]; exact ⟨_, ey, _, ex, hr⟩⟩

/-- **C91** A power of a number of at most 1 never fails. -/
theorem C91_pow_answers {x : Nat} (h : val x ≤ 1) (n : Nat) : ∃ r, Dec256.pow x n = .ok r := by
  have hx : x ≤ ONE := by rw [← val_ONE] at h; exact val_mono.mp h
  unfold Dec256.pow
  split
  · exact ⟨_, rfl⟩
  · exact powLoop_works x ONE n hx le_rfl

/-! ### The two kinds of decimals agree -/

theorem lim_of_i128 {a : Nat} (h : InI128 (a : Int)) : a < U256_LIM := by
  unfold InI128 at h
  simp only [I128_MAX, I128_MIN, U256_LIM] at *
  omega

theorem mul_agrees {a b r : Nat} (h : Dec.mul a b = .ok (r : Int)) : Dec256.mul a b = .ok r := by
  unfold Dec.mul at h
  unfold Dec256.mul
  simp only [bind_ok, mulI_ok, divI_ok, mul256_ok, divU_ok] at *
  obtain ⟨_, ⟨h1, rfl⟩, -, -, h2⟩ := h
  rw [Int.tdiv_eq_ediv_of_nonneg (by positivity)] at h2
  refine ⟨_, ⟨lim_of_i128 (by exact_mod_cast h1), rfl⟩, by decide, ?_⟩
  have : ((a * b / ONE : Nat) : Int) = (a : Int) * b / Dec.ONE := by push_cast; rfl
  rw [h2] at this
  exact_mod_cast this

theorem mul_nat {a b : Nat} {z : Int} (h : Dec.mul a b = .ok z) : ∃ r : Nat, z = r := by
  unfold Dec.mul at h
  simp only [bind_ok, mulI_ok, divI_ok] at h
  obtain ⟨_, ⟨h1, rfl⟩, -, -, h2⟩ := h
  rw [Int.tdiv_eq_ediv_of_nonneg (by positivity)] at h2
  exact ⟨z.toNat, by rw [Int.toNat_of_nonneg]; rw [← h2]; exact Int.ediv_nonneg (by positivity) (by decide)⟩

theorem powLoop_agrees (n : Nat) : ∀ {x y : Nat} {z : Int}, Dec.powLoop x y n = .ok z →
    ∃ r : Nat, z = r ∧ Dec256.powLoop x y n = .ok r := by
  induction n using Nat.strong_induction_on with
  | _ n ih =>
    intro x y z h
    unfold Dec.powLoop at h
    unfold Dec256.powLoop
    split at h
    · rename_i hn
      rw [if_pos hn]
      obtain ⟨r, rfl⟩ := mul_nat h
      exact ⟨r, rfl, mul_agrees h⟩
    · rename_i hn
      rw [if_neg hn]
      split at h
      · rename_i he
        rw [if_pos he]
        rw [bind_ok] at h
        obtain ⟨x', hx, h⟩ := h
        obtain ⟨x', rfl⟩ := mul_nat hx
        obtain ⟨r, rfl, hr⟩ := ih (n / 2) (by omega) h
        exact ⟨r, rfl, by rw [bind_ok]; exact ⟨x', mul_agrees hx, hr⟩⟩
      · rename_i he
        rw [if_neg he]
        simp only [bind_ok] at h
        obtain ⟨y', hy, x', hx, h⟩ := h
        obtain ⟨x', rfl⟩ := mul_nat hx
        obtain ⟨y', rfl⟩ := mul_nat hy
        obtain ⟨r, rfl, hr⟩ := ih ((n - 1) / 2) (by omega) h
        exact ⟨r, rfl, by simp only [bind_ok]; exact ⟨y', mul_agrees hy, x', mul_agrees hx, hr⟩⟩

/-- **C91** Where the 128-bit decimals give a result for non-negative numbers, the 256-bit ones give
the same. -/
theorem C91_extends_decimal {a b : Nat} {z : Int} (n : Nat) :
    (Dec.add a b = .ok z → Dec256.add a b = .ok z.toNat) ∧
    (Dec.mul a b = .ok z → Dec256.mul a b = .ok z.toNat) ∧
    (Dec.fromRatio a b = .ok z → Dec256.fromRatio a b = .ok z.toNat) ∧
    (Dec.div a b = .ok z → Dec256.div a b = .ok z.toNat) ∧
    (Dec.pow a n = .ok z → Dec256.pow a n = .ok z.toNat) := by
  have fr : Dec.fromRatio a b = .ok z → Dec256.fromRatio a b = .ok z.toNat := by
    intro h
    unfold Dec.fromRatio at h
    unfold Dec256.fromRatio
    simp only [bind_ok, req_ok, mulI_ok, divI_ok, mul256_ok, divU_ok] at *
    obtain ⟨_, h1, _, ⟨h2, rfl⟩, h3, -, h4⟩ := h
    have ha : (0 : Int) ≤ (a : Int) * Dec.ONE := mul_nonneg (by positivity) (by decide)
    rw [Int.tdiv_eq_ediv_of_nonneg ha] at h4
    have e : ((a * ONE / b : Nat) : Int) = (a : Int) * Dec.ONE / b := by push_cast; rfl
    rw [h4] at e
    have hb : b ≠ 0 := by exact_mod_cast h1
    exact ⟨(), hb, _, ⟨lim_of_i128 (by exact_mod_cast h2), rfl⟩, hb, by rw [← e]; exact (Int.toNat_natCast _).symm⟩
  refine ⟨fun h => ?_, fun h => ?_, fr, fr, fun h => ?_⟩
  · unfold Dec.add at h
    unfold Dec256.add
    rw [addI_ok] at h
    rw [add256_ok]
    obtain ⟨h1, rfl⟩ := h
    exact ⟨lim_of_i128 (by exact_mod_cast h1), by omega⟩
  · obtain ⟨r, rfl⟩ := mul_nat h
    exact mul_agrees h
  · unfold Dec.pow at h
    unfold Dec256.pow
    split at h
    · rename_i hn
      rw [if_pos hn]
      rw [ok_inj] at h; subst h; rfl
    · rename_i hn
      rw [if_neg hn]
      obtain ⟨r, rfl, hr⟩ := powLoop_agrees n (y := ONE) h
      exact hr

/-! Concrete cases. -/

example : Dec256.fromRatio 2 3 = .ok 666666666666666666 ∧ Dec256.mul 1500000000000000000 333333333333333333 = .ok 499999999999999999 ∧
    Dec256.mul (10 ^ 40) (10 ^ 36) = .ok (10 ^ 58) ∧ Dec256.div ONE 3000000000000000000 = .ok 333333333333333333 ∧
    Dec256.toPrecision 1999999999999999999 6 = .ok 1999999 ∧ Dec256.fromAtomics 4321 20 = .ok 43 ∧
    Dec256.pow 999999999999999999 3 = .ok 999999999999999997 ∧ Dec256.inv 3000000000000000000 = .ok (some 333333333333333333) ∧
    Dec256.mul (10 ^ 40) (10 ^ 38) = .error .overflow ∧ Dec256.toPrecision 5 19 = .error .overflow ∧
    Dec256.absDiff 3 10 = .ok 7 ∧ Dec256.absDiff (10 ^ 40) 1 = .error .panic ∧ Dec256.sub 1 2 = .error .overflow ∧
    Dec256.multiplyRatio ONE (2 * ONE) (4 * ONE) = .ok (ONE / 2 * ONE) := by
  decide +kernel

end Phoenix.Props.Decimal256
