import Verif.Model.Decimal
import Verif.Lemmas.Basic
import Verif.Spec.Decimal
import Mathlib.Tactic.Linarith
import Mathlib.Tactic.Ring
import Mathlib.Tactic.FieldSimp
import Mathlib.Tactic.NormNum
import Mathlib.Tactic.Positivity
/-!
Property theorems about fixed point arithmetic: C57.
-/
namespace Phoenix.Props.Decimal
open Phoenix Phoenix.Dec Phoenix.Dec.Spec

theorem ONE_eq : ((ONE : Int) : ℚ) = 10 ^ 18 := by norm_num [ONE]
theorem ONE_sq_eq : ((ONE_SQ : Int) : ℚ) = 10 ^ 18 * 10 ^ 18 := by norm_num [ONE_SQ]

theorem trunc_neg (q : ℚ) : trunc (-q) = - trunc q := by
  unfold trunc
  rcases lt_trichotomy q 0 with h | h | h
  · rw [if_pos (by linarith), if_neg (by linarith), Int.floor_neg]
  · subst h; simp
  · rw [if_neg (by linarith), if_pos h.le, Int.ceil_neg]

/-- Truncating integer division is the rational quotient rounded toward zero. -/
theorem trunc_div (a b : Int) : trunc ((a : ℚ) / b) = a.tdiv b := by
  have key : ∀ (a : Int) (n : Nat), 0 ≤ a → trunc ((a : ℚ) / ((n : Int) : ℚ)) = a.tdiv n := by
    intro a n ha
    have : (0 : ℚ) ≤ (a : ℚ) / ((n : Int) : ℚ) := by positivity
    unfold trunc
    rw [if_pos this, Int.tdiv_eq_ediv_of_nonneg ha]
    exact_mod_cast Rat.floor_intCast_div_natCast a n
  have k2 : ∀ (a b : Int), 0 ≤ b → trunc ((a : ℚ) / b) = a.tdiv b := by
    intro a b hb
    obtain ⟨n, rfl⟩ := Int.eq_ofNat_of_zero_le hb
    rcases le_total 0 a with ha | ha
    · exact key a n ha
    · have := key (-a) n (by omega)
      rw [Int.cast_neg, neg_div, trunc_neg, Int.neg_tdiv] at this
      exact neg_injective this
  rcases le_total 0 b with hb | hb
  · exact k2 a b hb
  · have := k2 a (-b) (by omega)
    rw [Int.cast_neg, div_neg, trunc_neg, Int.tdiv_neg] at this
    exact neg_injective this

theorem cut_div {a b : Int} {q : ℚ} (h : q * 10 ^ 18 = (a : ℚ) / b) : cut q = a.tdiv b := by
  unfold cut; rw [h, trunc_div]

theorem tdiv_in {a b : Int} (ha : InI128 a) (hb : 1 < b ∨ (b ≠ 0 ∧ a ≠ I128_MIN) ∨ b = 1) : InI128 (a.tdiv b) := by
  have h1 : (a.tdiv b).natAbs ≤ a.natAbs := by
    rw [Int.natAbs_tdiv]; exact Nat.div_le_self _ _
  unfold InI128 at *
  by_cases hm : a = I128_MIN
  · subst hm
    rcases hb with hb | hb | hb
    · have h2 : (I128_MIN.tdiv b).natAbs ≤ I128_MIN.natAbs / 2 := by
        rw [Int.natAbs_tdiv]
        exact Nat.div_le_div_left (by omega) (by decide)
      have h3 : I128_MIN.natAbs = 170141183460469231731687303715884105728 := by decide
      rw [h3] at h2
      simp only [I128_MIN, I128_MAX] at *
      omega
    · exact absurd rfl hb.2
    · subst hb; simp only [Int.tdiv_one]; exact ha
  · simp only [I128_MIN, I128_MAX] at *
    omega

/-! The rounding used in the statements below: never away from zero, and by less than one unit. -/

/-- **C57** Cutting off digits moves a number toward zero and by less than 10⁻¹⁸. -/
theorem C57_cut_error (q : ℚ) : |val (cut q)| ≤ |q| ∧ |q - val (cut q)| < 1 / 10 ^ 18 := by
  have key : ∀ q : ℚ, 0 ≤ q → 0 ≤ val (cut q) ∧ val (cut q) ≤ q ∧ q - val (cut q) < 1 / 10 ^ 18 := by
    intro q hq
    have h0 : (0 : ℚ) ≤ q * 10 ^ 18 := by positivity
    have h1 := Int.floor_le (q * 10 ^ 18)
    have h2 := Int.lt_floor_add_one (q * 10 ^ 18)
    have h3 : (0 : ℚ) ≤ (⌊q * 10 ^ 18⌋ : Int) := by exact_mod_cast Int.floor_nonneg.mpr h0
    unfold val cut trunc
    rw [if_pos h0]
    refine ⟨by positivity, ?_, ?_⟩
    · rw [div_le_iff₀ (by norm_num)]; exact h1
    · rw [sub_lt_iff_lt_add, ← add_div, lt_div_iff₀ (by norm_num)]; linarith
  rcases le_total 0 q with hq | hq
  · obtain ⟨a, b, d⟩ := key q hq
    rw [abs_of_nonneg a, abs_of_nonneg hq, abs_of_nonneg (by linarith)]
    exact ⟨b, d⟩
  · obtain ⟨a, b, d⟩ := key (-q) (by linarith)
    have e : cut (-q) = - cut q := by unfold cut; rw [neg_mul, trunc_neg]
    have e2 : val (-cut q) = - val (cut q) := by unfold val; push_cast; ring
    rw [e, e2] at a b d
    rw [abs_of_nonpos (by linarith), abs_of_nonpos hq, abs_of_nonpos (by linarith)]
    constructor <;> linarith

/-! ### Sums -/

/-- **C57** Sum and difference are exact and fail exactly when the result is not an i128. -/
theorem C57_add_sub (a b r : Int) :
    (Dec.add a b = .ok r ↔ InI128 r ∧ val r = val a + val b) ∧ (Dec.sub a b = .ok r ↔ InI128 r ∧ val r = val a - val b) := by
  have e1 : val r = val a + val b ↔ a + b = r := by
    unfold val
    rw [← add_div, div_left_inj' (by norm_num), eq_comm]; exact_mod_cast Iff.rfl
  have e2 : val r = val a - val b ↔ a - b = r := by
    unfold val
    rw [← sub_div, div_left_inj' (by norm_num), eq_comm]; exact_mod_cast Iff.rfl
  constructor
  · unfold Dec.add; rw [addI_ok, e1]
    constructor <;> rintro ⟨h, rfl⟩ <;> exact ⟨h, rfl⟩
  · unfold Dec.sub; rw [subI_ok, e2]
    constructor <;> rintro ⟨h, rfl⟩ <;> exact ⟨h, rfl⟩

/-! ### Products and quotients -/

/-- **C57** `from_ratio(n, d)` is n/d cut to 18 digits; it fails exactly when `d` is zero or `n·10¹⁸`
is not an i128. -/
theorem C57_from_ratio (n d r : Int) :
    Dec.fromRatio n d = .ok r ↔ d ≠ 0 ∧ InI128 (n * 10 ^ 18) ∧ r = cut ((n : ℚ) / d) := by
  have e : cut ((n : ℚ) / d) = (n * ONE).tdiv d := by
    refine cut_div ?_
    push_cast; rw [ONE_eq]; ring
  have o : (10 : Int) ^ 18 = ONE := by norm_num [ONE]
  rw [fromRatio_ok, e, o]
  constructor
  · rintro ⟨h1, h2, h3, rfl⟩; exact ⟨h1, h2, rfl⟩
  · rintro ⟨h1, h2, rfl⟩
    refine ⟨h1, h2, tdiv_in h2 (.inr (.inl ⟨h1, ?_⟩)), rfl⟩
    simp only [ONE, I128_MIN]; omega

/-- **C57** Division of decimals. -/
theorem C57_div (a b r : Int) : Dec.div a b = .ok r ↔ b ≠ 0 ∧ InI128 (a * 10 ^ 18) ∧ r = cut (val a / val b) := by
  unfold Dec.div
  rw [C57_from_ratio]
  have : val a / val b = (a : ℚ) / b := by
    unfold val
    by_cases hb : (b : ℚ) = 0
    · simp [hb]
    · field_simp
  rw [this]

/-- **C57** Multiplication of decimals: the product cut to 18 digits; it fails exactly when the product
of the raw numbers is not an i128. -/
theorem C57_mul (a b r : Int) : Dec.mul a b = .ok r ↔ InI128 (a * b) ∧ r = cut (val a * val b) := by
  have e : cut (val a * val b) = (a * b).tdiv ONE := by
    refine cut_div ?_
    unfold val
    push_cast; rw [ONE_eq]; field_simp
  rw [mul_ok, e]
  constructor
  · rintro ⟨h1, -, rfl⟩; exact ⟨h1, rfl⟩
  · rintro ⟨h1, rfl⟩; exact ⟨h1, tdiv_in h1 (.inl (by decide)), rfl⟩

/-- **C57** Integer times decimal, in either order: the product rounded toward zero to an integer. -/
theorem C57_mul_int (x d r : Int) : Dec.mulInt x d = .ok r ↔ InI128 (x * d) ∧ r = trunc (x * val d) := by
  have e : trunc ((x : ℚ) * val d) = (x * d).tdiv ONE := by
    rw [← trunc_div]; congr 1; unfold val; push_cast; rw [ONE_eq]; ring
  rw [e]
  unfold Dec.mulInt
  split
  · rename_i h
    have h0 : x * d = 0 := by rcases h with rfl | rfl <;> simp
    rw [h0, ok_inj]
    simp only [Int.zero_tdiv]
    constructor
    · rintro rfl; exact ⟨by decide, rfl⟩
    · rintro ⟨-, rfl⟩; rfl
  · simp only [bind_ok, mulI_ok, divI_ok]
    constructor
    · rintro ⟨_, ⟨h1, rfl⟩, _, _, rfl⟩; exact ⟨h1, rfl⟩
    · rintro ⟨h1, rfl⟩
      exact ⟨_, ⟨h1, rfl⟩, by decide, tdiv_in h1 (.inl (by decide)), rfl⟩

/-- **C57** Decimal divided by an integer. -/
theorem C57_div_int {a b r : Int} (ha : InI128 a) :
    Dec.divInt a b = .ok r ↔ b ≠ 0 ∧ ¬ (a = I128_MIN ∧ b = -1) ∧ r = cut (val a / b) := by
  have e : cut (val a / b) = a.tdiv b := by
    refine cut_div ?_
    unfold val; field_simp
  rw [e]
  unfold Dec.divInt
  rw [divI_ok]
  constructor
  · rintro ⟨h1, h2, rfl⟩
    refine ⟨h1, ?_, rfl⟩
    rintro ⟨rfl, rfl⟩; revert h2; decide
  · rintro ⟨h1, h2, rfl⟩
    refine ⟨h1, ?_, rfl⟩
    by_cases hb : b = -1
    · subst hb
      exact tdiv_in ha (.inr (.inl ⟨h1, fun h => h2 ⟨h, rfl⟩⟩))
    · have h1' : (a.tdiv b).natAbs = a.natAbs / b.natAbs := Int.natAbs_tdiv a b
      by_cases hb1 : b = 1
      · exact tdiv_in ha (.inr (.inr hb1))
      have h3 : a.natAbs / b.natAbs ≤ a.natAbs / 2 := Nat.div_le_div_left (by omega) (by decide)
      unfold InI128 at *
      simp only [I128_MIN, I128_MAX] at *
      omega

/-- **C57** `inv` is the reciprocal cut to 18 digits, or nothing for zero; it never fails. -/
theorem C57_inv (d : Int) : (d = 0 ∧ Dec.inv d = .ok none) ∨ (d ≠ 0 ∧ Dec.inv d = .ok (some (cut (1 / val d)))) := by
  unfold Dec.inv
  split
  · left; exact ⟨by assumption, rfl⟩
  · rename_i h
    right; refine ⟨h, ?_⟩
    have e : cut (1 / val d) = ONE_SQ.tdiv d := by
      refine cut_div ?_
      have : (d : ℚ) ≠ 0 := by exact_mod_cast h
      unfold val; rw [ONE_sq_eq]; field_simp
    simp only [bind_ok, divI_ok, e]
    refine ⟨_, ⟨h, ?_, rfl⟩, rfl⟩
    exact tdiv_in (by decide) (.inr (.inl ⟨h, by decide⟩))

/-! ### Conversions -/

/-- **C57** `percent`, `permille` and `bps` are exact and never fail for an i64. -/
theorem C57_units {x : Int} (hx : -9223372036854775808 ≤ x ∧ x ≤ 9223372036854775807) :
    (∃ r, Dec.percent x = .ok r ∧ val r = x / 100) ∧ (∃ r, Dec.permille x = .ok r ∧ val r = x / 1000) ∧
    (∃ r, Dec.bps x = .ok r ∧ val r = x / 10000) := by
  have key : ∀ k : Int, 0 ≤ k → k ≤ 10000000000000000 → mulI x k = .ok (x * k) := by
    intro k h1 h2
    rw [mulI_ok]
    refine ⟨?_, rfl⟩
    unfold InI128; simp only [I128_MIN, I128_MAX]
    constructor <;> nlinarith
  refine ⟨⟨_, key _ (by norm_num) (by norm_num), ?_⟩, ⟨_, key _ (by norm_num) (by norm_num), ?_⟩,
    ⟨_, key _ (by norm_num) (by norm_num), ?_⟩⟩ <;>
  · unfold val; push_cast; field_simp; norm_num; ring

theorem pow10_in {n : Nat} : InI128 ((10 : Int) ^ n) ↔ n ≤ 38 := by
  unfold InI128
  constructor
  · rintro ⟨-, h⟩
    by_contra hn
    have : (10 : Int) ^ 39 ≤ 10 ^ n := pow_le_pow_right₀ (by norm_num) (by omega)
    simp only [I128_MAX] at h
    norm_num at this; omega
  · intro hn
    have h1 : (10 : Int) ^ n ≤ 10 ^ 38 := pow_le_pow_right₀ (by norm_num) hn
    have h2 : (0 : Int) < 10 ^ n := by positivity
    simp only [I128_MIN, I128_MAX]
    norm_num at h1; omega

/-- **C57** `to_i128_with_precision(p)`: the number times 10ᵖ, rounded toward zero; it works for
−20 ≤ p ≤ 18 and fails otherwise. -/
theorem C57_to_precision {d p r : Int} (hd : InI128 d) :
    Dec.toPrecision d p = .ok r ↔ -20 ≤ p ∧ p ≤ 18 ∧ r = trunc (val d * (10 : ℚ) ^ p) := by
  unfold Dec.toPrecision
  split
  · rename_i hp
    have e : trunc (val d * (10 : ℚ) ^ p) = d.tdiv (10 ^ (18 - p).toNat) := by
      rw [← trunc_div]; congr 1; unfold val; push_cast
      have h1 : (10 : ℚ) ^ (18 - p).toNat = (10 : ℚ) ^ ((18 : Int) - p) := by
        rw [← zpow_natCast]; congr 1; omega
      rw [h1, zpow_sub₀ (by norm_num)]
      have : (10 : ℚ) ^ p ≠ 0 := zpow_ne_zero _ (by norm_num)
      field_simp
    simp only [bind_ok, Dec.pow10, i128_ok, pow10_in, divI_ok, e]
    constructor
    · rintro ⟨_, ⟨h1, rfl⟩, _, _, rfl⟩; exact ⟨by omega, hp, rfl⟩
    · rintro ⟨h1, -, rfl⟩
      have h10 : (0 : Int) < 10 ^ (18 - p).toNat := by positivity
      refine ⟨_, ⟨by omega, rfl⟩, by positivity, tdiv_in hd ?_, rfl⟩
      rcases (show (10 : Int) ^ (18 - p).toNat = 1 ∨ 1 < (10 : Int) ^ (18 - p).toNat by omega) with k | k
      · exact .inr (.inr k)
      · exact .inl k
  · rename_i hp
    simp only [error_ne_ok, false_iff]
    omega

/-- **C57** `from_atomics(a, p)`: a·10⁻ᵖ cut to 18 digits (so exactly that number for p ≤ 18); it fails
exactly when the power of ten or the product is not an i128. -/
theorem C57_from_atomics {a p r : Int} (ha : InI128 a) :
    Dec.fromAtomics a p = .ok r ↔ -20 ≤ p ∧ p ≤ 56 ∧ (p < 18 → InI128 (a * 10 ^ (18 - p).toNat)) ∧
      r = cut ((a : ℚ) * (10 : ℚ) ^ (-p)) := by
  have ez : ∀ n : Nat, ((10 : ℚ) ^ n) = (10 : ℚ) ^ (n : Int) := fun n => (zpow_natCast _ _).symm
  unfold Dec.fromAtomics
  split
  · rename_i hp
    have e : cut ((a : ℚ) * (10 : ℚ) ^ (-p)) = a * 10 ^ (18 - p).toNat := by
      have : cut ((a : ℚ) * (10 : ℚ) ^ (-p)) = (a * 10 ^ (18 - p).toNat).tdiv 1 := by
        refine cut_div ?_
        push_cast
        rw [ez (18 - p).toNat, Int.toNat_of_nonneg (by omega), sub_eq_add_neg, zpow_add₀ (by norm_num)]
        simp only [div_one]; ring_nf
      rw [this, Int.tdiv_one]
    simp only [bind_ok, Dec.pow10, i128_ok, pow10_in, mulI_ok, e]
    constructor
    · rintro ⟨_, ⟨h1, rfl⟩, h2, rfl⟩; exact ⟨by omega, by omega, fun _ => h2, rfl⟩
    · rintro ⟨h1, -, h2, rfl⟩; exact ⟨_, ⟨by omega, rfl⟩, h2 hp, rfl⟩
  · split
    · rename_i h1 h2
      subst h2
      have e : cut ((a : ℚ) * (10 : ℚ) ^ (-18 : Int)) = a := by
        have : cut ((a : ℚ) * (10 : ℚ) ^ (-18 : Int)) = a.tdiv 1 := by
          refine cut_div ?_
          rw [mul_assoc]; norm_num
        rw [this, Int.tdiv_one]
      rw [ok_inj, e]
      constructor
      · rintro rfl; exact ⟨by norm_num, by norm_num, fun h => absurd h (by norm_num), rfl⟩
      · rintro ⟨-, -, -, rfl⟩; rfl
    · rename_i h1 h2
      have e : cut ((a : ℚ) * (10 : ℚ) ^ (-p)) = a.tdiv (10 ^ (p - 18).toNat) := by
        refine cut_div ?_
        push_cast
        rw [ez (p - 18).toNat, Int.toNat_of_nonneg (by omega), div_eq_mul_inv, ← zpow_neg, neg_sub, sub_eq_add_neg, zpow_add₀ (by norm_num)]
        ring_nf
      simp only [bind_ok, Dec.pow10, i128_ok, pow10_in, divI_ok, e]
      constructor
      · rintro ⟨_, ⟨h1, rfl⟩, _, _, rfl⟩; exact ⟨by omega, by omega, fun h => absurd h (by omega), rfl⟩
      · rintro ⟨-, h3, -, rfl⟩
        have h10 : (1 : Int) < 10 ^ (p - 18).toNat := one_lt_pow₀ (by norm_num) (by omega)
        exact ⟨_, ⟨by omega, rfl⟩, by positivity, tdiv_in ha (.inl h10), rfl⟩

/-- **C57** `abs` is the absolute value; it fails only for the smallest i128. -/
theorem C57_abs {d r : Int} (hd : InI128 d) : Dec.abs d = .ok r ↔ d ≠ I128_MIN ∧ val r = |val d| := by
  have e : val r = |val d| ↔ r = |d| := by
    unfold val
    rw [abs_div, abs_of_pos (show (0 : ℚ) < 10 ^ 18 by norm_num), div_left_inj' (by norm_num)]
    exact_mod_cast Iff.rfl
  rw [e]
  unfold InI128 at hd
  unfold Dec.abs
  split
  · rename_i h
    rw [i128_ok, abs_of_neg h]
    unfold InI128
    simp only [I128_MIN, I128_MAX] at *
    constructor
    · rintro ⟨h1, rfl⟩; exact ⟨by omega, rfl⟩
    · rintro ⟨h1, rfl⟩; exact ⟨by omega, rfl⟩
  · rename_i h
    rw [ok_inj, abs_of_nonneg (by omega)]
    simp only [I128_MIN, I128_MAX] at *
    constructor
    · rintro rfl; exact ⟨by omega, rfl⟩
    · rintro ⟨-, rfl⟩; rfl

/-- **C57** `abs_diff` is the distance exactly when the distance is an i128; beyond that it wraps
around silently instead of failing. -/
theorem C57_abs_diff {a b : Int} (ha : InI128 a) (hb : InI128 b) :
    val (Dec.absDiff a b) = |val a - val b| ↔ |a - b| ≤ I128_MAX := by
  have e : val (Dec.absDiff a b) = |val a - val b| ↔ Dec.absDiff a b = |a - b| := by
    unfold val
    rw [← sub_div, abs_div, abs_of_pos (show (0 : ℚ) < 10 ^ 18 by norm_num), div_left_inj' (by norm_num)]
    exact_mod_cast Iff.rfl
  rw [e]
  unfold Dec.absDiff Dec.wrapI128
  rw [Int.abs_eq_natAbs]
  split
  · rename_i h; exact ⟨fun _ => h, fun _ => rfl⟩
  · rename_i h
    constructor
    · intro k; simp only [U128_LIM] at k; push_cast at k; omega
    · intro k; exact absurd k h

/-- **C57** For example the distance between the largest and the smallest decimal comes out as
minus one unit. -/
theorem C57_abs_diff_wraps : Dec.absDiff I128_MAX I128_MIN = -1 := by decide

/-! ### Powers -/

theorem mul_facts {a b r : Int} (ha : 0 ≤ a) (hb : 0 ≤ b) (h : Dec.mul a b = .ok r) :
    0 ≤ r ∧ val r ≤ val a * val b ∧ val a * val b - 1 / 10 ^ 18 < val r := by
  obtain ⟨-, rfl⟩ := (C57_mul a b r).mp h
  have h0 : 0 ≤ val a * val b := by unfold val; positivity
  obtain ⟨h1, h2⟩ := C57_cut_error (val a * val b)
  have h3 : 0 ≤ cut (val a * val b) := by
    unfold cut trunc
    rw [if_pos (by positivity)]
    exact Int.floor_nonneg.mpr (by positivity)
  have h4 : 0 ≤ val (cut (val a * val b)) := by unfold val; positivity
  rw [abs_of_nonneg h4, abs_of_nonneg h0] at h1
  rw [abs_of_nonneg (by linarith)] at h2
  exact ⟨h3, h1, by linarith⟩

theorem mul_mono {a b a' b' r r' : Int} (ha : 0 ≤ a) (hb : 0 ≤ b) (h1 : a ≤ a') (h2 : b ≤ b') (h : Dec.mul a b = .ok r)
    (h' : Dec.mul a' b' = .ok r') : r ≤ r' := by
  rw [mul_ok] at h h'
  obtain ⟨-, -, rfl⟩ := h
  obtain ⟨-, -, rfl⟩ := h'
  have k0 : 0 ≤ a * b := by positivity
  have k : a * b ≤ a' * b' := mul_le_mul h1 h2 hb (by omega)
  rw [Int.tdiv_eq_ediv_of_nonneg k0, Int.tdiv_eq_ediv_of_nonneg (k0.trans k)]
  exact Int.ediv_le_ediv (by decide) k

theorem val_nonneg {a : Int} (h : 0 ≤ a) : 0 ≤ val a := by unfold val; positivity
theorem val_mono {a b : Int} : val a ≤ val b ↔ a ≤ b := by
  unfold val; rw [div_le_div_iff_of_pos_right (by norm_num)]; exact_mod_cast Iff.rfl
theorem val_ONE : val ONE = 1 := by unfold val; norm_num [ONE]

theorem powLoop_le (x y : Int) (n : Nat) : ∀ {r : Int}, 0 ≤ x → 0 ≤ y → 1 ≤ n → Dec.powLoop x y n = .ok r →
    0 ≤ r ∧ val r ≤ val x ^ n * val y := by
  induction n using Nat.strong_induction_on generalizing x y with
  | _ n ih =>
    intro r hx hy hn h
    unfold Dec.powLoop at h
    split at h
    · have : n = 1 := by omega
      subst this
      obtain ⟨h1, h2, -⟩ := mul_facts hx hy h
      rw [pow_one]; exact ⟨h1, h2⟩
    · split at h
      · rename_i h1 h2
        rw [bind_ok] at h
        obtain ⟨x', hx', h⟩ := h
        obtain ⟨k1, k2, -⟩ := mul_facts hx hx hx'
        obtain ⟨m1, m2⟩ := ih (n / 2) (by omega) x' y k1 hy (by omega) h
        refine ⟨m1, m2.trans ?_⟩
        have e : val x ^ n = (val x * val x) ^ (n / 2) := by
          rw [← pow_two, ← pow_mul]; congr 1; omega
        rw [e]
        exact mul_le_mul_of_nonneg_right (pow_le_pow_left₀ (val_nonneg k1) k2 _) (val_nonneg hy)
      · rename_i h1 h2
        simp only [bind_ok] at h
        obtain ⟨y', hy', x', hx', h⟩ := h
        obtain ⟨k1, k2, -⟩ := mul_facts hx hx hx'
        obtain ⟨j1, j2, -⟩ := mul_facts hx hy hy'
        obtain ⟨m1, m2⟩ := ih ((n - 1) / 2) (by omega) x' y' k1 j1 (by omega) h
        refine ⟨m1, m2.trans ?_⟩
        have e : val x ^ n * val y = (val x * val x) ^ ((n - 1) / 2) * (val x * val y) := by
          rw [← pow_two, ← pow_mul]
          have : n = 2 * ((n - 1) / 2) + 1 := by omega
          conv_lhs => rw [this, pow_succ]
          ring
        rw [e]
        exact mul_le_mul (pow_le_pow_left₀ (val_nonneg k1) k2 _) j2 (val_nonneg j1)
          (pow_nonneg (mul_nonneg (val_nonneg hx) (val_nonneg hx)) _)

theorem powLoop_mono (x y x2 y2 : Int) (n : Nat) : ∀ {r r2 : Int}, 0 ≤ x → 0 ≤ y → x ≤ x2 → y ≤ y2 →
    Dec.powLoop x y n = .ok r → Dec.powLoop x2 y2 n = .ok r2 → r ≤ r2 := by
  induction n using Nat.strong_induction_on generalizing x y x2 y2 with
  | _ n ih =>
    intro r r2 hx hy hxx hyy h h2
    unfold Dec.powLoop at h h2
    split at h
    · rename_i hn
      rw [if_pos hn] at h2
      exact mul_mono hx hy hxx hyy h h2
    · rename_i hn
      rw [if_neg hn] at h2
      split at h
      · rename_i he
        rw [if_pos he, bind_ok] at h2
        rw [bind_ok] at h
        obtain ⟨x', hx', h⟩ := h
        obtain ⟨x2', hx2', h2⟩ := h2
        exact ih (n / 2) (by omega) x' y x2' y2 (mul_facts hx hx hx').1 hy (mul_mono hx hx hxx hxx hx' hx2') hyy h h2
      · rename_i he
        rw [if_neg he] at h2
        simp only [bind_ok] at h h2
        obtain ⟨y', hy', x', hx', h⟩ := h
        obtain ⟨y2', hy2', x2', hx2', h2⟩ := h2
        exact ih ((n - 1) / 2) (by omega) x' y' x2' y2' (mul_facts hx hx hx').1 (mul_facts hx hy hy').1
          (mul_mono hx hx hxx hxx hx' hx2') (mul_mono hx hy hxx hyy hy' hy2') h h2

/-- `a` stands for `b ^ k` with an error of at most `k - 1` units. -/
def Near (b : ℚ) (k : Nat) (a : Int) : Prop :=
  0 ≤ a ∧ val a ≤ b ^ k ∧ b ^ k - (k - 1) / 10 ^ 18 ≤ val a

theorem near_mul {b : ℚ} (h0 : 0 ≤ b) (h1 : b ≤ 1) {k m : Nat} {p q r : Int} (hk : 1 ≤ k) (hm : 1 ≤ m)
    (hp : Near b k p) (hq : Near b m q) (h : Dec.mul p q = .ok r) : Near b (k + m) r := by
  obtain ⟨p0, p1, p2⟩ := hp
  obtain ⟨q0, q1, q2⟩ := hq
  obtain ⟨r0, r1, r2⟩ := mul_facts p0 q0 h
  have vp := val_nonneg p0
  have vq := val_nonneg q0
  have bk0 : 0 ≤ b ^ k := pow_nonneg h0 _
  have bm0 : 0 ≤ b ^ m := pow_nonneg h0 _
  have bk1 : b ^ k ≤ 1 := pow_le_one₀ h0 h1
  have bm1 : b ^ m ≤ 1 := pow_le_one₀ h0 h1
  refine ⟨r0, ?_, ?_⟩
  · rw [pow_add]; exact r1.trans (mul_le_mul p1 q1 vq bk0)
  · rw [pow_add]
    have e1 : b ^ k * b ^ m - val p * val q = b ^ k * (b ^ m - val q) + val q * (b ^ k - val p) := by ring
    have e2 : b ^ k * (b ^ m - val q) ≤ 1 * (b ^ m - val q) := mul_le_mul_of_nonneg_right bk1 (by linarith)
    have e3 : val q * (b ^ k - val p) ≤ 1 * (b ^ k - val p) := mul_le_mul_of_nonneg_right (q1.trans bm1) (by linarith)
    have e4 : ((k + m : Nat) : ℚ) - 1 = (k - 1) + (m - 1) + 1 := by push_cast; ring
    rw [e4, add_div, add_div]
    linarith

theorem mul_one {p r : Int} (hp : 0 ≤ p) (h : Dec.mul p ONE = .ok r) : r = p := by
  rw [mul_ok] at h
  obtain ⟨-, -, rfl⟩ := h
  rw [Int.mul_tdiv_cancel _ (by decide)]

theorem powLoop_near {b : ℚ} (h0 : 0 ≤ b) (h1 : b ≤ 1) (n : Nat) : ∀ {x y r : Int} {k j : Nat}, 1 ≤ k → 1 ≤ n → Near b k x →
    (j = 0 ∧ y = ONE ∨ 1 ≤ j ∧ Near b j y) → Dec.powLoop x y n = .ok r → Near b (k * n + j) r := by
  induction n using Nat.strong_induction_on with
  | _ n ih =>
    intro x y r k m hk hn hx hy h
    have step : ∀ {z : Int}, Dec.mul x y = .ok z → Near b (k + m) z := by
      intro z hz
      rcases hy with ⟨rfl, rfl⟩ | ⟨hm, hy⟩
      · rw [mul_one hx.1 hz]; exact hx
      · exact near_mul h0 h1 hk hm hx hy hz
    unfold Dec.powLoop at h
    split at h
    · have : n = 1 := by omega
      subst this
      rw [Nat.mul_one]; exact step h
    · split at h
      · rename_i h2 h3
        rw [bind_ok] at h
        obtain ⟨x', hx', h⟩ := h
        have := ih (n / 2) (by omega) (k := k + k) (by omega) (by omega) (near_mul h0 h1 hk hk hx hx hx') hy h
        have e : (k + k) * (n / 2) + m = k * n + m := by
          have : n = 2 * (n / 2) := by omega
          conv_rhs => rw [this]
          ring
        rwa [e] at this
      · rename_i h2 h3
        simp only [bind_ok] at h
        obtain ⟨y', hy', x', hx', h⟩ := h
        have := ih ((n - 1) / 2) (by omega) (k := k + k) (j := k + m) (by omega) (by omega)
          (near_mul h0 h1 hk hk hx hx hx') (.inr ⟨by omega, step hy'⟩) h
        have e : (k + k) * ((n - 1) / 2) + (k + m) = k * n + m := by
          have : n = 2 * ((n - 1) / 2) + 1 := by omega
          conv_rhs => rw [this]
          ring
        rwa [e] at this

/-- **C57** `pow` of a non-negative decimal never exceeds the exact power. -/
theorem C57_pow_le {x r : Int} {n : Nat} (hx : 0 ≤ x) (h : Dec.pow x n = .ok r) : 0 ≤ r ∧ val r ≤ val x ^ n := by
  unfold Dec.pow at h
  split at h
  · rename_i hn; subst hn
    rw [ok_inj] at h; subst h
    exact ⟨by decide, by rw [val_ONE]; simp⟩
  · obtain ⟨h1, h2⟩ := powLoop_le x ONE n hx (by decide) (by omega) h
    rw [val_ONE, _root_.mul_one] at h2
    exact ⟨h1, h2⟩

/-- **C57** `pow` is monotone in the base. -/
theorem C57_pow_mono {x y r s : Int} {n : Nat} (hx : 0 ≤ x) (hxy : x ≤ y) (h : Dec.pow x n = .ok r) (h' : Dec.pow y n = .ok s) :
    r ≤ s := by
  unfold Dec.pow at h h'
  split at h
  · rename_i hn
    rw [if_pos hn, ok_inj] at h'
    rw [ok_inj] at h
    rw [← h, ← h']
  · rename_i hn
    rw [if_neg hn] at h'
    exact powLoop_mono x ONE y ONE n hx (by decide) hxy le_rfl h h'

/-- **C57** For a base between 0 and 1 the `n`-th power is off by at most `n - 1` units of 10⁻¹⁸. -/
theorem C57_pow_error {x r : Int} {n : Nat} (hx : 0 ≤ x) (h1 : val x ≤ 1) (hn : 1 ≤ n) (h : Dec.pow x n = .ok r) :
    val x ^ n - (n - 1) / 10 ^ 18 ≤ val r ∧ val r ≤ val x ^ n := by
  refine ⟨?_, (C57_pow_le hx h).2⟩
  unfold Dec.pow at h
  rw [if_neg (by omega)] at h
  have := powLoop_near (val_nonneg hx) h1 n (k := 1) (j := 0) le_rfl hn
    ⟨hx, by rw [pow_one], by rw [pow_one]; norm_num⟩ (.inl ⟨rfl, rfl⟩) h
  have e : 1 * n + 0 = n := by omega
  rw [e] at this
  exact this.2.2

theorem mul_small {a b : Int} (a0 : 0 ≤ a) (ha : a ≤ ONE) (b0 : 0 ≤ b) (hb : b ≤ ONE) :
    ∃ r, Dec.mul a b = .ok r ∧ 0 ≤ r ∧ r ≤ ONE := by
  have h0 : 0 ≤ a * b := mul_nonneg a0 b0
  have h : a * b ≤ ONE * ONE := mul_le_mul ha hb b0 (by decide)
  have r0 : 0 ≤ a * b / ONE := Int.ediv_nonneg h0 (by decide)
  have r1 : a * b / ONE ≤ ONE := Int.ediv_le_of_le_mul (by decide) h
  refine ⟨a * b / ONE, ?_, r0, r1⟩
  unfold Dec.mul
  simp only [bind_ok, mulI_ok, divI_ok]
  have hI : InI128 (a * b) := by
    have : ONE * ONE ≤ I128_MAX := by decide
    have : I128_MIN ≤ 0 := by decide
    unfold InI128; omega
  refine ⟨_, ⟨hI, rfl⟩, by decide, ?_, Int.tdiv_eq_ediv_of_nonneg h0⟩
  rw [Int.tdiv_eq_ediv_of_nonneg h0]
  have : ONE ≤ I128_MAX := by decide
  have : I128_MIN ≤ 0 := by decide
  unfold InI128; omega

theorem powLoop_works (x y : Int) (n : Nat) : 0 ≤ x → x ≤ ONE → 0 ≤ y → y ≤ ONE → ∃ r, Dec.powLoop x y n = .ok r := by
  induction n using Nat.strong_induction_on generalizing x y with
  | _ n ih =>
    intro x0 hx y0 hy
    unfold Dec.powLoop
    split
    · obtain ⟨r, hr, -⟩ := mul_small x0 hx y0 hy; exact ⟨r, hr⟩
    · obtain ⟨x', ex, x0', hx'⟩ := mul_small x0 hx x0 hx
      split
      · obtain ⟨r, hr⟩ := ih (n / 2) (by omega) x' y x0' hx' y0 hy
        exact ⟨r, by rw [bind_ok]; exact ⟨_, ex, hr⟩⟩
      · obtain ⟨y', ey, y0', hy'⟩ := mul_small x0 hx y0 hy
        obtain ⟨r, hr⟩ := ih ((n - 1) / 2) (by omega) x' y' x0' hx' y0' hy'
        exact ⟨r, by simp only [bind_ok]; exact ⟨_, ey, _, ex, hr⟩⟩

/-- **C57** A power of a number between 0 and 1 never fails. -/
theorem C57_pow_answers {x : Int} (hx : 0 ≤ x) (h1 : val x ≤ 1) (n : Nat) : ∃ r, Dec.pow x n = .ok r := by
  have h1 : x ≤ ONE := by rw [← val_ONE] at h1; exact val_mono.mp h1
  unfold Dec.pow
  split
  · exact ⟨_, rfl⟩
  · exact powLoop_works x ONE n hx h1 (by decide) le_rfl

/-- **C57** `multiply_ratio` (private, used by no code) does not compute a·n/d: its result is 10¹⁸ times
as large. -/
theorem C57_multiply_ratio_off {a n d r : Int} (h : Dec.multiplyRatio a n d = .ok r) :
    r = cut (10 ^ 18 * (val a * val n / val d)) := by
  unfold Dec.multiplyRatio at h
  simp only [bind_ok, mulI_ok, C57_from_ratio] at h
  obtain ⟨_, ⟨-, rfl⟩, hd, -, rfl⟩ := h
  congr 1
  unfold val
  have : (d : ℚ) ≠ 0 := by exact_mod_cast hd
  push_cast; field_simp

/-! Concrete cases. -/

example : Dec.fromRatio (-2) 3 = .ok (-666666666666666666) ∧ Dec.mul 1500000000000000000 (-333333333333333333) = .ok (-499999999999999999) ∧
    Dec.mulInt (-7) 500000000000000000 = .ok (-3) ∧ Dec.div ONE 3000000000000000000 = .ok 333333333333333333 ∧
    Dec.toPrecision (-1999999999999999999) 6 = .ok (-1999999) ∧ Dec.fromAtomics 4321 20 = .ok 43 ∧
    Dec.pow 999999999999999999 3 = .ok 999999999999999997 ∧ Dec.inv (-3000000000000000000) = .ok (some (-333333333333333333)) ∧
    Dec.fromRatio I128_MAX 1 = .error .overflow ∧ Dec.toPrecision 5 19 = .error .overflow := by
  decide +kernel

end Phoenix.Props.Decimal
