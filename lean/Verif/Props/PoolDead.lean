import Verif.Model.PoolDead
import Verif.Props.Decimal
import Verif.Props.PoolSwap
/-!
Property C92: two helpers of the pool that no entry point calls.
-/
namespace Phoenix.Props.PoolDead
open Phoenix Phoenix.Pool Phoenix.Dec.Spec Phoenix.Props.Decimal

/-! ### assert_slippage_tolerance -/

theorem mulInt_keep {x t r : Int} (hx : 0 ≤ x) (ht : 0 ≤ t ∧ t ≤ 10000) (hf : x * 10 ^ 18 ≤ I128_MAX) :
    Dec.mulInt x (Dec.ONE - t * 100000000000000) = .ok r ↔ r = x * (10000 - t) / 10000 := by
  have hone : Dec.ONE = 1000000000000000000 := by decide
  rw [C57_mul_int]
  have e : x * (Dec.ONE - t * 100000000000000) = x * (10000 - t) * 100000000000000 := by rw [hone]; ring
  have h0 : 0 ≤ x * (10000 - t) := mul_nonneg hx (by omega)
  have hle : x * (10000 - t) ≤ x * 10000 := mul_le_mul_of_nonneg_left (by omega) hx
  have hI : InI128 (x * (Dec.ONE - t * 100000000000000)) := by
    rw [e]; unfold InI128; simp only [I128_MIN, I128_MAX] at *; omega
  have et : trunc ((x : ℚ) * val (Dec.ONE - t * 100000000000000)) = x * (10000 - t) / 10000 := by
    rw [← Int.tdiv_eq_ediv_of_nonneg h0, ← trunc_div]
    congr 1; unfold val; rw [hone]; push_cast; ring
  rw [et]
  exact ⟨fun h => h.2, fun h => ⟨hI, h⟩⟩

theorem mulInt_one {x r : Int} : Dec.mulInt x Dec.ONE = .ok r ↔ InI128 (x * 10 ^ 18) ∧ r = x := by
  rw [C57_mul_int]
  have : trunc ((x : ℚ) * val Dec.ONE) = x := by
    rw [val_ONE, _root_.mul_one]; unfold trunc; split <;> simp
  rw [this]; rfl

/-- **C92** `assert_slippage_tolerance` accepts a deposit (d0, d1) into a pool (p0, p1) exactly if the
tolerance `t` (in basis points) is not above the allowed maximum, the products scaled by 10¹⁸ fit in 128 bits, and
each of d0·p1 and d1·p0, reduced by the tolerance and rounded down, does not exceed the other. -/
theorem C92_slippage_accepts_iff {t d0 d1 p0 p1 maxSlippage : Int} (ht : 0 ≤ t ∧ t ≤ 10000) (h0 : 0 ≤ d0 * p1) (h1 : 0 ≤ d1 * p0) :
    assertSlippage (some t) d0 d1 p0 p1 maxSlippage = .ok () ↔
      t * 10 ^ 14 ≤ maxSlippage ∧ d0 * p1 * 10 ^ 18 ≤ I128_MAX ∧ d1 * p0 * 10 ^ 18 ≤ I128_MAX ∧
      d0 * p1 * (10000 - t) < (d1 * p0 + 1) * 10000 ∧ d1 * p0 * (10000 - t) < (d0 * p1 + 1) * 10000 := by
  have hone : Dec.ONE = 1000000000000000000 := by decide
  have hI : ∀ {z : Int}, 0 ≤ z → z * 10 ^ 18 ≤ I128_MAX → InI128 z := by
    intro z z0 h; unfold InI128; simp only [I128_MIN, I128_MAX] at *; omega
  unfold assertSlippage
  simp only [bind_ok, toleranceOf, Dec.bps_ok, req_ok, Dec.sub, subI_ok, mulI_ok]
  constructor
  · rintro ⟨_, ⟨-, rfl⟩, _, g1, _, ⟨-, rfl⟩, _, ⟨i1, rfl⟩, xk, hxk, _, ⟨i2, rfl⟩, y1, hy1, _, g2, yk, hyk, x1, hx1, g3⟩
    obtain ⟨f1, rfl⟩ := mulInt_one.mp hy1
    obtain ⟨f2, rfl⟩ := mulInt_one.mp hx1
    have hxk := (mulInt_keep h0 ht f2.2).mp hxk
    have hyk := (mulInt_keep h1 ht f1.2).mp hyk
    refine ⟨by omega, f2.2, f1.2, ?_, ?_⟩
    · omega
    · omega
  · rintro ⟨g1, f1, f2, g2, g3⟩
    refine ⟨_, ⟨?_, rfl⟩, (), by omega, _, ⟨?_, rfl⟩, _, ⟨hI h0 f1, rfl⟩, _, (mulInt_keep h0 ht f1).mpr rfl, _,
      ⟨hI h1 f2, rfl⟩, _, mulInt_one.mpr ⟨⟨?_, f2⟩, rfl⟩, (), ?_, _, (mulInt_keep h1 ht f2).mpr rfl, _,
      mulInt_one.mpr ⟨⟨?_, f1⟩, rfl⟩, ?_⟩
    · unfold InI128; simp only [I128_MIN, I128_MAX]; omega
    · rw [hone]; unfold InI128; simp only [I128_MIN, I128_MAX]; omega
    · simp only [I128_MIN]; omega
    · omega
    · simp only [I128_MIN]; omega
    · omega

/-- **C92** The decision does not depend on the order of the two tokens, and a deposit in exactly the
ratio of the pool is accepted with any allowed tolerance, if the products fit. -/
theorem C92_slippage_symmetric {t d0 d1 p0 p1 maxSlippage : Int} (ht : 0 ≤ t ∧ t ≤ 10000) (h0 : 0 ≤ d0 * p1) (h1 : 0 ≤ d1 * p0) :
    (assertSlippage (some t) d0 d1 p0 p1 maxSlippage = .ok () ↔ assertSlippage (some t) d1 d0 p1 p0 maxSlippage = .ok ()) ∧
    (d0 * p1 = d1 * p0 → t * 10 ^ 14 ≤ maxSlippage → d0 * p1 * 10 ^ 18 ≤ I128_MAX →
      assertSlippage (some t) d0 d1 p0 p1 maxSlippage = .ok ()) := by
  constructor
  · rw [C92_slippage_accepts_iff ht h0 h1, C92_slippage_accepts_iff ht h1 h0]
    constructor
    · rintro ⟨a, b, c, d, e⟩; exact ⟨a, c, b, e, d⟩
    · rintro ⟨a, b, c, d, e⟩; exact ⟨a, c, b, e, d⟩
  · intro he hm hf
    rw [C92_slippage_accepts_iff ht h0 h1, ← he]
    have : d0 * p1 * (10000 - t) ≤ d0 * p1 * 10000 := mul_le_mul_of_nonneg_left (by omega) h0
    exact ⟨hm, hf, hf, by omega, by omega⟩

/-- **C92** Without a tolerance of its own, a deposit is judged with a tolerance of one percent. -/
theorem C92_default_tolerance (d0 d1 p0 p1 maxSlippage : Int) :
    assertSlippage none d0 d1 p0 p1 maxSlippage = assertSlippage (some 100) d0 d1 p0 p1 maxSlippage := by
  have h : toleranceOf none = toleranceOf (some 100) := by decide +kernel
  unfold assertSlippage
  rw [h]

/-- **C92** Users would expect the check to work for real pools.  It does not: with 20000 whole tokens
(of 7 digits) in the pool it fails for a deposit of 100 tokens of each, in exactly the pool's ratio. -/
theorem C92_slippage_overflows : assertSlippage (some 100) 1000000000 1000000000 200000000000 200000000000 Dec.ONE = .error .overflow := by
  decide +kernel

example : assertSlippage (some 100) 1000 2000 100000 200000 Dec.ONE = .ok () ∧
    assertSlippage (some 100) 1000 1980 100000 200000 Dec.ONE = .ok () ∧
    assertSlippage (some 100) 1000 1979 100000 200000 Dec.ONE = .error (.code 20) ∧
    assertSlippage none 1000 2021 100000 200000 Dec.ONE = .error (.code 20) := by decide +kernel

/-! ### split_deposit_based_on_pool_ratio -/

/-- Token B per token A if `x` of the deposit is swapped for `ask`, with 18 digits. -/
def after (p : State) (offer : Addr) (deposit x ask : Int) : Int :=
  if offer = p.cfg.tokenA then cut ((ask : ℚ) / (deposit - x : Int)) else cut (((deposit - x : Int) : ℚ) / ask)

/-- Swapping `x` is too much: token B offered leaves too little of it, token A offered buys too much B. -/
def TooMuch (p : State) (offer : Addr) (deposit target x : Int) : Prop :=
  ∃ ask c s t, simulateSwap p offer x = .ok (ask, c, s, t) ∧
    (offer = p.cfg.tokenA → target < after p offer deposit x ask) ∧ (offer ≠ p.cfg.tokenA → after p offer deposit x ask ≤ target)

/-- Swapping `x` is not enough. -/
def TooLittle (p : State) (offer : Addr) (deposit target x : Int) : Prop :=
  ∃ ask c s t, simulateSwap p offer x = .ok (ask, c, s, t) ∧
    (offer = p.cfg.tokenA → after p offer deposit x ask ≤ target) ∧ (offer ≠ p.cfg.tokenA → target < after p offer deposit x ask)

theorem splitRatio_ok {p : State} {offer : Addr} {deposit mid ask r : Int} (h : splitRatio p offer deposit mid ask = .ok r) :
    r = after p offer deposit mid ask := by
  unfold splitRatio at h
  unfold after
  simp only [bind_ok, subI_ok] at h
  obtain ⟨_, ⟨-, rfl⟩, h⟩ := h
  split at h
  · rename_i e; rw [if_pos e]; exact ((C57_from_ratio _ _ _).mp h).2.2
  · rename_i e; rw [if_neg e]; exact ((C57_from_ratio _ _ _).mp h).2.2

theorem isApprox_ok {a b t : Int} {r : Bool} (h : isApproxRatio a b t = .ok r) : r = true ↔ |a - b| ≤ t := by
  unfold isApproxRatio Dec.abs Dec.sub at h
  simp only [bind_ok, subI_ok, ok_inj] at h
  obtain ⟨_, ⟨-, rfl⟩, x, hx, rfl⟩ := h
  rw [decide_eq_true_iff]
  split at hx
  · rename_i k
    rw [i128_ok] at hx
    rw [abs_of_neg k, hx.2]
  · rename_i k
    rw [ok_inj] at hx
    rw [abs_of_nonneg (by omega), hx]

theorem splitLoop_spec (p : State) (offer : Addr) (deposit target : Int) (n : Nat) : ∀ {low high fo fa o r : Int},
    (high - low).toNat = n → 0 ≤ low → low < high → high ≤ deposit →
    (low = 0 ∨ TooLittle p offer deposit target low) → (high = deposit ∨ TooMuch p offer deposit target high) →
    (low = 0 ∧ high = deposit ∨ ((fo = low ∨ fo = high) ∧ 0 < fo ∧ fo < deposit ∧ ∃ c s t, simulateSwap p offer fo = .ok (fa, c, s, t))) →
    splitLoop p offer deposit target low high fo fa = .ok (o, r) →
    (deposit ≤ 500 ∧ low = 0 ∧ high = deposit ∧ o = fo ∧ r = fa) ∨
    (0 < o ∧ o < deposit ∧ (∃ c s t, simulateSwap p offer o = .ok (r, c, s, t)) ∧
      (|after p offer deposit o r - target| ≤ 10 ^ 16 ∨
       ∃ lo hi, 0 ≤ lo ∧ lo < hi ∧ hi ≤ deposit ∧ hi - lo ≤ 500 ∧ (o = lo ∨ o = hi) ∧
        (lo = 0 ∨ TooLittle p offer deposit target lo) ∧ (hi = deposit ∨ TooMuch p offer deposit target hi))) := by
  induction n using Nat.strong_induction_on with
  | _ n ih =>
    intro low high fo fa o r hn l0 lh hd hlo hhi hf h
    unfold splitLoop at h
    split at h
    · rename_i hs
      simp only [ok_inj, Prod.mk.injEq] at h
      obtain ⟨rfl, rfl⟩ := h
      rcases hf with ⟨rfl, rfl⟩ | ⟨k1, k2, k3, k4⟩
      · exact .inl ⟨by omega, rfl, rfl, rfl, rfl⟩
      · exact .inr ⟨k2, k3, k4, .inr ⟨low, high, l0, lh, hd, hs, k1, hlo, hhi⟩⟩
    · rename_i hs
      obtain ⟨m1, m2⟩ := mid_between hs
      generalize hm : (low + high).tdiv 2 = mid at h m1 m2
      simp only [bind_ok, Prod.exists] at h
      obtain ⟨_, -, ask, c, s, t, hsim, ratio, hr, close, hc, h⟩ := h
      have er := splitRatio_ok hr
      have ec := isApprox_ok hc
      split at h
      · rename_i hcl
        simp only [ok_inj, Prod.mk.injEq] at h
        obtain ⟨rfl, rfl⟩ := h
        refine .inr ⟨by omega, by omega, ⟨c, s, t, hsim⟩, .inl ?_⟩
        rw [← er]; exact ec.mp hcl
      · split at h
        · rename_i hdir
          have htm : TooMuch p offer deposit target mid := ⟨ask, c, s, t, hsim, fun e => by rw [← er]; exact hdir.mpr e,
            fun e => by rw [← er]; by_contra k; exact e (hdir.mp (by omega))⟩
          rcases ih (mid - low).toNat (by omega) rfl l0 m1 (by omega) hlo (.inr htm)
            (.inr ⟨.inr rfl, by omega, by omega, c, s, t, hsim⟩) h with ⟨-, -, k, -⟩ | k
          · omega
          · exact .inr k
        · rename_i hdir
          have htl : TooLittle p offer deposit target mid := ⟨ask, c, s, t, hsim, fun e => by
              rw [← er]; by_contra k; exact hdir ⟨fun _ => e, fun _ => by omega⟩,
            fun e => by rw [← er]; by_contra k; exact hdir ⟨fun k' => absurd k' k, fun e' => absurd e' e⟩⟩
          rcases ih (high - mid).toNat (by omega) rfl (by omega) m2 hd (.inr htl) hhi
            (.inr ⟨.inl rfl, by omega, by omega, c, s, t, hsim⟩) h with ⟨-, k, -⟩ | k
          · omega
          · exact .inr k

/-- **C92** `split_deposit_based_on_pool_ratio` (the search always ends) returns, for a deposit above 500
units, an amount `o` strictly between zero and the deposit together with what `simulate_swap(o)`
announces; and either the ratio afterwards differs from `b / a` by at most 0.01, or `o` is an end of an interval of at
most 500 units at whose lower end too little and at whose upper end too much is swapped. -/
theorem C92_split_result {p : State} {a b deposit o r : Int} {offer : Addr} (h : splitDeposit p a b deposit offer = .ok (o, r))
    (hbig : 500 < deposit) :
    0 < o ∧ o < deposit ∧ (∃ c s t, simulateSwap p offer o = .ok (r, c, s, t)) ∧
      (|after p offer deposit o r - cut ((b : ℚ) / a)| ≤ 10 ^ 16 ∨
       ∃ lo hi, 0 ≤ lo ∧ lo < hi ∧ hi ≤ deposit ∧ hi - lo ≤ 500 ∧ (o = lo ∨ o = hi) ∧
        (lo = 0 ∨ TooLittle p offer deposit (cut ((b : ℚ) / a)) lo) ∧ (hi = deposit ∨ TooMuch p offer deposit (cut ((b : ℚ) / a)) hi)) := by
  unfold splitDeposit at h
  simp only [bind_ok, req_ok] at h
  obtain ⟨_, -, _, -, target, ht, h⟩ := h
  have et := ((C57_from_ratio _ _ _).mp ht).2.2
  subst et
  rcases splitLoop_spec p offer deposit _ _ rfl (le_refl _) (by omega) (le_refl _) (.inl rfl) (.inl rfl) (.inl ⟨rfl, rfl⟩) h with k | k
  · omega
  · exact k

/-- **C92** A deposit of at most 500 units is not split at all: the answer is to swap everything, for
nothing in return. -/
theorem C92_split_small {p : State} {a b deposit o r : Int} {offer : Addr} (h : splitDeposit p a b deposit offer = .ok (o, r))
    (hsmall : deposit ≤ 500) : o = deposit ∧ r = 0 := by
  unfold splitDeposit at h
  simp only [bind_ok, req_ok] at h
  obtain ⟨_, -, _, -, target, ht, h⟩ := h
  unfold splitLoop at h
  rw [dif_pos (by omega)] at h
  simp only [ok_inj, Prod.mk.injEq] at h
  exact ⟨h.1.symm, h.2.symm⟩

/-- a pool with a thousand times as much of token 10 as of token 11 -/
def exThin : State := { exPool with resA := 1000000000, resB := 1000000 }

/-- **C92** The tolerance meant as 1% of the ratio is an absolute 0.01: in a pool with ratio 0.001 the
first guess, half the deposit, is always taken for good.  Here the ratio afterwards is a third below the pool's. -/
theorem C92_split_tolerance_absolute : splitDeposit exThin 1000000000 1000000 1000000000 10 = .ok (500000000, 332334) ∧
    after exThin 10 1000000000 500000000 332334 = 664668000000000 ∧
    cut (((1000000 : Int) : ℚ) / (1000000000 : Int)) = 1000000000000000 := by
  have h : ∀ {n d v : Int}, Dec.fromRatio n d = .ok v → cut ((n : ℚ) / d) = v := fun h => ((C57_from_ratio _ _ _).mp h).2.2.symm
  refine ⟨by decide +kernel, ?_, h (by decide +kernel)⟩
  unfold after
  rw [if_pos (by decide)]
  exact h (by decide +kernel)

example : splitDeposit { exThin with resB := 1000000000 } 1000000000 1000000000 1000000 11 = .ok (500000, 498252) ∧
    splitDeposit exThin 1000000000 1000000 400 11 = .ok (400, 0) := by decide +kernel

end Phoenix.Props.PoolDead
