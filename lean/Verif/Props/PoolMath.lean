import Verif.Lemmas.Swap
/-!
Property theorems about the pricing functions of the XYK pool:
C02, C03, C06, C15, C18 (arithmetic part), C19, C20.
`computeSwap x y a rate 0` is the quote for offering `a` against reserves `x`
(offered token) and `y` (asked token); `rate` is the fee as an 18-digit fraction.
-/
namespace Phoenix.Props
open Phoenix Pool

/-- Gross output of a quote: what leaves the reserve. -/
def grossOf (r : ComputeSwap) : Int := r.ret + r.commission

/-- Two-sided floor description of the quote (helper). -/
theorem quote_core {x y a rate : Int} {r : ComputeSwap} (h : computeSwap x y a rate 0 = .ok r) :
    0 < x ∧ 0 ≤ y ∧ 0 ≤ a ∧ 0 ≤ rate ∧ 0 ≤ r.ret ∧ 0 ≤ r.commission ∧ 0 ≤ r.spread ∧
    (x + a) * (y - grossOf r) ≤ x * y ∧ x * y < (x + a) * (y - grossOf r) + (x + a) ∧
    x * (grossOf r + r.spread) ≤ a * y ∧ a * y < x * (grossOf r + r.spread) + x ∧
    Dec.ONE * r.commission ≤ grossOf r * rate ∧ grossOf r * rate < Dec.ONE * r.commission + Dec.ONE ∧
    0 ≤ grossOf r ∧ grossOf r ≤ y := by
  obtain ⟨hx, hy, ha, hr, hrefl, hg, hs, hs0, hc, hret, hc0, hr0, -⟩ := computeSwap_inv h
  have hgr : grossOf r = y - x * y / (x + a) := by unfold grossOf; omega
  have hq := ediv_bounds (a := x * y) (b := x + a) (by omega)
  have hi := ediv_bounds (a := a * y) (b := x) hx
  have hcb := ediv_bounds (a := (y - x * y / (x + a)) * rate) (b := Dec.ONE) (by decide)
  have hq0 : 0 ≤ x * y / (x + a) := Int.ediv_nonneg (by positivity) (by omega)
  have e1 : y - grossOf r = x * y / (x + a) := by omega
  have e2 : grossOf r + r.spread = a * y / x := by omega
  rw [e1, e2, hc]
  rw [← hgr] at hcb ⊢
  refine ⟨hx, hy, ha, hr, hr0, by rw [← hgr] at hc; omega, hs0, hq.1, hq.2, hi.1, hi.2, hcb.1, hcb.2, by omega, by omega⟩

/-- **C02** The gross output is the constant-product output rounded up to the next
integer: the smallest `g` with `g*(x+a) ≥ y*a`; it is within `[0, y]`. -/
theorem C02_gross_is_rounded_up_cp {x y a rate : Int} {r : ComputeSwap}
    (h : computeSwap x y a rate 0 = .ok r) :
    y * a ≤ grossOf r * (x + a) ∧ (grossOf r - 1) * (x + a) < y * a ∧
    (∀ g : Int, y * a ≤ g * (x + a) → grossOf r ≤ g) ∧ 0 ≤ grossOf r ∧ grossOf r ≤ y := by
  obtain ⟨hx, hy, ha, hr, hr0, hc0, hs0, q1, q2, i1, i2, c1, c2, g0, gy⟩ := quote_core h
  have h1 : y * a ≤ grossOf r * (x + a) := by nlinarith
  have h2 : (grossOf r - 1) * (x + a) < y * a := by nlinarith
  refine ⟨h1, h2, fun g hg => ?_, g0, gy⟩
  by_contra hlt
  have : g ≤ grossOf r - 1 := by omega
  nlinarith [mul_le_mul_of_nonneg_right this (show 0 ≤ x + a by omega)]

/-- **C02** The gross output never exceeds the value at the spot price,
`floor(a*y/x)`, and the reported spread is exactly the difference. -/
theorem C02_never_beats_spot {x y a rate : Int} {r : ComputeSwap}
    (h : computeSwap x y a rate 0 = .ok r) :
    grossOf r * x ≤ a * y ∧ 0 ≤ r.spread ∧ r.spread = a * y / x - grossOf r := by
  obtain ⟨hx, hy, ha, hr, hr0, hc0, hs0, q1, q2, i1, i2, c1, c2, g0, gy⟩ := quote_core h
  refine ⟨by nlinarith, hs0, ?_⟩
  obtain ⟨-, -, -, -, -, -, hs, -, -, hret, -⟩ := computeSwap_inv h
  unfold grossOf; omega

/-- a quote on reserves 1000000/2000000, offering 1000 at a fee of 30 bps -/
example : computeSwap 1000000 2000000 1000 3000000000000000 0 =
    .ok { ret := 1994, spread := 1, commission := 5, referral := 0 } := by decide +kernel

/-- **C03** After a swap the product of the reserves is at most what it was, and the
loss is strictly less than the new offer reserve (one rounding unit). -/
theorem C03_product_bounds {x y a rate : Int} {r : ComputeSwap}
    (h : computeSwap x y a rate 0 = .ok r) :
    (x + a) * (y - grossOf r) ≤ x * y ∧ x * y - (x + a) * (y - grossOf r) < x + a := by
  obtain ⟨hx, hy, ha, hr, hr0, hc0, hs0, q1, q2, i1, i2, c1, c2, g0, gy⟩ := quote_core h
  exact ⟨q1, by linarith⟩

/-- **C03** The product of the reserves really can shrink in a swap (the usual
"k never decreases" is false of this code). -/
theorem C03_product_can_shrink : ∃ (x y a rate : Int) (r : ComputeSwap),
    computeSwap x y a rate 0 = .ok r ∧ (x + a) * (y - grossOf r) < x * y := by
  refine ⟨1000000, 2000000, 1000, 3000000000000000,
    { ret := 1994, spread := 1, commission := 5, referral := 0 }, by decide +kernel, by decide⟩

/-- **C19** Offering more never lowers the gross output or the net return. -/
theorem C19_monotone {x y a a' rate : Int} {r r' : ComputeSwap}
    (h : computeSwap x y a rate 0 = .ok r) (h' : computeSwap x y a' rate 0 = .ok r')
    (hle : a ≤ a') : grossOf r ≤ grossOf r' ∧ r.ret ≤ r'.ret := by
  obtain ⟨hx, hy, ha, hr, hr0, hc0, hs0, q1, q2, i1, i2, c1, c2, g0, gy⟩ := quote_core h
  obtain ⟨-, -, ha', -, hr0', hc0', -, q1', q2', -, -, c1', c2', g0', gy'⟩ := quote_core h'
  have hg : grossOf r ≤ grossOf r' := by
    by_contra hlt
    have hlt : grossOf r' + 1 ≤ grossOf r := by omega
    have k1 := (C02_gross_is_rounded_up_cp h).2.1
    have k2 := (C02_gross_is_rounded_up_cp h').1
    -- g' * (x+a') ≥ y*a' and (g-1)*(x+a) < y*a, g' ≤ g-1
    have k3 : (grossOf r') * (x + a) < y * a := by
      nlinarith [mul_le_mul_of_nonneg_right (show grossOf r' ≤ grossOf r - 1 by omega) (show 0 ≤ x + a by omega)]
    nlinarith [mul_nonneg (show 0 ≤ y - grossOf r' by omega) (show 0 ≤ a' - a by omega)]
  refine ⟨hg, ?_⟩
  have hD : (0:Int) < Dec.ONE := by decide
  by_cases hrate : rate ≤ Dec.ONE
  · -- commission grows by at most the growth of gross
    by_contra hlt
    have e : r'.commission - r.commission ≥ grossOf r' - grossOf r + 1 := by unfold grossOf at *; omega
    nlinarith [mul_nonneg (show 0 ≤ grossOf r' - grossOf r by omega) (show 0 ≤ Dec.ONE - rate by omega)]
  · have : r.ret ≤ 0 := by
      by_contra hlt
      have : r.commission + 1 ≤ grossOf r := by unfold grossOf; omega
      nlinarith
    omega

/-- **C19** Output per offered unit does not improve with size, up to one unit of
rounding. -/
theorem C19_average_price {x y a a' rate : Int} {r r' : ComputeSwap}
    (h : computeSwap x y a rate 0 = .ok r) (h' : computeSwap x y a' rate 0 = .ok r')
    (hle : a ≤ a') : (grossOf r' - 1) * a ≤ grossOf r * a' := by
  obtain ⟨hx, hy, ha, hr, hr0, hc0, hs0, q1, q2, i1, i2, c1, c2, g0, gy⟩ := quote_core h
  obtain ⟨-, -, ha', -⟩ := quote_core h'
  have k1 := (C02_gross_is_rounded_up_cp h).1
  have k2 := (C02_gross_is_rounded_up_cp h').2.1
  have hpos : 0 < x + a' := by omega
  have k3 : (grossOf r' - 1) * a * (x + a') ≤ grossOf r * a' * (x + a') := by
    have m1 : (grossOf r' - 1) * (x + a') * a ≤ y * a' * a := mul_le_mul_of_nonneg_right k2.le ha
    have m2 : y * a * a' ≤ grossOf r * (x + a) * a' := mul_le_mul_of_nonneg_right k1 ha'
    have m3 : grossOf r * (x + a) * a' ≤ grossOf r * (x + a') * a' := by
      apply mul_le_mul_of_nonneg_right _ ha'
      exact mul_le_mul_of_nonneg_left (by omega) g0
    nlinarith
  exact le_of_mul_le_mul_right k3 hpos

example : (∃ r, computeSwap 1000000 2000000 1000 3000000000000000 0 = .ok r ∧ grossOf r = 1999) ∧
    (∃ r, computeSwap 1000000 2000000 5000 3000000000000000 0 = .ok r ∧ grossOf r = 9951) := by
  constructor <;> exact ⟨_, rfl, rfl⟩

/-- **C20** With a fee of `bps` basis points the commission is
`floor(gross*bps/10000)`, and return + commission = gross. -/
theorem C20_commission {x y a rate bps : Int} {r : ComputeSwap}
    (hrate : Dec.bps bps = .ok rate) (h : computeSwap x y a rate 0 = .ok r) :
    r.commission = grossOf r * bps / 10000 ∧ 0 ≤ r.commission ∧ r.commission ≤ grossOf r ∧
    (bps = 0 → r.commission = 0) ∧ (bps = 10000 → r.ret = 0) := by
  obtain ⟨hx, hy, ha, hr, hr0, hc0, hs0, q1, q2, i1, i2, c1, c2, g0, gy⟩ := quote_core h
  rw [Dec.bps_ok] at hrate
  obtain ⟨-, rfl⟩ := hrate
  have e : r.commission = grossOf r * bps / 10000 := by
    symm
    rw [Int.ediv_eq_iff_of_pos (by norm_num)]
    unfold Dec.ONE at c1 c2
    constructor <;> nlinarith
  refine ⟨e, hc0, by unfold grossOf; omega, ?_, ?_⟩
  · rintro rfl; simpa using e
  · rintro rfl
    rw [Int.mul_ediv_cancel _ (by norm_num)] at e
    unfold grossOf at e; omega

example : Dec.bps 30 = .ok 3000000000000000 := by decide

/-- **C18** (arithmetic part) If the spread is at most 100% of the gross output, as
the pool's spread check with a limit of at most 10000 bps enforces, then at least
half of the ask reserve minus two units (and a relative error of 10^-18) remains. -/
theorem C18_half_remains {x y a rate ms : Int} {r : ComputeSwap}
    (h : computeSwap x y a rate 0 = .ok r)
    (hms : ms ≤ Dec.ONE) (hsp : assertMaxSpread ms (grossOf r) r.spread = .ok ()) :
    y ≤ 2 * (y - grossOf r) + 4 + y / Dec.ONE ∧ 0 < grossOf r := by
  obtain ⟨hx, hy, ha, hr, hr0, hc0, hs0, q1, q2, i1, i2, c1, c2, g0, gy⟩ := quote_core h
  unfold assertMaxSpread at hsp
  simp only [bind_ok, Dec.fromRatio_ok, req_ok] at hsp
  obtain ⟨q, ⟨hne, -, -, rfl⟩, hle⟩ := hsp
  have hgpos : 0 < grossOf r := by omega
  have hD : (0:Int) < Dec.ONE := by decide
  rw [tdiv_nonneg_eq (by positivity)] at hle
  have hb := ediv_bounds (a := r.spread * Dec.ONE) (b := grossOf r) hgpos
  have hs : r.spread * Dec.ONE < (Dec.ONE + 1) * grossOf r := by
    nlinarith [mul_le_mul_of_nonneg_left (hle.trans hms) hgpos.le]
  refine ⟨?_, hgpos⟩
  -- e bounds the excess of spread over gross
  obtain ⟨e, he, he0, hey⟩ : ∃ e : Int, r.spread ≤ grossOf r + e ∧ 0 ≤ e ∧ Dec.ONE * e ≤ y := by
    by_cases hc : r.spread ≤ grossOf r
    · exact ⟨0, by omega, le_refl _, by omega⟩
    · exact ⟨r.spread - grossOf r, by omega, by omega, by nlinarith⟩
  have heD : e ≤ y / Dec.ONE := by
    rw [Int.le_ediv_iff_mul_le hD]; linarith
  have k1 := (C02_gross_is_rounded_up_cp h).2.1
  generalize hG : grossOf r = g at *
  -- (g-1)*a < (g+e+2)*x
  have s1 : a * y < x * (2 * g + e + 1) := by nlinarith
  have s2 : (g - 1) * a < (g + e + 2) * x := by nlinarith
  -- (g-1)*x < (y-g+1)*a
  have s3 : (g - 1) * x < (y - g + 1) * a := by nlinarith
  have hR : 0 ≤ y - g := by omega
  have s4 : (g - 1) * (g - 1) < (y - g + 1) * (g + e + 2) ∨ g = 1 := by
    by_cases hg1 : g = 1
    · right; exact hg1
    · left
      have hg1' : 0 < g - 1 := by omega
      have t1 : (g - 1) * ((g - 1) * x) < (g - 1) * ((y - g + 1) * a) :=
        mul_lt_mul_of_pos_left s3 hg1'
      have t2 : (y - g + 1) * ((g - 1) * a) ≤ (y - g + 1) * ((g + e + 2) * x) :=
        mul_le_mul_of_nonneg_left s2.le (by omega)
      have t3 : ((g - 1) * (g - 1)) * x < ((y - g + 1) * (g + e + 2)) * x := by nlinarith
      exact lt_of_mul_lt_mul_right t3 hx.le
  have s5 : g ≤ (y - g) + e + 4 := by
    rcases s4 with s4 | s4
    · by_contra hlt
      have : y - g + 1 ≤ g - e - 4 := by omega
      nlinarith [mul_le_mul_of_nonneg_right this (show 0 ≤ g + e + 2 by omega)]
    · omega
  omega

/-- **C18** Consequently a swap cannot empty a reserve of at least 6 units. -/
theorem C18_not_drained {x y a rate ms : Int} {r : ComputeSwap}
    (h : computeSwap x y a rate 0 = .ok r)
    (hms : ms ≤ Dec.ONE) (hsp : assertMaxSpread ms (grossOf r) r.spread = .ok ())
    (hy : 6 ≤ y) : 0 < y - grossOf r := by
  have h1 := (C18_half_remains h hms hsp).1
  have : y / Dec.ONE ≤ y / 6 := by
    have := (ediv_bounds (a := y) (b := Dec.ONE) (by decide)).1
    unfold Dec.ONE at *
    omega
  omega

example : ∃ r, computeSwap 1000000 2000000 1000000 3000000000000000 0 = .ok r ∧
    assertMaxSpread Dec.ONE (grossOf r) r.spread = .ok () ∧ grossOf r = 1000000 := ⟨_, rfl, rfl, rfl⟩

/-- **C06** (quote level) If the reverse quote for `ask` is not negative, then
* offering exactly the quoted amount never returns more than `ask`;
* offering one unit more returns at least `ask - floor(ask/10^18)`, that is at least
  `ask` itself for every `ask` below `10^18`. -/
theorem C06_reverse_quote {x y ask rate offer sp com : Int}
    (hx : 0 ≤ x) (hy : 0 ≤ y) (hask : 0 ≤ ask) (hr0 : 0 ≤ rate) (hr1 : rate ≤ Dec.ONE)
    (h : computeOfferAmount x y ask rate = .ok (offer, sp, com)) (hoff : 0 ≤ offer) :
    (∀ r, computeSwap x y offer rate 0 = .ok r → r.ret ≤ ask) ∧
    (∀ r, computeSwap x y (offer + 1) rate 0 = .ok r → ask ≤ r.ret + ask / Dec.ONE) := by
  have hD : (0:Int) < Dec.ONE := by decide
  unfold computeOfferAmount Dec.div Dec.sub at h
  simp only [bind_ok, Dec.fromRatio_ok, mulI_ok, subI_ok, divI_ok, ok_inj, Prod.mk.injEq] at h
  obtain ⟨cp, ⟨-, rfl⟩, omc, ⟨-, rfl⟩, inv, ⟨hne, -, -, hinv⟩, bef, hbef, den, ⟨-, rfl⟩, q,
    ⟨hden, -, rfl⟩, off, ⟨-, hof⟩, bef', hbef', m, ⟨-, rfl⟩, d, ⟨hx0, -, rfl⟩, s, -, c, -, h1, -, -⟩ := h
  have hxpos : 0 < x := by omega
  have hw : 0 < Dec.ONE - rate := by omega
  rw [tdiv_nonneg_eq (by positivity)] at hinv
  have hib := ediv_bounds (a := Dec.ONE * Dec.ONE) (b := Dec.ONE - rate) hw
  rw [hinv] at hib
  have hinv0 : 0 ≤ inv := by rw [← hinv]; exact Int.ediv_nonneg (by positivity) hw.le
  have hb := Dec.mulInt_val hbef
  rw [tdiv_nonneg_eq (by positivity)] at hb
  have hbb := ediv_bounds (a := ask * inv) (b := Dec.ONE) hD
  rw [← hb] at hbb
  have hbef0 : 0 ≤ bef := by rw [hb]; exact Int.ediv_nonneg (by positivity) hD.le
  -- the denominator is positive, otherwise the quote is negative
  have hdpos : 0 < y - bef := by
    by_contra hn
    have hneg : y - bef < 0 := by omega
    have : (x * y).tdiv (y - bef) ≤ 0 := Int.tdiv_nonpos_of_nonneg_of_nonpos (by positivity) hneg.le
    omega
  rw [tdiv_nonneg_eq (by positivity)] at hof
  have hN := ediv_bounds (a := x * y) (b := y - bef) hdpos
  have eN : x * y / (y - bef) = x + offer := by omega
  rw [eN] at hN
  -- before-commission amount against the ask
  have key1 : bef * (Dec.ONE - rate) ≤ ask * Dec.ONE := by
    have t1 : Dec.ONE * bef * (Dec.ONE - rate) ≤ ask * inv * (Dec.ONE - rate) :=
      mul_le_mul_of_nonneg_right hbb.1 hw.le
    have t2 : ask * ((Dec.ONE - rate) * inv) ≤ ask * (Dec.ONE * Dec.ONE) :=
      mul_le_mul_of_nonneg_left hib.1 hask
    have t3 : (bef * (Dec.ONE - rate)) * Dec.ONE ≤ (ask * Dec.ONE) * Dec.ONE := by nlinarith
    exact le_of_mul_le_mul_right t3 hD
  constructor
  · intro r hr
    obtain ⟨-, -, -, -, -, -, -, q1, q2, -, -, c1, c2, g0, gy⟩ := quote_core hr
    have hg : grossOf r ≤ bef := by
      by_contra hlt
      have hlt' : y - grossOf r + 1 ≤ y - bef := by omega
      have := mul_le_mul_of_nonneg_left hlt' (show 0 ≤ x + offer by omega)
      nlinarith
    have t : grossOf r * (Dec.ONE - rate) ≤ bef * (Dec.ONE - rate) :=
      mul_le_mul_of_nonneg_right hg hw.le
    by_contra hlt
    have hlt' : ask + 1 ≤ r.ret := by omega
    have e : grossOf r = r.ret + r.commission := rfl
    nlinarith
  · intro r hr
    obtain ⟨-, -, -, -, -, -, -, q1, q2, -, -, c1, c2, g0, gy⟩ := quote_core hr
    have hg : bef + 1 ≤ grossOf r := by
      by_contra hlt
      have hlt' : y - bef ≤ y - grossOf r := by omega
      have := mul_le_mul_of_nonneg_left hlt' (show 0 ≤ x + offer + 1 by omega)
      nlinarith
    have e : grossOf r = r.ret + r.commission := rfl
    have t1 : (bef + 1) * (Dec.ONE - rate) ≤ r.ret * Dec.ONE := by
      have := mul_le_mul_of_nonneg_right hg hw.le
      nlinarith
    have t2 : ask * inv * (Dec.ONE - rate) < Dec.ONE * (bef + 1) * (Dec.ONE - rate) := by
      apply mul_lt_mul_of_pos_right _ hw
      linarith
    have t3 : ask * (Dec.ONE * Dec.ONE - (Dec.ONE - rate)) ≤ ask * (inv * (Dec.ONE - rate)) :=
      mul_le_mul_of_nonneg_left (by linarith) hask
    have t4 : ask * (Dec.ONE * Dec.ONE - Dec.ONE) ≤ ask * (Dec.ONE * Dec.ONE - (Dec.ONE - rate)) :=
      mul_le_mul_of_nonneg_left (by linarith) hask
    have t5 : ask * (Dec.ONE - 1) < r.ret * Dec.ONE := by
      have : (ask * (Dec.ONE - 1)) * Dec.ONE < (r.ret * Dec.ONE) * Dec.ONE := by nlinarith
      exact lt_of_mul_lt_mul_right this hD.le
    have hk := ediv_bounds (a := ask) (b := Dec.ONE) hD
    by_contra hlt
    have hlt' : r.ret + ask / Dec.ONE + 1 ≤ ask := by omega
    nlinarith [mul_le_mul_of_nonneg_right hlt' hD.le]

/-- The hypotheses of `C06_reverse_quote` are met, and its second part is sharp: the
quoted amount alone returns one unit too little, one unit more returns the ask. -/
theorem C06_quote_is_one_short : computeOfferAmount 1000000 2000000 1999 3000000000000000 = .ok (1003, 1, 6) ∧
    (∃ r, computeSwap 1000000 2000000 1003 3000000000000000 0 = .ok r ∧ r.ret = 1998) ∧
    (∃ r, computeSwap 1000000 2000000 1004 3000000000000000 0 = .ok r ∧ r.ret = 2000) := by
  refine ⟨by decide +kernel, ⟨_, rfl, rfl⟩, ⟨_, rfl, rfl⟩⟩

/-- Asking for more than the reserve yields a negative quote instead of an error. -/
theorem C06_impossible_ask_negative_quote :
    ∃ sp com, computeOfferAmount 1000000 2000000 3000000 0 = .ok (-3000000, sp, com) := by
  exact ⟨-9000000, 0, by decide +kernel⟩

/-- **C15** (quote level) Swapping `a` and swapping the whole return back yields at most
`a + 1 + (x+a)/y` (the rounding unit of the second swap), and no profit at all when
the first commission covers the rounding: `x + a - 1 ≤ commission * x`. -/
theorem C15_round_trip {x y a rate rate' : Int} {r1 r2 : ComputeSwap}
    (h1 : computeSwap x y a rate 0 = .ok r1)
    (h2 : computeSwap (y - grossOf r1) (x + a) r1.ret rate' 0 = .ok r2) :
    y * (r2.ret - a - 1) < x + a ∧
    (x + a - 1 ≤ r1.commission * x → r2.ret ≤ a) := by
  obtain ⟨hx, hy, ha, hr, hr0, hc0, hs0, q1, q2, i1, i2, c1, c2, g0, gy⟩ := quote_core h1
  obtain ⟨hx2, -, -, -, hr2, hc2, -⟩ := quote_core h2
  have k1 := (C02_gross_is_rounded_up_cp h1).2.1
  have k2 := (C02_gross_is_rounded_up_cp h2).2.1
  have k3 := (C02_gross_is_rounded_up_cp h2).2.2.1
  have e1 : grossOf r1 = r1.ret + r1.commission := rfl
  have e2 : grossOf r2 = r2.ret + r2.commission := rfl
  have hden : 0 < y - r1.commission := by omega
  have ed : y - grossOf r1 + r1.ret = y - r1.commission := by omega
  rw [ed] at k2 k3
  constructor
  · have hle : r2.ret ≤ grossOf r2 := by omega
    by_contra hlt
    have hlt : x + a ≤ y * (r2.ret - a - 1) := by omega
    have hlt' : x + a ≤ y * (grossOf r2 - a - 1) :=
      hlt.trans (mul_le_mul_of_nonneg_left (by omega) hy)
    -- (g2-1)(y-c) < (x+a) ret1, (x+a)(ret1+c-1) < y a
    have hret : (x + a) * r1.ret < y * a + (x + a) * (1 - r1.commission) := by nlinarith
    have hG : (grossOf r2 - 1) * (y - r1.commission) < y * a + (x + a) * (1 - r1.commission) := by
      nlinarith
    by_cases hgx : grossOf r2 - 1 ≤ x + a
    · nlinarith [mul_nonneg hc0 (show 0 ≤ x + a - (grossOf r2 - 1) by omega)]
    · have := (C02_gross_is_rounded_up_cp h2).2.2.2.2
      omega
  · intro hc
    have : grossOf r2 ≤ a := by
      apply k3
      nlinarith
    omega

/-- **C15** A round trip can make a profit (fee of 30 bps, reserves 10000 and
100): offering 100 returns 1, and offering that 1 back returns 101. -/
theorem C15_round_trip_can_profit : ∃ (x y a rate : Int) (r1 r2 : ComputeSwap),
    Dec.bps 30 = .ok rate ∧
    computeSwap x y a rate 0 = .ok r1 ∧
    computeSwap (y - grossOf r1) (x + a) r1.ret rate 0 = .ok r2 ∧ a < r2.ret := by
  refine ⟨10000, 100, 100, 3000000000000000, ⟨1, 0, 0, 0⟩, ⟨101, 1, 0, 0⟩, ?_, ?_, ?_, ?_⟩ <;>
    decide +kernel

/-- A fee-paying round trip meeting both hypotheses and the no-profit condition. -/
example : ∃ r1 r2, computeSwap 1000000 2000000 1000 3000000000000000 0 = .ok r1 ∧
    computeSwap (2000000 - grossOf r1) (1000000 + 1000) r1.ret 3000000000000000 0 = .ok r2 ∧
    1000000 + 1000 - 1 ≤ r1.commission * 1000000 ∧ r2.ret = 996 := by
  refine ⟨_, _, rfl, rfl, ?_, ?_⟩ <;> decide +kernel

end Phoenix.Props
