import Verif.Props.StableMore
import Verif.Spec.StableParts
/-!
C145: selling an amount to a stable pool in several swaps or in one.
-/
namespace Phoenix.Props.StableParts
open Phoenix Phoenix.Stable Phoenix.Stable.Spec Phoenix.Props.Stable

/-- A point above a curve is above every curve of a smaller invariant (helper). -/
theorem above_anti {amp D d x y : Int} (ha : 50 ≤ amp) (hd : 0 ≤ d) (hx : 0 ≤ x) (hy : 0 ≤ y) (hle : d ≤ D)
    (h : Above amp D x y) : Above amp d x y := by
  unfold Above curve at *
  have h1 : d ^ 3 ≤ D ^ 3 := pow_le_pow_left₀ hd hle 3
  have h2 : 2 * amp * (x + y - D) + 100 * D ≤ 2 * amp * (x + y - d) + 100 * d := by nlinarith
  have h3 := mul_le_mul_of_nonneg_left h2 (show 0 ≤ 4 * x * y by positivity)
  omega

/-- Raising the invariant by `e` is made up for by `5k` more of `y` when `k` is nearly as large as `e` (helper). -/
theorem above_shift {amp d e k x y : Int} (ha : 0 ≤ amp) (hd : 0 < d) (he : 0 ≤ e) (hek : 50 * e ≤ 51 * k)
    (hsmall : 20 * e ≤ 7 * d) (hx : 0 ≤ x) (hy : 0 < y) (hyd : 10 * y ≤ 11 * d) (h : Above amp d x y) :
    Above amp (d + e) x (y + 5 * k) := by
  unfold Above curve at *
  have hk : 0 ≤ k := by omega
  have hB : 0 < 2 * amp * (x + y - d) + 100 * d := by
    by_contra hn
    have : 4 * x * y * (2 * amp * (x + y - d) + 100 * d) ≤ 0 :=
      mul_nonpos_of_nonneg_of_nonpos (by positivity) (by omega)
    have : 0 ≤ 100 * d ^ 3 := by positivity
    omega
  have hB2 : 2 * amp * (x + y - d) + 100 * d ≤ 2 * amp * (x + (y + 5 * k) - (d + e)) + 100 * (d + e) := by
    have : 0 ≤ 2 * amp * (5 * k - e) := mul_nonneg (by omega) (by omega)
    nlinarith
  -- (d+e)^3 * y ≤ d^3 * (y + 5k)
  have key : (d + e) ^ 3 * y ≤ d ^ 3 * (y + 5 * k) := by
    have e1 : 20 * e * e ≤ 7 * d * e := mul_le_mul_of_nonneg_right hsmall he
    have e2 : 400 * (e * e * e) ≤ 49 * (d * d * e) := by
      have := mul_le_mul_of_nonneg_right e1 he
      have := mul_le_mul_of_nonneg_left e1 hd.le
      nlinarith
    have e3 : 20 * (d * e * e) ≤ 7 * (d * d * e) := by nlinarith
    have e4 : 400 * (3 * d ^ 2 * e + 3 * d * e ^ 2 + e ^ 3) ≤ 1669 * (d ^ 2 * e) := by nlinarith
    have e5 : 400 * (3 * d ^ 2 * e + 3 * d * e ^ 2 + e ^ 3) * y ≤ 1669 * (d ^ 2 * e) * y := mul_le_mul_of_nonneg_right e4 hy.le
    have e6 : d ^ 2 * e * (10 * y) ≤ d ^ 2 * e * (11 * d) := mul_le_mul_of_nonneg_left hyd (by positivity)
    have e7 : d ^ 3 * (50 * e) ≤ d ^ 3 * (51 * k) := mul_le_mul_of_nonneg_left hek (by positivity)
    have e8 : 0 ≤ d ^ 3 * k := by positivity
    nlinarith
  have k1 : 100 * (d + e) ^ 3 * y ≤ 100 * d ^ 3 * (y + 5 * k) := by nlinarith
  have k2 : 100 * d ^ 3 * (y + 5 * k) < 4 * x * y * (2 * amp * (x + y - d) + 100 * d) * (y + 5 * k) :=
    mul_lt_mul_of_pos_right h (by omega)
  have k3 : 100 * (d + e) ^ 3 * y < (4 * x * (y + 5 * k) * (2 * amp * (x + y - d) + 100 * d)) * y := by
    calc 100 * (d + e) ^ 3 * y ≤ _ := k1
      _ < _ := k2
      _ = _ := by ring
  have k4 := lt_of_mul_lt_mul_right k3 hy.le
  calc 100 * (d + e) ^ 3 < _ := k4
    _ ≤ _ := mul_le_mul_of_nonneg_left hB2 (by positivity)

/-- the commission on a gross payout -/
def fee (f g : Int) : Int := g * f / 10000

/-- What one swap of a pool in fair condition leaves (helper). -/
theorem fair_swap {me : Addr} {p p1 : State} {L L1 : Ledger} {c : Ctx} {sender offer : Addr} {a ret : Int}
    {mo ms mf : Option Int} {dl : Option Nat} (hP : PoolInv me p L) (hF : Fair 1 p) (hc : c.auth me = false)
    (h : swap me c p L sender offer a mo ms dl mf = .ok (p1, L1, ret)) :
    ∃ (D : Nat) (g : Int), 0 < a ∧ IsPoolToken p offer ∧
      p1 = { p with resA := p1.resA, resB := p1.resB } ∧ 0 < g ∧ ret = g - fee p.cfg.totalFeeBps g ∧
      reserve p1 offer = reserve p offer + a ∧ reserve p1 (other p offer) = reserve p (other p offer) - g ∧
      0 ≤ reserve p offer ∧ 0 ≤ reserve p1 (other p offer) ∧
      computeD p.amp.nextAmp ((reserve p offer).toNat * unitOf p.precA)
        ((reserve p (other p offer)).toNat * unitOf p.precA) = .ok D ∧
      (reserve p offer + reserve p (other p offer)) * unitOf p.precA ≤ D + 1505 ∧
      Above p.amp.nextAmp D ((reserve p offer + a) * unitOf p.precA) ((reserve p1 (other p offer) + 1) * unitOf p.precA) ∧
      (100000 : Int) ≤ unitOf p.precA ∧ 50 ≤ p.amp.nextAmp := by
  obtain ⟨hdec, hd13, hm, hr, hS⟩ := hF
  obtain ⟨x, y, b, y', D, v, hx, hy, ha, hy', hlt, hb0, -, hD, hv, hab, -⟩ := swap_curve h hc hP
  obtain ⟨lim, r, h1, h2, h3, h4, hpt, h6, h7, h8, rfl, h10, h11, h12, h13, h14, h15, h16, h17⟩ := swap_inv h hc hP.distinct.1
  have em : p.maxPrec = p.precA := by rw [hP.dec.m]; omega
  have e1 : ∀ t, precOf p t = p.precA := fun t => by unfold precOf; split <;> omega
  have hcom : r.commission = fee p.cfg.totalFeeBps (r.ret + r.commission) := by
    obtain ⟨amp, x, y, a, na, nx, sx, sy, rate, hx, hy, ha, hrate, hamp, hnx, hsx, hsy, hna, hle, hg, hs, hcom⟩ := quote_inv h8
    obtain ⟨er, r0, r1⟩ := bps_rate hrate hP.cfg.fee
    obtain ⟨c1, -, -⟩ := commission_bounds hcom (by omega) r0 r1
    rw [← hg] at c1
    rw [er] at c1
    have e : (r.ret + r.commission) * (p.cfg.totalFeeBps * 10 ^ 14) = ((r.ret + r.commission) * p.cfg.totalFeeBps) * 10 ^ 14 := by ring
    have e2 : Dec.ONE = 10000 * 10 ^ 14 := by decide
    rw [e, e2, Int.mul_ediv_mul_of_pos_left _ _ (by positivity)] at c1
    exact c1
  rw [e1, e1] at hD
  rw [em] at hab hv
  have hxy : ((x : Int) = p.resA ∧ (y : Int) = p.resB) ∨ ((x : Int) = p.resB ∧ (y : Int) = p.resA) := by
    rw [hx, hy]
    rcases hpt with rfl | rfl
    · left; simp [reserve, other, Ne.symm hP.distinct.1]
    · right; simp [reserve, other, Ne.symm hP.distinct.1]
  have hu := unitOf_pos p.precA
  have hu5 : 100000 ≤ unitOf p.precA := by
    unfold unitOf
    calc 100000 = 10 ^ 5 := by norm_num
      _ ≤ 10 ^ (18 - p.precA) := Nat.pow_le_pow_right (by norm_num) (by omega)
  have hamp : 50 ≤ p.amp.nextAmp := by
    by_contra hn
    have : p.amp.nextAmp / 100 = 0 := by omega
    rw [this] at hS
    have : (0 : Int) ≤ (p.resA + p.resB) * unitOf p.precA := by
      have := hP.a0
      have := hP.b0
      positivity
    omega
  rw [← hx, ← hy, ← hy']
  simp only [Int.toNat_natCast]
  generalize unitOf p.precA = U at *
  have hg := gap_le hD
    (by
      have : (x * U + y * U : Int) < (p.amp.nextAmp / 100 : Nat) * 2000000000000000000 - 1 := by
        rcases hxy with ⟨e, f⟩ | ⟨e, f⟩ <;> rw [e, f] <;> nlinarith
      omega)
    (by
      have q : x ≤ 1000 * y ∧ y ≤ 1000 * x := by omega
      constructor <;> nlinarith [q.1, q.2])
  have hl := Nat.lt_mul_div_succ v hu
  rw [← hv] at hl
  have h3 : (v : Int) + 1 ≤ ((y' : Int) + 1) * U := by
    have : (v : Int) + 1 ≤ U * ((y' : Int) + 1) := by exact_mod_cast hl
    linarith [mul_comm (U : Int) ((y' : Int) + 1)]
  refine ⟨D, r.ret + r.commission, h2, hpt, h15, by omega, by omega, by omega, by omega, by omega, by omega, hD, ?_, ?_, by exact_mod_cast hu5, hamp⟩
  · have : (x * U + y * U : Int) ≤ D + 1505 := by exact_mod_cast hg.2
    linarith [add_mul (x : Int) y U]
  · rw [← ha]
    exact above_mono (by positivity) (by positivity) (by positivity) (by positivity) hab h3

theorem fee_add {f g k : Int} : fee f g + fee f k ≤ fee f (g + k) ∧ fee f (g + k) ≤ fee f g + fee f k + 1 := by
  unfold fee
  rw [add_mul]
  omega

/-- What a sequence of swaps leaves and pays (helper). -/
theorem sold_core {me offer : Addr} {p p' : State} {amounts : List Int} {total : Int} (s : Sold me offer p amounts total p')
    (hn : amounts ≠ []) :
    ∃ (D : Nat) (Dl gross fees : Int), 0 ≤ reserve p offer ∧ 0 < amounts.sum ∧ 0 ≤ Dl ∧
      computeD p.amp.nextAmp ((reserve p offer).toNat * unitOf p.precA)
        ((reserve p (other p offer)).toNat * unitOf p.precA) = .ok D ∧
      (reserve p offer + reserve p (other p offer)) * unitOf p.precA ≤ D + 1505 ∧
      (100000 : Int) ≤ unitOf p.precA ∧ 50 ≤ p.amp.nextAmp ∧
      total = gross - fees ∧ fee p.cfg.totalFeeBps gross ≤ fees + (amounts.length - 1) ∧
      0 ≤ reserve p (other p offer) - gross ∧
      Above p.amp.nextAmp Dl ((reserve p offer + amounts.sum) * unitOf p.precA)
        ((reserve p (other p offer) - gross + 1) * unitOf p.precA) ∧
      (reserve p (other p offer) - gross + 1) * unitOf p.precA ≤ Dl + 1505 ∧
      D ≤ Dl + (amounts.length - 1) * (unitOf p.precA + 1505) := by
  induction s with
  | nil p => simp at hn
  | @cons c p p1 p2 L L1 sender a ret total amounts mo ms mf dl hR hF hc h rest ih =>
    obtain ⟨s0, ts, g0, ht, hp, rfl⟩ := hR
    obtain ⟨D, g, k1, k2, k3, k4, k5, k6, k7, k8, k9, k10, k11, k12, k13, k14⟩ := fair_swap (reach_swap g0 ht hp) hF hc h
    by_cases hnil : amounts = []
    · subst hnil
      cases rest
      have e : [a].sum = a := by simp
      refine ⟨D, D, g, fee p.cfg.totalFeeBps g, k8, by rw [e]; exact k1, by omega, k10, k11, k13, k14, by omega, by simp, by omega, ?_, ?_, by simp⟩
      · rw [e, ← k7]; exact k12
      · have : (reserve p (other p offer) - g + 1) * (unitOf p.precA : Int) ≤ (reserve p offer + reserve p (other p offer)) * unitOf p.precA :=
          mul_le_mul_of_nonneg_right (by omega) (by omega)
        omega
    · obtain ⟨D1, Dl, gross, fees, i1, i2, i3, i4, i5, i6, i7, i8, i9, i10, i11, i12, i13⟩ := ih hnil
      have ho : other p1 offer = other p offer := by rw [k3]; rfl
      have hU : p1.precA = p.precA := by rw [k3]
      have hA : p1.amp = p.amp := by rw [k3]
      have hf : p1.cfg = p.cfg := by rw [k3]
      rw [ho] at i10
      rw [ho, hU] at i5 i11 i12
      rw [hA] at i11
      rw [hU] at i13
      rw [hf] at i9
      rw [k6] at i5 i11
      rw [k7] at i5 i10 i11 i12 k9 k12
      have hsum := above_sum (by positivity) (by positivity) (mul_nonneg (by omega) (by omega)) (mul_nonneg (by omega) (by omega)) k12
      obtain ⟨f1, f2⟩ := fee_add (f := p.cfg.totalFeeBps) (g := g) (k := gross)
      have e1 : reserve p (other p offer) - (g + gross) = reserve p (other p offer) - g - gross := by ring
      refine ⟨D, Dl, g + gross, fee p.cfg.totalFeeBps g + fees, k8, by rw [List.sum_cons]; omega, i3, k10, k11, k13, k14, by omega, ?_, by omega, ?_, ?_, ?_⟩
      · rw [List.length_cons]; push_cast; omega
      · rw [e1, List.sum_cons, ← add_assoc]; exact i11
      · rw [e1]; exact i12
      · rw [List.length_cons]; push_cast
        have : ((amounts.length : Int) + 1 - 1) * (unitOf p.precA + 1505)
          = (amounts.length - 1) * (unitOf p.precA + 1505) + unitOf p.precA + 1505 := by ring
        have e2 : (reserve p offer + a) * (unitOf p.precA : Int) + (reserve p (other p offer) - g + 1) * unitOf p.precA
          = (reserve p offer + a + (reserve p (other p offer) - g)) * unitOf p.precA + unitOf p.precA := by ring
        omega

/-- **C145** Selling an amount to a stable pool in `n` swaps instead of one brings at most 6 units more per
additional swap, and one unit: as long as the pool is in fair condition at each swap and the whole sale leaves
enough of the bought token (the condition of C117). -/
theorem C145_parts_gain_little {me offer : Addr} {p p' : State} {amounts : List Int} {total : Int}
    (s : Sold me offer p amounts total p') (hn : amounts ≠ []) {now : Nat} {ask spread commission tot : Int}
    (one : simulateSwap now p offer amounts.sum = .ok (ask, spread, commission, tot))
    (hrest : 2 * 10 ^ 24 ≤ (reserve p (other p offer) - (ask + commission) - 2) * (unitOf p.precA : Int) ^ 2) :
    total ≤ ask + 6 * (amounts.length - 1) + 1 := by
  have hRF : (∃ L, PoolInv me p L) ∧ Fair 1 p := by
    cases s with
    | nil => simp at hn
    | cons hR hF _ _ _ =>
      obtain ⟨s0, ts, g0, ht, hp, rfl⟩ := hR
      exact ⟨⟨_, reach_swap g0 ht hp⟩, hF⟩
  obtain ⟨⟨L, hP⟩, hF⟩ := hRF
  obtain ⟨D, Dl, gross, fees, k1, k2, k3, k4, k5, k6, k7, k8, k9, k10, k11, k12, k13⟩ := sold_core s hn
  obtain ⟨x, a, y', D', hx, ha, hy', hg0, hcom, -, hD, -, hB⟩ := sim_curve hP one hF.1
  rw [k4] at hD
  cases hD
  have hb := hB (by have := hF.2.1; omega) (by rw [hy']; exact hrest)
  rw [hy'] at hb
  have hlen : 1 ≤ amounts.length := List.length_pos_iff.mpr hn
  have hgross : gross ≤ ask + commission + 5 * (amounts.length - 1) + 1 := by
    by_contra hcon
    generalize reserve p (other p offer) = y at *
    generalize reserve p offer = x0 at *
    generalize hU : (unitOf p.precA : Int) = U at *
    generalize hX : (x0 + amounts.sum) * U = X at *
    have hm0 : (0 : Int) ≤ amounts.length - 1 := by omega
    generalize (amounts.length : Int) - 1 = m at *
    have hX0 : 0 ≤ X := by rw [← hX]; exact mul_nonneg (by omega) (by omega)
    have hY : U ≤ (y - gross + 1) * U := by
      have : 1 * U ≤ (y - gross + 1) * U := mul_le_mul_of_nonneg_right (by omega) (by omega)
      omega
    have hw : (y - gross + 1 + 5 * m) * U ≤ (y - (ask + commission) - 1) * U := mul_le_mul_of_nonneg_right (by omega) (by omega)
    have hw' : (y - gross + 1 + 5 * m) * U = (y - gross + 1) * U + 5 * (m * U) := by ring
    have hmU : 0 ≤ m * U := mul_nonneg hm0 (by omega)
    have hmU' : m * (U + 1505) = m * U + 1505 * m := by ring
    have hmU2 : m * 100000 ≤ m * U := mul_le_mul_of_nonneg_left k6 hm0
    have hyU : (y - (ask + commission) - 1) * U + U ≤ (x0 + y) * U := by
      have : (y - (ask + commission) - 1 + 1) * U ≤ (x0 + y) * U := mul_le_mul_of_nonneg_right (by omega) (by omega)
      have e : (y - (ask + commission) - 1 + 1) * U = (y - (ask + commission) - 1) * U + U := by ring
      omega
    generalize (y - gross + 1) * U = Y at *
    have fin : ∀ Z, Above p.amp.nextAmp D X Z → 0 ≤ Z → Z ≤ (y - (ask + commission) - 1) * U → False := by
      intro Z h1 h2 h3
      have := above_mono (by positivity) (by positivity) hX0 h2 h1 h3
      unfold Above at this
      unfold OnOrBelow at hb
      omega
    by_cases hle : (D : Int) ≤ Dl
    · exact fin Y (above_anti (by exact_mod_cast k7) (by positivity) hX0 (by omega) hle k11) (by omega) (by omega)
    · obtain ⟨e, he⟩ : ∃ e, (D : Int) = Dl + e := ⟨D - Dl, by ring⟩
      by_cases hs : 20 * e ≤ 7 * Dl
      · refine fin (Y + 5 * (m * U)) ?_ (by omega) (by omega)
        rw [he]
        exact above_shift (by positivity) (by omega) (by omega) (by omega) hs hX0 (by omega) (by omega) k11
      · omega
  have hfee : fee p.cfg.totalFeeBps (ask + commission) = commission := hcom.symm
  obtain ⟨q0, q1⟩ := hP.cfg.fee
  have hnet : gross - fee p.cfg.totalFeeBps gross ≤ ask + 5 * (amounts.length - 1) + 1 := by
    have hm0 : (0 : Int) ≤ amounts.length - 1 := by omega
    generalize (amounts.length : Int) - 1 = m at *
    unfold fee at *
    rcases le_total (ask + commission) gross with hle | hle
    · have h1 : (ask + commission) * p.cfg.totalFeeBps ≤ gross * p.cfg.totalFeeBps := mul_le_mul_of_nonneg_right hle q0
      omega
    · have h1 : (ask + commission - gross) * p.cfg.totalFeeBps ≤ (ask + commission - gross) * 10000 :=
        mul_le_mul_of_nonneg_left q1 (by omega)
      have h2 : (ask + commission - gross) * p.cfg.totalFeeBps = (ask + commission) * p.cfg.totalFeeBps - gross * p.cfg.totalFeeBps := by ring
      omega
  omega

/-- **C145** Parts can bring much less, the trade's price impact is charged again for each part: in a reachable
pool of 0.9 : 0.9 tokens with A = 3, one sale of 0.5 takes 4303914 units out of the pool, two halves 4166552,
3.2 % less; with A = 1 the sale of 0.6 goes through, and of its two halves the second is refused. -/
theorem C145_parts_can_lose :
    Genesis 100 (exStart 7 7) ∧ (∀ amp, ∀ t ∈ exHist amp 9000000 9000000, Possible 100 t) ∧
    view (run 100 (exStart 7 7) (exHist 3 9000000 9000000 ++ [Stable.exSwap 10 5000000])) = some (17999000, 14000000, 9000000 - 4303914) ∧
    view (run 100 (exStart 7 7) (exHist 3 9000000 9000000 ++ [Stable.exSwap 10 2500000, Stable.exSwap 10 2500000]))
      = some (17999000, 14000000, 9000000 - 4166552) ∧
    view (run 100 (exStart 7 7) (exHist 1 9000000 9000000 ++ [Stable.exSwap 10 6000000])) = some (17999000, 15000000, 4589466) ∧
    view (run 100 (exStart 7 7) (exHist 1 9000000 9000000 ++ [Stable.exSwap 10 3000000])) = some (17999000, 12000000, 6437253) ∧
    view (run 100 (exStart 7 7) (exHist 1 9000000 9000000 ++ [Stable.exSwap 10 3000000, Stable.exSwap 10 3000000]))
      = some (17999000, 12000000, 6437253) := by
  refine ⟨exStart_genesis 7 7, ?_, ?_, ?_, ?_, ?_, ?_⟩
  · intro amp t ht
    simp only [exHist, List.mem_cons, List.not_mem_nil, or_false] at ht
    rcases ht with rfl | rfl <;> refine ⟨rfl, ?_⟩ <;> simp [exInit]
  all_goals decide +kernel

/-- After a swap the pool is one that can come about (helper). -/
theorem reached_swap {me : Addr} {p p1 : State} {L L1 : Ledger} {c : Ctx} {sender offer : Addr} {a ret : Int}
    {mo ms mf : Option Int} {dl : Option Nat} (hR : Reached me p L) (hc : c.auth me = false)
    (h : swap me c p L sender offer a mo ms dl mf = .ok (p1, L1, ret)) : Reached me p1 L1 := by
  obtain ⟨s, ts, g, ht, hp, rfl⟩ := hR
  have e : run me s (ts ++ [.pool c (.swap sender offer a mo ms dl mf)]) = ⟨some p1, L1⟩ := by
    unfold run at *
    rw [List.foldl_append]
    simp only [List.foldl_cons, List.foldl_nil]
    have : step me (List.foldl (exec me) s ts) (.pool c (.swap sender offer a mo ms dl mf)) = .ok ⟨some p1, L1⟩ := by
      simp only [step, bind_ok]
      exact ⟨p, by rw [hp]; rfl, _, h, rfl⟩
    unfold exec at *
    rw [this]
  refine ⟨s, ts ++ [.pool c (.swap sender offer a mo ms dl mf)], g, ?_, by rw [e], by rw [e]⟩
  intro t h'
  rcases List.mem_append.mp h' with h' | h'
  · exact ht t h'
  · rw [List.mem_singleton] at h'
    subst h'
    exact ⟨hc, trivial⟩

/-- `Fair`, with the numbers a pool shows (helper) -/
def fairNow (p : State) : Bool :=
  p.precA == p.precB && decide (p.precA ≤ 13) && decide (1 ≤ p.resA + p.resB) && decide (p.resA ≤ 1000 * p.resB) &&
    decide (p.resB ≤ 1000 * p.resA) && decide ((p.resA + p.resB) * unitOf p.precA < (p.amp.nextAmp / 100 : Nat) * 2000000000000000000 - 1)

theorem fairNow_fair {p : State} (h : fairNow p = true) : Fair 1 p := by
  simp only [fairNow, Bool.and_eq_true, beq_iff_eq, decide_eq_true_eq] at h
  obtain ⟨⟨⟨⟨⟨h1, h2⟩, h3⟩, h4⟩, h5⟩, h6⟩ := h
  exact ⟨h1, h2, h3, ⟨h4, h5⟩, h6⟩

/-- the hypotheses hold for two sales of 0.3 token to a 2 : 2 pool with A = 100: they bring 4516 units less than one of 0.6 -/
example : ∃ p p2 : State, Sold 100 10 p [3000000, 3000000] (2986466 + (2971603 + 0)) p2 ∧
    ∃ spread tot, simulateSwap 10 p 10 [3000000, 3000000].sum = .ok (5962585, spread, 17941, tot) ∧
    2 * 10 ^ 24 ≤ (reserve p (other p 10) - (5962585 + 17941) - 2) * (unitOf p.precA : Int) ^ 2 := by
  obtain ⟨⟨p, p1, p2, L1, L2, r1, r2, a, b, k, t⟩, h, hP⟩ := exists_of_okAnd
    (x := do
      let p ← loaded (run 100 (exStart 7 7) (exHist 100 20000000 20000000)).pool
      let (p1, L1, r1) ← swap 100 (by' 2) p (run 100 (exStart 7 7) (exHist 100 20000000 20000000)).led 2 10 3000000 none none none none
      let (p2, L2, r2) ← swap 100 (by' 2) p1 L1 2 10 3000000 none none none none
      let (a, b, k, t) ← simulateSwap 10 p 10 6000000
      (.ok (p, p1, p2, L1, L2, r1, r2, a, b, k, t) : Res _))
    (P := fun q => fairNow q.1 = true ∧ fairNow q.2.1 = true ∧ q.2.2.2.2.2.1 = 2986466 ∧ q.2.2.2.2.2.2.1 = 2971603 ∧
      q.2.2.2.2.2.2.2.1 = 5962585 ∧ q.2.2.2.2.2.2.2.2.2.1 = 17941 ∧
      2 * 10 ^ 24 ≤ (reserve q.1 (other q.1 10) - (5962585 + 17941) - 2) * (unitOf q.1.precA : Int) ^ 2) (by decide +kernel)
  simp only [bind_ok, ok_inj, Prod.exists, Prod.mk.injEq] at h
  obtain ⟨p, hp, p1, L1, r1, h1, p2, L2, r2, h2, a, b, k, t, h3, rfl, rfl, rfl, rfl, rfl, rfl, rfl, rfl, rfl, rfl, rfl⟩ := h
  simp only [decide_eq_true_eq] at hP
  obtain ⟨f1, f2, rfl, rfl, rfl, rfl, hP⟩ := hP
  have hR : Reached 100 p (run 100 (exStart 7 7) (exHist 100 20000000 20000000)).led := by
    refine ⟨exStart 7 7, exHist 100 20000000 20000000, exStart_genesis 7 7, ?_, loaded_some hp, rfl⟩
    intro t ht
    simp only [exHist, List.mem_cons, List.not_mem_nil, or_false] at ht
    rcases ht with rfl | rfl <;> refine ⟨rfl, ?_⟩ <;> simp [exInit]
  exact ⟨p, p2, .cons hR (fairNow_fair f1) rfl h1 (.cons (reached_swap hR rfl h1) (fairNow_fair f2) rfl h2 (.nil _)), b, t, h3, hP⟩

end Phoenix.Props.StableParts
