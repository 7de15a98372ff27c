import Verif.Props.StableSwap
import Verif.Props.PoolSwap
/-!
Property theorems about what reverse quotes say: C141.
-/
namespace Phoenix.Props.Reverse
open Phoenix

/-- The amount before commission that a reverse quote starts from, and its commission. -/
theorem gross_core {ask rate omc inv g com : Int} (hask : 0 ≤ ask) (hr0 : 0 ≤ rate) (hr1 : rate ≤ Dec.ONE)
    (h1 : Dec.sub Dec.ONE rate = .ok omc) (h2 : Dec.div Dec.ONE omc = .ok inv) (h3 : Dec.mulInt ask inv = .ok g)
    (h4 : Dec.mulInt g rate = .ok com) :
    ask ≤ g ∧ com = g * rate / Dec.ONE ∧ g ≤ ask + com ∧ ask + com ≤ g + 1 + ask / Dec.ONE ∧ 0 ≤ com := by
  have hD : (0:Int) < Dec.ONE := by decide
  unfold Dec.sub at h1
  unfold Dec.div at h2
  simp only [subI_ok, Dec.fromRatio_ok] at h1 h2
  obtain ⟨-, rfl⟩ := h1
  obtain ⟨hne, -, -, hinv⟩ := h2
  have hw : 0 < Dec.ONE - rate := by omega
  rw [tdiv_nonneg_eq (by positivity)] at hinv
  have hib := ediv_bounds (a := Dec.ONE * Dec.ONE) (b := Dec.ONE - rate) hw
  rw [hinv] at hib
  have hinv1 : Dec.ONE ≤ inv := by
    rw [← hinv]
    apply Int.le_ediv_of_mul_le hw
    nlinarith
  have hinv0 : 0 ≤ inv := by omega
  have hb := Dec.mulInt_val h3
  rw [tdiv_nonneg_eq (by positivity)] at hb
  have hbb := ediv_bounds (a := ask * inv) (b := Dec.ONE) hD
  rw [← hb] at hbb
  have hga : ask ≤ g := by
    rw [hb]
    apply Int.le_ediv_of_mul_le hD
    exact mul_le_mul_of_nonneg_left hinv1 hask
  have hg0 : 0 ≤ g := by omega
  obtain ⟨c1, c2, c3⟩ := Stable.commission_bounds h4 hg0 hr0 hr1
  have hcb := ediv_bounds (a := g * rate) (b := Dec.ONE) hD
  rw [← c1] at hcb
  have key1 : g * (Dec.ONE - rate) ≤ ask * Dec.ONE := by
    have t1 : Dec.ONE * g * (Dec.ONE - rate) ≤ ask * inv * (Dec.ONE - rate) :=
      mul_le_mul_of_nonneg_right hbb.1 hw.le
    have t2 : ask * ((Dec.ONE - rate) * inv) ≤ ask * (Dec.ONE * Dec.ONE) :=
      mul_le_mul_of_nonneg_left hib.1 hask
    have t3 : (g * (Dec.ONE - rate)) * Dec.ONE ≤ (ask * Dec.ONE) * Dec.ONE := by nlinarith
    exact le_of_mul_le_mul_right t3 hD
  refine ⟨hga, c1, ?_, ?_, c2⟩
  · by_contra hn
    have h5 : ask + com + 1 ≤ g := by omega
    have h6 := mul_le_mul_of_nonneg_right h5 hD.le
    nlinarith [hcb.2]
  · have t2 : ask * inv * (Dec.ONE - rate) < Dec.ONE * (g + 1) * (Dec.ONE - rate) := by
      apply mul_lt_mul_of_pos_right _ hw
      linarith [hbb.2]
    have t3 : ask * (Dec.ONE * Dec.ONE - (Dec.ONE - rate)) ≤ ask * (inv * (Dec.ONE - rate)) :=
      mul_le_mul_of_nonneg_left (by linarith [hib.2]) hask
    have t4 : ask * (Dec.ONE * Dec.ONE - Dec.ONE) ≤ ask * (Dec.ONE * Dec.ONE - (Dec.ONE - rate)) :=
      mul_le_mul_of_nonneg_left (by linarith) hask
    have t1 : g * (Dec.ONE - rate) ≤ (g - com) * Dec.ONE := by nlinarith [hcb.1]
    have t6 : (g + 1) * (Dec.ONE - rate) ≤ (g - com + 1) * Dec.ONE := by nlinarith
    have t5 : ask * (Dec.ONE - 1) < (g - com + 1) * Dec.ONE := by
      have : (ask * (Dec.ONE - 1)) * Dec.ONE < ((g - com + 1) * Dec.ONE) * Dec.ONE := by nlinarith
      exact lt_of_mul_lt_mul_right this hD.le
    have hk := ediv_bounds (a := ask) (b := Dec.ONE) hD
    by_contra hlt
    have hlt' : g - com + 1 + ask / Dec.ONE + 1 ≤ ask := by omega
    nlinarith [mul_le_mul_of_nonneg_right hlt' hD.le]

theorem fee_div {g f : Int} : g * (f * 100000000000000) / Dec.ONE = g * f / 10000 := by
  have e : Dec.ONE = 10000 * 100000000000000 := by decide
  rw [e, ← mul_assoc, Int.mul_ediv_mul_of_pos_left _ _ (by norm_num)]

/-- **C141** What `simulate_reverse_swap` of a constant product pool says, for `ask` units of the token `tok`.  There is an amount `g`, which is what
the pool must release so that `ask` is left after the commission: the announced commission is the fee on `g`, and `g` is
`ask` plus that commission up to one unit (and one part in 10^18).  The quoted offer is the one for which the pool releases
`g`, and the announced spread is what the offer is worth at the current price less `g`. -/
theorem C141_xyk_reverse_quote {p : Pool.State} {tok : Addr} {ask q sp com : Int}
    (hne : p.cfg.tokenA ≠ p.cfg.tokenB) (hA : 0 ≤ p.resA) (hB : 0 ≤ p.resB)
    (hfee : 0 ≤ p.cfg.totalFeeBps ∧ p.cfg.totalFeeBps ≤ 10000) (hask : 0 ≤ ask)
    (h : Pool.simulateReverseSwap p tok ask = .ok (q, sp, com)) (hq : 0 ≤ q) :
    ∃ g, ask ≤ g ∧ com = g * p.cfg.totalFeeBps / 10000 ∧ g ≤ ask + com ∧ ask + com ≤ g + 1 + ask / 10 ^ 18 ∧
      g < Spec.reserve p tok ∧
      q = Spec.reserve p (Spec.other p tok) * Spec.reserve p tok / (Spec.reserve p tok - g) - Spec.reserve p (Spec.other p tok) ∧
      sp = q * Spec.reserve p tok / Spec.reserve p (Spec.other p tok) - g := by
  unfold Pool.simulateReverseSwap Pool.reverseSides at h
  simp only [bind_ok, Dec.bps_ok] at h
  obtain ⟨⟨x, y⟩, hxy, rate, ⟨-, rfl⟩, hof⟩ := h
  have hD : p.cfg.totalFeeBps * 100000000000000 ≤ Dec.ONE := by unfold Dec.ONE; omega
  have hs : x = Spec.reserve p (Spec.other p tok) ∧ y = Spec.reserve p tok ∧ 0 ≤ x ∧ 0 ≤ y := by
    split at hxy
    · rename_i e
      rw [ok_inj, Prod.mk.injEq] at hxy
      simp [Spec.other, Spec.reserve, e, Ne.symm hne, ← hxy.1, ← hxy.2, hA, hB]
    · split at hxy
      · rename_i e
        rw [ok_inj, Prod.mk.injEq] at hxy
        simp [Spec.other, Spec.reserve, e, Ne.symm hne, ← hxy.1, ← hxy.2, hA, hB]
      · simp at hxy
  obtain ⟨e1, e2, hx, hy⟩ := hs
  rw [← e1, ← e2]
  unfold Pool.computeOfferAmount at hof
  simp only [bind_ok, mulI_ok, subI_ok, divI_ok, ok_inj, Prod.mk.injEq] at hof
  obtain ⟨cp, ⟨-, rfl⟩, omc, homc, inv, hinv, g, hg, den, ⟨-, rfl⟩, q0, ⟨hden, -, rfl⟩, off, ⟨-, hof⟩, g', hg', m, ⟨-, rfl⟩,
    d, ⟨hx0, -, rfl⟩, s, ⟨-, hs⟩, c, hc, rfl, rfl, rfl⟩ := hof
  have eg : g' = g := by rw [hg] at hg'; exact (ok_inj.mp hg').symm
  subst eg
  obtain ⟨k1, k2, k3, k4, k5⟩ := gross_core hask (by omega) hD homc hinv hg hc
  rw [fee_div] at k2
  have hdpos : 0 < y - g' := by
    by_contra hn
    have hneg : y - g' < 0 := by omega
    have : (x * y).tdiv (y - g') ≤ 0 := Int.tdiv_nonpos_of_nonneg_of_nonpos (by positivity) hneg.le
    omega
  rw [tdiv_nonneg_eq (by positivity)] at hof hs
  exact ⟨g', k1, k2, k3, k4, by omega, hof.symm, hs.symm⟩

open Phoenix.Stable Phoenix.Stable.Spec Phoenix.Props.Stable

theorem two_sided {amp x' x y target r : Nat} (h : calcY amp x' x y target = .ok r) :
    ∃ D : Nat, computeD amp x y = .ok D ∧ Above amp D x' ((r + 1) * unitOf target) ∧
      (2 * 10 ^ 12 + 1 ≤ (r : Int) * unitOf target → OnOrBelow amp D x' ((r : Int) * unitOf target - 10 ^ 12 - 1)) := by
  obtain ⟨d, v, b, cc, hD, x0, a0, hc, hb, ⟨u, u1, u2, u3⟩, -, hr⟩ := calcY_inv h
  have hab := above_of_iterate x0 a0 hc hb (newton_above u1 u2)
  have h2 := Nat.lt_mul_div_succ v (unitOf_pos target)
  rw [← hr] at h2
  have h3 : (v : Int) + 1 ≤ unitOf target * ((r : Int) + 1) := by exact_mod_cast h2
  have hle : (r : Int) * unitOf target ≤ v := by
    have := Nat.div_mul_le_self v (unitOf target)
    rw [← hr] at this
    exact_mod_cast this
  have hT : (TOL : Int) = 10 ^ 12 := by decide
  refine ⟨d, hD, ?_, fun hbig => ?_⟩
  · have h4 : Above amp d x' (((r : Int) + 1) * unitOf target) := by
      refine above_mono (by positivity) (by positivity) (by positivity) (by positivity) hab ?_
      linarith [mul_comm (unitOf target : Int) ((r : Int) + 1)]
    exact_mod_cast h4
  · have hs := above_sum (by positivity) (by positivity) (by positivity) (by positivity) hab
    have hb' : (x' : Int) ≤ b := by
      rw [hb]; push_cast
      have : (0:Int) ≤ 100 * (d:Int) / (2 * (amp : Int)) := by positivity
      omega
    have hbel := newton_below u1 u2 u3 (by omega)
    have hbe := below_of_iterate (z := (v : Int) - TOL - 1) x0 a0 (by omega) hc hb
      (by have e : (v : Int) - TOL - 1 + 1 = v - TOL := by ring
          rw [e]; exact hbel)
    rw [hT] at hbe
    unfold OnOrBelow at *
    by_contra hn
    have : Above amp d x' ((r : Int) * unitOf target - 10 ^ 12 - 1) := by
      unfold Above; omega
    have := above_mono (y' := (v : Int) - 10 ^ 12 - 1) (by positivity) (by positivity) (by positivity) (by omega) this (by omega)
    unfold Above at this
    omega

theorem curve_comm (amp D x y : Int) : curve amp D x y = curve amp D y x := by unfold curve; ring

/-- The facts contained in a reverse quote of a stable pool. -/
theorem reverse_inv {me : Addr} {p : Stable.State} {L : Ledger} (hP : PoolInv me p L) {now : Nat} {offer : Addr} {ask q sp com : Int}
    (h : Stable.simulateReverseSwap now p offer ask = .ok (q, sp, com)) :
    ∃ (x y g nx newY sx sy : Nat), (x : Int) = reserve p offer ∧ (y : Int) = reserve p (other p offer) ∧ IsPoolToken p offer ∧
      ask ≤ g ∧ 0 ≤ ask ∧ com = (g : Int) * p.cfg.totalFeeBps / 10000 ∧ g ≤ ask + com ∧ ask + com ≤ g + 1 + ask / 10 ^ 18 ∧
      g ≤ y ∧ scaleValue (y - g) p.maxPrec 18 = .ok newY ∧ scaleValue x (precOf p offer) 18 = .ok sx ∧
      scaleValue y (precOf p (other p offer)) 18 = .ok sy ∧ calcY p.amp.nextAmp newY sx sy p.maxPrec = .ok nx ∧
      (nx : Int) = x + q ∧ 0 ≤ q ∧ sp = max (q - ask) 0 := by
  unfold Stable.simulateReverseSwap Stable.computeOfferAmount at h
  simp only [bind_ok, toU128_ok, toI128_ok, subU_ok, ok_inj, Prod.mk.injEq] at h
  obtain ⟨⟨s, b⟩, hsd, x, hx, y, hy, a, ha, rate, hrate, amp, hamp, omc, homc, inv, hinv, ai, ⟨-, rfl⟩, g, hg, gu, hgu, _, ⟨hle, rfl⟩,
    newY, hnY, sx, hsx, sy, hsy, nx, hnx, off, ⟨hle2, rfl⟩, c, hc, o, ⟨-, rfl⟩, spi, ⟨-, rfl⟩, rfl, rfl, rfl⟩ := h
  obtain ⟨k1, k2, k3, k4⟩ := sides_inv hsd hP.distinct.1
  obtain ⟨r1, r2, r3⟩ := bps_rate hrate hP.cfg.fee
  have e := currentAmp_const hamp hP.amp
  subst e
  subst k2 k3
  obtain ⟨j1, j2, j3, j4, j5⟩ := gross_core (by omega) r2 r3 homc hinv hg hc
  have r1' : rate = p.cfg.totalFeeBps * 100000000000000 := by rw [r1]; norm_num
  rw [r1', fee_div] at j2
  simp only at hx hy hsx hsy
  refine ⟨x, y, gu, nx, newY, sx, sy, by omega, by omega, k1, by omega, by omega, ?_, by omega, ?_, hle, hnY, hsx, hsy, hnx, by omega, by omega, by omega⟩
  · rw [j2]; congr 2; omega
  · have : (10 : Int) ^ 18 = Dec.ONE := by decide
    rw [this]
    have e : ask = a := by omega
    rw [e]; omega

/-- **C141** What `simulate_reverse_swap` of a stable pool says about commission and spread.  As above, `g` is what the pool must release; the
announced spread is the offer less the amount asked for. -/
theorem C141_stable_commission_and_spread {me : Addr} {s : Sys} (h0 : Genesis me s) {ts : List Tx}
    (ht : ∀ t ∈ ts, Possible me t) {p : Stable.State} (hp : (run me s ts).pool = some p) {now : Nat} {offer : Addr} {ask q sp com : Int}
    (h : Stable.simulateReverseSwap now p offer ask = .ok (q, sp, com)) :
    IsPoolToken p offer ∧ 0 ≤ ask ∧ 0 ≤ q ∧ sp = max (q - ask) 0 ∧
      ∃ g, ask ≤ g ∧ g ≤ reserve p (other p offer) ∧ com = g * p.cfg.totalFeeBps / 10000 ∧
        g ≤ ask + com ∧ ask + com ≤ g + 1 + ask / 10 ^ 18 := by
  obtain ⟨x, y, g, nx, nY, sx, sy, e1, e2, e3, e4, e5, e6, e7, e8, e9, -, -, -, -, -, e10, e11⟩ := reverse_inv (reach_swap h0 ht hp) h
  exact ⟨e3, e5, e10, e11, g, e4, by omega, e6, e7, e8⟩

theorem fee_mono {G g f : Int} (hf : 0 ≤ f ∧ f ≤ 10000) (h : G ≤ g) :
    G * f / 10000 ≤ g * f / 10000 ∧ G - G * f / 10000 ≤ g - g * f / 10000 := by
  have k1 := mul_le_mul_of_nonneg_right h hf.1
  have k2 : (g - G) * f ≤ (g - G) * 10000 := mul_le_mul_of_nonneg_left hf.2 (by omega)
  have e1 : (g - G) * f = g * f - G * f := by ring
  rw [e1] at k2
  generalize g * f = A at *
  generalize G * f = B at *
  omega

/-- The facts contained in a quote of a stable pool. -/
theorem forward_inv {me : Addr} {p : Stable.State} {L : Ledger} (hP : PoolInv me p L) {now : Nat} {offer : Addr} {a ret sp com tot : Int}
    (h : Stable.simulateSwap now p offer a = .ok (ret, sp, com, tot)) :
    ∃ (x y b y' newX sx sy : Nat), (x : Int) = reserve p offer ∧ (y : Int) = reserve p (other p offer) ∧ (b : Int) = a ∧
      scaleValue (x + b) p.maxPrec 18 = .ok newX ∧ scaleValue x (precOf p offer) 18 = .ok sx ∧
      scaleValue y (precOf p (other p offer)) 18 = .ok sy ∧ calcY p.amp.nextAmp newX sx sy p.maxPrec = .ok y' ∧
      y' ≤ y ∧ ret + com = y - y' ∧ com = ((y : Int) - y') * p.cfg.totalFeeBps / 10000 := by
  unfold Stable.simulateSwap at h
  simp only [bind_ok, addI_ok, ok_inj, Prod.mk.injEq] at h
  obtain ⟨⟨s, b⟩, hsd, r, hr, _, -, _, -, rfl, rfl, rfl, -⟩ := h
  obtain ⟨k1, k2, k3, k4⟩ := sides_inv hsd hP.distinct.1
  subst k2 k3
  obtain ⟨amp, x, y, a', na, nx, sx, sy, rate, hx, hy, ha, hrate, hamp, hnx, hsx, hsy, hna, hle, hg, hs, hcom⟩ := quote_inv hr
  have e := currentAmp_const hamp hP.amp
  subst e
  obtain ⟨r1, r2, r3⟩ := bps_rate hrate hP.cfg.fee
  have r1' : rate = p.cfg.totalFeeBps * 100000000000000 := by rw [r1]; norm_num
  obtain ⟨c1, -, -⟩ := commission_bounds hcom (by omega) r2 r3
  rw [r1', fee_div] at c1
  exact ⟨x, y, a', na, nx, sx, sy, hx, hy, ha, hnx, hsx, hsy, hna, hle, hg, c1⟩

/-- **C141** The quote is enough up to the tolerance of the solver: in a reachable stable pool of two tokens with the same number of decimals,
offering one unit more than quoted returns at least the amount asked for, less one unit, 10⁻⁶ of a token and one part in
10^18, as long as 2·10⁻⁶ of a token are left in the pool. -/
theorem C141_stable_quote_is_enough {me : Addr} {s : Sys} (h0 : Genesis me s) {ts : List Tx}
    (ht : ∀ t ∈ ts, Possible me t) {p : Stable.State} (hp : (run me s ts).pool = some p) (hdec : p.precA = p.precB)
    {now now' : Nat} {offer : Addr} {ask q sp com ret sp' com' tot : Int}
    (h : Stable.simulateReverseSwap now p offer ask = .ok (q, sp, com))
    (h' : Stable.simulateSwap now' p offer (q + 1) = .ok (ret, sp', com', tot))
    (hrest : 2 * 10 ^ 12 + 1 ≤ (reserve p (other p offer) - ret - com') * unitOf p.precA) :
    (ask - ret - 1 - ask / 10 ^ 18) * unitOf p.precA ≤ 10 ^ 12 := by
  have hP := reach_swap h0 ht hp
  obtain ⟨x, y, g, nx, nY, sx, sy, e1, e2, e3, e4, e5, e6, e7, e8, e9, f1, f2, f3, f4, f5, f6, -⟩ := reverse_inv hP h
  obtain ⟨x1, y1, b, y', nX, sx1, sy1, g1, g2, g3, l1, l2, l3, l4, l5, l6, l7⟩ := forward_inv hP h'
  have ex : x1 = x := by omega
  have ey : y1 = y := by omega
  subst ex ey
  have em : p.maxPrec = p.precA := by rw [hP.dec.m]; omega
  rw [f2, ok_inj] at l2
  rw [f3, ok_inj] at l3
  subst l2 l3
  obtain ⟨D, hD, a1, a2⟩ := two_sided f4
  obtain ⟨D', hD', b1, b2⟩ := two_sided l4
  rw [hD, ok_inj] at hD'
  subst hD'
  have s1 := scaleValue_le f1 hP.dec.le
  have s2 := scaleValue_le l1 hP.dec.le
  rw [em] at a1 a2 b1 b2 s1 s2
  have u0 : (0 : Int) < unitOf p.precA := by exact_mod_cast unitOf_pos p.precA
  have hnx : ((nx : Int) + 1) * unitOf p.precA = nX := by
    rw [s2]; push_cast; rw [show (nx : Int) + 1 = x1 + b by omega]
  have hnY : (nY : Int) = (y1 - g) * unitOf p.precA := by
    rw [s1]; push_cast [e9]; ring
  have hb := b2 (by rw [show (y' : Int) = reserve p (other p offer) - ret - com' by omega]; exact hrest)
  have a1' : Above p.amp.nextAmp D nX nY := by
    have : Above p.amp.nextAmp D nY (((nx : Int) + 1) * unitOf p.precA) := by exact_mod_cast a1
    rw [hnx] at this
    unfold Above at *
    rw [curve_comm]; exact this
  have hlt : (y' : Int) * unitOf p.precA - 10 ^ 12 - 1 < nY := by
    by_contra hn
    have := above_mono (by positivity) (by positivity) (by positivity) (by positivity) a1' (not_lt.mp hn)
    unfold Above at this
    unfold OnOrBelow at hb
    omega
  rw [hnY] at hlt
  -- what is paid falls short of `g` by `10 ^ 12` at most
  have hG : ((g : Int) - (y1 - y')) * unitOf p.precA ≤ 10 ^ 12 := by
    have : ((g : Int) - (y1 - y')) * unitOf p.precA = (y' : Int) * unitOf p.precA - (y1 - g) * unitOf p.precA := by ring
    rw [this]; omega
  rcases le_total (g : Int) (y1 - y') with hge | hle
  · have := (fee_mono hP.cfg.fee hge).2
    have hk : ask - ret - 1 - ask / 10 ^ 18 ≤ 0 := by omega
    have := mul_nonpos_of_nonpos_of_nonneg hk u0.le
    omega
  · have := (fee_mono hP.cfg.fee hle).1
    have hk : ask - ret - 1 - ask / 10 ^ 18 ≤ (g : Int) - (y1 - y') := by omega
    exact le_trans (mul_le_mul_of_nonneg_right hk u0.le) hG

/-- **C141** The quote is not too much either: offering less than quoted by 10⁻⁶ of a token (and 10⁻¹⁸) never returns more than
the amount asked for. -/
theorem C141_stable_quote_not_too_much {me : Addr} {s : Sys} (h0 : Genesis me s) {ts : List Tx}
    (ht : ∀ t ∈ ts, Possible me t) {p : Stable.State} (hp : (run me s ts).pool = some p) (hdec : p.precA = p.precB)
    {now now' : Nat} {offer : Addr} {ask q sp com a ret sp' com' tot : Int}
    (h : Stable.simulateReverseSwap now p offer ask = .ok (q, sp, com))
    (hrest : 2 * 10 ^ 12 + 1 ≤ (reserve p offer + q) * unitOf p.precA)
    (ha : 10 ^ 12 + 1 ≤ (q - a) * unitOf p.precA)
    (h' : Stable.simulateSwap now' p offer a = .ok (ret, sp', com', tot)) : ret ≤ ask := by
  have hP := reach_swap h0 ht hp
  obtain ⟨x, y, g, nx, nY, sx, sy, e1, e2, e3, e4, e5, e6, e7, e8, e9, f1, f2, f3, f4, f5, f6, -⟩ := reverse_inv hP h
  obtain ⟨x1, y1, b, y', nX, sx1, sy1, g1, g2, g3, l1, l2, l3, l4, l5, l6, l7⟩ := forward_inv hP h'
  have ex : x1 = x := by omega
  have ey : y1 = y := by omega
  subst ex ey
  have em : p.maxPrec = p.precA := by rw [hP.dec.m]; omega
  rw [f2, ok_inj] at l2
  rw [f3, ok_inj] at l3
  subst l2 l3
  obtain ⟨D, hD, a1, a2⟩ := two_sided f4
  obtain ⟨D', hD', b1, b2⟩ := two_sided l4
  rw [hD, ok_inj] at hD'
  subst hD'
  have s1 := scaleValue_le f1 hP.dec.le
  have s2 := scaleValue_le l1 hP.dec.le
  rw [em] at a1 a2 b1 b2 s1 s2
  have u0 : (0 : Int) < unitOf p.precA := by exact_mod_cast unitOf_pos p.precA
  have hnY : (nY : Int) = (y1 - g) * unitOf p.precA := by
    rw [s1]; push_cast [e9]; ring
  have hnX : (nX : Int) = (x1 + b) * unitOf p.precA := by
    rw [s2]; push_cast; ring
  have hbe := a2 (by rw [show (nx : Int) = reserve p offer + q by omega]; exact hrest)
  have hle : (nX : Int) ≤ (nx : Int) * unitOf p.precA - 10 ^ 12 - 1 := by
    have e : (nx : Int) * unitOf p.precA = (x1 + b) * unitOf p.precA + (q - a) * unitOf p.precA := by
      rw [f5, ← g3]; ring
    rw [hnX, e]; omega
  have hab : Above p.amp.nextAmp D nX (((y' : Int) + 1) * unitOf p.precA) := by exact_mod_cast b1
  have hG : (y1 : Int) - y' ≤ g := by
    by_contra hn
    have h1 : ((y' : Int) + 1) * unitOf p.precA ≤ nY := by
      rw [hnY]; exact mul_le_mul_of_nonneg_right (by omega) u0.le
    have h2 := above_mono (by positivity) (by positivity) (by positivity) (by positivity) hab h1
    have h3 : Above p.amp.nextAmp D nY nX := by
      unfold Above at *
      rw [curve_comm]; exact h2
    have h4 := above_mono (by positivity) (by positivity) (by positivity) (by positivity) h3 hle
    unfold Above at h4
    unfold OnOrBelow at hbe
    omega
  have := (fee_mono hP.cfg.fee hG).2
  omega

/-- The hypotheses are met: for 1994 units of token 11 the example pool quotes 1000 units, with a spread of 1 and a commission of 5; the stable
pool of 2 + 2 tokens (7 decimals) quotes 1003508 units for 1000000; one unit more returns 1000001, and 11 units less 999990. -/
example : Pool.simulateReverseSwap Props.exPool 11 1994 = .ok (1000, 1, 5) ∧
    let q := (run 100 (exStart 7 7) (exHist 100 20000000 20000000)).pool
    q.map (fun p => (p.precA, p.precB)) = some (7, 7) ∧
    q.map (fun p => (Stable.simulateReverseSwap 10 p 10 1000000).toOption) = some (some (1003508, 3508, 3009)) ∧
    q.map (fun p => (Stable.simulateSwap 10 p 10 1003509).toOption) = some (some (1000001, 499, 3009, 1003509)) ∧
    q.map (fun p => (Stable.simulateSwap 10 p 10 1003497).toOption) = some (some (999990, 499, 3008, 1003497)) :=
  ⟨by decide +kernel, by decide +kernel, by decide +kernel, by decide +kernel, by decide +kernel⟩

end Phoenix.Props.Reverse
