import Verif.Props.StableSwap
/-!
C117: how close the stable pool's quotes are to the curve, and what selling more can cost.
-/
namespace Phoenix.Props.Stable
open Phoenix Phoenix.Stable Phoenix.Stable.Spec

/-- The iterate the solver stops at is within `E` of the root as soon as `E·(2y + b - d - E)`
reaches the square of the tolerance (helper). -/
theorem newton_close {b c d u y : Nat} {E : Int} (hd : d < 2 * u + b) (hy : y = (u ^ 2 + c) / (2 * u + b - d))
    (ht : absDiff y u ≤ TOL) (hE : (TOL : Int) ^ 2 ≤ E * (2 * y + b - d - E)) :
    ((y : Int) - E) ^ 2 + ((b : Int) - d) * (y - E) ≤ c := by
  have h1 : y * (2 * u + b - d) ≤ u ^ 2 + c := by
    rw [hy]; exact Nat.div_mul_le_self _ _
  have h2 : (y : Int) * (2 * u + b - d) ≤ u ^ 2 + c := by
    have : ((2 * u + b - d : Nat) : Int) = 2 * u + b - d := by omega
    rw [← this]; exact_mod_cast h1
  rw [absDiff_le] at ht
  have e1 : ((u : Int) - y) ^ 2 ≤ (TOL : Int) ^ 2 := by
    apply sq_le_sq'
    · omega
    · omega
  nlinarith

/-- More of the sold token also keeps a point above the curve (helper). -/
theorem above_mono_left {amp D x x' y : Int} (ha : 0 ≤ amp) (hD : 0 ≤ D) (hx : 0 ≤ x) (hy : 0 ≤ y)
    (h : Above amp D x y) (hle : x ≤ x') : Above amp D x' y := by
  have sym : ∀ p q, curve amp D p q = curve amp D q p := fun p q => by unfold curve; ring
  unfold Above at *
  rw [sym] at h ⊢
  exact above_mono ha hD hy hx h hle

/-- Arithmetic of `sim_curve` (helper). -/
theorem close_cond {U na v b d nx : Int} (hu : 10 ≤ U) (hna : 2 < na) (h4 : na * U ≤ v)
    (hsum : d ≤ nx + (v + 1)) (hb : nx ≤ b) (hrest : 2 * 10 ^ 24 ≤ (na - 2) * U ^ 2) :
    ((10 : Int) ^ 12) ^ 2 ≤ (U - 2) * (2 * v + b - d - (U - 2)) := by
  have k0 : (na - 1) * U = na * U - U := by ring
  have k1 : (na - 1) * U + 1 ≤ 2 * v + b - d - (U - 2) := by omega
  have k2 : 0 ≤ (na - 1) * U := mul_nonneg (by omega) (by omega)
  have k4 := mul_le_mul_of_nonneg_left k1 (show 0 ≤ U - 2 by omega)
  have k5 : U * ((na - 1) * U) ≤ 2 * (U - 2) * ((na - 1) * U) := mul_le_mul_of_nonneg_right (by omega) k2
  have k6 : U * ((na - 1) * U) = (na - 2) * U ^ 2 + U ^ 2 := by ring
  have k7 : 0 ≤ U ^ 2 := by positivity
  have k8 : (U - 2) * ((na - 1) * U + 1) = (U - 2) * ((na - 1) * U) + (U - 2) := by ring
  have k9 : 2 * (U - 2) * ((na - 1) * U) = 2 * ((U - 2) * ((na - 1) * U)) := by ring
  norm_num at *
  omega

/-- The curve facts contained in an answer of `simulate_swap` (helper). -/
theorem sim_curve {me : Addr} {p : State} {L : Ledger} (hP : PoolInv me p L)
    {now : Nat} {offer : Addr} {amount ret spread com tot : Int}
    (h : simulateSwap now p offer amount = .ok (ret, spread, com, tot)) (hdec : p.precA = p.precB) :
    ∃ (x a y' D : Nat), (x : Int) = reserve p offer ∧ (a : Int) = amount ∧
      (y' : Int) = reserve p (other p offer) - (ret + com) ∧ 0 ≤ ret + com ∧
      com = (ret + com) * p.cfg.totalFeeBps / 10000 ∧ 0 < p.amp.nextAmp ∧
      computeD p.amp.nextAmp ((reserve p offer).toNat * unitOf p.precA)
        ((reserve p (other p offer)).toNat * unitOf p.precA) = .ok D ∧
      Above p.amp.nextAmp D ((reserve p offer + amount) * unitOf p.precA) ((y' + 1) * unitOf p.precA) ∧
      (p.precA ≤ 17 → 2 * 10 ^ 24 ≤ ((y' : Int) - 2) * (unitOf p.precA : Int) ^ 2 →
        OnOrBelow p.amp.nextAmp D ((reserve p offer + amount) * unitOf p.precA) ((y' - 1) * unitOf p.precA)) := by
  unfold simulateSwap at h
  simp only [bind_ok, ok_inj] at h
  obtain ⟨⟨sd, b0⟩, hs, r, hq, _, -, _, -, he⟩ := h
  obtain ⟨-, rfl, rfl, -⟩ := sides_inv hs hP.distinct.1
  simp only [Prod.mk.injEq] at he
  obtain ⟨rfl, -, rfl, -⟩ := he
  obtain ⟨amp, x, y, a, na, nx, sx, sy, rate, hx, hy, ha, hrate, hamp, hnx, hsx, hsy, hna, hle, hg, hs, hcom⟩ := quote_inv hq
  have e := currentAmp_const hamp hP.amp
  subst e
  obtain ⟨d, v, b, cc, hD, x0, a0, hc, hb, ⟨u, u1, u2, u3⟩, -, hr⟩ := calcY_inv hna
  simp only at hx hy
  have em : p.maxPrec = p.precA := by rw [hP.dec.m]; omega
  have e0 : ∀ t, precOf p t = p.precA := fun t => by unfold precOf; split <;> omega
  have e1 := scaleValue_le hnx hP.dec.le
  have e2 := scaleValue_le hsx (precOf_le hP.dec offer).2
  have e3 := scaleValue_le hsy (precOf_le hP.dec (other p offer)).2
  rw [em] at e1 hr
  simp only [e0] at e2 e3
  rw [e2, e3] at hD
  have hab := above_of_iterate x0 a0 hc hb (newton_above u1 u2)
  obtain ⟨er, r0, r1⟩ := bps_rate hrate hP.cfg.fee
  obtain ⟨c1, -, -⟩ := commission_bounds hcom (by omega) r0 r1
  have hpos := unitOf_pos p.precA
  have hpx : ((x : Int) + a) * unitOf p.precA = (nx : Int) := by rw [e1]; push_cast; rfl
  have h2 := Nat.lt_mul_div_succ v hpos
  rw [← hr] at h2
  have h3 : (v : Int) + 1 ≤ unitOf p.precA * ((na : Int) + 1) := by exact_mod_cast h2
  have h4 : (na : Int) * unitOf p.precA ≤ v := by
    have := Nat.div_mul_le_self v (unitOf p.precA)
    rw [← hr] at this
    exact_mod_cast this
  refine ⟨x, a, na, d, hx, ha, by omega, by omega, ?_, a0, ?_, ?_, ?_⟩
  · rw [← hg] at c1
    rw [er] at c1
    have e : (r.ret + r.commission) * (p.cfg.totalFeeBps * 10 ^ 14) = ((r.ret + r.commission) * p.cfg.totalFeeBps) * 10 ^ 14 := by ring
    have e2 : Dec.ONE = 10000 * 10 ^ 14 := by decide
    rw [e, e2, Int.mul_ediv_mul_of_pos_left _ _ (by positivity)] at c1
    exact c1
  · rw [← hx, ← hy]; exact hD
  · rw [← hx, ← ha, hpx]
    exact above_mono (by positivity) (by positivity) (by positivity) (by positivity) hab (by linarith [mul_comm (unitOf p.precA : Int) ((na : Int) + 1)])
  · intro h17 hrest
    have hsum := above_sum (by positivity) (by positivity) (by positivity) (by positivity) hab
    have hb' : (nx : Int) ≤ b := by
      rw [hb]; push_cast
      have : (0:Int) ≤ 100 * (d:Int) / (2 * (p.amp.nextAmp : Int)) := by positivity
      omega
    have hu : 10 ≤ unitOf p.precA := by
      unfold unitOf
      calc 10 = 10 ^ 1 := by norm_num
        _ ≤ 10 ^ (18 - p.precA) := Nat.pow_le_pow_right (by norm_num) (by omega)
    rw [← hx, ← ha, hpx]
    have hT : (TOL : Int) = 10 ^ 12 := by decide
    generalize hU : (unitOf p.precA : Int) = U at *
    have hu10 : (10 : Int) ≤ U := by omega
    have hna2 : (2 : Int) < na := by
      by_contra hn
      have : ((na : Int) - 2) * U ^ 2 ≤ 0 := mul_nonpos_of_nonpos_of_nonneg (by omega) (by positivity)
      norm_num at hrest
      omega
    have hclose := newton_close (E := U - 2) u1 u2 u3
      (by rw [hT]; exact close_cond hu10 hna2 h4 hsum hb' hrest)
    have hz0 : (0 : Int) ≤ (na - 1) * U := mul_nonneg (by omega) (by omega)
    have hz2 : ((na : Int) - 1) * U = na * U - U := by ring
    have hz1 : (na - 1) * U ≤ (v : Int) - (U - 2) - 1 := by omega
    have hbel := below_of_iterate (z := (v : Int) - (U - 2) - 1) x0 a0 (by omega) hc hb
      (by have e : (v : Int) - (U - 2) - 1 + 1 = v - (U - 2) := by ring
          rw [e]; exact hclose)
    unfold OnOrBelow at *
    by_contra hn
    clear hrest hclose
    have : Above p.amp.nextAmp d nx ((na - 1) * U) := by unfold Above; omega
    have := above_mono (y' := (v : Int) - (U - 2) - 1) (by positivity) (by positivity) (by positivity) hz0 this hz1
    unfold Above at this
    omega

/-- **C117** The quote of a reachable pool of two tokens with the same number (at most 17)
of decimals is the exact solution of the curve equation to within one unit, either way, while
enough of the bought token remains: `2·10²⁴ ≤ (left - 2)·unit²`, that is 4 units for 6
decimals, 202 units for 7, two thousandths of a token for 9.  `D` is the invariant the contract
computes from the reserves, `left` the reserve of the bought token after the swap: with one
unit more the pool is above the curve for `D`, with one unit less on or below it. -/
theorem C117_exact_within_one_unit {me : Addr} {s : Sys} (h0 : Genesis me s) {ts : List Tx}
    (ht : ∀ t ∈ ts, Possible me t) {p : State} (hp : (run me s ts).pool = some p)
    {now : Nat} {offer : Addr} {amount ret spread commission tot left : Int}
    (h : simulateSwap now p offer amount = .ok (ret, spread, commission, tot))
    (hdec : p.precA = p.precB) (h17 : p.precA ≤ 17)
    (hleft : left = reserve p (other p offer) - (ret + commission))
    (hrest : 2 * 10 ^ 24 ≤ (left - 2) * (unitOf p.precA : Int) ^ 2) :
    ∃ D : Nat,
      computeD p.amp.nextAmp ((reserve p offer).toNat * unitOf p.precA)
        ((reserve p (other p offer)).toNat * unitOf p.precA) = .ok D ∧
      Above p.amp.nextAmp D ((reserve p offer + amount) * unitOf p.precA) ((left + 1) * unitOf p.precA) ∧
      OnOrBelow p.amp.nextAmp D ((reserve p offer + amount) * unitOf p.precA) ((left - 1) * unitOf p.precA) := by
  obtain ⟨x, a, y', D, -, -, hy', -, -, -, hD, hA, hB⟩ := sim_curve (reach_swap h0 ht hp) h hdec
  rw [← hleft] at hy'
  rw [hy'] at hA hB
  exact ⟨D, hD, hA, hB h17 hrest⟩

/-- A unit of gross payout is worth at most a unit net (helper). -/
theorem net_le {f r₁ c₁ r₂ c₂ : Int} (hf : 0 ≤ f ∧ f ≤ 10000) (h₁ : c₁ = (r₁ + c₁) * f / 10000)
    (h₂ : c₂ = (r₂ + c₂) * f / 10000) (h : r₁ + c₁ ≤ r₂ + c₂ + 1) : r₁ ≤ r₂ + 1 := by
  by_contra hn
  obtain ⟨k, hk⟩ : ∃ k, c₂ = c₁ + k := ⟨c₂ - c₁, by omega⟩
  obtain ⟨g, hg⟩ : ∃ g, r₁ + c₁ = g := ⟨_, rfl⟩
  obtain ⟨g', hg'⟩ : ∃ g, r₂ + c₂ = g := ⟨_, rfl⟩
  rw [hg] at h₁
  rw [hg'] at h₂
  have e1 := Int.mul_ediv_self_le (x := g * f) (k := 10000) (by norm_num)
  have e2 := Int.lt_mul_ediv_self_add (x := g' * f) (k := 10000) (by norm_num)
  rw [← h₁] at e1
  rw [← h₂] at e2
  have e3 : g = g' + (g - g') := by ring
  have e4 : (g' - g + 1) * f ≤ (g' - g + 1) * 10000 := mul_le_mul_of_nonneg_left hf.2 (by omega)
  have e5 : (g' - g + 1) * f = g' * f - g * f + f := by ring
  omega

/-- **C117** Offering more returns at most one unit less, gross and net, under the same
conditions; only what the larger sale leaves in the pool matters.  The two quotes may be
taken at different times. -/
theorem C117_offering_more {me : Addr} {s : Sys} (h0 : Genesis me s) {ts : List Tx}
    (ht : ∀ t ∈ ts, Possible me t) {p : State} (hp : (run me s ts).pool = some p)
    {now₁ now₂ : Nat} {offer : Addr} {amount₁ amount₂ ret₁ ret₂ spread₁ spread₂ commission₁ commission₂ tot₁ tot₂ : Int}
    (h₁ : simulateSwap now₁ p offer amount₁ = .ok (ret₁, spread₁, commission₁, tot₁))
    (h₂ : simulateSwap now₂ p offer amount₂ = .ok (ret₂, spread₂, commission₂, tot₂))
    (hmore : amount₁ ≤ amount₂) (hdec : p.precA = p.precB) (h17 : p.precA ≤ 17)
    (hrest : 2 * 10 ^ 24 ≤ (reserve p (other p offer) - (ret₂ + commission₂) - 2) * (unitOf p.precA : Int) ^ 2) :
    ret₁ + commission₁ ≤ ret₂ + commission₂ + 1 ∧ ret₁ ≤ ret₂ + 1 := by
  have hP := reach_swap h0 ht hp
  obtain ⟨x, a, y₁, D, hx, ha, hy₁, g1, c1, ap, hD, hA, -⟩ := sim_curve hP h₁ hdec
  obtain ⟨x', a', y₂, D', hx', ha', hy₂, g2, c2, -, hD', -, hB⟩ := sim_curve hP h₂ hdec
  rw [hD] at hD'
  cases hD'
  rw [← hy₂] at hrest
  have hb := hB h17 hrest
  have hU := unitOf_pos p.precA
  have key : (y₂ : Int) ≤ y₁ + 1 := by
    by_contra hn
    have h1 := above_mono (y' := ((y₂ : Int) - 1) * unitOf p.precA) (by positivity) (by positivity)
      (by rw [← hx, ← ha]; positivity) (by positivity) hA (by
        have : (y₁ : Int) + 1 ≤ y₂ - 1 := by omega
        exact mul_le_mul_of_nonneg_right this (by positivity))
    have h2 := above_mono_left (x' := (reserve p offer + amount₂) * unitOf p.precA) (by positivity) (by positivity)
      (by rw [← hx, ← ha]; positivity) (by
        have : (0 : Int) ≤ y₂ - 1 := by omega
        positivity) h1 (by
        exact mul_le_mul_of_nonneg_right (by omega) (by positivity))
    unfold Above at h2
    unfold OnOrBelow at hb
    omega
  have hg : ret₁ + commission₁ ≤ ret₂ + commission₂ + 1 := by omega
  refine ⟨hg, ?_⟩
  exact net_le hP.cfg.fee c1 c2 hg

/-- what `simulate_swap` announces, after a history, to someone selling `a` of token 10: net payout and commission -/
def announces (s : Sys) (a : Int) : Option (Int × Int) :=
  s.pool.bind fun p => match simulateSwap 10 p 10 a with
    | .ok (r, _, k, _) => some (r, k)
    | .error _ => none

/-- **C117** Near the end of a reserve the guarantee stops, and what is left of it is not a
matter of a unit: in a reachable pool of two 9-decimals tokens with 27077 and 6455 units,
selling 7527 units pays 6.7 % less than selling 7526.  Both swaps go through. -/
theorem C117_more_can_pay_less :
    Genesis 100 (exStart 9 9) ∧ (∀ t ∈ exHist 1000 27077 6455, Possible 100 t) ∧
    announces (run 100 (exStart 9 9) (exHist 1000 27077 6455)) 7526 = some (6203, 18) ∧
    announces (run 100 (exStart 9 9) (exHist 1000 27077 6455)) 7527 = some (5786, 17) ∧
    view (run 100 (exStart 9 9) (exHist 1000 27077 6455 ++ [exSwap 10 7526])) = some (32531, 34603, 234) ∧
    view (run 100 (exStart 9 9) (exHist 1000 27077 6455 ++ [exSwap 10 7527])) = some (32531, 34604, 652) := by
  refine ⟨exStart_genesis 9 9, ?_, ?_, ?_, ?_, ?_⟩
  · intro t ht
    simp only [exHist, List.mem_cons, List.not_mem_nil, or_false] at ht
    rcases ht with rfl | rfl <;> refine ⟨by decide, ?_⟩ <;> simp [exInit]
  all_goals decide +kernel

/-- the hypotheses hold for an ordinary pool of 7-decimals tokens, 2 : 2 tokens, and two sales -/
example : announces (run 100 (exStart 7 7) (exHist 100 20000000 20000000)) 1000000 = some (996506, 2998) ∧
    announces (run 100 (exStart 7 7) (exHist 100 20000000 20000000)) 1000001 = some (996507, 2998) ∧
    (2 : Int) * 10 ^ 24 ≤ (20000000 - (996507 + 2998) - 2) * (unitOf 7 : Int) ^ 2 := by
  refine ⟨?_, ?_, ?_⟩ <;> decide +kernel

end Phoenix.Props.Stable
