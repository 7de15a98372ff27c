import Verif.Lemmas.Foreign
import Verif.Props.StableSwap
/-! Property theorems about stable pools over tokens of unknown code: C102, C103. -/
namespace Phoenix.Props.Stable
open Phoenix Phoenix.Spec Phoenix.Stable Phoenix.Stable.Spec

theorem xBacked_step {σ : Type} {T : Tokens σ} {me : Addr} (hF : Fair T me) {c : Ctx} {p p' : Stable.State} {L L' : σ} {k : Stable.Call}
    (hAB : p.cfg.tokenA ≠ p.cfg.tokenB) (hSA : p.cfg.shareToken ≠ p.cfg.tokenA) (hSB : p.cfg.shareToken ≠ p.cfg.tokenB)
    (hA : p.resA ≤ T.bal L p.cfg.tokenA me) (hB : p.resB ≤ T.bal L p.cfg.tokenB me)
    (h : Stable.callX T me c p L k = .ok (p', L')) :
    p'.cfg.tokenA = p.cfg.tokenA ∧ p'.cfg.tokenB = p.cfg.tokenB ∧ p'.cfg.shareToken = p.cfg.shareToken ∧
    p'.resA ≤ T.bal L' p.cfg.tokenA me ∧ p'.resB ≤ T.bal L' p.cfg.tokenB me := by
  cases k with
  | init i => simp [Stable.callX] at h
  | updateConfig sender u =>
    simp only [Stable.callX, bind_ok, ok_inj, Prod.mk.injEq] at h
    obtain ⟨q, hq, rfl, rfl⟩ := h
    unfold Stable.updateConfig at hq
    simp only [bind_ok, ok_inj] at hq
    obtain ⟨_, -, _, -, _, -, _, -, _, -, rfl⟩ := hq
    exact ⟨rfl, rfl, rfl, hA, hB⟩
  | provide sender a b cu dl mn =>
    simp only [Stable.callX] at h
    unfold Stable.provideX at h
    simp only [bind_ok, ok_inj, Prod.mk.injEq] at h
    obtain ⟨_, -, _, -, _, -, _, -, _, -, amp, -, L1, hL1, L2, hL2, _, -, _, -, _, -, _, -, _, -, _, -, _, -, _, -, _, -, _, -,
      ⟨p2, L3⟩, hm, rfl, rfl⟩ := h
    unfold Stable.mintSharesX at hm
    simp only [bind_ok, ok_inj, Prod.mk.injEq] at hm
    obtain ⟨_, h1, _, -, rfl, rfl⟩ := hm
    have b := hF.mint _ _ _ _ _ _ h1
    exact ⟨rfl, rfl, rfl, b _ hSA.symm, b _ hSB.symm⟩
  | swap sender offer amount mo ms dl mf =>
    simp only [Stable.callX, bind_ok, ok_inj, Prod.mk.injEq] at h
    obtain ⟨⟨q, M, r⟩, hq, rfl, rfl⟩ := h
    unfold Stable.swapX Stable.doSwapX at hq
    simp only [bind_ok, ok_inj, Prod.mk.injEq, subI_ok] at hq
    obtain ⟨_, -, _, -, _, -, lim, -, ⟨x, y⟩, hs, r', hr, _, -, g1, -, _, -, L1, hL1, rec, ⟨-, rfl⟩,
      L2, hL2, L3, hL3, q', hres, rfl, rfl, -⟩ := hq
    obtain ⟨hpt, rfl, rfl, hoth⟩ := Stable.sides_inv hs hAB
    simp only at hL1 hL2 hL3 hres
    obtain ⟨q1, q5, q6⟩ := Stable.swapReserves_inv hres hAB hpt
    have t1 := hF.transfer _ _ _ _ _ _ _ hL1 (other p offer)
    have t2 := hF.transfer _ _ _ _ _ _ _ hL2
    have t3 := hF.transfer _ _ _ _ _ _ _ hL3
    have t2s := t2 offer; have t2b := t2 (other p offer)
    have t3s := t3 offer; have t3b := t3 (other p offer)
    simp only [true_and, hoth, hoth.symm, if_false, if_true, and_false, sub_zero] at t1 t2s t2b t3s t3b
    have qc : q'.cfg = p.cfg := by rw [q1]
    simp only [qc]
    refine ⟨trivial, trivial, trivial, ?_⟩
    unfold Stable.Spec.IsPoolToken at hpt
    rcases hpt with rfl | rfl
    · have e : other p p.cfg.tokenA = p.cfg.tokenB := by simp [Stable.Spec.other]
      simp only [e, Stable.Spec.reserve, qc, if_true, Ne.symm hAB, if_false] at *
      exact ⟨by omega, by omega⟩
    · have e : other p p.cfg.tokenB = p.cfg.tokenA := by simp [Stable.Spec.other, Ne.symm hAB]
      simp only [e, Stable.Spec.reserve, qc, if_true, Ne.symm hAB, if_false] at *
      exact ⟨by omega, by omega⟩
  | withdraw sender sh mA mB dl =>
    simp only [Stable.callX, bind_ok, ok_inj, Prod.mk.injEq] at h
    obtain ⟨⟨q, M, r, r2⟩, hq, rfl, rfl⟩ := h
    unfold Stable.withdrawX at hq
    simp only [bind_ok, ok_inj, Prod.mk.injEq, subI_ok] at hq
    obtain ⟨_, -, _, -, _, -, _, -, _, -, L1, hL1, _, -, ratio, -, ra, -, rb, -, _, -, ⟨p1, L2⟩, hbu, L3, hL3, L4, hL4,
      a, ⟨-, rfl⟩, b, ⟨-, rfl⟩, rfl, rfl, -, -⟩ := hq
    unfold Stable.burnSharesX at hbu
    simp only [bind_ok, ok_inj, Prod.mk.injEq] at hbu
    obtain ⟨_, hb, _, -, rfl, rfl⟩ := hbu
    have t1 := hF.transfer _ _ _ _ _ _ _ hL1
    have t2 := hF.burn _ _ _ _ _ _ hb
    have t3 := hF.transfer _ _ _ _ _ _ _ hL3
    have t4 := hF.transfer _ _ _ _ _ _ _ hL4
    have a1 := t1 p.cfg.tokenA; have a2 := t2 p.cfg.tokenA hSA.symm; have a3 := t3 p.cfg.tokenA; have a4 := t4 p.cfg.tokenA
    have b1 := t1 p.cfg.tokenB; have b2 := t2 p.cfg.tokenB hSB.symm; have b3 := t3 p.cfg.tokenB; have b4 := t4 p.cfg.tokenB
    simp only [hSA.symm, hSB.symm, hAB, Ne.symm hAB, true_and, if_false, if_true, and_false, sub_zero] at a1 a2 a3 a4 b1 b2 b3 b4
    exact ⟨rfl, rfl, rfl, by show p.resA - ra ≤ T.bal L4 p.cfg.tokenA me; omega, by show p.resB - rb ≤ T.bal L4 p.cfg.tokenB me; omega⟩

/-- **C102** The same for a stable pool: whatever code the two pool tokens have, as long as a
token call takes from the pool no more than the pool sent, the pool holds at least the
reserves it reports, after every history. -/
theorem C102_reserves_backed_any_token {σ : Type} {T : Tokens σ} {me : Addr} (hF : Fair T me) {p0 p : Stable.State} {L0 L : σ}
    (hAB : p0.cfg.tokenA ≠ p0.cfg.tokenB) (hSA : p0.cfg.shareToken ≠ p0.cfg.tokenA) (hSB : p0.cfg.shareToken ≠ p0.cfg.tokenB)
    (hA : p0.resA = 0) (hB : p0.resB = 0)
    (h0 : ∀ t, 0 ≤ T.bal L0 t me) (h : Stable.ReachX T me p0 L0 p L) :
    p.resA ≤ T.bal L p.cfg.tokenA me ∧ p.resB ≤ T.bal L p.cfg.tokenB me := by
  suffices H : p.cfg.tokenA = p0.cfg.tokenA ∧ p.cfg.tokenB = p0.cfg.tokenB ∧ p.cfg.shareToken = p0.cfg.shareToken ∧
      p.resA ≤ T.bal L p.cfg.tokenA me ∧ p.resB ≤ T.bal L p.cfg.tokenB me from H.2.2.2
  induction h with
  | start => exact ⟨rfl, rfl, rfl, by rw [hA]; exact h0 _, by rw [hB]; exact h0 _⟩
  | call c k _ hc ih =>
    obtain ⟨e1, e2, e3, i1, i2⟩ := ih
    obtain ⟨f1, f2, f3, j1, j2⟩ := xBacked_step hF (by rw [e1, e2]; exact hAB) (by rw [e3, e1]; exact hSA)
      (by rw [e3, e2]; exact hSB) i1 i2 hc
    exact ⟨f1.trans e1, f2.trans e2, f3.trans e3, by rw [f1]; exact j1, by rw [f2]; exact j2⟩
  | other L' _ hL ih =>
    obtain ⟨e1, e2, e3, i1, i2⟩ := ih
    exact ⟨e1, e2, e3, le_trans i1 (hL _), le_trans i2 (hL _)⟩

/-- **C103** The same for a stable pool: a swap pays what the query quotes for the amount
offered, whatever amount arrived. -/
theorem C103_paid_for_the_offer {σ : Type} {T : Tokens σ} {me : Addr} {c : Ctx} {p p' : Stable.State} {L L' : σ}
    {sender offer : Addr} {amount ret : Int} {mo ms : Option Int} {dl : Option Nat} {mf : Option Int}
    (hne : p.cfg.tokenA ≠ p.cfg.tokenB)
    (h : Stable.swapX T me c p L sender offer amount mo ms dl mf = .ok (p', L', ret)) {q : Int × Int × Int × Int}
    (hq : Stable.simulateSwap c.now p offer amount = .ok q) :
    ret = q.1 ∧
    (∃ L1 L2, T.transfer L (c.as me) offer sender me amount = .ok L1 ∧
      T.transfer L1 (c.as me) (other p offer) me sender q.1 = .ok L2 ∧
      T.transfer L2 (c.as me) (other p offer) me p.cfg.feeRecipient q.2.2.1 = .ok L' ∧
      reserve p' offer = reserve p offer + (T.bal L1 offer me - T.bal L offer me)) ∧
    reserve p' (other p offer) = reserve p (other p offer) - q.1 - q.2.2.1 := by
  unfold Stable.swapX Stable.doSwapX at h
  simp only [bind_ok, ok_inj, Prod.mk.injEq, subI_ok] at h
  obtain ⟨_, -, _, -, _, -, lim, -, ⟨x, y⟩, hs, r', hr, _, -, g1, -, _, -, L1, hL1, rec, ⟨-, rfl⟩,
    L2, hL2, L3, hL3, q', hres, rfl, rfl, rfl⟩ := h
  obtain ⟨hpt, hx, hy, hoth⟩ := Stable.sides_inv hs hne
  unfold Stable.simulateSwap at hq
  simp only [bind_ok, ok_inj, hs] at hq
  obtain ⟨_, rfl, r2, hr2, hq⟩ := hq
  simp only [hr, ok_inj] at hr2
  subst hr2
  subst hx hy
  simp only at hL1 hL2 hL3 hres
  obtain ⟨-, q5, q6⟩ := Stable.swapReserves_inv hres hne hpt
  obtain ⟨_, -, _, -, rfl⟩ := hq
  exact ⟨rfl, ⟨L1, L2, hL1, hL2, hL3, q5⟩, by rw [q6]; ring⟩

/-- token 10 keeps half of every transfer -/
def xTax : Tokens Ledger := taxTokens (fun t => if t = 10 then 5000 else 0)
/-- the tokens of `exStart`, the share token being administered by the pool -/
def xLed0 : Ledger := fun t => { (exStart 7 7).led t with admin := 100 }
/-- the pool of `exInit` before the first deposit -/
def xPool0 : Res Stable.State := (Stable.step 100 ⟨none, xLed0⟩ (.pool (by' 8) (.init (exInit 100)))).bind (fun s =>
  match s.pool with
  | some p => .ok p
  | none => .error .panic)

/-- the hypotheses of C102 and C103 are met with a token that keeps half of every transfer: a
deposit of 20000000 each and a swap of 1000000, which is paid like 1000000 although 500000
arrived -/
example : Fair xTax 100 ∧ ∃ p0, xPool0 = .ok p0 ∧ p0.cfg.tokenA = 10 ∧ p0.cfg.tokenB = 11 ∧ p0.cfg.shareToken ≠ 10 ∧ p0.cfg.shareToken ≠ 11 ∧
    p0.resA = 0 ∧ p0.resB = 0 ∧ ∃ p L p' L' ret q, Stable.ReachX xTax 100 p0 xLed0 p L ∧ p.resA = 10000000 ∧ p.resB = 20000000 ∧
      Stable.swapX xTax 100 (by' 2) p L 2 10 1000000 none none none none = .ok (p', L', ret) ∧
      Stable.simulateSwap 10 p 10 1000000 = .ok q ∧ ret = q.1 ∧ 985000 < ret ∧ p'.resA = 10500000 ∧ L'.bal 10 100 = 10500000 := by
  refine ⟨tax_fair (fun t => by split <;> decide) 100, ?_⟩
  have h : okAnd xPool0 (fun p0 => decide (p0.cfg.tokenA = 10 ∧ p0.cfg.tokenB = 11 ∧ p0.cfg.shareToken ≠ 10 ∧ p0.cfg.shareToken ≠ 11 ∧
      p0.resA = 0 ∧ p0.resB = 0) &&
      okAnd (Stable.callX xTax 100 (by' 1) p0 xLed0 (.provide 1 20000000 20000000 none none none)) (fun x =>
        decide (x.1.resA = 10000000 ∧ x.1.resB = 20000000) &&
        okAnd (Stable.swapX xTax 100 (by' 2) x.1 x.2 2 10 1000000 none none none none) (fun y =>
        okAnd (Stable.simulateSwap 10 x.1 10 1000000) (fun q =>
          decide (y.2.2 = q.1 ∧ 985000 < y.2.2 ∧ y.1.resA = 10500000 ∧ y.2.1.bal 10 100 = 10500000))))) = true := by decide +kernel
  obtain ⟨p0, h0, h⟩ := exists_of_okAnd h
  simp only [Bool.and_eq_true, decide_eq_true_eq] at h
  obtain ⟨⟨a1, a2, a3, a4, a5, a6⟩, h⟩ := h
  obtain ⟨⟨p, L⟩, h1, h⟩ := exists_of_okAnd h
  simp only [Bool.and_eq_true, decide_eq_true_eq] at h
  obtain ⟨⟨b1, b2⟩, h⟩ := h
  obtain ⟨⟨p', L', ret⟩, h2, h⟩ := exists_of_okAnd h
  obtain ⟨q, h3, h⟩ := exists_of_okAnd h
  simp only [decide_eq_true_eq] at h
  exact ⟨p0, h0, a1, a2, a3, a4, a5, a6, p, L, p', L', ret, q, .call _ _ .start h1, b1, b2, h2, h3, h.1, h.2.1, h.2.2.1, h.2.2.2⟩

end Phoenix.Props.Stable
