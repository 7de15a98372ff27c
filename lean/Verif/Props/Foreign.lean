import Verif.Lemmas.Foreign
import Verif.Props.PoolSwap
/-!
Property theorems about contracts that hold tokens of unknown code: C102 - C105.
`Tokens σ` is any implementation of the token calls, `Fair` says that a token call takes
from the contract no more than the contract sent, `ReachX` are the states the contract and
the tokens can get into, with anything at all happening to the tokens between two calls that
does not take from the contract.
-/
namespace Phoenix.Props
open Phoenix Phoenix.Spec

section Pool
open Phoenix.Pool

theorem xBacked_step {σ : Type} {T : Tokens σ} {me : Addr} (hF : Fair T me) {c : Ctx} {p p' : Pool.State} {L L' : σ} {k : Pool.Call}
    (hd : DistinctTokens p) (hA : p.resA ≤ T.bal L p.cfg.tokenA me) (hB : p.resB ≤ T.bal L p.cfg.tokenB me)
    (h : Pool.callX T me c p L k = .ok (p', L')) :
    p'.cfg.tokenA = p.cfg.tokenA ∧ p'.cfg.tokenB = p.cfg.tokenB ∧ p'.cfg.shareToken = p.cfg.shareToken ∧
    p'.resA ≤ T.bal L' p.cfg.tokenA me ∧ p'.resB ≤ T.bal L' p.cfg.tokenB me := by
  obtain ⟨hAB, hSA, hSB⟩ := hd
  cases k with
  | init i => simp [Pool.callX] at h
  | updateConfig u =>
    simp only [Pool.callX, bind_ok, ok_inj, Prod.mk.injEq] at h
    obtain ⟨q, hq, rfl, rfl⟩ := h
    unfold Pool.updateConfig at hq
    simp only [bind_ok, ok_inj] at hq
    obtain ⟨_, -, _, -, _, -, _, -, _, -, rfl⟩ := hq
    exact ⟨rfl, rfl, rfl, hA, hB⟩
  | upgrade sl =>
    simp only [Pool.callX, bind_ok, ok_inj, Prod.mk.injEq] at h
    obtain ⟨q, hq, rfl, rfl⟩ := h
    unfold Pool.upgrade at hq
    simp only [bind_ok, ok_inj] at hq
    obtain ⟨_, -, rfl⟩ := hq
    exact ⟨rfl, rfl, rfl, hA, hB⟩
  | provide sender dA mA dB mB cu dl =>
    simp only [Pool.callX] at h
    unfold Pool.provideX at h
    simp only [bind_ok, ok_inj, Prod.mk.injEq] at h
    obtain ⟨_, -, _, -, _, -, _, -, _, -, _, -, _, -, ⟨a, b⟩, -, L1, hL1, L2, hL2, _, -, _, -,
      ⟨n, p1, L3⟩, hn, m, -, ⟨p2, L4⟩, hm, rfl, rfl⟩ := h
    have hmint : ∀ {p p' : Pool.State} {L L' : σ} {d : Addr} {x : Int}, Pool.mintSharesX T me c p L d x = .ok (p', L') →
        p'.cfg = p.cfg ∧ ∀ u, u ≠ p.cfg.shareToken → T.bal L u me ≤ T.bal L' u me := by
      intro p p' L L' d x h
      unfold Pool.mintSharesX at h
      simp only [bind_ok, addI_ok, ok_inj, Prod.mk.injEq] at h
      obtain ⟨_, h1, _, -, rfl, rfl⟩ := h
      exact ⟨rfl, hF.mint _ _ _ _ _ _ h1⟩
    have hn' : p1.cfg = p.cfg ∧ ∀ u, u ≠ p.cfg.shareToken → T.bal L2 u me ≤ T.bal L3 u me := by
      unfold Pool.newSharesX at hn
      split at hn
      · simp only [bind_ok, ok_inj, Prod.mk.injEq] at hn
        obtain ⟨_, -, _, -, _, -, _, -, -, rfl, rfl⟩ := hn
        exact ⟨rfl, fun _ _ => le_refl _⟩
      · simp only [bind_ok, ok_inj, Prod.mk.injEq] at hn
        obtain ⟨_, -, _, -, _, -, ⟨q, M⟩, hq, _, -, -, rfl, rfl⟩ := hn
        exact hmint hq
    obtain ⟨e1, b1⟩ := hn'
    obtain ⟨e2, b2⟩ := hmint hm
    rw [e1] at b2
    simp only [e2, e1]
    exact ⟨trivial, trivial, trivial, le_trans (b1 _ hSA.symm) (b2 _ hSA.symm), le_trans (b1 _ hSB.symm) (b2 _ hSB.symm)⟩
  | swap sender offer amount mo ms dl mf =>
    simp only [Pool.callX, bind_ok, ok_inj, Prod.mk.injEq] at h
    obtain ⟨⟨q, M, r⟩, hq, rfl, rfl⟩ := h
    unfold Pool.swapX Pool.doSwapX at hq
    simp only [bind_ok, ok_inj, Prod.mk.injEq, subI_ok] at hq
    obtain ⟨_, -, _, -, _, -, lim, -, ⟨x, y⟩, hs, rate, -, r', hr, _, -, g1, -, g2, -, _, -, L1, hL1, rec, ⟨-, rfl⟩,
      L2, hL2, L3, hL3, q', hres, rfl, rfl, -⟩ := hq
    obtain ⟨hpt, -, -, htok, hoth⟩ := sides_inv hs hAB
    have href : r'.referral = 0 := (computeSwap_inv hr).2.2.2.2.1
    simp only [htok] at hL1 hL2 hL3 hres
    obtain ⟨q1, -, -, -, q5, q6⟩ := swapReserves_inv hres hAB hpt
    rw [href] at q6
    have t1 := hF.transfer _ _ _ _ _ _ _ hL1 (other p offer)
    have t2 := hF.transfer _ _ _ _ _ _ _ hL2
    have t3 := hF.transfer _ _ _ _ _ _ _ hL3
    have t2s := t2 offer; have t2b := t2 (other p offer)
    have t3s := t3 offer; have t3b := t3 (other p offer)
    simp only [true_and, hoth, hoth.symm, if_false, if_true, and_false, sub_zero] at t1 t2s t2b t3s t3b
    simp only [q1]
    refine ⟨trivial, trivial, trivial, ?_⟩
    unfold IsPoolToken at hpt
    rcases hpt with rfl | rfl
    · have e : other p p.cfg.tokenA = p.cfg.tokenB := by simp [other]
      simp only [e, reserve, q1, if_true, Ne.symm hAB, if_false] at *
      exact ⟨by omega, by omega⟩
    · have e : other p p.cfg.tokenB = p.cfg.tokenA := by simp [other, Ne.symm hAB]
      simp only [e, reserve, q1, if_true, Ne.symm hAB, if_false] at *
      exact ⟨by omega, by omega⟩
  | withdraw sender sh mA mB dl =>
    simp only [Pool.callX, bind_ok, ok_inj, Prod.mk.injEq] at h
    obtain ⟨⟨q, M, r, r2⟩, hq, rfl, rfl⟩ := h
    unfold Pool.withdrawX at hq
    simp only [bind_ok, ok_inj, Prod.mk.injEq, subI_ok] at hq
    obtain ⟨_, -, _, -, _, -, _, -, _, -, L1, hL1, _, -, ratio, -, ra, -, rb, -, _, -, ⟨p1, L2⟩, hbu, L3, hL3, L4, hL4,
      a, ⟨-, rfl⟩, b, ⟨-, rfl⟩, rfl, rfl, -, -⟩ := hq
    unfold Pool.burnSharesX at hbu
    simp only [bind_ok, ok_inj, Prod.mk.injEq] at hbu
    obtain ⟨_, hb, _, -, rfl, rfl⟩ := hbu
    have t1 := hF.transfer _ _ _ _ _ _ _ hL1
    have t2 := hF.burn _ _ _ _ _ _ hb
    have t3 := hF.transfer _ _ _ _ _ _ _ hL3
    have t4 := hF.transfer _ _ _ _ _ _ _ hL4
    have a1 := t1 p.cfg.tokenA; have a2 := t2 p.cfg.tokenA hSA.symm; have a3 := t3 p.cfg.tokenA; have a4 := t4 p.cfg.tokenA
    have b1 := t1 p.cfg.tokenB; have b2 := t2 p.cfg.tokenB hSB.symm; have b3 := t3 p.cfg.tokenB; have b4 := t4 p.cfg.tokenB
    simp only [hSA.symm, hSB.symm, hAB, Ne.symm hAB, true_and, if_false, if_true, and_false, sub_zero] at a1 a2 a3 a4 b1 b2 b3 b4
    exact ⟨rfl, rfl, rfl, by show p.resA - ra ≤ T.bal L4 p.cfg.tokenA me; omega, by show p.resB - rb ≤ T.bal L4 p.cfg.tokenB me; omega⟩

/-- **C102** Whatever code the two pool tokens have, as long as a token call takes from the
pool no more than the pool sent (tokens that keep a part of every transfer, that pay
interest, that refuse some transfers: all of these), a constant product pool holds at least
the reserves it reports, after every history. -/
theorem C102_reserves_backed_any_token {σ : Type} {T : Tokens σ} {me : Addr} (hF : Fair T me) {p0 p : Pool.State} {L0 L : σ}
    (hd : DistinctTokens p0) (hA : p0.resA = 0) (hB : p0.resB = 0)
    (h0 : ∀ t, 0 ≤ T.bal L0 t me) (h : Pool.ReachX T me p0 L0 p L) :
    p.resA ≤ T.bal L p.cfg.tokenA me ∧ p.resB ≤ T.bal L p.cfg.tokenB me := by
  suffices H : p.cfg.tokenA = p0.cfg.tokenA ∧ p.cfg.tokenB = p0.cfg.tokenB ∧ p.cfg.shareToken = p0.cfg.shareToken ∧
      p.resA ≤ T.bal L p.cfg.tokenA me ∧ p.resB ≤ T.bal L p.cfg.tokenB me from H.2.2.2
  induction h with
  | start => exact ⟨rfl, rfl, rfl, by rw [hA]; exact h0 _, by rw [hB]; exact h0 _⟩
  | call c k _ hc ih =>
    obtain ⟨e1, e2, e3, i1, i2⟩ := ih
    obtain ⟨f1, f2, f3, j1, j2⟩ := xBacked_step hF (by unfold DistinctTokens at *; rw [e1, e2, e3]; exact hd) i1 i2 hc
    exact ⟨f1.trans e1, f2.trans e2, f3.trans e3, by rw [f1]; exact j1, by rw [f2]; exact j2⟩
  | other L' _ hL ih =>
    obtain ⟨e1, e2, e3, i1, i2⟩ := ih
    exact ⟨e1, e2, e3, le_trans i1 (hL _), le_trans i2 (hL _)⟩

/-- token 10 keeps half of every transfer -/
def xTax : Tokens Ledger := taxTokens (fun t => if t = 10 then 5000 else 0)
/-- the example pool before the first deposit -/
def xPool0 : Pool.State := { exPool with total := 0, resA := 0, resB := 0 }
/-- account 1 holds 50000 of both pool tokens and the pool holds nothing -/
def xLed0 : Ledger := fun t => { exLed t with bal := fun a => if a = 1 ∧ t ≠ 12 then 50000 else 0 }

/-- somebody donates 77 of token 10 to the pool -/
def xGift (L : Ledger) : Ledger := fun t => { L t with bal := fun a => (L t).bal a + if t = 10 ∧ a = 100 then 77 else 0 }

/-- the hypotheses of C102 are met with a token that keeps half of every transfer: a deposit,
a donation of 77, and a swap -/
example : Fair xTax 100 ∧ DistinctTokens xPool0 ∧ (∀ t, 0 ≤ xTax.bal xLed0 t 100) ∧
    ∃ p L, Pool.ReachX xTax 100 xPool0 xLed0 p L ∧ p.resA = 5000 + 500 ∧ L.bal 10 100 = 5577 ∧ 0 < p.resB ∧ 0 < p.total := by
  refine ⟨tax_fair (fun t => by split <;> decide) 100, exPool_distinct, fun t => ?_, ?_⟩
  · show (0:Int) ≤ if (100 : Addr) = 1 ∧ t ≠ 12 then 50000 else 0
    split <;> decide
  have h : okAnd (Pool.callX xTax 100 exSign xPool0 xLed0 (.provide 1 (some 10000) none (some 20000) none none none)) (fun x =>
      okAnd (Pool.callX xTax 100 exSign x.1 (xGift x.2) (.swap 1 10 1000 none none none none)) (fun y =>
        decide (y.1.resA = 5000 + 500 ∧ y.2.bal 10 100 = 5577 ∧ 0 < y.1.resB ∧ 0 < y.1.total))) = true := by decide +kernel
  obtain ⟨⟨p1, L1⟩, h1, h2⟩ := exists_of_okAnd h
  obtain ⟨⟨p2, L2⟩, h3, h4⟩ := exists_of_okAnd h2
  refine ⟨p2, L2, .call _ _ (.other _ (.call _ _ .start h1) (fun t => ?_)) h3, by simpa using h4⟩
  show (L1 t).bal 100 ≤ (L1 t).bal 100 + if t = 10 ∧ (100 : Addr) = 100 then 77 else 0
  split <;> omega

/-- **C103** A swap consists of three transfers: the offered amount to the pool, what the
query quotes for the amount *offered* to the sender, and the quoted commission to the fee
recipient.  The reserve of the bought token falls by the amounts paid; the reserve of the sold token rises
only by what arrived.  This is so for any token: if less than the offer arrives, the pool
pays for the full offer all the same. -/
theorem C103_paid_for_the_offer {σ : Type} {T : Tokens σ} {me : Addr} {c : Ctx} {p p' : Pool.State} {L L' : σ}
    {sender offer : Addr} {amount ret : Int} {mo ms : Option Int} {dl : Option Nat} {mf : Option Int}
    (hne : p.cfg.tokenA ≠ p.cfg.tokenB)
    (h : Pool.swapX T me c p L sender offer amount mo ms dl mf = .ok (p', L', ret)) {q : Int × Int × Int × Int}
    (hq : Pool.simulateSwap p offer amount = .ok q) :
    ret = q.1 ∧
    (∃ L1 L2, T.transfer L (c.as me) offer sender me amount = .ok L1 ∧
      T.transfer L1 (c.as me) (other p offer) me sender q.1 = .ok L2 ∧
      T.transfer L2 (c.as me) (other p offer) me p.cfg.feeRecipient q.2.1 = .ok L' ∧
      reserve p' offer = reserve p offer + (T.bal L1 offer me - T.bal L offer me)) ∧
    reserve p' (other p offer) = reserve p (other p offer) - q.1 - q.2.1 := by
  unfold Pool.swapX Pool.doSwapX at h
  simp only [bind_ok, ok_inj, Prod.mk.injEq, subI_ok] at h
  obtain ⟨_, -, _, -, _, -, lim, -, ⟨x, y⟩, hs, rate, hrate, r', hr, _, -, g1, -, g2, -, _, -, L1, hL1, rec, ⟨-, rfl⟩,
    L2, hL2, L3, hL3, q', hres, rfl, rfl, rfl⟩ := h
  obtain ⟨hpt, -, -, htok, hoth⟩ := sides_inv hs hne
  have href : r'.referral = 0 := (computeSwap_inv hr).2.2.2.2.1
  simp only [htok] at hL1 hL2 hL3 hres
  obtain ⟨-, -, -, -, q5, q6⟩ := swapReserves_inv hres hne hpt
  unfold Pool.simulateSwap at hq
  simp only [bind_ok, ok_inj, hs, hrate] at hq
  obtain ⟨_, rfl, _, rfl, r2, hr2, hq⟩ := hq
  rw [hr, ok_inj] at hr2
  subst hr2
  obtain ⟨_, -, _, -, rfl⟩ := hq
  exact ⟨rfl, ⟨L1, L2, hL1, hL2, hL3, q5⟩, by rw [q6, href]; ring⟩

/-- the hypotheses of C103 are met: 1000 are offered, 500 arrive, and the payment is the
quote for 1000 -/
example : ∃ p' L' q, Pool.swapX xTax 100 exSign exPool exLed 1 10 1000 none none none none = .ok (p', L', 1994) ∧
    Pool.simulateSwap exPool 10 1000 = .ok q ∧ q.1 = 1994 ∧ p'.resA = 1000500 := ⟨_, _, _, rfl, rfl, rfl, rfl⟩

/-- **C103** The consequence, on a pool of one and two million units: token 10 keeps half
of every transfer.  A trader swaps 50000 units of it and swaps what they got straight back.
The pool has lost on the sold token and gained nothing on the other; the liquidity
providers have paid the tax of the trader. -/
theorem C103_providers_pay_the_tax :
    ∃ p1 L1 r1 p2 L2 r2, Pool.swapX xTax 100 exSign exPool exLed 1 10 50000 none none none none = .ok (p1, L1, r1) ∧
      Pool.swapX xTax 100 exSign p1 L1 1 11 r1 none none none none = .ok (p2, L2, r2) ∧
      p2.resA < exPool.resA ∧ p2.resB ≤ exPool.resB ∧ p2.total = exPool.total ∧ p2.resA + 20000 < exPool.resA := by
  have h : okAnd (Pool.swapX xTax 100 exSign exPool exLed 1 10 50000 none none none none) (fun x =>
      okAnd (Pool.swapX xTax 100 exSign x.1 x.2.1 1 11 x.2.2 none none none none) (fun y =>
        decide (y.1.resA < exPool.resA ∧ y.1.resB ≤ exPool.resB ∧ y.1.total = exPool.total ∧
          y.1.resA + 20000 < exPool.resA))) = true := by decide +kernel
  obtain ⟨⟨p1, L1, r1⟩, h1, h2⟩ := exists_of_okAnd h
  obtain ⟨⟨p2, L2, r2⟩, h3, h4⟩ := exists_of_okAnd h2
  exact ⟨p1, L1, r1, p2, L2, r2, h1, h3, by simpa using h4⟩

end Pool
end Phoenix.Props
