import Verif.Props.PoolSys
import Verif.Props.Deposit
/-!
C149: what liquidity does for traders of a constant product pool.
-/
namespace Phoenix.Props.Depth
open Phoenix Pool Spec

/-- What the simulation computes (helper). -/
theorem simulate_inv {p : State} {offer : Addr} {x ret com sp tot : Int} (h : simulateSwap p offer x = .ok (ret, com, sp, tot)) :
    ∃ R S rate r, sides p offer = .ok (R, S) ∧ Dec.bps p.cfg.totalFeeBps = .ok rate ∧ computeSwap R S x rate 0 = .ok r ∧
      r.ret = ret ∧ r.commission = com := by
  unfold simulateSwap at h
  simp only [bind_ok, ok_inj, Prod.exists, Prod.mk.injEq] at h
  obtain ⟨R, S, h1, rate, h2, r, h3, _, -, _, -, rfl, rfl, -⟩ := h
  exact ⟨R, S, rate, r, h1, h2, h3, rfl, rfl⟩

theorem sides_inv {p : State} {offer : Addr} {R S : Int} (h : sides p offer = .ok (R, S)) (hne : p.cfg.tokenA ≠ p.cfg.tokenB) :
    IsPoolToken p offer ∧ R = reserve p offer ∧ S = reserve p (other p offer) := by
  unfold sides at h
  split at h
  · rename_i e; subst e
    simp only [ok_inj, Prod.mk.injEq] at h
    exact ⟨.inl rfl, by simp [reserve, h.1], by simp [reserve, other, hne.symm, h.2]⟩
  · split at h
    · rename_i n e; subst e
      simp only [ok_inj, Prod.mk.injEq] at h
      exact ⟨.inr rfl, by simp [reserve, n, h.1], by simp [reserve, other, n, h.2]⟩
    · cases h

/-- The net return follows the gross return (helper). -/
theorem net_of_gross {x y a x' y' a' rate k : Int} {r r' : ComputeSwap} (h : computeSwap x y a rate 0 = .ok r)
    (h' : computeSwap x' y' a' rate 0 = .ok r') (hk : 0 ≤ k) (hle : grossOf r ≤ grossOf r' + k) : r.ret ≤ r'.ret + k := by
  obtain ⟨hx, hy, ha, hr, hr0, hc0, hs0, q1, q2, i1, i2, c1, c2, g0, gy⟩ := quote_core h
  obtain ⟨-, -, ha', -, hr0', hc0', -, q1', q2', -, -, c1', c2', g0', gy'⟩ := quote_core h'
  have hD : (0:Int) < Dec.ONE := by decide
  by_cases hrate : rate ≤ Dec.ONE
  · by_contra hlt
    have e : r'.commission - r.commission ≥ grossOf r' + k - grossOf r + 1 := by unfold grossOf at *; omega
    nlinarith [mul_nonneg (show 0 ≤ grossOf r' + k - grossOf r by omega) (show 0 ≤ Dec.ONE - rate by omega), mul_nonneg hk hr]
  · have : r.ret ≤ 0 := by
      by_contra hlt
      have : r.commission + 1 ≤ grossOf r := by unfold grossOf; omega
      nlinarith
    omega

/-- **C149** Of two pools with the same fee, the one whose price for the trader is at least as good and which holds at least as much
of the token bought pays at least as much, for every amount. -/
theorem C149_deeper_pays_more {p q : State} {offer offer' : Addr} {x ret com sp tot ret' com' sp' tot' : Int}
    (hp : p.cfg.tokenA ≠ p.cfg.tokenB) (hq : q.cfg.tokenA ≠ q.cfg.tokenB) (fee : q.cfg.totalFeeBps = p.cfg.totalFeeBps)
    (price : reserve p (other p offer) * reserve q offer' ≤ reserve q (other q offer') * reserve p offer)
    (depth : reserve p (other p offer) ≤ reserve q (other q offer'))
    (h : simulateSwap p offer x = .ok (ret, com, sp, tot)) (h' : simulateSwap q offer' x = .ok (ret', com', sp', tot')) :
    ret ≤ ret' ∧ ret + com ≤ ret' + com' := by
  obtain ⟨R, S, rate, r, a1, a2, a3, rfl, rfl⟩ := simulate_inv h
  obtain ⟨R', S', rate', r', b1, b2, b3, rfl, rfl⟩ := simulate_inv h'
  rw [fee, a2] at b2; cases b2
  obtain ⟨-, rfl, rfl⟩ := sides_inv a1 hp
  obtain ⟨-, rfl, rfl⟩ := sides_inv b1 hq
  generalize reserve p offer = R at *
  generalize reserve p (other p offer) = S at *
  generalize reserve q offer' = R' at *
  generalize reserve q (other q offer') = S' at *
  have hg : grossOf r ≤ grossOf r' := by
    apply (C02_gross_is_rounded_up_cp a3).2.2.1
    have k := (C02_gross_is_rounded_up_cp b3).1
    obtain ⟨hx, hy, ha, -⟩ := quote_core a3
    obtain ⟨hx', hy', -, -, -, -, -, -, -, -, -, -, -, g0, -⟩ := quote_core b3
    have m1 : S * (R' + x) ≤ S' * (R + x) := by nlinarith
    have m2 : S * x * (R' + x) ≤ grossOf r' * (R + x) * (R' + x) := by
      calc S * x * (R' + x) = (S * (R' + x)) * x := by ring
        _ ≤ (S' * (R + x)) * x := mul_le_mul_of_nonneg_right m1 ha
        _ = (S' * x) * (R + x) := by ring
        _ ≤ (grossOf r' * (R' + x)) * (R + x) := mul_le_mul_of_nonneg_right k (by omega)
        _ = grossOf r' * (R + x) * (R' + x) := by ring
    exact le_of_mul_le_mul_right m2 (by omega)
  exact ⟨by have := net_of_gross a3 b3 (le_refl 0) (by omega); omega, hg⟩

/-- a pool with ten times the reserves at the same price pays 1994 units for 1000, and for 50000 it pays 99205 instead of 94954 -/
example : simulateSwap exPool 10 50000 = .ok (94954, 285, 4761, 100000) ∧
    simulateSwap { exPool with resA := 10000000, resB := 20000000 } 10 50000 = .ok (99205, 298, 497, 100000) := by decide +kernel

theorem amounts_ratio {p : State} {dA mA dB mB cu : Option Int} {a b : Int} (hA : 0 < p.resA) (hB : 0 < p.resB)
    (e : chooseAmounts p dA mA dB mB cu = .ok (a, b)) :
    a * p.resB < (b + 1) * p.resA ∧ b * p.resA < (a + 1) * p.resB := by
  obtain ⟨A', B', -, -, hA0, hB0, hch⟩ := chooseAmounts_inv e
  rcases hch with ⟨q, -⟩ | ⟨-, -, qa, qb, -⟩
  · omega
  rw [tdiv_nonneg_eq (by positivity)] at qa qb
  have u1 := Int.lt_ediv_add_one_mul_self (B' * p.resA) hB
  have u2 := Int.lt_ediv_add_one_mul_self (A' * p.resB) hA
  have u3 := Int.ediv_mul_le (B' * p.resA) hB.ne'
  have u4 := Int.ediv_mul_le (A' * p.resB) hA.ne'
  have v1 : a ≤ A' := qa ▸ min_le_left _ _
  have v2 : a ≤ B' * p.resA / p.resB := qa ▸ min_le_right _ _
  have v3 : b ≤ B' := qb ▸ min_le_left _ _
  have v4 : b ≤ A' * p.resB / p.resA := qb ▸ min_le_right _ _
  constructor
  · rcases min_choice B' (A' * p.resB / p.resA) with k | k <;> rw [k] at qb
    · subst qb; nlinarith
    · rw [← qb] at u2; nlinarith
  · rcases min_choice A' (B' * p.resA / p.resB) with k | k <;> rw [k] at qa
    · subst qa; nlinarith
    · rw [← qa] at u1; nlinarith

/-- The arithmetic of a deposit before a trade (helper). -/
theorem gross_after {R S d e x g g1 : Int} (hR : 0 < R) (hS : 0 ≤ S) (hd : 0 ≤ d) (hx : 0 ≤ x)
    (hde : d * S < (e + 1) * R) (k : (g - 1) * (R + x) < S * x) (k1 : (S + e) * x ≤ g1 * (R + d + x)) : g ≤ g1 + 1 := by
  by_contra hlt
  have hlt : g1 ≤ g - 2 := by omega
  have m0 : g1 * (R + d + x) ≤ (g - 2) * (R + d + x) := mul_le_mul_of_nonneg_right hlt (by omega)
  have m1 : S * (R + d) * x - R * x ≤ (S + e) * x * R := by nlinarith
  have m2 : (S + e) * x * R ≤ (g - 2) * (R + d + x) * R := mul_le_mul_of_nonneg_right (by linarith) hR.le
  have m3 : S * (R + d) * x ≤ (g - 1) * (R + d + x) * R := by nlinarith [mul_nonneg hR.le (show 0 ≤ R + d by omega)]
  have m4 : (g - 1) * (R + x) * ((R + d + x) * R) < S * x * ((R + d + x) * R) :=
    mul_lt_mul_of_pos_right k (mul_pos (by omega) hR)
  have m5 : S * (R + d) * x * (R + x) ≤ (g - 1) * (R + d + x) * R * (R + x) := mul_le_mul_of_nonneg_right m3 (by omega)
  have hS : 0 ≤ S * x := mul_nonneg hS hx
  nlinarith [mul_nonneg hS (mul_nonneg hd hx)]

/-- **C149** A deposit never makes a trade worse, by whomever and of whatever size, up to a single unit of the token bought: the pool
keeps its price, and its depth grows.  (Nobody has sent tokens to the pool before; see below.) -/
theorem C149_deposit_never_hurts {me : Addr} {c : Ctx} {p p1 : State} {L L1 : Ledger} {sender : Addr} {dA mA dB mB cu : Option Int}
    {dl : Option Nat} (hc : c.auth me = false) (hd : DistinctTokens p) (hA : 0 < p.resA) (hB : 0 < p.resB)
    (exactA : L.bal p.cfg.tokenA me = p.resA) (exactB : L.bal p.cfg.tokenB me = p.resB)
    (h : provide me c p L sender dA mA dB mB cu dl = .ok (p1, L1))
    {offer : Addr} {x ret com sp tot ret1 com1 sp1 tot1 : Int}
    (before : simulateSwap p offer x = .ok (ret, com, sp, tot)) (after : simulateSwap p1 offer x = .ok (ret1, com1, sp1, tot1)) :
    ret ≤ ret1 + 1 := by
  obtain ⟨a, b, m, lock, e1, e2, e3, e4, e5, e6, e7, e8, e9, e10, e11, e12, rfl, -⟩ := provide_inv h hc hd
  obtain ⟨qa, qb⟩ := amounts_ratio hA hB e4
  obtain ⟨R, S, rate, r, a1, a2, a3, rfl, rfl⟩ := simulate_inv before
  obtain ⟨R', S', rate', r', b1, b2, b3, rfl, rfl⟩ := simulate_inv after
  rw [a2] at b2; cases b2
  apply net_of_gross a3 b3 (by omega)
  have k := (C02_gross_is_rounded_up_cp a3).2.1
  have k1 := (C02_gross_is_rounded_up_cp b3).1
  obtain ⟨-, -, hx, -⟩ := quote_core a3
  unfold sides at a1 b1
  rw [exactA, exactB] at b1
  simp only at b1
  split at a1
  · rename_i e
    rw [if_pos e] at b1
    simp only [ok_inj, Prod.mk.injEq] at a1 b1
    obtain ⟨rfl, rfl⟩ := a1
    obtain ⟨rfl, rfl⟩ := b1
    exact gross_after hA hB.le e5 hx qa k k1
  · rename_i n
    rw [if_neg n] at b1
    split at a1
    · rename_i e
      rw [if_pos e] at b1
      simp only [ok_inj, Prod.mk.injEq] at a1 b1
      obtain ⟨rfl, rfl⟩ := a1
      obtain ⟨rfl, rfl⟩ := b1
      exact gross_after hB hA.le e7 hx qb k k1
    · cases a1

/-- account 1 deposits 20000 and 40000 units; before, 50000 units sold for 94954, afterwards for 95043 -/
theorem exDeposit : ∃ p1 L1, provide 100 exSign exPool exLed 1 (some 20000) none (some 40000) none none none = .ok (p1, L1) ∧
    simulateSwap exPool 10 50000 = .ok (94954, 285, 4761, 100000) ∧ simulateSwap p1 10 50000 = .ok (95043, 285, 4672, 100000) ∧
    exSign.auth 100 = false ∧ DistinctTokens exPool ∧ exLed.bal 10 100 = exPool.resA ∧ exLed.bal 11 100 = exPool.resB :=
  ⟨_, _, rfl, by decide +kernel, by decide +kernel, by decide, exPool_distinct, rfl, rfl⟩

/-- the tokens of the example after somebody has sent 500000 units of the first token to the pool -/
def exGiven : Ledger := fun t => { exLed t with bal := if t = 10 then upd (exLed t).bal 100 1500000 else (exLed t).bal }

/-- **C149** The condition is needed, and the spread limit no protection: tokens sent to the pool enter its reserves with the next
deposit, and with them the price changes.  After half a million units have been sent to a pool of a million, a deposit of two units
takes the price of a sale of 1000 units down from 1994 to 1330, although no swap took place. -/
theorem C149_sent_tokens_move_the_price : ∃ (me : Addr) (c : Ctx) (p p1 : State) (L L1 : Ledger) (sender offer : Addr),
    c.auth me = false ∧ DistinctTokens p ∧ L.bal p.cfg.tokenA me = p.resA + 500000 ∧ L.bal p.cfg.tokenB me = p.resB ∧
    provide me c p L sender (some 2) none (some 4) none none none = .ok (p1, L1) ∧
    simulateSwap p offer 1000 = .ok (1994, 5, 1, 2000) ∧ simulateSwap p1 offer 1000 = .ok (1330, 3, 0, 1333) :=
  ⟨100, exSign, exPool, _, exGiven, _, 1, 10, by decide, exPool_distinct, rfl, rfl, rfl, rfl, rfl⟩

end Phoenix.Props.Depth
