import Verif.Spec.StableTrade
import Verif.Props.ValueStable
/-!
C132: swapping there and back in a stable pool.  C70: the shares a deposit into a fair pool earns.
-/
namespace Phoenix.Props.Stable
open Phoenix Phoenix.Stable Phoenix.Stable.Spec Phoenix.Spec

/-- Arithmetic of the next theorem. -/
theorem deposit_low {S S1 U D0 D1 T sh : Int} (hU : 100000 ≤ U) (k0 : D0 ≤ S * U) (k1 : S1 * U ≤ D1 + 1505)
    (hS : S ≤ 10 ^ 17) (t0 : 0 ≤ T) (s0 : 0 ≤ sh)
    (h : T * (D1 - D0) * 10 ^ 18 < sh * D0 * 10 ^ 18 + D0 * 10 ^ 18 + D0 * T) :
    (S1 - S - 1) * T ≤ (sh + 1) * S := by
  have e1 : T * (S1 * U - 1505 - S * U) ≤ T * (D1 - D0) := mul_le_mul_of_nonneg_left (by omega) t0
  have e2 : (sh + 1) * D0 ≤ (sh + 1) * (S * U) := mul_le_mul_of_nonneg_left k0 (by omega)
  have e3 : D0 * T ≤ S * U * T := mul_le_mul_of_nonneg_right k0 t0
  have e4 : S * (U * T) ≤ 10 ^ 17 * (U * T) := mul_le_mul_of_nonneg_right hS (mul_nonneg (by omega) t0)
  have e5 : 1505 * T * 10 ^ 18 ≤ (U * T) * 2 * 10 ^ 16 := by nlinarith
  by_contra hn
  have hn : (sh + 1) * S + 1 ≤ (S1 - S - 1) * T := by omega
  have e6 := mul_le_mul_of_nonneg_right hn (show 0 ≤ U * 10 ^ 18 by omega)
  have e7 : 0 ≤ U * T := mul_nonneg (by omega) t0
  nlinarith

/-- Reserves that `compute_d` accepts are not large. -/
theorem size_le {A B U : Int} (a0 : 0 ≤ A) (b0 : 0 ≤ B) (hU : 100000 ≤ U) (hr : A ≤ 1000 * B ∧ B ≤ 1000 * A)
    (h : 4 * (A * U) * (B * U) < 2 ^ 128) : A + B ≤ 10 ^ 17 := by
  have q1 : (10 : Int) ^ 10 ≤ U * U := by nlinarith
  have q2 := mul_le_mul_of_nonneg_left q1 (mul_nonneg a0 b0)
  have q3 : 4 * (A * U) * (B * U) = 4 * (A * B * (U * U)) := by ring
  by_contra hn
  have q4 : 4 * 10 ^ 13 * 10 ^ 16 ≤ A * B := by
    rcases le_total A B with k | k
    · exact mul_le_mul (by omega) (by omega) (by norm_num) a0
    · rw [mul_comm A B]
      exact mul_le_mul (by omega) (by omega) (by norm_num) b0
  generalize A * B = w at *
  generalize w * (U * U) = z at *
  omega

/-- **C70** In a pool in fair condition a deposit is credited in full, up to one share and one unit: the
shares minted, plus one, are at least the part of all shares that the deposit, less one unit, is of the
reserves.  (`R` are the reserves with the deposit; they too must be within 1 : 1000 and
below the amplification bound.)  With `C70_deposit_stolen` this says what the danger is: a share that is
worth much. -/
theorem C70_credit_up_to_one_share {me : Addr} {s : Sys} (h0 : Genesis me s) {ts : List Tx}
    (ht : ∀ t ∈ ts, Possible me t) {p : State} (hp : (run me s ts).pool = some p)
    {c : Ctx} {p' : State} {L' : Ledger} {sender : Addr} {a b : Int} {cu : Option Int} {dl ms : Option Nat}
    (hself : c.auth me = false) (hF : Fair 1 p)
    (hR : Fair 1 { p with resA := p.resA + a, resB := p.resB + b })
    (h : provide me c p (run me s ts).led sender a b cu dl ms = .ok (p', L')) :
    ∃ sh : Int, 0 ≤ sh ∧ p'.total = p.total + sh ∧
      L'.bal p.cfg.shareToken sender = (run me s ts).led.bal p.cfg.shareToken sender + sh ∧
      (a + b - 1) * p.total ≤ (sh + 1) * (p.resA + p.resB) := by
  have hP := reach_swap h0 ht hp
  obtain ⟨f1, f2, f3, f4, f5⟩ := hF
  obtain ⟨-, -, -, g4, g5⟩ := hR
  simp only at g4 g5
  obtain ⟨sh, D1, ⟨-, ha, hb, hau, -, -⟩, hbal, -, e, hD1, -, hD0⟩ := deposit_of_poolInv hP hself h
  have hT : p.total ≠ 0 := by
    intro hz
    have := hP.empty hz
    omega
  obtain ⟨D0, hD0, d0, -, -, hsh⟩ := hD0 hT
  obtain ⟨hAB, hSA, hSB⟩ := hP.distinct
  have a0 := hP.a0
  have b0 := hP.b0
  have t0 := hP.t0
  refine ⟨sh, Int.natCast_nonneg _, by rw [e], ?_, ?_⟩
  · rw [hbal]; simp [Flow.delta, Ne.symm hSA, Ne.symm hSB]
  rw [← f1] at hD0 hD1
  have hu := unit_large f2
  have hpr := computeD_prod hD0
  generalize unitOf p.precA = U at *
  have k0 := (gap_le hD0 (by
      have e1 : ((p.resA.toNat * U + p.resB.toNat * U : Nat) : Int) = (p.resA + p.resB) * U := by
        push_cast; rw [Int.toNat_of_nonneg a0, Int.toNat_of_nonneg b0]; ring
      omega) (by
      have q : p.resA.toNat ≤ 1000 * p.resB.toNat ∧ p.resB.toNat ≤ 1000 * p.resA.toNat := by omega
      constructor <;> nlinarith [q.1, q.2])).1
  have k1 := (gap_le hD1 (by
      have e1 : (((p.resA + a).toNat * U + (p.resB + b).toNat * U : Nat) : Int) = (p.resA + a + (p.resB + b)) * U := by
        push_cast; rw [Int.toNat_of_nonneg (by omega), Int.toNat_of_nonneg (by omega)]; ring
      omega) (by
      have q : (p.resA + a).toNat ≤ 1000 * (p.resB + b).toNat ∧ (p.resB + b).toNat ≤ 1000 * (p.resA + a).toNat := by omega
      constructor <;> nlinarith [q.1, q.2])).2
  have k0' : (D0 : Int) ≤ (p.resA + p.resB) * U := by
    have e1 : ((p.resA.toNat * U + p.resB.toNat * U : Nat) : Int) = (p.resA + p.resB) * U := by
      push_cast; rw [Int.toNat_of_nonneg a0, Int.toNat_of_nonneg b0]; ring
    omega
  have k1' : (p.resA + a + (p.resB + b)) * (U : Int) ≤ D1 + 1505 := by
    have e1 : (((p.resA + a).toNat * U + (p.resB + b).toNat * U : Nat) : Int) = (p.resA + a + (p.resB + b)) * U := by
      push_cast; rw [Int.toNat_of_nonneg (by omega), Int.toNat_of_nonneg (by omega)]; ring
    omega
  have hS : p.resA + p.resB ≤ 10 ^ 17 := by
    rcases hpr with ⟨q1, q2⟩ | ⟨-, -, q⟩
    · have : p.resA.toNat = 0 := by
        rcases Nat.mul_eq_zero.1 q1 with k | k <;> omega
      have : p.resB.toNat = 0 := by
        rcases Nat.mul_eq_zero.1 q2 with k | k <;> omega
      omega
    · refine size_le (U := U) a0 b0 (by exact_mod_cast hu) f4 ?_
      have q0 : 4 * (p.resA.toNat * U) * (p.resB.toNat * U) < 2 ^ 128 := q
      have : (4 * (p.resA.toNat * U) * (p.resB.toNat * U) : Int) < 2 ^ 128 := by exact_mod_cast q0
      rwa [Int.toNat_of_nonneg a0, Int.toNat_of_nonneg b0] at this
  have r := deposit_low (S := p.resA + p.resB) (S1 := p.resA + a + (p.resB + b)) (U := U) (D0 := D0) (D1 := D1)
    (T := p.total) (sh := sh) (by exact_mod_cast hu) k0' k1' hS t0 (Int.natCast_nonneg _) hsh
  have e3 : p.resA + a + (p.resB + b) - (p.resA + p.resB) - 1 = a + b - 1 := by ring
  rwa [e3] at r

/-- the hypotheses hold for the deposit of 0.5 and 0.3 tokens into a pool of 2 : 2 tokens: it earns 7999799 of the
7999800 shares that are its part -/
example : view (run 100 (exStart 7 7) (exHist 100 20000000 20000000)) = some (39999000, 20000000, 20000000) ∧
    (∀ p, (run 100 (exStart 7 7) (exHist 100 20000000 20000000)).pool = some p →
      Fair 1 p ∧ Fair 1 { p with resA := p.resA + 5000000, resB := p.resB + 3000000 }) ∧
    view (run 100 (exStart 7 7) (exHist 100 20000000 20000000 ++
      [.pool (by' 2) (.provide 2 5000000 3000000 none none none)])) = some (39999000 + 7999799, 25000000, 23000000) := by
  refine ⟨by decide +kernel, ?_, by decide +kernel⟩
  have hd : (match (run 100 (exStart 7 7) (exHist 100 20000000 20000000)).pool with
    | none => true
    | some p => decide (Fair 1 p ∧ Fair 1 { p with resA := p.resA + 5000000, resB := p.resB + 3000000 })) = true := by
    decide +kernel
  intro p hp
  rw [hp] at hd
  exact of_decide_eq_true hd

/-- One swap gains the account that makes it at most one unit. -/
theorem swap_gain {me : Addr} {p : State} {L : Ledger} (hP : PoolInv me p L) {m : Int} (hF : Fair m p)
    {c : Ctx} {p' : State} {L' : Ledger} {sender offer : Addr}
    {amount ret : Int} {mo ms : Option Int} {dl : Option Nat} {mf : Option Int} (hself : c.auth me = false)
    (h : swap me c p L sender offer amount mo ms dl mf = .ok (p', L', ret)) :
    holdings p L' sender - holdings p L sender ≤ 1 := by
  obtain ⟨f1, f2, -, f4, f5⟩ := hF
  have h1 := one_to_one_of_poolInv hP hself h f1 f2 f4 f5
  obtain ⟨lim, r, -, -, hau, -, h5, hoth, -, hq, -, -, hms, -, hset, -, h15, h16, h17⟩ := swap_inv h hself hP.distinct.1
  have hne := hP.distinct.1
  have hns := auth_ne hself hau
  obtain ⟨-, -, hcom, -, -⟩ := swap_sizes hq hms hP.cfg.fee
  have e1 := hset p.cfg.tokenA sender
  have e2 := hset p.cfg.tokenB sender
  unfold holdings
  rw [e1, e2]
  rw [h17] at h1
  rcases h5 with rfl | rfl
  · simp only [Stable.Spec.other, if_true, List.map_cons, List.map_nil, List.sum_cons, List.sum_nil, Flow.delta, hne, Ne.symm hne,
      false_and, true_and, if_false] at *
    simp only [Ne.symm hns, if_false] at *
    split <;> omega
  · simp only [Stable.Spec.other, if_true, List.map_cons, List.map_nil, List.sum_cons, List.sum_nil, Flow.delta, hne, Ne.symm hne,
      false_and, true_and, if_false] at *
    simp only [Ne.symm hns, if_false] at *
    split <;> omega

theorem gain_bound {me a : Addr} {m : Int} : ∀ {us : List Tx} {s : Sys}, SysInv me s → (∀ t ∈ us, Possible me t) →
    FairBefore me m s us → gainBySwaps me a s us ≤ us.countP (swapOf a)
  | [], _, _, _, _ => by simp [gainBySwaps]
  | t :: us, s, hs, hu, hF => by
    have ht := hu t (by simp)
    have ih := gain_bound (exec_keeps ht hs) (fun t q => hu t (by simp [q])) (a := a) (m := m) (us := us) (fun b t' af e k => by
      have := hF (t :: b) t' af (by simp [e]) k
      simpa [run] using this)
    rw [gainBySwaps, List.countP_cons]
    have now : (if swapOf a t then
        match s.pool with
        | some p => holdings p (exec me s t).led a - holdings p s.led a
        | none => 0
      else 0) ≤ (if swapOf a t then 1 else 0 : Int) := by
      by_cases hsw : swapOf a t = true
      swap
      · simp [hsw]
      simp only [hsw, if_true]
      cases hp : s.pool with
      | none => simp
      | some p =>
        simp only
        unfold exec
        cases e : step me s t with
        | error _ => simp
        | ok s' =>
          simp only
          cases t with
          | token c tok op => simp [swapOf] at hsw
          | pool c k =>
            cases k with
            | swap sender offer amount mo ms dl mf =>
              simp only [swapOf, decide_eq_true_eq] at hsw
              subst hsw
              simp only [step, hp, bind_ok, ok_inj, Prod.exists] at e
              obtain ⟨p0, hp0, p', L', ret, h, rfl⟩ := e
              have hp0 := loaded_some hp0
              cases hp0
              exact swap_gain (hs.pool _ hp) (hF [] _ us rfl (.inl rfl) _ hp) ht.1 h
            | _ => simp [swapOf] at hsw
    generalize (if swapOf a t then
        match s.pool with
        | some p => holdings p (exec me s t).led a - holdings p s.led a
        | none => 0
      else 0) = g at *
    push_cast
    omega

/-- **C132** Whatever an account swaps in a stable pool, there and back, in any order and with
anything happening in between - other accounts' trades, deposits and withdrawals, donations -, all its
swaps together leave it with at most one unit per swap more of the two tokens than before, as long as
each swap finds the pool in fair condition.  So trading around somebody else's trade gains a
unit per swap at most.  This includes the commission if the account is the one that receives it. -/
theorem C132_swaps_gain_nothing {me : Addr} {s : Sys} (h0 : Genesis me s) (ts us : List Tx)
    (ht : ∀ t ∈ ts, Possible me t) (hu : ∀ t ∈ us, Possible me t) {m : Int} (hF : FairBefore me m (run me s ts) us)
    (a : Addr) : gainBySwaps me a (run me s ts) us ≤ us.countP (swapOf a) :=
  gain_bound (run_keeps ts ht (genesis_inv h0)) hu hF

/-- the hypotheses hold for the cycle of C109; the two swaps lose the trader the commissions and the spread -/
example : gainBySwaps 100 2 (run 100 (exStart 7 7) (exHist 100 20000000 20000000)) exCycle = -6483 := by decide +kernel

end Phoenix.Props.Stable
