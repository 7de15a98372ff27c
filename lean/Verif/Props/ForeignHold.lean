import Verif.Lemmas.Foreign
import Verif.Props.Vesting
import Verif.Props.Stake
/-! Property theorems about the vesting and the stake contract over tokens of unknown code:
C104, C105. -/
namespace Phoenix.Props
open Phoenix Phoenix.Spec

section Vesting
open Phoenix.Vesting

theorem owedIn_eq (v : Vesting.State) (K : Finset (Addr × Nat)) : owedIn v K = ∑ k ∈ K, Vesting.out v k := rfl

theorem xVest_step {σ : Type} {T : Tokens σ} {me : Addr} (hF : Fair T me) {c : Ctx} {v v' : Vesting.State} {L L' : σ} {k : Vesting.Call}
    (hD : Delivers T me v.token) (hself : c.auth me = false) (hv : Vesting.StInv v)
    (hb : ∀ K, owedIn v K ≤ T.bal L v.token me) (h : Vesting.callX T me c v L k = .ok (v', L')) :
    v'.token = v.token ∧ Vesting.StInv v' ∧ ∀ K, owedIn v' K ≤ T.bal L' v.token me := by
  simp only [owedIn_eq] at *
  cases k with
  | create l =>
    simp only [Vesting.callX] at h
    unfold Vesting.createX at h
    simp only [bind_ok, ok_inj, Prod.mk.injEq, requireAuth_ok, toI128_ok] at h
    obtain ⟨_, h1, _, -, _, -, ⟨v1, tot⟩, hl, _, ⟨-, rfl⟩, _, -, L1, hL1, rfl, rfl⟩ := h
    obtain ⟨i1, -, i3, -, -, -, -, -, i9⟩ := Vesting.createLoop_inv hv hl
    have hne : v.admin ≠ me := by intro e; rw [e, hself] at h1; simp at h1
    have := hD _ _ _ _ _ hne hL1
    refine ⟨i3, i1, fun K => ?_⟩
    have a := (i9 K).1
    have b := hb K
    push_cast at a
    show ∑ k ∈ K, Vesting.out v1 k ≤ T.bal L1 v.token me
    omega
  | claim a i =>
    simp only [Vesting.callX] at h
    unfold Vesting.claimX at h
    simp only [bind_ok, requireAuth_ok, req_ok, Vesting.available_ok, Vesting.getVesting_ok, toU128_ok, subU_ok, ok_inj, Prod.mk.injEq] at h
    obtain ⟨_, h1, av, ⟨x, n, h2, h3, h4, h5, rfl⟩, _, h6, x', h7, n', h8, _, ⟨h9, rfl⟩, m, h10, _, h11,
      _, ⟨h12, rfl⟩, L1, h13, rfl, rfl⟩ := h
    rw [h2] at h7; cases h7
    rw [h3] at h8; rw [ok_inj] at h8; subst h8
    have hm : x.balance - m = n := by omega
    rw [hm]
    have t := hF.transfer _ _ _ _ _ _ _ h13 v.token
    simp only [and_self, if_true] at t
    refine ⟨rfl, Vesting.claim_stInv hv h2 h3 (by omega), fun K => ?_⟩
    have ho : Vesting.out v (a, i) = x.balance := by simp [Vesting.out, h2]
    have key : ∀ K : Finset (Addr × Nat), (a, i) ∈ K →
        ∑ k ∈ K, Vesting.out (Vesting.putInfo v a i { x with balance := n }) k ≤ T.bal L1 v.token me := by
      intro K hin
      have := hb K
      rw [Vesting.sum_putInfo, if_pos hin, ho]
      simp only; omega
    by_cases hin : (a, i) ∈ K
    · exact key K hin
    · refine le_trans ?_ (key (insert (a, i) K) (Finset.mem_insert_self _ _))
      rw [Finset.sum_insert hin]
      have : 0 ≤ Vesting.out (Vesting.putInfo v a i { x with balance := n }) (a, i) := by
        simp [Vesting.out, Vesting.putInfo_sched]
      omega
  | updateMinter a n =>
    simp only [Vesting.callX, bind_ok, ok_inj, Prod.mk.injEq] at h
    obtain ⟨_, hk, rfl, rfl⟩ := h
    obtain ⟨_, _, rfl⟩ := Vesting.updateMinter_ok hk
    exact ⟨rfl, ⟨hv.fresh, hv.dense, hv.good⟩, hb⟩
  | updateCapacity a n =>
    simp only [Vesting.callX, bind_ok, ok_inj, Prod.mk.injEq] at h
    obtain ⟨_, hk, rfl, rfl⟩ := h
    obtain ⟨_, _, m, _, rfl⟩ := Vesting.updateCapacity_ok hk
    exact ⟨rfl, ⟨hv.fresh, hv.dense, hv.good⟩, hb⟩
  | _ => simp [Vesting.callX] at h

/-- **C104** Let the vesting token be any token that takes from the contract no more than
the contract sent and that delivers in full what is sent to the contract.  Then after every
history the contract holds at least the outstanding balances of any set of schedules. -/
theorem C104_vesting_backed_any_token {σ : Type} {T : Tokens σ} {me : Addr} (hF : Fair T me)
    {v0 v : Vesting.State} {L0 L : σ} (hD : Delivers T me v0.token)
    (hs : ∀ a i, v0.sched a i = none) (h0 : 0 ≤ T.bal L0 v0.token me)
    (h : Vesting.ReachX T me v0 L0 v L) (K : Finset (Addr × Nat)) : owedIn v K ≤ T.bal L v.token me := by
  suffices H : v.token = v0.token ∧ Vesting.StInv v ∧ ∀ K, owedIn v K ≤ T.bal L v.token me from H.2.2 K
  induction h with
  | start =>
    refine ⟨rfl, ⟨fun a i _ => hs a i, fun a i j _ _ => hs a j, fun a i x hx => by rw [hs] at hx; simp at hx⟩, fun K => ?_⟩
    have : owedIn v0 K = 0 := by
      unfold owedIn; simp [hs]
    rw [this]; exact h0
  | call c k _ hself hc ih =>
    obtain ⟨e1, i1, i2⟩ := ih
    obtain ⟨f1, j1, j2⟩ := xVest_step hF (by rw [e1]; exact hD) hself i1 i2 hc
    exact ⟨f1.trans e1, j1, by rw [f1]; exact j2⟩
  | other L' _ hL ih =>
    obtain ⟨e1, i1, i2⟩ := ih
    exact ⟨e1, i1, fun K => le_trans (i2 K) (hL _)⟩

/-- token 30 keeps half of every transfer; the admin of `xVest` is account 8, who holds 1000 -/
def xHalf : Tokens Ledger := taxTokens (fun t => if t = 30 then 5000 else 0)
/-- the contract before the first schedule -/
def xVest : Vesting.State := ⟨8, 30, 10, none, fun _ _ => none, 0⟩

/-- the hypotheses of C104 are met by the repository's token, in a history with two
schedules and a claim -/
example : Fair ledgerTokens 100 ∧ Delivers ledgerTokens 100 xVest.token ∧ 0 ≤ ledgerTokens.bal vExStart.led xVest.token 100 ∧
    ∃ v L, Vesting.ReachX ledgerTokens 100 xVest vExStart.led v L ∧ owedIn v {(1, 0), (2, 0)} = 380 ∧ L.bal 30 100 = 380 := by
  refine ⟨ledger_fair _, ledger_delivers _ _, by decide, ?_⟩
  have h : okAnd (Vesting.callX ledgerTokens 100 (vBy 8 2) xVest vExStart.led (.create [(1, vExSl), (2, vExPl)])) (fun x =>
      okAnd (Vesting.callX ledgerTokens 100 (vBy 1 30) x.1 x.2 (.claim 1 0)) (fun y =>
        decide (owedIn y.1 {(1, 0), (2, 0)} = 380 ∧ y.2.bal 30 100 = 380))) = true := by decide +kernel
  obtain ⟨⟨v1, L1⟩, h1, h2⟩ := exists_of_okAnd h
  obtain ⟨⟨v2, L2⟩, h3, h4⟩ := exists_of_okAnd h2
  exact ⟨v2, L2, .call _ _ (.call _ _ .start (by decide) h1) (by decide) h3, by simpa using h4⟩

/-- **C104** Delivery in full is needed.  With a token that keeps half of every transfer the
contract records two schedules of 120 and 300 and holds 210.  When everything has vested
the first claim empties it of 120 and the second claim, of 300, cannot be paid. -/
theorem C104_taxed_token_underfunds :
    ∃ v L v' L', Vesting.ReachX xHalf 100 xVest vExStart.led v L ∧ owedIn v {(1, 0), (2, 0)} = 420 ∧ L.bal 30 100 = 210 ∧
      Vesting.claimX xHalf 100 (vBy 1 100) v L 1 0 = .ok (v', L') ∧ owedIn v' {(1, 0), (2, 0)} = 300 ∧ L'.bal 30 100 = 90 ∧
      Vesting.available (vBy 2 100) v' 2 0 = .ok 300 ∧
      ∀ r, Vesting.claimX xHalf 100 (vBy 2 100) v' L' 2 0 ≠ .ok r := by
  have h : okAnd (Vesting.callX xHalf 100 (vBy 8 2) xVest vExStart.led (.create [(1, vExSl), (2, vExPl)])) (fun x =>
      decide (owedIn x.1 {(1, 0), (2, 0)} = 420 ∧ x.2.bal 30 100 = 210) &&
      okAnd (Vesting.claimX xHalf 100 (vBy 1 100) x.1 x.2 1 0) (fun y =>
        decide (owedIn y.1 {(1, 0), (2, 0)} = 300 ∧ y.2.bal 30 100 = 90) &&
        okAnd (Vesting.available (vBy 2 100) y.1 2 0) (fun z => decide (z = 300)) &&
        (Vesting.claimX xHalf 100 (vBy 2 100) y.1 y.2 2 0).toOption.isNone)) = true := by decide +kernel
  obtain ⟨⟨v1, L1⟩, h1, h2⟩ := exists_of_okAnd h
  rw [Bool.and_eq_true] at h2
  obtain ⟨h2, h3⟩ := h2
  obtain ⟨⟨v2, L2⟩, h4, h5⟩ := exists_of_okAnd h3
  rw [Bool.and_eq_true, Bool.and_eq_true] at h5
  obtain ⟨⟨h5, h6⟩, h7⟩ := h5
  obtain ⟨z, h8, h9⟩ := exists_of_okAnd h6
  simp only [decide_eq_true_eq] at h2 h5 h9
  subst h9
  refine ⟨v1, L1, v2, L2, .call _ _ .start (by decide) h1, h2.1, h2.2, h4, h5.1, h5.2, h8, fun r hr => ?_⟩
  rw [hr] at h7; simp [Except.toOption] at h7

end Vesting

section Stake
open Phoenix.Stake

theorem xPay {σ : Type} {T : Tokens σ} {me : Addr} (hF : Fair T me) {c : Ctx} {s : Stake.State} {a u : Addr} {l : List Addr} {L L' : σ}
    (hu : u ∉ l) (h : Stake.payLoopX T me c s a l L = .ok L') : T.bal L u me ≤ T.bal L' u me := by
  induction l generalizing L with
  | nil => simp only [Stake.payLoopX, ok_inj] at h; rw [h]
  | cons b l ih =>
    simp only [Stake.payLoopX, bind_ok] at h
    obtain ⟨p, -, L1, hL1, h⟩ := h
    have t := hF.transfer _ _ _ _ _ _ _ hL1 u
    simp only [List.mem_cons, not_or] at hu
    simp only [hu.1, and_false, if_false, sub_zero] at t
    exact le_trans t (ih hu.2 h)

/-- what the induction carries -/
structure XStake (b : Int) (cfg : Stake.Config) (s : Stake.State) : Prop where
  cfg : s.cfg = some cfg
  pos : ∀ a, ∀ e ∈ (s.info a).stakes, 0 < e.amount
  backed : ∀ U, stakedIn s U ≤ b

theorem xStake_step {σ : Type} {T : Tokens σ} {me : Addr} (hF : Fair T me) {c : Ctx} {s s' : Stake.State} {L L' : σ} {k : Stake.Call}
    {cfg : Stake.Config} (hm : 0 < cfg.minBond) (hD : Delivers T me cfg.lpToken) (hself : c.auth me = false)
    (hs : cfg.lpToken ∉ s.dists → XStake (T.bal L cfg.lpToken me) cfg s)
    (hnot : cfg.lpToken ∉ s'.dists) (h : Stake.callX T me c s L k = .ok (s', L')) :
    XStake (T.bal L' cfg.lpToken me) cfg s' := by
  cases k with
  | init => simp [Stake.callX] at h
  | bond a x =>
    simp only [Stake.callX] at h
    unfold Stake.bondX at h
    simp only [bind_ok, requireAuth_ok, Stake.getConfig_ok, req_ok, addI_ok, ok_inj, Prod.mk.injEq] at h
    obtain ⟨_, h1, cfg', h2, _, h3, L1, hL, _, ⟨h4, rfl⟩, _, ⟨h5, rfl⟩, rfl, rfl⟩ := h
    obtain ⟨k1, k2, k3⟩ := hs hnot
    rw [k1] at h2; cases h2
    have hne : a ≠ me := by intro e; rw [e, hself] at h1; simp at h1
    have t := hD _ _ _ _ _ hne hL
    refine ⟨k1, fun b e he => ?_, fun U => ?_⟩
    · simp only [upd_apply] at he
      split at he
      · simp only [List.mem_append, List.mem_singleton] at he
        rcases he with he | rfl
        · exact k2 _ _ he
        · simp only; omega
      · exact k2 _ _ he
    · have := k3 U
      unfold stakedIn Stake.queryStaked at *
      rw [Stake.sum_upd_info (f := fun i => (i.stakes.map Stake.Entry.amount).sum)]
      simp only [List.map_append, List.sum_append, List.map_cons, List.map_nil, List.sum_cons, List.sum_nil]
      split <;> omega
  | unbond a x ts =>
    simp only [Stake.callX] at h
    unfold Stake.unbondX at h
    simp only [bind_ok, requireAuth_ok, Stake.getConfig_ok, subI_ok, ok_inj, Prod.mk.injEq] at h
    obtain ⟨_, h1, cfg', h2, l, hl, _, ⟨h4, rfl⟩, L1, hL, _, ⟨h5, rfl⟩, rfl, rfl⟩ := h
    obtain ⟨k1, k2, k3⟩ := hs hnot
    rw [k1] at h2; cases h2
    obtain ⟨p, q, e1, rfl, -⟩ := Stake.removeStake_ok hl
    have t := hF.transfer _ _ _ _ _ _ _ hL cfg.lpToken
    simp only [and_self, if_true] at t
    have hpos : ∀ e ∈ p ++ q, 0 < e.amount := fun e he => k2 a e (by
      rw [e1]; simp only [List.mem_append, List.mem_cons] at *; tauto)
    refine ⟨k1, fun b e he => ?_, fun U => ?_⟩
    · simp only [upd_apply] at he
      split at he
      · exact hpos e he
      · exact k2 _ _ he
    · have key : ∀ U, a ∈ U → stakedIn { s with info := upd s.info a { s.info a with stakes := p ++ q, total := (s.info a).total - x }, total := s.total - x } U ≤ T.bal L1 cfg.lpToken me := by
        intro U hin
        have := k3 U
        unfold stakedIn Stake.queryStaked at *
        rw [Stake.sum_upd_info (f := fun i => (i.stakes.map Stake.Entry.amount).sum)]
        simp only [e1, hin, if_true, List.map_append, List.sum_append, List.map_cons, List.sum_cons]
        omega
      by_cases hin : a ∈ U
      · exact key U hin
      · refine le_trans ?_ (key (insert a U) (Finset.mem_insert_self _ _))
        unfold stakedIn Stake.queryStaked
        rw [Finset.sum_insert hin]
        have : 0 ≤ ((p ++ q).map Stake.Entry.amount).sum := List.sum_nonneg (fun z hz => by
          obtain ⟨e, he, rfl⟩ := List.mem_map.mp hz
          exact (hpos e he).le)
        simp only [upd_same]
        omega
  | createFlow a t =>
    simp only [Stake.callX, bind_ok, ok_inj, Prod.mk.injEq] at h
    obtain ⟨_, hk, rfl, rfl⟩ := h
    unfold Stake.createFlow at hk
    simp only [bind_ok, ok_inj] at hk
    obtain ⟨_, -, _, -, _, -, _, -, rfl⟩ := hk
    obtain ⟨k1, k2, k3⟩ := hs (by simp only [List.mem_append, not_or] at hnot; exact hnot.1)
    exact ⟨k1, k2, k3⟩
  | distribute a x t =>
    simp only [Stake.callX] at h
    unfold Stake.distributeX at h
    simp only [bind_ok, requireAuth_ok, ok_inj, Prod.mk.injEq] at h
    obtain ⟨_, h1, _, -, _, -, _, -, _, -, L1, hL, rfl, rfl⟩ := h
    obtain ⟨k1, k2, k3⟩ := hs hnot
    have hne : a ≠ me := by intro e; rw [e, hself] at h1; simp at h1
    have tr := hF.transfer _ _ _ _ _ _ _ hL cfg.lpToken
    simp only [hne, false_and, if_false, sub_zero] at tr
    exact ⟨k1, k2, fun U => le_trans (k3 U) tr⟩
  | withdraw a =>
    simp only [Stake.callX] at h
    unfold Stake.withdrawX at h
    simp only [bind_ok, ok_inj, Prod.mk.injEq] at h
    obtain ⟨L1, hL, rfl, rfl⟩ := h
    obtain ⟨k1, k2, k3⟩ := hs hnot
    have tr := xPay hF hnot hL
    refine ⟨k1, fun b e he => ?_, fun U => le_trans ?_ (le_trans (k3 U) tr)⟩
    · simp only [upd_apply] at he
      split at he
      · exact k2 _ _ he
      · exact k2 _ _ he
    · unfold stakedIn Stake.queryStaked
      rw [Stake.sum_upd_info (f := fun i => (i.stakes.map Stake.Entry.amount).sum)]
      simp

/-- **C105** Let the staked token be any token that takes from the contract no more than the
contract sent and that delivers in full what is sent to the contract, and let the reward
tokens be any tokens that take from the contract no more than it sent.  As long as the
staked token is not itself a reward token, the contract holds, after every history, at least
what any set of accounts has staked. -/
theorem C105_stakes_backed_any_token {σ : Type} {T : Tokens σ} {me : Addr} (hF : Fair T me)
    {s0 s : Stake.State} {L0 L : σ} {cfg : Stake.Config} (hc : s0.cfg = some cfg) (hm : 0 < cfg.minBond)
    (hD : Delivers T me cfg.lpToken) (hs : ∀ a, (s0.info a).stakes = []) (h0 : 0 ≤ T.bal L0 cfg.lpToken me)
    (h : Stake.ReachX T me s0 L0 s L) (hnot : cfg.lpToken ∉ s.dists) (U : Finset Addr) :
    stakedIn s U ≤ T.bal L cfg.lpToken me := by
  suffices H : cfg.lpToken ∉ s.dists → XStake (T.bal L cfg.lpToken me) cfg s from (H hnot).backed U
  clear hnot U
  induction h with
  | start =>
    intro _
    refine ⟨hc, fun a e he => by rw [hs] at he; simp at he, fun U => ?_⟩
    have : stakedIn s0 U = 0 := by unfold stakedIn Stake.queryStaked; simp [hs]
    rw [this]; exact h0
  | call c k _ hself hk ih => exact fun hnot => xStake_step hF hm hD hself ih hnot hk
  | other L' _ hL ih =>
    intro hnot
    obtain ⟨k1, k2, k3⟩ := ih hnot
    exact ⟨k1, k2, fun U => le_trans (k3 U) (hL _)⟩

/-- the contract after `initialize`: staked token 30, manager 7, owner 9, minimum bond 10 -/
def xStake : Stake.State := (Stake.run 100 sExStart (sExHist.take 1)).st

/-- the staked token 30 is the repository's, the reward token 40 keeps half of every transfer -/
def xRewardTax : Tokens Ledger := taxTokens (fun t => if t = 40 then 5000 else 0)

/-- the hypotheses of C105 are met in a history with two stakes, a distribution and a withdrawal -/
example : Fair xRewardTax 100 ∧ Delivers xRewardTax 100 30 ∧ xStake.cfg = some ⟨30, 10, 1, 7, 9, 5⟩ ∧
    (∀ a, (xStake.info a).stakes = []) ∧
    ∃ s L, Stake.ReachX xRewardTax 100 xStake sExStart.led s L ∧ 30 ∉ s.dists ∧ stakedIn s {1, 2} = 400 ∧ L.bal 30 100 = 400 := by
  refine ⟨tax_fair (fun t => by split <;> decide) 100, tax_delivers (by decide) _, by decide +kernel, fun a => rfl, ?_⟩
  have h : okAnd (Stake.callX xRewardTax 100 (sBy 7 1) xStake sExStart.led (.createFlow 7 40)) (fun x1 =>
      okAnd (Stake.callX xRewardTax 100 (sBy 1 (sDay 10)) x1.1 x1.2 (.bond 1 300)) (fun x2 =>
      okAnd (Stake.callX xRewardTax 100 (sBy 2 (sDay 11)) x2.1 x2.2 (.bond 2 100)) (fun x3 =>
      okAnd (Stake.callX xRewardTax 100 (sBy 7 (sDay 71)) x3.1 x3.2 (.distribute 7 2000 40)) (fun x4 =>
      okAnd (Stake.callX xRewardTax 100 (sBy 2 (sDay 72)) x4.1 x4.2 (.withdraw 2)) (fun x5 =>
        decide (30 ∉ x5.1.dists ∧ stakedIn x5.1 {1, 2} = 400 ∧ x5.2.bal 30 100 = 400)))))) = true := by
    decide +kernel
  obtain ⟨⟨s1, L1⟩, h1, h⟩ := exists_of_okAnd h
  obtain ⟨⟨s2, L2⟩, h2, h⟩ := exists_of_okAnd h
  obtain ⟨⟨s3, L3⟩, h3, h⟩ := exists_of_okAnd h
  obtain ⟨⟨s4, L4⟩, h4, h⟩ := exists_of_okAnd h
  obtain ⟨⟨s5, L5⟩, h5, h⟩ := exists_of_okAnd h
  exact ⟨s5, L5, .call _ _ (.call _ _ (.call _ _ (.call _ _ (.call _ _ .start rfl h1) rfl h2) rfl h3) rfl h4) rfl h5,
    by simpa using h⟩

/-- **C105** Rewards are another matter.  Here the reward token keeps half of every
transfer.  A distribution of 2000 is recorded in full although 1000 arrived.  The staker of
a quarter is paid 500, and the staker of the other three quarters, who is due 1500, cannot be
paid: the withdrawal of rewards fails. -/
theorem C105_taxed_reward_unpayable :
    ∃ s L s' L', Stake.ReachX xRewardTax 100 xStake sExStart.led s L ∧ L.bal 40 100 = 1000 ∧
      Stake.queryWithdrawable (sBy 2 (sDay 72)) s 2 = .ok [(40, 500)] ∧
      Stake.queryWithdrawable (sBy 1 (sDay 72)) s 1 = .ok [(40, 1500)] ∧
      Stake.withdrawX xRewardTax 100 (sBy 2 (sDay 72)) s L 2 = .ok (s', L') ∧
      ∀ r, Stake.withdrawX xRewardTax 100 (sBy 1 (sDay 72)) s' L' 1 ≠ .ok r := by
  have h : okAnd (Stake.callX xRewardTax 100 (sBy 7 1) xStake sExStart.led (.createFlow 7 40)) (fun x1 =>
      okAnd (Stake.callX xRewardTax 100 (sBy 1 (sDay 10)) x1.1 x1.2 (.bond 1 300)) (fun x2 =>
      okAnd (Stake.callX xRewardTax 100 (sBy 2 (sDay 11)) x2.1 x2.2 (.bond 2 100)) (fun x3 =>
      okAnd (Stake.callX xRewardTax 100 (sBy 7 (sDay 71)) x3.1 x3.2 (.distribute 7 2000 40)) (fun x4 =>
        decide (x4.2.bal 40 100 = 1000) &&
        okAnd (Stake.queryWithdrawable (sBy 2 (sDay 72)) x4.1 2) (fun q => decide (q = [(40, 500)])) &&
        okAnd (Stake.queryWithdrawable (sBy 1 (sDay 72)) x4.1 1) (fun q => decide (q = [(40, 1500)])) &&
        okAnd (Stake.withdrawX xRewardTax 100 (sBy 2 (sDay 72)) x4.1 x4.2 2) (fun x5 =>
          (Stake.withdrawX xRewardTax 100 (sBy 1 (sDay 72)) x5.1 x5.2 1).toOption.isNone))))) = true := by
    decide +kernel
  obtain ⟨⟨s1, L1⟩, h1, h⟩ := exists_of_okAnd h
  obtain ⟨⟨s2, L2⟩, h2, h⟩ := exists_of_okAnd h
  obtain ⟨⟨s3, L3⟩, h3, h⟩ := exists_of_okAnd h
  obtain ⟨⟨s4, L4⟩, h4, h⟩ := exists_of_okAnd h
  simp only [Bool.and_eq_true, decide_eq_true_eq] at h
  obtain ⟨⟨⟨ha, hb⟩, hc⟩, hd⟩ := h
  obtain ⟨q1, hq1, e1⟩ := exists_of_okAnd hb
  obtain ⟨q2, hq2, e2⟩ := exists_of_okAnd hc
  obtain ⟨⟨s5, L5⟩, h5, h6⟩ := exists_of_okAnd hd
  simp only [decide_eq_true_eq] at e1 e2
  subst e1 e2
  refine ⟨s4, L4, s5, L5, .call _ _ (.call _ _ (.call _ _ (.call _ _ .start rfl h1) rfl h2) rfl h3) rfl h4, ha, hq1, hq2, h5, fun r hr => ?_⟩
  rw [hr] at h6; simp [Except.toOption] at h6

/-- **C105** Delivery in full of the staked token is needed as well: if the staked token
keeps half of every transfer, two stakes of 300 and 100 are recorded in full, the contract
holds 200, and the larger stake cannot be taken out by its owner. -/
theorem C105_taxed_stake_underfunds :
    ∃ s L, Stake.ReachX xHalf 100 xStake sExStart.led s L ∧ stakedIn s {1, 2} = 400 ∧ L.bal 30 100 = 200 ∧
      Stake.queryStaked s 1 = ⟨[⟨300, sDay 10⟩], 0, 300⟩ ∧
      ∀ r, Stake.unbondX xHalf 100 (sBy 1 (sDay 12)) s L 1 300 (sDay 10) ≠ .ok r := by
  have h : okAnd (Stake.callX xHalf 100 (sBy 1 (sDay 10)) xStake sExStart.led (.bond 1 300)) (fun x2 =>
      okAnd (Stake.callX xHalf 100 (sBy 2 (sDay 11)) x2.1 x2.2 (.bond 2 100)) (fun x3 =>
        decide (stakedIn x3.1 {1, 2} = 400 ∧ x3.2.bal 30 100 = 200 ∧ Stake.queryStaked x3.1 1 = ⟨[⟨300, sDay 10⟩], 0, 300⟩) &&
          (Stake.unbondX xHalf 100 (sBy 1 (sDay 12)) x3.1 x3.2 1 300 (sDay 10)).toOption.isNone)) = true := by
    decide +kernel
  obtain ⟨⟨s1, L1⟩, h1, h⟩ := exists_of_okAnd h
  obtain ⟨⟨s2, L2⟩, h2, h⟩ := exists_of_okAnd h
  simp only [Bool.and_eq_true, decide_eq_true_eq] at h
  obtain ⟨⟨a, b, d⟩, e⟩ := h
  refine ⟨s2, L2, .call _ _ (.call _ _ .start rfl h1) rfl h2, a, b, d, fun r hr => ?_⟩
  rw [hr] at e; simp [Except.toOption] at e

end Stake
end Phoenix.Props
