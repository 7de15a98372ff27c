import Verif.Lemmas.Events
import Verif.Spec.Events
import Verif.Props.Stake
import Verif.Props.Vesting
import Verif.Props.World
/-!
Property theorems about the events of the other contracts: C99 (stake), C100 (vesting), C101 (factory).
-/
namespace Phoenix.Props.EventsLog
open Phoenix

/-! ### C99: the stake contract's log -/

section stake
open Stake Stake.Spec
open Phoenix.Spec (readStake stakeByLog)

theorem read_other (a : Addr) (r : Option Addr × Int) (l : List Addr) :
    (l.map (fun x => (⟨"withdraw_rewards", "reward_token", .addr x⟩ : Event))).foldl (readStake a) r = r := by
  induction l with
  | nil => rfl
  | cons x l ih => simpa [readStake] using ih

/-- What one call publishes is what it does to the stake of `a`. -/
theorem read_call (me a : Addr) (s s' : Sys) (c : Ctx) (k : Call) (h : step me s (.stake c k) = .ok s') (r : Option Addr × Int) :
    ((events s.st k).foldl (readStake a) r).2 = r.2 + (s'.st.info a).total - (s.st.info a).total := by
  cases k with
  | init ad lp mb mr m o mc =>
    simp only [step, bind_ok, ok_inj] at h
    obtain ⟨v, h1, rfl⟩ := h
    obtain ⟨-, -, -, -, rfl⟩ := init_inv h1
    simp [events, readStake]
  | bond u x =>
    simp only [step, bind_ok, ok_inj] at h
    obtain ⟨⟨v, L⟩, h1, rfl⟩ := h
    obtain ⟨-, cfg, -, -, -, -, -, -, rfl, -⟩ := bond_inv h1
    by_cases hu : u = a
    · subst hu; simp [events, readStake, upd_same]; ring
    · simp [events, readStake, hu, upd_ne _ _ (Ne.symm hu)]
  | unbond u x t =>
    simp only [step, bind_ok, ok_inj] at h
    obtain ⟨⟨v, L⟩, h1, rfl⟩ := h
    obtain ⟨-, cfg, _, _, -, -, -, -, -, rfl, -⟩ := unbond_inv h1
    by_cases hu : u = a
    · subst hu; simp [events, readStake, upd_same]; ring
    · simp [events, readStake, hu, upd_ne _ _ (Ne.symm hu)]
  | createFlow u x =>
    simp only [step, bind_ok, ok_inj] at h
    obtain ⟨v, h1, rfl⟩ := h
    obtain ⟨-, cfg, -, -, -, rfl⟩ := createFlow_inv h1
    simp [events, readStake]
  | distribute u x t =>
    simp only [step, bind_ok, ok_inj] at h
    obtain ⟨⟨v, L⟩, h1, rfl⟩ := h
    obtain ⟨-, cfg, m, -, -, -, -, -, -, -, rfl, -⟩ := distribute_inv h1
    simp [events, readStake]
  | withdraw u =>
    simp only [step, bind_ok, ok_inj] at h
    obtain ⟨⟨v, L⟩, h1, rfl⟩ := h
    obtain ⟨rfl, -⟩ := withdraw_inv h1
    simp only [events, List.foldl_cons, read_other]
    by_cases hu : u = a
    · subst hu; simp [readStake, upd_same]
    · simp [readStake, upd_ne _ _ (Ne.symm hu)]

theorem read_log (me a : Addr) : ∀ (ts : List Tx) (s : Sys) (r : Option Addr × Int),
    (((Stake.log me s ts).map (·.2)).foldl (readStake a) r).2 =
      r.2 + ((run me s ts).st.info a).total - (s.st.info a).total
  | [], s, r => by simp [Stake.log, run]
  | t :: ts, s, r => by
    show _ = r.2 + ((run me (exec me s t) ts).st.info a).total - _
    rcases log_cons me s t ts with ⟨s', ev, h1, h2, h3, h4⟩ | ⟨-, h3, h4⟩
    · rw [h3, h4, List.map_append, List.foldl_append, read_log me a ts s']
      simp only [stepE, h1, bind_ok, ok_inj] at h2
      obtain ⟨_, rfl, h2⟩ := h2
      cases t with
      | stake c k =>
        simp only [ok_inj, Prod.mk.injEq, true_and] at h2
        subst h2
        have := read_call me a s s' c k h1 r
        simp only [List.map_map, Function.comp_def, List.map_id'] at *
        rw [this]; ring
      | token c tok op =>
        simp only [ok_inj, Prod.mk.injEq, true_and] at h2
        subst h2
        simp only [step, bind_ok, ok_inj] at h1
        obtain ⟨L, -, rfl⟩ := h1
        simp
    · rw [h3, h4]; exact read_log me a ts s r

/-- **C99** From the stake contract's log of events alone one can compute what every account has staked: for every history
from the deployment, the sum of what the `bond` and `unbond` events say about an account is the total that
`query_staked` reports for it, and the sum of its stakes. -/
theorem C99_log_determines_stakes {me : Addr} {s : Sys} (h0 : Genesis me s) (ts : List Tx) (ht : ∀ t ∈ ts, Stake.Spec.Possible me t)
    (a : Addr) :
    (queryStaked (run me s ts).st a).total = stakeByLog a ((Stake.log me s ts).map (·.2)) ∧
    stakedBy (run me s ts) a = stakeByLog a ((Stake.log me s ts).map (·.2)) := by
  have h := read_log me a ts s (none, 0)
  rw [h0.1] at h
  simp only [fresh, noInfo] at h
  have e : (queryStaked (run me s ts).st a).total = stakeByLog a ((Stake.log me s ts).map (·.2)) := by
    unfold stakeByLog queryStaked
    rw [h]; ring
  exact ⟨e, by rw [← (C35_total_is_sum h0 ts ht).2.1 a, e]⟩

example : (Stake.log 100 sExStart sExHist).length = 21 ∧ stakeByLog 2 ((Stake.log 100 sExStart sExHist).map (·.2)) = 150 := by
  decide +kernel

/-- two stakes of 300 at different times; the stake of time `t` is unbonded -/
def sTwin (t : Nat) : List Tx :=
  [ .stake (sBy 9 0) (.init 9 30 10 1 7 9 5),
    .stake (sBy 7 1) (.createFlow 7 40),
    .stake (sBy 1 (sDay 10)) (.bond 1 300),
    .stake (sBy 1 (sDay 60)) (.bond 1 300),
    .stake (sBy 1 (sDay 69)) (.unbond 1 300 t),
    .stake (sBy 7 (sDay 70)) (.distribute 7 4000 40) ]

/-- **C99** The log, even with the times, does not determine which stakes an account still has, nor what it earns: an unbond
event does not say which of several stakes of the same amount was removed. -/
theorem C99_log_does_not_determine_rewards :
    Stake.log 100 sExStart (sTwin (sDay 10)) = Stake.log 100 sExStart (sTwin (sDay 60)) ∧
    stakesOf (run 100 sExStart (sTwin (sDay 10))) 1 = [⟨300, sDay 60⟩] ∧
    stakesOf (run 100 sExStart (sTwin (sDay 60))) 1 = [⟨300, sDay 10⟩] ∧
    queryWithdrawable (sBy 1 (sDay 71)) (run 100 sExStart (sTwin (sDay 10))).st 1 = .ok [(40, 666)] ∧
    queryWithdrawable (sBy 1 (sDay 71)) (run 100 sExStart (sTwin (sDay 60))).st 1 = .ok [(40, 4000)] := by
  decide +kernel

end stake

/-! ### C100: the vesting contract's log -/

section vesting
open Vesting Vesting.Spec
open Phoenix.Spec (said Settles SameRights Issues readMinter minterByLog)

/-- **C100** The event of a claim carries exactly what the contract pays to the claimer: what the claimed schedule's
outstanding balance goes down by. -/
theorem C100_claim_event {me : Addr} {s s' : Sys} {c : Ctx} {a : Addr} {i : Nat} {ev : List Event}
    (h : stepE me s (.vest c (.claim a i)) = .ok (s', ev)) :
    ∃ t paid, token? s = some t ∧ ev = [⟨"Claim", "Claimed tokens: ", .int paid⟩] ∧ 0 < paid ∧
      outstanding s' (a, i) = outstanding s (a, i) - paid ∧ Settles s.led s'.led [⟨t, me, a, paid⟩] := by
  have hs := (ok_of_map (Vesting.step_eq me s (.vest c (.claim a i)))).mpr ⟨_, h, rfl⟩
  simp only [stepE, bind_ok, loaded_ok, ok_inj, Prod.mk.injEq, Prod.exists] at h
  obtain ⟨v, hv, v', L', ev', h1, rfl, rfl⟩ := h
  obtain ⟨-, ⟨x, n, hx, hn, hx', hset⟩, -, -⟩ := C32_claim_only_own hv hs
  refine ⟨v.token, (x.balance : Int) - n, by simp [token?, hv], ?_, by omega, ?_, hset⟩
  · unfold claimE at h1
    simp only [bind_ok, requireAuth_ok, req_ok, available_ok, getVesting_ok, toU128_ok, subU_ok] at h1
    obtain ⟨_, _, av, ⟨x1, n1, h2, h3, h4, h5, rfl⟩, _, h6, x', h7, n', h8, _, ⟨h9, rfl⟩, m, h10, _, h11,
      _, ⟨h12, rfl⟩, L1, h13, h14⟩ := h1
    simp only [ok_inj, Prod.mk.injEq] at h14
    obtain ⟨rfl, rfl, rfl⟩ := h14
    rw [h2] at h7; cases h7
    simp only [schedule?, hv, Option.bind_some, h2, Option.some.injEq] at hx
    subst hx
    simp only [schedule?, Option.bind_some, putInfo_sched, and_self, if_true, Option.some.injEq] at hx'
    have : x1.balance - m = n := by simpa using congrArg Info.balance hx'
    have : (x1.balance : Int) - n1 = x1.balance - n := by omega
    rw [this]
  · simp only [outstanding, hx, hx']; ring

example : okAnd (stepE 100 (Vesting.run 100 vExStart (vExHist.take 3)) (.vest (vBy 1 30) (.claim 1 0)))
    (fun q => q.2 == [⟨"Claim", "Claimed tokens: ", .int 40⟩]) = true := by decide +kernel

/-- two accounts with the same schedule; account `a` claims -/
def vTwin (a : Addr) : List Tx :=
  [ .vest (vBy 8 1) (.init 8 30 10 none), .vest (vBy 8 2) (.create [(1, vExSl), (2, vExSl)]), .vest (vBy a 30) (.claim a 0) ]

/-- **C100** The log does not say who claimed: two histories with the same log leave different balances outstanding. -/
theorem C100_log_does_not_name_claimer :
    Vesting.log 100 vExStart (vTwin 1) = Vesting.log 100 vExStart (vTwin 2) ∧ (Vesting.log 100 vExStart (vTwin 1)).length = 2 ∧
    outstanding (Vesting.run 100 vExStart (vTwin 1)) (1, 0) = 80 ∧ outstanding (Vesting.run 100 vExStart (vTwin 2)) (1, 0) = 120 := by
  decide +kernel

/-- **C100** The events of a `mint` name the minter and exactly what was created in the contract's balance. -/
theorem C100_mint_event {me : Addr} {s s' : Sys} {c : Ctx} {a : Addr} {x : Int} {ev : List Event}
    (h : stepE me s (.vest c (.mint a x)) = .ok (s', ev)) :
    ∃ v m, s.vest = some v ∧ v.minter = some m ∧ ev = [⟨"Mint", "sender: ", .addr m.address⟩, ⟨"Mint", "Minted tokens: ", .int x⟩] ∧
      0 < x ∧ Issues s.led s'.led v.token me x := by
  simp only [stepE, bind_ok, ok_inj, Prod.mk.injEq] at h
  obtain ⟨s1, h1, rfl, rfl⟩ := h
  have h2 := h1
  simp only [Vesting.step, bind_ok, loaded_ok] at h2
  obtain ⟨v, hv, -⟩ := h2
  obtain ⟨m, h3, rfl, -, h4, -, h5⟩ := C34_only_minter_mints hv h1
  exact ⟨v, m, hv, h3, rfl, h4, h5⟩

/-- **C100** The events of a `burn` name the account and exactly what it lost. -/
theorem C100_burn_event {me : Addr} {s s' : Sys} {c : Ctx} {a : Addr} {x : Nat} {ev : List Event} (hx : x < U128_LIM)
    (h : stepE me s (.vest c (.burn a x)) = .ok (s', ev)) :
    ∃ t, token? s = some t ∧ ev = [⟨"Burn", "Burned from: ", .addr a⟩, ⟨"Burn", "Burned tokens: ", .int x⟩] ∧
      0 < x ∧ s'.vest = s.vest ∧ Issues s.led s'.led t a (-x) := by
  simp only [stepE, bind_ok, ok_inj, Prod.mk.injEq] at h
  obtain ⟨s1, h1, rfl, rfl⟩ := h
  simp only [Vesting.step, bind_ok, loaded_ok, ok_inj] at h1
  obtain ⟨v, hv, L', h1, rfl⟩ := h1
  unfold Vesting.burn at h1
  simp only [bind_ok, requireAuth_ok, req_ok] at h1
  obtain ⟨_, -, _, h2, h3⟩ := h1
  obtain ⟨-, h4, -, h5, -⟩ := Ledger.burn_inv h3
  have hc : castI128 x = x := by
    unfold castI128 at h4 ⊢
    split
    · rfl
    · rename_i k; rw [if_neg k] at h4; omega
  rw [hc] at h5
  exact ⟨v.token, by simp [token?, hv], rfl, Nat.pos_of_ne_zero h2, rfl, h5⟩

/-- the minter on record -/
def minterOf (v : State) : Option (Addr × Int) := v.minter.map (fun m => (m.address, (m.capacity : Int)))

theorem read_minter {me : Addr} {s s' : Sys} {v : State} (hs : SysInv me s) (hv : s.vest = some v) {t : Tx} {ev : List Event}
    (h : step me s t = .ok s') (he : stepE me s t = .ok (s', ev)) :
    ∃ v', s'.vest = some v' ∧ minterByLog (minterOf v) ev = minterOf v' := by
  cases t with
  | token c tok op =>
    simp only [stepE, bind_ok, ok_inj, Prod.mk.injEq] at he
    obtain ⟨_, -, -, rfl⟩ := he
    simp only [Vesting.step, bind_ok, ok_inj] at h
    obtain ⟨L, -, rfl⟩ := h
    exact ⟨v, hv, rfl⟩
  | vest c k =>
    cases k with
    | init a t m mi =>
      simp only [Vesting.step, bind_ok, ok_inj] at h
      obtain ⟨w, hi, rfl⟩ := h
      rw [hv] at hi
      exact absurd (init_ok hi).1 (by simp)
    | create l =>
      simp only [stepE, bind_ok, ok_inj, Prod.mk.injEq] at he
      obtain ⟨_, -, -, rfl⟩ := he
      simp only [Vesting.step, bind_ok, ok_inj, loaded_ok] at h
      obtain ⟨w, hw, ⟨v1, L'⟩, hk, rfl⟩ := h
      rw [hv] at hw; cases hw
      obtain ⟨h1, _, _, T, h4, -⟩ := create_inv hk
      have hm := (createLoop_inv (hs.st v hv) h4).2.2.2.2.1
      exact ⟨v1, rfl, by simp [minterByLog, minterOf, hm]⟩
    | claim a i =>
      obtain ⟨_, paid, -, rfl, -⟩ := C100_claim_event he
      simp only [Vesting.step, bind_ok, ok_inj, loaded_ok] at h
      obtain ⟨w, hw, ⟨v1, L'⟩, hk, rfl⟩ := h
      rw [hv] at hw; cases hw
      obtain ⟨h1, x, n, h2, h3, h4, rfl, -⟩ := claim_inv hk
      exact ⟨_, rfl, rfl⟩
    | burn a n =>
      simp only [stepE, bind_ok, ok_inj, Prod.mk.injEq] at he
      obtain ⟨_, -, -, rfl⟩ := he
      simp only [Vesting.step, bind_ok, ok_inj, loaded_ok] at h
      obtain ⟨w, hw, L', hk, rfl⟩ := h
      rw [hv] at hw; cases hw
      exact ⟨v, hv, rfl⟩
    | mint a y =>
      simp only [stepE, bind_ok, ok_inj, Prod.mk.injEq] at he
      obtain ⟨_, -, -, rfl⟩ := he
      simp only [Vesting.step, bind_ok, ok_inj, loaded_ok] at h
      obtain ⟨w, hw, ⟨v1, L'⟩, hk, rfl⟩ := h
      rw [hv] at hw; cases hw
      obtain ⟨h1, h2, m, h3, rfl, h5, rfl, h6, h7⟩ := mint_inv hk
      refine ⟨_, rfl, ?_⟩
      simp [minterByLog, readMinter, minterOf, h3]
      omega
    | updateMinter a n =>
      simp only [stepE, bind_ok, ok_inj, Prod.mk.injEq] at he
      obtain ⟨_, -, -, rfl⟩ := he
      simp only [Vesting.step, bind_ok, ok_inj, loaded_ok] at h
      obtain ⟨w, hw, v1, hk, rfl⟩ := h
      rw [hv] at hw; cases hw
      obtain ⟨h1, h2, rfl⟩ := updateMinter_ok hk
      refine ⟨_, rfl, ?_⟩
      cases hm : v.minter <;> simp [minterByLog, readMinter, minterOf, capacity, hm]
    | updateCapacity a n =>
      simp only [stepE, bind_ok, ok_inj, Prod.mk.injEq] at he
      obtain ⟨_, -, -, rfl⟩ := he
      simp only [Vesting.step, bind_ok, ok_inj, loaded_ok] at h
      obtain ⟨w, hw, v1, hk, rfl⟩ := h
      rw [hv] at hw; cases hw
      obtain ⟨h1, h2, m, h3, rfl⟩ := updateCapacity_ok hk
      refine ⟨_, rfl, ?_⟩
      simp [minterByLog, readMinter, minterOf, h3]

theorem read_minters {me : Addr} (us : List Tx) : ∀ {s : Sys} {v : State}, SysInv me s → s.vest = some v →
    (∀ t ∈ us, Vesting.Spec.Possible me t) → ∃ v', (Vesting.run me s us).vest = some v' ∧
      minterByLog (minterOf v) (Vesting.log me s us) = minterOf v' := by
  induction us with
  | nil => intro s v _ hv _; exact ⟨v, hv, rfl⟩
  | cons t us ih =>
    intro s v hs hv hp
    have hs' := Vesting.exec_inv (hp t (by simp)) hs
    rw [Vesting.run_cons]
    rcases Vesting.log_cons me s t us with ⟨s', ev, h1, h2, h3, h4⟩ | ⟨-, h3, h4⟩
    · obtain ⟨v1, hv1, k⟩ := read_minter hs hv h1 h2
      rw [h3] at hs'
      obtain ⟨v', hv', k'⟩ := ih hs' hv1 (fun t ht => hp t (by simp [ht]))
      refine ⟨v', by rw [h3]; exact hv', ?_⟩
      rw [h4, minterByLog, List.foldl_append]
      change minterByLog (minterByLog (minterOf v) ev) _ = _
      rw [k, k']
    · rw [h3, h4]
      exact ih hs hv (fun t ht => hp t (by simp [ht]))

/-- **C100** From any moment after the set-up on, the log tells who the minter is and how much they may still mint. -/
theorem C100_log_determines_minter {me : Addr} {g : Sys} (h0 : Genesis me g) (ts us : List Tx)
    (ht : ∀ t ∈ ts ++ us, Vesting.Spec.Possible me t) {v v' : State} (hv : (Vesting.run me g ts).vest = some v)
    (hv' : (Vesting.run me g (ts ++ us)).vest = some v') :
    minterByLog (v.minter.map (fun m => (m.address, (m.capacity : Int)))) (Vesting.log me (Vesting.run me g ts) us) =
      v'.minter.map (fun m => (m.address, (m.capacity : Int))) := by
  have hs := Vesting.run_inv ts (fun t h => ht t (by simp [h])) (Vesting.genesis_inv h0)
  obtain ⟨w, hw, k⟩ := read_minters us hs hv (fun t h => ht t (by simp [h]))
  have : Vesting.run me g (ts ++ us) = Vesting.run me (Vesting.run me g ts) us := by simp [Vesting.run, List.foldl_append]
  rw [this, hw] at hv'
  cases hv'
  exact k

example : minterByLog (some (6, 500)) (Vesting.log 100 (Vesting.run 100 vExStart (vExHist.take 1)) (vExHist.drop 1 ++
    [.vest (vBy 6 40) (.updateMinter 6 5), .vest (vBy 8 41) (.updateCapacity 8 900), .vest (vBy 5 42) (.mint 5 1)])) =
      some (5, 899) := by decide +kernel

end vesting

/-! ### C101: the factories' log -/

section factory
open World World.Spec
open Phoenix.Spec (announced)

theorem announced_step (h : Host) (F : Addr) (w w' : World) (t : Tx) (ev : List (Addr × Event))
    (e : stepF h w t.ctx t.call = .ok (w', ev)) : announced F ev = (createdBy h w F t).map (·.pool) := by
  have hs := (ok_of_map (World.step_eq h w t.ctx t.call)).mpr ⟨_, e, rfl⟩
  obtain ⟨c, k⟩ := t
  cases k with
  | create F' sender i k amp sl mf =>
    simp only [stepF, bind_ok, ok_inj, Prod.exists, Prod.mk.injEq] at e
    obtain ⟨_, -, w1, P, e1, rfl, rfl⟩ := e
    simp only at hs
    simp only [createdBy]
    by_cases hF : F' = F
    · subst hF
      simp [announced, hs, e1]
    · simp [announced, hF]
  | facInit F' admin lp stb stk tok wl dec =>
    simp only [stepF, bind_ok, ok_inj, Prod.mk.injEq] at e
    obtain ⟨_, -, rfl, rfl⟩ := e
    simp [announced, createdBy]
  | _ =>
    simp only [stepF, bind_ok, ok_inj, Prod.mk.injEq] at e
    obtain ⟨_, -, rfl, rfl⟩ := e
    rfl

theorem announced_created (h : Host) (F : Addr) : ∀ (ts : List Tx) (w : World),
    announced F (facLog h w ts) = (created h F w ts).map (·.pool)
  | [], w => rfl
  | t :: ts, w => by
    simp only [created, List.map_append]
    rcases facLog_cons h w t ts with ⟨w', ev, -, h2, h3, h4⟩ | ⟨⟨er, h1⟩, h3, h4⟩
    · rw [h3, h4, ← announced_created h F ts w', ← announced_step h F w w' t ev h2]
      simp [announced]
    · rw [h3, h4, createdBy_failed h1, announced_created h F ts w]; rfl

/-- **C101** The pools a factory has announced in its events are exactly the ones it lists: for every history of the whole
protocol, `query_pools` answers the addresses of the `create` events of that factory, in their order. -/
theorem C101_announced_pools {h : Host} {acct : Accounts} {w0 : World} (hh : HostOK h acct) (g : Genesis acct w0) {ts : List Tx}
    (hp : ∀ t ∈ ts, Possible acct t) {F : Addr} {l : List Addr} (hq : queryPools (run h w0 ts) F = .ok l) :
    l = announced F (facLog h w0 ts) := by
  rw [announced_created]
  exact (Props.World.C43_pools_exact hh g hp hq).1

example : announced 50 (facLog Example.host Example.start (Example.setup ++ Example.liquidity)) = [Example.pool1, Example.pool2] ∧
    queryPools (run Example.host Example.start (Example.setup ++ Example.liquidity)) 50 = .ok [Example.pool1, Example.pool2] := by
  decide +kernel

end factory

end Phoenix.Props.EventsLog
