import Verif.Model.Events
import Verif.Model.Rewards
/-!
The events of contracts/stake_rewards.  Functions with the suffix `E` are the functions of the same name of
Verif.Model.Rewards with the events added; `C125_same` proves that they do the same otherwise.
-/
namespace Phoenix.Rewards
open Phoenix Stake

/-- The events of `withdraw_rewards`, contracts/stake_rewards/src/contract.rs:291, 327-332: the first one is
published in any case, the others only if something is paid. -/
def withdrawEvents (user token : Addr) (x : Int) : List Event :=
  ⟨"withdraw_rewards", "user", .addr user⟩ ::
    if x = 0 then [] else [⟨"withdraw_rewards", "reward_token", .addr token⟩, ⟨"withdraw_rewards", "reward_amount", .int x⟩]

/-- `withdraw_rewards`, contracts/stake_rewards/src/contract.rs:290-334, with its events. -/
def withdrawE (self : Addr) (c : Ctx) (s : State) (L : Ledger) (user : Addr) (i : Info) : Res (State × Ledger × List Event) := do
  let cfg ← getConfig s
  requireAuth c cfg.staking
  let x ← payable c cfg s user i
  if x = 0 then .ok (s, L, withdrawEvents user cfg.token x)
  else do
    let w ← add128 (s.adj user).withdrawn (asU128 x)
    let t ← subU s.dist.withdrawable (asU128 x)
    let L' ← L.transfer (c.as self) cfg.token self user x
    .ok ({ s with dist := { s.dist with withdrawable := t },
                  adj := upd s.adj user { s.adj user with withdrawn := w } }, L', withdrawEvents user cfg.token x)

/-- The withdrawal inside `calculate_unbond`, contracts/stake_rewards/src/contract.rs:198-204, with its events. -/
def withdrawIfAnyE (self : Addr) (c : Ctx) (s : State) (L : Ledger) (user : Addr) (i : Info) :
    Res (State × Ledger × List Event) := do
  let r ← queryWithdrawable c s user i
  if r ≠ 0 then withdrawE self c s L user i else .ok (s, L, [])

/-- `calculate_unbond`, contracts/stake_rewards/src/contract.rs:188-225, with its events (line 224). -/
def calcUnbondE (self : Addr) (c : Ctx) (s : State) (L : Ledger) (user : Addr) (i : Info) (removed : Int) :
    Res (State × Ledger × List Event) := do
  requireAuth c user
  let cfg ← getConfig s
  requireAuth c cfg.staking
  let w ← withdrawIfAnyE self c s L user i
  let old ← power cfg i.total
  let t ← subI i.total removed
  let new ← power cfg t
  let s' ← updateRewards w.1 user old new
  .ok (s', w.2.1, w.2.2 ++ [⟨"calculate_unbond", "user", .addr user⟩])

/-- `distribute_rewards`, contracts/stake_rewards/src/contract.rs:227-288, with its events (lines 284-289):
none if nothing is handed out. -/
def distributeE (self : Addr) (c : Ctx) (s : State) (L : Ledger) (totalStaked : Int) : Res (State × List Event) := do
  let cfg ← getConfig s
  requireAuth c cfg.staking
  let p ← power cfg totalStaked
  let total ← toU128 p
  if total = 0 then .ok (s, [])
  else do
    let amount ← unlocked self c cfg s L
    if amount = 0 then .ok (s, [])
    else do
      let d ← handOut s.dist amount total
      .ok ({ s with dist := d }, [⟨"distribute_rewards", "asset", .addr cfg.token⟩, ⟨"distribute_rewards", "amount", .int amount⟩])

/-- The events of `fund_distribution`, contracts/stake_rewards/src/contract.rs:420-427. -/
def fundEvents (token : Addr) (now start duration : Nat) (amount : Int) : List Event :=
  [⟨"fund_reward_distribution", "asset", .addr token⟩, ⟨"fund_reward_distribution", "amount", .int amount⟩,
   ⟨"fund_reward_distribution", "start_time", .int start⟩, ⟨"fund_reward_distribution", "end_time", .int ((now + duration : Nat) : Int)⟩]

/-- One transaction with the events of the contract (contracts/stake_rewards/src/contract.rs:84-428). -/
def stepE (self : Addr) (s : Sys) : Tx → Res (Sys × List Event)
  | .rewards c (.init a st tok mc mr mb) => do
    let s' ← step self s (.rewards c (.init a st tok mc mr mb))
    .ok (s', [⟨"initialize", "StakingRewards rewards distribution contract", .unit⟩, ⟨"create_distribution_flow", "asset", .addr tok⟩])
  | .rewards c (.addUser u i) => do
    let s' ← step self s (.rewards c (.addUser u i))
    .ok (s', [⟨"stake_rewards", "add_user", .addr u⟩])
  | .rewards c (.calcBond u i) => do
    let s' ← step self s (.rewards c (.calcBond u i))
    .ok (s', [⟨"calculate_bond", "user", .addr u⟩])
  | .rewards c (.calcUnbond u i x) => do
    let (v, L, ev) ← calcUnbondE self c s.st s.led u i x
    .ok (⟨v, L⟩, ev)
  | .rewards c (.distribute x) => do
    let (v, ev) ← distributeE self c s.st s.led x
    .ok ({ s with st := v }, ev)
  | .rewards c (.withdraw u i) => do
    let (v, L, ev) ← withdrawE self c s.st s.led u i
    .ok (⟨v, L⟩, ev)
  | .rewards c (.fund a d x) => do
    let cfg ← getConfig s.st
    let (v, L) ← fund self c s.st s.led a d x
    .ok (⟨v, L⟩, fundEvents cfg.token c.now a d x)
  | .token c tok op => do
    let s' ← step self s (.token c tok op)
    .ok (s', [])

/-- The log of events of a history; failed transactions publish nothing (modelling device, nothing of /repo). -/
def log (self : Addr) : Sys → List Tx → List Event
  | _, [] => []
  | s, t :: ts =>
    match stepE self s t with
    | .ok (s', ev) => ev ++ log self s' ts
    | .error _ => log self s ts

end Phoenix.Rewards
