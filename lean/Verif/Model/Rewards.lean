import Verif.Model.Curve
import Verif.Model.Stake
/-
Model of contracts/stake_rewards: rewards of one token, handed out to the stakers of one
staking contract along a schedule.
Every call but `initialize` is for the staking contract; the stakes are an argument
(`BondingInfo`, contracts/stake_rewards/src/storage.rs:103-125, has the fields of the
structure of the same name of contracts/stake, so `Stake.Info` is used for it).
Not modelled: TTLs, events, `update` (replaces the code), the fields `max_bonus_bps`,
`bonus_per_day_bps` (always 0, never read) and `reward_debt` (never read).
Simplification: distribution, curve and adjustments are stored per reward token; the
reward token is set once, by `initialize`, so there is one of each.
-/
namespace Phoenix.Rewards
open Phoenix Stake

/-- `Config`, contracts/stake_rewards/src/storage.rs:6-19. -/
structure Config where
  staking : Addr
  token : Addr
  maxComplexity : Nat
  minReward : Int
  minBond : Int
  deriving DecidableEq

/-- `Distribution`, contracts/stake_rewards/src/distribution.rs:54-69. -/
structure Dist where
  spp : Nat
  leftover : Nat
  distributed : Nat
  withdrawable : Nat
  deriving DecidableEq

/-- `WithdrawAdjustment`, contracts/stake_rewards/src/distribution.rs:120-131. -/
structure Adj where
  corr : Int
  withdrawn : Nat
  deriving DecidableEq

/-- Storage.  `cfg` is `none` before `initialize`; a missing adjustment reads as `⟨0, 0⟩`
(contracts/stake_rewards/src/distribution.rs:150-164). -/
structure State where
  cfg : Option Config
  admin : Addr
  dist : Dist
  curve : Curve
  adj : Addr → Adj

/-- Storage before anything was written (modelling device, nothing of /repo). -/
def fresh : State :=
  { cfg := none, admin := 0, dist := ⟨0, 0, 0, 0⟩, curve := .constant 0, adj := fun _ => ⟨0, 0⟩ }

/-- `get_config`, contracts/stake_rewards/src/storage.rs:21-35. -/
def getConfig (s : State) : Res Config :=
  match s.cfg with
  | some c => .ok c
  | none => .error .panic

/-- `initialize`, contracts/stake_rewards/src/contract.rs:84-134.  No authorisation and no
validation of the arguments. -/
def init (s : State) (admin staking token : Addr) (maxComplexity : Nat) (minReward minBond : Int) : Res State := do
  req (s.cfg = none) (.code 1)
  .ok { s with cfg := some ⟨staking, token, maxComplexity, minReward, minBond⟩, admin := admin,
               dist := ⟨1, 0, 0, 0⟩, curve := .constant 0 }

/-- `calc_power`, contracts/stake_rewards/src/distribution.rs:232-243, always called with
the multiplier 1 and with `TOKEN_PER_POWER` = 1000 (contracts/stake_rewards/src/lib.rs:8). -/
def power (cfg : Config) (stakes : Int) : Res Int :=
  if stakes < cfg.minBond then .ok 0
  else do
    let p ← Dec.mulInt stakes Dec.ONE
    divI p 1000

/-- `update_rewards` and `apply_points_correction`,
contracts/stake_rewards/src/distribution.rs:85-118. -/
def updateRewards (s : State) (user : Addr) (old new : Int) : Res State :=
  if old = new then .ok s
  else do
    let diff ← subI new old
    let spp ← toI128 s.dist.spp
    let p ← mulI spp diff
    let corr ← subI (s.adj user).corr p
    .ok { s with adj := upd s.adj user { s.adj user with corr := corr } }

/-- `add_user`, contracts/stake_rewards/src/contract.rs:136-156. -/
def addUser (c : Ctx) (s : State) (user : Addr) (i : Info) : Res State := do
  let cfg ← getConfig s
  requireAuth c cfg.staking
  let new ← power cfg i.total
  updateRewards s user 0 new

/-- `stakes.stakes.last().unwrap()`, contracts/stake_rewards/src/contract.rs:167 -/
def lastEntry (l : List Entry) : Res Entry :=
  match l.getLast? with
  | some e => .ok e
  | none => .error .panic

/-- `calculate_bond`, contracts/stake_rewards/src/contract.rs:158-186. -/
def calcBond (c : Ctx) (s : State) (user : Addr) (i : Info) : Res State := do
  let cfg ← getConfig s
  requireAuth c cfg.staking
  let e ← lastEntry i.stakes
  let old ← power cfg i.total
  let t ← addI i.total e.amount
  let new ← power cfg t
  updateRewards s user old new

/-- `withdrawable_rewards`, contracts/stake_rewards/src/distribution.rs:166-184.  The shift
right of an i128 by 32 rounds down. -/
def claim (cfg : Config) (s : State) (user : Addr) (total : Int) : Res Nat := do
  let pw ← power cfg total
  let spp ← toI128 s.dist.spp
  let p ← mulI spp pw
  let q ← addI p (s.adj user).corr
  let a ← toU128 (q / 4294967296)
  subU a (s.adj user).withdrawn

/-- days of a stake that count, contracts/stake_rewards/src/distribution.rs:255-264. -/
def daysCounted (now : Nat) (e : Entry) : Res Nat := do
  let age ← subU now e.ts
  .ok (if age / 86400 < 60 then age / 86400 else 60)

/-- the loop of `calc_withdraw_power`, contracts/stake_rewards/src/distribution.rs:254-270. -/
def weigh (now : Nat) : List Entry → Nat × Nat → Res (Nat × Nat)
  | [], acc => .ok acc
  | e :: l, acc => do
    let d ← daysCounted now e
    let x ← toU128 e.amount
    let p ← mul128 d x
    let a ← add128 acc.1 p
    let q ← mul128 60 x
    let b ← add128 acc.2 q
    weigh now l (a, b)

/-- `calc_withdraw_power`, contracts/stake_rewards/src/distribution.rs:249-280. -/
def withdrawPower (now : Nat) (stakes : List Entry) : Res Int := do
  let w ← weigh now stakes (0, 0)
  if 0 < w.2 then do
    let a ← toI128 w.1
    let b ← toI128 w.2
    Dec.fromRatio a b
  else .ok 0

/-- the reward to pay, common to `withdraw_rewards` and `query_withdrawable_reward`,
contracts/stake_rewards/src/contract.rs:300-315, 492-509. -/
def payable (c : Ctx) (cfg : Config) (s : State) (user : Addr) (i : Info) : Res Int := do
  let r ← claim cfg s user i.total
  let m ← withdrawPower c.now i.stakes
  let r' ← toI128 r
  Dec.mulInt r' m

/-- `withdraw_rewards`, contracts/stake_rewards/src/contract.rs:290-334. -/
def withdraw (self : Addr) (c : Ctx) (s : State) (L : Ledger) (user : Addr) (i : Info) : Res (State × Ledger) := do
  let cfg ← getConfig s
  requireAuth c cfg.staking
  let x ← payable c cfg s user i
  if x = 0 then .ok (s, L)
  else do
    let w ← add128 (s.adj user).withdrawn (asU128 x)
    let t ← subU s.dist.withdrawable (asU128 x)
    let L' ← L.transfer (c.as self) cfg.token self user x
    .ok ({ s with dist := { s.dist with withdrawable := t },
                  adj := upd s.adj user { s.adj user with withdrawn := w } }, L')

/-- `query_withdrawable_reward`, contracts/stake_rewards/src/contract.rs:483-516. -/
def queryWithdrawable (c : Ctx) (s : State) (user : Addr) (i : Info) : Res Nat := do
  let cfg ← getConfig s
  let x ← payable c cfg s user i
  toU128 x

/-- the withdrawal inside `calculate_unbond`, contracts/stake_rewards/src/contract.rs:198-204. -/
def withdrawIfAny (self : Addr) (c : Ctx) (s : State) (L : Ledger) (user : Addr) (i : Info) : Res (State × Ledger) := do
  let r ← queryWithdrawable c s user i
  if r ≠ 0 then withdraw self c s L user i else .ok (s, L)

/-- `calculate_unbond`, contracts/stake_rewards/src/contract.rs:188-225. -/
def calcUnbond (self : Addr) (c : Ctx) (s : State) (L : Ledger) (user : Addr) (i : Info) (removed : Int) :
    Res (State × Ledger) := do
  requireAuth c user
  let cfg ← getConfig s
  requireAuth c cfg.staking
  let w ← withdrawIfAny self c s L user i
  let old ← power cfg i.total
  let t ← subI i.total removed
  let new ← power cfg t
  let s' ← updateRewards w.1 user old new
  .ok (s', w.2)

/-- the amount to hand out, contracts/stake_rewards/src/contract.rs:249-264: everything the
contract holds that is neither owed to users nor still locked by the schedule. -/
def unlocked (self : Addr) (c : Ctx) (cfg : Config) (s : State) (L : Ledger) : Res Nat := do
  let b ← toU128 (L.bal cfg.token self)
  let v ← s.curve.value c.now
  let a ← subU b s.dist.withdrawable
  subU a v

/-- the new distribution record, contracts/stake_rewards/src/contract.rs:270-283.  The
shift left drops the bits above 128; the leftover is cut to 64 bits. -/
def handOut (d : Dist) (amount total : Nat) : Res Dist := do
  let pts ← add128 (amount * 4294967296 % U128_LIM) d.leftover
  let pps ← divU pts total
  let spp ← add128 d.spp pps
  let dt ← add128 d.distributed amount
  let wt ← add128 d.withdrawable amount
  .ok ⟨spp, pts % total % U64_LIM, dt, wt⟩

/-- `distribute_rewards`, contracts/stake_rewards/src/contract.rs:227-288. -/
def distribute (self : Addr) (c : Ctx) (s : State) (L : Ledger) (totalStaked : Int) : Res State := do
  let cfg ← getConfig s
  requireAuth c cfg.staking
  let p ← power cfg totalStaked
  let total ← toU128 p
  if total = 0 then .ok s
  else do
    let amount ← unlocked self c cfg s L
    if amount = 0 then .ok s
    else do
      let d ← handOut s.dist amount total
      .ok { s with dist := d }

/-- the checks of a new schedule, contracts/stake_rewards/src/contract.rs:388-396. -/
def checkRange (k : Curve) (amount : Nat) : Res Unit :=
  req (¬ (k.range.1 ≠ 0 ∨ k.range.2 > amount)) (.code 7)

/-- `validate_complexity(..).unwrap_or_else(..)`, contracts/stake_rewards/src/contract.rs:407-415. -/
def checkComplexity (k : Curve) (max : Nat) : Res Unit :=
  match k.validateComplexity max with
  | .ok () => .ok ()
  | .error _ => .error (.code 12)

/-- old and new schedule together, contracts/stake_rewards/src/contract.rs:398-417. -/
def joinCurves (now max : Nat) (old new : Curve) : Res Curve :=
  match old.end with
  | some e => if e < now then .ok new else do
    let k ← old.combine new
    checkComplexity k max
    .ok k
  | none => do
    let k ← old.combine new
    checkComplexity k max
    .ok k

/-- `fund_distribution`, contracts/stake_rewards/src/contract.rs:336-428.  The schedule starts
at `start` and ends `duration` after the present (not after `start`). -/
def fund (self : Addr) (c : Ctx) (s : State) (L : Ledger) (start duration : Nat) (amount : Int) :
    Res (State × Ledger) := do
  let cfg ← getConfig s
  requireAuth c s.admin
  requireAuth c cfg.staking
  req (¬ start < c.now) (.code 9)
  req (¬ cfg.minReward > amount) (.code 6)
  let L' ← L.transfer (c.as self) cfg.token s.admin self amount
  let stop ← add64 c.now duration
  let x ← toU128 amount
  checkRange (.sl start x stop 0) x
  let k ← joinCurves c.now cfg.maxComplexity s.curve (.sl start x stop 0)
  .ok ({ s with curve := k }, L')

/-- `query_config`, contracts/stake_rewards/src/contract.rs:432-439. -/
def queryConfig (s : State) : Res Config := getConfig s

/-- `query_admin`, contracts/stake_rewards/src/contract.rs:441-446: fails before `initialize`. -/
def queryAdmin (s : State) : Res Addr := do
  let _ ← getConfig s
  .ok s.admin

/-- `query_distributed_reward`, contracts/stake_rewards/src/contract.rs:518-524: fails for
other tokens, which have no distribution. -/
def queryDistributed (s : State) (asset : Addr) : Res Nat := do
  let cfg ← getConfig s
  req (asset = cfg.token) .panic
  .ok s.dist.distributed

/-- `query_undistributed_reward`, contracts/stake_rewards/src/contract.rs:526-534. -/
def queryUndistributed (self : Addr) (s : State) (L : Ledger) (asset : Addr) : Res Nat := do
  let cfg ← getConfig s
  req (asset = cfg.token) .panic
  let b ← toU128 (L.bal asset self)
  subU b s.dist.withdrawable

/-- `calculate_annualized_payout`, contracts/stake_rewards/src/distribution.rs:186-230. -/
def annualized (k : Curve) (now : Nat) : Res Int :=
  match k.end with
  | none => .ok 0
  | some last => if last ≤ now then .ok 0 else do
    let diff ← subU last now
    if 31536000 ≤ diff then do
      let a ← k.value now
      let t ← add64 now 31536000
      let b ← k.value t
      let d ← subU a b
      let d' ← toI128 d
      Dec.fromAtomics d' 0
    else do
      let a ← k.value now
      let p ← mul128 a 31536000
      let p' ← toI128 p
      Dec.fromRatio p' diff

/-- `query_annualized_reward`, contracts/stake_rewards/src/contract.rs:448-481, as a raw
decimal (the source turns it into text: `Dec.toText` in Verif.Model.DecimalText). -/
def queryAnnualized (c : Ctx) (s : State) (totalStaked : Int) : Res Int := do
  let cfg ← getConfig s
  let p ← power cfg totalStaked
  if p = 0 then .ok 0
  else do
    let pay ← annualized s.curve c.now
    let u ← toU128 p
    let m ← mul128 u s.dist.spp
    let d ← toI128 m
    Dec.divInt pay d

/-- External calls of the contract. contracts/stake_rewards/src/contract.rs:82-535. -/
inductive Call where
  | init (admin staking token : Addr) (maxComplexity : Nat) (minReward minBond : Int)
  | addUser (user : Addr) (i : Info)
  | calcBond (user : Addr) (i : Info)
  | calcUnbond (user : Addr) (i : Info) (removed : Int)
  | distribute (totalStaked : Int)
  | withdraw (user : Addr) (i : Info)
  | fund (start duration : Nat) (amount : Int)

/-- The contract together with all tokens (modelling device, nothing of /repo). -/
structure Sys where
  st : State
  led : Ledger

/-- A transaction: a call of the contract or of any token (modelling device, nothing of /repo). -/
inductive Tx where
  | rewards (c : Ctx) (k : Call)
  | token (c : Ctx) (tok : Addr) (op : TokenOp)

/-- Signers and clock of a transaction (modelling device, nothing of /repo). -/
def Tx.ctx : Tx → Ctx
  | .rewards c _ => c
  | .token c _ _ => c

/-- Effect of one successful transaction (contracts/stake_rewards/src/contract.rs:84-428). -/
def step (self : Addr) (s : Sys) : Tx → Res Sys
  | .token c tok op => do
    let L ← s.led.call c tok op
    .ok { s with led := L }
  | .rewards _ (.init a st tok mc mr mb) => do
    let v ← init s.st a st tok mc mr mb
    .ok { s with st := v }
  | .rewards c (.addUser u i) => do
    let v ← addUser c s.st u i
    .ok { s with st := v }
  | .rewards c (.calcBond u i) => do
    let v ← calcBond c s.st u i
    .ok { s with st := v }
  | .rewards c (.calcUnbond u i x) => do
    let (v, L) ← calcUnbond self c s.st s.led u i x
    .ok ⟨v, L⟩
  | .rewards c (.distribute x) => do
    let v ← distribute self c s.st s.led x
    .ok { s with st := v }
  | .rewards c (.withdraw u i) => do
    let (v, L) ← withdraw self c s.st s.led u i
    .ok ⟨v, L⟩
  | .rewards c (.fund a d x) => do
    let (v, L) ← fund self c s.st s.led a d x
    .ok ⟨v, L⟩

/-- A failed transaction is rolled back (modelling device, nothing of /repo). -/
def exec (self : Addr) (s : Sys) (t : Tx) : Sys :=
  match step self s t with
  | .ok s' => s'
  | .error _ => s

/-- State after a whole history of transactions (modelling device, nothing of /repo). -/
def run (self : Addr) (s : Sys) (ts : List Tx) : Sys := ts.foldl (exec self) s

end Phoenix.Rewards
