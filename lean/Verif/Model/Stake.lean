import Verif.Model.Token
import Verif.Model.Decimal
import Verif.Model.Cast
/-
Model of contracts/stake.
Not modelled: TTLs, events, `update` (replaces the code), the field `reward_debt`
(contracts/stake/src/storage.rs:63: always 0, never read).
-/
namespace Phoenix.Stake
open Phoenix

/-- `Config`, contracts/stake/src/storage.rs:8-18. -/
structure Config where
  lpToken : Addr
  minBond : Int
  minReward : Int
  manager : Addr
  owner : Addr
  maxComplexity : Nat
  deriving DecidableEq

/-- `Stake`, contracts/stake/src/storage.rs:45-52. -/
structure Entry where
  amount : Int
  ts : Nat
  deriving DecidableEq

/-- `BondingInfo`, contracts/stake/src/storage.rs:54-68. -/
structure Info where
  stakes : List Entry
  last : Nat
  total : Int
  deriving DecidableEq

/-- Default of `get_stakes`, contracts/stake/src/storage.rs:70-79. -/
def noInfo : Info := ⟨[], 0, 0⟩

/-- Storage of the contract.  `cfg` is `none` before `initialize`.  A missing
`BondingInfo` reads as `noInfo`; `rewards` are the reward histories
(contracts/stake/src/distribution.rs:9-41), `hist` is the total staked history. -/
structure State where
  cfg : Option Config
  admin : Addr
  total : Int
  info : Addr → Info
  dists : List Addr
  rewards : Addr → Option SMap
  hist : SMap

/-- Storage before anything was written (modelling device, nothing of /repo). -/
def fresh : State :=
  { cfg := none, admin := 0, total := 0, info := fun _ => noInfo, dists := [], rewards := fun _ => none, hist := [] }

/-- `get_config`, contracts/stake/src/storage.rs:21-34. -/
def getConfig (s : State) : Res Config :=
  match s.cfg with
  | some c => .ok c
  | none => .error .panic

/-- `initialize`, contracts/stake/src/contract.rs:81-137.  No authorisation is asked for. -/
def init (s : State) (admin lpToken : Addr) (minBond minReward : Int) (manager owner : Addr)
    (maxComplexity : Nat) : Res State := do
  req (s.cfg = none) (.code 1)
  req (¬ minBond ≤ 0) (.code 2)
  req (¬ minReward ≤ 0) (.code 3)
  req (¬ maxComplexity = 0) (.code 12)
  .ok { s with cfg := some ⟨lpToken, minBond, minReward, manager, owner, maxComplexity⟩, admin := admin,
               total := 0, hist := [] }

/-- `bond`, contracts/stake/src/contract.rs:139-174. -/
def bond (self : Addr) (c : Ctx) (s : State) (L : Ledger) (sender : Addr) (tokens : Int) : Res (State × Ledger) := do
  requireAuth c sender
  let cfg ← getConfig s
  req (¬ tokens < cfg.minBond) (.code 4)
  let L' ← L.transfer (c.as self) cfg.lpToken sender self tokens
  let i := s.info sender
  let t ← addI i.total tokens
  let total ← addI s.total tokens
  .ok ({ s with info := upd s.info sender { i with stakes := i.stakes ++ [⟨tokens, c.now⟩], total := t },
                total := total }, L')

/-- `remove_stake`, contracts/stake/src/contract.rs:397-410: the first matching entry. -/
def removeStake (amount : Int) (ts : Nat) : List Entry → Res (List Entry)
  | [] => .error (.code 8)
  | e :: l => if e.amount = amount ∧ e.ts = ts then .ok l else do
    let l' ← removeStake amount ts l
    .ok (e :: l')

/-- `unbond`, contracts/stake/src/contract.rs:176-199. -/
def unbond (self : Addr) (c : Ctx) (s : State) (L : Ledger) (sender : Addr) (amount : Int) (ts : Nat) :
    Res (State × Ledger) := do
  requireAuth c sender
  let cfg ← getConfig s
  let i := s.info sender
  let l ← removeStake amount ts i.stakes
  let t ← subI i.total amount
  let L' ← L.transfer (c.as self) cfg.lpToken self sender amount
  let total ← subI s.total amount
  .ok ({ s with info := upd s.info sender { i with stakes := l, total := t }, total := total }, L')

/-- `create_distribution_flow`, contracts/stake/src/contract.rs:201-218, with
`add_distribution`, contracts/stake/src/storage.rs:210-227. -/
def createFlow (c : Ctx) (s : State) (sender asset : Addr) : Res State := do
  requireAuth c sender
  let cfg ← getConfig s
  req (¬ (sender ≠ cfg.manager ∧ sender ≠ cfg.owner)) (.code 5)
  req (¬ asset ∈ s.dists) (.code 10)
  .ok { s with dists := s.dists ++ [asset], rewards := upd s.rewards asset (some []) }

/-- `get_reward_history`, contracts/stake/src/distribution.rs:28-41. -/
def rewardHistory (s : State) (tok : Addr) : Res SMap :=
  match s.rewards tok with
  | some m => .ok m
  | none => .error .panic

/-- `distribute_rewards`, contracts/stake/src/contract.rs:220-260. -/
def distribute (self : Addr) (c : Ctx) (s : State) (L : Ledger) (sender : Addr) (amount : Int) (tok : Addr) :
    Res (State × Ledger) := do
  requireAuth c sender
  let cfg ← getConfig s
  req (¬ (sender ≠ cfg.manager ∧ sender ≠ cfg.owner)) (.code 5)
  req (tok ∈ s.dists) (.code 13)
  let m ← rewardHistory s tok
  let L' ← L.transfer (c.as self) tok sender self amount
  .ok ({ s with hist := s.hist.set c.now (asU128 s.total),
                rewards := upd s.rewards tok (some (m.set c.now (asU128 amount))) }, L')

/-- the multiplier by age in days, contracts/stake/src/distribution.rs:104-108. -/
def multiplier (days : Nat) : Res Int :=
  if 60 ≤ days then .ok Dec.ONE else Dec.fromRatio days 60

/-- reward of one stake for one distribution, contracts/stake/src/distribution.rs:99-111.
The `u64` subtraction fails when the stake is newer than the distribution. -/
def stakeReward (day reward total : Nat) (e : Entry) : Res Int := do
  let p ← mul128 (asU128 e.amount) reward
  let share ← divU p total
  let age ← subU day e.ts
  let m ← multiplier (age / 86400)
  Dec.mulInt (asI128 share) m

/-- the loop over the stakes, contracts/stake/src/distribution.rs:97-113. -/
def stakesLoop (day reward total : Nat) : List Entry → Int → Res Int
  | [], acc => .ok acc
  | e :: l, acc => do
    let r ← stakeReward day reward total e
    let acc' ← addI acc r
    stakesLoop day reward total l acc'

/-- one distribution, contracts/stake/src/distribution.rs:91-116. -/
def dayReward (m h : SMap) (stakes : List Entry) (day : Nat) (acc : Int) : Res Int :=
  match m.get day, h.get day with
  | some r, some t => if 0 < t then stakesLoop day r t stakes acc else .ok acc
  | _, _ => .ok acc

/-- the loop over the distributions, contracts/stake/src/distribution.rs:86-117. -/
def daysLoop (m h : SMap) (stakes : List Entry) : List Nat → Int → Res Int
  | [], acc => .ok acc
  | d :: ds, acc => do
    let acc' ← dayReward m h stakes d acc
    daysLoop m h stakes ds acc'

/-- the days looked at, contracts/stake/src/distribution.rs:85-90: from the first key after
the last withdrawal, while not in the future. -/
def relevant (keys : List Nat) (last now : Nat) : List Nat :=
  match keys.find? (fun d => decide (last < d)) with
  | none => []
  | some f => (keys.dropWhile (fun d => decide (d < f))).takeWhile (fun d => decide (d ≤ now))

/-- `calculate_pending_rewards`, contracts/stake/src/distribution.rs:70-121. -/
def pending (c : Ctx) (s : State) (tok : Addr) (i : Info) : Res Int := do
  let m ← rewardHistory s tok
  daysLoop m s.hist i.stakes (relevant m.keys i.last c.now) 0

/-- the loop of `withdraw_rewards`, contracts/stake/src/contract.rs:271-282. -/
def payLoop (self : Addr) (c : Ctx) (s : State) (sender : Addr) : List Addr → Ledger → Res Ledger
  | [], L => .ok L
  | a :: l, L => do
    let p ← pending c s a (s.info sender)
    let L' ← L.transfer (c.as self) a self sender p
    payLoop self c s sender l L'

/-- `withdraw_rewards`, contracts/stake/src/contract.rs:262-284.  No authorisation, and no
check that the contract is initialised. -/
def withdraw (self : Addr) (c : Ctx) (s : State) (L : Ledger) (sender : Addr) : Res (State × Ledger) := do
  let L' ← payLoop self c s sender s.dists L
  .ok ({ s with info := upd s.info sender { s.info sender with last := c.now } }, L')

/-- the loop of `query_withdrawable_rewards`, contracts/stake/src/contract.rs:349-357. -/
def queryLoop (c : Ctx) (s : State) (user : Addr) : List Addr → Res (List (Addr × Nat))
  | [] => .ok []
  | a :: l => do
    let p ← pending c s a (s.info user)
    let rest ← queryLoop c s user l
    .ok ((a, asU128 p) :: rest)

/-- `query_withdrawable_rewards`, contracts/stake/src/contract.rs:342-361. -/
def queryWithdrawable (c : Ctx) (s : State) (user : Addr) : Res (List (Addr × Nat)) :=
  queryLoop c s user s.dists

/-- `query_staked`, contracts/stake/src/contract.rs:305-315 (stakes, total, last withdrawal). -/
def queryStaked (s : State) (user : Addr) : Info := s.info user

/-- `query_total_staked`, contracts/stake/src/contract.rs:317-322: fails before `initialize`. -/
def queryTotal (s : State) : Res Int := do
  let _ ← getConfig s
  .ok s.total

/-- External calls of the stake contract. contracts/stake/src/contract.rs:79-384. -/
inductive Call where
  | init (admin lpToken : Addr) (minBond minReward : Int) (manager owner : Addr) (maxComplexity : Nat)
  | bond (sender : Addr) (tokens : Int)
  | unbond (sender : Addr) (amount : Int) (ts : Nat)
  | createFlow (sender asset : Addr)
  | distribute (sender : Addr) (amount : Int) (tok : Addr)
  | withdraw (sender : Addr)

/-- The stake contract together with all tokens (modelling device, nothing of /repo). -/
structure Sys where
  st : State
  led : Ledger

/-- A transaction: a call of the stake contract or of any token (modelling device, nothing of /repo). -/
inductive Tx where
  | stake (c : Ctx) (k : Call)
  | token (c : Ctx) (tok : Addr) (op : TokenOp)

/-- Signers and clock of a transaction (modelling device, nothing of /repo). -/
def Tx.ctx : Tx → Ctx
  | .stake c _ => c
  | .token c _ _ => c

/-- Effect of one successful transaction (contracts/stake/src/contract.rs:81-284). -/
def step (self : Addr) (s : Sys) : Tx → Res Sys
  | .token c tok op => do
    let L ← s.led.call c tok op
    .ok { s with led := L }
  | .stake _ (.init a lp mb mr m o mc) => do
    let v ← init s.st a lp mb mr m o mc
    .ok { s with st := v }
  | .stake c (.bond sender x) => do
    let (v, L) ← bond self c s.st s.led sender x
    .ok ⟨v, L⟩
  | .stake c (.unbond sender x ts) => do
    let (v, L) ← unbond self c s.st s.led sender x ts
    .ok ⟨v, L⟩
  | .stake c (.createFlow sender asset) => do
    let v ← createFlow c s.st sender asset
    .ok { s with st := v }
  | .stake c (.distribute sender x tok) => do
    let (v, L) ← distribute self c s.st s.led sender x tok
    .ok ⟨v, L⟩
  | .stake c (.withdraw sender) => do
    let (v, L) ← withdraw self c s.st s.led sender
    .ok ⟨v, L⟩

/-- A failed transaction is rolled back (modelling device, nothing of /repo). -/
def exec (self : Addr) (s : Sys) (t : Tx) : Sys :=
  match step self s t with
  | .ok s' => s'
  | .error _ => s

/-- State after a whole history of transactions (modelling device, nothing of /repo). -/
def run (self : Addr) (s : Sys) (ts : List Tx) : Sys := ts.foldl (exec self) s

end Phoenix.Stake
