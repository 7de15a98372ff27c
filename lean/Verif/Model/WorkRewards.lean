import Verif.Model.Rewards
import Verif.Model.WorkVesting
/-! The calls of the reward distribution contract once more, this time counting the work they do.  One unit of
work is one point of the reward schedule that is read from storage, written to storage or visited by a loop, one date
that is compared or copied, or one stake of a reported list that is visited.  Everything else (the fixed number of small
entries, arithmetic, one token transfer) is a constant per call and is not counted. -/
namespace Phoenix.WorkR
open Phoenix Phoenix.Rewards Phoenix.Curve
open Phoenix.Stake (Info Entry)

/-- the loop of `calc_withdraw_power`, contracts/stake_rewards/src/distribution.rs:254-270: one unit per stake. -/
def weigh (now : Nat) : List Entry → Nat × Nat → Res ((Nat × Nat) × Nat)
  | [], acc => .ok (acc, 0)
  | e :: l, acc => do
    let d ← daysCounted now e
    let x ← toU128 e.amount
    let p ← mul128 d x
    let a ← add128 acc.1 p
    let q ← mul128 60 x
    let b ← add128 acc.2 q
    let (r, n) ← weigh now l (a, b)
    .ok (r, n + 1)

/-- `calc_withdraw_power`, contracts/stake_rewards/src/distribution.rs:249-280. -/
def withdrawPower (now : Nat) (stakes : List Entry) : Res (Int × Nat) := do
  let (w, n) ← weigh now stakes (0, 0)
  if 0 < w.2 then do
    let a ← toI128 w.1
    let b ← toI128 w.2
    let r ← Dec.fromRatio a b
    .ok (r, n)
  else .ok (0, n)

/-- the reward to pay, contracts/stake_rewards/src/contract.rs:300-315, 492-509. -/
def payable (c : Ctx) (cfg : Config) (s : State) (user : Addr) (i : Info) : Res (Int × Nat) := do
  let r ← claim cfg s user i.total
  let (m, n) ← withdrawPower c.now i.stakes
  let r' ← toI128 r
  let x ← Dec.mulInt r' m
  .ok (x, n)

/-- `withdraw_rewards`, contracts/stake_rewards/src/contract.rs:290-334. -/
def withdraw (self : Addr) (c : Ctx) (s : State) (L : Ledger) (user : Addr) (i : Info) : Res ((State × Ledger) × Nat) := do
  let cfg ← getConfig s
  requireAuth c cfg.staking
  let (x, n) ← payable c cfg s user i
  if x = 0 then .ok ((s, L), n)
  else do
    let w ← add128 (s.adj user).withdrawn (asU128 x)
    let t ← subU s.dist.withdrawable (asU128 x)
    let L' ← L.transfer (c.as self) cfg.token self user x
    .ok (({ s with dist := { s.dist with withdrawable := t },
                   adj := upd s.adj user { s.adj user with withdrawn := w } }, L'), n)

/-- `query_withdrawable_reward`, contracts/stake_rewards/src/contract.rs:483-516. -/
def queryWithdrawable (c : Ctx) (s : State) (user : Addr) (i : Info) : Res (Nat × Nat) := do
  let cfg ← getConfig s
  let (x, n) ← payable c cfg s user i
  let r ← toU128 x
  .ok (r, n)

/-- the withdrawal inside `calculate_unbond`, contracts/stake_rewards/src/contract.rs:198-204: the reward is calculated
by the query and, if there is one, once more by the withdrawal. -/
def withdrawIfAny (self : Addr) (c : Ctx) (s : State) (L : Ledger) (user : Addr) (i : Info) : Res ((State × Ledger) × Nat) := do
  let (r, n) ← queryWithdrawable c s user i
  if r ≠ 0 then do
    let (v, k) ← withdraw self c s L user i
    .ok (v, n + k)
  else .ok ((s, L), n)

/-- `calculate_unbond`, contracts/stake_rewards/src/contract.rs:188-225. -/
def calcUnbond (self : Addr) (c : Ctx) (s : State) (L : Ledger) (user : Addr) (i : Info) (removed : Int) :
    Res ((State × Ledger) × Nat) := do
  requireAuth c user
  let cfg ← getConfig s
  requireAuth c cfg.staking
  let (w, n) ← withdrawIfAny self c s L user i
  let old ← power cfg i.total
  let t ← subI i.total removed
  let new ← power cfg t
  let s' ← updateRewards w.1 user old new
  .ok ((s', w.2), n)

/-- the amount to hand out, contracts/stake_rewards/src/contract.rs:249-264: the schedule is read and evaluated. -/
def unlocked (self : Addr) (c : Ctx) (cfg : Config) (s : State) (L : Ledger) : Res (Nat × Nat) := do
  let b ← toU128 (L.bal cfg.token self)
  let (v, n) ← WorkV.value s.curve c.now
  let a ← subU b s.dist.withdrawable
  let r ← subU a v
  .ok (r, s.curve.size + n)

/-- `distribute_rewards`, contracts/stake_rewards/src/contract.rs:227-288. -/
def distribute (self : Addr) (c : Ctx) (s : State) (L : Ledger) (totalStaked : Int) : Res (State × Nat) := do
  let cfg ← getConfig s
  requireAuth c cfg.staking
  let p ← power cfg totalStaked
  let total ← toU128 p
  if total = 0 then .ok (s, 0)
  else do
    let (amount, n) ← unlocked self c cfg s L
    if amount = 0 then .ok (s, n)
    else do
      let d ← handOut s.dist amount total
      .ok ({ s with dist := d }, n)

/-- one inner loop of the bubble sort, packages/curve/src/lib.rs:416-423: one unit per comparison. -/
def bubblePass : Nat → List Nat → List Nat × Nat
  | n + 1, a :: b :: rest =>
    if a > b then (b :: (bubblePass n (a :: rest)).1, (bubblePass n (a :: rest)).2 + 1)
    else (a :: (bubblePass n (b :: rest)).1, (bubblePass n (b :: rest)).2 + 1)
  | _, l => (l, 0)

/-- the outer loop of the bubble sort, packages/curve/src/lib.rs:415-424. -/
def bubbleLoop : Nat → List Nat → List Nat × Nat
  | 0, l => (l, 0)
  | k + 1, l => ((bubbleLoop k (bubblePass k l).1).1, (bubblePass k l).2 + (bubbleLoop k (bubblePass k l).1).2)

/-- the last loop of `PiecewiseLinear::combine`, packages/curve/src/lib.rs:437-445: both curves are evaluated at
every date, and a point is written. -/
def sumSteps (f g : List Step) : List Nat → Res (List Step × Nat)
  | [] => .ok ([], 0)
  | t :: rest => do
    let (a, n) ← WorkV.plValue f t
    let (b, k) ← WorkV.plValue g t
    let v ← add128 a b
    let (r, m) ← sumSteps f g rest
    .ok (⟨t, v⟩ :: r, n + k + 1 + m)

/-- `PiecewiseLinear::combine`, packages/curve/src/lib.rs:407-450: the dates are copied, sorted, walked through for
duplicates, and the sum is evaluated at those that remain. -/
def plCombine (f g : List Step) : Res (List Step × Nat) := do
  let times := (f ++ g).map Step.time
  let sorted := bubbleLoop times.length times
  let (r, n) ← sumSteps f g (dedupFrom none sorted.1)
  .ok (r, times.length + sorted.2 + sorted.1.length + n)

/-- `Curve::PiecewiseLinear(pl1.combine(env, pl2))`. packages/curve/src/lib.rs:182 -/
def plCombined (f g : List Step) : Res (Curve × Nat) := do
  let (s, n) ← plCombine f g
  .ok (.pl s, n)

/-- `Curve::combine_const`, packages/curve/src/lib.rs:137-159: one unit per point of a piecewise curve. -/
def combineConst (c : Curve) (y : Nat) : Res (Curve × Nat) := do
  let k ← Curve.combineConst c y
  match c with
  | .pl s => .ok (k, s.length)
  | _ => .ok (k, 0)

/-- `Curve::combine`, packages/curve/src/lib.rs:162-185. -/
def combine (c d : Curve) : Res (Curve × Nat) :=
  match c, d with
  | .constant y, d => combineConst d y
  | c, .constant y => combineConst c y
  | .sl a b e f, .sl a' b' e' f' => plCombined (fromSl a b e f) (fromSl a' b' e' f')
  | .sl a b e f, .pl s => plCombined (fromSl a b e f) s
  | .pl s, .sl a b e f => plCombined (fromSl a b e f) s
  | .pl s, .pl s' => plCombined s s'

/-- old and new schedule together, contracts/stake_rewards/src/contract.rs:398-417. -/
def joinCurves (now max : Nat) (old new : Curve) : Res (Curve × Nat) :=
  match old.end with
  | some e => if e < now then .ok (new, 0) else do
    let (k, n) ← combine old new
    checkComplexity k max
    .ok (k, n)
  | none => do
    let (k, n) ← combine old new
    checkComplexity k max
    .ok (k, n)

/-- `fund_distribution`, contracts/stake_rewards/src/contract.rs:336-428: the schedule is read, joined with the new
one, and written. -/
def fund (self : Addr) (c : Ctx) (s : State) (L : Ledger) (start duration : Nat) (amount : Int) :
    Res ((State × Ledger) × Nat) := do
  let cfg ← getConfig s
  requireAuth c s.admin
  requireAuth c cfg.staking
  req (¬ start < c.now) (.code 9)
  req (¬ cfg.minReward > amount) (.code 6)
  let L' ← L.transfer (c.as self) cfg.token s.admin self amount
  let stop ← add64 c.now duration
  let x ← toU128 amount
  checkRange (.sl start x stop 0) x
  let (k, n) ← joinCurves c.now cfg.maxComplexity s.curve (.sl start x stop 0)
  .ok (({ s with curve := k }, L'), s.curve.size + n + k.size)

/-- Effect and work of one successful transaction (contracts/stake_rewards/src/contract.rs:84-428).  `initialize`,
`add_user` and `calculate_bond` (which looks at the last stake only) contain no loop. -/
def step (self : Addr) (s : Sys) : Tx → Res (Sys × Nat)
  | .rewards c (.calcUnbond u i x) => do
    let ((v, L), n) ← calcUnbond self c s.st s.led u i x
    .ok (⟨v, L⟩, n)
  | .rewards c (.distribute x) => do
    let (v, n) ← distribute self c s.st s.led x
    .ok ({ s with st := v }, n)
  | .rewards c (.withdraw u i) => do
    let ((v, L), n) ← withdraw self c s.st s.led u i
    .ok (⟨v, L⟩, n)
  | .rewards c (.fund a d x) => do
    let ((v, L), n) ← fund self c s.st s.led a d x
    .ok (⟨v, L⟩, n)
  | t => do
    let s' ← Rewards.step self s t
    .ok (s', 0)

end Phoenix.WorkR
