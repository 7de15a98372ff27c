import Verif.Model.World

/-!
# The same, but later

What it means that everything happens `d` seconds later: the clock, the deadlines, the times in
schedules and the times of stakes all move by `d`.  Addresses, amounts, settings and signatures
stay.  These definitions do not look at what the contracts do.
-/
namespace Phoenix.Later
open Phoenix

variable (d : Nat)

/-- The same call, `d` seconds later. -/
def ctx (c : Ctx) : Ctx := { c with now := c.now + d }

/-- A deadline, if there is one. -/
def deadline (t : Option Nat) : Option Nat := t.map (· + d)

/-! ### Pools -/

/-- A call of a constant product pool. -/
def poolCall : Pool.Call → Pool.Call
  | .provide s a b c e f t => .provide s a b c e f (deadline d t)
  | .swap s o a b c t e => .swap s o a b c (deadline d t) e
  | .withdraw s a b c t => .withdraw s a b c (deadline d t)
  | k => k

/-- The storage of a stable pool: the times between which its amplification moves. -/
def stable (p : Stable.State) : Stable.State :=
  { p with amp := { p.amp with initTime := p.amp.initTime + d, nextTime := p.amp.nextTime + d } }

/-- A call of a stable pool. -/
def stableCall : Stable.Call → Stable.Call
  | .provide s a b c t e => .provide s a b c (deadline d t) e
  | .swap s o a b c t e => .swap s o a b c (deadline d t) e
  | .withdraw s a b c t => .withdraw s a b c (deadline d t)
  | k => k

/-! ### Stake contracts -/

/-- A stake. -/
def entry (e : Stake.Entry) : Stake.Entry := ⟨e.amount, e.ts + d⟩

/-- The stakes of an account; zero stands for no withdrawal of rewards so far. -/
def stakes (i : Stake.Info) : Stake.Info := ⟨i.stakes.map (entry d), if i.last = 0 then 0 else i.last + d, i.total⟩

/-- A map from times. -/
def times (m : SMap) : SMap := m.map (fun x => (x.1 + d, x.2))

/-- The storage of a stake contract. -/
def stake (s : Stake.State) : Stake.State :=
  { s with info := fun a => stakes d (s.info a), rewards := fun a => (s.rewards a).map (times d), hist := times d s.hist }

/-- A call of a stake contract: the stake to be taken out is named by its time. -/
def stakeCall : Stake.Call → Stake.Call
  | .unbond s x t => .unbond s x (t + d)
  | k => k

/-! ### Schedules -/

/-- A point of a schedule. -/
def point (s : Step) : Step := ⟨s.time + d, s.value⟩

/-- A schedule. -/
def curve : Curve → Curve
  | .constant y => .constant y
  | .sl a b e f => .sl (a + d) b (e + d) f
  | .pl l => .pl (l.map (point d))

/-- A vesting schedule with what is left of it. -/
def vestInfo (i : Vesting.Info) : Vesting.Info := { i with schedule := curve d i.schedule }

/-- The storage of a vesting contract. -/
def vest (v : Vesting.State) : Vesting.State := { v with sched := fun a i => (v.sched a i).map (vestInfo d) }

/-- A call of a vesting contract. -/
def vestCall : Vesting.Call → Vesting.Call
  | .create l => .create (l.map fun x => (x.1, curve d x.2))
  | k => k

/-- The storage of a reward contract. -/
def rewards (s : Rewards.State) : Rewards.State := { s with curve := curve d s.curve }

/-- A call of a reward contract: the duration of a schedule stays. -/
def rewardsCall : Rewards.Call → Rewards.Call
  | .addUser u i => .addUser u (stakes d i)
  | .calcBond u i => .calcBond u (stakes d i)
  | .calcUnbond u i x => .calcUnbond u (stakes d i) x
  | .withdraw u i => .withdraw u (stakes d i)
  | .fund t n x => .fund (t + d) n x
  | k => k

/-! ### The whole ledger -/

/-- The state of the whole ledger.  Tokens, pools, factories, routers and traders store no times. -/
def world (w : World.World) : World.World :=
  { w with
    stable := fun a => (w.stable a).map (stable d)
    stake := fun a => stake d (w.stake a)
    vest := fun a => (w.vest a).map (vest d)
    rew := fun a => rewards d (w.rew a) }

/-- A call. -/
def call : World.Call → World.Call
  | .xyk P k => .xyk P (poolCall d k)
  | .stable P k => .stable P (stableCall d k)
  | .stake K k => .stake K (stakeCall d k)
  | .vest V k => .vest V (vestCall d k)
  | .hopSwap H r ops sp x t mf => .hopSwap H r ops sp x (deadline d t) mf
  | .trade T s t p x sp dl mi mf => .trade T s t p x sp (deadline d dl) mi mf
  | .rewards R k => .rewards R (rewardsCall d k)
  | k => k

/-- A transaction. -/
def tx (t : World.Tx) : World.Tx := ⟨ctx d t.ctx, call d t.call⟩

/-- A schedule given by points has none at time zero (such a schedule is refused). -/
def AfterZero : Curve → Prop
  | .pl l => ∀ s ∈ l, 0 < s.time
  | _ => True

/-- The call is made after time zero, and the times in it are within the range of the clock, now and
`d` seconds later. -/
def InRange (t : World.Tx) : Prop :=
  0 < t.ctx.now ∧
  match t.call with
  | .vest _ (.create l) => ∀ x ∈ l, AfterZero x.2
  | .rewards _ (.fund _ n _) => t.ctx.now + n + d < U64_LIM
  | _ => True

end Phoenix.Later
