import Verif.Model.Stake
import Verif.Spec.Pool
import Mathlib.Algebra.Order.BigOperators.Group.Finset
/-! Specification vocabulary for the stake contract: stakes, distributions, payments and
earned rewards, read off balances, queries and the list of successful calls. -/
namespace Phoenix.Stake.Spec
open Phoenix Phoenix.Spec

/-- Before anything happened: empty storage, no negative balances, and the address of the
contract has granted no allowance. -/
def Genesis (me : Addr) (s : Sys) : Prop :=
  s.st = fresh ∧ (∀ t a, 0 ≤ s.led.bal t a) ∧ NoAllowance me s.led

/-- Nobody can sign for the contract itself. -/
def Possible (me : Addr) (t : Tx) : Prop := t.ctx.auth me = false

/-- The staked token. -/
def lp? (s : Sys) : Option Addr := s.st.cfg.map Config.lpToken

/-- The stakes of an account as `query_staked` reports them. -/
def stakesOf (s : Sys) (a : Addr) : List Entry := (queryStaked s.st a).stakes

/-- What an account has staked, entry by entry added up. -/
def stakedBy (s : Sys) (a : Addr) : Int := ((stakesOf s a).map Entry.amount).sum

/-- The call succeeds. -/
def succeeds (me : Addr) (s : Sys) (t : Tx) : Bool := (step me s t).toOption.isSome

/-- A distribution: when, how much, and the total staked at that moment. -/
structure Dist where
  time : Nat
  amount : Int
  staked : Int
  deriving DecidableEq

/-- The transaction is a successful distribution of any token. -/
def isDist (me : Addr) (s : Sys) (t : Tx) : Bool :=
  match t with
  | .stake _ (.distribute _ _ _) => succeeds me s t
  | _ => false

/-- The distribution of `tok` made by the transaction, if it is one. -/
def distOf (me : Addr) (s : Sys) (tok : Addr) (t : Tx) : List Dist :=
  match t with
  | .stake c (.distribute _ x u) => if u = tok ∧ succeeds me s t then [⟨c.now, x, s.st.total⟩] else []
  | _ => []

/-- All distributions of `tok` in a history, oldest first. -/
def dists (me : Addr) (s : Sys) (tok : Addr) : List Tx → List Dist
  | [] => []
  | t :: ts => distOf me s tok t ++ dists me (exec me s t) tok ts

/-- Total of `tok` distributed in a history. -/
def distributed (me : Addr) (s : Sys) (tok : Addr) (ts : List Tx) : Int :=
  ((dists me s tok ts).map Dist.amount).sum

/-- What a withdrawal of rewards takes out of the contract, in token `tok`. -/
def paidBy (me : Addr) (s : Sys) (tok : Addr) (t : Tx) : Int :=
  match t with
  | .stake _ (.withdraw _) => s.led.bal tok me - (exec me s t).led.bal tok me
  | _ => 0

/-- Total of `tok` paid out as rewards in a history. -/
def paidOut (me : Addr) (s : Sys) (tok : Addr) : List Tx → Int
  | [] => 0
  | t :: ts => paidBy me s tok t + paidOut me (exec me s t) tok ts

/-- Time does not run backwards (`now` is the time of the previous transaction). -/
def TimeOrdered (now : Nat) : List Tx → Prop
  | [] => True
  | t :: ts => now ≤ t.ctx.now ∧ TimeOrdered t.ctx.now ts

/-- No two successful distributions (of whatever tokens) carry the same timestamp;
`seen` are the times used before. -/
def DistinctTimes (me : Addr) (s : Sys) (seen : List Nat) : List Tx → Prop
  | [] => True
  | t :: ts => (isDist me s t = true → t.ctx.now ∉ seen) ∧
      DistinctTimes me (exec me s t) (if isDist me s t then t.ctx.now :: seen else seen) ts

/-- A history in which time does not run backwards and distributions have distinct times. -/
structure WellTimed (me : Addr) (s : Sys) (ts : List Tx) : Prop where
  ordered : TimeOrdered 0 ts
  distinct : DistinctTimes me s [] ts

/-- The documented reward of a stake for a distribution of `R` at time `day` while `T` was
staked in total: the proportional share scaled by `min(age in days, 60) / 60`, every step
rounded down (the factor to 18 decimals). -/
def reward (amount R T : Int) (day ts : Nat) : Int :=
  amount * R / T * ((min ((day - ts) / 86400) 60 : Nat) * 10 ^ 18 / 60) / 10 ^ 18

/-- Rewards of a list of stakes for one distribution; nothing if nothing was staked. -/
def earnedFor (stakes : List Entry) (d : Dist) : Int :=
  if d.staked = 0 then 0 else (stakes.map (fun e => reward e.amount d.amount d.staked d.time e.ts)).sum

/-- Rewards due at time `now` for an account: over the distributions after its last
withdrawal, the rewards of its present stakes. -/
def due (log : List Dist) (i : Info) (now : Nat) : Int :=
  ((log.filter (fun d => decide (i.last < d.time ∧ d.time ≤ now))).map (earnedFor i.stakes)).sum

end Phoenix.Stake.Spec
