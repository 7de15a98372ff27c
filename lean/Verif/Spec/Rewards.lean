import Verif.Model.Rewards
import Verif.Spec.Stake
import Verif.Spec.Curve
/-! Specification vocabulary for the reward distribution contract. -/
namespace Phoenix.Rewards.Spec
open Phoenix Phoenix.Spec Stake

/-- Before anything happened: empty storage, no negative balances, and the address of the
contract has granted no allowance. -/
def Genesis (me : Addr) (s : Sys) : Prop :=
  s.st = fresh ∧ (∀ t a, 0 ≤ s.led.bal t a) ∧ NoAllowance me s.led

/-- Nobody can sign for the contract itself. -/
def Possible (me : Addr) (t : Tx) : Prop := t.ctx.auth me = false

/-- The call succeeds. -/
def succeeds (me : Addr) (s : Sys) (t : Tx) : Bool := (step me s t).toOption.isSome

/-- The points a stake is worth: one for every thousand tokens, none below the minimum bond. -/
def weight (minBond x : Int) : Int := if x < minBond then 0 else x.tdiv 1000

/-- What a call takes out of the contract in the reward token `tok`. -/
def paidBy (me : Addr) (s : Sys) (tok : Addr) (t : Tx) : Int :=
  match t with
  | .rewards _ (.withdraw _ _) => s.led.bal tok me - (exec me s t).led.bal tok me
  | .rewards _ (.calcUnbond _ _ _) => s.led.bal tok me - (exec me s t).led.bal tok me
  | _ => 0

/-- Total paid out in a history. -/
def paidOut (me : Addr) (s : Sys) (tok : Addr) : List Tx → Int
  | [] => 0
  | t :: ts => paidBy me s tok t + paidOut me (exec me s t) tok ts

/-- The user a call is about, if it can pay that user. -/
def payee : Tx → Option Addr
  | .rewards _ (.withdraw u _) => some u
  | .rewards _ (.calcUnbond u _ _) => some u
  | _ => none

/-- The stakes of all users as the staking contract knows them. -/
abbrev Book := Addr → Int

/-- The staking contract reports truthfully: a user is added once, when nothing was reported
before; a new stake is reported with the total before it; withdrawals and unbonding come with
the present total; a distribution comes with a total that covers all stakes. -/
def Honest (b : Book) : Tx → Prop
  | .rewards _ (.addUser u i) => b u = 0 ∧ 0 ≤ i.total
  | .rewards _ (.calcBond u i) => i.total = b u ∧ ∀ e, i.stakes.getLast? = some e → 0 ≤ e.amount
  | .rewards _ (.calcUnbond u i x) => i.total = b u ∧ 0 ≤ x ∧ x ≤ b u
  | .rewards _ (.withdraw u i) => i.total = b u
  | .rewards _ (.distribute total) => ∀ U : Finset Addr, ∑ u ∈ U, b u ≤ total
  | _ => True

/-- The stakes after a call. -/
def book (me : Addr) (b : Book) (s : Sys) (t : Tx) : Book :=
  if succeeds me s t then
    match t with
    | .rewards _ (.addUser u i) => upd b u i.total
    | .rewards _ (.calcBond u i) => upd b u (b u + (i.stakes.getLast?.map Entry.amount).getD 0)
    | .rewards _ (.calcUnbond u _ x) => upd b u (b u - x)
    | _ => b
  else b

/-- Truthful reports in a whole history. -/
def HonestRun (me : Addr) (b : Book) (s : Sys) : List Tx → Prop
  | [] => True
  | t :: ts => Honest b t ∧ HonestRun me (book me b s t) (exec me s t) ts

/-- The stakes after a whole history. -/
def bookAfter (me : Addr) (b : Book) (s : Sys) : List Tx → Book
  | [] => b
  | t :: ts => bookAfter me (book me b s t) (exec me s t) ts

/-- The documented multiplier of a list of stakes: the average, weighted by amount, of
`min(age in days, 60) / 60`, cut to 18 decimals. -/
def multiplier (now : Nat) (stakes : List Entry) : Int :=
  let weighted := (stakes.map (fun e => ((min ((now - e.ts) / 86400) 60 : Nat) : Int) * e.amount)).sum
  let all := (stakes.map (fun e => 60 * e.amount)).sum
  if all = 0 then 0 else weighted * 10 ^ 18 / all

/-- A funding whose schedule ends after it starts. -/
def WellScheduled : Tx → Prop
  | .rewards c (.fund start duration _) => start < c.now + duration
  | _ => True

end Phoenix.Rewards.Spec
