import Verif.Spec.Rewards
import Mathlib.Algebra.Order.Field.Rat
/-!
What should still be locked of the fundings of a reward distribution, read off the history alone.
-/
namespace Phoenix.Rewards.Spec
open Phoenix Rewards

/-- A funding: `amount` is released evenly between `start` and `stop`. -/
structure Funding where
  start : Nat
  stop : Nat
  amount : Nat
  deriving DecidableEq, Repr

/-- What is still locked at `t`: everything until the start, nothing from the end on, and in
between the part of the time that is still to come. -/
def Funding.locked (f : Funding) (t : Nat) : ℚ :=
  if t ≤ f.start then f.amount
  else if f.stop ≤ t then 0
  else f.amount * (f.stop - t) / (f.stop - f.start)

/-- What is still locked of all fundings together. -/
def allLocked (l : List Funding) (t : Nat) : ℚ := (l.map fun f => f.locked t).sum

/-- A new funding joins those in force, or replaces them if all of them have ended. -/
def joins (now : Nat) (l : List Funding) (f : Funding) : List Funding :=
  if ∃ g ∈ l, now ≤ g.stop then l ++ [f] else [f]

/-- What one transaction does to the fundings in force: only a funding that succeeds changes them. -/
def inForceStep (l : List Funding) (ok : Bool) : Tx → List Funding
  | .rewards c (.fund a d x) => if ok then joins c.now l ⟨a, c.now + d, x.toNat⟩ else l
  | _ => l

/-- The fundings in force after a history, if it begins with `l` in force. -/
def inForceFrom (me : Addr) (s : Sys) (l : List Funding) : List Tx → List Funding
  | [] => l
  | t :: ts => inForceFrom me (exec me s t) (inForceStep l (succeeds me s t) t) ts

/-- The fundings since the last one that found all earlier ones at their end. -/
def inForce (me : Addr) (s : Sys) (ts : List Tx) : List Funding := inForceFrom me s [] ts

end Phoenix.Rewards.Spec
