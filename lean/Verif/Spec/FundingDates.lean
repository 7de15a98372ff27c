import Verif.Spec.Rewards
/-!
The dates of the fundings of a reward distribution that are in force together, read off the history
alone.
-/
namespace Phoenix.Rewards.Spec
open Phoenix Rewards

/-- Some of the dates is still to come (or is the present). -/
def Running (now : Nat) (D : Finset Nat) : Prop := ∃ t ∈ D, now ≤ t

instance (now : Nat) (D : Finset Nat) : Decidable (Running now D) := by unfold Running; infer_instance

/-- The dates in force after a funding at `now` that starts at `a` and ends at `b`: start and end are
added to those in force, unless all of those are past. -/
def together (now a b : Nat) (D : Finset Nat) : Finset Nat :=
  if Running now D then D ∪ {a, b} else {a, b}

/-- What one transaction does to the dates in force: only a funding that succeeds changes them. -/
def noted (D : Finset Nat) (ok : Bool) : Tx → Finset Nat
  | .rewards c (.fund a d _) => if ok then together c.now a (c.now + d) D else D
  | _ => D

/-- The dates in force after a history that begins with no dates in force. -/
def datesFrom (me : Addr) (s : Sys) (D : Finset Nat) : List Tx → Finset Nat
  | [] => D
  | t :: ts => datesFrom me (exec me s t) (noted D (succeeds me s t) t) ts

/-- Start and end dates of all fundings of the current run: since the last funding that found everything
over. -/
def dates (me : Addr) (s : Sys) (ts : List Tx) : Finset Nat := datesFrom me s ∅ ts

end Phoenix.Rewards.Spec
