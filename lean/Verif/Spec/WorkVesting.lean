import Verif.Model.WorkVesting
import Verif.Spec.Vesting
/-! Vocabulary for the work done by a call of the vesting contract. -/
namespace Phoenix.WorkV.Spec
open Phoenix Phoenix.Vesting Phoenix.Vesting.Spec

/-- How many schedules `query_all_vesting_info` lists for an account (0 before the contract is set up). -/
def schedules (s : Sys) (a : Addr) : Nat :=
  match s.vest with
  | some v => (Vesting.queryAll v a).length
  | none => 0

/-- How many schedules for `a` the transaction creates; a rejected transaction creates none. -/
def creates (me : Addr) (a : Addr) (s : Sys) (t : Tx) : Nat :=
  match t, Vesting.step me s t with
  | .vest _ (.create l), .ok _ => (l.filter (fun p => p.1 == a)).length
  | _, _ => 0

/-- How many schedules for `a` the transactions of the history create. -/
def created (me : Addr) (a : Addr) (s : Sys) : List Tx → Nat
  | [] => 0
  | t :: ts => creates me a s t + created me a (exec me s t) ts

/-- The largest number of points of a curve that the contract accepts plus one, as given to `initialize`. -/
def complexity (s : Sys) : Nat :=
  match s.vest with
  | some v => v.maxComplexity
  | none => 0

end Phoenix.WorkV.Spec
