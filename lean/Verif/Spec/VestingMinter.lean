import Verif.Model.QueriesVesting
import Verif.Spec.Vesting
/-! What a history says about the minter of a vesting contract.  Only accepted transactions count. -/
namespace Phoenix.Vesting.Spec
open Phoenix

/-- The minter a transaction names, if it is `initialize_with_minter` or `update_minter`; otherwise
the one named before. -/
def names (me : Addr) (who : Option Addr) (s : Sys) (t : Tx) : Option Addr :=
  match t, step me s t with
  | .vest _ (.init _ _ _ (some m)), .ok _ => some m.address
  | .vest _ (.updateMinter _ new), .ok _ => some new
  | _, _ => who

/-- The account most recently named as minter; `who` is the one named before the history. -/
def lastNamed (me : Addr) (who : Option Addr) (s : Sys) : List Tx → Option Addr
  | [] => who
  | t :: ts => lastNamed me (names me who s t) (exec me s t) ts

/-- The capacity a transaction grants, if it is `initialize_with_minter` or `update_minter_capacity`;
otherwise the one granted before. -/
def grants (me : Addr) (g : Nat) (s : Sys) (t : Tx) : Nat :=
  match t, step me s t with
  | .vest _ (.init _ _ _ (some m)), .ok _ => m.capacity
  | .vest _ (.updateCapacity _ new), .ok _ => new
  | _, _ => g

/-- The capacity most recently granted. -/
def lastGrant (me : Addr) (g : Nat) (s : Sys) : List Tx → Nat
  | [] => g
  | t :: ts => lastGrant me (grants me g s t) (exec me s t) ts

/-- A grant starts the count anew, a mint adds to it. -/
def mints (me : Addr) (x : Int) (s : Sys) (t : Tx) : Int :=
  match t, step me s t with
  | .vest _ (.init _ _ _ (some _)), .ok _ => 0
  | .vest _ (.updateCapacity _ _), .ok _ => 0
  | .vest _ (.mint _ amount), .ok _ => x + amount
  | _, _ => x

/-- The amount minted since the last grant. -/
def mintedSince (me : Addr) (x : Int) (s : Sys) : List Tx → Int
  | [] => x
  | t :: ts => mintedSince me (mints me x s t) (exec me s t) ts

end Phoenix.Vesting.Spec
