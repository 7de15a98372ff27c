import Verif.Spec.Pool
/-!
Who gains what in the pool calls of a history.
-/
namespace Phoenix.Spec
open Phoenix Pool

/-- The account that a call of the pool trades, deposits or withdraws for. -/
def caller : Tx → Option Addr
  | .pool _ (.swap a _ _ _ _ _ _) => some a
  | .pool _ (.provide a _ _ _ _ _ _) => some a
  | .pool _ (.withdraw a _ _ _ _) => some a
  | _ => none

/-- Only calls of the pool count: transfers between accounts are no gains from the pool. -/
def isPoolCall : Tx → Bool
  | .pool _ _ => true
  | .token _ _ _ => false

/-- What the accounts `U` together get of `tok` in the pool calls of the history (negative: what they
pay), measured by their balances.  It includes the fees if the recipient of the fees is among them. -/
def gain (me : Addr) (U : Finset Addr) (tok : Addr) : Sys → List Tx → Int
  | _, [] => 0
  | s, t :: ts =>
    (if isPoolCall t = true then ∑ a ∈ U, ((exec me s t).led.bal tok a - s.led.bal tok a) else 0) + gain me U tok (exec me s t) ts

/-- What the pool is given of `tok` by direct transfers during the history. -/
def given (me : Addr) (tok : Addr) : Sys → List Tx → Int
  | _, [] => 0
  | s, t :: ts =>
    (if isPoolCall t = true then 0 else (exec me s t).led.bal tok me - s.led.bal tok me) + given me tok (exec me s t) ts

end Phoenix.Spec
