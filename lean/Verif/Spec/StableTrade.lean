import Verif.Spec.Stable
/-!
What an account gains by swapping in a stable pool.
-/
namespace Phoenix.Stable.Spec
open Phoenix Phoenix.Stable

/-- The transaction is a swap of account `a`. -/
def swapOf (a : Addr) : Tx → Bool
  | .pool _ (.swap sender _ _ _ _ _ _) => decide (sender = a)
  | _ => false

/-- How many units of the two tokens of the pool account `a` has, together. -/
def holdings (p : State) (L : Ledger) (a : Addr) : Int := L.bal p.cfg.tokenA a + L.bal p.cfg.tokenB a

/-- By how much the swaps of account `a` in a history changed its holdings, all together; whatever else
changes them is left out. -/
def gainBySwaps (me a : Addr) : Sys → List Tx → Int
  | _, [] => 0
  | s, t :: ts =>
    (if swapOf a t then
      match s.pool with
      | some p => holdings p (exec me s t).led a - holdings p s.led a
      | none => 0
    else 0) + gainBySwaps me a (exec me s t) ts

end Phoenix.Stable.Spec
