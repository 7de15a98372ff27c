import Verif.Spec.Multihop
import Mathlib.Algebra.BigOperators.Group.List.Basic
/-!
Swaps through several pools, one after the other.
-/
namespace Phoenix.World.Spec
open Phoenix Phoenix.World Phoenix.Spec

/-- A stop of a tour: a token is offered to a pool. -/
structure Stop where
  pool : Addr
  offer : Addr
  deriving DecidableEq

/-- The reserve of the offered token that the constant product pool of the stop reports. -/
def Stop.offered (w : World) (s : Stop) : Int :=
  match w.xyk s.pool with
  | some p => reserve p s.offer
  | none => 0

/-- The reserve of the other token that the constant product pool of the stop reports. -/
def Stop.asked (w : World) (s : Stop) : Int :=
  match w.xyk s.pool with
  | some p => reserve p (other p s.offer)
  | none => 0

/-- Direct swaps at the stops, in this order, each offering what the one before paid out: `x` goes in first and `z` comes out last.
Whoever makes them, and with whatever protections. -/
inductive Tour (acct : Accounts) : World → List Stop → Int → World → Int → Prop where
  | done (w : World) (x : Int) : Tour acct w [] x w x
  | hop {w w1 w' : World} {s : Stop} {l : List Stop} {x y z : Int} {c : Ctx} {r : Addr} {min spread : Option Int}
      {deadline : Option Nat} {maxFee : Option Int}
      (possible : Possible acct ⟨c, swapCall w s.pool r s.offer x min spread deadline maxFee⟩)
      (swap : Trades w c s.pool r s.offer x min spread deadline maxFee w1 y)
      (rest : Tour acct w1 l y w' z) : Tour acct w (s :: l) x w' z

end Phoenix.World.Spec
