import Verif.Model.Signed
import Verif.Spec.Multihop
/-!
Specification vocabulary for signatures that cover a tree of invocations.
-/
namespace Phoenix

/-- The list of `a` without the invocation `i`, everybody else's as before. -/
def Signed.use (s : Signed) (a : Addr) (i : Inv) : Signed := upd s a ((s a).erase i)

namespace World.Spec

/-- There is no pool at the address `r`. -/
def NoPool (w : World) (r : Addr) : Prop := w.code r ≠ .xyk ∧ w.code r ≠ .stable

/-- The swaps of a route as in `Chain`, with the list of the pools used and of the amounts put into them. -/
inductive Via (c : Ctx) (F r : Addr) (spread : Option Int) (deadline : Option Nat) (maxFee : Option Int) :
    World → List Multihop.Op → Int → World → Int → List (Addr × Int) → Prop where
  | done (w : World) (x : Int) : Via c F r spread deadline maxFee w [] x w x []
  | hop {w w1 w' : World} {op : Multihop.Op} {ops : List Multihop.Op} {x y z : Int} {P : Addr} {hops : List (Addr × Int)}
      (find : findPool w F op.offer op.ask = .ok P)
      (swap : Trades w c P r op.offer x op.min spread deadline maxFee w1 y)
      (rest : Via c F r spread deadline maxFee w1 ops y w' z hops) :
      Via c F r spread deadline maxFee w (op :: ops) x w' z ((P, x) :: hops)

/-- What the recipient `r` signs for a route that is expected to use these pools and amounts: each
`swap` with the transfer below it. -/
def treeFor (r : Addr) (spread : Option Int) (deadline : Option Nat) (maxFee : Option Int) :
    List Multihop.Op → List (Addr × Int) → List Node
  | op :: ops, hop :: hops =>
    ⟨.swap hop.1 r op.offer hop.2 op.min spread deadline maxFee, [.transfer op.offer r hop.1 hop.2]⟩ ::
      treeFor r spread deadline maxFee ops hops
  | _, _ => []

end World.Spec
end Phoenix
