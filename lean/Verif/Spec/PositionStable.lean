import Verif.Spec.Position
import Verif.Spec.Stable
/-!
How a stable pool is used in the whole protocol.
-/
namespace Phoenix.World.Spec
open Phoenix Phoenix.World

/-- How often a call swaps in, or deposits into, the stable pool at `P`. -/
def stableUses (w : World) (P : Addr) : Call → Nat
  | .stable Q (.swap _ _ _ _ _ _ _) => if Q = P then 1 else 0
  | .stable Q (.provide _ _ _ _ _ _) => if Q = P then 1 else 0
  | .hopSwap H _ ops _ _ _ _ =>
    match w.hop H with
    | some m => ops.countP (fun op => decide (findPool w m.factory op.offer op.ask = .ok P))
    | none => 0
  | .trade _ _ _ pool _ _ _ _ _ => if pool = P then 1 else 0
  | _ => 0

/-- How often a history swaps in, or deposits into, the stable pool at `P`; transactions that fail do
not count. -/
def stableUsesIn (h : Host) (P : Addr) : World → List Tx → Nat
  | _, [] => 0
  | w, t :: ts => (if (step h w t.ctx t.call).isOk then stableUses w P t.call else 0) + stableUsesIn h P (exec h w t) ts

/-- The stable pool at `P` is in fair condition (see Spec/Stable.lean) with `m` or more units. -/
def FairAt (P : Addr) (m : Int) (w : World) : Prop := ∀ p, w.stable P = some p → Stable.Spec.Fair m p

/-- Every swap in the pool at `P` and every deposit into it that the transaction makes, starting in
`w`, finds the pool in fair condition.  A swap of a router is looked at hop by hop: the state after the
first `i` hops counts if hop `i` is in this pool. -/
def MeetsFair (P : Addr) (m : Int) (w : World) (t : Tx) : Prop :=
  match t.call with
  | .stable Q (.swap _ _ _ _ _ _ _) => Q = P → FairAt P m w
  | .stable Q (.provide _ _ _ _ _ _) => Q = P → FairAt P m w
  | .hopSwap H r ops sp x dl mf => ∀ hm, w.hop H = some hm → ∀ i op, ops[i]? = some op →
      findPool w hm.factory op.offer op.ask = .ok P → ∀ u y,
      hopLoop w (t.ctx.as H) hm.factory r sp dl mf (ops.take i) x = .ok (u, y) → FairAt P m u
  | .trade _ _ _ pool _ _ _ _ _ => pool = P → FairAt P m w
  | _ => True

/-- Every swap and deposit made in the pool at `P` during the history finds it in fair condition. -/
def AllFair (h : Host) (P : Addr) (m : Int) : World → List Tx → Prop
  | _, [] => True
  | w, t :: ts => ((step h w t.ctx t.call).isOk → MeetsFair P m w t) ∧ AllFair h P m (exec h w t) ts

end Phoenix.World.Spec
