import Verif.Spec.World
/-!
What a liquidity provider owns, and how an XYK pool is traded, in the whole protocol.
-/
namespace Phoenix.World.Spec
open Phoenix Phoenix.World

/-- The shares of the pool `p` that `a` owns: those in the wallet and those in the pool's own stake
contract, entry by entry as `query_staked` reports them. -/
def position (w : World) (p : Pool.State) (a : Addr) : Int :=
  w.led.bal p.cfg.shareToken a +
    (((Stake.queryStaked (w.stake p.cfg.stakeContract) a).stakes).map Stake.Entry.amount).sum

/-- The same for a stable pool. -/
def positionStable (w : World) (p : Stable.State) (a : Addr) : Int :=
  w.led.bal p.cfg.shareToken a +
    (((Stake.queryStaked (w.stake p.cfg.stakeContract) a).stakes).map Stake.Entry.amount).sum

/-- How often a call swaps in the pool at `P`: once if it is a swap of that pool, as often as the pool
lies on the route if it is a swap of a router, once for a trade of a trader in that pool. -/
def swapsAt (w : World) (P : Addr) : Call → Nat
  | .xyk Q (.swap _ _ _ _ _ _ _) => if Q = P then 1 else 0
  | .hopSwap H _ ops _ _ _ _ =>
    match w.hop H with
    | some m => ops.countP (fun op => decide (findPool w m.factory op.offer op.ask = .ok P))
    | none => 0
  | .trade _ _ _ pool _ _ _ _ _ => if pool = P then 1 else 0
  | _ => 0

/-- How often a history swaps in the pool at `P`; transactions that fail do not count. -/
def swapsIn (h : Host) (P : Addr) : World → List Tx → Nat
  | _, [] => 0
  | w, t :: ts => (if (step h w t.ctx t.call).isOk then swapsAt w P t.call else 0) + swapsIn h P (exec h w t) ts

/-- Both reserves of the pool at `P` are at least `m`. -/
def Deep (P : Addr) (m : Int) (w : World) : Prop := ∀ p, w.xyk P = some p → m ≤ p.resA ∧ m ≤ p.resB

/-- Every swap in the pool at `P` that the transaction, leading from `w` to `w'`, makes leaves both
reserves at `m` or more.  A swap of a router is looked at hop by hop: the state after the first
`i + 1` hops counts if hop `i` is in this pool. -/
def Leaves (P : Addr) (m : Int) (w w' : World) (t : Tx) : Prop :=
  match t.call with
  | .xyk Q (.swap _ _ _ _ _ _ _) => Q = P → Deep P m w'
  | .hopSwap H r ops sp x dl mf => ∀ hm, w.hop H = some hm → ∀ i op, ops[i]? = some op →
      findPool w hm.factory op.offer op.ask = .ok P → ∀ u y,
      hopLoop w (t.ctx.as H) hm.factory r sp dl mf (ops.take (i + 1)) x = .ok (u, y) → Deep P m u
  | .trade _ _ _ pool _ _ _ _ _ => pool = P → Deep P m w'
  | _ => True

/-- Every swap made in the pool at `P` during the history leaves both reserves at `m` or more. -/
def AllLeave (h : Host) (P : Addr) (m : Int) : World → List Tx → Prop
  | _, [] => True
  | w, t :: ts => (∀ w', step h w t.ctx t.call = .ok w' → Leaves P m w w' t) ∧ AllLeave h P m (exec h w t) ts

end Phoenix.World.Spec
