import Verif.Spec.Unclaimed
/-!
Two histories of the stake contract that differ in one additional stake.
-/
namespace Phoenix.Stake.Spec
open Phoenix Phoenix.Spec

/-- Tried from either of two states, every transaction of the history is accepted in both or refused in both. -/
def SameFate (me : Addr) : Sys → Sys → List Tx → Prop
  | _, _, [] => True
  | s, s', t :: ts => succeeds me s t = succeeds me s' t ∧ SameFate me (exec me s t) (exec me s' t) ts

/-- Whenever `tok` is distributed in the history, all stakes of account `a` are at least 60 days old. -/
def Ripe (me : Addr) (tok a : Addr) : Sys → List Tx → Prop
  | _, [] => True
  | s, t :: ts => (∀ d ∈ distOf me s tok t, ∀ e ∈ stakesOf s a, e.ts + 60 * 86400 ≤ d.time) ∧ Ripe me tok a (exec me s t) ts

/-- The number of stakes account `a` has when `tok` is distributed, added up over the distributions of the history. -/
def shares (me : Addr) (tok a : Addr) : Sys → List Tx → Nat
  | _, [] => 0
  | s, t :: ts => (distOf me s tok t).length * (stakesOf s a).length + shares me tok a (exec me s t) ts

end Phoenix.Stake.Spec
