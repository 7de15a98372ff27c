import Verif.Spec.Pool
import Verif.Spec.Stable
/-!
Two histories of a pool that differ in its fee: a constant-product pool, and below it a stable pool.
-/
namespace Phoenix.Dearer
open Phoenix Pool

/-- The transaction goes through. -/
def accepted (me : Addr) (s : Sys) (t : Tx) : Bool := (step me s t).toOption.isSome

/-- Tried from either of two states, every transaction of the history is accepted in both or refused in both. -/
def SameFate (me : Addr) : Sys → Sys → List Tx → Prop
  | _, _, [] => True
  | s, s', t :: ts => accepted me s t = accepted me s' t ∧ SameFate me (exec me s t) (exec me s' t) ts

/-- The account the fees go to at the moment. -/
def collector (s : Sys) : Option Addr := s.pool.map (fun p => p.cfg.feeRecipient)

/-- Whenever somebody swaps, the fee goes to an account `a` with `P a`. -/
def FeesGo (me : Addr) (P : Addr → Prop) : Sys → List Tx → Prop
  | _, [] => True
  | s, t :: ts => (Spec.isSwap t = true → ∀ a, collector s = some a → P a) ∧ FeesGo me P (exec me s t) ts

/-- The account that swaps, if the transaction is a swap. -/
def trader : Tx → Option Addr
  | .pool _ (.swap sender _ _ _ _ _ _) => some sender
  | _ => none

end Phoenix.Dearer

namespace Phoenix.DearerStable
open Phoenix Stable

/-- The transaction goes through. -/
def accepted (me : Addr) (s : Sys) (t : Tx) : Bool := (step me s t).toOption.isSome

/-- Tried from either of two states, every transaction of the history is accepted in both or refused in both. -/
def SameFate (me : Addr) : Sys → Sys → List Tx → Prop
  | _, _, [] => True
  | s, s', t :: ts => accepted me s t = accepted me s' t ∧ SameFate me (exec me s t) (exec me s' t) ts

/-- The account the fees go to at the moment. -/
def collector (s : Sys) : Option Addr := s.pool.map (fun p => p.cfg.feeRecipient)

/-- Whenever somebody swaps, the fee goes to an account `a` with `P a`. -/
def FeesGo (me : Addr) (P : Addr → Prop) : Sys → List Tx → Prop
  | _, [] => True
  | s, t :: ts => (Stable.Spec.isSwap t = true → ∀ a, collector s = some a → P a) ∧ FeesGo me P (exec me s t) ts

/-- The account that swaps, if the transaction is a swap. -/
def trader : Tx → Option Addr
  | .pool _ (.swap sender _ _ _ _ _ _) => some sender
  | _ => none

end Phoenix.DearerStable
