import Verif.Spec.World
/-!
Allowances in the whole protocol.
-/
namespace Phoenix.World.Spec
open Phoenix Phoenix.World

/-- The transaction is a call of `approve` of the token `tok`, signed by `a`, in favour of `b`. -/
def Approves (t : Tx) (tok a b : Addr) (x : Int) : Prop :=
  t.ctx.signed a = true ∧ ∃ exp, t.call = .token tok (.approve a b x exp)

/-- The transaction is a call of the token `tok` itself. -/
def CallsToken (t : Tx) (tok : Addr) : Prop := ∃ op, t.call = .token tok op

end Phoenix.World.Spec
