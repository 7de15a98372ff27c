import Verif.Spec.World
/-! Specification vocabulary: which calls are accepted. -/
namespace Phoenix.World.Spec
open Phoenix Phoenix.World

/-- The call goes through; otherwise it is refused and changes nothing. -/
def Accepts (h : Host) (w : World) (c : Ctx) (k : Call) : Prop := ∃ w', step h w c k = .ok w'

/-- The account signed the call. -/
def Signs (c : Ctx) (a : Addr) : Prop := c.signed a = true

/-- `a` can pay `x` of the token `t` to `b`: the amount is not negative, `a` has it, and the
balance of `b` does not run over. -/
def CanPay (w : World) (t a b : Addr) (x : Int) : Prop :=
  0 ≤ x ∧ x ≤ w.led.bal t a ∧ w.led.bal t b + x ≤ I128_MAX

end Phoenix.World.Spec
