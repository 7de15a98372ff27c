import Verif.Spec.Token
/-! Specification vocabulary: which token calls must be accepted. -/
namespace Phoenix.Spec
open Phoenix

/-- There is room for `x` more on the balance of `a`. -/
def Room (t : Token) (a : Addr) (x : Int) : Prop := t.bal a + x ≤ I128_MAX

/-- What a call needs: the right signature, an amount that is not negative, funds, an allowance that
has not expired, and room for what is received.  Nothing else. -/
def Acceptable (c : Ctx) (t : Token) : TokenOp → Prop
  | .mint d x => c.auth t.admin = true ∧ 0 ≤ x ∧ Room t d x
  | .setAdmin _ => c.auth t.admin = true
  | .approve o _ x e => c.auth o = true ∧ 0 ≤ x ∧ (x = 0 ∨ c.seq ≤ e)
  | .transfer s d x => c.auth s = true ∧ 0 ≤ x ∧ x ≤ t.bal s ∧ (s = d ∨ Room t d x)
  | .transferFrom p s d x => c.auth p = true ∧ 0 ≤ x ∧ x ≤ t.allowanceOf c s p ∧ x ≤ t.bal s ∧ (s = d ∨ Room t d x)
  | .burn s x => c.auth s = true ∧ 0 ≤ x ∧ x ≤ t.bal s
  | .burnFrom p s x => c.auth p = true ∧ 0 ≤ x ∧ x ≤ t.allowanceOf c s p ∧ x ≤ t.bal s

end Phoenix.Spec
