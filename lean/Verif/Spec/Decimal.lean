import Mathlib.Data.Rat.Floor
/-!
Specification vocabulary for fixed point numbers: the rational a raw number stands for, and
rounding toward zero.
-/
namespace Phoenix.Dec.Spec

/-- The rational number a raw decimal stands for: 18 digits after the point. -/
def val (d : Int) : ℚ := d / 10 ^ 18

/-- `q` rounded toward zero. -/
def trunc (q : ℚ) : Int := if 0 ≤ q then ⌊q⌋ else ⌈q⌉

/-- The raw decimal nearest to `q` on the side of zero: `q` with all digits after the eighteenth
cut off. -/
def cut (q : ℚ) : Int := trunc (q * 10 ^ 18)

end Phoenix.Dec.Spec

namespace Phoenix.Dec256.Spec

/-- The rational number a raw 256-bit decimal stands for. -/
def val (d : Nat) : ℚ := d / 10 ^ 18

/-- The largest raw decimal not above the non-negative `q`: `q` with all digits after the
eighteenth cut off. -/
def cut (q : ℚ) : Nat := ⌊q * 10 ^ 18⌋₊

end Phoenix.Dec256.Spec
