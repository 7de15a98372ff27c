import Verif.Model.Curve
import Mathlib.Algebra.Order.Field.Rat
import Mathlib.Tactic.Linarith
import Mathlib.Tactic.Ring
import Mathlib.Tactic.FieldSimp
/-! Specification of curves: the exact, rational, piecewise linear function. -/
namespace Phoenix.Spec
open Phoenix

/-- The straight line through `(x0, y0)` and `(x1, y1)`. -/
def line (x0 y0 x1 y1 x : ℚ) : ℚ := y0 + (y1 - y0) * (x - x0) / (x1 - x0)

/-- Exact piecewise linear interpolation to the right of a step. -/
def exactFrom (prev : Step) (rest : List Step) (x : ℚ) : ℚ :=
  match rest with
  | [] => prev.value
  | next :: rest' =>
    if x < next.time then line prev.time prev.value next.time next.value x else exactFrom next rest' x

/-- The exact piecewise linear function through the steps, constant before the first
and after the last one. -/
def exactPL (steps : List Step) (x : ℚ) : ℚ :=
  match steps with
  | [] => 0
  | first :: rest => if x ≤ first.time then first.value else exactFrom first rest x

/-- The exact function of a curve. -/
def exactCurve : Curve → ℚ → ℚ
  | .constant y, _ => y
  | .sl minX minY maxX maxY, x => exactPL [⟨minX, minY⟩, ⟨maxX, maxY⟩] x
  | .pl steps, x => exactPL steps x

/-- The breakpoints of a curve. -/
def stepsOf : Curve → List Step
  | .constant y => [⟨0, y⟩]
  | .sl minX minY maxX maxY => [⟨minX, minY⟩, ⟨maxX, maxY⟩]
  | .pl steps => steps

/-- The curve is not a constant. -/
def NonConstant : Curve → Prop
  | .constant _ => False
  | _ => True

/-- Steps with strictly increasing times. -/
def SortedSteps (steps : List Step) : Prop := steps.Pairwise (fun a b => a.time < b.time)

/-- A curve users call valid: strictly increasing times, at least one step. -/
def WellFormed : Curve → Prop
  | .constant _ => True
  | .sl minX _ maxX _ => minX < maxX
  | .pl steps => steps ≠ [] ∧ SortedSteps steps

/-- All values are `u128`s. -/
def ValuesFit : Curve → Prop
  | .constant y => y < U128_LIM
  | .sl _ minY _ maxY => minY < U128_LIM ∧ maxY < U128_LIM
  | .pl steps => ∀ s ∈ steps, s.value < U128_LIM

end Phoenix.Spec
