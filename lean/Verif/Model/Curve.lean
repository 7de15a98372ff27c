import Verif.Model.Arith
/-
Model of packages/curve/src/lib.rs: constant, saturating linear and piecewise linear
curves from `u64` times to `u128` values.
Simplification: a Soroban `Vec<Step>` is a list; its length (a u32) cannot overflow here.
-/
namespace Phoenix

/-- `Step`, packages/curve/src/lib.rs:286-289. -/
structure Step where
  time : Nat
  value : Nat
  deriving DecidableEq, Repr

/-- `CurveError`, packages/curve/src/lib.rs:12-38. -/
inductive CurveErr where
  | notMonotonic
  | monotonicIncreasing
  | monotonicDecreasing
  | pointsOutOfOrder
  | missingSteps
  | tooComplex
  deriving DecidableEq, Repr

/-- `Curve`, packages/curve/src/lib.rs:43-52, with the fields of `SaturatingLinear`
(204-218: min_x, min_y, max_x, max_y) and `PiecewiseLinear` (293-296) inlined. -/
inductive Curve where
  | constant (y : Nat)
  | sl (minX minY maxX maxY : Nat)
  | pl (steps : List Step)
  deriving DecidableEq, Repr

namespace Curve

/-- `interpolate`, packages/curve/src/lib.rs:271-277, all in u128 (the times are u64). -/
def interpolate (x0 y0 x1 y1 x : Nat) : Res Nat :=
  if y1 > y0 then do
    let dy ← subU y1 y0
    let dx ← subU x x0
    let p ← mul128 dy dx
    let w ← subU x1 x0
    let q ← divU p w
    add128 y0 q
  else do
    let dy ← subU y0 y1
    let dx ← subU x x0
    let p ← mul128 dy dx
    let w ← subU x1 x0
    let q ← divU p w
    subU y0 q

/-- `SaturatingLinear::value`, packages/curve/src/lib.rs:221-227. -/
def slValue (minX minY maxX maxY x : Nat) : Res Nat :=
  if x < minX then .ok minY
  else if x > maxX then .ok maxY
  else interpolate minX minY maxX maxY x

/-- the loop of `PiecewiseLinear::value`, packages/curve/src/lib.rs:321-331. -/
def plScan (prev : Step) (rest : List Step) (x : Nat) : Res Nat :=
  match rest with
  | [] => .ok prev.value
  | next :: rest' =>
    if x < next.time then interpolate prev.time prev.value next.time next.value x
    else plScan next rest' x

/-- `self.steps.get(self.steps.len() - 1).unwrap()` of a list `first :: rest`,
packages/curve/src/lib.rs:306. -/
def lastStep (first : Step) (rest : List Step) : Step :=
  match rest with
  | [] => first
  | s :: rest' => lastStep s rest'

/-- `PiecewiseLinear::value`, packages/curve/src/lib.rs:300-331. -/
def plValue (steps : List Step) (x : Nat) : Res Nat :=
  match steps with
  | [] => .error .panic
  | first :: rest =>
    if x ≤ first.time then .ok first.value
    else if x ≥ (lastStep first rest).time then .ok (lastStep first rest).value
    else plScan first rest x

/-- `Curve::value`, packages/curve/src/lib.rs:73-79. -/
def value (c : Curve) (x : Nat) : Res Nat :=
  match c with
  | .constant y => .ok y
  | .sl minX minY maxX maxY => slValue minX minY maxX maxY x
  | .pl steps => plValue steps x

/-- `Curve::size`, packages/curve/src/lib.rs:82-88. -/
def size : Curve → Nat
  | .constant _ => 1
  | .sl .. => 2
  | .pl steps => steps.length

/-- the `try_fold` of `PiecewiseLinear::validate`, packages/curve/src/lib.rs:339-346. -/
def checkTimes (acc : Nat) : List Step → Except CurveErr Unit
  | [] => .ok ()
  | s :: rest => if s.time > acc then checkTimes s.time rest else .error .pointsOutOfOrder

/-- `PiecewiseLinear::validate`, packages/curve/src/lib.rs:335-348. -/
def plValidate (steps : List Step) : Except CurveErr Unit :=
  match steps with
  | [] => .error .missingSteps
  | _ :: _ => checkTimes 0 steps

/-- `SaturatingLinear::validate`, packages/curve/src/lib.rs:231-236. -/
def slValidate (minX maxX : Nat) : Except CurveErr Unit :=
  if maxX ≤ minX then .error .pointsOutOfOrder else .ok ()

/-- `Curve::validate`, packages/curve/src/lib.rs:92-98. -/
def validate : Curve → Except CurveErr Unit
  | .constant _ => .ok ()
  | .sl minX _ maxX _ => slValidate minX maxX
  | .pl steps => plValidate steps

/-- `Shape`, packages/curve/src/lib.rs:482-488. -/
inductive Shape where
  | constant
  | increasing
  | decreasing
  | notMonotonic
  deriving DecidableEq, Repr

/-- the match inside the fold of `classify_curve`, packages/curve/src/lib.rs:378-387. -/
def nextShape (shape : Shape) (new last : Nat) : Shape :=
  match shape with
  | .notMonotonic => .notMonotonic
  | .decreasing => if new > last then .notMonotonic else .decreasing
  | .increasing => if new < last then .notMonotonic else .increasing
  | .constant => if new > last then .increasing else if new < last then .decreasing else .constant

/-- the fold of `classify_curve`, packages/curve/src/lib.rs:375-391. -/
def classifyFrom (last : Nat) (shape : Shape) : List Step → Shape
  | [] => shape
  | s :: rest => classifyFrom s.value (nextShape shape s.value last) rest

/-- `classify_curve`, packages/curve/src/lib.rs:371-392.  Only called after `validate`,
so the `unwrap` of the first step cannot fail; the empty list gets a dummy result. -/
def classify : List Step → Shape
  | [] => .constant
  | s :: rest => classifyFrom s.value .constant rest

/-- `PiecewiseLinear::validate_monotonic_increasing`, packages/curve/src/lib.rs:351-358. -/
def plInc (steps : List Step) : Except CurveErr Unit := do
  plValidate steps
  match classify steps with
  | .notMonotonic => .error .notMonotonic
  | .decreasing => .error .monotonicDecreasing
  | _ => .ok ()

/-- `PiecewiseLinear::validate_monotonic_decreasing`, packages/curve/src/lib.rs:361-368. -/
def plDec (steps : List Step) : Except CurveErr Unit := do
  plValidate steps
  match classify steps with
  | .notMonotonic => .error .notMonotonic
  | .increasing => .error .monotonicIncreasing
  | _ => .ok ()

/-- `SaturatingLinear::validate_monotonic_increasing`, packages/curve/src/lib.rs:239-245. -/
def slInc (minX minY maxX maxY : Nat) : Except CurveErr Unit := do
  slValidate minX maxX
  if maxY < minY then .error .monotonicDecreasing else .ok ()

/-- `SaturatingLinear::validate_monotonic_decreasing`, packages/curve/src/lib.rs:248-254. -/
def slDec (minX minY maxX maxY : Nat) : Except CurveErr Unit := do
  slValidate minX maxX
  if maxY > minY then .error .monotonicIncreasing else .ok ()

/-- `Curve::validate_monotonic_increasing`, packages/curve/src/lib.rs:101-107. -/
def validateInc : Curve → Except CurveErr Unit
  | .constant _ => .ok ()
  | .sl minX minY maxX maxY => slInc minX minY maxX maxY
  | .pl steps => plInc steps

/-- `Curve::validate_monotonic_decreasing`, packages/curve/src/lib.rs:110-116. -/
def validateDec : Curve → Except CurveErr Unit
  | .constant _ => .ok ()
  | .sl minX minY maxX maxY => slDec minX minY maxX maxY
  | .pl steps => plDec steps

/-- `Curve::validate_complexity`, packages/curve/src/lib.rs:119-125. -/
def validateComplexity (c : Curve) (max : Nat) : Except CurveErr Unit :=
  if c.size ≤ max then .ok () else .error .tooComplex

/-- the fold of `PiecewiseLinear::range`, packages/curve/src/lib.rs:396-402. -/
def rangeFrom (lo hi : Nat) : List Step → Nat × Nat
  | [] => (lo, hi)
  | s :: rest => rangeFrom (min lo s.value) (max hi s.value) rest

/-- `Curve::range`, packages/curve/src/lib.rs:128-134, 257-263, 395-404. -/
def range : Curve → Nat × Nat
  | .constant y => (y, y)
  | .sl _ minY _ maxY => if maxY > minY then (minY, maxY) else (maxY, minY)
  | .pl steps => rangeFrom (U128_LIM - 1) 0 steps

/-- the loop of `combine_const`, packages/curve/src/lib.rs:149-155. -/
def shiftSteps (y : Nat) : List Step → Res (List Step)
  | [] => .ok []
  | s :: rest => do
    let v ← add128 y s.value
    let r ← shiftSteps y rest
    .ok (⟨s.time, v⟩ :: r)

/-- `Curve::combine_const`, packages/curve/src/lib.rs:137-159. -/
def combineConst (c : Curve) (y : Nat) : Res Curve :=
  match c with
  | .constant y' => do
    let v ← add128 y y'
    .ok (.constant v)
  | .sl minX minY maxX maxY => do
    let a ← add128 minY y
    let b ← add128 maxY y
    .ok (.sl minX a maxX b)
  | .pl steps => do
    let s ← shiftSteps y steps
    .ok (.pl s)

/-- one inner loop of the bubble sort, packages/curve/src/lib.rs:416-423: `n` compare
and swap steps from the front. -/
def bubblePass : Nat → List Nat → List Nat
  | n + 1, a :: b :: rest =>
    if a > b then b :: bubblePass n (a :: rest) else a :: bubblePass n (b :: rest)
  | _, l => l

/-- the outer loop of the bubble sort, packages/curve/src/lib.rs:415-424: passes of
length `len - 1 - i` for `i = 0 .. len - 1`. -/
def bubbleLoop : Nat → List Nat → List Nat
  | 0, l => l
  | k + 1, l => bubbleLoop k (bubblePass k l)

/-- the sort, packages/curve/src/lib.rs:413-424. -/
def bubbleSort (l : List Nat) : List Nat := bubbleLoop l.length l

/-- the deduplication loop, packages/curve/src/lib.rs:426-435. -/
def dedupFrom (last : Option Nat) : List Nat → List Nat
  | [] => []
  | t :: rest => if some t ≠ last then t :: dedupFrom (some t) rest else dedupFrom last rest

/-- the last loop of `PiecewiseLinear::combine`, packages/curve/src/lib.rs:437-445. -/
def sumSteps (f g : List Step) : List Nat → Res (List Step)
  | [] => .ok []
  | t :: rest => do
    let a ← plValue f t
    let b ← plValue g t
    let v ← add128 a b
    let r ← sumSteps f g rest
    .ok (⟨t, v⟩ :: r)

/-- `PiecewiseLinear::combine`, packages/curve/src/lib.rs:407-450. -/
def plCombine (f g : List Step) : Res (List Step) :=
  sumSteps f g (dedupFrom none (bubbleSort ((f ++ g).map Step.time)))

/-- `from_saturating_linear`, packages/curve/src/lib.rs:465-479. -/
def fromSl (minX minY maxX maxY : Nat) : List Step := [⟨minX, minY⟩, ⟨maxX, maxY⟩]

/-- `Curve::PiecewiseLinear(pl1.combine(env, pl2))`. packages/curve/src/lib.rs:182 -/
def plCombined (f g : List Step) : Res Curve := do
  let s ← plCombine f g
  .ok (.pl s)

/-- `Curve::combine`, packages/curve/src/lib.rs:162-185.  For two curves of kinds
(piecewise, saturating) the source swaps the arguments; so does the model. -/
def combine (c d : Curve) : Res Curve :=
  match c, d with
  | .constant y, d => combineConst d y
  | c, .constant y => combineConst c y
  | .sl a b e f, .sl a' b' e' f' => plCombined (fromSl a b e f) (fromSl a' b' e' f')
  | .sl a b e f, .pl s => plCombined (fromSl a b e f) s
  | .pl s, .sl a b e f => plCombined (fromSl a b e f) s
  | .pl s, .pl s' => plCombined s s'

/-- `PiecewiseLinear::first_value`, packages/curve/src/lib.rs:460-462. -/
def firstValue (steps : List Step) : Option Nat := steps.head?.map Step.value
/-- `PiecewiseLinear::end_value`, packages/curve/src/lib.rs:456-458. -/
def endValue (steps : List Step) : Option Nat := steps.getLast?.map Step.value

/-- `Curve::end`, packages/curve/src/lib.rs:187-193, 265-267, 452-454. -/
def «end» : Curve → Option Nat
  | .constant _ => none
  | .sl _ _ maxX _ => some maxX
  | .pl steps => steps.getLast?.map Step.time

end Curve
end Phoenix
