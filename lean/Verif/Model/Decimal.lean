import Verif.Model.Arith
/-
Model of packages/decimal/src/decimal.rs: fixed point numbers with 18 decimals.
`Decimal(i128)` is represented by its raw `i128` (an `Int`).
`soroban_sdk::String` conversions are in Verif.Model.DecimalText.
-/
namespace Phoenix.Dec

/-- `DECIMAL_FRACTIONAL`, packages/decimal/src/decimal.rs:26. -/
def ONE : Int := 1000000000000000000
/-- `DECIMAL_FRACTIONAL_SQUARED`, packages/decimal/src/decimal.rs:27. -/
def ONE_SQ : Int := 1000000000000000000000000000000000000

/-- `Decimal::percent`, packages/decimal/src/decimal.rs:57-59 (an i64 input cannot
overflow the i128 product; the check is kept). -/
def percent (x : Int) : Res Int := mulI x 10000000000000000
/-- `Decimal::permille`, packages/decimal/src/decimal.rs:62-64. -/
def permille (x : Int) : Res Int := mulI x 1000000000000000
/-- `Decimal::bps`, packages/decimal/src/decimal.rs:67-69. -/
def bps (x : Int) : Res Int := mulI x 100000000000000

/-- `Decimal::from_ratio` / `checked_from_ratio`, packages/decimal/src/decimal.rs:205-210, 225-251. -/
def fromRatio (n d : Int) : Res Int := do
  req (d ≠ 0) .panic
  let p ← mulI n ONE
  divI p d

/-- `Mul<Decimal> for i128` (and `Mul<i128> for Decimal`),
packages/decimal/src/decimal.rs:338-349, 322-328. -/
def mulInt (x d : Int) : Res Int :=
  if x = 0 ∨ d = 0 then .ok 0 else do
    let p ← mulI x d
    divI p ONE

/-- `Mul for Decimal`, packages/decimal/src/decimal.rs:285-309. -/
def mul (a b : Int) : Res Int := do
  let p ← mulI a b
  divI p ONE

/-- `Div for Decimal`, packages/decimal/src/decimal.rs:311-320. -/
def div (a b : Int) : Res Int := fromRatio a b

/-- `Div<i128> for Decimal`, packages/decimal/src/decimal.rs:330-336. -/
def divInt (a b : Int) : Res Int := divI a b

/-- `Add for Decimal`, packages/decimal/src/decimal.rs:270-276. -/
def add (a b : Int) : Res Int := addI a b
/-- `Sub for Decimal`, packages/decimal/src/decimal.rs:277-283. -/
def sub (a b : Int) : Res Int := subI a b

/-- `Decimal::inv`, packages/decimal/src/decimal.rs:193-202. -/
def inv (d : Int) : Res (Option Int) :=
  if d = 0 then .ok none else do
    let r ← divI ONE_SQ d
    .ok (some r)

/-- `Decimal::abs`, packages/decimal/src/decimal.rs:253-259. -/
def abs (d : Int) : Res Int := if d < 0 then i128 (-d) else .ok d

/-- `u128 as i128`: two's complement reinterpretation (Rust built-in). -/
def wrapI128 (x : Nat) : Int := if (x : Int) ≤ I128_MAX then x else (x : Int) - U128_LIM

/-- `Decimal::abs_diff`, packages/decimal/src/decimal.rs:265-267: the unsigned distance,
reinterpreted as i128. -/
def absDiff (a b : Int) : Int := wrapI128 (a - b).natAbs

/-- `10i128.pow(n)`: panics when it leaves i128 (Rust built-in). -/
def pow10 (n : Nat) : Res Int := i128 (10 ^ n)

/-- `Decimal::from_atomics`, packages/decimal/src/decimal.rs:143-159.  `decimal_places` is an
i32 (any integer here: where the i32 difference would overflow, the power does too). -/
def fromAtomics (atomics : Int) (places : Int) : Res Int :=
  if places < 18 then do
    let f ← pow10 (18 - places).toNat
    mulI atomics f
  else if places = 18 then .ok atomics
  else do
    let f ← pow10 (places - 18).toNat
    divI atomics f

/-- `Decimal::to_i128_with_precision`, packages/decimal/src/decimal.rs:212-218.
For `precision > 18` the `as u32` cast of a negative number makes `10i128.pow` overflow. -/
def toPrecision (d : Int) (precision : Int) : Res Int :=
  if precision ≤ 18 then do
    let f ← pow10 (18 - precision).toNat
    divI d f
  else .error .overflow

/-- `Decimal::multiply_ratio`, packages/decimal/src/decimal.rs:220-222. -/
def multiplyRatio (d num den : Int) : Res Int := do
  let p ← mulI d num
  fromRatio p den

/-- The `while n > 1` loop of `Decimal::pow`, packages/decimal/src/decimal.rs:166-185. -/
def powLoop (x y : Int) (n : Nat) : Res Int :=
  if n ≤ 1 then mul x y
  else if n % 2 = 0 then do
    let x' ← mul x x
    powLoop x' y (n / 2)
  else do
    let y' ← mul x y
    let x' ← mul x x
    powLoop x' y' ((n - 1) / 2)
termination_by n

/-- `Decimal::pow`, packages/decimal/src/decimal.rs:162-188. -/
def pow (x : Int) (n : Nat) : Res Int :=
  if n = 0 then .ok ONE else powLoop x ONE n

end Phoenix.Dec
