import Verif.Model.Arith
/-
Model of packages/decimal/src/decimal256.rs: non-negative fixed point numbers with 18 decimals
over the host's 256-bit integers.  `Decimal256(U256)` is represented by its raw `U256` (a `Nat`);
the host type traps when a result does not fit.  No contract of the repository uses it.
-/
namespace Phoenix.Dec256

/-- `decimal_fractional` / `one`, packages/decimal/src/decimal256.rs:34-40. -/
def ONE : Nat := 1000000000000000000

/-- `percent`, packages/decimal/src/decimal256.rs:55-57 (a u64 times 10^16 fits in u128; the check is kept). -/
def percent (x : Nat) : Res Nat := mul128 x 10000000000000000
/-- `permille`, packages/decimal/src/decimal256.rs:59-61. -/
def permille (x : Nat) : Res Nat := mul128 x 1000000000000000
/-- `bps`, packages/decimal/src/decimal256.rs:63-65. -/
def bps (x : Nat) : Res Nat := mul128 x 100000000000000

/-- `atomics`, packages/decimal/src/decimal256.rs:83-85: `None` if it does not fit in u128. -/
def atomics (d : Nat) : Option Nat := if d < U128_LIM then some d else none

/-- `Option::unwrap` (Rust built-in) -/
def unwrap {α : Type} : Option α → Res α
  | some x => .ok x
  | none => .error .panic

/-- `ten.pow(n)` of the host: traps when it leaves 256 bits. -/
def pow10 (n : Nat) : Res Nat := u256 (10 ^ n)

/-- `from_atomics`, packages/decimal/src/decimal256.rs:88-105.  `decimal_places` is an i32 (any
integer here: where the i32 difference would overflow, the power does too). -/
def fromAtomics (a : Nat) (places : Int) : Res Nat :=
  if places < 18 then do
    let f ← pow10 (18 - places).toNat
    mul256 a f
  else if places = 18 then .ok a
  else do
    let f ← pow10 (places - 18).toNat
    divU a f

/-- `mul`, packages/decimal/src/decimal256.rs:215-221. -/
def mul (a b : Nat) : Res Nat := do
  let p ← mul256 a b
  divU p ONE

/-- The `while n > 1` loop of `pow`, packages/decimal/src/decimal256.rs:113-124. -/
def powLoop (x y : Nat) (n : Nat) : Res Nat :=
  if n ≤ 1 then mul x y
  else if n % 2 = 0 then do
    let x' ← mul x x
    powLoop x' y (n / 2)
  else do
    let y' ← mul x y
    let x' ← mul x x
    powLoop x' y' ((n - 1) / 2)
termination_by n

/-- `pow`, packages/decimal/src/decimal256.rs:107-130. -/
def pow (x : Nat) (n : Nat) : Res Nat :=
  if n = 0 then .ok ONE else powLoop x ONE n

/-- `inv`, packages/decimal/src/decimal256.rs:132-140. -/
def inv (d : Nat) : Res (Option Nat) :=
  if d = 0 then .ok none else do
    let r ← divU 1000000000000000000000000000000000000 d
    .ok (some r)

/-- `from_ratio` / `checked_from_ratio`, packages/decimal/src/decimal256.rs:142-147, 166-182. -/
def fromRatio (n d : Nat) : Res Nat := do
  req (d ≠ 0) .panic
  let p ← mul256 n ONE
  divU p d

/-- `10u128.pow(n)` (Rust built-in) -/
def pow10u (n : Nat) : Res Nat := u128 (10 ^ n)

/-- `to_u128_with_precision`, packages/decimal/src/decimal256.rs:149-155.  For `precision > 18` the
`as u32` cast of a negative number makes the power overflow. -/
def toPrecision (d : Nat) (precision : Int) : Res Nat := do
  let v ← unwrap (atomics d)
  if precision ≤ 18 then do
    let f ← pow10u (18 - precision).toNat
    divU v f
  else .error .overflow

/-- `multiply_ratio`, packages/decimal/src/decimal256.rs:157-164. -/
def multiplyRatio (d num den : Nat) : Res Nat := do
  let p ← mul256 d num
  fromRatio p den

/-- `abs_diff`, packages/decimal/src/decimal256.rs:184-191. -/
def absDiff (a b : Nat) : Res Nat := do
  let x ← unwrap (atomics a)
  let y ← unwrap (atomics b)
  .ok (if x ≤ y then y - x else x - y)

/-- `div_by_u256`, packages/decimal/src/decimal256.rs:193-195. -/
def divInt (a b : Nat) : Res Nat := divU a b
/-- `Add`, packages/decimal/src/decimal256.rs:198-204. -/
def add (a b : Nat) : Res Nat := add256 a b
/-- `Sub`, packages/decimal/src/decimal256.rs:206-212. -/
def sub (a b : Nat) : Res Nat := subU a b
/-- `div`, packages/decimal/src/decimal256.rs:224-229. -/
def div (a b : Nat) : Res Nat := fromRatio a b

end Phoenix.Dec256
