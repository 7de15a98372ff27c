import Verif.Model.Decimal
/-
Model of the text conversions of packages/decimal/src/decimal.rs: `Display` (used by
`to_string`, e.g. for the annualized rewards) and `FromStr`.  A text is a `List Char`.
Rust's formatting and parsing of i128 is part of the model: an integer is written in base
ten with `-` in front when negative; parsing takes an optional sign `+` or `-` and at least
one digit, and fails beyond the range of i128.
-/
namespace Phoenix.Dec

/-- decimal digits of a natural number, most significant first (Rust built-in). -/
def natText (n : Nat) : List Char := Nat.toDigits 10 n

/-- Rust's `{}` for i128 (Rust built-in). -/
def intText (x : Int) : List Char := if x < 0 then '-' :: natText x.natAbs else natText x.natAbs

/-- Rust's `{:0>n}`: zeros in front (in front of a sign, too) up to the width `n` (Rust built-in). -/
def padZeros (n : Nat) (l : List Char) : List Char := List.replicate (n - l.length) '0' ++ l

/-- `trim_end_matches('0')` (Rust built-in). -/
def trimZeros (l : List Char) : List Char := (l.reverse.dropWhile (· == '0')).reverse

/-- `Display::fmt`, packages/decimal/src/decimal.rs:375-397. -/
def toText (d : Int) : List Char :=
  let whole := d.tdiv ONE
  let frac := d.tmod ONE
  if frac = 0 then intText whole
  else intText whole ++ '.' :: trimZeros (padZeros 18 (intText frac))

/-- value of one digit (Rust built-in). -/
def digit (c : Char) : Res Nat :=
  if '0'.toNat ≤ c.toNat ∧ c.toNat ≤ '9'.toNat then .ok (c.toNat - '0'.toNat) else .error .panic

/-- value of a list of digits, from the left (Rust built-in). -/
def digitsFrom (acc : Nat) : List Char → Res Nat
  | [] => .ok acc
  | c :: l => do
    let d ← digit c
    digitsFrom (10 * acc + d) l

/-- at least one digit (Rust built-in). -/
def parseDigits (l : List Char) : Res Nat :=
  match l with
  | [] => .error .panic
  | c :: l' => digitsFrom 0 (c :: l')

/-- Rust's `str::parse::<i128>`, with `expect` (Rust built-in). -/
def parseInt (l : List Char) : Res Int :=
  match l with
  | '-' :: r => do
    let n ← parseDigits r
    req (-(n : Int) ≥ I128_MIN) .panic
    .ok (-(n : Int))
  | '+' :: r => do
    let n ← parseDigits r
    req ((n : Int) ≤ I128_MAX) .panic
    .ok (n : Int)
  | r => do
    let n ← parseDigits r
    req ((n : Int) ≤ I128_MAX) .panic
    .ok (n : Int)

/-- `input.split('.')`: the parts between dots (there is always at least one) (Rust built-in). -/
def splitDots : List Char → List (List Char)
  | [] => [[]]
  | c :: l =>
    if c = '.' then [] :: splitDots l
    else match splitDots l with
      | [] => [[c]]
      | p :: ps => (c :: p) :: ps

/-- the fractional part, packages/decimal/src/decimal.rs:361-367. -/
def addFraction (atomics : Int) (f : List Char) : Res Int := do
  let frac ← parseInt f
  req (f.length ≤ 18) .panic
  let factor ← pow10 (18 - f.length)
  let p ← mulI frac factor
  addI atomics p

/-- `FromStr::from_str`, packages/decimal/src/decimal.rs:351-373. -/
def fromText (input : List Char) : Res Int :=
  match splitDots input with
  | [w] => do
    let whole ← parseInt w
    mulI whole ONE
  | [w, f] => do
    let whole ← parseInt w
    let a ← mulI whole ONE
    addFraction a f
  | _ => .error .panic

end Phoenix.Dec
