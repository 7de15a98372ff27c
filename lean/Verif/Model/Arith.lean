/-
Failure monad and checked machine integers.

Models Rust's panicking arithmetic under `overflow-checks = true`
(/repo/Cargo.toml, `[profile.release] overflow-checks = true`) and the Soroban
host type `U256` (soroban-sdk; traps on overflow, underflow and division by 0).
-/
namespace Phoenix

/-- Reasons a contract call fails.  All of them abort the transaction and roll
back its writes; the distinction is kept only to match the source (Cargo.toml:25 sets overflow-checks). -/
inductive Err where
  /-- integer overflow (`overflow-checks = true` in /repo/Cargo.toml) -/
  | overflow
  /-- division by zero -/
  | divZero
  /-- `require_auth` of an address that did not authorise the call -/
  | auth
  /-- `panic!`, `assert!`, `unwrap`, `expect` -/
  | panic
  /-- `panic_with_error!(env, ContractError::X)` with the numeric code of `X` -/
  | code (n : Nat)
  deriving DecidableEq, Repr

/-- Result of a contract call: a panic is an explicit error value (Cargo.toml:25 sets overflow-checks). -/
abbrev Res (α : Type) := Except Err α

/-- `if !c { panic }`: every guard of the source is written with this (Rust built-in). -/
def req (c : Prop) [Decidable c] (e : Err) : Res Unit :=
  if c then .ok () else .error e

/-- `if let Some(x) = o { f(x) }` (Rust built-in) -/
def whenSome {α : Type} (o : Option α) (f : α → Res Unit) : Res Unit :=
  match o with
  | none => .ok ()
  | some x => f x

/-- Addresses.  Soroban's `Address` is opaque; only equality and the total order
used by `token_a >= token_b` (contracts/pool/src/contract.rs:209) matter. -/
abbrev Addr := Nat

/-- `i128::MAX` (Rust built-in) -/
def I128_MAX : Int := 170141183460469231731687303715884105727
/-- `i128::MIN` (Rust built-in) -/
def I128_MIN : Int := -170141183460469231731687303715884105728
/-- `u64::MAX + 1` (Rust built-in) -/
def U64_LIM : Nat := 18446744073709551616
/-- `u128::MAX + 1` (Rust built-in) -/
def U128_LIM : Nat := 340282366920938463463374607431768211456
/-- `U256::MAX + 1` (soroban_sdk) -/
def U256_LIM : Nat :=
  115792089237316195423570985008687907853269984665640564039457584007913129639936

/-- The value fits in an `i128` (Rust built-in). -/
def InI128 (x : Int) : Prop := I128_MIN ≤ x ∧ x ≤ I128_MAX
instance (x : Int) : Decidable (InI128 x) := by unfold InI128; infer_instance

/-- Range check of an `i128` result (overflow-checks, /repo/Cargo.toml:25). -/
def i128 (x : Int) : Res Int := if InI128 x then .ok x else .error .overflow
/-- checked `i128 + i128` (Rust built-in) -/
def addI (a b : Int) : Res Int := i128 (a + b)
/-- checked `i128 - i128` (Rust built-in) -/
def subI (a b : Int) : Res Int := i128 (a - b)
/-- checked `i128 * i128` (Rust built-in) -/
def mulI (a b : Int) : Res Int := i128 (a * b)
/-- `i128 / i128`: truncates toward zero, panics on zero (and on `MIN / -1`) (Rust built-in) -/
def divI (a b : Int) : Res Int := if b = 0 then .error .divZero else i128 (a.tdiv b)

/-- Range check of a `u64` result (Rust built-in). -/
def u64 (x : Nat) : Res Nat := if x < U64_LIM then .ok x else .error .overflow
/-- Range check of a `u128` result (Rust built-in). -/
def u128 (x : Nat) : Res Nat := if x < U128_LIM then .ok x else .error .overflow
/-- Range check of a host `U256` result. -/
def u256 (x : Nat) : Res Nat := if x < U256_LIM then .ok x else .error .overflow

/-- Unsigned subtraction (u64, u128 and U256 alike): panics on underflow (Rust built-in). -/
def subU (a b : Nat) : Res Nat := if b ≤ a then .ok (a - b) else .error .overflow
/-- Unsigned division (u64, u128 and U256 alike): panics on zero (Rust built-in). -/
def divU (a b : Nat) : Res Nat := if b = 0 then .error .divZero else .ok (a / b)

/-- checked `u64 + u64` (Rust built-in) -/
def add64 (a b : Nat) : Res Nat := u64 (a + b)
/-- checked `u64 * u64` (Rust built-in) -/
def mul64 (a b : Nat) : Res Nat := u64 (a * b)
/-- checked `u128 + u128` (Rust built-in) -/
def add128 (a b : Nat) : Res Nat := u128 (a + b)
/-- checked `u128 * u128` (Rust built-in) -/
def mul128 (a b : Nat) : Res Nat := u128 (a * b)
/-- `U256::add` (soroban_sdk) -/
def add256 (a b : Nat) : Res Nat := u256 (a + b)
/-- `U256::mul` (soroban_sdk) -/
def mul256 (a b : Nat) : Res Nat := u256 (a * b)

/-- `convert_i128_to_u128`, packages/phoenix/src/utils.rs:41-47. -/
def toU128 (x : Int) : Res Nat := if x < 0 then .error .panic else .ok x.toNat
/-- `convert_u128_to_i128`, packages/phoenix/src/utils.rs:49-55. -/
def toI128 (x : Nat) : Res Int := if (x : Int) > I128_MAX then .error .panic else .ok x

/-- One argument of `validate_int_parameters!`,
packages/phoenix/src/utils.rs:6-19: `Some v` with `v <= 0` panics. -/
def validatePos (v : Option Int) : Res Unit := whenSome v (fun x => req (0 < x) .panic)

/-- One argument of `validate_bps!`, packages/phoenix/src/utils.rs:23-34. -/
def validateBps (v : Int) : Res Unit := req (0 ≤ v ∧ v ≤ 10000) .panic

/-- `if let Some(v) = opt { validate_bps!(v) }`, the shape used by
`update_config` (contracts/pool/src/contract.rs:560-578). -/
def validateBpsOpt (v : Option Int) : Res Unit := whenSome v validateBps

/-- What a contract call brings along: ledger timestamp, ledger sequence number, the
addresses that signed the transaction, and the contract that makes the call (none for a call
made directly by a transaction).  A signature is taken to cover the whole call tree
(simplification) (soroban_sdk). -/
structure Ctx where
  now : Nat
  seq : Nat
  signed : Addr → Bool
  invoker : Option Addr := none

/-- Whose `require_auth` the host accepts in this call: the signers of the transaction and the
contract that makes the call, but not the contracts further up the call stack (Soroban
invoker authorisation; nothing in /repo calls `authorize_as_current_contract`). -/
def Ctx.auth (c : Ctx) (a : Addr) : Bool := c.signed a || c.invoker == some a

/-- The context of a call made by contract `self` (soroban_sdk). -/
def Ctx.as (c : Ctx) (self : Addr) : Ctx := { c with invoker := some self }

/-- `addr.require_auth()` (soroban_sdk) -/
def requireAuth (c : Ctx) (a : Addr) : Res Unit := req (c.auth a = true) .auth

/-- Functional update of a finite map (storage write) (modelling device, nothing of /repo). -/
def upd {α : Type} (f : Addr → α) (a : Addr) (v : α) : Addr → α :=
  fun x => if x = a then v else f x

end Phoenix
