import Verif.Model.Arith
/-! Rust's wrapping `as` casts and Soroban's ordered map, used by the staking contracts. -/
namespace Phoenix

/-- `x as u128` for an `i128`: wraps (a negative value becomes huge) (Rust built-in). -/
def asU128 (x : Int) : Nat := (x % U128_LIM).toNat
/-- `x as i128` for a `u128`: wraps (Rust built-in). -/
def asI128 (x : Nat) : Int := if (x : Int) ≤ I128_MAX then x else (x : Int) - U128_LIM

/-- `soroban_sdk::Map<u64, u128>`: entries in ascending key order. -/
abbrev SMap := List (Nat × Nat)

/-- `Map::set`: replaces the entry of an existing key, inserts a new one in order (soroban_sdk). -/
def SMap.set (m : SMap) (k v : Nat) : SMap :=
  match m with
  | [] => [(k, v)]
  | (k', v') :: m => if k < k' then (k, v) :: (k', v') :: m
    else if k = k' then (k, v) :: m else (k', v') :: SMap.set m k v

/-- `Map::get` (soroban_sdk) -/
def SMap.get (m : SMap) (k : Nat) : Option Nat :=
  match m with
  | [] => none
  | (k', v') :: m => if k = k' then some v' else SMap.get m k

/-- `Map::keys` (ascending) (soroban_sdk) -/
def SMap.keys (m : SMap) : List Nat := m.map Prod.fst

end Phoenix
