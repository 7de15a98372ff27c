import Verif.Model.Pool
import Verif.Model.Stable
import Verif.Model.Stake
import Verif.Model.Vesting
import Verif.Model.Rewards
/-
Soroban contract storage: key-value maps whose keys and values are host values, as the
`storage.rs` files of the contracts use them.  The record models (Verif.Model.Pool, Stake,
Vesting, Stable, Token) give every contract one field per logical variable; here the same
contracts are written against the key-value store, key by key.
Not modelled: lifetimes (`extend_ttl` of an entry that was just read or written does not fail;
the token's lifetimes are in Verif.Model.Ttl, those of the other contracts in Verif.Model.Life) and the binary form of the stored values: a value
is kept with its type, and reading it at another type fails.
-/
namespace Phoenix.Store
open Phoenix

/-- `storage().instance()`, `storage().persistent()`, `storage().temporary()`: three disjoint
maps (soroban_sdk). -/
inductive Dur where
  | inst
  | pers
  | temp
  deriving DecidableEq, Repr

/-- Host values used as keys: `u32`, `u64`, `Symbol`, `Address`, vectors (`nil`, `cons`) and
maps from field names to values (`mnil`, `mcons`).  A `#[repr(u32)]` enum with the
`TryFromVal` of the contracts becomes a `u32`; a `#[contracttype]` enum variant becomes a
vector of its name and its payload, a `#[contracttype]` struct a map of its fields in
alphabetical order, a tuple a vector (soroban-sdk). -/
inductive Key where
  | u32 (n : Nat)
  | u64 (n : Nat)
  | sym (s : String)
  | addr (a : Addr)
  | nil
  | cons (head tail : Key)
  | mnil
  | mcons (name : String) (value rest : Key)
  deriving DecidableEq, Repr

/-- `BondingInfo`, contracts/stake/src/storage.rs:54-68. -/
structure Bonding where
  stakes : List Stake.Entry
  rewardDebt : Nat
  lastRewardTime : Nat
  totalStake : Int

/-- `Config` of the factory, contracts/factory/src/storage.rs:31-39. -/
structure FactoryConfig where
  admin : Addr
  multihop : Addr
  lpHash : Nat
  stakeHash : Nat
  tokenHash : Nat
  whitelist : List Addr
  lpDecimals : Nat
  deriving DecidableEq

/-- The stored values (soroban_sdk). -/
inductive Cell where
  | i128 (x : Int)
  | i64 (x : Int)
  | u32 (n : Nat)
  | bool (b : Bool)
  | addr (a : Addr)
  | addrs (l : List Addr)
  | history (m : SMap)
  | poolConfig (c : Pool.Config)
  | stableConfig (c : Stable.Config)
  | amp (a : Stable.AmpParams)
  | stakeConfig (c : Stake.Config)
  | bonding (b : Bonding)
  | vesting (v : Vesting.Info)
  | minter (m : Vesting.Minter)
  | tokenInfo (address : Addr)
  | allowance (a : Allowance)
  | metadata (decimals : Nat)
  | rewardsConfig (c : Rewards.Config)
  | rewardDist (d : Rewards.Dist)
  | curve (k : Curve)
  | adj (a : Rewards.Adj)
  | factoryConfig (c : FactoryConfig)
  | hash (h : Nat)
  | addrPair (a b : Addr)
  | text (s : String)

/-- The storage of one contract: the entries written so far, the newest first.  Only finitely
many entries were ever written (soroban_sdk). -/
abbrev Store := List ((Dur × Key) × Cell)

/-- `storage().d().get(&k)`: the newest entry under the key (soroban_sdk). -/
def get (σ : Store) (d : Dur) (k : Key) : Option Cell := σ.lookup (d, k)

/-- `storage().d().set(&k, &v)` (soroban_sdk) -/
def set (σ : Store) (d : Dur) (k : Key) (v : Cell) : Store := ((d, k), v) :: σ

/-- `storage().d().has(&k)` (soroban_sdk) -/
def has (σ : Store) (d : Dur) (k : Key) : Bool := (get σ d k).isSome

/-- `get(&k).unwrap()` at a given type: fails with `e` when nothing is stored, and traps when the
stored value has another type (soroban_sdk). -/
def load {α : Type} (σ : Store) (d : Dur) (k : Key) (as : Cell → Option α) (e : Err) : Res α :=
  match get σ d k with
  | none => .error e
  | some c => match as c with
    | some x => .ok x
    | none => .error .panic

/-- `get(&k).unwrap_or(default)` at a given type (soroban_sdk). -/
def loadOr {α : Type} (σ : Store) (d : Dur) (k : Key) (as : Cell → Option α) (default : α) : Res α :=
  match get σ d k with
  | none => .ok default
  | some c => match as c with
    | some x => .ok x
    | none => .error .panic

/-! Reading a value at a type (soroban-sdk `TryFromVal`). -/

/-- as `i128` (soroban_sdk) -/
def asI128 : Cell → Option Int | .i128 x => some x | _ => none
/-- as `i64` (soroban_sdk) -/
def asI64 : Cell → Option Int | .i64 x => some x | _ => none
/-- as `u32` (soroban_sdk) -/
def asU32 : Cell → Option Nat | .u32 x => some x | _ => none
/-- as `bool` (soroban_sdk) -/
def asBool : Cell → Option Bool | .bool x => some x | _ => none
/-- as `Address` (soroban_sdk) -/
def asAddr : Cell → Option Addr | .addr x => some x | _ => none
/-- as `Vec<Address>` (soroban_sdk) -/
def asAddrs : Cell → Option (List Addr) | .addrs x => some x | _ => none
/-- as `Map<u64, u128>` (soroban_sdk) -/
def asHistory : Cell → Option SMap | .history x => some x | _ => none
/-- as the pool's `Config`, contracts/pool/src/storage.rs:37 -/
def asPoolConfig : Cell → Option Pool.Config | .poolConfig x => some x | _ => none
/-- as the stable pool's `Config`, contracts/pool_stable/src/storage.rs:41 -/
def asStableConfig : Cell → Option Stable.Config | .stableConfig x => some x | _ => none
/-- as `AmplifierParameters`, contracts/pool_stable/src/storage.rs:144 -/
def asAmp : Cell → Option Stable.AmpParams | .amp x => some x | _ => none
/-- as the stake contract's `Config`, contracts/stake/src/storage.rs:8 -/
def asStakeConfig : Cell → Option Stake.Config | .stakeConfig x => some x | _ => none
/-- as `BondingInfo`, contracts/stake/src/storage.rs:56 -/
def asBonding : Cell → Option Bonding | .bonding x => some x | _ => none
/-- as `VestingInfo`, contracts/vesting/src/storage.rs:49 -/
def asVesting : Cell → Option Vesting.Info | .vesting x => some x | _ => none
/-- as `MinterInfo`, contracts/vesting/src/storage.rs:60 -/
def asMinter : Cell → Option Vesting.Minter | .minter x => some x | _ => none
/-- as `VestingTokenInfo`, of which only the address is kept, contracts/vesting/src/storage.rs:32 -/
def asTokenInfo : Cell → Option Addr | .tokenInfo x => some x | _ => none
/-- as `AllowanceValue`, contracts/token/src/storage_types.rs:18 -/
def asAllowance : Cell → Option Allowance | .allowance x => some x | _ => none
/-- as `TokenMetadata`, of which only the decimals are kept, contracts/token/src/metadata.rs:19-22 -/
def asMetadata : Cell → Option Nat | .metadata x => some x | _ => none
/-- as stake_rewards' `Config`, contracts/stake_rewards/src/storage.rs:6 -/
def asRewardsConfig : Cell → Option Rewards.Config | .rewardsConfig x => some x | _ => none
/-- as `Distribution`; its `max_bonus_bps` and `bonus_per_day_bps` are always 0, contracts/stake_rewards/src/distribution.rs:56 -/
def asRewardDist : Cell → Option Rewards.Dist | .rewardDist x => some x | _ => none
/-- as `Curve`, packages/curve/src/lib.rs:43 -/
def asCurve : Cell → Option Curve | .curve x => some x | _ => none
/-- as `WithdrawAdjustment`, contracts/stake_rewards/src/distribution.rs:122 -/
def asAdj : Cell → Option Rewards.Adj | .adj x => some x | _ => none
/-- as the factory's `Config`, contracts/factory/src/storage.rs:31 -/
def asFactoryConfig : Cell → Option FactoryConfig | .factoryConfig x => some x | _ => none
/-- as `BytesN<32>` (soroban_sdk) -/
def asHash : Cell → Option Nat | .hash x => some x | _ => none
/-- as `(Address, Address)` (soroban_sdk) -/
def asAddrPair : Cell → Option (Addr × Addr) | .addrPair x y => some (x, y) | _ => none
/-- as `String` (soroban_sdk) -/
def asText : Cell → Option String | .text x => some x | _ => none

end Phoenix.Store
