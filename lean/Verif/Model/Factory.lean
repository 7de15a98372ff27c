import Verif.Model.Token

/-!
# Factory, multihop router and trader: their own storage

The parts of contracts/factory, contracts/multihop and contracts/trader that touch only the
contract's own storage.  The calls into other contracts are composed in Verif.Model.World.
-/
namespace Phoenix

namespace Factory

/-- `Config` and the other storage of the factory, contracts/factory/src/storage.rs:31-39,
43-66, 160-206.  The four wasm hashes are opaque numbers: the code that a hash denotes is
assumed to be the contract of this repository. -/
structure State where
  admin : Addr
  multihop : Addr
  lpHash : Nat
  stableHash : Nat
  stakeHash : Nat
  tokenHash : Nat
  whitelist : List Addr
  lpDecimals : Nat
  /-- `DataKey::LpVec` -/
  pools : List Addr
  /-- the entries under `PairTupleKey { token_a, token_b }` -/
  pair : Addr → Addr → Option Addr

/-- `get_config(..).expect(..)`, contracts/factory/src/storage.rs:144-158. -/
def loaded (s : Option State) : Res State :=
  match s with
  | some f => .ok f
  | none => .error .panic

/-- Second half of the lookup, contracts/factory/src/contract.rs:373-403. -/
def lookupReverted (f : State) (a b : Addr) : Res Addr :=
  match f.pair b a with
  | some p => .ok p
  | none => .error (.code 4)

/-- `query_for_pool_by_token_pair`, contracts/factory/src/contract.rs:343-404.  (The storage of an
uninitialised factory is empty, so there the lookup fails as well.) -/
def lookup (f : State) (a b : Addr) : Res Addr :=
  match f.pair a b with
  | some p => .ok p
  | none => lookupReverted f a b

/-- Loop over `to_add`, contracts/factory/src/contract.rs:260-264. -/
def addAll (w : List Addr) : List Addr → List Addr
  | [] => w
  | a :: l => addAll (if a ∈ w then w else w ++ [a]) l

/-- Loop over `to_remove`, contracts/factory/src/contract.rs:266-270: the first occurrence. -/
def removeAll (w : List Addr) : List Addr → List Addr
  | [] => w
  | a :: l => removeAll (w.erase a) l

/-- `update_whitelisted_accounts`, contracts/factory/src/contract.rs:237-279. -/
def updateWhitelist (c : Ctx) (f : State) (sender : Addr) (add remove : List Addr) : Res State := do
  requireAuth c sender
  req (f.admin = sender) (.code 3)
  .ok { f with whitelist := removeAll (addAll f.whitelist add) remove }

/-- `update_wasm_hashes`, contracts/factory/src/contract.rs:281-303. -/
def updateHashes (c : Ctx) (f : State) (lp stake token : Option Nat) : Res State := do
  requireAuth c f.admin
  .ok { f with lpHash := lp.getD f.lpHash, stakeHash := stake.getD f.stakeHash, tokenHash := token.getD f.tokenHash }

/-- `update`, contracts/factory/src/contract.rs:497-503 (the replacement of the factory's own
wasm is not modelled: the code is assumed to stay the same). -/
def update (c : Ctx) (f : State) (stable : Nat) : Res State := do
  requireAuth c f.admin
  .ok { f with stableHash := stable }

end Factory

namespace Multihop

/-- Storage, contracts/multihop/src/storage.rs:69-112. -/
structure State where
  admin : Addr
  factory : Addr
deriving DecidableEq

/-- `Swap`, contracts/multihop/src/storage.rs:8-12. -/
structure Op where
  ask : Addr
  offer : Addr
  min : Option Int
deriving DecidableEq

/-- `get_factory(..).expect(..)`, contracts/multihop/src/storage.rs:76-88. -/
def loaded (s : Option State) : Res State :=
  match s with
  | some m => .ok m
  | none => .error .panic

/-- `initialize`, contracts/multihop/src/contract.rs:61-78.  No authorisation is asked for. -/
def init (s : Option State) (admin factory : Addr) : Res State := do
  req (s.isNone = true) (.code 1)
  .ok ⟨admin, factory⟩

/-- `verify_swap`, contracts/multihop/src/utils.rs:5-12. -/
def verifySwap : List Op → Res Unit
  | a :: b :: l => do
    req (a.ask = b.offer) (.code 3)
    verifySwap (b :: l)
  | _ => .ok ()

/-- `verify_reverse_swap`, contracts/multihop/src/utils.rs:14-24. -/
def verifyReverseSwap : List Op → Res Unit
  | a :: b :: l => do
    req (a.offer = b.ask) (.code 3)
    verifyReverseSwap (b :: l)
  | _ => .ok ()

end Multihop

namespace Trader

/-- Storage, contracts/trader/src/storage.rs:53-179 (the name is not modelled). -/
structure State where
  admin : Addr
  tokenA : Addr
  tokenB : Addr
  output : Addr
deriving DecidableEq

/-- Reads of an uninitialised trader fail, contracts/trader/src/storage.rs:62-78. -/
def loaded (s : Option State) : Res State :=
  match s with
  | some t => .ok t
  | none => .error (.code 1)

/-- `initialize`, contracts/trader/src/contract.rs:68-100. -/
def init (c : Ctx) (s : Option State) (admin tokenA tokenB output : Addr) : Res State := do
  requireAuth c admin
  req (s.isNone = true) (.code 10)
  .ok ⟨admin, tokenA, tokenB, output⟩

/-- The range check of `trade_token`, contracts/trader/src/contract.rs:124-133. -/
def checkSpread (v : Option Int) : Res Unit := whenSome v (fun x => req (¬ (x < 0 ∨ x > 10000)) (.code 8))

/-- The amount traded, contracts/trader/src/contract.rs:149-153: without an explicit amount it
is the balance *of the caller*, not of the trader contract.  `amount` is a u64. -/
def amountOf (L : Ledger) (sender token : Addr) : Option Nat → Int
  | some a => (a : Int)
  | none => L.bal token sender

/-- `transfer`, contracts/trader/src/contract.rs:173-199. -/
def transfer (self : Addr) (c : Ctx) (t : State) (L : Ledger) (sender recipient : Addr) (amount : Int)
    (token : Option Addr) : Res Ledger := do
  requireAuth c sender
  req (sender = t.admin) (.code 6)
  L.transfer (c.as self) (token.getD t.output) self recipient amount

end Trader
end Phoenix
