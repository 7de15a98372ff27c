import Verif.Model.Token
/-
The token contract with the lifetimes of its storage entries.  The Soroban host keeps with
every entry the last ledger in which it is live.  A temporary entry is gone after that
ledger.  A persistent entry, and the instance of the contract, is archived after that ledger:
a transaction that touches it fails until somebody restores it, which anybody can do.
The host operations follow the documentation of the host's storage
(`put_contract_data`, `extend_contract_data_ttl`, `extend_current_contract_instance_and_code_ttl`);
they are not code of this repository.  The model of the token without lifetimes is
`Model/Token.lean`; theorems relate the two.
Not modelled: the lifetime of the wasm code entry (it is extended together with the instance).
-/
namespace Phoenix.Ttl
open Phoenix

/-- The lifetimes the network grants, in ledgers: at creation of a temporary and of a
persistent entry, and the most an entry can have (soroban_sdk). -/
structure Net where
  minTemp : Nat
  minPers : Nat
  maxTtl : Nat

/-- A value with the last ledger in which it is live (soroban_sdk). -/
structure Live (α : Type) where
  val : α
  live : Nat
  deriving DecidableEq

/-- contracts/token/src/storage_types.rs:3 -/
def DAY : Nat := 17280
/-- contracts/token/src/storage_types.rs:4 -/
def INSTANCE_BUMP : Nat := 7 * DAY
/-- contracts/token/src/storage_types.rs:5 -/
def INSTANCE_THRESHOLD : Nat := INSTANCE_BUMP - DAY
/-- contracts/token/src/storage_types.rs:7 -/
def BALANCE_BUMP : Nat := 30 * DAY
/-- contracts/token/src/storage_types.rs:8 -/
def BALANCE_THRESHOLD : Nat := BALANCE_BUMP - DAY

/-- The host's `extend_ttl` on the last live ledger of a persistent entry or an instance, as called in
contracts/token/src/balance.rs:7-9, 19-21 and contracts/token/src/contract.rs:46-48: if no
more than `threshold` ledgers are left, extend to `to` ledgers from now, at most to what the
network allows. -/
def extended (n : Net) (seq threshold to live : Nat) : Nat :=
  let new := min (seq + to) (seq + n.maxTtl - 1)
  if live - seq ≤ threshold ∧ live < new then new else live

/-- Storage of one token contract with lifetimes.  `inst` is the last live ledger of the
instance, in which the administrator and the metadata are stored
(contracts/token/src/admin.rs:5-13). -/
structure TTok where
  admin : Addr
  decimals : Nat
  inst : Nat
  bal : Addr → Option (Live Int)
  allow : Addr → Addr → Option (Live Allowance)

/-- `__constructor`, contracts/token/src/contract.rs:26-39; a new instance has the lifetime of a
new persistent entry. -/
def construct (n : Net) (seq : Nat) (admin : Addr) (decimals : Nat) : Res TTok := do
  req (decimals ≤ 18) .panic
  .ok { admin := admin, decimals := decimals, inst := seq + n.minPers - 1, bal := fun _ => none, allow := fun _ _ => none }

/-- `e.storage().instance().extend_ttl(..)`, in every entry point that changes something,
contracts/token/src/contract.rs:46-48 and so on. -/
def bumpInst (n : Net) (seq : Nat) (t : TTok) : TTok :=
  { t with inst := extended n seq INSTANCE_THRESHOLD INSTANCE_BUMP t.inst }

/-- `read_balance`, contracts/token/src/balance.rs:4-14.  Touching an archived entry makes
the transaction fail. -/
def readBal (n : Net) (seq : Nat) (t : TTok) (a : Addr) : Res (Int × TTok) :=
  match t.bal a with
  | none => .ok (0, t)
  | some x =>
    if x.live < seq then .error .panic
    else .ok (x.val, { t with bal := upd t.bal a (some ⟨x.val, extended n seq BALANCE_THRESHOLD BALANCE_BUMP x.live⟩) })

/-- `write_balance`, contracts/token/src/balance.rs:16-22.  Writing keeps the lifetime of an
existing entry and gives a new one the network's minimum. -/
def writeBal (n : Net) (seq : Nat) (t : TTok) (a : Addr) (v : Int) : Res TTok :=
  match t.bal a with
  | none => .ok { t with bal := upd t.bal a (some ⟨v, extended n seq BALANCE_THRESHOLD BALANCE_BUMP (seq + n.minPers - 1)⟩) }
  | some x =>
    if x.live < seq then .error .panic
    else .ok { t with bal := upd t.bal a (some ⟨v, extended n seq BALANCE_THRESHOLD BALANCE_BUMP x.live⟩) }

/-- `receive_balance`, contracts/token/src/balance.rs:24-27. -/
def receive (n : Net) (seq : Nat) (t : TTok) (a : Addr) (amount : Int) : Res TTok := do
  let (b, t) ← readBal n seq t a
  let v ← addI b amount
  writeBal n seq t a v

/-- `spend_balance`, contracts/token/src/balance.rs:29-35. -/
def spend (n : Net) (seq : Nat) (t : TTok) (a : Addr) (amount : Int) : Res TTok := do
  let (b, t) ← readBal n seq t a
  req (amount ≤ b) .panic
  let v ← subI b amount
  writeBal n seq t a v

/-- The temporary entry as the contract sees it: gone when its lifetime is over (soroban_sdk). -/
def visible (seq : Nat) (e : Option (Live Allowance)) : Option (Live Allowance) :=
  match e with
  | none => none
  | some x => if x.live < seq then none else some x

/-- `read_allowance`, contracts/token/src/allowance.rs:4-21. -/
def readAllowance (seq : Nat) (t : TTok) (owner spender : Addr) : Allowance :=
  match visible seq (t.allow owner spender) with
  | none => ⟨0, 0⟩
  | some x => if x.val.exp < seq then ⟨0, x.val.exp⟩ else x.val

/-- `temporary().set(..)` of contracts/token/src/allowance.rs:40: keeps the lifetime of a live
entry and gives a new one the network's minimum. -/
def setTemp (n : Net) (seq : Nat) (e : Option (Live Allowance)) (v : Allowance) : Live Allowance :=
  match visible seq e with
  | none => ⟨v, seq + n.minTemp - 1⟩
  | some x => ⟨v, x.live⟩

/-- `temporary().extend_ttl(&key, live_for, live_for)` of contracts/token/src/allowance.rs:47.
The host refuses to extend a temporary entry beyond what the network allows. -/
def extendTemp (n : Net) (seq liveFor : Nat) (x : Live Allowance) : Res (Live Allowance) := do
  req (liveFor < n.maxTtl) .panic
  .ok (if x.live - seq ≤ liveFor ∧ x.live < seq + liveFor then { x with live := seq + liveFor } else x)

/-- `write_allowance`, contracts/token/src/allowance.rs:23-49. -/
def writeAllowance (n : Net) (seq : Nat) (t : TTok) (owner spender : Addr) (amount : Int) (exp : Nat) : Res TTok := do
  req (¬ (0 < amount ∧ exp < seq)) .panic
  let e := setTemp n seq (t.allow owner spender) ⟨amount, exp⟩
  if 0 < amount then do
    let e' ← extendTemp n seq (exp - seq) e
    .ok { t with allow := upd t.allow owner (upd (t.allow owner) spender (some e')) }
  else .ok { t with allow := upd t.allow owner (upd (t.allow owner) spender (some e)) }

/-- `spend_allowance`, contracts/token/src/allowance.rs:51-65. -/
def spendAllowance (n : Net) (seq : Nat) (t : TTok) (owner spender : Addr) (amount : Int) : Res TTok := do
  let al := readAllowance seq t owner spender
  req (amount ≤ al.amount) .panic
  if 0 < amount then do
    let rest ← subI al.amount amount
    writeAllowance n seq t owner spender rest al.exp
  else .ok t

/-- The state-changing entry points, contracts/token/src/contract.rs:41-158, on a live instance. -/
def callLive (n : Net) (c : Ctx) (t : TTok) : TokenOp → Res TTok
  | .mint d x => do
    Token.checkNonneg x
    requireAuth c t.admin
    receive n c.seq (bumpInst n c.seq t) d x
  | .setAdmin a => do
    requireAuth c t.admin
    .ok { bumpInst n c.seq t with admin := a }
  | .approve o s x e => do
    requireAuth c o
    Token.checkNonneg x
    writeAllowance n c.seq (bumpInst n c.seq t) o s x e
  | .transfer s d x => do
    requireAuth c s
    Token.checkNonneg x
    let t ← spend n c.seq (bumpInst n c.seq t) s x
    receive n c.seq t d x
  | .transferFrom sp s d x => do
    requireAuth c sp
    Token.checkNonneg x
    let t ← spendAllowance n c.seq (bumpInst n c.seq t) s sp x
    let t ← spend n c.seq t s x
    receive n c.seq t d x
  | .burn s x => do
    requireAuth c s
    Token.checkNonneg x
    spend n c.seq (bumpInst n c.seq t) s x
  | .burnFrom sp s x => do
    requireAuth c sp
    Token.checkNonneg x
    let t ← spendAllowance n c.seq (bumpInst n c.seq t) s sp x
    spend n c.seq t s x

/-- What can be done to a token: a call that changes something, the query `balance`
(contracts/token/src/contract.rs:97-102) sent as a transaction, which extends lifetimes, the query
`allowance` (75-80) likewise, and the restoration of an archived balance or of the instance,
an operation of the network. -/
inductive TOp where
  | call (op : TokenOp)
  | balance (a : Addr)
  | allowance (owner spender : Addr)
  | restoreBal (a : Addr)
  | restoreInst

/-- One transaction (modelling device, nothing of /repo). -/
def step (n : Net) (c : Ctx) (t : TTok) : TOp → Res TTok
  | .call op => do
    req (c.seq ≤ t.inst) .panic
    callLive n c t op
  | .balance a => do
    req (c.seq ≤ t.inst) .panic
    let (_, t) ← readBal n c.seq (bumpInst n c.seq t) a
    .ok t
  | .allowance _ _ => do
    req (c.seq ≤ t.inst) .panic
    .ok (bumpInst n c.seq t)
  | .restoreBal a =>
    match t.bal a with
    | none => .ok t
    | some x => .ok (if x.live < c.seq then { t with bal := upd t.bal a (some ⟨x.val, c.seq + n.minPers - 1⟩) } else t)
  | .restoreInst => .ok (if t.inst < c.seq then { t with inst := c.seq + n.minPers - 1 } else t)

/-- A failed transaction changes nothing (modelling device, nothing of /repo). -/
def exec (n : Net) (t : TTok) (k : Ctx × TOp) : TTok :=
  match step n k.1 t k.2 with
  | .ok t' => t'
  | .error _ => t

/-- A history (modelling device, nothing of /repo). -/
def run (n : Net) (t : TTok) (ks : List (Ctx × TOp)) : TTok := ks.foldl (exec n) t

end Phoenix.Ttl
