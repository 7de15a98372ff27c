import Verif.Model.Store
/-
contracts/token against the key-value store.
-/
namespace Phoenix.Store.Token
open Phoenix Phoenix.Store

/-- `DataKey::Balance(a)`, contracts/token/src/storage_types.rs:25-30. -/
def kBal (a : Addr) : Key := .cons (.sym "Balance") (.cons (.addr a) .nil)
/-- `DataKey::Allowance(AllowanceDataKey { from, spender })`,
contracts/token/src/storage_types.rs:12-30. -/
def kAllow (owner spender : Addr) : Key :=
  .cons (.sym "Allowance") (.cons (.mcons "from" (.addr owner) (.mcons "spender" (.addr spender) .mnil)) .nil)
/-- `DataKey::Admin`, contracts/token/src/storage_types.rs:25-30. -/
def kAdmin : Key := .cons (.sym "Admin") .nil
/-- the key of `soroban_token_sdk::metadata` (contracts/token/src/metadata.rs:4-22). -/
def kMeta : Key := .sym "METADATA"

/-- `read_balance`, contracts/token/src/balance.rs:4-14. -/
def readBal (σ : Store) (a : Addr) : Res Int := loadOr σ .pers (kBal a) asI128 0
/-- `write_balance`, contracts/token/src/balance.rs:16-22. -/
def writeBal (σ : Store) (a : Addr) (x : Int) : Store := set σ .pers (kBal a) (.i128 x)
/-- `receive_balance`, contracts/token/src/balance.rs:24-27. -/
def receive (σ : Store) (a : Addr) (amount : Int) : Res Store := do
  let b ← readBal σ a
  let b' ← addI b amount
  .ok (writeBal σ a b')
/-- `spend_balance`, contracts/token/src/balance.rs:29-35. -/
def spend (σ : Store) (a : Addr) (amount : Int) : Res Store := do
  let b ← readBal σ a
  req (amount ≤ b) .panic
  let b' ← subI b amount
  .ok (writeBal σ a b')

/-- `read_allowance`, contracts/token/src/allowance.rs:4-21. -/
def readAllow (σ : Store) (seq : Nat) (owner spender : Addr) : Res Allowance := do
  let al ← loadOr σ .temp (kAllow owner spender) asAllowance ⟨0, 0⟩
  .ok (if al.exp < seq then ⟨0, al.exp⟩ else al)
/-- `write_allowance`, contracts/token/src/allowance.rs:23-49. -/
def writeAllow (σ : Store) (seq : Nat) (owner spender : Addr) (amount : Int) (exp : Nat) : Res Store := do
  req (¬ (0 < amount ∧ exp < seq)) .panic
  .ok (set σ .temp (kAllow owner spender) (.allowance ⟨amount, exp⟩))
/-- `spend_allowance`, contracts/token/src/allowance.rs:51-65. -/
def spendAllow (σ : Store) (seq : Nat) (owner spender : Addr) (amount : Int) : Res Store := do
  let al ← readAllow σ seq owner spender
  req (amount ≤ al.amount) .panic
  if 0 < amount then do
    let rest ← subI al.amount amount
    writeAllow σ seq owner spender rest al.exp
  else .ok σ

/-- `read_administrator`, contracts/token/src/admin.rs:5-8. -/
def readAdmin (σ : Store) : Res Addr := load σ .inst kAdmin asAddr .panic
/-- `write_administrator`, contracts/token/src/admin.rs:10-13. -/
def writeAdmin (σ : Store) (a : Addr) : Store := set σ .inst kAdmin (.addr a)
/-- `write_metadata`, contracts/token/src/metadata.rs:19-22 (name and symbol not modelled). -/
def writeMeta (σ : Store) (n : Nat) : Store := set σ .inst kMeta (.metadata n)
/-- `read_decimal`, contracts/token/src/metadata.rs:4-7. -/
def readDecimals (σ : Store) : Res Nat := load σ .inst kMeta asMetadata .panic

/-- `__constructor`, contracts/token/src/contract.rs:26-39, on the empty store of a new contract. -/
def construct (admin : Addr) (decimals : Nat) : Res Store := do
  req (decimals ≤ 18) .panic
  let σ := writeAdmin [] admin
  .ok (writeMeta σ decimals)

/-- `mint`, contracts/token/src/contract.rs:41-52. -/
def mint (c : Ctx) (σ : Store) (to_ : Addr) (amount : Int) : Res Store := do
  Phoenix.Token.checkNonneg amount
  let admin ← readAdmin σ
  requireAuth c admin
  receive σ to_ amount
/-- `set_admin`, contracts/token/src/contract.rs:54-64. -/
def setAdmin (c : Ctx) (σ : Store) (new : Addr) : Res Store := do
  let admin ← readAdmin σ
  requireAuth c admin
  .ok (writeAdmin σ new)
/-- `allowance`, contracts/token/src/contract.rs:75-80. -/
def allowance (c : Ctx) (σ : Store) (owner spender : Addr) : Res Int := do
  let al ← readAllow σ c.seq owner spender
  .ok al.amount
/-- `approve`, contracts/token/src/contract.rs:82-95. -/
def approve (c : Ctx) (σ : Store) (owner spender : Addr) (amount : Int) (exp : Nat) : Res Store := do
  requireAuth c owner
  Phoenix.Token.checkNonneg amount
  writeAllow σ c.seq owner spender amount exp
/-- `transfer`, contracts/token/src/contract.rs:104-116. -/
def transfer (c : Ctx) (σ : Store) (src dst : Addr) (amount : Int) : Res Store := do
  requireAuth c src
  Phoenix.Token.checkNonneg amount
  let σ1 ← spend σ src amount
  receive σ1 dst amount
/-- `transfer_from`, contracts/token/src/contract.rs:118-131. -/
def transferFrom (c : Ctx) (σ : Store) (spender src dst : Addr) (amount : Int) : Res Store := do
  requireAuth c spender
  Phoenix.Token.checkNonneg amount
  let σ1 ← spendAllow σ c.seq src spender amount
  let σ2 ← spend σ1 src amount
  receive σ2 dst amount
/-- `burn`, contracts/token/src/contract.rs:133-144. -/
def burn (c : Ctx) (σ : Store) (src : Addr) (amount : Int) : Res Store := do
  requireAuth c src
  Phoenix.Token.checkNonneg amount
  spend σ src amount
/-- `burn_from`, contracts/token/src/contract.rs:146-158. -/
def burnFrom (c : Ctx) (σ : Store) (spender src : Addr) (amount : Int) : Res Store := do
  requireAuth c spender
  Phoenix.Token.checkNonneg amount
  let σ1 ← spendAllow σ c.seq src spender amount
  spend σ1 src amount

/-- Dispatch of an external call (contracts/token/src/contract.rs:41-158). -/
def call (c : Ctx) (σ : Store) : TokenOp → Res Store
  | .mint to_ amount => mint c σ to_ amount
  | .setAdmin a => setAdmin c σ a
  | .approve o s amount e => approve c σ o s amount e
  | .transfer s d amount => transfer c σ s d amount
  | .transferFrom sp s d amount => transferFrom c σ sp s d amount
  | .burn s amount => burn c σ s amount
  | .burnFrom sp s amount => burnFrom c σ sp s amount

/-- A failed call leaves the store unchanged (modelling device, nothing of /repo). -/
def exec (σ : Store) (t : Ctx × TokenOp) : Store :=
  match call t.1 σ t.2 with
  | .ok σ' => σ'
  | .error _ => σ

/-- The store after a whole history of calls (modelling device, nothing of /repo). -/
def run (σ : Store) (ts : List (Ctx × TokenOp)) : Store := ts.foldl exec σ

end Phoenix.Store.Token
