import Verif.Model.Arith
/-
Model of contracts/token (the SEP-41 token every other contract talks to).
Not modelled here: name and symbol strings; storage lifetimes, which are in
`Model/Ttl.lean` (theorems C106 relate the two models); events, which are in
`Model/Events.lean`.
-/
namespace Phoenix

/-- `AllowanceValue`, contracts/token/src/storage_types.rs -/
structure Allowance where
  amount : Int
  exp : Nat
  deriving DecidableEq, Repr

/-- Storage of one token contract.  An absent balance reads as 0
(contracts/token/src/balance.rs:4-14), an absent allowance as `⟨0, 0⟩`
(contracts/token/src/allowance.rs:16-20), so maps are total. -/
structure Token where
  admin : Addr
  decimals : Nat
  bal : Addr → Int
  allow : Addr → Addr → Allowance

namespace Token

/-- `__constructor`, contracts/token/src/contract.rs:26-39. -/
def construct (admin : Addr) (decimals : Nat) : Res Token := do
  req (decimals ≤ 18) .panic
  .ok { admin := admin, decimals := decimals, bal := fun _ => 0, allow := fun _ _ => ⟨0, 0⟩ }

/-- `check_nonnegative_amount`, contracts/token/src/contract.rs:15-19. -/
def checkNonneg (amount : Int) : Res Unit := req (0 ≤ amount) .panic

/-- `receive_balance`, contracts/token/src/balance.rs:24-27. -/
def receive (t : Token) (a : Addr) (amount : Int) : Res Token := do
  let b ← addI (t.bal a) amount
  .ok { t with bal := upd t.bal a b }

/-- `spend_balance`, contracts/token/src/balance.rs:29-35. -/
def spend (t : Token) (a : Addr) (amount : Int) : Res Token := do
  req (amount ≤ t.bal a) .panic
  let b ← subI (t.bal a) amount
  .ok { t with bal := upd t.bal a b }

/-- `read_allowance`, contracts/token/src/allowance.rs:4-21. -/
def readAllowance (t : Token) (seq : Nat) (owner spender : Addr) : Allowance :=
  let al := t.allow owner spender
  if al.exp < seq then ⟨0, al.exp⟩ else al

/-- `write_allowance`, contracts/token/src/allowance.rs:23-49.  The TTL extension
is in `Model/Ttl.lean`. -/
def writeAllowance (t : Token) (seq : Nat) (owner spender : Addr) (amount : Int) (exp : Nat) :
    Res Token := do
  req (¬ (0 < amount ∧ exp < seq)) .panic
  .ok { t with allow := upd t.allow owner (upd (t.allow owner) spender ⟨amount, exp⟩) }

/-- `spend_allowance`, contracts/token/src/allowance.rs:51-65. -/
def spendAllowance (t : Token) (seq : Nat) (owner spender : Addr) (amount : Int) : Res Token := do
  let al := t.readAllowance seq owner spender
  req (amount ≤ al.amount) .panic
  if 0 < amount then do
    let rest ← subI al.amount amount
    t.writeAllowance seq owner spender rest al.exp
  else .ok t

/-- `mint`, contracts/token/src/contract.rs:41-52. -/
def mint (c : Ctx) (t : Token) (to : Addr) (amount : Int) : Res Token := do
  checkNonneg amount
  requireAuth c t.admin
  t.receive to amount

/-- `set_admin`, contracts/token/src/contract.rs:54-64. -/
def setAdmin (c : Ctx) (t : Token) (newAdmin : Addr) : Res Token := do
  requireAuth c t.admin
  .ok { t with admin := newAdmin }

/-- `allowance`, contracts/token/src/contract.rs:75-80. -/
def allowanceOf (c : Ctx) (t : Token) (owner spender : Addr) : Int :=
  (t.readAllowance c.seq owner spender).amount

/-- `approve`, contracts/token/src/contract.rs:82-95. -/
def approve (c : Ctx) (t : Token) (owner spender : Addr) (amount : Int) (exp : Nat) :
    Res Token := do
  requireAuth c owner
  checkNonneg amount
  t.writeAllowance c.seq owner spender amount exp

/-- `transfer`, contracts/token/src/contract.rs:104-116. -/
def transfer (c : Ctx) (t : Token) (src dst : Addr) (amount : Int) : Res Token := do
  requireAuth c src
  checkNonneg amount
  let t ← t.spend src amount
  t.receive dst amount

/-- `transfer_from`, contracts/token/src/contract.rs:118-131. -/
def transferFrom (c : Ctx) (t : Token) (spender src dst : Addr) (amount : Int) : Res Token := do
  requireAuth c spender
  checkNonneg amount
  let t ← t.spendAllowance c.seq src spender amount
  let t ← t.spend src amount
  t.receive dst amount

/-- `burn`, contracts/token/src/contract.rs:133-144. -/
def burn (c : Ctx) (t : Token) (src : Addr) (amount : Int) : Res Token := do
  requireAuth c src
  checkNonneg amount
  t.spend src amount

/-- `burn_from`, contracts/token/src/contract.rs:146-158. -/
def burnFrom (c : Ctx) (t : Token) (spender src : Addr) (amount : Int) : Res Token := do
  requireAuth c spender
  checkNonneg amount
  let t ← t.spendAllowance c.seq src spender amount
  t.spend src amount

end Token

/-- The state-changing entry points of the token contract
(contracts/token/src/contract.rs:41-158) with their arguments. -/
inductive TokenOp where
  | mint (to : Addr) (amount : Int)
  | setAdmin (newAdmin : Addr)
  | approve (owner spender : Addr) (amount : Int) (exp : Nat)
  | transfer (src dst : Addr) (amount : Int)
  | transferFrom (spender src dst : Addr) (amount : Int)
  | burn (src : Addr) (amount : Int)
  | burnFrom (spender src : Addr) (amount : Int)

/-- Dispatch of an external call to the token (contracts/token/src/contract.rs:41-158). -/
def Token.call (c : Ctx) (t : Token) : TokenOp → Res Token
  | .mint to amount => t.mint c to amount
  | .setAdmin a => t.setAdmin c a
  | .approve o s amount e => t.approve c o s amount e
  | .transfer s d amount => t.transfer c s d amount
  | .transferFrom sp s d amount => t.transferFrom c sp s d amount
  | .burn s amount => t.burn c s amount
  | .burnFrom sp s amount => t.burnFrom c sp s amount

/-- All token contracts of the ledger, by contract address (modelling device, nothing of /repo). -/
abbrev Ledger := Addr → Token

namespace Ledger

/-- Call `op` on the token contract at address `tok` (`token_contract::Client`) (contracts/pool/src/lib.rs:6-13 imports this client, the other contracts alike). -/
def call (c : Ctx) (L : Ledger) (tok : Addr) (op : TokenOp) : Res Ledger := do
  let t ← (L tok).call c op
  .ok (upd L tok t)

/-- `token_contract::Client::new(env, tok).transfer(src, dst, amount)` (contracts/pool/src/lib.rs:6-13 imports this client, the other contracts alike) -/
def transfer (c : Ctx) (L : Ledger) (tok src dst : Addr) (amount : Int) : Res Ledger :=
  L.call c tok (.transfer src dst amount)

/-- `token_contract::Client::new(env, tok).mint(to, amount)` (contracts/pool/src/lib.rs:6-13 imports this client, the other contracts alike) -/
def mint (c : Ctx) (L : Ledger) (tok to : Addr) (amount : Int) : Res Ledger :=
  L.call c tok (.mint to amount)

/-- `token_contract::Client::new(env, tok).burn(src, amount)` (contracts/pool/src/lib.rs:6-13 imports this client, the other contracts alike) -/
def burn (c : Ctx) (L : Ledger) (tok src : Addr) (amount : Int) : Res Ledger :=
  L.call c tok (.burn src amount)

/-- `token_contract::Client::new(env, tok).balance(a)` (contracts/token/src/contract.rs:97-102) -/
def bal (L : Ledger) (tok a : Addr) : Int := (L tok).bal a

end Ledger
end Phoenix
