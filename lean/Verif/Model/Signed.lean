import Verif.Model.Foreign
import Verif.Model.World
/-
What a signature really covers.  In the main model an account's signature covers the whole call
tree of the transaction.  On the ledger the signer signs a tree of invocations: the call itself
and, below it, every further call that will ask for the signer's authorisation, each with its
contract, its function and *all its arguments*.  `require_auth` succeeds only in a call that is in the tree, and
every node of the tree is good for one use (Soroban host, `SorobanAuthorizedInvocation`).  Wallets
obtain the tree by simulating the transaction before it is signed.

Here `Ctx.signed a` says that `a` signed a tree whose root is the call at hand, and the nodes below
the root are given as lists.  The contracts are the functions of Verif.Model.Foreign, run on
the repository's token with this authorisation (`signedTokens`); the router is repeated below.
`Lemmas/Signed` shows that whatever succeeds here succeeds with the same result in the main model.
-/
namespace Phoenix

/-- An invocation below the root of a signed tree: a call of a token by a contract
(contracts/token/src/contract.rs:41, 104, 133) or of a pool by the router
(contracts/multihop/src/contract.rs:113-138). -/
inductive Inv where
  | transfer (tok src dst : Addr) (amount : Int)
  | mint (tok dst : Addr) (amount : Int)
  | burn (tok src : Addr) (amount : Int)
  | swap (pool sender offer : Addr) (amount : Int) (min spread : Option Int) (deadline : Option Nat) (maxFee : Option Int)
  deriving DecidableEq, Repr

/-- For every account the invocations it signed below the root that are not used up yet (soroban_sdk: trees of authorised invocations). -/
abbrev Signed := Addr → List Inv

/-- The host's check for `a.require_auth()` in the invocation `i`: free for the contract that made
the call, otherwise `i` must be in the tree of `a` and is used up. -/
def demand (c : Ctx) (s : Signed) (a : Addr) (i : Inv) : Res Signed :=
  if c.invoker = some a then .ok s
  else if i ∈ s a then .ok (upd s a ((s a).erase i)) else .error .auth

/-- The context of a call in which the host has accepted `a.require_auth()`. -/
def Ctx.grant (c : Ctx) (a : Addr) : Ctx := { c with signed := fun x => x == a }

/-- The repository's token (contracts/token/src/contract.rs:41-158) with authorisation by signed trees. -/
def signedTokens : Tokens (Ledger × Signed) where
  bal S t a := S.1.bal t a
  decimals S t := (S.1 t).decimals
  transfer S c t src dst x := do
    let s ← demand c S.2 src (.transfer t src dst x)
    let L ← S.1.transfer (c.grant src) t src dst x
    .ok (L, s)
  mint S c t dst x := do
    let s ← demand c S.2 (S.1 t).admin (.mint t dst x)
    let L ← S.1.mint (c.grant (S.1 t).admin) t dst x
    .ok (L, s)
  burn S c t src x := do
    let s ← demand c S.2 src (.burn t src x)
    let L ← S.1.burn (c.grant src) t src x
    .ok (L, s)

/-- A node below the root of a tree signed for the router, with its own children (soroban_sdk: trees of authorised invocations). -/
structure Node where
  inv : Inv
  subs : List Inv
  deriving DecidableEq, Repr

namespace World

/-- `swap` of whichever pool is at `P`, called by the router, when `sender` signed the invocations
`subs` below this call. contracts/multihop/src/contract.rs:113-143. -/
def poolSwapS (w : World) (c : Ctx) (P sender offer : Addr) (amount : Int) (min spread : Option Int)
    (deadline : Option Nat) (maxFee : Option Int) (subs : List Inv) : Res (World × Int) :=
  match w.code P with
  | .xyk => do
    let p ← Pool.loaded (w.xyk P)
    let (p', S, r) ← Pool.swapX signedTokens P c p (w.led, upd (fun _ => []) sender subs) sender offer amount min spread deadline maxFee
    .ok ({ w with xyk := upd w.xyk P (some p'), led := S.1 }, r)
  | .stable => do
    let p ← Stable.loaded (w.stable P)
    let (p', S, r) ← Stable.swapX signedTokens P c p (w.led, upd (fun _ => []) sender subs) sender offer amount min spread deadline maxFee
    .ok ({ w with stable := upd w.stable P (some p'), led := S.1 }, r)
  | _ => .error .panic

/-- The child of a signed tree with the invocation `i` (soroban_sdk: trees of authorised invocations). -/
def findNode (s : List Node) (i : Inv) : Res Node :=
  match s.find? (fun n => n.inv == i) with
  | some n => .ok n
  | none => .error .auth

/-- The loop over the operations, contracts/multihop/src/contract.rs:106-142, when the recipient
signed the nodes `s` below the call of the router. -/
def hopLoopS (w : World) (c : Ctx) (F recipient : Addr) (spread : Option Int) (deadline : Option Nat)
    (maxFee : Option Int) : List Multihop.Op → Int → List Node → Res (World × Int)
  | [], x, _ => .ok (w, x)
  | op :: ops, x, s => do
    let P ← findPool w F op.offer op.ask
    let n ← findNode s (.swap P recipient op.offer x op.min spread deadline maxFee)
    let (w', r) ← poolSwapS w (c.grant recipient) P recipient op.offer x op.min spread deadline maxFee n.subs
    hopLoopS w' c F recipient spread deadline maxFee ops r (s.erase n)

/-- `swap` of the router at `H`, contracts/multihop/src/contract.rs:81-143, with the nodes the
recipient signed below it. -/
def hopSwapS (w : World) (c : Ctx) (H recipient : Addr) (ops : List Multihop.Op) (spread : Option Int) (amount : Int)
    (deadline : Option Nat) (maxFee : Option Int) (s : List Node) : Res (World × Int) := do
  req (¬ ops = []) (.code 2)
  Multihop.verifySwap ops
  requireAuth c recipient
  let m ← Multihop.loaded (w.hop H)
  hopLoopS w (c.as H) m.factory recipient spread deadline maxFee ops amount s

end World
end Phoenix
