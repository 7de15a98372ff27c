import Verif.Model.Pool
import Verif.Spec.Token
/-!
Vocabulary for the statements about the XYK pool.
-/
namespace Phoenix.Spec
open Phoenix Pool

/-- Reserve of `tok` as reported by `query_pool_info`. -/
def reserve (p : State) (tok : Addr) : Int :=
  if tok = p.cfg.tokenA then p.resA else if tok = p.cfg.tokenB then p.resB else 0

/-- The token paid out against `offer`. -/
def other (p : State) (offer : Addr) : Addr :=
  if offer = p.cfg.tokenA then p.cfg.tokenB else p.cfg.tokenA

/-- `offer` is one of the two pool tokens. -/
def IsPoolToken (p : State) (tok : Addr) : Prop := tok = p.cfg.tokenA ∨ tok = p.cfg.tokenB

/-- The share token is a third token (the host never assigns the address of an
existing contract to a newly deployed one) and the two pool tokens differ. -/
def DistinctTokens (p : State) : Prop :=
  p.cfg.tokenA ≠ p.cfg.tokenB ∧ p.cfg.shareToken ≠ p.cfg.tokenA ∧ p.cfg.shareToken ≠ p.cfg.tokenB

/-- A transaction that can occur: the pool contract signs nothing itself, and if it
initialises the pool then the host gives the new share token a fresh address. -/
def Possible (self : Addr) (t : Tx) : Prop :=
  t.ctx.auth self = false ∧
  match t with
  | .pool _ (.init i) => i.shareToken ≠ i.tokenA ∧ i.shareToken ≠ i.tokenB
  | _ => True

/-- The pool address has granted no allowance on any token. -/
def NoAllowance (self : Addr) (L : Ledger) : Prop :=
  ∀ tok sp, ((L tok).allow self sp).amount ≤ 0

/-- The sum of the LP balances of the accounts in `S`. -/
def lpHeld (s : Sys) (p : State) (S : Finset Addr) : Int :=
  ∑ a ∈ S, s.led.bal p.cfg.shareToken a

/-- Accounts whose LP balance a transaction may change, besides the pool. -/
def lpParties : Tx → List Addr
  | .pool _ (.provide s _ _ _ _ _ _) => [s]
  | .pool _ (.withdraw s _ _ _ _) => [s]
  | .pool _ _ => []
  | .token _ _ op => parties op

/-- The transaction destroys units of `tok` directly on the token contract. -/
def burnsDirectly (tok : Addr) : Tx → Bool
  | .token _ t (.burn _ _) => t == tok
  | .token _ t (.burnFrom _ _ _) => t == tok
  | _ => false

/-- The transaction is a swap. -/
def isSwap : Tx → Bool
  | .pool _ (.swap _ _ _ _ _ _ _) => true
  | _ => false

end Phoenix.Spec

namespace Phoenix.Spec
open Phoenix Pool

/-- A starting point: the pool at `me` is not initialised, no balance is negative and
the address `me` has granted no allowance. -/
def Genesis (me : Addr) (s : Sys) : Prop :=
  s.pool = none ∧ (∀ t a, 0 ≤ s.led.bal t a) ∧ NoAllowance me s.led

/-- The transaction makes `spender` use an allowance of `owner` on token `tok` for
`x` units, with the spender's signature and within the allowance. -/
def UsesAllowance (L : Ledger) (tok owner : Addr) (x : Int) (t : Tx) : Prop :=
  ∃ c spender, c.auth spender = true ∧ x ≤ (L tok).allowanceOf c owner spender ∧
    ((∃ d, t = .token c tok (.transferFrom spender owner d x)) ∨ t = .token c tok (.burnFrom spender owner x))

/-- Every swap of the history leaves both reserves at `m` or more. -/
def SwapsLeave (me : Addr) (m : Int) : Sys → List Tx → Prop
  | _, [] => True
  | s, t :: ts => (isSwap t = true → ∀ p, (exec me s t).pool = some p → m ≤ p.resA ∧ m ≤ p.resB) ∧ SwapsLeave me m (exec me s t) ts

end Phoenix.Spec
