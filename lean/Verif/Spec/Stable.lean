import Verif.Model.Stable
import Verif.Spec.Pool
/-!
Vocabulary for the statements about the stable pool.
-/
namespace Phoenix.Stable.Spec
open Phoenix Stable
open Phoenix.Spec (NoAllowance)

/-- Reserve of `tok` as reported by `query_pool_info`. -/
def reserve (p : State) (tok : Addr) : Int :=
  if tok = p.cfg.tokenA then p.resA else if tok = p.cfg.tokenB then p.resB else 0

/-- The token paid out against `offer`. -/
def other (p : State) (offer : Addr) : Addr :=
  if offer = p.cfg.tokenA then p.cfg.tokenB else p.cfg.tokenA

/-- `tok` is one of the two pool tokens. -/
def IsPoolToken (p : State) (tok : Addr) : Prop := tok = p.cfg.tokenA ∨ tok = p.cfg.tokenB

/-- The share token is a third token (the host never assigns the address of an existing
contract to a newly deployed one) and the two pool tokens differ. -/
def DistinctTokens (p : State) : Prop :=
  p.cfg.tokenA ≠ p.cfg.tokenB ∧ p.cfg.shareToken ≠ p.cfg.tokenA ∧ p.cfg.shareToken ≠ p.cfg.tokenB

/-- A transaction that can occur: the pool contract signs nothing itself, and if it
initialises the pool then the host gives the new share token a fresh address. -/
def Possible (self : Addr) (t : Tx) : Prop :=
  t.ctx.auth self = false ∧
  match t with
  | .pool _ (.init i) => i.shareToken ≠ i.tokenA ∧ i.shareToken ≠ i.tokenB
  | _ => True

/-- A starting point: the pool at `me` is not initialised, no balance is negative and the
address `me` has granted no allowance. -/
def Genesis (me : Addr) (s : Sys) : Prop :=
  s.pool = none ∧ (∀ t a, 0 ≤ s.led.bal t a) ∧ NoAllowance me s.led

/-- The sum of the LP balances of the accounts in `S`. -/
def lpHeld (s : Sys) (p : State) (S : Finset Addr) : Int :=
  ∑ a ∈ S, s.led.bal p.cfg.shareToken a

/-- Accounts whose LP balance a transaction may change, besides the pool. -/
def lpParties : Tx → List Addr
  | .pool _ (.provide s _ _ _ _ _) => [s]
  | .pool _ (.withdraw s _ _ _ _) => [s]
  | .pool _ _ => []
  | .token _ _ op => Phoenix.Spec.parties op

/-- The transaction destroys units of `tok` directly on the token contract. -/
def burnsDirectly (tok : Addr) : Tx → Bool
  | .token _ t (.burn _ _) => t == tok
  | .token _ t (.burnFrom _ _ _) => t == tok
  | _ => false

/-- The transaction makes `spender` use an allowance of `owner` on token `tok` for
`x` units, with the spender's signature and within the allowance. -/
def UsesAllowance (L : Ledger) (tok owner : Addr) (x : Int) (t : Tx) : Prop :=
  ∃ c spender, c.auth spender = true ∧ x ≤ (L tok).allowanceOf c owner spender ∧
    ((∃ d, t = .token c tok (.transferFrom spender owner d x)) ∨ t = .token c tok (.burnFrom spender owner x))

/-- The StableSwap curve for two tokens with amplification `amp / 100`, invariant `D` and
amounts `x`, `y`, all in units of 10⁻¹⁸ token.  The textbook equation (documented above
`calc_y` in contracts/pool_stable/src/math.rs, with `A·n = amp/50`)

    y² + y·(x + D/(A·n) − D) = D³ / (4·x·A·n)

multiplied by `4·x·2·amp`.  For fixed `x` the left side of `curve` grows with `y` where it
is positive, so a point with a larger left side keeps more of token `y` in the pool. -/
def curve (amp D x y : Int) : Int := 4 * x * y * (2 * amp * (x + y - D) + 100 * D)

/-- `(x, y)` lies strictly above the curve. -/
def Above (amp D x y : Int) : Prop := 100 * D ^ 3 < curve amp D x y
/-- `(x, y)` lies on or below the curve. -/
def OnOrBelow (amp D x y : Int) : Prop := curve amp D x y ≤ 100 * D ^ 3

/-- One unit of a token with `dec` decimals, in units of 10⁻¹⁸. -/
def unitOf (dec : Nat) : Nat := 10 ^ (18 - dec)

/-- The transaction is a swap. -/
def isSwap : Tx → Bool
  | .pool _ (.swap _ _ _ _ _ _ _) => true
  | _ => false

/-- The transaction is a deposit. -/
def isDeposit : Tx → Bool
  | .pool _ (.provide _ _ _ _ _ _) => true
  | _ => false

/-- The transaction is a withdrawal. -/
def isWithdrawal : Tx → Bool
  | .pool _ (.withdraw _ _ _ _ _) => true
  | _ => false

/-- A pool of two tokens with the same number (at most 13) of decimals, at least `m` units of the two tokens
together, neither reserve more than 1000 times the other and the total below `2·A - 1` tokens. -/
def Fair (m : Int) (p : State) : Prop :=
  p.precA = p.precB ∧ p.precA ≤ 13 ∧ m ≤ p.resA + p.resB ∧ (p.resA ≤ 1000 * p.resB ∧ p.resB ≤ 1000 * p.resA) ∧
  (p.resA + p.resB) * unitOf p.precA < (p.amp.nextAmp / 100 : Nat) * 2000000000000000000 - 1

/-- In the history `us` from `s`, every swap and every deposit is tried on a pool in fair condition. -/
def FairBefore (me : Addr) (m : Int) (s : Sys) (us : List Tx) : Prop :=
  ∀ before t after, us = before ++ t :: after → isSwap t = true ∨ isDeposit t = true →
    ∀ p, (run me s before).pool = some p → Fair m p

/-- The pool `p` with another fee, paid to `z`. -/
def charging (p : State) (fee : Int) (z : Addr) : State :=
  { p with cfg := { p.cfg with totalFeeBps := fee, feeRecipient := z } }

end Phoenix.Stable.Spec
