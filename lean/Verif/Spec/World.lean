import Verif.Model.World
import Verif.Spec.Ledger
import Verif.Spec.Pool
import Verif.Spec.Stable
import Verif.Spec.Stake
import Verif.Spec.Vesting
/-!
Specification vocabulary for the whole protocol.
-/
namespace Phoenix.World.Spec
open Phoenix Phoenix.World

/-- The addresses that can sign transactions: accounts, not contracts. -/
abbrev Accounts := Addr → Prop

/-- The host gives a contract deployed by a contract an address that is no account, and a share
token an address different from the two tokens it is derived from (by hashing). -/
structure HostOK (h : Host) (acct : Accounts) : Prop where
  pool : ∀ F a b, ¬ acct (h.poolAddr F a b)
  hop : ∀ F a, ¬ acct (h.hopAddr F a)
  share : ∀ P a b, ¬ acct (h.shareAddr P a b)
  stake : ∀ P, ¬ acct (h.stakeAddr P)
  fresh : ∀ P a b, h.shareAddr P a b ≠ a ∧ h.shareAddr P a b ≠ b

/-- A starting point: contract code may already be deployed anywhere, but no contract is
initialised; balances are non-negative i128 numbers, there are no balances of tokens that do not exist, and no
contract has granted an allowance. -/
structure Genesis (acct : Accounts) (w : World) : Prop where
  xyk : ∀ a, w.xyk a = none
  stable : ∀ a, w.stable a = none
  stake : ∀ a, w.stake a = Stake.fresh
  vest : ∀ a, w.vest a = none
  fac : ∀ a, w.fac a = none
  hop : ∀ a, w.hop a = none
  trd : ∀ a, w.trd a = none
  rew : ∀ a, w.rew a = Rewards.fresh
  contracts : ∀ a, w.code a ≠ .none → ¬ acct a
  range : ∀ t a, 0 ≤ w.led.bal t a ∧ w.led.bal t a ≤ I128_MAX
  blank : ∀ t, w.code t = .none → ∀ a, w.led.bal t a = 0
  noAllow : ∀ a, ¬ acct a → Phoenix.Spec.NoAllowance a w.led

/-- A transaction that can occur: it is sent from outside (no contract calls) and only accounts
sign. -/
def Possible (acct : Accounts) (t : Tx) : Prop :=
  t.ctx.invoker = none ∧ ∀ a, t.ctx.signed a = true → acct a

/-- At `P` there is an initialised pool, of either kind, for the tokens `a` and `b`. -/
def PoolFor (w : World) (P a b : Addr) : Prop :=
  (w.code P = .xyk ∧ ∃ p, w.xyk P = some p ∧ p.cfg.tokenA = a ∧ p.cfg.tokenB = b) ∨
  (w.code P = .stable ∧ ∃ p, w.stable P = some p ∧ p.cfg.tokenA = a ∧ p.cfg.tokenB = b)

/-- A pool created by a factory: its two tokens as given in the call, and the address returned. -/
structure Listing where
  tokenA : Addr
  tokenB : Addr
  pool : Addr
deriving DecidableEq

/-- The pool that a transaction creates through the factory at `F`, if the transaction is a
`create_liquidity_pool` call on `F` and succeeds. -/
def createdBy (h : Host) (w : World) (F : Addr) (t : Tx) : List Listing :=
  match t.call with
  | .create F' sender i k amp sl mf =>
    if F' = F then
      match step h w t.ctx t.call, create h w t.ctx F sender i k amp sl mf with
      | .ok _, .ok (_, P) => [⟨i.tokenA, i.tokenB, P⟩]
      | _, _ => []
    else []
  | _ => []

/-- All pools created through the factory at `F` in a history, in order. -/
def created (h : Host) (F : Addr) : World → List Tx → List Listing
  | _, [] => []
  | w, t :: ts => createdBy h w F t ++ created h F (exec h w t) ts

/-- What a newly created pool is connected to: a share token that only the pool can mint, and a
stake contract for that token with the parameters of the creation call, owned by the factory. -/
def Wired (w : World) (F P : Addr) (i : Info) : Prop :=
  ∃ share stk, poolRefs w P = .ok (share, stk) ∧ w.code share = .token ∧ (w.led share).admin = P ∧
    w.code stk = .stake ∧
    (w.stake stk).cfg = some
      { lpToken := share, minBond := i.minBond, minReward := i.minReward, manager := i.manager, owner := F,
        maxComplexity := i.maxComplexity }

/-- The contracts whose stored state a call may change: the one called, for a route the pools
found for its hops, for a trade the pool named, and for deployments addresses in no use before. -/
def Touches (w : World) (k : Call) (a : Addr) : Prop :=
  match k with
  | .token _ _ => False
  | .xykInit P _ _ _ _ _ => a = P ∨ w.code a = .none
  | .xyk P _ => a = P
  | .stableInit P _ _ _ _ => a = P ∨ w.code a = .none
  | .stable P _ => a = P
  | .stake K _ => a = K
  | .vest V _ => a = V
  | .facInit F _ _ _ _ _ _ _ => a = F ∨ w.code a = .none
  | .create F _ _ _ _ _ _ => a = F ∨ w.code a = .none
  | .whitelist F _ _ _ => a = F
  | .hashes F _ _ _ => a = F
  | .facUpdate F _ => a = F
  | .hopInit H _ _ => a = H
  | .hopSwap H _ ops _ _ _ _ => ∃ m, w.hop H = some m ∧ ∃ op ∈ ops, findPool w m.factory op.offer op.ask = .ok a
  | .trdInit T _ _ _ _ => a = T
  | .trade _ _ _ pool _ _ _ _ _ => a = pool
  | .trdTransfer _ _ _ _ _ => False
  | .rewards R _ => a = R

/-- The contracts whose tokens a call may move: those of `Touches`, and a trader asked to pay out. -/
def Spends (w : World) (k : Call) (a : Addr) : Prop :=
  match k with
  | .trdTransfer T _ _ _ _ => a = T
  | k => Touches w k a

/-- Code and stored state at `a` are the same. -/
structure SameAt (w w' : World) (a : Addr) : Prop where
  code : w'.code a = w.code a
  xyk : w'.xyk a = w.xyk a
  stable : w'.stable a = w.stable a
  stake : w'.stake a = w.stake a
  vest : w'.vest a = w.vest a
  fac : w'.fac a = w.fac a
  hop : w'.hop a = w.hop a
  trd : w'.trd a = w.trd a
  rew : w'.rew a = w.rew a

end Phoenix.World.Spec
