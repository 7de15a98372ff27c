import Verif.Spec.Accept
/-! Specification vocabulary: addresses of deployed contracts, and where contracts come from. -/
namespace Phoenix.World.Spec
open Phoenix Phoenix.World

/-- What a contract puts into the salt of a deployment: two tokens (a factory for a pool, a pool for
its share token), an account (a factory for its router), nothing (a pool for its stake contract);
contracts/factory/src/utils.rs:9-12, 24-26, contracts/pool/src/storage.rs:198-201, 208-209. -/
inductive Salt where
  | pair (a b : Addr)
  | one (a : Addr)
  | empty

/-- The host computes the address of a deployed contract from the deploying contract and the salt,
without collisions. -/
structure Derives (h : Host) (addr : Addr → Salt → Addr) : Prop where
  pool : ∀ F a b, h.poolAddr F a b = addr F (.pair a b)
  hop : ∀ F a, h.hopAddr F a = addr F (.one a)
  share : ∀ P a b, h.shareAddr P a b = addr P (.pair a b)
  stake : ∀ P, h.stakeAddr P = addr P .empty
  inj : ∀ d s d' s', addr d s = addr d' s' → d = d' ∧ s = s'

/-- No contract has deployed anything yet. -/
def NothingDeployed (acct : Accounts) (addr : Addr → Salt → Addr) (w : World) : Prop :=
  ∀ d s, ¬ acct d → w.code (addr d s) = .none

/-- Where the contract at `x` comes from: it was there at the start, or it is the pool a factory
lists for a pair of tokens, the router a factory names, the share token or the stake contract that an
initialised pool names as its own, each at the address derived from its deployer. -/
inductive Origin (h : Host) (w0 w : World) (x : Addr) : Prop
  | start (e : w0.code x ≠ .none)
  | pool (F : Addr) (f : Factory.State) (a b : Addr) (hf : w.fac F = some f) (hp : f.pair a b = some x)
      (e : x = h.poolAddr F a b) (k : w.code x = .xyk ∨ w.code x = .stable)
  | router (F : Addr) (f : Factory.State) (hf : w.fac F = some f) (hm : f.multihop = x)
      (e : x = h.hopAddr F f.admin) (k : w.code x = .multihop)
  | share (P a b : Addr) (hP : PoolFor w P a b) (hr : ∃ y, poolRefs w P = .ok (x, y))
      (e : x = h.shareAddr P a b) (k : w.code x = .token)
  | stake (P a b : Addr) (hP : PoolFor w P a b) (hr : ∃ y, poolRefs w P = .ok (y, x))
      (e : x = h.stakeAddr P) (k : w.code x = .stake)

/-- A number of basis points. -/
def Bps (x : Int) : Prop := 0 ≤ x ∧ x ≤ 10000

/-- What any pool asks of its parameters. -/
structure CommonTerms (i : Info) (maxFee : Int) : Prop where
  order : i.tokenA < i.tokenB
  minBond : 0 < i.minBond
  minReward : 0 < i.minReward
  complexity : 0 < i.maxComplexity
  fee : Bps i.swapFeeBps
  maxSlippage : Bps i.maxSlippageBps
  spread : Bps i.maxSpreadBps
  cap : Bps maxFee
  capped : i.swapFeeBps ≤ maxFee

/-- What an XYK pool asks of its parameters. -/
structure XykTerms (i : Info) (decimals : Nat) (slippage maxFee : Int) extends CommonTerms i maxFee : Prop where
  referral : Bps i.maxReferralBps
  default : Bps slippage
  digits : decimals ≤ 18

/-- What a stable pool asks of its parameters, and of its tokens. -/
structure StableTerms (w : World) (i : Info) (amp : Nat) (maxFee : Int) extends CommonTerms i maxFee : Prop where
  default : Bps i.defaultSlippageBps
  tokens : w.code i.tokenA = .token ∧ w.code i.tokenB = .token
  decimals : (w.led i.tokenA).decimals ≤ 18 ∧ (w.led i.tokenB).decimals ≤ 18
  curve : 0 < amp ∧ amp ≤ 1000000

/-- What a factory asks for a new pool. -/
def CreateTerms (w : World) (f : Factory.State) (i : Info) (amp : Option Nat) (slippage maxFee : Int) : Kind → Prop
  | .xyk => XykTerms i f.lpDecimals slippage maxFee
  | .stable => (∃ A, amp = some A ∧ StableTerms w i A maxFee) ∧ Bps i.maxReferralBps ∧ Bps slippage

end Phoenix.World.Spec
