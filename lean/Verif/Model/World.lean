import Verif.Model.Factory
import Verif.Model.Pool
import Verif.Model.Stable
import Verif.Model.Stake
import Verif.Model.Vesting
import Verif.Model.Rewards

/-!
# The whole protocol

All contracts of the repository together on one ledger: any number of factories, pools,
stable pools, stake contracts, vesting contracts, reward contracts, multihop routers and
traders, each at its own address, and all tokens.  Cross-contract calls run the model of the called contract on
the shared state.

Not modelled here: event logs, storage TTLs, symbol strings in the router's quotes, upgrades
of contract code, and contracts that are not in the repository (a pool address that holds no
pool of this repository makes the call fail).
-/
namespace Phoenix.World

/-- The code stored at an address (modelling device, nothing of /repo). -/
inductive Code where
  | none | token | xyk | stable | stake | vesting | factory | multihop | trader | rewards
deriving DecidableEq

/-- Addresses of contracts deployed by contracts.  The host derives them from the deploying
contract and a salt:
* pools, contracts/factory/src/utils.rs:3-17 (salt: both tokens; the kind of pool plays no role);
* the router, contracts/factory/src/utils.rs:19-38 (salt: the admin);
* share tokens, contracts/pool/src/storage.rs:188-205, contracts/pool_stable/src/storage.rs:223-240;
* stake contracts, contracts/pool/src/storage.rs:207-214, contracts/pool_stable/src/storage.rs:242-249.
The functions are arbitrary; not even injectivity is assumed, because a deployment to an
address in use fails. -/
structure Host where
  poolAddr : Addr → Addr → Addr → Addr
  hopAddr : Addr → Addr → Addr
  shareAddr : Addr → Addr → Addr → Addr
  stakeAddr : Addr → Addr

/-- The state of the ledger (modelling device, nothing of /repo). -/
structure World where
  led : Ledger
  code : Addr → Code
  xyk : Addr → Option Pool.State
  stable : Addr → Option Stable.State
  stake : Addr → Stake.State
  vest : Addr → Option Vesting.State
  fac : Addr → Option Factory.State
  hop : Addr → Option Multihop.State
  trd : Addr → Option Trader.State
  rew : Addr → Rewards.State

/-- `LiquidityPoolInitInfo` with its two nested structs, packages/phoenix/src/utils.rs:57-85. -/
structure Info where
  admin : Addr
  swapFeeBps : Int
  feeRecipient : Addr
  maxSlippageBps : Int
  defaultSlippageBps : Int
  maxSpreadBps : Int
  maxReferralBps : Int
  tokenA : Addr
  tokenB : Addr
  minBond : Int
  minReward : Int
  manager : Addr
  maxComplexity : Nat

/-- `PoolType`, packages/phoenix/src/utils.rs:90-93. -/
inductive Kind where
  | xyk | stable
deriving DecidableEq

/-- `env.deployer().with_current_contract(salt).deploy_v2(..)`: the host refuses an address
in use. -/
def deploy (w : World) (a : Addr) (k : Code) : Res World := do
  req (w.code a = .none) .panic
  .ok { w with code := upd w.code a k }

/-- A call to an address traps unless the expected contract is there (the host). -/
def expect (w : World) (a : Addr) (k : Code) : Res Unit := req (w.code a = k) .panic

/-- `initialize` of an XYK pool at `P`, contracts/pool/src/contract.rs:151-265: the pool's own
part, the deployment of its share token and the deployment and initialisation of its stake
contract. -/
def initXyk (h : Host) (w : World) (P : Addr) (i : Info) (owner : Addr) (decimals : Nat) (slippage maxFee : Int) :
    Res World := do
  let share := h.shareAddr P i.tokenA i.tokenB
  let stk := h.stakeAddr P
  let (p, L) ← Pool.init P (w.xyk P) w.led
    { admin := i.admin, swapFeeBps := i.swapFeeBps, feeRecipient := i.feeRecipient,
      maxSlippageBps := i.maxSlippageBps, maxSpreadBps := i.maxSpreadBps, maxReferralBps := i.maxReferralBps,
      tokenA := i.tokenA, tokenB := i.tokenB, minBond := i.minBond, minReward := i.minReward,
      maxComplexity := i.maxComplexity, shareDecimals := decimals, defaultSlippageBps := slippage,
      maxAllowedFeeBps := maxFee, shareToken := share, stakeContract := stk }
  let w1 ← deploy w share .token
  let w2 ← deploy w1 stk .stake
  let st ← Stake.init (w2.stake stk) i.admin share i.minBond i.minReward i.manager owner i.maxComplexity
  .ok { w2 with led := L, xyk := upd w2.xyk P (some p), stake := upd w2.stake stk st }

/-- `initialize` of a stable pool at `P`, contracts/pool_stable/src/contract.rs:146-273.  It
asks both tokens for their decimals (contracts/pool_stable/src/storage.rs, via
`save_greatest_precision`), which traps where there is no token. -/
def initStable (h : Host) (w : World) (c : Ctx) (P : Addr) (i : Info) (owner : Addr) (amp : Nat) (maxFee : Int) :
    Res World := do
  let share := h.shareAddr P i.tokenA i.tokenB
  let stk := h.stakeAddr P
  expect w i.tokenA .token
  expect w i.tokenB .token
  let (p, L) ← Stable.init P c (w.stable P) w.led
    { admin := i.admin, swapFeeBps := i.swapFeeBps, feeRecipient := i.feeRecipient,
      maxSlippageBps := i.maxSlippageBps, defaultSlippageBps := i.defaultSlippageBps,
      maxSpreadBps := i.maxSpreadBps,
      tokenA := i.tokenA, tokenB := i.tokenB, minBond := i.minBond, minReward := i.minReward,
      maxComplexity := i.maxComplexity, amp := amp, maxAllowedFeeBps := maxFee,
      shareToken := share, stakeContract := stk }
  let w1 ← deploy w share .token
  let w2 ← deploy w1 stk .stake
  let st ← Stake.init (w2.stake stk) i.admin share i.minBond i.minReward i.manager owner i.maxComplexity
  .ok { w2 with led := L, stable := upd w2.stable P (some p), stake := upd w2.stake stk st }

/-! ### Factory -/

/-- `initialize` of the factory at `F`, contracts/factory/src/contract.rs:91-138, with
`deploy_and_initialize_multihop_contract`, contracts/factory/src/utils.rs:19-38.  No
authorisation is asked for. -/
def facInit (h : Host) (w : World) (F admin : Addr) (lp stb stk tok : Nat) (wl : List Addr) (dec : Nat) :
    Res World := do
  req ((w.fac F).isNone = true) (.code 1)
  req (¬ wl = []) (.code 2)
  let H := h.hopAddr F admin
  let w1 ← deploy w H .multihop
  let m ← Multihop.init (w1.hop H) admin F
  .ok { w1 with
    hop := upd w1.hop H (some m)
    fac := upd w1.fac F (some
      { admin := admin, multihop := H, lpHash := lp, stableHash := stb, stakeHash := stk, tokenHash := tok,
        whitelist := wl, lpDecimals := dec, pools := [], pair := fun _ _ => none }) }

/-- `validate_pool_info`, contracts/factory/src/contract.rs:536-544. -/
def validatePoolInfo (k : Kind) (amp : Option Nat) : Res Unit :=
  req (k = .stable → amp.isSome = true) .panic

/-- `validate_token_info`, contracts/factory/src/contract.rs:506-534. -/
def validateTokenInfo (i : Info) : Res Unit := do
  req (i.tokenA < i.tokenB) (.code 5)
  req (0 < i.minBond) (.code 6)
  req (0 < i.minReward) (.code 7)

/-- Deployment code and `initialize` call by kind of pool, contracts/factory/src/contract.rs:176-220. -/
def initPool (h : Host) (w : World) (c : Ctx) (F P : Addr) (i : Info) (dec : Nat) (slippage maxFee : Int)
    (amp : Option Nat) : Kind → Res World
  | .xyk => initXyk h w P i F dec slippage maxFee
  | .stable => initStable h w (c.as F) P i F (amp.getD 0) maxFee

/-- The code deployed for a kind of pool, contracts/factory/src/contract.rs:176-179. -/
def Kind.code : Kind → Code
  | .xyk => .xyk
  | .stable => .stable

/-- `create_liquidity_pool`, contracts/factory/src/contract.rs:141-235; returns the address of
the new pool. -/
def create (h : Host) (w : World) (c : Ctx) (F sender : Addr) (i : Info) (k : Kind) (amp : Option Nat)
    (slippage maxFee : Int) : Res (World × Addr) := do
  requireAuth c sender
  validatePoolInfo k amp
  let f ← Factory.loaded (w.fac F)
  req (sender ∈ f.whitelist) (.code 3)
  validateTokenInfo i
  let P := h.poolAddr F i.tokenA i.tokenB
  let w1 ← deploy w P k.code
  validateBps i.swapFeeBps
  validateBps i.maxSlippageBps
  validateBps i.maxSpreadBps
  validateBps i.maxReferralBps
  validateBps slippage
  validateBps maxFee
  let w2 ← initPool h w1 c F P i f.lpDecimals slippage maxFee amp k
  .ok ({ w2 with fac := upd w2.fac F (some
          { f with pools := f.pools ++ [P],
                   pair := upd f.pair i.tokenA (upd (f.pair i.tokenA) i.tokenB (some P)) }) }, P)

/-- `query_pools`, contracts/factory/src/contract.rs:305-310. -/
def queryPools (w : World) (F : Addr) : Res (List Addr) := do
  expect w F .factory
  let f ← Factory.loaded (w.fac F)
  .ok f.pools

/-! ### Calls of a pool by another contract

The XYK pool and the stable pool export `swap`, `simulate_swap` and `simulate_reverse_swap`
with the same argument and result types (contracts/pool/src/contract.rs:400-420, 668-712,
contracts/pool_stable/src/contract.rs:400-425, 687-742), so a caller that holds the client of
one kind also works with a pool of the other kind: what runs is decided by the code at the
address.  Therefore the `pool_type` argument of the router has no effect and is left out. -/

/-- `swap` of whichever pool is at `P`; returns the amount paid out. contracts/multihop/src/contract.rs:113-143, contracts/trader/src/contract.rs. -/
def poolSwap (w : World) (c : Ctx) (P sender offer : Addr) (amount : Int) (min spread : Option Int)
    (deadline : Option Nat) (maxFee : Option Int) : Res (World × Int) :=
  match w.code P with
  | .xyk => do
    let p ← Pool.loaded (w.xyk P)
    let (p', L, r) ← Pool.swap P c p w.led sender offer amount min spread deadline maxFee
    .ok ({ w with xyk := upd w.xyk P (some p'), led := L }, r)
  | .stable => do
    let p ← Stable.loaded (w.stable P)
    let (p', L, r) ← Stable.swap P c p w.led sender offer amount min spread deadline maxFee
    .ok ({ w with stable := upd w.stable P (some p'), led := L }, r)
  | _ => .error .panic

/-- `simulate_swap` of whichever pool is at `P`: (ask amount, commission, spread). contracts/multihop/src/contract.rs:176-211. -/
def poolSimulate (w : World) (now : Nat) (P offer : Addr) (amount : Int) : Res (Int × Int × Int) :=
  match w.code P with
  | .xyk => do
    let p ← Pool.loaded (w.xyk P)
    let (a, com, spread, _) ← Pool.simulateSwap p offer amount
    .ok (a, com, spread)
  | .stable => do
    let p ← Stable.loaded (w.stable P)
    let (a, spread, com, _) ← Stable.simulateSwap now p offer amount
    .ok (a, com, spread)
  | _ => .error .panic

/-- `simulate_reverse_swap(asset, amount)` of whichever pool is at `P`: (offer amount,
commission, spread).  The XYK pool takes `asset` as the asked asset, the stable pool as the
offered one. contracts/multihop/src/contract.rs:248-283. -/
def poolSimulateReverse (w : World) (now : Nat) (P asset : Addr) (amount : Int) : Res (Int × Int × Int) :=
  match w.code P with
  | .xyk => do
    let p ← Pool.loaded (w.xyk P)
    let (a, spread, com) ← Pool.simulateReverseSwap p asset amount
    .ok (a, com, spread)
  | .stable => do
    let p ← Stable.loaded (w.stable P)
    let (a, spread, com) ← Stable.simulateReverseSwap now p asset amount
    .ok (a, com, spread)
  | _ => .error .panic

/-! ### Multihop -/

/-- `factory_client.query_for_pool_by_token_pair(offer, ask)`. contracts/multihop/src/contract.rs:111-112. -/
def findPool (w : World) (F a b : Addr) : Res Addr := do
  expect w F .factory
  let f ← Factory.loaded (w.fac F)
  Factory.lookup f a b

/-- The loop over the operations, contracts/multihop/src/contract.rs:106-142.  The last amount
paid out is returned here for the statements; the contract itself returns nothing. -/
def hopLoop (w : World) (c : Ctx) (F recipient : Addr) (spread : Option Int) (deadline : Option Nat)
    (maxFee : Option Int) : List Multihop.Op → Int → Res (World × Int)
  | [], x => .ok (w, x)
  | op :: ops, x => do
    let P ← findPool w F op.offer op.ask
    let (w', r) ← poolSwap w c P recipient op.offer x op.min spread deadline maxFee
    hopLoop w' c F recipient spread deadline maxFee ops r

/-- `swap` of the router at `H`, contracts/multihop/src/contract.rs:81-143. -/
def hopSwap (w : World) (c : Ctx) (H recipient : Addr) (ops : List Multihop.Op) (spread : Option Int) (amount : Int)
    (deadline : Option Nat) (maxFee : Option Int) : Res (World × Int) := do
  req (¬ ops = []) (.code 2)
  Multihop.verifySwap ops
  requireAuth c recipient
  let m ← Multihop.loaded (w.hop H)
  hopLoop w (c.as H) m.factory recipient spread deadline maxFee ops amount

/-- The answer to a quote: amount, commissions and spreads of the hops,
contracts/multihop/src/storage.rs:41-55. -/
structure Quote where
  amount : Int
  commissions : List Int
  spreads : List Int
deriving DecidableEq

/-- The loop of `simulate_swap`, contracts/multihop/src/contract.rs:161-214. -/
def simLoop (w : World) (now : Nat) (F : Addr) : List Multihop.Op → Int → Quote → Res Quote
  | [], _, q => .ok q
  | op :: ops, x, q => do
    let P ← findPool w F op.offer op.ask
    let (a, com, spread) ← poolSimulate w now P op.offer x
    simLoop w now F ops a ⟨a, q.commissions ++ [com], q.spreads ++ [spread]⟩

/-- `simulate_swap` of the router at `H`, contracts/multihop/src/contract.rs:145-215. -/
def hopSimulate (w : World) (now : Nat) (H : Addr) (ops : List Multihop.Op) (amount : Int) : Res Quote := do
  req (¬ ops = []) (.code 2)
  Multihop.verifySwap ops
  let m ← Multihop.loaded (w.hop H)
  simLoop w now m.factory ops amount ⟨0, [], []⟩

/-- The loop of `simulate_reverse_swap`, contracts/multihop/src/contract.rs:233-286. -/
def revLoop (w : World) (now : Nat) (F : Addr) : List Multihop.Op → Int → Quote → Res Quote
  | [], _, q => .ok q
  | op :: ops, x, q => do
    let P ← findPool w F op.offer op.ask
    let (a, com, spread) ← poolSimulateReverse w now P op.ask x
    revLoop w now F ops a ⟨a, q.commissions ++ [com], q.spreads ++ [spread]⟩

/-- `simulate_reverse_swap` of the router at `H`, contracts/multihop/src/contract.rs:217-287. -/
def hopSimulateReverse (w : World) (now : Nat) (H : Addr) (ops : List Multihop.Op) (amount : Int) : Res Quote := do
  req (¬ ops = []) (.code 2)
  Multihop.verifyReverseSwap ops
  let m ← Multihop.loaded (w.hop H)
  revLoop w now m.factory ops amount ⟨0, [], []⟩

/-! ### Trader -/

/-- `trade_token` of the trader at `T`, contracts/trader/src/contract.rs:103-171. -/
def trade (w : World) (c : Ctx) (T sender token pool : Addr) (amount : Option Nat) (spread : Option Int)
    (deadline : Option Nat) (min maxFee : Option Int) : Res (World × Int) := do
  requireAuth c sender
  let t ← Trader.loaded (w.trd T)
  req (sender = t.admin) (.code 6)
  Trader.checkSpread spread
  req (¬ (token ≠ t.tokenA ∧ token ≠ t.tokenB)) (.code 7)
  poolSwap w (c.as T) pool T token (Trader.amountOf w.led sender token amount) min spread deadline maxFee

/-! ### Portfolio query of the factory -/

/-- `LiquidityPoolInfo`, contracts/factory/src/storage.rs:97-117 and
contracts/pool/src/storage.rs:144-163 (the same fields in contracts/pool_stable/src/storage.rs:190-196):
the pool, its two assets and its shares with their amounts, its stake contract and its fee. -/
structure PoolInfo where
  pool : Addr
  assetA : Addr × Int
  assetB : Addr × Int
  share : Addr × Int
  stake : Addr
  feeBps : Int
deriving DecidableEq

/-- `query_pool_info_for_factory` of whichever pool is at `P`, contracts/pool/src/contract.rs:639-666,
contracts/pool_stable/src/contract.rs:658-685. -/
def poolInfo (w : World) (P : Addr) : Res PoolInfo :=
  match w.code P with
  | .xyk => do
    let p ← Pool.loaded (w.xyk P)
    .ok ⟨P, (p.cfg.tokenA, p.resA), (p.cfg.tokenB, p.resB), (p.cfg.shareToken, p.total), p.cfg.stakeContract, p.cfg.totalFeeBps⟩
  | .stable => do
    let p ← Stable.loaded (w.stable P)
    .ok ⟨P, (p.cfg.tokenA, p.resA), (p.cfg.tokenB, p.resB), (p.cfg.shareToken, p.total), p.cfg.stakeContract, p.cfg.totalFeeBps⟩
  | _ => .error .panic

/-- `query_pool_details` of a factory, contracts/factory/src/contract.rs:312-322: whatever the
contract at the given address answers, whether or not the factory created it. -/
def poolDetails (w : World) (P : Addr) : Res PoolInfo := poolInfo w P

/-- The loop of `query_all_pools_details`, contracts/factory/src/contract.rs:330-338. -/
def detailsLoop (w : World) : List Addr → List PoolInfo → Res (List PoolInfo)
  | [], acc => .ok acc
  | P :: l, acc => do
    let i ← poolInfo w P
    detailsLoop w l (acc ++ [i])

/-- `query_all_pools_details`, contracts/factory/src/contract.rs:324-341. -/
def allPoolsDetails (w : World) (F : Addr) : Res (List PoolInfo) := do
  let f ← Factory.loaded (w.fac F)
  detailsLoop w f.pools []

/-- The two addresses in `query_pool_info_for_factory` that the wiring of a pool is about:
(share token, stake contract). contracts/pool/src/contract.rs:639-666, contracts/pool_stable/src/contract.rs:658-686. -/
def poolRefs (w : World) (P : Addr) : Res (Addr × Addr) := do
  let i ← poolInfo w P
  .ok (i.share.1, i.stake)

/-- `query_share` of whichever pool is at `P`, contracts/pool/src/contract.rs:741-767,
contracts/pool_stable/src/contract.rs:785-812: two assets with their amounts. -/
def poolShare (w : World) (P : Addr) (amount : Int) : Res ((Addr × Int) × (Addr × Int)) :=
  match w.code P with
  | .xyk => do
    let p ← Pool.loaded (w.xyk P)
    let (a, b) ← Pool.queryShare p amount
    .ok ((p.cfg.tokenA, a), (p.cfg.tokenB, b))
  | .stable => do
    let p ← Stable.loaded (w.stable P)
    let (a, b) ← Stable.queryShare p amount
    .ok ((p.cfg.tokenA, a), (p.cfg.tokenB, b))
  | _ => .error .panic

/-- The checked sum of the stakes, contracts/factory/src/contract.rs:449-450. -/
def sumStakes : List Stake.Entry → Int → Res Int
  | [], acc => .ok acc
  | e :: l, acc => do
    let acc' ← addI acc e.amount
    sumStakes l acc'

/-- `UserPortfolio`, contracts/factory/src/storage.rs:68-86: what the pools would pay out, and
the stakes per stake contract. -/
structure Portfolio where
  lp : List ((Addr × Int) × (Addr × Int))
  stakes : List (Addr × List Stake.Entry)

/-- One pool's contribution, contracts/factory/src/contract.rs:462-484. -/
def Portfolio.add (q : Portfolio) (staking : Bool) (total : Int) (assets : (Addr × Int) × (Addr × Int)) (stk : Addr)
    (entries : List Stake.Entry) : Portfolio :=
  { lp := if 0 < total then q.lp ++ [assets] else q.lp
    stakes := if staking = true ∧ entries ≠ [] then q.stakes ++ [(stk, entries)] else q.stakes }

/-- The loop over the pools, contracts/factory/src/contract.rs:428-485. -/
def portfolioLoop (w : World) (user : Addr) (staking : Bool) : List Addr → Portfolio → Res Portfolio
  | [], q => .ok q
  | P :: l, q => do
    let i ← poolInfo w P
    expect w i.share.1 .token
    expect w i.stake .stake
    let entries := (Stake.queryStaked (w.stake i.stake) user).stakes
    let staked ← sumStakes entries 0
    let total ← addI (w.led.bal i.share.1 user) staked
    let assets ← poolShare w P total
    portfolioLoop w user staking l (q.add staking total assets i.stake entries)

/-- `query_user_portfolio` of the factory at `F`, contracts/factory/src/contract.rs:420-491. -/
def portfolio (w : World) (F user : Addr) (staking : Bool) : Res Portfolio := do
  let f ← Factory.loaded (w.fac F)
  portfolioLoop w user staking f.pools ⟨[], []⟩

/-! ### Transactions -/

/-- The calls an account can make. The entry points of all contracts, cited at their definitions. -/
inductive Call where
  | token (tok : Addr) (op : TokenOp)
  | xykInit (P : Addr) (i : Info) (owner : Addr) (decimals : Nat) (slippage maxFee : Int)
  | xyk (P : Addr) (k : Pool.Call)
  | stableInit (P : Addr) (i : Info) (owner : Addr) (amp : Nat) (maxFee : Int)
  | stable (P : Addr) (k : Stable.Call)
  | stake (K : Addr) (k : Stake.Call)
  | vest (V : Addr) (k : Vesting.Call)
  | facInit (F admin : Addr) (lp stb stk tok : Nat) (wl : List Addr) (dec : Nat)
  | create (F sender : Addr) (i : Info) (k : Kind) (amp : Option Nat) (slippage maxFee : Int)
  | whitelist (F sender : Addr) (add remove : List Addr)
  | hashes (F : Addr) (lp stake token : Option Nat)
  | facUpdate (F : Addr) (stable : Nat)
  | hopInit (H admin factory : Addr)
  | hopSwap (H recipient : Addr) (ops : List Multihop.Op) (spread : Option Int) (amount : Int)
      (deadline : Option Nat) (maxFee : Option Int)
  | trdInit (T admin tokenA tokenB output : Addr)
  | trade (T sender token pool : Addr) (amount : Option Nat) (spread : Option Int) (deadline : Option Nat)
      (min maxFee : Option Int)
  | trdTransfer (T sender recipient : Addr) (amount : Int) (token : Option Addr)
  | rewards (R : Addr) (k : Rewards.Call)

/-- A transaction: one call with its signers and clock (modelling device, nothing of /repo). -/
structure Tx where
  ctx : Ctx
  call : Call

/-- Effect of one successful call.  `initialize` of a pool appears as a call of its own because
it deploys further contracts, so the single-pool `init` is refused in `xyk` and `stable`.
Only where it matters for the statements (minting, decimals) is a call to an address without a
token made to trap; such an address has no balances, so nothing else can be moved there. It dispatches to the entry points of all contracts, cited at their definitions. -/
def step (h : Host) (w : World) (c : Ctx) : Call → Res World
  | .token tok op => do
    expect w tok .token
    let L ← w.led.call c tok op
    .ok { w with led := L }
  | .xykInit P i owner dec sl mf => do
    expect w P .xyk
    initXyk h w P i owner dec sl mf
  | .xyk _ (.init _) => .error .panic
  | .xyk P k => do
    expect w P .xyk
    let s ← Pool.step P ⟨w.xyk P, w.led⟩ (.pool c k)
    .ok { w with xyk := upd w.xyk P s.pool, led := s.led }
  | .stableInit P i owner amp mf => do
    expect w P .stable
    initStable h w c P i owner amp mf
  | .stable _ (.init _) => .error .panic
  | .stable P k => do
    expect w P .stable
    let s ← Stable.step P ⟨w.stable P, w.led⟩ (.pool c k)
    .ok { w with stable := upd w.stable P s.pool, led := s.led }
  | .stake K k => do
    expect w K .stake
    let s ← Stake.step K ⟨w.stake K, w.led⟩ (.stake c k)
    .ok { w with stake := upd w.stake K s.st, led := s.led }
  | .vest V (.mint sender amount) => do
    expect w V .vesting
    let v ← Vesting.loaded (w.vest V)
    expect w v.token .token
    let s ← Vesting.step V ⟨w.vest V, w.led⟩ (.vest c (.mint sender amount))
    .ok { w with vest := upd w.vest V s.vest, led := s.led }
  | .vest V k => do
    expect w V .vesting
    let s ← Vesting.step V ⟨w.vest V, w.led⟩ (.vest c k)
    .ok { w with vest := upd w.vest V s.vest, led := s.led }
  | .facInit F admin lp stb stk tok wl dec => do
    expect w F .factory
    facInit h w F admin lp stb stk tok wl dec
  | .create F sender i k amp sl mf => do
    expect w F .factory
    let (w', _) ← create h w c F sender i k amp sl mf
    .ok w'
  | .whitelist F sender add rem => do
    expect w F .factory
    let f ← Factory.loaded (w.fac F)
    let f' ← Factory.updateWhitelist c f sender add rem
    .ok { w with fac := upd w.fac F (some f') }
  | .hashes F lp stk tok => do
    expect w F .factory
    let f ← Factory.loaded (w.fac F)
    let f' ← Factory.updateHashes c f lp stk tok
    .ok { w with fac := upd w.fac F (some f') }
  | .facUpdate F stb => do
    expect w F .factory
    let f ← Factory.loaded (w.fac F)
    let f' ← Factory.update c f stb
    .ok { w with fac := upd w.fac F (some f') }
  | .hopInit H admin F => do
    expect w H .multihop
    let m ← Multihop.init (w.hop H) admin F
    .ok { w with hop := upd w.hop H (some m) }
  | .hopSwap H recipient ops spread amount dl mf => do
    expect w H .multihop
    let (w', _) ← hopSwap w c H recipient ops spread amount dl mf
    .ok w'
  | .trdInit T admin a b o => do
    expect w T .trader
    let t ← Trader.init c (w.trd T) admin a b o
    .ok { w with trd := upd w.trd T (some t) }
  | .trade T sender token pool amount spread dl min mf => do
    expect w T .trader
    let (w', _) ← trade w c T sender token pool amount spread dl min mf
    .ok w'
  | .trdTransfer T sender recipient amount token => do
    expect w T .trader
    let t ← Trader.loaded (w.trd T)
    let L ← Trader.transfer T c t w.led sender recipient amount token
    .ok { w with led := L }
  | .rewards R k => do
    expect w R .rewards
    let s ← Rewards.step R ⟨w.rew R, w.led⟩ (.rewards c k)
    .ok { w with rew := upd w.rew R s.st, led := s.led }

/-- A failed transaction is rolled back by the host and leaves the state unchanged. -/
def exec (h : Host) (w : World) (t : Tx) : World :=
  match step h w t.ctx t.call with
  | .ok w' => w'
  | .error _ => w

/-- State after a whole history of transactions (modelling device, nothing of /repo). -/
def run (h : Host) (w : World) (ts : List Tx) : World := ts.foldl (exec h) w

end Phoenix.World
