import Verif.Model.Token
import Verif.Model.Decimal
import Mathlib.Data.Nat.Sqrt
/-
Model of contracts/pool (constant product pool).
Not modelled: events, TTL, the share token's name and symbol, the wasm replaced by
`upgrade`/`update`, and the dead functions `split_deposit_based_on_pool_ratio` and
`assert_slippage_tolerance` (contracts/pool/src/contract.rs:976-1107), which no
entry point calls; they are in Verif.Model.PoolDead.
-/
namespace Phoenix.Pool
open Phoenix

/-- `MINIMUM_LIQUIDITY_AMOUNT`, contracts/pool/src/contract.rs (const, 1000). -/
def MINIMUM_LIQUIDITY : Int := 1000

/-- `Config`, contracts/pool/src/storage.rs:35-53 (`pool_type` is constant, omitted). -/
structure Config where
  tokenA : Addr
  tokenB : Addr
  shareToken : Addr
  stakeContract : Addr
  totalFeeBps : Int
  feeRecipient : Addr
  maxSlippageBps : Int
  maxSpreadBps : Int
  maxReferralBps : Int
  deriving DecidableEq, Repr

/-- Persistent storage of an initialized pool: `Config`, `DataKey::Admin`,
`TotalShares`, `ReserveA`, `ReserveB` and the default slippage
(contracts/pool/src/storage.rs:12-18, 56-79). -/
structure State where
  cfg : Config
  admin : Addr
  total : Int
  resA : Int
  resB : Int
  defaultSlippageBps : Int
  deriving DecidableEq, Repr

/-- `ComputeSwap`, contracts/pool/src/storage.rs:119-132. -/
structure ComputeSwap where
  ret : Int
  spread : Int
  commission : Int
  referral : Int
  deriving DecidableEq, Repr

/-- `u256_to_i128`, contracts/pool/src/contract.rs:1228-1236. -/
def u256ToI128 (x : Nat) : Res Int :=
  if (x : Int) ≤ I128_MAX then .ok x else .error (.code 23)

/-- `compute_swap`, contracts/pool/src/contract.rs:1139-1191. -/
def computeSwap (offerPool askPool offerAmount rate referralBps : Int) : Res ComputeSwap := do
  let op ← toU128 offerPool
  let ap ← toU128 askPool
  let oa ← toU128 offerAmount
  let cr ← toU128 rate
  let cp ← mul256 op ap
  let den ← add256 op oa
  let q ← divU cp den
  let gross ← subU ap q
  let m ← mul256 oa ap
  let ideal ← divU m op
  let spread ← subU ideal gross
  let cm ← mul256 gross cr
  let com ← divU cm 1000000000000000000
  let net ← subU gross com
  let rb ← Dec.bps referralBps
  let rf ← toU128 rb
  let rm ← mul256 net rf
  let ref ← divU rm 1000000000000000000
  let net' ← subU net ref
  let ret ← u256ToI128 net'
  let spreadI ← u256ToI128 spread
  let comI ← u256ToI128 com
  let refI ← u256ToI128 ref
  .ok { ret := ret, spread := spreadI, commission := comI, referral := refI }

/-- `compute_offer_amount`, contracts/pool/src/contract.rs:1199-1226; returns
(offer amount, spread, commission). -/
def computeOfferAmount (offerPool askPool askAmount rate : Int) : Res (Int × Int × Int) := do
  let cp ← mulI offerPool askPool
  let omc ← Dec.sub Dec.ONE rate
  let inv ← Dec.div Dec.ONE omc
  let x ← Dec.mulInt askAmount inv
  let den ← subI askPool x
  let q ← divI cp den
  let offer ← subI q offerPool
  let before ← Dec.mulInt askAmount inv
  let m ← mulI offer askPool
  let d ← divI m offerPool
  let spread ← subI d before
  let com ← Dec.mulInt before rate
  .ok (offer, spread, com)

/-- `assert_max_spread`, contracts/pool/src/contract.rs:1115-1123. -/
def assertMaxSpread (maxSpread returnAmount spread : Int) : Res Unit := do
  let r ← Dec.fromRatio spread returnAmount
  req (r ≤ maxSpread) (.code 1)

/-- The guard `if let Some(deadline) = deadline { if now > deadline { panic } }`,
contracts/pool/src/contract.rs:278-286, 423-428, 458-466. -/
def checkDeadline (c : Ctx) (deadline : Option Nat) : Res Unit :=
  whenSome deadline (fun d => req (c.now ≤ d) (.code 22))

/-- Reserves ordered as (offered, asked), contracts/pool/src/contract.rs:828-835
and 676-683. -/
def sides (p : State) (offer : Addr) : Res (Int × Int) :=
  if offer = p.cfg.tokenA then .ok (p.resA, p.resB)
  else if offer = p.cfg.tokenB then .ok (p.resB, p.resA)
  else .error (.code 16)

/-- `(sell_token, buy_token)`, contracts/pool/src/contract.rs:876-880. -/
def tokensOf (p : State) (offer : Addr) : Addr × Addr :=
  if offer = p.cfg.tokenA then (p.cfg.tokenA, p.cfg.tokenB) else (p.cfg.tokenB, p.cfg.tokenA)

/-- The pre-trade checks of `do_swap` on the trader's fee cap and spread,
contracts/pool/src/contract.rs:806-823; returns the effective `max_spread`. -/
def swapLimits (p : State) (maxSpread maxFee : Option Int) : Res Int := do
  whenSome maxFee (fun f => req (p.cfg.totalFeeBps ≤ f) (.code 24))
  whenSome maxSpread (fun s => req (0 ≤ s ∧ s ≤ p.cfg.maxSpreadBps) (.code 19))
  Dec.bps (maxSpread.getD p.cfg.maxSpreadBps)

/-- The new stored reserves, contracts/pool/src/contract.rs:927-945. -/
def swapReserves (p : State) (offer : Addr) (received : Int) (r : ComputeSwap) : Res State :=
  if offer = p.cfg.tokenA then do
    let a ← addI p.resA received
    let b1 ← subI p.resB r.commission
    let b2 ← subI b1 r.referral
    let b ← subI b2 r.ret
    .ok { p with resA := a, resB := b }
  else do
    let a1 ← subI p.resA r.commission
    let a2 ← subI a1 r.referral
    let a ← subI a2 r.ret
    let b ← addI p.resB received
    .ok { p with resA := a, resB := b }

/-- `do_swap`, contracts/pool/src/contract.rs:788-962. -/
def doSwap (self : Addr) (c : Ctx) (p : State) (L : Ledger) (sender offer : Addr) (amount : Int)
    (minOut maxSpread maxFee : Option Int) : Res (State × Ledger × Int) := do
  let ms ← swapLimits p maxSpread maxFee
  let (sell, buy) ← sides p offer
  let fee ← Dec.bps p.cfg.totalFeeBps
  let r ← computeSwap sell buy amount fee 0
  whenSome minOut (fun m => req (m ≤ r.ret) (.code 21))
  let g1 ← addI r.ret r.commission
  let gross ← addI g1 r.referral
  assertMaxSpread ms gross r.spread
  let toks := tokensOf p offer
  let before := L.bal toks.1 self
  let L1 ← L.transfer (c.as self) toks.1 sender self amount
  let received ← subI (L1.bal toks.1 self) before
  let L2 ← L1.transfer (c.as self) toks.2 self sender r.ret
  let L3 ← L2.transfer (c.as self) toks.2 self p.cfg.feeRecipient r.commission
  let p' ← swapReserves p offer received r
  .ok (p', L3, r.ret)

/-- `swap`, contracts/pool/src/contract.rs:411-448. -/
def swap (self : Addr) (c : Ctx) (p : State) (L : Ledger) (sender offer : Addr) (amount : Int)
    (minOut maxSpread : Option Int) (deadline : Option Nat) (maxFee : Option Int) :
    Res (State × Ledger × Int) := do
  checkDeadline c deadline
  validatePos (some amount)
  requireAuth c sender
  doSwap self c p L sender offer amount minOut maxSpread maxFee

/-- `if amount > desired { accept desired within the slippage, else panic }`,
contracts/pool/src/storage.rs:372-388 (A) and 405-421 (B). -/
def capAmount (desired raw slip : Int) (eBig : Nat) : Res Int :=
  if desired < raw then do
    let r ← Dec.fromRatio raw desired
    let d ← Dec.sub r Dec.ONE
    req (d ≤ slip) (.code eBig)
    .ok desired
  else .ok raw

/-- One of the two symmetric halves of `get_deposit_amounts`,
contracts/pool/src/storage.rs:370-401 (A) and 403-434 (B). -/
def depositSide (desired other pool otherPool : Int) (min : Option Int) (slip : Int)
    (eBig eSmall : Nat) : Res Int := do
  let m ← mulI other pool
  let raw ← divI m otherPool
  let amt ← capAmount desired raw slip eBig
  whenSome min (fun m => req (m ≤ amt) (.code eSmall))
  .ok amt

/-- `if let Some(min) = min { if min > desired { panic } }`,
contracts/pool/src/storage.rs:351-368. -/
def minLeDesired (min : Option Int) (desired : Int) (e : Nat) : Res Unit :=
  whenSome min (fun m => req (m ≤ desired) (.code e))

/-- `get_deposit_amounts`, contracts/pool/src/storage.rs:317-437. -/
def depositAmounts (desiredA : Int) (minA : Option Int) (desiredB : Int) (minB : Option Int)
    (poolA poolB slip : Int) : Res (Int × Int) := do
  req (¬ (desiredA ≤ 0 ∨ desiredB ≤ 0)) (.code 14)
  whenSome minA (fun a => whenSome minB (fun b => req (¬ (a < 0 ∨ b < 0)) (.code 15)))
  if poolA = 0 ∧ poolB = 0 then .ok (desiredA, desiredB)
  else do
    minLeDesired minA desiredA 7
    minLeDesired minB desiredB 8
    let a ← depositSide desiredA desiredB poolA poolB minA slip 9 10
    let b ← depositSide desiredB desiredA poolB poolA minB slip 11 12
    .ok (a, b)

/-- `mint_shares`, contracts/pool/src/storage.rs:252-258. -/
def mintShares (self : Addr) (c : Ctx) (p : State) (L : Ledger) (to : Addr) (amount : Int) :
    Res (State × Ledger) := do
  let L' ← L.mint (c.as self) p.cfg.shareToken to amount
  let t ← addI p.total amount
  .ok ({ p with total := t }, L')

/-- `burn_shares`, contracts/pool/src/storage.rs:260-266. -/
def burnShares (self : Addr) (c : Ctx) (p : State) (L : Ledger) (amount : Int) :
    Res (State × Ledger) := do
  let L' ← L.burn (c.as self) p.cfg.shareToken self amount
  let t ← subI p.total amount
  .ok ({ p with total := t }, L')

/-- `num_integer::Roots::sqrt` on an i128 (contracts/pool/src/contract.rs:373):
floor of the square root, panics on a negative argument. -/
def isqrt (x : Int) : Res Int := if x < 0 then .error .panic else .ok (Nat.sqrt x.toNat)

/-- The share computation of `provide_liquidity`,
contracts/pool/src/contract.rs:361-386: returns the new total and the state after
the minimum-liquidity mint, if any. -/
def newShares (self : Addr) (c : Ctx) (p : State) (L : Ledger) (amtA amtB balA balB : Int) :
    Res (Int × State × Ledger) :=
  if 0 < p.resA ∧ 0 < p.resB then do
    let ma ← mulI balA p.total
    let sa ← divI ma p.resA
    let mb ← mulI balB p.total
    let sb ← divI mb p.resB
    .ok (min sa sb, p, L)
  else do
    let m ← mulI amtA amtB
    let s ← isqrt m
    req (¬ MINIMUM_LIQUIDITY ≥ s) (.code 13)
    let (p', L') ← mintShares self c p L self MINIMUM_LIQUIDITY
    let n ← subI s MINIMUM_LIQUIDITY
    .ok (n, p', L')

/-- `if let Some(custom) = custom_slippage_bps { if custom > max { panic } }`,
contracts/pool/src/contract.rs:302-310. -/
def checkSlippage (p : State) (custom : Option Int) : Res Unit :=
  whenSome custom (fun s => req (s ≤ p.cfg.maxSlippageBps) (.code 2))

/-- `match (desired_a, desired_b)`, contracts/pool/src/contract.rs:312-338. -/
def chooseAmounts (p : State) (desiredA minA desiredB minB custom : Option Int) :
    Res (Int × Int) :=
  match desiredA, desiredB with
  | some a, some b =>
    if 0 < a ∧ 0 < b then do
      let slip ← Dec.bps (custom.getD p.defaultSlippageBps)
      depositAmounts a minA b minB p.resA p.resB slip
    else .error (.code 3)
  | _, _ => .error (.code 3)

/-- `provide_liquidity`, contracts/pool/src/contract.rs:268-408. -/
def provide (self : Addr) (c : Ctx) (p : State) (L : Ledger) (sender : Addr)
    (desiredA minA desiredB minB custom : Option Int) (deadline : Option Nat) :
    Res (State × Ledger) := do
  checkDeadline c deadline
  validatePos desiredA
  validatePos minA
  validatePos desiredB
  validatePos minB
  requireAuth c sender
  checkSlippage p custom
  let (a, b) ← chooseAmounts p desiredA minA desiredB minB custom
  let iniA := L.bal p.cfg.tokenA self
  let iniB := L.bal p.cfg.tokenB self
  let L1 ← L.transfer (c.as self) p.cfg.tokenA sender self a
  let L2 ← L1.transfer (c.as self) p.cfg.tokenB sender self b
  let balA := L2.bal p.cfg.tokenA self
  let balB := L2.bal p.cfg.tokenB self
  let _ ← subI balA iniA
  let _ ← subI balB iniB
  let (n, p1, L3) ← newShares self c p L2 a b balA balB
  let m ← subI n p.total
  let (p2, L4) ← mintShares self c p1 L3 sender m
  .ok ({ p2 with resA := balA, resB := balB }, L4)

/-- `withdraw_liquidity`, contracts/pool/src/contract.rs:450-537. -/
def withdraw (self : Addr) (c : Ctx) (p : State) (L : Ledger) (sender : Addr)
    (shares minA minB : Int) (deadline : Option Nat) : Res (State × Ledger × Int × Int) := do
  checkDeadline c deadline
  validatePos (some shares)
  validatePos (some minA)
  validatePos (some minB)
  requireAuth c sender
  let L1 ← L.transfer (c.as self) p.cfg.shareToken sender self shares
  req (p.total ≠ 0) (.code 13)
  let ratio ← Dec.fromRatio shares p.total
  let ra ← Dec.mulInt p.resA ratio
  let rb ← Dec.mulInt p.resB ratio
  req (¬ (ra < minA ∨ rb < minB)) (.code 4)
  let (p1, L2) ← burnShares self c p L1 shares
  let L3 ← L2.transfer (c.as self) p.cfg.tokenA self sender ra
  let L4 ← L3.transfer (c.as self) p.cfg.tokenB self sender rb
  let a ← subI p.resA ra
  let b ← subI p.resB rb
  .ok ({ p1 with resA := a, resB := b }, L4, ra, rb)

/-- Arguments of `update_config`, contracts/pool/src/contract.rs:540-548. -/
structure ConfigUpdate where
  newAdmin : Option Addr := none
  totalFeeBps : Option Int := none
  feeRecipient : Option Addr := none
  maxSlippageBps : Option Int := none
  maxSpreadBps : Option Int := none
  maxReferralBps : Option Int := none

/-- `update_config`, contracts/pool/src/contract.rs:540-581. -/
def updateConfig (c : Ctx) (p : State) (u : ConfigUpdate) : Res State := do
  requireAuth c p.admin
  validateBpsOpt u.totalFeeBps
  validateBpsOpt u.maxSlippageBps
  validateBpsOpt u.maxSpreadBps
  validateBpsOpt u.maxReferralBps
  .ok { p with
    admin := u.newAdmin.getD p.admin
    cfg := { p.cfg with
      totalFeeBps := u.totalFeeBps.getD p.cfg.totalFeeBps
      feeRecipient := u.feeRecipient.getD p.cfg.feeRecipient
      maxSlippageBps := u.maxSlippageBps.getD p.cfg.maxSlippageBps
      maxSpreadBps := u.maxSpreadBps.getD p.cfg.maxSpreadBps
      maxReferralBps := u.maxReferralBps.getD p.cfg.maxReferralBps } }

/-- `upgrade`, contracts/pool/src/contract.rs:583-589 (the wasm is not modelled:
the code is assumed to stay the same). -/
def upgrade (c : Ctx) (p : State) (newDefaultSlippage : Int) : Res State := do
  requireAuth c p.admin
  .ok { p with defaultSlippageBps := newDefaultSlippage }

/-- `simulate_swap`, contracts/pool/src/contract.rs:668-704; returns
(ask amount, commission, spread, total return). -/
def simulateSwap (p : State) (offer : Addr) (amount : Int) : Res (Int × Int × Int × Int) := do
  let (o, a) ← sides p offer
  let fee ← Dec.bps p.cfg.totalFeeBps
  let r ← computeSwap o a amount fee 0
  let t1 ← addI r.ret r.commission
  let t ← addI t1 r.spread
  .ok (r.ret, r.commission, r.spread, t)

/-- Reserves ordered as (offered, asked) for a reverse quote,
contracts/pool/src/contract.rs:716-725.  Note the order of the two tests. -/
def reverseSides (p : State) (ask : Addr) : Res (Int × Int) :=
  if ask = p.cfg.tokenB then .ok (p.resA, p.resB)
  else if ask = p.cfg.tokenA then .ok (p.resB, p.resA)
  else .error (.code 16)

/-- `simulate_reverse_swap`, contracts/pool/src/contract.rs:706-739; returns
(offer amount, spread, commission). -/
def simulateReverseSwap (p : State) (ask : Addr) (amount : Int) : Res (Int × Int × Int) := do
  let (o, a) ← reverseSides p ask
  let fee ← Dec.bps p.cfg.totalFeeBps
  computeOfferAmount o a amount fee

/-- The share ratio of `query_share`, zero for an empty pool,
contracts/pool/src/contract.rs:750-753. -/
def shareRatio (p : State) (amount : Int) : Res Int :=
  if p.total ≠ 0 then Dec.fromRatio amount p.total else .ok 0

/-- `query_share`, contracts/pool/src/contract.rs:741-767. -/
def queryShare (p : State) (amount : Int) : Res (Int × Int) := do
  let ratio ← shareRatio p amount
  let a ← Dec.mulInt p.resA ratio
  let b ← Dec.mulInt p.resB ratio
  .ok (a, b)

/-- Arguments of `initialize` (contracts/pool/src/contract.rs:151-178 and
`LiquidityPoolInitInfo`, packages/phoenix/src/utils.rs:73-85).  `shareToken` and
`stakeContract` are the addresses the host assigns to the two contracts deployed
by `deploy_token_contract` and `deploy_stake_contract`. -/
structure InitArgs where
  admin : Addr
  swapFeeBps : Int
  feeRecipient : Addr
  maxSlippageBps : Int
  maxSpreadBps : Int
  maxReferralBps : Int
  tokenA : Addr
  tokenB : Addr
  minBond : Int
  minReward : Int
  maxComplexity : Nat
  shareDecimals : Nat
  defaultSlippageBps : Int
  maxAllowedFeeBps : Int
  shareToken : Addr
  stakeContract : Addr

/-- `initialize`, contracts/pool/src/contract.rs:151-265.  Of the deployed stake
contract only the checks of its `initialize` (contracts/stake/src/contract.rs:101-119)
are kept here; the contract itself is modelled in Verif.Model.Stake. -/
def init (self : Addr) (p : Option State) (L : Ledger) (i : InitArgs) :
    Res (State × Ledger) := do
  req (p.isNone = true) (.code 17)
  validateBps i.swapFeeBps
  validateBps i.maxSlippageBps
  validateBps i.maxSpreadBps
  validateBps i.maxReferralBps
  validateBps i.defaultSlippageBps
  validateBps i.maxAllowedFeeBps
  req (i.swapFeeBps ≤ i.maxAllowedFeeBps) (.code 25)
  req (i.tokenA < i.tokenB) (.code 18)
  let t ← Token.construct self i.shareDecimals
  req (0 < i.minBond) (.code 2)
  req (0 < i.minReward) (.code 3)
  req (i.maxComplexity ≠ 0) (.code 12)
  .ok ({ cfg :=
          { tokenA := i.tokenA, tokenB := i.tokenB, shareToken := i.shareToken,
            stakeContract := i.stakeContract, totalFeeBps := i.swapFeeBps,
            feeRecipient := i.feeRecipient, maxSlippageBps := i.maxSlippageBps,
            maxSpreadBps := i.maxSpreadBps, maxReferralBps := i.maxReferralBps },
         admin := i.admin, total := 0, resA := 0, resB := 0,
         defaultSlippageBps := i.defaultSlippageBps },
       upd L i.shareToken t)

/-- The state-changing entry points of the pool
(contracts/pool/src/contract.rs:151-589, 780-785). -/
inductive Call where
  | init (i : InitArgs)
  | provide (sender : Addr) (desiredA minA desiredB minB custom : Option Int)
      (deadline : Option Nat)
  | swap (sender offer : Addr) (amount : Int) (minOut maxSpread : Option Int)
      (deadline : Option Nat) (maxFee : Option Int)
  | withdraw (sender : Addr) (shares minA minB : Int) (deadline : Option Nat)
  | updateConfig (u : ConfigUpdate)
  | upgrade (newDefaultSlippage : Int)

/-- A pool contract (absent storage before `initialize`) together with every token (modelling device, nothing of /repo). -/
structure Sys where
  pool : Option State
  led : Ledger

/-- One transaction against the system: a call of the pool at address `self`, or a
call of any token contract (modelling device, nothing of /repo). -/
inductive Tx where
  | pool (c : Ctx) (k : Call)
  | token (c : Ctx) (tok : Addr) (op : TokenOp)

/-- Signers and clock of a transaction (modelling device, nothing of /repo). -/
def Tx.ctx : Tx → Ctx
  | .pool c _ => c
  | .token c _ _ => c

/-- Storage reads of an uninitialised pool `unwrap` a `None`
(contracts/pool/src/storage.rs:91-99). -/
def loaded (p : Option State) : Res State :=
  match p with
  | some p => .ok p
  | none => .error .panic

/-- Effect of one successful transaction (contracts/pool/src/contract.rs:151-589). -/
def step (self : Addr) (s : Sys) : Tx → Res Sys
  | .token c tok op => do
    let L ← s.led.call c tok op
    .ok { s with led := L }
  | .pool _ (.init i) => do
    let (p, L) ← init self s.pool s.led i
    .ok ⟨some p, L⟩
  | .pool c (.provide sender dA mA dB mB cu dl) => do
    let p ← loaded s.pool
    let (p', L) ← provide self c p s.led sender dA mA dB mB cu dl
    .ok ⟨some p', L⟩
  | .pool c (.swap sender offer amount mo ms dl mf) => do
    let p ← loaded s.pool
    let (p', L, _) ← swap self c p s.led sender offer amount mo ms dl mf
    .ok ⟨some p', L⟩
  | .pool c (.withdraw sender sh mA mB dl) => do
    let p ← loaded s.pool
    let (p', L, _, _) ← withdraw self c p s.led sender sh mA mB dl
    .ok ⟨some p', L⟩
  | .pool c (.updateConfig u) => do
    let p ← loaded s.pool
    let p' ← updateConfig c p u
    .ok { s with pool := some p' }
  | .pool c (.upgrade sl) => do
    let p ← loaded s.pool
    let p' ← upgrade c p sl
    .ok { s with pool := some p' }

/-- A failed transaction is rolled back by the host and leaves the state unchanged. -/
def exec (self : Addr) (s : Sys) (t : Tx) : Sys :=
  match step self s t with
  | .ok s' => s'
  | .error _ => s

/-- State after a whole history of transactions (modelling device, nothing of /repo). -/
def run (self : Addr) (s : Sys) (ts : List Tx) : Sys := ts.foldl (exec self) s

end Phoenix.Pool
