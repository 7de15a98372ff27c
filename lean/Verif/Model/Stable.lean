import Verif.Model.Token
import Verif.Model.Decimal
/-
Model of contracts/pool_stable (two-token StableSwap pool).
Not modelled: events, TTL, the share token's name and symbol, the wasm replaced by
`upgrade`/`update` (the code is assumed to stay the same).
-/
namespace Phoenix.Stable
open Phoenix

/-- `TOL`, contracts/pool_stable/src/math.rs:21. -/
def TOL : Nat := 1000000000000
/-- `ITERATIONS`, contracts/pool_stable/src/math.rs:13. -/
def ITERATIONS : Nat := 64
/-- `MINIMUM_LIQUIDITY_AMOUNT`, contracts/pool_stable/src/contract.rs:26. -/
def MINIMUM_LIQUIDITY : Nat := 1000

/-- `10u128.pow(n)`: panics when it leaves u128 (Rust built-in). -/
def pow10 (n : Nat) : Res Nat := u128 (10 ^ n)
/-- `U256::pow`: traps when it leaves 256 bits (soroban_sdk). -/
def pow256 (x n : Nat) : Res Nat := u256 (x ^ n)

/-- `scale_value`, contracts/pool_stable/src/math.rs:23-35. -/
def scaleValue (atomics places target : Nat) : Res Nat :=
  if places < target then do
    let f ← pow10 (target - places)
    mul128 atomics f
  else do
    let f ← pow10 (places - target)
    divU atomics f

/-- `abs_diff`, contracts/pool_stable/src/math.rs:37-43. -/
def absDiff (a b : Nat) : Nat := if a < b then b - a else a - b

/-- `AmplifierParameters`, contracts/pool_stable/src/storage.rs:142-149. -/
structure AmpParams where
  initAmp : Nat
  initTime : Nat
  nextAmp : Nat
  nextTime : Nat
  deriving DecidableEq, Repr

/-- `compute_current_amp`, contracts/pool_stable/src/math.rs:46-68 (`as u64` keeps the low
64 bits; `saturating_sub` is subtraction of naturals). -/
def currentAmp (now : Nat) (a : AmpParams) : Res Nat :=
  if now < a.nextTime then
    if a.initAmp < a.nextAmp then do
      let m ← mul128 (a.nextAmp - a.initAmp) (now - a.initTime)
      let q ← divU m (a.nextTime - a.initTime)
      let r ← add128 a.initAmp q
      .ok (r % U64_LIM)
    else do
      let m ← mul128 (a.initAmp - a.nextAmp) (now - a.initTime)
      let q ← divU m (a.nextTime - a.initTime)
      let r ← subU a.initAmp q
      .ok (r % U64_LIM)
  else .ok a.nextAmp

/-- `calculate_step`, contracts/pool_stable/src/math.rs:115-138. -/
def calcStep (d lev sum p : Nat) : Res Nat := do
  let lm ← mul256 lev sum
  let pm ← mul256 p 2
  let la ← add256 lm pm
  let l ← mul256 la d
  let l1 ← subU lev 1
  let ls ← mul256 d l1
  let p3 ← mul256 p 3
  let r ← add256 ls p3
  divU l r

/-- The Newton loop of `compute_d`, contracts/pool_stable/src/math.rs:89-101; `a2`, `b2` are
the two amounts times `N_COINS`. -/
def dLoop (lev sum a2 b2 : Nat) : Nat → Nat → Res Nat
  | 0, _ => .error (.code 13)
  | n + 1, d => do
    let d3 ← pow256 d 3
    let ab ← mul128 a2 b2
    let p ← divU d3 ab
    let d' ← calcStep d lev sum p
    if absDiff d' d ≤ TOL then .ok d' else dLoop lev sum a2 b2 n d'

/-- `compute_d`, contracts/pool_stable/src/math.rs:75-108. -/
def computeD (amp x y : Nat) : Res Nat := do
  let lev ← mul128 (amp / 100) 2000000000000000000
  let a2 ← mul128 x 2
  let b2 ← mul128 y 2
  let sum ← add128 x y
  if sum = 0 then .ok 0 else dLoop lev sum a2 b2 ITERATIONS sum

/-- The Newton loop of `calc_y`, contracts/pool_stable/src/math.rs:170-181 (before the
conversion of the result). -/
def yLoop (b c d : Nat) : Nat → Nat → Res Nat
  | 0, _ => .error (.code 14)
  | n + 1, y => do
    let y2 ← pow256 y 2
    let num ← add256 y2 c
    let t1 ← mul256 y 2
    let t2 ← add256 t1 b
    let den ← subU t2 d
    let y' ← divU num den
    if absDiff y' y ≤ TOL then .ok y' else yLoop b c d n y'

/-- `calc_y`, contracts/pool_stable/src/math.rs:147-186. -/
def calcY (amp newAmount x y target : Nat) : Res Nat := do
  let d ← computeD amp x y
  let l1 ← mul128 amp 1000000000000000000
  let lev ← mul128 l1 2
  let d3 ← pow256 d 3
  let n1 ← mul256 d3 100000000000000000000
  let m1 ← mul256 newAmount 4
  let m2 ← mul256 m1 lev
  let c ← divU n1 m2
  let b1 ← mul256 d 100000000000000000000
  let b2 ← divU b1 lev
  let b ← add256 newAmount b2
  let v ← yLoop b c d ITERATIONS d
  let k ← subU 18 target
  let dv ← pow10 k
  let w ← u128 v
  divU w dv

/-- `Config`, contracts/pool_stable/src/storage.rs:39-56 (`pool_type` is constant, omitted). -/
structure Config where
  tokenA : Addr
  tokenB : Addr
  shareToken : Addr
  stakeContract : Addr
  totalFeeBps : Int
  feeRecipient : Addr
  maxSlippageBps : Int
  defaultSlippageBps : Int
  maxSpreadBps : Int
  deriving DecidableEq, Repr

/-- Storage of an initialised pool, contracts/pool_stable/src/storage.rs:10-21: `CONFIG`,
`Admin`, `TotalShares`, `ReserveA`, `ReserveB`, `Amp`, `MaxPrecision` and the two
`TokenPrecision` entries. -/
structure State where
  cfg : Config
  admin : Addr
  total : Int
  resA : Int
  resB : Int
  amp : AmpParams
  maxPrec : Nat
  precA : Nat
  precB : Nat
  deriving DecidableEq, Repr

/-- Result triple of `compute_swap`, contracts/pool_stable/src/contract.rs:1050. -/
structure Quote where
  ret : Int
  spread : Int
  commission : Int
  deriving DecidableEq, Repr

/-- One side of the pool as `swap` sees it: token, reserve, precision. contracts/pool_stable/src/contract.rs, `do_swap`. -/
structure Side where
  tok : Addr
  res : Int
  prec : Nat

/-- (sold side, bought side), contracts/pool_stable/src/contract.rs:865-885 (and 699-718,
749-768), with `get_precisions` of the two tokens (storage.rs:99-110). -/
def sides (p : State) (offer : Addr) : Res (Side × Side) :=
  if offer = p.cfg.tokenA then .ok (⟨p.cfg.tokenA, p.resA, p.precA⟩, ⟨p.cfg.tokenB, p.resB, p.precB⟩)
  else if offer = p.cfg.tokenB then .ok (⟨p.cfg.tokenB, p.resB, p.precB⟩, ⟨p.cfg.tokenA, p.resA, p.precA⟩)
  else .error (.code 6)

/-- The spread, contracts/pool_stable/src/contract.rs:1038-1043. -/
def spreadOf (offerAmount gross : Nat) : Res Int :=
  if gross < offerAmount then toI128 (offerAmount - gross) else .ok 0

/-- `compute_swap`, contracts/pool_stable/src/contract.rs:1008-1051. -/
def computeSwap (now : Nat) (p : State) (offerPool offerPrec askPool askPrec offerAmount : Nat) (rate : Int) :
    Res Quote := do
  let amp ← currentAmp now p.amp
  let s ← add128 offerPool offerAmount
  let newX ← scaleValue s p.maxPrec 18
  let x ← scaleValue offerPool offerPrec 18
  let y ← scaleValue askPool askPrec 18
  let newAsk ← calcY amp newX x y p.maxPrec
  let gross ← subU askPool newAsk
  let spread ← spreadOf offerAmount gross
  let g ← toI128 gross
  let com ← Dec.mulInt g rate
  let ret ← subI g com
  .ok ⟨ret, spread, com⟩

/-- `compute_offer_amount`, contracts/pool_stable/src/contract.rs:1059-1111; returns
(offer amount, spread, commission). -/
def computeOfferAmount (now : Nat) (p : State) (offerPool offerPrec askPool askPrec askAmount : Nat) (rate : Int) :
    Res (Int × Int × Int) := do
  let amp ← currentAmp now p.amp
  let omc ← Dec.sub Dec.ONE rate
  let inv ← Dec.div Dec.ONE omc
  let ask ← toI128 askAmount
  let before ← Dec.mulInt ask inv
  let bu ← toU128 before
  let s ← subU askPool bu
  let newY ← scaleValue s p.maxPrec 18
  let x ← scaleValue offerPool offerPrec 18
  let y ← scaleValue askPool askPrec 18
  let newOffer ← calcY amp newY x y p.maxPrec
  let offer ← subU newOffer offerPool
  let com ← Dec.mulInt before rate
  let o ← toI128 offer
  let sp ← toI128 (offer - askAmount)
  .ok (o, sp, com)

/-- `assert_max_spread`, contracts/pool_stable/src/contract.rs:986-994. -/
def assertMaxSpread (maxSpread returnAmount spread : Int) : Res Unit := do
  let r ← Dec.fromRatio spread returnAmount
  req (r ≤ maxSpread) (.code 1)

/-- The deadline guard, contracts/pool_stable/src/contract.rs:284-292, 447-455, 483-491. -/
def checkDeadline (c : Ctx) (deadline : Option Nat) : Res Unit :=
  whenSome deadline (fun d => req (c.now ≤ d) (.code 19))

/-- The checks of `do_swap` on fee cap, asset and spread,
contracts/pool_stable/src/contract.rs:843-868; returns the effective `max_spread`. -/
def swapLimits (p : State) (offer : Addr) (maxSpread maxFee : Option Int) : Res Int := do
  whenSome maxFee (fun f => req (p.cfg.totalFeeBps ≤ f) (.code 23))
  req (offer = p.cfg.tokenA ∨ offer = p.cfg.tokenB) (.code 12)
  whenSome maxSpread (fun s => req (0 ≤ s ∧ s ≤ p.cfg.maxSpreadBps) (.code 9))
  Dec.bps (maxSpread.getD p.cfg.maxSpreadBps)

/-- The quote used by `do_swap` and `simulate_swap`: conversions to u128, the fee rate and
`compute_swap`, contracts/pool_stable/src/contract.rs:720-728, 892-900. -/
def quote (now : Nat) (p : State) (sell buy : Side) (amount : Int) : Res Quote := do
  let x ← toU128 sell.res
  let y ← toU128 buy.res
  let a ← toU128 amount
  let rate ← Dec.bps p.cfg.totalFeeBps
  computeSwap now p x sell.prec y buy.prec a rate

/-- The new stored reserves, contracts/pool_stable/src/contract.rs:951-964. -/
def swapReserves (p : State) (offer : Addr) (received : Int) (r : Quote) : Res State :=
  if offer = p.cfg.tokenA then do
    let a ← addI p.resA received
    let b1 ← subI p.resB r.commission
    let b ← subI b1 r.ret
    .ok { p with resA := a, resB := b }
  else do
    let a1 ← subI p.resA r.commission
    let a ← subI a1 r.ret
    let b ← addI p.resB received
    .ok { p with resA := a, resB := b }

/-- `do_swap`, contracts/pool_stable/src/contract.rs:832-978. -/
def doSwap (self : Addr) (c : Ctx) (p : State) (L : Ledger) (sender offer : Addr) (amount : Int)
    (minOut maxSpread maxFee : Option Int) : Res (State × Ledger × Int) := do
  let ms ← swapLimits p offer maxSpread maxFee
  let (sell, buy) ← sides p offer
  let r ← quote c.now p sell buy amount
  whenSome minOut (fun m => req (m ≤ r.ret) (.code 15))
  let g ← addI r.ret r.commission
  assertMaxSpread ms g r.spread
  let before := L.bal sell.tok self
  let L1 ← L.transfer (c.as self) sell.tok sender self amount
  let received ← subI (L1.bal sell.tok self) before
  let L2 ← L1.transfer (c.as self) buy.tok self sender r.ret
  let L3 ← L2.transfer (c.as self) buy.tok self p.cfg.feeRecipient r.commission
  let p' ← swapReserves p offer received r
  .ok (p', L3, r.ret)

/-- `swap`, contracts/pool_stable/src/contract.rs:437-473. -/
def swap (self : Addr) (c : Ctx) (p : State) (L : Ledger) (sender offer : Addr) (amount : Int)
    (minOut maxSpread : Option Int) (deadline : Option Nat) (maxFee : Option Int) :
    Res (State × Ledger × Int) := do
  checkDeadline c deadline
  validatePos (some amount)
  requireAuth c sender
  doSwap self c p L sender offer amount minOut maxSpread maxFee

/-- `mint_shares`, contracts/pool_stable/src/storage.rs:279-285. -/
def mintShares (self : Addr) (c : Ctx) (p : State) (L : Ledger) (to : Addr) (amount : Int) :
    Res (State × Ledger) := do
  let L' ← L.mint (c.as self) p.cfg.shareToken to amount
  let t ← addI p.total amount
  .ok ({ p with total := t }, L')

/-- `burn_shares`, contracts/pool_stable/src/storage.rs:287-294. -/
def burnShares (self : Addr) (c : Ctx) (p : State) (L : Ledger) (amount : Int) :
    Res (State × Ledger) := do
  let L' ← L.burn (c.as self) p.cfg.shareToken self amount
  let t ← subI p.total amount
  .ok ({ p with total := t }, L')

/-- The invariant D of two raw balances, each scaled from its token's `decimals`,
contracts/pool_stable/src/contract.rs:345-352, 371-386. -/
def invariantOf (amp balA balB decA decB : Nat) : Res Nat := do
  let x ← scaleValue balA decA 18
  let y ← scaleValue balB decB 18
  computeD amp x y

/-- The shares to mint, contracts/pool_stable/src/contract.rs:354-408: first deposit or
growth of the invariant. -/
def newShares (p : State) (amp decA decB d : Nat) : Res Nat :=
  if p.total = 0 then do
    let k ← subU 18 p.maxPrec
    let dv ← pow10 k
    let d ← u128 d
    let q ← divU d dv
    let s ← subU q MINIMUM_LIQUIDITY
    req (s ≠ 0) (.code 10)
    .ok s
  else do
    let oa ← toU128 p.resA
    let ob ← toU128 p.resB
    let d0 ← invariantOf amp oa ob decA decB
    let d0 ← u128 d0
    let d1 ← u128 d
    let dd ← subU d1 d0
    let delta ← toI128 dd
    let ini ← toI128 d0
    let ratio ← Dec.div delta ini
    let s ← Dec.mulInt p.total ratio
    toU128 s

/-- `provide_liquidity`, contracts/pool_stable/src/contract.rs:275-434. -/
def provide (self : Addr) (c : Ctx) (p : State) (L : Ledger) (sender : Addr) (a b : Int)
    (custom : Option Int) (deadline : Option Nat) (minShares : Option Nat) : Res (State × Ledger) := do
  checkDeadline c deadline
  validatePos (some a)
  validatePos (some b)
  requireAuth c sender
  req (custom.getD p.cfg.defaultSlippageBps ≤ p.cfg.maxSlippageBps) (.code 2)
  let amp ← currentAmp c.now p.amp
  let decA := (L p.cfg.tokenA).decimals
  let decB := (L p.cfg.tokenB).decimals
  let beforeA := L.bal p.cfg.tokenA self
  let beforeB := L.bal p.cfg.tokenB self
  let L1 ← L.transfer (c.as self) p.cfg.tokenA sender self a
  let L2 ← L1.transfer (c.as self) p.cfg.tokenB sender self b
  let balA := L2.bal p.cfg.tokenA self
  let balB := L2.bal p.cfg.tokenB self
  let ra ← subI balA beforeA
  let rb ← subI balB beforeB
  let na ← addI ra p.resA
  let nb ← addI rb p.resB
  let ua ← toU128 na
  let ub ← toU128 nb
  let d ← invariantOf amp ua ub decA decB
  let sh ← newShares p amp decA decB d
  whenSome minShares (fun m => req (m ≤ sh) (.code 21))
  let s ← toI128 sh
  let (p1, L3) ← mintShares self c p L2 sender s
  .ok ({ p1 with resA := balA, resB := balB }, L3)

/-- `withdraw_liquidity`, contracts/pool_stable/src/contract.rs:475-562. -/
def withdraw (self : Addr) (c : Ctx) (p : State) (L : Ledger) (sender : Addr)
    (shares minA minB : Int) (deadline : Option Nat) : Res (State × Ledger × Int × Int) := do
  checkDeadline c deadline
  validatePos (some shares)
  validatePos (some minA)
  validatePos (some minB)
  requireAuth c sender
  let L1 ← L.transfer (c.as self) p.cfg.shareToken sender self shares
  req (p.total ≠ 0) (.code 5)
  let ratio ← Dec.fromRatio shares p.total
  let ra ← Dec.mulInt p.resA ratio
  let rb ← Dec.mulInt p.resB ratio
  req (¬ (ra < minA ∨ rb < minB)) (.code 3)
  let (p1, L2) ← burnShares self c p L1 shares
  let L3 ← L2.transfer (c.as self) p.cfg.tokenA self sender ra
  let L4 ← L3.transfer (c.as self) p.cfg.tokenB self sender rb
  let a ← subI p.resA ra
  let b ← subI p.resB rb
  .ok ({ p1 with resA := a, resB := b }, L4, ra, rb)

/-- Arguments of `update_config`, contracts/pool_stable/src/contract.rs:564-573. -/
structure ConfigUpdate where
  newAdmin : Option Addr := none
  totalFeeBps : Option Int := none
  feeRecipient : Option Addr := none
  maxSlippageBps : Option Int := none
  maxSpreadBps : Option Int := none

/-- `update_config`, contracts/pool_stable/src/contract.rs:564-603.  The sender is compared
with the stored admin; `require_auth` is not called. -/
def updateConfig (p : State) (sender : Addr) (u : ConfigUpdate) : Res State := do
  req (sender = p.admin) (.code 11)
  validateBpsOpt u.totalFeeBps
  validateBpsOpt u.maxSlippageBps
  validateBpsOpt u.maxSpreadBps
  .ok { p with
    admin := u.newAdmin.getD p.admin
    cfg := { p.cfg with
      totalFeeBps := u.totalFeeBps.getD p.cfg.totalFeeBps
      feeRecipient := u.feeRecipient.getD p.cfg.feeRecipient
      maxSlippageBps := u.maxSlippageBps.getD p.cfg.maxSlippageBps
      maxSpreadBps := u.maxSpreadBps.getD p.cfg.maxSpreadBps } }

/-- `simulate_swap`, contracts/pool_stable/src/contract.rs:687-734; returns
(ask amount, spread, commission, total return). -/
def simulateSwap (now : Nat) (p : State) (offer : Addr) (amount : Int) : Res (Int × Int × Int × Int) := do
  let (sell, buy) ← sides p offer
  let r ← quote now p sell buy amount
  let t1 ← addI r.ret r.commission
  let t ← addI t1 r.spread
  .ok (r.ret, r.spread, r.commission, t)

/-- `simulate_reverse_swap`, contracts/pool_stable/src/contract.rs:736-783; returns
(offer amount, spread, commission).  Here the argument names the *offered* asset, unlike in
the XYK pool. -/
def simulateReverseSwap (now : Nat) (p : State) (offer : Addr) (ask : Int) : Res (Int × Int × Int) := do
  let (sell, buy) ← sides p offer
  let x ← toU128 sell.res
  let y ← toU128 buy.res
  let a ← toU128 ask
  let rate ← Dec.bps p.cfg.totalFeeBps
  computeOfferAmount now p x sell.prec y buy.prec a rate

/-- The share ratio of `query_share`, contracts/pool_stable/src/contract.rs:794-797. -/
def shareRatio (p : State) (amount : Int) : Res Int :=
  if p.total ≠ 0 then Dec.fromRatio amount p.total else .ok 0

/-- `query_share`, contracts/pool_stable/src/contract.rs:785-812. -/
def queryShare (p : State) (amount : Int) : Res (Int × Int) := do
  let ratio ← shareRatio p amount
  let a ← Dec.mulInt p.resA ratio
  let b ← Dec.mulInt p.resB ratio
  .ok (a, b)

/-- Arguments of `initialize` (contracts/pool_stable/src/contract.rs:146-158 and
`LiquidityPoolInitInfo`, packages/phoenix/src/utils.rs:73-85).  `shareToken` and
`stakeContract` are the addresses the host assigns to the two deployed contracts. -/
structure InitArgs where
  admin : Addr
  swapFeeBps : Int
  feeRecipient : Addr
  maxSlippageBps : Int
  defaultSlippageBps : Int
  maxSpreadBps : Int
  tokenA : Addr
  tokenB : Addr
  minBond : Int
  minReward : Int
  maxComplexity : Nat
  amp : Nat
  maxAllowedFeeBps : Int
  shareToken : Addr
  stakeContract : Addr

/-- `initialize`, contracts/pool_stable/src/contract.rs:146-273.  Of the deployed stake
contract only the checks of its `initialize` (contracts/stake/src/contract.rs:101-119) are
kept here; the contract itself is modelled in Verif.Model.Stake.  `amp * AMP_PRECISION` is
a u64 product. -/
def init (self : Addr) (c : Ctx) (p : Option State) (L : Ledger) (i : InitArgs) : Res (State × Ledger) := do
  req (p.isNone = true) (.code 7)
  validateBps i.swapFeeBps
  validateBps i.maxSlippageBps
  validateBps i.maxSpreadBps
  validateBps i.defaultSlippageBps
  validateBps i.maxAllowedFeeBps
  req (i.swapFeeBps ≤ i.maxAllowedFeeBps) (.code 22)
  req (i.tokenA < i.tokenB) (.code 8)
  let pa := (L i.tokenA).decimals
  let pb := (L i.tokenB).decimals
  let t ← Token.construct self (max pa pb)
  req (0 < i.minBond) (.code 2)
  req (0 < i.minReward) (.code 3)
  req (i.maxComplexity ≠ 0) (.code 12)
  req (i.amp ≠ 0 ∧ i.amp ≤ 1000000) (.code 18)
  let amp ← mul64 i.amp 100
  .ok ({ cfg :=
          { tokenA := i.tokenA, tokenB := i.tokenB, shareToken := i.shareToken,
            stakeContract := i.stakeContract, totalFeeBps := i.swapFeeBps,
            feeRecipient := i.feeRecipient, maxSlippageBps := i.maxSlippageBps,
            defaultSlippageBps := i.defaultSlippageBps, maxSpreadBps := i.maxSpreadBps },
         admin := i.admin, total := 0, resA := 0, resB := 0,
         amp := ⟨amp, c.now, amp, c.now⟩, maxPrec := max pa pb, precA := pa, precB := pb },
       upd L i.shareToken t)

/-- The state-changing entry points (contracts/pool_stable/src/contract.rs:146-603).
`upgrade` and `update` only replace the wasm and are left out. -/
inductive Call where
  | init (i : InitArgs)
  | provide (sender : Addr) (a b : Int) (custom : Option Int) (deadline : Option Nat) (minShares : Option Nat)
  | swap (sender offer : Addr) (amount : Int) (minOut maxSpread : Option Int)
      (deadline : Option Nat) (maxFee : Option Int)
  | withdraw (sender : Addr) (shares minA minB : Int) (deadline : Option Nat)
  | updateConfig (sender : Addr) (u : ConfigUpdate)

/-- A stable pool (absent storage before `initialize`) together with every token (modelling device, nothing of /repo). -/
structure Sys where
  pool : Option State
  led : Ledger

/-- One transaction: a call of the pool at address `self`, or a call of any token (modelling device, nothing of /repo). -/
inductive Tx where
  | pool (c : Ctx) (k : Call)
  | token (c : Ctx) (tok : Addr) (op : TokenOp)

/-- Signers and clock of a transaction (modelling device, nothing of /repo). -/
def Tx.ctx : Tx → Ctx
  | .pool c _ => c
  | .token c _ _ => c

/-- Storage reads of an uninitialised pool `unwrap` a `None`
(contracts/pool_stable/src/storage.rs:70-77). -/
def loaded (p : Option State) : Res State :=
  match p with
  | some p => .ok p
  | none => .error .panic

/-- Effect of one successful transaction (contracts/pool_stable/src/contract.rs:146-603). -/
def step (self : Addr) (s : Sys) : Tx → Res Sys
  | .token c tok op => do
    let L ← s.led.call c tok op
    .ok { s with led := L }
  | .pool c (.init i) => do
    let (p, L) ← init self c s.pool s.led i
    .ok ⟨some p, L⟩
  | .pool c (.provide sender a b cu dl ms) => do
    let p ← loaded s.pool
    let (p', L) ← provide self c p s.led sender a b cu dl ms
    .ok ⟨some p', L⟩
  | .pool c (.swap sender offer amount mo ms dl mf) => do
    let p ← loaded s.pool
    let (p', L, _) ← swap self c p s.led sender offer amount mo ms dl mf
    .ok ⟨some p', L⟩
  | .pool c (.withdraw sender sh mA mB dl) => do
    let p ← loaded s.pool
    let (p', L, _, _) ← withdraw self c p s.led sender sh mA mB dl
    .ok ⟨some p', L⟩
  | .pool _ (.updateConfig sender u) => do
    let p ← loaded s.pool
    let p' ← updateConfig p sender u
    .ok { s with pool := some p' }

/-- A failed transaction is rolled back by the host and leaves the state unchanged. -/
def exec (self : Addr) (s : Sys) (t : Tx) : Sys :=
  match step self s t with
  | .ok s' => s'
  | .error _ => s

/-- State after a whole history of transactions (modelling device, nothing of /repo). -/
def run (self : Addr) (s : Sys) (ts : List Tx) : Sys := ts.foldl (exec self) s

end Phoenix.Stable
