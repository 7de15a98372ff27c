import Verif.Model.Life
import Verif.Model.StorePool
/-
contracts/pool with the lifetimes of its storage: every `extend_ttl` of the source is there.
The keys and the arithmetic are those of Verif.Model.StorePool and Verif.Model.Pool.
-/
namespace Phoenix.Life.Pool
open Phoenix Phoenix.Store Phoenix.Life
open Phoenix.Store.Pool (kTotal kResA kResB kAdmin kInit kConfig kSlippage)

/-- `save_default_slippage_bps`, contracts/pool/src/storage.rs:57-64. -/
def saveSlippage (x : Int) : Prog Unit := do
  write .pers kSlippage (.i64 x)
  keep kSlippage
/-- `get_default_slippage_bps`, contracts/pool/src/storage.rs:66-79. -/
def getSlippage : Prog Int := do
  let x ← fetch .pers kSlippage asI64 .panic
  keep kSlippage
  pure x
/-- `get_config`, contracts/pool/src/storage.rs:91-99. -/
def getConfig : Prog Phoenix.Pool.Config := do
  let c ← fetch .pers kConfig asPoolConfig .panic
  keep kConfig
  pure c
/-- `save_config`, contracts/pool/src/storage.rs:101-108. -/
def saveConfig (c : Phoenix.Pool.Config) : Prog Unit := do
  write .pers kConfig (.poolConfig c)
  keep kConfig
/-- `save_admin`, contracts/pool/src/storage.rs:216-223. -/
def saveAdmin (a : Addr) : Prog Unit := do
  write .pers kAdmin (.addr a)
  keep kAdmin
/-- `save_total_shares`, contracts/pool/src/storage.rs:225-232. -/
def saveTotal (x : Int) : Prog Unit := do
  write .pers kTotal (.i128 x)
  keep kTotal
/-- `save_pool_balance_a`, contracts/pool/src/storage.rs:234-241. -/
def saveResA (x : Int) : Prog Unit := do
  write .pers kResA (.i128 x)
  keep kResA
/-- `save_pool_balance_b`, contracts/pool/src/storage.rs:243-250. -/
def saveResB (x : Int) : Prog Unit := do
  write .pers kResB (.i128 x)
  keep kResB
/-- `get_admin`, contracts/pool/src/storage.rs:269-278. -/
def getAdmin : Prog Addr := do
  let a ← fetch .pers kAdmin asAddr .panic
  keep kAdmin
  pure a
/-- `get_total_shares`, contracts/pool/src/storage.rs:280-289. -/
def getTotal : Prog Int := do
  let x ← fetch .pers kTotal Store.asI128 .panic
  keep kTotal
  pure x
/-- `get_pool_balance_a`, contracts/pool/src/storage.rs:290-299. -/
def getResA : Prog Int := do
  let x ← fetch .pers kResA Store.asI128 .panic
  keep kResA
  pure x
/-- `get_pool_balance_b`, contracts/pool/src/storage.rs:301-310. -/
def getResB : Prog Int := do
  let x ← fetch .pers kResB Store.asI128 .panic
  keep kResB
  pure x
/-- `is_initialized`, contracts/pool/src/storage.rs:439-444: does not extend. -/
def isInit : Prog Bool := fetchOr .pers kInit asBool false
/-- `set_initialized`, contracts/pool/src/storage.rs:446-453. -/
def setInit : Prog Unit := do
  write .pers kInit (.bool true)
  keep kInit

/-- `mint_shares`, contracts/pool/src/storage.rs:252-258. -/
def mintShares (me : Addr) (c : Ctx) (L : Ledger) (shareToken to_ : Addr) (amount : Int) : Prog Ledger := do
  let total ← getTotal
  let L' ← L.mint (c.as me) shareToken to_ amount
  let t ← addI total amount
  saveTotal t
  pure L'

/-- `burn_shares`, contracts/pool/src/storage.rs:260-266. -/
def burnShares (me : Addr) (c : Ctx) (L : Ledger) (shareToken : Addr) (amount : Int) : Prog Ledger := do
  let total ← getTotal
  let L' ← L.burn (c.as me) shareToken me amount
  let t ← subI total amount
  saveTotal t
  pure L'

/-- `initialize`, contracts/pool/src/contract.rs:151-265: the instance is not extended. -/
def init (me : Addr) (L : Ledger) (i : Phoenix.Pool.InitArgs) : Prog Ledger := do
  let b ← isInit
  req (b = false) (.code 17)
  validateBps i.swapFeeBps
  validateBps i.maxSlippageBps
  validateBps i.maxSpreadBps
  validateBps i.maxReferralBps
  validateBps i.defaultSlippageBps
  validateBps i.maxAllowedFeeBps
  req (i.swapFeeBps ≤ i.maxAllowedFeeBps) (.code 25)
  setInit
  req (i.tokenA < i.tokenB) (.code 18)
  let t ← Token.construct me i.shareDecimals
  req (0 < i.minBond) (.code 2)
  req (0 < i.minReward) (.code 3)
  req (i.maxComplexity ≠ 0) (.code 12)
  saveConfig
    { tokenA := i.tokenA, tokenB := i.tokenB, shareToken := i.shareToken,
      stakeContract := i.stakeContract, totalFeeBps := i.swapFeeBps,
      feeRecipient := i.feeRecipient, maxSlippageBps := i.maxSlippageBps,
      maxSpreadBps := i.maxSpreadBps, maxReferralBps := i.maxReferralBps }
  saveSlippage i.defaultSlippageBps
  saveAdmin i.admin
  saveTotal 0
  saveResA 0
  saveResB 0
  pure (upd L i.shareToken t)

/-- `match (desired_a, desired_b)`, contracts/pool/src/contract.rs:312-338. -/
def chooseAmounts (resA resB : Int) (desiredA minA desiredB minB custom : Option Int) : Prog (Int × Int) :=
  match desiredA, desiredB with
  | some a, some b =>
    if 0 < a ∧ 0 < b then do
      let dflt ← getSlippage
      let slip ← Dec.bps (custom.getD dflt)
      let r ← Phoenix.Pool.depositAmounts a minA b minB resA resB slip
      pure r
    else .fail (.code 3)
  | _, _ => .fail (.code 3)

/-- The share computation, contracts/pool/src/contract.rs:361-386. -/
def newShares (me : Addr) (c : Ctx) (L : Ledger) (shareToken : Addr)
    (amtA amtB balA balB resA resB total : Int) : Prog (Int × Ledger) :=
  if 0 < resA ∧ 0 < resB then do
    let ma ← mulI balA total
    let sa ← divI ma resA
    let mb ← mulI balB total
    let sb ← divI mb resB
    pure (min sa sb, L)
  else do
    let m ← mulI amtA amtB
    let s ← Phoenix.Pool.isqrt m
    req (¬ Phoenix.Pool.MINIMUM_LIQUIDITY ≥ s) (.code 13)
    let L' ← mintShares me c L shareToken me Phoenix.Pool.MINIMUM_LIQUIDITY
    let n ← subI s Phoenix.Pool.MINIMUM_LIQUIDITY
    pure (n, L')

/-- `provide_liquidity`, contracts/pool/src/contract.rs:268-408. -/
def provide (me : Addr) (c : Ctx) (L : Ledger) (sender : Addr)
    (desiredA minA desiredB minB custom : Option Int) (deadline : Option Nat) : Prog Ledger := do
  Phoenix.Pool.checkDeadline c deadline
  validatePos desiredA
  validatePos minA
  validatePos desiredB
  validatePos minB
  requireAuth c sender
  keepInst
  let cfg ← getConfig
  let resA ← getResA
  let resB ← getResB
  whenSome custom (fun s => req (s ≤ cfg.maxSlippageBps) (.code 2))
  let (a, b) ← chooseAmounts resA resB desiredA minA desiredB minB custom
  let iniA := L.bal cfg.tokenA me
  let iniB := L.bal cfg.tokenB me
  let L1 ← L.transfer (c.as me) cfg.tokenA sender me a
  let L2 ← L1.transfer (c.as me) cfg.tokenB sender me b
  let finA := L2.bal cfg.tokenA me
  let finB := L2.bal cfg.tokenB me
  let _ ← subI finA iniA
  let _ ← subI finB iniB
  let resA' ← getResA
  let resB' ← getResB
  let balA := L2.bal cfg.tokenA me
  let balB := L2.bal cfg.tokenB me
  let total ← getTotal
  let (n, L3) ← newShares me c L2 cfg.shareToken a b balA balB resA' resB' total
  let m ← subI n total
  let L4 ← mintShares me c L3 cfg.shareToken sender m
  saveResA balA
  saveResB balB
  pure L4

/-- `swap`, contracts/pool/src/contract.rs:411-448, with `do_swap`, 788-962. -/
def swap (me : Addr) (c : Ctx) (L : Ledger) (sender offer : Addr) (amount : Int)
    (minOut maxSpread : Option Int) (deadline : Option Nat) (maxFee : Option Int) : Prog (Ledger × Int) := do
  Phoenix.Pool.checkDeadline c deadline
  validatePos (some amount)
  requireAuth c sender
  keepInst
  let cfg ← getConfig
  whenSome maxFee (fun f => req (cfg.totalFeeBps ≤ f) (.code 24))
  whenSome maxSpread (fun s => req (0 ≤ s ∧ s ≤ cfg.maxSpreadBps) (.code 19))
  let ms ← Dec.bps (maxSpread.getD cfg.maxSpreadBps)
  let resA ← getResA
  let resB ← getResB
  let (sell, buy) ← Phoenix.Store.Pool.sides cfg resA resB offer
  let fee ← Dec.bps cfg.totalFeeBps
  let r ← Phoenix.Pool.computeSwap sell buy amount fee 0
  whenSome minOut (fun m => req (m ≤ r.ret) (.code 21))
  let g1 ← addI r.ret r.commission
  let gross ← addI g1 r.referral
  Phoenix.Pool.assertMaxSpread ms gross r.spread
  let sellTok := if offer = cfg.tokenA then cfg.tokenA else cfg.tokenB
  let buyTok := if offer = cfg.tokenA then cfg.tokenB else cfg.tokenA
  let before := L.bal sellTok me
  let L1 ← L.transfer (c.as me) sellTok sender me amount
  let received ← subI (L1.bal sellTok me) before
  let L2 ← L1.transfer (c.as me) buyTok me sender r.ret
  let L3 ← L2.transfer (c.as me) buyTok me cfg.feeRecipient r.commission
  let (a, b) ← Phoenix.Store.Pool.swapReserves cfg resA resB offer received r
  saveResA a
  saveResB b
  pure (L3, r.ret)

/-- `withdraw_liquidity`, contracts/pool/src/contract.rs:450-537. -/
def withdraw (me : Addr) (c : Ctx) (L : Ledger) (sender : Addr)
    (shares minA minB : Int) (deadline : Option Nat) : Prog (Ledger × Int × Int) := do
  Phoenix.Pool.checkDeadline c deadline
  validatePos (some shares)
  validatePos (some minA)
  validatePos (some minB)
  requireAuth c sender
  keepInst
  let cfg ← getConfig
  let L1 ← L.transfer (c.as me) cfg.shareToken sender me shares
  let resA ← getResA
  let resB ← getResB
  let total ← getTotal
  req (total ≠ 0) (.code 13)
  let ratio ← Dec.fromRatio shares total
  let ra ← Dec.mulInt resA ratio
  let rb ← Dec.mulInt resB ratio
  req (¬ (ra < minA ∨ rb < minB)) (.code 4)
  let L2 ← burnShares me c L1 cfg.shareToken shares
  let L3 ← L2.transfer (c.as me) cfg.tokenA me sender ra
  let L4 ← L3.transfer (c.as me) cfg.tokenB me sender rb
  let a ← subI resA ra
  saveResA a
  let b ← subI resB rb
  saveResB b
  pure (L4, ra, rb)

/-- `if let Some(new_admin) = new_admin { save_admin }`, contracts/pool/src/contract.rs:557-559. -/
def putAdmin (a : Option Addr) : Prog Unit :=
  match a with
  | some a => saveAdmin a
  | none => pure ()

/-- `update_config`, contracts/pool/src/contract.rs:540-581. -/
def updateConfig (c : Ctx) (u : Phoenix.Pool.ConfigUpdate) : Prog Unit := do
  let admin ← getAdmin
  requireAuth c admin
  keepInst
  let cfg ← getConfig
  putAdmin u.newAdmin
  validateBpsOpt u.totalFeeBps
  validateBpsOpt u.maxSlippageBps
  validateBpsOpt u.maxSpreadBps
  validateBpsOpt u.maxReferralBps
  saveConfig { cfg with
    totalFeeBps := u.totalFeeBps.getD cfg.totalFeeBps
    feeRecipient := u.feeRecipient.getD cfg.feeRecipient
    maxSlippageBps := u.maxSlippageBps.getD cfg.maxSlippageBps
    maxSpreadBps := u.maxSpreadBps.getD cfg.maxSpreadBps
    maxReferralBps := u.maxReferralBps.getD cfg.maxReferralBps }

/-- `upgrade`, contracts/pool/src/contract.rs:583-589: the instance is not extended. -/
def upgrade (c : Ctx) (x : Int) : Prog Unit := do
  let admin ← getAdmin
  requireAuth c admin
  saveSlippage x

/-- The program of a transaction (contracts/pool/src/contract.rs:151-589). -/
def prog (me : Addr) (t : Phoenix.Pool.Tx) (L : Ledger) : Prog Ledger :=
  match t with
  | .token c tok op => lift (L.call c tok op)
  | .pool _ (.init i) => init me L i
  | .pool c (.provide sender dA mA dB mB cu dl) => provide me c L sender dA mA dB mB cu dl
  | .pool c (.swap sender offer amount mo ms dl mf) => do
    let (L', _) ← swap me c L sender offer amount mo ms dl mf
    pure L'
  | .pool c (.withdraw sender sh mA mB dl) => do
    let (L', _, _) ← withdraw me c L sender sh mA mB dl
    pure L'
  | .pool c (.updateConfig u) => do
    updateConfig c u
    pure L
  | .pool c (.upgrade x) => do
    upgrade c x
    pure L

/-- the ledger in which the transaction is made (modelling device, nothing of /repo) -/
def seqOf : Phoenix.Pool.Tx → Nat
  | .token c _ _ => c.seq
  | .pool c _ => c.seq

/-- whether the pool is called (modelling device, nothing of /repo) -/
def callsOf : Phoenix.Pool.Tx → Bool
  | .token _ _ _ => false
  | .pool _ _ => true

/-- contracts/pool as a contract whose storage has lifetimes (modelling device, nothing of /repo). -/
def contract (me : Addr) : Contract Phoenix.Pool.Tx := ⟨prog me, seqOf, fun t _ => callsOf t⟩

end Phoenix.Life.Pool
