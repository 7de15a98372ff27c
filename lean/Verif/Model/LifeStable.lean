import Verif.Model.Life
import Verif.Model.StoreStable
/-
contracts/pool_stable with the lifetimes of its storage: every `extend_ttl` of the source is there.
All but the mark of the initialisation lives in the instance, and most reads and writes extend the
instance with the amounts meant for persistent entries.
The keys and the arithmetic are those of Verif.Model.StoreStable and Verif.Model.Stable.
-/
namespace Phoenix.Life.Stable
open Phoenix Phoenix.Store Phoenix.Life
open Phoenix.Store.Stable (kTotal kResA kResB kAdmin kInit kAmp kMaxPrec kPrec kConfig newShares sides swapReserves)
open Phoenix.Stable (AmpParams Quote)

/-- `get_config`, contracts/pool_stable/src/storage.rs:70-77. -/
def getConfig : Prog Phoenix.Stable.Config := do
  let x ← fetch .inst kConfig asStableConfig .panic
  keepInstLong
  pure x
/-- `save_config`, contracts/pool_stable/src/storage.rs:79-84. -/
def saveConfig (c : Phoenix.Stable.Config) : Prog Unit := do
  write .inst kConfig (.stableConfig c)
  keepInstLong
/-- `get_greatest_precision`, contracts/pool_stable/src/storage.rs:86-97. -/
def getMaxPrec : Prog Nat := do
  let x ← fetch .inst kMaxPrec asU32 .panic
  keepInstLong
  pure x
/-- `get_precisions`, contracts/pool_stable/src/storage.rs:99-110. -/
def getPrec (tok : Addr) : Prog Nat := do
  let x ← fetch .inst (kPrec tok) asU32 .panic
  keepInstLong
  pure x
/-- `save_greatest_precision`, contracts/pool_stable/src/storage.rs:112-140. -/
def savePrecs (L : Ledger) (t1 t2 : Addr) : Prog Unit := do
  let p1 := (L t1).decimals
  let p2 := (L t2).decimals
  let m := if p2 < p1 then p1 else p2
  write .inst kMaxPrec (.u32 m)
  keepInstLong
  write .inst (kPrec t1) (.u32 p1)
  keepInstLong
  write .inst (kPrec t2) (.u32 p2)
  keepInstLong
/-- `get_amp`, contracts/pool_stable/src/storage.rs:151-158. -/
def getAmp : Prog AmpParams := do
  let x ← fetch .inst kAmp asAmp .panic
  keepInstLong
  pure x
/-- `save_amp`, contracts/pool_stable/src/storage.rs:160-165. -/
def saveAmp (a : AmpParams) : Prog Unit := do
  write .inst kAmp (.amp a)
  keepInstLong
/-- `save_admin`, contracts/pool_stable/src/storage.rs:251-256. -/
def saveAdmin (a : Addr) : Prog Unit := do
  write .inst kAdmin (.addr a)
  keepInstLong
/-- `save_total_shares`, contracts/pool_stable/src/storage.rs:258-263. -/
def saveTotal (x : Int) : Prog Unit := do
  write .inst kTotal (.i128 x)
  keepInst
/-- `save_pool_balance_a`, contracts/pool_stable/src/storage.rs:265-270. -/
def saveResA (x : Int) : Prog Unit := do
  write .inst kResA (.i128 x)
  keepInst
/-- `save_pool_balance_b`, contracts/pool_stable/src/storage.rs:272-277. -/
def saveResB (x : Int) : Prog Unit := do
  write .inst kResB (.i128 x)
  keepInst
/-- `get_admin`, contracts/pool_stable/src/storage.rs:297-304. -/
def getAdmin : Prog Addr := do
  let x ← fetch .inst kAdmin asAddr .panic
  keepInstLong
  pure x
/-- `get_total_shares`, contracts/pool_stable/src/storage.rs:306-313. -/
def getTotal : Prog Int := do
  let x ← fetch .inst kTotal Store.asI128 .panic
  keepInst
  pure x
/-- `get_pool_balance_a`, contracts/pool_stable/src/storage.rs:314-321. -/
def getResA : Prog Int := do
  let x ← fetch .inst kResA Store.asI128 .panic
  keepInst
  pure x
/-- `get_pool_balance_b`, contracts/pool_stable/src/storage.rs:323-330: unlike `get_pool_balance_a`, with the longer amounts. -/
def getResB : Prog Int := do
  let x ← fetch .inst kResB Store.asI128 .panic
  keepInstLong
  pure x
/-- `is_initialized`, contracts/pool_stable/src/storage.rs:336-341: does not extend. -/
def isInit : Prog Bool := fetchOr .pers kInit asBool false
/-- `set_initialized`, contracts/pool_stable/src/storage.rs:343-350. -/
def setInit : Prog Unit := do
  write .pers kInit (.bool true)
  keep kInit

/-- `mint_shares`, contracts/pool_stable/src/storage.rs:279-285. -/
def mintShares (me : Addr) (c : Ctx) (L : Ledger) (shareToken to_ : Addr) (amount : Int) :
    Prog Ledger := do
  let total ← getTotal
  let L' ← L.mint (c.as me) shareToken to_ amount
  let t ← addI total amount
  saveTotal t
  pure L'

/-- `burn_shares`, contracts/pool_stable/src/storage.rs:287-293. -/
def burnShares (me : Addr) (c : Ctx) (L : Ledger) (shareToken : Addr) (amount : Int) :
    Prog Ledger := do
  let total ← getTotal
  let L' ← L.burn (c.as me) shareToken me amount
  let t ← subI total amount
  saveTotal t
  pure L'

/-- `initialize`, contracts/pool_stable/src/contract.rs:146-273: the decimals of the share token are
read back from the store. -/
def init (me : Addr) (c : Ctx) (L : Ledger) (i : Phoenix.Stable.InitArgs) : Prog Ledger := do
  let b ← isInit
  req (b = false) (.code 7)
  validateBps i.swapFeeBps
  validateBps i.maxSlippageBps
  validateBps i.maxSpreadBps
  validateBps i.defaultSlippageBps
  validateBps i.maxAllowedFeeBps
  req (i.swapFeeBps ≤ i.maxAllowedFeeBps) (.code 22)
  setInit
  req (i.tokenA < i.tokenB) (.code 8)
  savePrecs L i.tokenA i.tokenB
  let decimals ← getMaxPrec
  let t ← Token.construct me decimals
  req (0 < i.minBond) (.code 2)
  req (0 < i.minReward) (.code 3)
  req (i.maxComplexity ≠ 0) (.code 12)
  saveConfig
    { tokenA := i.tokenA, tokenB := i.tokenB, shareToken := i.shareToken,
      stakeContract := i.stakeContract, totalFeeBps := i.swapFeeBps,
      feeRecipient := i.feeRecipient, maxSlippageBps := i.maxSlippageBps,
      defaultSlippageBps := i.defaultSlippageBps, maxSpreadBps := i.maxSpreadBps }
  req (i.amp ≠ 0 ∧ i.amp ≤ 1000000) (.code 18)
  let amp ← mul64 i.amp 100
  saveAmp ⟨amp, c.now, amp, c.now⟩
  saveAdmin i.admin
  saveTotal 0
  saveResA 0
  saveResB 0
  pure (upd L i.shareToken t)

/-- `provide_liquidity`, contracts/pool_stable/src/contract.rs:275-434. -/
def provide (me : Addr) (c : Ctx) (L : Ledger) (sender : Addr) (a b : Int)
    (custom : Option Int) (deadline : Option Nat) (minShares : Option Nat) : Prog Ledger := do
  Phoenix.Stable.checkDeadline c deadline
  validatePos (some a)
  validatePos (some b)
  requireAuth c sender
  keepInst
  let cfg ← getConfig
  let maxPrec ← getMaxPrec
  let resA ← getResA
  let resB ← getResB
  req (custom.getD cfg.defaultSlippageBps ≤ cfg.maxSlippageBps) (.code 2)
  let params ← getAmp
  let amp ← Phoenix.Stable.currentAmp c.now params
  let decA := (L cfg.tokenA).decimals
  let decB := (L cfg.tokenB).decimals
  let beforeA := L.bal cfg.tokenA me
  let beforeB := L.bal cfg.tokenB me
  let L1 ← L.transfer (c.as me) cfg.tokenA sender me a
  let L2 ← L1.transfer (c.as me) cfg.tokenB sender me b
  let afterA := L2.bal cfg.tokenA me
  let afterB := L2.bal cfg.tokenB me
  let ra ← subI afterA beforeA
  let rb ← subI afterB beforeB
  let na ← addI ra resA
  let nb ← addI rb resB
  let ua ← toU128 na
  let ub ← toU128 nb
  let d ← Phoenix.Stable.invariantOf amp ua ub decA decB
  let total ← getTotal
  let sh ← newShares total resA resB maxPrec amp decA decB d
  whenSome minShares (fun m => req (m ≤ sh) (.code 21))
  let balA := L2.bal cfg.tokenA me
  let balB := L2.bal cfg.tokenB me
  let s ← toI128 sh
  let L3 ← mintShares me c L2 cfg.shareToken sender s
  saveResA balA
  saveResB balB
  pure L3

/-- `compute_swap`, contracts/pool_stable/src/contract.rs:1008-1051. -/
def computeSwap (now : Nat) (offerPool offerPrec askPool askPrec offerAmount : Nat) (rate : Int) :
    Prog Quote := do
  let params ← getAmp
  let amp ← Phoenix.Stable.currentAmp now params
  let maxPrec ← getMaxPrec
  let s ← add128 offerPool offerAmount
  let newX ← Phoenix.Stable.scaleValue s maxPrec 18
  let x ← Phoenix.Stable.scaleValue offerPool offerPrec 18
  let y ← Phoenix.Stable.scaleValue askPool askPrec 18
  let newAsk ← Phoenix.Stable.calcY amp newX x y maxPrec
  let gross ← subU askPool newAsk
  let spread ← Phoenix.Stable.spreadOf offerAmount gross
  let g ← toI128 gross
  let com ← Dec.mulInt g rate
  let ret ← subI g com
  pure ⟨ret, spread, com⟩

/-- The quote of `do_swap` (contracts/pool_stable/src/contract.rs:892-900): the precisions are read
by the token's address. -/
def quote (now : Nat) (cfg : Phoenix.Stable.Config) (sellTok : Addr) (sellRes : Int) (buyTok : Addr)
    (buyRes amount : Int) : Prog Quote := do
  let x ← toU128 sellRes
  let px ← getPrec sellTok
  let y ← toU128 buyRes
  let py ← getPrec buyTok
  let a ← toU128 amount
  let rate ← Dec.bps cfg.totalFeeBps
  computeSwap now x px y py a rate

/-- `swap`, contracts/pool_stable/src/contract.rs:437-473, with `do_swap`, 832-978. -/
def swap (me : Addr) (c : Ctx) (L : Ledger) (sender offer : Addr) (amount : Int)
    (minOut maxSpread : Option Int) (deadline : Option Nat) (maxFee : Option Int) :
    Prog (Ledger × Int) := do
  Phoenix.Stable.checkDeadline c deadline
  validatePos (some amount)
  requireAuth c sender
  keepInst
  let cfg ← getConfig
  whenSome maxFee (fun f => req (cfg.totalFeeBps ≤ f) (.code 23))
  req (offer = cfg.tokenA ∨ offer = cfg.tokenB) (.code 12)
  whenSome maxSpread (fun s => req (0 ≤ s ∧ s ≤ cfg.maxSpreadBps) (.code 9))
  let ms ← Dec.bps (maxSpread.getD cfg.maxSpreadBps)
  let resA ← getResA
  let resB ← getResB
  let (sellTok, sellRes, buyTok, buyRes) ← sides cfg resA resB offer
  let r ← quote c.now cfg sellTok sellRes buyTok buyRes amount
  whenSome minOut (fun m => req (m ≤ r.ret) (.code 15))
  let g ← addI r.ret r.commission
  Phoenix.Stable.assertMaxSpread ms g r.spread
  let before := L.bal sellTok me
  let L1 ← L.transfer (c.as me) sellTok sender me amount
  let received ← subI (L1.bal sellTok me) before
  let L2 ← L1.transfer (c.as me) buyTok me sender r.ret
  let L3 ← L2.transfer (c.as me) buyTok me cfg.feeRecipient r.commission
  let (a, b) ← swapReserves cfg resA resB offer received r
  saveResA a
  saveResB b
  pure (L3, r.ret)

/-- `withdraw_liquidity`, contracts/pool_stable/src/contract.rs:475-562. -/
def withdraw (me : Addr) (c : Ctx) (L : Ledger) (sender : Addr)
    (shares minA minB : Int) (deadline : Option Nat) : Prog (Ledger × Int × Int) := do
  Phoenix.Stable.checkDeadline c deadline
  validatePos (some shares)
  validatePos (some minA)
  validatePos (some minB)
  requireAuth c sender
  keepInst
  let cfg ← getConfig
  let L1 ← L.transfer (c.as me) cfg.shareToken sender me shares
  let resA ← getResA
  let resB ← getResB
  let total ← getTotal
  req (total ≠ 0) (.code 5)
  let ratio ← Dec.fromRatio shares total
  let ra ← Dec.mulInt resA ratio
  let rb ← Dec.mulInt resB ratio
  req (¬ (ra < minA ∨ rb < minB)) (.code 3)
  let L2 ← burnShares me c L1 cfg.shareToken shares
  let L3 ← L2.transfer (c.as me) cfg.tokenA me sender ra
  let L4 ← L3.transfer (c.as me) cfg.tokenB me sender rb
  let a ← subI resA ra
  saveResA a
  let b ← subI resB rb
  saveResB b
  pure (L4, ra, rb)

/-- `if let Some(new_admin) = new_admin { save_admin }`, contracts/pool_stable/src/contract.rs:583-585. -/
def putAdmin (a : Option Addr) : Prog Unit :=
  match a with
  | some a => saveAdmin a
  | none => pure ()

/-- `update_config`, contracts/pool_stable/src/contract.rs:564-603. -/
def updateConfig (sender : Addr) (u : Phoenix.Stable.ConfigUpdate) : Prog Unit := do
  let admin ← getAdmin
  req (sender = admin) (.code 11)
  keepInst
  let cfg ← getConfig
  putAdmin u.newAdmin
  validateBpsOpt u.totalFeeBps
  validateBpsOpt u.maxSlippageBps
  validateBpsOpt u.maxSpreadBps
  saveConfig { cfg with
    totalFeeBps := u.totalFeeBps.getD cfg.totalFeeBps
    feeRecipient := u.feeRecipient.getD cfg.feeRecipient
    maxSlippageBps := u.maxSlippageBps.getD cfg.maxSlippageBps
    maxSpreadBps := u.maxSpreadBps.getD cfg.maxSpreadBps }

/-- The program of one transaction (contracts/pool_stable/src/contract.rs:146-603). -/
def prog (me : Addr) (t : Phoenix.Stable.Tx) (L : Ledger) : Prog Ledger :=
  match t with
  | .token c tok op => lift (L.call c tok op)
  | .pool c (.init i) => init me c L i
  | .pool c (.provide sender a b cu dl ms) => provide me c L sender a b cu dl ms
  | .pool c (.swap sender offer amount mo ms dl mf) => do
    let (L', _) ← swap me c L sender offer amount mo ms dl mf
    pure L'
  | .pool c (.withdraw sender sh mA mB dl) => do
    let (L', _, _) ← withdraw me c L sender sh mA mB dl
    pure L'
  | .pool _ (.updateConfig sender u) => do
    updateConfig sender u
    pure L

/-- the ledger in which a transaction happens (modelling device, nothing of /repo) -/
def seqOf : Phoenix.Stable.Tx → Nat
  | .token c _ _ => c.seq
  | .pool c _ => c.seq

/-- whether the pool is called (modelling device, nothing of /repo) -/
def callsOf : Phoenix.Stable.Tx → Bool
  | .token _ _ _ => false
  | .pool _ _ => true

/-- contracts/pool_stable as a contract whose storage has lifetimes (modelling device, nothing of /repo). -/
def contract (me : Addr) : Contract Phoenix.Stable.Tx := ⟨prog me, seqOf, fun t _ => callsOf t⟩

end Phoenix.Life.Stable
