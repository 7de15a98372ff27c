import Verif.Model.Store
/-
contracts/pool_stable against the key-value store.  Every read and write is where the source has
it; the arithmetic (`compute_d`, `calc_y`, `scale_value`, ...) is shared with Verif.Model.Stable.
-/
namespace Phoenix.Store.Stable
open Phoenix Phoenix.Store
open Phoenix.Stable (AmpParams Quote)

/-- `DataKey::TotalShares = 0`, contracts/pool_stable/src/storage.rs:10-29. -/
def kTotal : Key := .u32 0
/-- `DataKey::ReserveA = 1`, contracts/pool_stable/src/storage.rs:10-29. -/
def kResA : Key := .u32 1
/-- `DataKey::ReserveB = 2`, contracts/pool_stable/src/storage.rs:10-29. -/
def kResB : Key := .u32 2
/-- `DataKey::Admin = 3`, contracts/pool_stable/src/storage.rs:10-29. -/
def kAdmin : Key := .u32 3
/-- `DataKey::Initialized = 4`, contracts/pool_stable/src/storage.rs:10-29. -/
def kInit : Key := .u32 4
/-- `DataKey::Amp = 5`, contracts/pool_stable/src/storage.rs:10-29. -/
def kAmp : Key := .u32 5
/-- `DataKey::MaxPrecision = 6`, contracts/pool_stable/src/storage.rs:10-29. -/
def kMaxPrec : Key := .u32 6
/-- `(DataKey::TokenPrecision, token)`, contracts/pool_stable/src/storage.rs:99-110. -/
def kPrec (tok : Addr) : Key := .cons (.u32 7) (.cons (.addr tok) .nil)
/-- `CONFIG`, contracts/pool_stable/src/storage.rs:58. -/
def kConfig : Key := .sym "CONFIG"

/-- `get_config`, contracts/pool_stable/src/storage.rs:70-77. -/
def getConfig (σ : Store) : Res Phoenix.Stable.Config := load σ .inst kConfig asStableConfig .panic
/-- `save_config`, contracts/pool_stable/src/storage.rs:79-84. -/
def saveConfig (σ : Store) (c : Phoenix.Stable.Config) : Store := set σ .inst kConfig (.stableConfig c)
/-- `get_greatest_precision`, contracts/pool_stable/src/storage.rs:86-97. -/
def getMaxPrec (σ : Store) : Res Nat := load σ .inst kMaxPrec asU32 .panic
/-- `get_precisions`, contracts/pool_stable/src/storage.rs:99-110. -/
def getPrec (σ : Store) (tok : Addr) : Res Nat := load σ .inst (kPrec tok) asU32 .panic
/-- `save_greatest_precision`, contracts/pool_stable/src/storage.rs:112-140. -/
def savePrecs (σ : Store) (L : Ledger) (t1 t2 : Addr) : Store :=
  let p1 := (L t1).decimals
  let p2 := (L t2).decimals
  let m := if p2 < p1 then p1 else p2
  let σ1 := set σ .inst kMaxPrec (.u32 m)
  let σ2 := set σ1 .inst (kPrec t1) (.u32 p1)
  set σ2 .inst (kPrec t2) (.u32 p2)
/-- `get_amp`, contracts/pool_stable/src/storage.rs:151-158. -/
def getAmp (σ : Store) : Res AmpParams := load σ .inst kAmp asAmp .panic
/-- `save_amp`, contracts/pool_stable/src/storage.rs:160-165. -/
def saveAmp (σ : Store) (a : AmpParams) : Store := set σ .inst kAmp (.amp a)
/-- `save_admin`, contracts/pool_stable/src/storage.rs:251-256. -/
def saveAdmin (σ : Store) (a : Addr) : Store := set σ .inst kAdmin (.addr a)
/-- `save_total_shares`, contracts/pool_stable/src/storage.rs:258-263. -/
def saveTotal (σ : Store) (x : Int) : Store := set σ .inst kTotal (.i128 x)
/-- `save_pool_balance_a`, contracts/pool_stable/src/storage.rs:265-270. -/
def saveResA (σ : Store) (x : Int) : Store := set σ .inst kResA (.i128 x)
/-- `save_pool_balance_b`, contracts/pool_stable/src/storage.rs:272-277. -/
def saveResB (σ : Store) (x : Int) : Store := set σ .inst kResB (.i128 x)
/-- `get_admin`, contracts/pool_stable/src/storage.rs:297-304. -/
def getAdmin (σ : Store) : Res Addr := load σ .inst kAdmin asAddr .panic
/-- `get_total_shares`, contracts/pool_stable/src/storage.rs:306-313. -/
def getTotal (σ : Store) : Res Int := load σ .inst kTotal asI128 .panic
/-- `get_pool_balance_a`, contracts/pool_stable/src/storage.rs:314-321. -/
def getResA (σ : Store) : Res Int := load σ .inst kResA asI128 .panic
/-- `get_pool_balance_b`, contracts/pool_stable/src/storage.rs:323-330. -/
def getResB (σ : Store) : Res Int := load σ .inst kResB asI128 .panic
/-- `is_initialized`, contracts/pool_stable/src/storage.rs:336-341. -/
def isInit (σ : Store) : Res Bool := loadOr σ .pers kInit asBool false
/-- `set_initialized`, contracts/pool_stable/src/storage.rs:343-350. -/
def setInit (σ : Store) : Store := set σ .pers kInit (.bool true)

/-- `mint_shares`, contracts/pool_stable/src/storage.rs:279-285. -/
def mintShares (me : Addr) (c : Ctx) (σ : Store) (L : Ledger) (shareToken to_ : Addr) (amount : Int) :
    Res (Store × Ledger) := do
  let total ← getTotal σ
  let L' ← L.mint (c.as me) shareToken to_ amount
  let t ← addI total amount
  .ok (saveTotal σ t, L')

/-- `burn_shares`, contracts/pool_stable/src/storage.rs:287-293. -/
def burnShares (me : Addr) (c : Ctx) (σ : Store) (L : Ledger) (shareToken : Addr) (amount : Int) :
    Res (Store × Ledger) := do
  let total ← getTotal σ
  let L' ← L.burn (c.as me) shareToken me amount
  let t ← subI total amount
  .ok (saveTotal σ t, L')

/-- `initialize`, contracts/pool_stable/src/contract.rs:146-273: the decimals of the share token are
read back from the store. -/
def init (me : Addr) (c : Ctx) (σ : Store) (L : Ledger) (i : Phoenix.Stable.InitArgs) : Res (Store × Ledger) := do
  let b ← isInit σ
  req (b = false) (.code 7)
  validateBps i.swapFeeBps
  validateBps i.maxSlippageBps
  validateBps i.maxSpreadBps
  validateBps i.defaultSlippageBps
  validateBps i.maxAllowedFeeBps
  req (i.swapFeeBps ≤ i.maxAllowedFeeBps) (.code 22)
  let σ1 := setInit σ
  req (i.tokenA < i.tokenB) (.code 8)
  let σ2 := savePrecs σ1 L i.tokenA i.tokenB
  let decimals ← getMaxPrec σ2
  let t ← Token.construct me decimals
  req (0 < i.minBond) (.code 2)
  req (0 < i.minReward) (.code 3)
  req (i.maxComplexity ≠ 0) (.code 12)
  let σ3 := saveConfig σ2
    { tokenA := i.tokenA, tokenB := i.tokenB, shareToken := i.shareToken,
      stakeContract := i.stakeContract, totalFeeBps := i.swapFeeBps,
      feeRecipient := i.feeRecipient, maxSlippageBps := i.maxSlippageBps,
      defaultSlippageBps := i.defaultSlippageBps, maxSpreadBps := i.maxSpreadBps }
  req (i.amp ≠ 0 ∧ i.amp ≤ 1000000) (.code 18)
  let amp ← mul64 i.amp 100
  let σ4 := saveAmp σ3 ⟨amp, c.now, amp, c.now⟩
  let σ5 := saveAdmin σ4 i.admin
  let σ6 := saveTotal σ5 0
  let σ7 := saveResA σ6 0
  let σ8 := saveResB σ7 0
  .ok (σ8, upd L i.shareToken t)

/-- The shares to mint, contracts/pool_stable/src/contract.rs:354-408. -/
def newShares (total resA resB : Int) (maxPrec amp decA decB d : Nat) : Res Nat :=
  if total = 0 then do
    let k ← subU 18 maxPrec
    let dv ← Phoenix.Stable.pow10 k
    let d ← u128 d
    let q ← divU d dv
    let s ← subU q Phoenix.Stable.MINIMUM_LIQUIDITY
    req (s ≠ 0) (.code 10)
    .ok s
  else do
    let oa ← toU128 resA
    let ob ← toU128 resB
    let d0 ← Phoenix.Stable.invariantOf amp oa ob decA decB
    let d0 ← u128 d0
    let d1 ← u128 d
    let dd ← subU d1 d0
    let delta ← toI128 dd
    let ini ← toI128 d0
    let ratio ← Dec.div delta ini
    let s ← Dec.mulInt total ratio
    toU128 s

/-- `provide_liquidity`, contracts/pool_stable/src/contract.rs:275-434. -/
def provide (me : Addr) (c : Ctx) (σ : Store) (L : Ledger) (sender : Addr) (a b : Int)
    (custom : Option Int) (deadline : Option Nat) (minShares : Option Nat) : Res (Store × Ledger) := do
  Phoenix.Stable.checkDeadline c deadline
  validatePos (some a)
  validatePos (some b)
  requireAuth c sender
  let cfg ← getConfig σ
  let maxPrec ← getMaxPrec σ
  let resA ← getResA σ
  let resB ← getResB σ
  req (custom.getD cfg.defaultSlippageBps ≤ cfg.maxSlippageBps) (.code 2)
  let params ← getAmp σ
  let amp ← Phoenix.Stable.currentAmp c.now params
  let decA := (L cfg.tokenA).decimals
  let decB := (L cfg.tokenB).decimals
  let beforeA := L.bal cfg.tokenA me
  let beforeB := L.bal cfg.tokenB me
  let L1 ← L.transfer (c.as me) cfg.tokenA sender me a
  let L2 ← L1.transfer (c.as me) cfg.tokenB sender me b
  let afterA := L2.bal cfg.tokenA me
  let afterB := L2.bal cfg.tokenB me
  let ra ← subI afterA beforeA
  let rb ← subI afterB beforeB
  let na ← addI ra resA
  let nb ← addI rb resB
  let ua ← toU128 na
  let ub ← toU128 nb
  let d ← Phoenix.Stable.invariantOf amp ua ub decA decB
  let total ← getTotal σ
  let sh ← newShares total resA resB maxPrec amp decA decB d
  whenSome minShares (fun m => req (m ≤ sh) (.code 21))
  let balA := L2.bal cfg.tokenA me
  let balB := L2.bal cfg.tokenB me
  let s ← toI128 sh
  let (σ1, L3) ← mintShares me c σ L2 cfg.shareToken sender s
  let σ2 := saveResA σ1 balA
  let σ3 := saveResB σ2 balB
  .ok (σ3, L3)

/-- `compute_swap`, contracts/pool_stable/src/contract.rs:1008-1051. -/
def computeSwap (now : Nat) (σ : Store) (offerPool offerPrec askPool askPrec offerAmount : Nat) (rate : Int) :
    Res Quote := do
  let params ← getAmp σ
  let amp ← Phoenix.Stable.currentAmp now params
  let maxPrec ← getMaxPrec σ
  let s ← add128 offerPool offerAmount
  let newX ← Phoenix.Stable.scaleValue s maxPrec 18
  let x ← Phoenix.Stable.scaleValue offerPool offerPrec 18
  let y ← Phoenix.Stable.scaleValue askPool askPrec 18
  let newAsk ← Phoenix.Stable.calcY amp newX x y maxPrec
  let gross ← subU askPool newAsk
  let spread ← Phoenix.Stable.spreadOf offerAmount gross
  let g ← toI128 gross
  let com ← Dec.mulInt g rate
  let ret ← subI g com
  .ok ⟨ret, spread, com⟩

/-- (sell token, its reserve, buy token, its reserve), contracts/pool_stable/src/contract.rs:870-890. -/
def sides (cfg : Phoenix.Stable.Config) (resA resB : Int) (offer : Addr) : Res (Addr × Int × Addr × Int) :=
  if offer = cfg.tokenA then .ok (cfg.tokenA, resA, cfg.tokenB, resB)
  else if offer = cfg.tokenB then .ok (cfg.tokenB, resB, cfg.tokenA, resA)
  else .error (.code 6)

/-- The new reserves, contracts/pool_stable/src/contract.rs:951-964. -/
def swapReserves (cfg : Phoenix.Stable.Config) (resA resB : Int) (offer : Addr) (received : Int) (r : Quote) :
    Res (Int × Int) :=
  if offer = cfg.tokenA then do
    let a ← addI resA received
    let b1 ← subI resB r.commission
    let b ← subI b1 r.ret
    .ok (a, b)
  else do
    let a1 ← subI resA r.commission
    let a ← subI a1 r.ret
    let b ← addI resB received
    .ok (a, b)

/-- The quote of `do_swap` (contracts/pool_stable/src/contract.rs:892-900): the precisions are read
by the token's address. -/
def quote (now : Nat) (σ : Store) (cfg : Phoenix.Stable.Config) (sellTok : Addr) (sellRes : Int) (buyTok : Addr)
    (buyRes amount : Int) : Res Quote := do
  let x ← toU128 sellRes
  let px ← getPrec σ sellTok
  let y ← toU128 buyRes
  let py ← getPrec σ buyTok
  let a ← toU128 amount
  let rate ← Dec.bps cfg.totalFeeBps
  computeSwap now σ x px y py a rate

/-- `swap`, contracts/pool_stable/src/contract.rs:437-473, with `do_swap`, 832-978. -/
def swap (me : Addr) (c : Ctx) (σ : Store) (L : Ledger) (sender offer : Addr) (amount : Int)
    (minOut maxSpread : Option Int) (deadline : Option Nat) (maxFee : Option Int) :
    Res (Store × Ledger × Int) := do
  Phoenix.Stable.checkDeadline c deadline
  validatePos (some amount)
  requireAuth c sender
  let cfg ← getConfig σ
  whenSome maxFee (fun f => req (cfg.totalFeeBps ≤ f) (.code 23))
  req (offer = cfg.tokenA ∨ offer = cfg.tokenB) (.code 12)
  whenSome maxSpread (fun s => req (0 ≤ s ∧ s ≤ cfg.maxSpreadBps) (.code 9))
  let ms ← Dec.bps (maxSpread.getD cfg.maxSpreadBps)
  let resA ← getResA σ
  let resB ← getResB σ
  let (sellTok, sellRes, buyTok, buyRes) ← sides cfg resA resB offer
  let r ← quote c.now σ cfg sellTok sellRes buyTok buyRes amount
  whenSome minOut (fun m => req (m ≤ r.ret) (.code 15))
  let g ← addI r.ret r.commission
  Phoenix.Stable.assertMaxSpread ms g r.spread
  let before := L.bal sellTok me
  let L1 ← L.transfer (c.as me) sellTok sender me amount
  let received ← subI (L1.bal sellTok me) before
  let L2 ← L1.transfer (c.as me) buyTok me sender r.ret
  let L3 ← L2.transfer (c.as me) buyTok me cfg.feeRecipient r.commission
  let (a, b) ← swapReserves cfg resA resB offer received r
  let σ1 := saveResA σ a
  let σ2 := saveResB σ1 b
  .ok (σ2, L3, r.ret)

/-- `withdraw_liquidity`, contracts/pool_stable/src/contract.rs:475-562. -/
def withdraw (me : Addr) (c : Ctx) (σ : Store) (L : Ledger) (sender : Addr)
    (shares minA minB : Int) (deadline : Option Nat) : Res (Store × Ledger × Int × Int) := do
  Phoenix.Stable.checkDeadline c deadline
  validatePos (some shares)
  validatePos (some minA)
  validatePos (some minB)
  requireAuth c sender
  let cfg ← getConfig σ
  let L1 ← L.transfer (c.as me) cfg.shareToken sender me shares
  let resA ← getResA σ
  let resB ← getResB σ
  let total ← getTotal σ
  req (total ≠ 0) (.code 5)
  let ratio ← Dec.fromRatio shares total
  let ra ← Dec.mulInt resA ratio
  let rb ← Dec.mulInt resB ratio
  req (¬ (ra < minA ∨ rb < minB)) (.code 3)
  let (σ1, L2) ← burnShares me c σ L1 cfg.shareToken shares
  let L3 ← L2.transfer (c.as me) cfg.tokenA me sender ra
  let L4 ← L3.transfer (c.as me) cfg.tokenB me sender rb
  let a ← subI resA ra
  let σ2 := saveResA σ1 a
  let b ← subI resB rb
  let σ3 := saveResB σ2 b
  .ok (σ3, L4, ra, rb)

/-- `if let Some(new_admin) = new_admin { save_admin }`, contracts/pool_stable/src/contract.rs:583-585. -/
def putAdmin (σ : Store) (a : Option Addr) : Store :=
  match a with
  | some a => saveAdmin σ a
  | none => σ

/-- `update_config`, contracts/pool_stable/src/contract.rs:564-603. -/
def updateConfig (σ : Store) (sender : Addr) (u : Phoenix.Stable.ConfigUpdate) : Res Store := do
  let admin ← getAdmin σ
  req (sender = admin) (.code 11)
  let cfg ← getConfig σ
  let σ1 := putAdmin σ u.newAdmin
  validateBpsOpt u.totalFeeBps
  validateBpsOpt u.maxSlippageBps
  validateBpsOpt u.maxSpreadBps
  .ok (saveConfig σ1 { cfg with
    totalFeeBps := u.totalFeeBps.getD cfg.totalFeeBps
    feeRecipient := u.feeRecipient.getD cfg.feeRecipient
    maxSlippageBps := u.maxSlippageBps.getD cfg.maxSlippageBps
    maxSpreadBps := u.maxSpreadBps.getD cfg.maxSpreadBps })

/-- One transaction against the pool's store and the tokens
(contracts/pool_stable/src/contract.rs:146-603). -/
def step (me : Addr) (s : Store × Ledger) : Phoenix.Stable.Tx → Res (Store × Ledger)
  | .token c tok op => do
    let L ← s.2.call c tok op
    .ok (s.1, L)
  | .pool c (.init i) => init me c s.1 s.2 i
  | .pool c (.provide sender a b cu dl ms) => provide me c s.1 s.2 sender a b cu dl ms
  | .pool c (.swap sender offer amount mo ms dl mf) => do
    let (σ, L, _) ← swap me c s.1 s.2 sender offer amount mo ms dl mf
    .ok (σ, L)
  | .pool c (.withdraw sender sh mA mB dl) => do
    let (σ, L, _, _) ← withdraw me c s.1 s.2 sender sh mA mB dl
    .ok (σ, L)
  | .pool _ (.updateConfig sender u) => do
    let σ ← updateConfig s.1 sender u
    .ok (σ, s.2)

/-- A failed transaction leaves the store and the tokens unchanged (modelling device, nothing of /repo). -/
def exec (me : Addr) (s : Store × Ledger) (t : Phoenix.Stable.Tx) : Store × Ledger :=
  match step me s t with
  | .ok s' => s'
  | .error _ => s

/-- State after a whole history (modelling device, nothing of /repo). -/
def run (me : Addr) (s : Store × Ledger) (ts : List Phoenix.Stable.Tx) : Store × Ledger := ts.foldl (exec me) s

end Phoenix.Store.Stable
