import Verif.Model.Store
/-
contracts/pool against the key-value store.  Every read and write is where the source has it;
the arithmetic (`compute_swap`, `get_deposit_amounts`, ...) is shared with Verif.Model.Pool.
-/
namespace Phoenix.Store.Pool
open Phoenix Phoenix.Store

/-- `DataKey::TotalShares = 0`, contracts/pool/src/storage.rs:12-27. -/
def kTotal : Key := .u32 0
/-- `DataKey::ReserveA = 1`, contracts/pool/src/storage.rs:12-27. -/
def kResA : Key := .u32 1
/-- `DataKey::ReserveB = 2`, contracts/pool/src/storage.rs:12-27. -/
def kResB : Key := .u32 2
/-- `DataKey::Admin = 3`, contracts/pool/src/storage.rs:12-27. -/
def kAdmin : Key := .u32 3
/-- `DataKey::Initialized = 4`, contracts/pool/src/storage.rs:12-27. -/
def kInit : Key := .u32 4
/-- `CONFIG`, contracts/pool/src/storage.rs:54. -/
def kConfig : Key := .sym "CONFIG"
/-- `DEFAULT_SLIPPAGE_BPS`, contracts/pool/src/storage.rs:56. -/
def kSlippage : Key := .sym "DSLIPBPS"

/-- `save_default_slippage_bps`, contracts/pool/src/storage.rs:57-64. -/
def saveSlippage (σ : Store) (x : Int) : Store := set σ .pers kSlippage (.i64 x)
/-- `get_default_slippage_bps`, contracts/pool/src/storage.rs:66-79. -/
def getSlippage (σ : Store) : Res Int := load σ .pers kSlippage asI64 .panic
/-- `get_config`, contracts/pool/src/storage.rs:91-99. -/
def getConfig (σ : Store) : Res Phoenix.Pool.Config := load σ .pers kConfig asPoolConfig .panic
/-- `save_config`, contracts/pool/src/storage.rs:101-108. -/
def saveConfig (σ : Store) (c : Phoenix.Pool.Config) : Store := set σ .pers kConfig (.poolConfig c)
/-- `save_admin`, contracts/pool/src/storage.rs:216-223. -/
def saveAdmin (σ : Store) (a : Addr) : Store := set σ .pers kAdmin (.addr a)
/-- `save_total_shares`, contracts/pool/src/storage.rs:225-232. -/
def saveTotal (σ : Store) (x : Int) : Store := set σ .pers kTotal (.i128 x)
/-- `save_pool_balance_a`, contracts/pool/src/storage.rs:234-241. -/
def saveResA (σ : Store) (x : Int) : Store := set σ .pers kResA (.i128 x)
/-- `save_pool_balance_b`, contracts/pool/src/storage.rs:243-250. -/
def saveResB (σ : Store) (x : Int) : Store := set σ .pers kResB (.i128 x)
/-- `get_admin`, contracts/pool/src/storage.rs:269-278. -/
def getAdmin (σ : Store) : Res Addr := load σ .pers kAdmin asAddr .panic
/-- `get_total_shares`, contracts/pool/src/storage.rs:280-289. -/
def getTotal (σ : Store) : Res Int := load σ .pers kTotal asI128 .panic
/-- `get_pool_balance_a`, contracts/pool/src/storage.rs:290-299. -/
def getResA (σ : Store) : Res Int := load σ .pers kResA asI128 .panic
/-- `get_pool_balance_b`, contracts/pool/src/storage.rs:301-310. -/
def getResB (σ : Store) : Res Int := load σ .pers kResB asI128 .panic
/-- `is_initialized`, contracts/pool/src/storage.rs:439-444. -/
def isInit (σ : Store) : Res Bool := loadOr σ .pers kInit asBool false
/-- `set_initialized`, contracts/pool/src/storage.rs:446-453. -/
def setInit (σ : Store) : Store := set σ .pers kInit (.bool true)

/-- `mint_shares`, contracts/pool/src/storage.rs:252-258. -/
def mintShares (me : Addr) (c : Ctx) (σ : Store) (L : Ledger) (shareToken to_ : Addr) (amount : Int) :
    Res (Store × Ledger) := do
  let total ← getTotal σ
  let L' ← L.mint (c.as me) shareToken to_ amount
  let t ← addI total amount
  .ok (saveTotal σ t, L')

/-- `burn_shares`, contracts/pool/src/storage.rs:260-266. -/
def burnShares (me : Addr) (c : Ctx) (σ : Store) (L : Ledger) (shareToken : Addr) (amount : Int) :
    Res (Store × Ledger) := do
  let total ← getTotal σ
  let L' ← L.burn (c.as me) shareToken me amount
  let t ← subI total amount
  .ok (saveTotal σ t, L')

/-- `initialize`, contracts/pool/src/contract.rs:151-265, in the order of the source (the order
of the checks is that of the source; `Verif.Model.Pool.init` has the same). -/
def init (me : Addr) (σ : Store) (L : Ledger) (i : Phoenix.Pool.InitArgs) : Res (Store × Ledger) := do
  let b ← isInit σ
  req (b = false) (.code 17)
  validateBps i.swapFeeBps
  validateBps i.maxSlippageBps
  validateBps i.maxSpreadBps
  validateBps i.maxReferralBps
  validateBps i.defaultSlippageBps
  validateBps i.maxAllowedFeeBps
  req (i.swapFeeBps ≤ i.maxAllowedFeeBps) (.code 25)
  let σ1 := setInit σ
  req (i.tokenA < i.tokenB) (.code 18)
  let t ← Token.construct me i.shareDecimals
  req (0 < i.minBond) (.code 2)
  req (0 < i.minReward) (.code 3)
  req (i.maxComplexity ≠ 0) (.code 12)
  let σ2 := saveConfig σ1
    { tokenA := i.tokenA, tokenB := i.tokenB, shareToken := i.shareToken,
      stakeContract := i.stakeContract, totalFeeBps := i.swapFeeBps,
      feeRecipient := i.feeRecipient, maxSlippageBps := i.maxSlippageBps,
      maxSpreadBps := i.maxSpreadBps, maxReferralBps := i.maxReferralBps }
  let σ3 := saveSlippage σ2 i.defaultSlippageBps
  let σ4 := saveAdmin σ3 i.admin
  let σ5 := saveTotal σ4 0
  let σ6 := saveResA σ5 0
  let σ7 := saveResB σ6 0
  .ok (σ7, upd L i.shareToken t)

/-- `match (desired_a, desired_b)`, contracts/pool/src/contract.rs:312-338; the default slippage
is read even when a custom one is given (`unwrap_or` evaluates its argument). -/
def chooseAmounts (σ : Store) (resA resB : Int) (desiredA minA desiredB minB custom : Option Int) :
    Res (Int × Int) :=
  match desiredA, desiredB with
  | some a, some b =>
    if 0 < a ∧ 0 < b then do
      let dflt ← getSlippage σ
      let slip ← Dec.bps (custom.getD dflt)
      Phoenix.Pool.depositAmounts a minA b minB resA resB slip
    else .error (.code 3)
  | _, _ => .error (.code 3)

/-- The share computation, contracts/pool/src/contract.rs:361-386. -/
def newShares (me : Addr) (c : Ctx) (σ : Store) (L : Ledger) (shareToken : Addr)
    (amtA amtB balA balB resA resB total : Int) : Res (Int × Store × Ledger) :=
  if 0 < resA ∧ 0 < resB then do
    let ma ← mulI balA total
    let sa ← divI ma resA
    let mb ← mulI balB total
    let sb ← divI mb resB
    .ok (min sa sb, σ, L)
  else do
    let m ← mulI amtA amtB
    let s ← Phoenix.Pool.isqrt m
    req (¬ Phoenix.Pool.MINIMUM_LIQUIDITY ≥ s) (.code 13)
    let (σ', L') ← mintShares me c σ L shareToken me Phoenix.Pool.MINIMUM_LIQUIDITY
    let n ← subI s Phoenix.Pool.MINIMUM_LIQUIDITY
    .ok (n, σ', L')

/-- `provide_liquidity`, contracts/pool/src/contract.rs:268-408: the reserves and the total are
read again after the transfers. -/
def provide (me : Addr) (c : Ctx) (σ : Store) (L : Ledger) (sender : Addr)
    (desiredA minA desiredB minB custom : Option Int) (deadline : Option Nat) : Res (Store × Ledger) := do
  Phoenix.Pool.checkDeadline c deadline
  validatePos desiredA
  validatePos minA
  validatePos desiredB
  validatePos minB
  requireAuth c sender
  let cfg ← getConfig σ
  let resA ← getResA σ
  let resB ← getResB σ
  whenSome custom (fun s => req (s ≤ cfg.maxSlippageBps) (.code 2))
  let (a, b) ← chooseAmounts σ resA resB desiredA minA desiredB minB custom
  let iniA := L.bal cfg.tokenA me
  let iniB := L.bal cfg.tokenB me
  let L1 ← L.transfer (c.as me) cfg.tokenA sender me a
  let L2 ← L1.transfer (c.as me) cfg.tokenB sender me b
  let finA := L2.bal cfg.tokenA me
  let finB := L2.bal cfg.tokenB me
  let _ ← subI finA iniA
  let _ ← subI finB iniB
  let resA' ← getResA σ
  let resB' ← getResB σ
  let balA := L2.bal cfg.tokenA me
  let balB := L2.bal cfg.tokenB me
  let total ← getTotal σ
  let (n, σ1, L3) ← newShares me c σ L2 cfg.shareToken a b balA balB resA' resB' total
  let m ← subI n total
  let (σ2, L4) ← mintShares me c σ1 L3 cfg.shareToken sender m
  let σ3 := saveResA σ2 balA
  let σ4 := saveResB σ3 balB
  .ok (σ4, L4)

/-- Reserves ordered as (offered, asked), contracts/pool/src/contract.rs:828-835. -/
def sides (cfg : Phoenix.Pool.Config) (resA resB : Int) (offer : Addr) : Res (Int × Int) :=
  if offer = cfg.tokenA then .ok (resA, resB)
  else if offer = cfg.tokenB then .ok (resB, resA)
  else .error (.code 16)

/-- The new reserves, contracts/pool/src/contract.rs:927-943. -/
def swapReserves (cfg : Phoenix.Pool.Config) (resA resB : Int) (offer : Addr) (received : Int)
    (r : Phoenix.Pool.ComputeSwap) : Res (Int × Int) :=
  if offer = cfg.tokenA then do
    let a ← addI resA received
    let b1 ← subI resB r.commission
    let b2 ← subI b1 r.referral
    let b ← subI b2 r.ret
    .ok (a, b)
  else do
    let a1 ← subI resA r.commission
    let a2 ← subI a1 r.referral
    let a ← subI a2 r.ret
    let b ← addI resB received
    .ok (a, b)

/-- `swap`, contracts/pool/src/contract.rs:411-448, with `do_swap`, 788-962. -/
def swap (me : Addr) (c : Ctx) (σ : Store) (L : Ledger) (sender offer : Addr) (amount : Int)
    (minOut maxSpread : Option Int) (deadline : Option Nat) (maxFee : Option Int) :
    Res (Store × Ledger × Int) := do
  Phoenix.Pool.checkDeadline c deadline
  validatePos (some amount)
  requireAuth c sender
  let cfg ← getConfig σ
  whenSome maxFee (fun f => req (cfg.totalFeeBps ≤ f) (.code 24))
  whenSome maxSpread (fun s => req (0 ≤ s ∧ s ≤ cfg.maxSpreadBps) (.code 19))
  let ms ← Dec.bps (maxSpread.getD cfg.maxSpreadBps)
  let resA ← getResA σ
  let resB ← getResB σ
  let (sell, buy) ← sides cfg resA resB offer
  let fee ← Dec.bps cfg.totalFeeBps
  let r ← Phoenix.Pool.computeSwap sell buy amount fee 0
  whenSome minOut (fun m => req (m ≤ r.ret) (.code 21))
  let g1 ← addI r.ret r.commission
  let gross ← addI g1 r.referral
  Phoenix.Pool.assertMaxSpread ms gross r.spread
  let sellTok := if offer = cfg.tokenA then cfg.tokenA else cfg.tokenB
  let buyTok := if offer = cfg.tokenA then cfg.tokenB else cfg.tokenA
  let before := L.bal sellTok me
  let L1 ← L.transfer (c.as me) sellTok sender me amount
  let received ← subI (L1.bal sellTok me) before
  let L2 ← L1.transfer (c.as me) buyTok me sender r.ret
  let L3 ← L2.transfer (c.as me) buyTok me cfg.feeRecipient r.commission
  let (a, b) ← swapReserves cfg resA resB offer received r
  let σ1 := saveResA σ a
  let σ2 := saveResB σ1 b
  .ok (σ2, L3, r.ret)

/-- `withdraw_liquidity`, contracts/pool/src/contract.rs:450-537. -/
def withdraw (me : Addr) (c : Ctx) (σ : Store) (L : Ledger) (sender : Addr)
    (shares minA minB : Int) (deadline : Option Nat) : Res (Store × Ledger × Int × Int) := do
  Phoenix.Pool.checkDeadline c deadline
  validatePos (some shares)
  validatePos (some minA)
  validatePos (some minB)
  requireAuth c sender
  let cfg ← getConfig σ
  let L1 ← L.transfer (c.as me) cfg.shareToken sender me shares
  let resA ← getResA σ
  let resB ← getResB σ
  let total ← getTotal σ
  req (total ≠ 0) (.code 13)
  let ratio ← Dec.fromRatio shares total
  let ra ← Dec.mulInt resA ratio
  let rb ← Dec.mulInt resB ratio
  req (¬ (ra < minA ∨ rb < minB)) (.code 4)
  let (σ1, L2) ← burnShares me c σ L1 cfg.shareToken shares
  let L3 ← L2.transfer (c.as me) cfg.tokenA me sender ra
  let L4 ← L3.transfer (c.as me) cfg.tokenB me sender rb
  let a ← subI resA ra
  let σ2 := saveResA σ1 a
  let b ← subI resB rb
  let σ3 := saveResB σ2 b
  .ok (σ3, L4, ra, rb)

/-- `if let Some(new_admin) = new_admin { save_admin }`, contracts/pool/src/contract.rs:557-559. -/
def putAdmin (σ : Store) (a : Option Addr) : Store :=
  match a with
  | some a => saveAdmin σ a
  | none => σ

/-- `update_config`, contracts/pool/src/contract.rs:540-581: the new administrator is saved
before the fees are checked. -/
def updateConfig (c : Ctx) (σ : Store) (u : Phoenix.Pool.ConfigUpdate) : Res Store := do
  let admin ← getAdmin σ
  requireAuth c admin
  let cfg ← getConfig σ
  let σ1 := putAdmin σ u.newAdmin
  validateBpsOpt u.totalFeeBps
  validateBpsOpt u.maxSlippageBps
  validateBpsOpt u.maxSpreadBps
  validateBpsOpt u.maxReferralBps
  .ok (saveConfig σ1 { cfg with
    totalFeeBps := u.totalFeeBps.getD cfg.totalFeeBps
    feeRecipient := u.feeRecipient.getD cfg.feeRecipient
    maxSlippageBps := u.maxSlippageBps.getD cfg.maxSlippageBps
    maxSpreadBps := u.maxSpreadBps.getD cfg.maxSpreadBps
    maxReferralBps := u.maxReferralBps.getD cfg.maxReferralBps })

/-- `upgrade`, contracts/pool/src/contract.rs:583-589. -/
def upgrade (c : Ctx) (σ : Store) (x : Int) : Res Store := do
  let admin ← getAdmin σ
  requireAuth c admin
  .ok (saveSlippage σ x)

/-- One transaction against the pool's store and the tokens
(contracts/pool/src/contract.rs:151-589). -/
def step (me : Addr) (s : Store × Ledger) : Phoenix.Pool.Tx → Res (Store × Ledger)
  | .token c tok op => do
    let L ← s.2.call c tok op
    .ok (s.1, L)
  | .pool _ (.init i) => init me s.1 s.2 i
  | .pool c (.provide sender dA mA dB mB cu dl) => provide me c s.1 s.2 sender dA mA dB mB cu dl
  | .pool c (.swap sender offer amount mo ms dl mf) => do
    let (σ, L, _) ← swap me c s.1 s.2 sender offer amount mo ms dl mf
    .ok (σ, L)
  | .pool c (.withdraw sender sh mA mB dl) => do
    let (σ, L, _, _) ← withdraw me c s.1 s.2 sender sh mA mB dl
    .ok (σ, L)
  | .pool c (.updateConfig u) => do
    let σ ← updateConfig c s.1 u
    .ok (σ, s.2)
  | .pool c (.upgrade x) => do
    let σ ← upgrade c s.1 x
    .ok (σ, s.2)

/-- A failed transaction leaves the store and the tokens unchanged (modelling device, nothing of /repo). -/
def exec (me : Addr) (s : Store × Ledger) (t : Phoenix.Pool.Tx) : Store × Ledger :=
  match step me s t with
  | .ok s' => s'
  | .error _ => s

/-- State after a whole history (modelling device, nothing of /repo). -/
def run (me : Addr) (s : Store × Ledger) (ts : List Phoenix.Pool.Tx) : Store × Ledger := ts.foldl (exec me) s

end Phoenix.Store.Pool
