import Verif.Model.Life
import Verif.Model.World
/-
contracts/factory with its storage, key by key, and the lifetimes of its entries: every `extend_ttl` of
the source is there.  All of the factory's variables are persistent entries.  The factory deploys and
calls other contracts, and routers ask it for pools, so the transactions are those of the whole protocol
(Verif.Model.World); in the state of the protocol that a program is given, the entry of this factory is
not used.
Not modelled: the lifetimes of the entries of the other contracts involved (Verif.Model.LifePool and the
others); such an entry makes a transaction fail through the `blocked` of `Act.call`.
-/
namespace Phoenix.Life.Factory
open Phoenix Phoenix.Store Phoenix.Life
open Phoenix.World (World Info Kind Host Call Tx)

/-- `DataKey::Config`, contracts/factory/src/storage.rs:9. -/
def kConfig : Key := .u32 1
/-- `DataKey::LpVec`, contracts/factory/src/storage.rs:10. -/
def kPools : Key := .u32 2
/-- `DataKey::Initialized`, contracts/factory/src/storage.rs:11. -/
def kInit : Key := .u32 3
/-- `STABLE_WASM_HASH`, contracts/factory/src/storage.rs:41. -/
def kStable : Key := .sym "stabwasm"
/-- `PairTupleKey`, contracts/factory/src/storage.rs:14-19. -/
def kPair (a b : Addr) : Key := .mcons "token_a" (.addr a) (.mcons "token_b" (.addr b) .mnil)

/-- `save_stable_wasm_hash`, contracts/factory/src/storage.rs:43-50. -/
def saveStable (x : Nat) : Prog Unit := do
  write .pers kStable (.hash x)
  keep kStable
/-- `get_stable_wasm_hash`, contracts/factory/src/storage.rs:52-66. -/
def getStable : Prog Nat := do
  let x ← fetch .pers kStable asHash .panic
  keep kStable
  pure x
/-- `save_config`, contracts/factory/src/storage.rs:135-142. -/
def saveConfig (c : FactoryConfig) : Prog Unit := do
  write .pers kConfig (.factoryConfig c)
  keep kConfig
/-- `get_config`, contracts/factory/src/storage.rs:144-158. -/
def getConfig : Prog FactoryConfig := do
  let c ← fetch .pers kConfig asFactoryConfig .panic
  keep kConfig
  pure c
/-- `get_lp_vec`, contracts/factory/src/storage.rs:160-174. -/
def getPools : Prog (List Addr) := do
  let l ← fetch .pers kPools asAddrs .panic
  keep kPools
  pure l
/-- `save_lp_vec`, contracts/factory/src/storage.rs:176-183. -/
def savePools (l : List Addr) : Prog Unit := do
  write .pers kPools (.addrs l)
  keep kPools
/-- `save_lp_vec_with_tuple_as_key`, contracts/factory/src/storage.rs:185-206. -/
def savePair (a b P : Addr) : Prog Unit := do
  write .pers (kPair a b) (.addr P)
  keep (kPair a b)
/-- `is_initialized`, contracts/factory/src/storage.rs:208-213. -/
def isInit : Prog Bool := fetchOr .pers kInit asBool false
/-- `set_initialized`, contracts/factory/src/storage.rs:215-223. -/
def setInit : Prog Unit := do
  write .pers kInit (.bool true)
  keep kInit

/-- `initialize`, contracts/factory/src/contract.rs:91-138. -/
def init (h : Host) (w : World) (F admin : Addr) (lp stb stk tok : Nat) (wl : List Addr) (dec : Nat) : Prog World := do
  let b ← isInit
  req (b = false) (.code 1)
  req (¬ wl = []) (.code 2)
  setInit
  let w1 ← World.deploy w (h.hopAddr F admin) .multihop
  let m ← Multihop.init (w1.hop (h.hopAddr F admin)) admin F
  saveConfig ⟨admin, h.hopAddr F admin, lp, stk, tok, wl, dec⟩
  saveStable stb
  savePools []
  pure { w1 with hop := upd w1.hop (h.hopAddr F admin) (some m) }

/-- the wasm hash to deploy, contracts/factory/src/contract.rs:176-179 -/
def poolHash (cfg : FactoryConfig) : Kind → Prog Nat
  | .xyk => pure cfg.lpHash
  | .stable => getStable

/-- `create_liquidity_pool`, contracts/factory/src/contract.rs:141-235: the configuration is read twice. -/
def create (h : Host) (w : World) (c : Ctx) (F sender : Addr) (i : Info) (k : Kind) (amp : Option Nat)
    (slippage maxFee : Int) : Prog World := do
  requireAuth c sender
  keepInst
  World.validatePoolInfo k amp
  let cfg ← getConfig
  req (sender ∈ cfg.whitelist) (.code 3)
  World.validateTokenInfo i
  let cfg ← getConfig
  let _ ← poolHash cfg k
  let w1 ← World.deploy w (h.poolAddr F i.tokenA i.tokenB) k.code
  validateBps i.swapFeeBps
  validateBps i.maxSlippageBps
  validateBps i.maxSpreadBps
  validateBps i.maxReferralBps
  validateBps slippage
  validateBps maxFee
  let w2 ← World.initPool h w1 c F (h.poolAddr F i.tokenA i.tokenB) i cfg.lpDecimals slippage maxFee amp k
  let l ← getPools
  savePools (l ++ [h.poolAddr F i.tokenA i.tokenB])
  savePair i.tokenA i.tokenB (h.poolAddr F i.tokenA i.tokenB)
  pure w2

/-- `update_whitelisted_accounts`, contracts/factory/src/contract.rs:237-279. -/
def whitelist (c : Ctx) (sender : Addr) (add remove : List Addr) : Prog Unit := do
  requireAuth c sender
  keepInst
  let cfg ← getConfig
  req (cfg.admin = sender) (.code 3)
  saveConfig { cfg with whitelist := Phoenix.Factory.removeAll (Phoenix.Factory.addAll cfg.whitelist add) remove }

/-- `update_wasm_hashes`, contracts/factory/src/contract.rs:281-303. -/
def hashes (c : Ctx) (lp stk tok : Option Nat) : Prog Unit := do
  let cfg ← getConfig
  requireAuth c cfg.admin
  keepInst
  saveConfig { cfg with lpHash := lp.getD cfg.lpHash, stakeHash := stk.getD cfg.stakeHash, tokenHash := tok.getD cfg.tokenHash }

/-- `update`, contracts/factory/src/contract.rs:497-503; the new code is assumed to be the same. -/
def update (c : Ctx) (stb : Nat) : Prog Unit := do
  let cfg ← getConfig
  requireAuth c cfg.admin
  saveStable stb

/-- one half of the lookup: the entry of a pair, which is extended if there is one,
contracts/factory/src/contract.rs:347-371, 373-397 -/
def lookupOne (a b : Addr) : Prog (Option Addr) := do
  let o ← fetchOr .pers (kPair a b) (fun c => (asAddr c).map some) none
  keepIfThere (kPair a b)
  pure o

/-- the second half of the lookup, contracts/factory/src/contract.rs:373-403 -/
def lookupReverted (a b : Addr) : Prog Addr := do
  let o ← lookupOne b a
  match o with
  | some P => pure P
  | none => .fail (.code 4)

/-- `query_for_pool_by_token_pair`, contracts/factory/src/contract.rs:343-404. -/
def lookup (a b : Addr) : Prog Addr := do
  keepInst
  let o ← lookupOne a b
  match o with
  | some P => pure P
  | none => lookupReverted a b

/-- the loop of the router's `swap`, contracts/multihop/src/contract.rs:106-142, when it asks this factory -/
def routeLoop (w : World) (c : Ctx) (F recipient : Addr) (spread : Option Int) (deadline : Option Nat) (maxFee : Option Int) :
    List Multihop.Op → Int → Prog World
  | [], _ => pure w
  | op :: ops, x => do
    World.expect w F .factory
    let P ← lookup op.offer op.ask
    let (w', r) ← World.poolSwap w c P recipient op.offer x op.min spread deadline maxFee
    routeLoop w' c F recipient spread deadline maxFee ops r

/-- `swap` of a router, contracts/multihop/src/contract.rs:81-143: the factory it asks may be this one or
another one. -/
def route (w : World) (c : Ctx) (F H recipient : Addr) (ops : List Multihop.Op) (spread : Option Int) (amount : Int)
    (deadline : Option Nat) (maxFee : Option Int) : Prog World := do
  req (¬ ops = []) (.code 2)
  Multihop.verifySwap ops
  requireAuth c recipient
  let m ← Multihop.loaded (w.hop H)
  if m.factory = F then routeLoop w (c.as H) F recipient spread deadline maxFee ops amount
  else do
    let (w', _) ← World.hopLoop w (c.as H) m.factory recipient spread deadline maxFee ops amount
    pure w'

/-- The program of one transaction: the factory's part of it (contracts/factory/src/contract.rs:91-503).
A transaction that neither calls this factory nor a router is not the factory's business. -/
def prog (h : Host) (F : Addr) (t : Tx) (w : World) : Prog World :=
  match t.call with
  | .facInit F' admin lp stb stk tok wl dec =>
    if F' = F then do
      World.expect w F .factory
      init h w F admin lp stb stk tok wl dec
    else lift (World.step h w t.ctx t.call)
  | .create F' sender i k amp sl mf =>
    if F' = F then do
      World.expect w F .factory
      create h w t.ctx F sender i k amp sl mf
    else lift (World.step h w t.ctx t.call)
  | .whitelist F' sender add rem =>
    if F' = F then do
      World.expect w F .factory
      whitelist t.ctx sender add rem
      pure w
    else lift (World.step h w t.ctx t.call)
  | .hashes F' lp stk tok =>
    if F' = F then do
      World.expect w F .factory
      hashes t.ctx lp stk tok
      pure w
    else lift (World.step h w t.ctx t.call)
  | .facUpdate F' stb =>
    if F' = F then do
      World.expect w F .factory
      update t.ctx stb
      pure w
    else lift (World.step h w t.ctx t.call)
  | .hopSwap H recipient ops spread amount dl mf => do
    World.expect w H .multihop
    route w t.ctx F H recipient ops spread amount dl mf
  | _ => lift (World.step h w t.ctx t.call)

/-- whether the factory is called: by the transaction itself, or by a router that asks it for a pool (modelling device, nothing of /repo) -/
def callsOf (F : Addr) (t : Tx) (w : World) : Bool :=
  match t.call with
  | .facInit F' _ _ _ _ _ _ _ => decide (F' = F)
  | .create F' _ _ _ _ _ _ => decide (F' = F)
  | .whitelist F' _ _ _ => decide (F' = F)
  | .hashes F' _ _ _ => decide (F' = F)
  | .facUpdate F' _ => decide (F' = F)
  | .hopSwap H _ _ _ _ _ _ => decide ((w.hop H).map (·.factory) = some F)
  | _ => false

/-- the factory at `F`, as a contract whose storage has lifetimes (modelling device, nothing of /repo) -/
def contract (h : Host) (F : Addr) : Contract Tx World := ⟨prog h F, fun t => t.ctx.seq, callsOf F⟩

end Phoenix.Life.Factory
