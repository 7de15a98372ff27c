import Verif.Model.LifeFactory
/-
contracts/multihop and contracts/trader with their storage, key by key, and the lifetimes of their entries:
every `extend_ttl` of the source is there.  As in Verif.Model.LifeFactory the transactions are those of the
whole protocol, and in the state of the protocol that a program is given the entry of the contract itself is
not used.
-/
namespace Phoenix.Life.Router
open Phoenix Phoenix.Store Phoenix.Life
open Phoenix.World (World Host Tx)

/-- `DataKey::FactoryKey`, contracts/multihop/src/storage.rs:25. -/
def kFactory : Key := .cons (.sym "FactoryKey") .nil
/-- `DataKey::Admin`, contracts/multihop/src/storage.rs:26. -/
def kAdmin : Key := .cons (.sym "Admin") .nil
/-- `DataKey::Initialized`, contracts/multihop/src/storage.rs:27. -/
def kInit : Key := .cons (.sym "Initialized") .nil

/-- `save_factory`, contracts/multihop/src/storage.rs:69-74. -/
def saveFactory (F : Addr) : Prog Unit := do
  write .inst kFactory (.addr F)
  keepInstLong
/-- `get_factory`, contracts/multihop/src/storage.rs:76-88. -/
def getFactory : Prog Addr := do
  let a ← fetch .inst kFactory asAddr .panic
  keepInstLong
  pure a
/-- `save_admin`, contracts/multihop/src/storage.rs:90-95. -/
def saveAdmin (a : Addr) : Prog Unit := do
  write .inst kAdmin (.addr a)
  keepInstLong
/-- `is_initialized`, contracts/multihop/src/storage.rs:113-118. -/
def isInit : Prog Bool := fetchOr .pers kInit asBool false
/-- `set_initialized`, contracts/multihop/src/storage.rs:120-127. -/
def setInit : Prog Unit := do
  write .pers kInit (.bool true)
  keep kInit

/-- `initialize`, contracts/multihop/src/contract.rs:61-78. -/
def init (admin F : Addr) : Prog Unit := do
  let b ← isInit
  req (b = false) (.code 1)
  setInit
  saveAdmin admin
  saveFactory F

/-- `swap`, contracts/multihop/src/contract.rs:81-143. -/
def swap (w : World) (c : Ctx) (H recipient : Addr) (ops : List Multihop.Op) (spread : Option Int) (amount : Int)
    (deadline : Option Nat) (maxFee : Option Int) : Prog World := do
  req (¬ ops = []) (.code 2)
  Multihop.verifySwap ops
  requireAuth c recipient
  keepInst
  let F ← getFactory
  let (w', _) ← World.hopLoop w (c.as H) F recipient spread deadline maxFee ops amount
  pure w'

/-- The program of one transaction: the router's part of it, contracts/multihop/src/contract.rs:61-143.  A
router that a factory deploys (contracts/factory/src/contract.rs:114-120) is initialised in the same
transaction; here histories begin with a router that is deployed already. -/
def prog (h : Host) (H : Addr) (t : Tx) (w : World) : Prog World :=
  match t.call with
  | .hopInit H' admin F =>
    if H' = H then do
      World.expect w H .multihop
      init admin F
      pure w
    else lift (World.step h w t.ctx t.call)
  | .hopSwap H' recipient ops spread amount dl mf =>
    if H' = H then do
      World.expect w H .multihop
      swap w t.ctx H recipient ops spread amount dl mf
    else lift (World.step h w t.ctx t.call)
  | _ => lift (World.step h w t.ctx t.call)

/-- whether the router is called (modelling device, nothing of /repo) -/
def callsOf (H : Addr) (t : Tx) : Bool :=
  match t.call with
  | .hopInit H' _ _ => decide (H' = H)
  | .hopSwap H' _ _ _ _ _ _ => decide (H' = H)
  | _ => false

/-- the router at `H`, as a contract whose storage has lifetimes (modelling device, nothing of /repo) -/
def contract (h : Host) (H : Addr) : Contract Tx World := ⟨prog h H, fun t => t.ctx.seq, fun t _ => callsOf H t⟩

end Phoenix.Life.Router

namespace Phoenix.Life.Trader
open Phoenix Phoenix.Store Phoenix.Life
open Phoenix.World (World Host Tx)

/-- `DataKey::Admin`, contracts/trader/src/storage.rs:11. -/
def kAdmin : Key := .u32 0
/-- `DataKey::ContractId`, contracts/trader/src/storage.rs:12. -/
def kName : Key := .u32 1
/-- `DataKey::Pair`, contracts/trader/src/storage.rs:13. -/
def kPair : Key := .u32 2
/-- `DataKey::Token`, contracts/trader/src/storage.rs:14. -/
def kToken : Key := .u32 3
/-- `DataKey::IsInitialized`, contracts/trader/src/storage.rs:16. -/
def kInit : Key := .u32 5

/-- `save_admin`, contracts/trader/src/storage.rs:53-60. -/
def saveAdmin (a : Addr) : Prog Unit := do
  write .pers kAdmin (.addr a)
  keep kAdmin
/-- `get_admin`, contracts/trader/src/storage.rs:62-78. -/
def getAdmin : Prog Addr := do
  let a ← fetch .pers kAdmin asAddr (.code 1)
  keep kAdmin
  pure a
/-- `save_name`, contracts/trader/src/storage.rs:80-89; the transactions of the model leave the name out: it
is stored as an empty text here. -/
def saveName : Prog Unit := do
  write .pers kName (.text "")
  keep kName
/-- `save_pair`, contracts/trader/src/storage.rs:109-116. -/
def savePair (a b : Addr) : Prog Unit := do
  write .pers kPair (.addrPair a b)
  keep kPair
/-- `get_pair`, contracts/trader/src/storage.rs:118-134. -/
def getPair : Prog (Addr × Addr) := do
  let p ← fetch .pers kPair asAddrPair (.code 3)
  keep kPair
  pure p
/-- `save_output_token`, contracts/trader/src/storage.rs:136-143. -/
def saveToken (a : Addr) : Prog Unit := do
  write .pers kToken (.addr a)
  keep kToken
/-- `get_output_token`, contracts/trader/src/storage.rs:145-161. -/
def getToken : Prog Addr := do
  let a ← fetch .pers kToken asAddr (.code 4)
  keep kToken
  pure a
/-- `set_initialized`, contracts/trader/src/storage.rs:163-172. -/
def setInit : Prog Unit := do
  write .pers kInit (.bool true)
  keep kInit
/-- `is_initialized`, contracts/trader/src/storage.rs:174-179. -/
def isInit : Prog Bool := fetchOr .pers kInit asBool false

/-- `initialize`, contracts/trader/src/contract.rs:68-100: it leaves the instance's lifetime alone. -/
def init (c : Ctx) (admin a b out : Addr) : Prog Unit := do
  requireAuth c admin
  let x ← isInit
  req (x = false) (.code 10)
  saveAdmin admin
  saveName
  savePair a b
  saveToken out
  setInit

/-- `trade_token`, contracts/trader/src/contract.rs:103-171. -/
def trade (w : World) (c : Ctx) (T sender token pool : Addr) (amount : Option Nat) (spread : Option Int)
    (deadline : Option Nat) (min maxFee : Option Int) : Prog World := do
  requireAuth c sender
  keepInst
  let admin ← getAdmin
  req (sender = admin) (.code 6)
  Phoenix.Trader.checkSpread spread
  let p ← getPair
  req (¬ (token ≠ p.1 ∧ token ≠ p.2)) (.code 7)
  let (w', _) ← World.poolSwap w (c.as T) pool T token (Phoenix.Trader.amountOf w.led sender token amount) min spread deadline maxFee
  pure w'

/-- the token to pay out, contracts/trader/src/contract.rs:191-194 -/
def tokenOf : Option Addr → Prog Addr
  | some a => pure a
  | none => getToken

/-- `transfer`, contracts/trader/src/contract.rs:173-199. -/
def transfer (w : World) (c : Ctx) (T sender recipient : Addr) (amount : Int) (token : Option Addr) : Prog World := do
  requireAuth c sender
  keepInst
  let admin ← getAdmin
  req (sender = admin) (.code 6)
  let tok ← tokenOf token
  let L ← w.led.transfer (c.as T) tok T recipient amount
  pure { w with led := L }

/-- The program of one transaction: the trader's part of it, contracts/trader/src/contract.rs:68-199. -/
def prog (h : Host) (T : Addr) (t : Tx) (w : World) : Prog World :=
  match t.call with
  | .trdInit T' admin a b o =>
    if T' = T then do
      World.expect w T .trader
      init t.ctx admin a b o
      pure w
    else lift (World.step h w t.ctx t.call)
  | .trade T' sender token pool amount spread dl min mf =>
    if T' = T then do
      World.expect w T .trader
      trade w t.ctx T sender token pool amount spread dl min mf
    else lift (World.step h w t.ctx t.call)
  | .trdTransfer T' sender recipient amount token =>
    if T' = T then do
      World.expect w T .trader
      transfer w t.ctx T sender recipient amount token
    else lift (World.step h w t.ctx t.call)
  | _ => lift (World.step h w t.ctx t.call)

/-- whether the trader is called (modelling device, nothing of /repo) -/
def callsOf (T : Addr) (t : Tx) : Bool :=
  match t.call with
  | .trdInit T' _ _ _ _ => decide (T' = T)
  | .trade T' _ _ _ _ _ _ _ _ => decide (T' = T)
  | .trdTransfer T' _ _ _ _ => decide (T' = T)
  | _ => false

/-- the trader at `T`, as a contract whose storage has lifetimes (modelling device, nothing of /repo) -/
def contract (h : Host) (T : Addr) : Contract Tx World := ⟨prog h T, fun t => t.ctx.seq, fun t _ => callsOf T t⟩

end Phoenix.Life.Trader
