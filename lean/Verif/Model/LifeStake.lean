import Verif.Model.Life
import Verif.Model.StoreStake
/-
contracts/stake with the lifetimes of its storage: every `extend_ttl` of the source is there.
The keys are those of Verif.Model.StoreStake.
-/
namespace Phoenix.Life.Stake
open Phoenix Phoenix.Store Phoenix.Life
open Phoenix.Store.Stake (kConfig kAdmin kTotal kDists kInit kUser kReward kHist)

/-- `get_config`, contracts/stake/src/storage.rs:21-34. -/
def getConfig : Prog Phoenix.Stake.Config := do
  let c ← fetch .pers kConfig asStakeConfig .panic
  keep kConfig
  pure c
/-- `save_config`, contracts/stake/src/storage.rs:36-43. -/
def saveConfig (c : Phoenix.Stake.Config) : Prog Unit := do
  write .pers kConfig (.stakeConfig c)
  keep kConfig
/-- `get_stakes`, contracts/stake/src/storage.rs:70-90. -/
def getStakes (a : Addr) : Prog Bonding := do
  let b ← fetchOr .pers (kUser a) asBonding ⟨[], 0, 0, 0⟩
  keepIfThere (kUser a)
  pure b
/-- `save_stakes`, contracts/stake/src/storage.rs:92-99. -/
def saveStakes (a : Addr) (b : Bonding) : Prog Unit := do
  write .pers (kUser a) (.bonding b)
  keep (kUser a)
/-- `is_initialized`, contracts/stake/src/storage.rs:125-130. -/
def isInit : Prog Bool := fetchOr .inst kInit asBool false
/-- `set_initialized`, contracts/stake/src/storage.rs:132-137: the instance gets thirty days. -/
def setInit : Prog Unit := do
  write .inst kInit (.bool true)
  keepInstLong
/-- `save_admin`, contracts/stake/src/storage.rs:139-146. -/
def saveAdmin (a : Addr) : Prog Unit := do
  write .pers kAdmin (.addr a)
  keep kAdmin
/-- the write of `init_total_staked`, `increase_total_staked` and `decrease_total_staked`,
contracts/stake/src/storage.rs:159-192. -/
def saveTotal (x : Int) : Prog Unit := do
  write .pers kTotal (.i128 x)
  keep kTotal
/-- `get_total_staked_counter`, contracts/stake/src/storage.rs:194-207. -/
def getTotal : Prog Int := do
  let t ← fetch .pers kTotal Store.asI128 .panic
  keep kTotal
  pure t
/-- `increase_total_staked`, contracts/stake/src/storage.rs:168-179. -/
def increaseTotal (x : Int) : Prog Unit := do
  let t ← getTotal
  let t' ← addI t x
  saveTotal t'
/-- `decrease_total_staked`, contracts/stake/src/storage.rs:181-192. -/
def decreaseTotal (x : Int) : Prog Unit := do
  let t ← getTotal
  let t' ← subI t x
  saveTotal t'
/-- `get_distributions`, contracts/stake/src/storage.rs:229-248. -/
def getDists : Prog (List Addr) := do
  let l ← fetchOr .pers kDists asAddrs []
  keepIfThere kDists
  pure l
/-- `add_distribution`, contracts/stake/src/storage.rs:210-227. -/
def addDist (a : Addr) : Prog Unit := do
  let l ← getDists
  req (¬ a ∈ l) (.code 10)
  write .pers kDists (.addrs (l ++ [a]))
  keep kDists
/-- `save_reward_history`, contracts/stake/src/distribution.rs:16-26. -/
def saveReward (a : Addr) (m : SMap) : Prog Unit := do
  write .pers (kReward a) (.history m)
  keep (kReward a)
/-- `get_reward_history`, contracts/stake/src/distribution.rs:28-41. -/
def getReward (a : Addr) : Prog SMap := do
  let m ← fetch .pers (kReward a) asHistory .panic
  keep (kReward a)
  pure m
/-- `save_total_staked_history`, contracts/stake/src/distribution.rs:43-53. -/
def saveHist (m : SMap) : Prog Unit := do
  write .pers kHist (.history m)
  keep kHist
/-- `get_total_staked_history`, contracts/stake/src/distribution.rs:55-68. -/
def getHist : Prog SMap := do
  let m ← fetch .pers kHist asHistory .panic
  keep kHist
  pure m

/-- `initialize`, contracts/stake/src/contract.rs:81-137. -/
def init (admin lpToken : Addr) (minBond minReward : Int) (manager owner : Addr) (maxComplexity : Nat) : Prog Unit := do
  let b ← isInit
  req (b = false) (.code 1)
  setInit
  req (¬ minBond ≤ 0) (.code 2)
  req (¬ minReward ≤ 0) (.code 3)
  req (¬ maxComplexity = 0) (.code 12)
  saveConfig ⟨lpToken, minBond, minReward, manager, owner, maxComplexity⟩
  saveAdmin admin
  saveTotal 0
  saveHist []

/-- `bond`, contracts/stake/src/contract.rs:139-174. -/
def bond (me : Addr) (c : Ctx) (L : Ledger) (sender : Addr) (tokens : Int) : Prog Ledger := do
  requireAuth c sender
  keepInst
  let cfg ← getConfig
  req (¬ tokens < cfg.minBond) (.code 4)
  let L' ← L.transfer (c.as me) cfg.lpToken sender me tokens
  let i ← getStakes sender
  let t ← addI i.totalStake tokens
  saveStakes sender { i with stakes := i.stakes ++ [⟨tokens, c.now⟩], totalStake := t }
  increaseTotal tokens
  pure L'

/-- `unbond`, contracts/stake/src/contract.rs:176-199. -/
def unbond (me : Addr) (c : Ctx) (L : Ledger) (sender : Addr) (amount : Int) (ts : Nat) : Prog Ledger := do
  requireAuth c sender
  keepInst
  let cfg ← getConfig
  let i ← getStakes sender
  let l ← Phoenix.Stake.removeStake amount ts i.stakes
  let t ← subI i.totalStake amount
  let L' ← L.transfer (c.as me) cfg.lpToken me sender amount
  saveStakes sender { i with stakes := l, totalStake := t }
  decreaseTotal amount
  pure L'

/-- `create_distribution_flow`, contracts/stake/src/contract.rs:201-218. -/
def createFlow (c : Ctx) (sender asset : Addr) : Prog Unit := do
  requireAuth c sender
  keepInst
  let cfg ← getConfig
  req (¬ (sender ≠ cfg.manager ∧ sender ≠ cfg.owner)) (.code 5)
  addDist asset
  saveReward asset []

/-- `distribute_rewards`, contracts/stake/src/contract.rs:220-260. -/
def distribute (me : Addr) (c : Ctx) (L : Ledger) (sender : Addr) (amount : Int) (tok : Addr) : Prog Ledger := do
  requireAuth c sender
  keepInst
  let cfg ← getConfig
  req (¬ (sender ≠ cfg.manager ∧ sender ≠ cfg.owner)) (.code 5)
  let dists ← getDists
  req (tok ∈ dists) (.code 13)
  let total ← getTotal
  let h ← getHist
  saveHist (h.set c.now (asU128 total))
  let m ← getReward tok
  saveReward tok (m.set c.now (asU128 amount))
  let L' ← L.transfer (c.as me) tok sender me amount
  pure L'

/-- `calculate_pending_rewards`, contracts/stake/src/distribution.rs:70-121. -/
def pending (c : Ctx) (tok : Addr) (i : Bonding) : Prog Int := do
  let m ← getReward tok
  let h ← getHist
  let x ← Phoenix.Stake.daysLoop m h i.stakes (Phoenix.Stake.relevant m.keys i.lastRewardTime c.now) 0
  pure x

/-- the loop of `withdraw_rewards`, contracts/stake/src/contract.rs:271-282. -/
def payLoop (me : Addr) (c : Ctx) (sender : Addr) (i : Bonding) : List Addr → Ledger → Prog Ledger
  | [], L => pure L
  | a :: l, L => do
    let p ← pending c a i
    let L' ← L.transfer (c.as me) a me sender p
    payLoop me c sender i l L'

/-- `withdraw_rewards`, contracts/stake/src/contract.rs:262-284. -/
def withdraw (me : Addr) (c : Ctx) (L : Ledger) (sender : Addr) : Prog Ledger := do
  keepInst
  let i ← getStakes sender
  let dists ← getDists
  let L' ← payLoop me c sender i dists L
  saveStakes sender { i with lastRewardTime := c.now }
  pure L'

/-- The program of a transaction (contracts/stake/src/contract.rs:81-284). -/
def prog (me : Addr) (t : Phoenix.Stake.Tx) (L : Ledger) : Prog Ledger :=
  match t with
  | .token c tok op => lift (L.call c tok op)
  | .stake _ (.init a lp mb mr m o mc) => do
    init a lp mb mr m o mc
    pure L
  | .stake c (.bond sender x) => bond me c L sender x
  | .stake c (.unbond sender x ts) => unbond me c L sender x ts
  | .stake c (.createFlow sender asset) => do
    createFlow c sender asset
    pure L
  | .stake c (.distribute sender x tok) => distribute me c L sender x tok
  | .stake c (.withdraw sender) => withdraw me c L sender

/-- the ledger in which the transaction is made (modelling device, nothing of /repo) -/
def seqOf : Phoenix.Stake.Tx → Nat
  | .token c _ _ => c.seq
  | .stake c _ => c.seq

/-- whether the stake contract is called (modelling device, nothing of /repo) -/
def callsOf : Phoenix.Stake.Tx → Bool
  | .token _ _ _ => false
  | .stake _ _ => true

/-- contracts/stake as a contract whose storage has lifetimes (modelling device, nothing of /repo). -/
def contract (me : Addr) : Contract Phoenix.Stake.Tx := ⟨prog me, seqOf, fun t _ => callsOf t⟩

end Phoenix.Life.Stake
