import Verif.Model.Store
/-
contracts/stake against the key-value store.
-/
namespace Phoenix.Store.Stake
open Phoenix Phoenix.Store

/-- `CONFIG`, contracts/stake/src/storage.rs:19. -/
def kConfig : Key := .sym "CONFIG"
/-- `DataKey::Admin = 0`, contracts/stake/src/storage.rs:107-115. -/
def kAdmin : Key := .u32 0
/-- `DataKey::TotalStaked = 1`, contracts/stake/src/storage.rs:107-115. -/
def kTotal : Key := .u32 1
/-- `DataKey::Distributions = 2`, contracts/stake/src/storage.rs:107-115. -/
def kDists : Key := .u32 2
/-- `DataKey::Initialized = 3`, contracts/stake/src/storage.rs:107-115. -/
def kInit : Key := .u32 3
/-- The stakes of a user are stored under the bare address,
contracts/stake/src/storage.rs:70-99. -/
def kUser (a : Addr) : Key := .addr a
/-- `DistributionDataKey::RewardHistory(asset)`, contracts/stake/src/distribution.rs:9-14. -/
def kReward (a : Addr) : Key := .cons (.sym "RewardHistory") (.cons (.addr a) .nil)
/-- `DistributionDataKey::TotalStakedHistory`, contracts/stake/src/distribution.rs:9-14. -/
def kHist : Key := .cons (.sym "TotalStakedHistory") .nil

/-- `get_config`, contracts/stake/src/storage.rs:21-34. -/
def getConfig (σ : Store) : Res Phoenix.Stake.Config := load σ .pers kConfig asStakeConfig .panic
/-- `save_config`, contracts/stake/src/storage.rs:36-43. -/
def saveConfig (σ : Store) (c : Phoenix.Stake.Config) : Store := set σ .pers kConfig (.stakeConfig c)
/-- `get_stakes`, contracts/stake/src/storage.rs:70-90. -/
def getStakes (σ : Store) (a : Addr) : Res Bonding := loadOr σ .pers (kUser a) asBonding ⟨[], 0, 0, 0⟩
/-- `save_stakes`, contracts/stake/src/storage.rs:92-99. -/
def saveStakes (σ : Store) (a : Addr) (b : Bonding) : Store := set σ .pers (kUser a) (.bonding b)
/-- `is_initialized`, contracts/stake/src/storage.rs:125-130. -/
def isInit (σ : Store) : Res Bool := loadOr σ .inst kInit asBool false
/-- `set_initialized`, contracts/stake/src/storage.rs:132-137. -/
def setInit (σ : Store) : Store := set σ .inst kInit (.bool true)
/-- `save_admin`, contracts/stake/src/storage.rs:139-146. -/
def saveAdmin (σ : Store) (a : Addr) : Store := set σ .pers kAdmin (.addr a)
/-- `get_admin`, contracts/stake/src/storage.rs:148-157. -/
def getAdmin (σ : Store) : Res Addr := load σ .pers kAdmin asAddr .panic
/-- The write of `init_total_staked`, `increase_total_staked` and `decrease_total_staked`,
contracts/stake/src/storage.rs:159-192. -/
def saveTotal (σ : Store) (x : Int) : Store := set σ .pers kTotal (.i128 x)
/-- `get_total_staked_counter`, contracts/stake/src/storage.rs:194-207. -/
def getTotal (σ : Store) : Res Int := load σ .pers kTotal asI128 .panic
/-- `increase_total_staked`, contracts/stake/src/storage.rs:168-179. -/
def increaseTotal (σ : Store) (x : Int) : Res Store := do
  let t ← getTotal σ
  let t' ← addI t x
  .ok (saveTotal σ t')
/-- `decrease_total_staked`, contracts/stake/src/storage.rs:181-192. -/
def decreaseTotal (σ : Store) (x : Int) : Res Store := do
  let t ← getTotal σ
  let t' ← subI t x
  .ok (saveTotal σ t')
/-- `get_distributions`, contracts/stake/src/storage.rs:229-248. -/
def getDists (σ : Store) : Res (List Addr) := loadOr σ .pers kDists asAddrs []
/-- `add_distribution`, contracts/stake/src/storage.rs:210-227. -/
def addDist (σ : Store) (a : Addr) : Res Store := do
  let l ← getDists σ
  req (¬ a ∈ l) (.code 10)
  .ok (set σ .pers kDists (.addrs (l ++ [a])))
/-- `save_reward_history`, contracts/stake/src/distribution.rs:16-26. -/
def saveReward (σ : Store) (a : Addr) (m : SMap) : Store := set σ .pers (kReward a) (.history m)
/-- `get_reward_history`, contracts/stake/src/distribution.rs:28-41. -/
def getReward (σ : Store) (a : Addr) : Res SMap := load σ .pers (kReward a) asHistory .panic
/-- `save_total_staked_history`, contracts/stake/src/distribution.rs:43-53. -/
def saveHist (σ : Store) (m : SMap) : Store := set σ .pers kHist (.history m)
/-- `get_total_staked_history`, contracts/stake/src/distribution.rs:55-68. -/
def getHist (σ : Store) : Res SMap := load σ .pers kHist asHistory .panic

/-- `initialize`, contracts/stake/src/contract.rs:81-137. -/
def init (σ : Store) (admin lpToken : Addr) (minBond minReward : Int) (manager owner : Addr)
    (maxComplexity : Nat) : Res Store := do
  let b ← isInit σ
  req (b = false) (.code 1)
  let σ1 := setInit σ
  req (¬ minBond ≤ 0) (.code 2)
  req (¬ minReward ≤ 0) (.code 3)
  req (¬ maxComplexity = 0) (.code 12)
  let σ2 := saveConfig σ1 ⟨lpToken, minBond, minReward, manager, owner, maxComplexity⟩
  let σ3 := saveAdmin σ2 admin
  let σ4 := saveTotal σ3 0
  .ok (saveHist σ4 [])

/-- `bond`, contracts/stake/src/contract.rs:139-174. -/
def bond (me : Addr) (c : Ctx) (σ : Store) (L : Ledger) (sender : Addr) (tokens : Int) : Res (Store × Ledger) := do
  requireAuth c sender
  let cfg ← getConfig σ
  req (¬ tokens < cfg.minBond) (.code 4)
  let L' ← L.transfer (c.as me) cfg.lpToken sender me tokens
  let i ← getStakes σ sender
  let t ← addI i.totalStake tokens
  let σ1 := saveStakes σ sender { i with stakes := i.stakes ++ [⟨tokens, c.now⟩], totalStake := t }
  let σ2 ← increaseTotal σ1 tokens
  .ok (σ2, L')

/-- `unbond`, contracts/stake/src/contract.rs:176-199. -/
def unbond (me : Addr) (c : Ctx) (σ : Store) (L : Ledger) (sender : Addr) (amount : Int) (ts : Nat) :
    Res (Store × Ledger) := do
  requireAuth c sender
  let cfg ← getConfig σ
  let i ← getStakes σ sender
  let l ← Phoenix.Stake.removeStake amount ts i.stakes
  let t ← subI i.totalStake amount
  let L' ← L.transfer (c.as me) cfg.lpToken me sender amount
  let σ1 := saveStakes σ sender { i with stakes := l, totalStake := t }
  let σ2 ← decreaseTotal σ1 amount
  .ok (σ2, L')

/-- `create_distribution_flow`, contracts/stake/src/contract.rs:201-218. -/
def createFlow (c : Ctx) (σ : Store) (sender asset : Addr) : Res Store := do
  requireAuth c sender
  let cfg ← getConfig σ
  req (¬ (sender ≠ cfg.manager ∧ sender ≠ cfg.owner)) (.code 5)
  let σ1 ← addDist σ asset
  .ok (saveReward σ1 asset [])

/-- `distribute_rewards`, contracts/stake/src/contract.rs:220-260: both histories are written
before the tokens are moved. -/
def distribute (me : Addr) (c : Ctx) (σ : Store) (L : Ledger) (sender : Addr) (amount : Int) (tok : Addr) :
    Res (Store × Ledger) := do
  requireAuth c sender
  let cfg ← getConfig σ
  req (¬ (sender ≠ cfg.manager ∧ sender ≠ cfg.owner)) (.code 5)
  let dists ← getDists σ
  req (tok ∈ dists) (.code 13)
  let total ← getTotal σ
  let h ← getHist σ
  let σ1 := saveHist σ (h.set c.now (asU128 total))
  let m ← getReward σ1 tok
  let σ2 := saveReward σ1 tok (m.set c.now (asU128 amount))
  let L' ← L.transfer (c.as me) tok sender me amount
  .ok (σ2, L')

/-- `calculate_pending_rewards`, contracts/stake/src/distribution.rs:70-121. -/
def pending (c : Ctx) (σ : Store) (tok : Addr) (i : Bonding) : Res Int := do
  let m ← getReward σ tok
  let h ← getHist σ
  Phoenix.Stake.daysLoop m h i.stakes (Phoenix.Stake.relevant m.keys i.lastRewardTime c.now) 0

/-- the loop of `withdraw_rewards`, contracts/stake/src/contract.rs:271-282. -/
def payLoop (me : Addr) (c : Ctx) (σ : Store) (sender : Addr) (i : Bonding) : List Addr → Ledger → Res Ledger
  | [], L => .ok L
  | a :: l, L => do
    let p ← pending c σ a i
    let L' ← L.transfer (c.as me) a me sender p
    payLoop me c σ sender i l L'

/-- `withdraw_rewards`, contracts/stake/src/contract.rs:262-284. -/
def withdraw (me : Addr) (c : Ctx) (σ : Store) (L : Ledger) (sender : Addr) : Res (Store × Ledger) := do
  let i ← getStakes σ sender
  let dists ← getDists σ
  let L' ← payLoop me c σ sender i dists L
  .ok (saveStakes σ sender { i with lastRewardTime := c.now }, L')

/-- `query_staked`, contracts/stake/src/contract.rs:305-315. -/
def queryStaked (σ : Store) (a : Addr) : Res (List Phoenix.Stake.Entry × Int × Nat) := do
  let i ← getStakes σ a
  .ok (i.stakes, i.totalStake, i.lastRewardTime)

/-- One transaction (contracts/stake/src/contract.rs:81-284). -/
def step (me : Addr) (s : Store × Ledger) : Phoenix.Stake.Tx → Res (Store × Ledger)
  | .token c tok op => do
    let L ← s.2.call c tok op
    .ok (s.1, L)
  | .stake _ (.init a lp mb mr m o mc) => do
    let σ ← init s.1 a lp mb mr m o mc
    .ok (σ, s.2)
  | .stake c (.bond sender x) => bond me c s.1 s.2 sender x
  | .stake c (.unbond sender x ts) => unbond me c s.1 s.2 sender x ts
  | .stake c (.createFlow sender asset) => do
    let σ ← createFlow c s.1 sender asset
    .ok (σ, s.2)
  | .stake c (.distribute sender x tok) => distribute me c s.1 s.2 sender x tok
  | .stake c (.withdraw sender) => withdraw me c s.1 s.2 sender

/-- A failed transaction leaves the store and the tokens unchanged (modelling device, nothing of /repo). -/
def exec (me : Addr) (s : Store × Ledger) (t : Phoenix.Stake.Tx) : Store × Ledger :=
  match step me s t with
  | .ok s' => s'
  | .error _ => s

/-- State after a whole history (modelling device, nothing of /repo). -/
def run (me : Addr) (s : Store × Ledger) (ts : List Phoenix.Stake.Tx) : Store × Ledger := ts.foldl (exec me) s

end Phoenix.Store.Stake
