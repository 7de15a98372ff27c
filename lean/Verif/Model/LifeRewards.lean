import Verif.Model.Life
/-
contracts/stake_rewards against its storage, key by key, with every `extend_ttl` of the source: the
configuration and the administrator are extended whenever they are used, the curve, the distribution and
the adjustments of the users never.  All entries are persistent, the instance holds nothing.
The arithmetic is that of Verif.Model.Rewards.  Not modelled: events, `update`.
-/
namespace Phoenix.Life.Rewards
open Phoenix Phoenix.Store Phoenix.Life
open Phoenix.Rewards (Config Dist Adj)
open Phoenix.Stake (Info Entry)

/-- `CONFIG`, contracts/stake_rewards/src/storage.rs:20 -/
def kConfig : Key := .sym "CONFIG"
/-- `DataKey::Initialized`, contracts/stake_rewards/src/storage.rs:53 -/
def kInit : Key := .u32 0
/-- `DataKey::Admin`, contracts/stake_rewards/src/storage.rs:54 -/
def kAdmin : Key := .u32 1
/-- `DistributionDataKey::Curve`, contracts/stake_rewards/src/distribution.rs:36 -/
def kCurve (asset : Addr) : Key := .cons (.sym "Curve") (.cons (.addr asset) .nil)
/-- `DistributionDataKey::Distribution`, contracts/stake_rewards/src/distribution.rs:37 -/
def kDist (asset : Addr) : Key := .cons (.sym "Distribution") (.cons (.addr asset) .nil)
/-- `DistributionDataKey::WithdrawAdjustment` with its `WithdrawAdjustmentKey`,
contracts/stake_rewards/src/distribution.rs:26-39 -/
def kAdj (user asset : Addr) : Key :=
  .cons (.sym "WithdrawAdjustment") (.cons (.mcons "asset" (.addr asset) (.mcons "user" (.addr user) .mnil)) .nil)

/-- `get_config`, contracts/stake_rewards/src/storage.rs:21-35. -/
def getConfig : Prog Config := do
  let c ← fetch .pers kConfig asRewardsConfig .panic
  keep kConfig
  pure c
/-- `save_config`, contracts/stake_rewards/src/storage.rs:37-44. -/
def saveConfig (c : Config) : Prog Unit := do
  write .pers kConfig (.rewardsConfig c)
  keep kConfig
/-- `is_initialized`, contracts/stake_rewards/src/storage.rs:65-70. -/
def isInit : Prog Bool := fetchOr .pers kInit asBool false
/-- `set_initialized`, contracts/stake_rewards/src/storage.rs:72-79. -/
def setInit : Prog Unit := do
  write .pers kInit (.bool true)
  keep kInit
/-- `save_admin`, contracts/stake_rewards/src/storage.rs:81-88. -/
def saveAdmin (a : Addr) : Prog Unit := do
  write .pers kAdmin (.addr a)
  keep kAdmin
/-- `get_admin`, contracts/stake_rewards/src/storage.rs:90-99. -/
def getAdmin : Prog Addr := do
  let a ← fetch .pers kAdmin asAddr .panic
  keep kAdmin
  pure a
/-- `save_reward_curve`, contracts/stake_rewards/src/distribution.rs:42-46: not extended. -/
def saveCurve (asset : Addr) (k : Curve) : Prog Unit := write .pers (kCurve asset) (.curve k)
/-- `get_reward_curve` and the `expect` of its callers, contracts/stake_rewards/src/distribution.rs:48-52,
contracts/stake_rewards/src/contract.rs:257, 356: not extended. -/
def getCurve (asset : Addr) : Prog Curve := fetch .pers (kCurve asset) asCurve .panic
/-- `save_distribution`, contracts/stake_rewards/src/distribution.rs:71-76: not extended. -/
def saveDist (asset : Addr) (d : Dist) : Prog Unit := write .pers (kDist asset) (.rewardDist d)
/-- `get_distribution`, contracts/stake_rewards/src/distribution.rs:78-83: not extended. -/
def getDist (asset : Addr) : Prog Dist := fetch .pers (kDist asset) asRewardDist .panic
/-- `save_withdraw_adjustment`, contracts/stake_rewards/src/distribution.rs:133-148: not extended. -/
def saveAdj (user asset : Addr) (a : Adj) : Prog Unit := write .pers (kAdj user asset) (.adj a)
/-- `get_withdraw_adjustment`, contracts/stake_rewards/src/distribution.rs:150-164: not extended. -/
def getAdj (user asset : Addr) : Prog Adj := fetchOr .pers (kAdj user asset) asAdj ⟨0, 0⟩

/-- `initialize`, contracts/stake_rewards/src/contract.rs:84-134. -/
def init (admin staking token : Addr) (maxComplexity : Nat) (minReward minBond : Int) : Prog Unit := do
  let b ← isInit
  req (b = false) (.code 1)
  setInit
  saveConfig ⟨staking, token, maxComplexity, minReward, minBond⟩
  saveDist token ⟨1, 0, 0, 0⟩
  saveCurve token (.constant 0)
  saveAdmin admin

/-- `update_rewards` and `apply_points_correction`, contracts/stake_rewards/src/distribution.rs:85-118. -/
def updateRewards (user asset : Addr) (d : Dist) (old new : Int) : Prog Unit :=
  if old = new then pure ()
  else do
    let diff ← subI new old
    let a ← getAdj user asset
    let spp ← toI128 d.spp
    let p ← mulI spp diff
    let corr ← subI a.corr p
    saveAdj user asset { a with corr := corr }

/-- `add_user`, contracts/stake_rewards/src/contract.rs:136-156. -/
def addUser (c : Ctx) (user : Addr) (i : Info) : Prog Unit := do
  let cfg ← getConfig
  requireAuth c cfg.staking
  keepInst
  let new ← Phoenix.Rewards.power cfg i.total
  let d ← getDist cfg.token
  updateRewards user cfg.token d 0 new

/-- `calculate_bond`, contracts/stake_rewards/src/contract.rs:158-186. -/
def calcBond (c : Ctx) (user : Addr) (i : Info) : Prog Unit := do
  let cfg ← getConfig
  requireAuth c cfg.staking
  keepInst
  let d ← getDist cfg.token
  let e ← Phoenix.Rewards.lastEntry i.stakes
  let old ← Phoenix.Rewards.power cfg i.total
  let t ← addI i.total e.amount
  let new ← Phoenix.Rewards.power cfg t
  updateRewards user cfg.token d old new

/-- `withdrawable_rewards`, contracts/stake_rewards/src/distribution.rs:166-184. -/
def claimOf (cfg : Config) (d : Dist) (a : Adj) (total : Int) : Res Nat := do
  let pw ← Phoenix.Rewards.power cfg total
  let spp ← toI128 d.spp
  let p ← mulI spp pw
  let q ← addI p a.corr
  let x ← toU128 (q / 4294967296)
  subU x a.withdrawn

/-- the reward to pay, contracts/stake_rewards/src/contract.rs:300-315, 492-509. -/
def payableOf (c : Ctx) (cfg : Config) (d : Dist) (a : Adj) (i : Info) : Res Int := do
  let r ← claimOf cfg d a i.total
  let m ← Phoenix.Rewards.withdrawPower c.now i.stakes
  let r' ← toI128 r
  Dec.mulInt r' m

/-- `withdraw_rewards`, contracts/stake_rewards/src/contract.rs:290-334. -/
def withdraw (self : Addr) (c : Ctx) (L : Ledger) (user : Addr) (i : Info) : Prog Ledger := do
  let cfg ← getConfig
  requireAuth c cfg.staking
  keepInst
  let d ← getDist cfg.token
  let a ← getAdj user cfg.token
  let x ← payableOf c cfg d a i
  if x = 0 then pure L
  else do
    let w ← add128 a.withdrawn (asU128 x)
    let t ← subU d.withdrawable (asU128 x)
    saveDist cfg.token { d with withdrawable := t }
    saveAdj user cfg.token { a with withdrawn := w }
    L.transfer (c.as self) cfg.token self user x

/-- `query_withdrawable_reward`, contracts/stake_rewards/src/contract.rs:483-516. -/
def queryWithdrawable (c : Ctx) (user : Addr) (i : Info) : Prog Nat := do
  keepInst
  let cfg ← getConfig
  let d ← getDist cfg.token
  let a ← getAdj user cfg.token
  let x ← payableOf c cfg d a i
  toU128 x

/-- the withdrawal inside `calculate_unbond`, contracts/stake_rewards/src/contract.rs:198-204. -/
def withdrawIfAny (self : Addr) (c : Ctx) (L : Ledger) (user : Addr) (i : Info) : Prog Ledger := do
  let r ← queryWithdrawable c user i
  if r ≠ 0 then withdraw self c L user i else pure L

/-- `calculate_unbond`, contracts/stake_rewards/src/contract.rs:188-225. -/
def calcUnbond (self : Addr) (c : Ctx) (L : Ledger) (user : Addr) (i : Info) (removed : Int) : Prog Ledger := do
  requireAuth c user
  keepInst
  let cfg ← getConfig
  requireAuth c cfg.staking
  let L' ← withdrawIfAny self c L user i
  let d ← getDist cfg.token
  let old ← Phoenix.Rewards.power cfg i.total
  let t ← subI i.total removed
  let new ← Phoenix.Rewards.power cfg t
  updateRewards user cfg.token d old new
  pure L'

/-- `distribute_rewards`, contracts/stake_rewards/src/contract.rs:227-288. -/
def distribute (self : Addr) (c : Ctx) (L : Ledger) (totalStaked : Int) : Prog Unit := do
  let cfg ← getConfig
  requireAuth c cfg.staking
  keepInst
  let p ← Phoenix.Rewards.power cfg totalStaked
  let total ← toU128 p
  if total = 0 then pure ()
  else do
    let d ← getDist cfg.token
    let b ← toU128 (L.bal cfg.token self)
    let k ← getCurve cfg.token
    let v ← k.value c.now
    let a ← subU b d.withdrawable
    let amount ← subU a v
    if amount = 0 then pure ()
    else do
      let d' ← Phoenix.Rewards.handOut d amount total
      saveDist cfg.token d'

/-- `fund_distribution`, contracts/stake_rewards/src/contract.rs:336-428. -/
def fund (self : Addr) (c : Ctx) (L : Ledger) (start duration : Nat) (amount : Int) : Prog Ledger := do
  let admin ← getAdmin
  requireAuth c admin
  keepInst
  let cfg ← getConfig
  requireAuth c cfg.staking
  let old ← getCurve cfg.token
  req (¬ start < c.now) (.code 9)
  req (¬ cfg.minReward > amount) (.code 6)
  let L' ← L.transfer (c.as self) cfg.token admin self amount
  let stop ← add64 c.now duration
  let x ← toU128 amount
  Phoenix.Rewards.checkRange (.sl start x stop 0) x
  let k ← Phoenix.Rewards.joinCurves c.now cfg.maxComplexity old (.sl start x stop 0)
  saveCurve cfg.token k
  pure L'

/-- The program of one transaction (contracts/stake_rewards/src/contract.rs:84-428). -/
def prog (self : Addr) (t : Phoenix.Rewards.Tx) (L : Ledger) : Prog Ledger :=
  match t with
  | .token c tok op => lift (L.call c tok op)
  | .rewards _ (.init a st tok mc mr mb) => do
    init a st tok mc mr mb
    pure L
  | .rewards c (.addUser u i) => do
    addUser c u i
    pure L
  | .rewards c (.calcBond u i) => do
    calcBond c u i
    pure L
  | .rewards c (.calcUnbond u i x) => calcUnbond self c L u i x
  | .rewards c (.distribute x) => do
    distribute self c L x
    pure L
  | .rewards c (.withdraw u i) => withdraw self c L u i
  | .rewards c (.fund a d x) => fund self c L a d x

/-- the ledger in which a transaction happens (modelling device, nothing of /repo) -/
def seqOf : Phoenix.Rewards.Tx → Nat
  | .token c _ _ => c.seq
  | .rewards c _ => c.seq

/-- whether the rewards contract is called (modelling device, nothing of /repo) -/
def callsOf : Phoenix.Rewards.Tx → Bool
  | .token _ _ _ => false
  | .rewards _ _ => true

/-- contracts/stake_rewards as a contract whose storage has lifetimes (modelling device, nothing of /repo). -/
def contract (self : Addr) : Contract Phoenix.Rewards.Tx := ⟨prog self, seqOf, fun t _ => callsOf t⟩

end Phoenix.Life.Rewards
