import Verif.Spec.Life
import Verif.Spec.StorePool
import Verif.Model.LifeRewards
/-! What the store of the rewards contract holds, key by key; the entries its calls use, and those they keep alive. -/
namespace Phoenix.Life.Rewards
open Phoenix Phoenix.Store

/-- the entry of the schedule by which a token is released -/
def curveOf (token : Addr) : Key := .cons (.sym "Curve") (.cons (.addr token) .nil)
/-- the entry of the totals of a token -/
def totalsOf (token : Addr) : Key := .cons (.sym "Distribution") (.cons (.addr token) .nil)
/-- the entry of a user: the correction, and what was paid so far -/
def userOf (token user : Addr) : Key :=
  .cons (.sym "WithdrawAdjustment") (.cons (.mcons "asset" (.addr token) (.mcons "user" (.addr user) .mnil)) .nil)

/-- The store of an initialised contract holds exactly the record, each variable under its own key. -/
structure Main (σ : Store) (s : Phoenix.Rewards.State) (cfg : Phoenix.Rewards.Config) : Prop where
  config : get σ .pers (.sym "CONFIG") = some (.rewardsConfig cfg)
  inited : get σ .pers (.u32 0) = some (.bool true)
  admin : get σ .pers (.u32 1) = some (.addr s.admin)
  dist : get σ .pers (totalsOf cfg.token) = some (.rewardDist s.dist)
  curve : get σ .pers (curveOf cfg.token) = some (.curve s.curve)
  /-- no entry of a user means nothing corrected and nothing paid -/
  users : ∀ u, get σ .pers (userOf cfg.token u) = some (.adj (s.adj u)) ∨
    (get σ .pers (userOf cfg.token u) = none ∧ s.adj u = ⟨0, 0⟩)
  /-- nothing else -/
  only : ∀ d k, get σ d k ≠ none → d = .pers ∧
    (k ∈ [Key.sym "CONFIG", .u32 0, .u32 1, totalsOf cfg.token, curveOf cfg.token] ∨ ∃ u, k = userOf cfg.token u)

/-- The store holds exactly the record; before `initialize` there is nothing. -/
def Holds (σ : Store) (s : Phoenix.Rewards.State) : Prop :=
  match s.cfg with
  | some cfg => Main σ s cfg
  | none => Blank σ ∧ ∀ u, s.adj u = ⟨0, 0⟩

/-- The entries a transaction uses: a user's entry only if the user's power changes or a reward is looked
up, the totals and the schedule of a distribution only if somebody has staked. -/
def uses (s : Phoenix.Rewards.State) : Phoenix.Rewards.Tx → List Key
  | .token _ _ _ => []
  | .rewards _ (.init _ _ tok _ _ _) => [.u32 0, .sym "CONFIG", totalsOf tok, curveOf tok, .u32 1]
  | .rewards _ k => match s.cfg with
    | none => []
    | some cfg => match k with
      | .init _ _ _ _ _ _ => []
      | .addUser u i => .sym "CONFIG" :: totalsOf cfg.token ::
          (if (Phoenix.Rewards.power cfg i.total).toOption = some 0 then [] else [userOf cfg.token u])
      | .calcBond u i => .sym "CONFIG" :: totalsOf cfg.token ::
          (if (Phoenix.Rewards.power cfg i.total).toOption =
              (Phoenix.Rewards.power cfg (i.total + ((i.stakes.getLast?.map (·.amount)).getD 0))).toOption then [] else [userOf cfg.token u])
      | .calcUnbond u _ _ => [.sym "CONFIG", totalsOf cfg.token, userOf cfg.token u]
      | .distribute x => .sym "CONFIG" ::
          (if (Phoenix.Rewards.power cfg x).toOption = some 0 then [] else [totalsOf cfg.token, curveOf cfg.token])
      | .withdraw u _ => [.sym "CONFIG", totalsOf cfg.token, userOf cfg.token u]
      | .fund _ _ _ => [.u32 1, .sym "CONFIG", curveOf cfg.token]

/-- Not one of the three entries that the contract keeps alive: the configuration, the mark of the
initialisation and the administrator. -/
def Loose (k : Key) : Prop := k ≠ .sym "CONFIG" ∧ k ≠ .u32 0 ∧ k ≠ .u32 1

/-- the calls that extend the instance: all but `initialize` -/
def extendsInst : Phoenix.Rewards.Tx → Bool
  | .token _ _ _ => false
  | .rewards _ (.init _ _ _ _ _ _) => false
  | .rewards _ _ => true

/-- Nobody restores or extends the entry from outside in these acts. -/
def Alone (k : Key) (as : List (Act Phoenix.Rewards.Tx)) : Prop :=
  (∀ q, Act.restore q k ∉ as) ∧ ∀ q x, Act.extend q k x ∉ as

end Phoenix.Life.Rewards
