import Verif.Spec.StorePool
import Verif.Model.StoreStake
/-! What the store of the stake contract holds, key by key. -/
namespace Phoenix.Store.Stake
open Phoenix Phoenix.Store

/-- `BondingInfo` as stored; its `reward_debt` is always 0. -/
def stored (i : Phoenix.Stake.Info) : Bonding := ⟨i.stakes, 0, i.last, i.total⟩

/-- The entries written by `initialize`. -/
structure Main (σ : Store) (s : Phoenix.Stake.State) (cfg : Phoenix.Stake.Config) : Prop where
  cfg : get σ .pers (.sym "CONFIG") = some (.stakeConfig cfg)
  admin : get σ .pers (.u32 0) = some (.addr s.admin)
  total : get σ .pers (.u32 1) = some (.i128 s.total)
  hist : get σ .pers (.cons (.sym "TotalStakedHistory") .nil) = some (.history s.hist)
  inited : get σ .inst (.u32 3) = some (.bool true)

/-- Nothing of what `initialize` and the distribution calls write is there. -/
structure NoMain (σ : Store) : Prop where
  cfg : get σ .pers (.sym "CONFIG") = none
  admin : get σ .pers (.u32 0) = none
  total : get σ .pers (.u32 1) = none
  dists : get σ .pers (.u32 2) = none
  hist : get σ .pers (.cons (.sym "TotalStakedHistory") .nil) = none
  inited : get σ .inst (.u32 3) = none

/-- The store holds exactly the record, each variable under its own key, and nothing else. -/
structure Holds (σ : Store) (s : Phoenix.Stake.State) : Prop where
  /-- the entries of `initialize`, all or none -/
  main : match s.cfg with
    | some cfg => Main σ s cfg
    | none => NoMain σ
  /-- the stakes of every user; no entry means no stakes -/
  users : ∀ a, get σ .pers (.addr a) = some (.bonding (stored (s.info a))) ∨
    (get σ .pers (.addr a) = none ∧ s.info a = Phoenix.Stake.noInfo)
  /-- the reward tokens; no entry means none -/
  dists : get σ .pers (.u32 2) = some (.addrs s.dists) ∨ (get σ .pers (.u32 2) = none ∧ s.dists = [])
  /-- the reward history of every token -/
  rewards : ∀ a, get σ .pers (.cons (.sym "RewardHistory") (.cons (.addr a) .nil)) = (s.rewards a).map .history
  /-- nothing else -/
  only : ∀ d k, get σ d k ≠ none → (d = .inst ∧ k = .u32 3) ∨ (d = .pers ∧
    (k ∈ [Key.sym "CONFIG", .u32 0, .u32 1, .u32 2, .cons (.sym "TotalStakedHistory") .nil] ∨
      ∃ a, k = .addr a ∨ k = .cons (.sym "RewardHistory") (.cons (.addr a) .nil)))

end Phoenix.Store.Stake
