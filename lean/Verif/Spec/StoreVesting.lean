import Verif.Spec.StorePool
import Verif.Model.StoreVesting
/-! What the store of the vesting contract holds, key by key. -/
namespace Phoenix.Store.Vesting
open Phoenix Phoenix.Store

/-- The store holds exactly the record, each variable under its own key, and nothing else. -/
structure Holds (σ : Store) (v : Phoenix.Vesting.State) : Prop where
  admin : get σ .pers (.u32 1) = some (.addr v.admin)
  token : get σ .inst (.u32 5) = some (.tokenInfo v.token)
  complexity : get σ .inst (.u32 6) = some (.u32 v.maxComplexity)
  inited : get σ .inst (.u32 7) = some (.bool true)
  minter : get σ .inst (.u32 3) = v.minter.map .minter
  /-- the schedule of every recipient at every index -/
  sched : ∀ a i, get σ .pers (.mcons "index" (.u64 i) (.mcons "recipient" (.addr a) .mnil)) =
    (v.sched a i).map .vesting
  /-- nothing else -/
  only : ∀ d k, get σ d k ≠ none → (d = .inst ∧ k ∈ [Key.u32 3, .u32 5, .u32 6, .u32 7]) ∨
    (d = .pers ∧ (k = .u32 1 ∨ ∃ a i, k = .mcons "index" (.u64 i) (.mcons "recipient" (.addr a) .mnil)))

/-- The store of a vesting contract that may not be initialised yet. -/
def Stores (σ : Store) : Option Phoenix.Vesting.State → Prop
  | none => Blank σ
  | some v => Holds σ v

end Phoenix.Store.Vesting
