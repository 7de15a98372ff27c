import Verif.Model.StorePool
/-! Vocabulary for the theorems that relate a contract's key-value store to its record model. -/
namespace Phoenix.Store
open Phoenix

/-- Two calls have the same outcome: both succeed with related results, or both fail for the same
reason. -/
def Same {α β : Type} (R : α → β → Prop) (x : Res α) (y : Res β) : Prop :=
  match x, y with
  | .ok a, .ok b => R a b
  | .error e, .error e' => e = e'
  | _, _ => False

/-- Two calls have the same outcome, whatever the reason of a failure. -/
def Alike {α β : Type} (R : α → β → Prop) (x : Res α) (y : Res β) : Prop :=
  match x, y with
  | .ok a, .ok b => R a b
  | .error _, .error _ => True
  | _, _ => False

/-- Nothing was ever stored. -/
def Blank (σ : Store) : Prop := ∀ d k, get σ d k = none

namespace Pool

/-- The store holds exactly the fields of the record, each under its own key, and nothing else. -/
structure Holds (σ : Store) (p : Phoenix.Pool.State) : Prop where
  total : get σ .pers (.u32 0) = some (.i128 p.total)
  resA : get σ .pers (.u32 1) = some (.i128 p.resA)
  resB : get σ .pers (.u32 2) = some (.i128 p.resB)
  admin : get σ .pers (.u32 3) = some (.addr p.admin)
  inited : get σ .pers (.u32 4) = some (.bool true)
  cfg : get σ .pers (.sym "CONFIG") = some (.poolConfig p.cfg)
  slippage : get σ .pers (.sym "DSLIPBPS") = some (.i64 p.defaultSlippageBps)
  only : ∀ d k, get σ d k ≠ none → d = .pers ∧
    k ∈ [Key.u32 0, .u32 1, .u32 2, .u32 3, .u32 4, .sym "CONFIG", .sym "DSLIPBPS"]

/-- The store of a pool that may not be initialised yet. -/
def Stores (σ : Store) : Option Phoenix.Pool.State → Prop
  | none => Blank σ
  | some p => Holds σ p

end Pool
end Phoenix.Store
