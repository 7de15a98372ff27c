import Verif.Spec.StorePool
import Verif.Model.StoreStable
/-! What the store of a stable pool holds, key by key. -/
namespace Phoenix.Store.Stable
open Phoenix Phoenix.Store

/-- The store holds exactly the fields of the record, each under its own key, and nothing else.  The
precision of each of the two tokens is kept under that token's address. -/
structure Holds (σ : Store) (p : Phoenix.Stable.State) : Prop where
  total : get σ .inst (.u32 0) = some (.i128 p.total)
  resA : get σ .inst (.u32 1) = some (.i128 p.resA)
  resB : get σ .inst (.u32 2) = some (.i128 p.resB)
  admin : get σ .inst (.u32 3) = some (.addr p.admin)
  inited : get σ .pers (.u32 4) = some (.bool true)
  amp : get σ .inst (.u32 5) = some (.amp p.amp)
  maxPrec : get σ .inst (.u32 6) = some (.u32 p.maxPrec)
  precA : get σ .inst (.cons (.u32 7) (.cons (.addr p.cfg.tokenA) .nil)) = some (.u32 p.precA)
  precB : get σ .inst (.cons (.u32 7) (.cons (.addr p.cfg.tokenB) .nil)) = some (.u32 p.precB)
  cfg : get σ .inst (.sym "CONFIG") = some (.stableConfig p.cfg)
  only : ∀ d k, get σ d k ≠ none → (d = .pers ∧ k = .u32 4) ∨
    (d = .inst ∧ k ∈ [Key.u32 0, .u32 1, .u32 2, .u32 3, .u32 5, .u32 6, .sym "CONFIG",
      .cons (.u32 7) (.cons (.addr p.cfg.tokenA) .nil), .cons (.u32 7) (.cons (.addr p.cfg.tokenB) .nil)])

/-- The store of a stable pool that may not be initialised yet. -/
def Stores (σ : Store) : Option Phoenix.Stable.State → Prop
  | none => Blank σ
  | some p => Holds σ p

end Phoenix.Store.Stable
