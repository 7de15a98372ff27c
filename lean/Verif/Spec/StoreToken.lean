import Verif.Spec.StorePool
import Verif.Model.StoreToken
/-! What the store of a token holds, key by key. -/
namespace Phoenix.Store.Token
open Phoenix Phoenix.Store

/-- The store holds exactly the token's variables, each under its own key: the administrator, the
decimals, a balance for every address (an absent one is 0), an allowance for every pair of addresses
(an absent one is 0 and has expired), and nothing else. -/
structure Holds (σ : Store) (t : Phoenix.Token) : Prop where
  admin : get σ .inst (.cons (.sym "Admin") .nil) = some (.addr t.admin)
  decimals : get σ .inst (.sym "METADATA") = some (.metadata t.decimals)
  bal : ∀ a, get σ .pers (.cons (.sym "Balance") (.cons (.addr a) .nil)) = some (.i128 (t.bal a)) ∨
    (get σ .pers (.cons (.sym "Balance") (.cons (.addr a) .nil)) = none ∧ t.bal a = 0)
  allow : ∀ a b,
    get σ .temp (.cons (.sym "Allowance") (.cons (.mcons "from" (.addr a) (.mcons "spender" (.addr b) .mnil)) .nil)) =
      some (.allowance (t.allow a b)) ∨
    (get σ .temp (.cons (.sym "Allowance") (.cons (.mcons "from" (.addr a) (.mcons "spender" (.addr b) .mnil)) .nil)) =
      none ∧ t.allow a b = ⟨0, 0⟩)
  /-- nothing else -/
  only : ∀ d k, get σ d k ≠ none →
    (d = .inst ∧ (k = .cons (.sym "Admin") .nil ∨ k = .sym "METADATA")) ∨
    (d = .pers ∧ ∃ a, k = .cons (.sym "Balance") (.cons (.addr a) .nil)) ∨
    (d = .temp ∧ ∃ a b, k = .cons (.sym "Allowance")
      (.cons (.mcons "from" (.addr a) (.mcons "spender" (.addr b) .mnil)) .nil))

end Phoenix.Store.Token
