import Verif.Spec.Unclaimed
/-!
An account that stays in the stake contract.
-/
namespace Phoenix.Stake.Spec
open Phoenix Phoenix.Spec

/-- In the history nothing is unbonded by account `a`; and whenever rewards are withdrawn for it, by whomever, no
distribution of `tok` follows within the same second. -/
def Stays (me : Addr) (s : Sys) (tok a : Addr) : List Tx → Prop
  | [] => True
  | t :: ts =>
    (match t with
      | .stake c (.withdraw b) => b = a → ∀ d ∈ dists me (exec me s t) tok ts, c.now < d.time
      | .stake _ (.unbond b _ _) => b ≠ a
      | _ => True) ∧ Stays me (exec me s t) tok a ts

/-- The clock never shows zero. -/
def Started (ts : List Tx) : Prop := ∀ t ∈ ts, 0 < t.ctx.now

end Phoenix.Stake.Spec
