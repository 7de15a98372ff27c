import Verif.Spec.Rewards
/-! Specification vocabulary for C127: which calls the reward contract accepts. -/
namespace Phoenix.Rewards.Spec
open Phoenix Stake

/-- `D` rewards handed out so far and stakes of at most `S` are within bounds.  For tokens with
seven decimals: up to ten trillion reward tokens, a hundred billion staked tokens per user, and
the product below 10^31, e.g. ten million reward tokens and stakes of ten billion tokens. -/
def Moderate (D S : Int) : Prop := D ≤ 10 ^ 20 ∧ S ≤ 10 ^ 18 ∧ (D + 1) * S ≤ 10 ^ 31

/-- A well-formed list of stakes: none lies in the future, none is negative, and they add up to
the total. -/
def WellFormed (now : Nat) (i : Info) : Prop :=
  (∀ e ∈ i.stakes, e.ts ≤ now ∧ 0 ≤ e.amount) ∧ (i.stakes.map Entry.amount).sum = i.total

end Phoenix.Rewards.Spec
