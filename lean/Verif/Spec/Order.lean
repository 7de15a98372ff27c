import Verif.Spec.World
/-! Specification vocabulary: calls whose order does not matter. -/
namespace Phoenix.World.Spec
open Phoenix Phoenix.World

/-- What a call may touch besides token balances: nothing, one pool, one staker's entry of a stake
contract, or one vesting schedule. -/
inductive Slot where
  | balances
  | xyk (P : Addr)
  | stable (P : Addr)
  | staker (K a : Addr)
  | schedule (V a : Addr) (i : Nat)
  deriving DecidableEq

/-- The slot of the calls considered: direct transfers, mints and burns; swaps and withdrawals of
liquidity; bonding, unbonding and withdrawing rewards; vesting claims. -/
def slotOf : Call → Option Slot
  | .token _ (.transfer ..) => some .balances
  | .token _ (.mint ..) => some .balances
  | .token _ (.burn ..) => some .balances
  | .xyk P (.swap ..) => some (.xyk P)
  | .xyk P (.withdraw ..) => some (.xyk P)
  | .stable P (.swap ..) => some (.stable P)
  | .stable P (.withdraw ..) => some (.stable P)
  | .stake K (.bond a _) => some (.staker K a)
  | .stake K (.unbond a _ _) => some (.staker K a)
  | .stake K (.withdraw a) => some (.staker K a)
  | .vest V (.claim a i) => some (.schedule V a i)
  | _ => none

/-- Two such calls with different slots; calls that touch balances only go with any. -/
def Independent (k₁ k₂ : Call) : Prop :=
  ∃ s₁ s₂, slotOf k₁ = some s₁ ∧ slotOf k₂ = some s₂ ∧ (s₁ ≠ s₂ ∨ s₁ = .balances)

end Phoenix.World.Spec
