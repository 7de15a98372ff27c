import Verif.Spec.World
/-!
# Executing the same transaction later

Between signing and execution a transaction can be held back.  Here: the same signatures at
another time, the deadline of a call, which calls note the time or reckon with it, and that
no contract keeps a time after `T`.
-/
namespace Phoenix.World.Spec
open Phoenix Phoenix.World

/-- The same transaction at another time. -/
def on (c : Ctx) (now : Nat) : Ctx := { c with now := now }

/-- The deadline that the caller has set. -/
def deadline : Call → Option Nat
  | .xyk _ (.provide _ _ _ _ _ _ dl) => dl
  | .xyk _ (.swap _ _ _ _ _ dl _) => dl
  | .xyk _ (.withdraw _ _ _ _ dl) => dl
  | .stable _ (.provide _ _ _ _ dl _) => dl
  | .stable _ (.swap _ _ _ _ _ dl _) => dl
  | .stable _ (.withdraw _ _ _ _ dl) => dl
  | .hopSwap _ _ _ _ _ dl _ => dl
  | .trade _ _ _ _ _ _ dl _ _ => dl
  | _ => none

/-- The deadline, if there is one, has not passed. -/
def InTime (now : Nat) (k : Call) : Prop := ∀ d, deadline k = some d → now ≤ d

/-- Calls that note the time or whose amounts are defined by it: the start of a stable pool, new
stakes, distributions and withdrawals of rewards, claims of vested tokens, and in the reward contract
the payments, the distributions and the funding. -/
def NotesTime : Call → Prop
  | .stableInit .. => True
  | .create _ _ _ k _ _ _ => k = .stable
  | .stake _ (.bond ..) => True
  | .stake _ (.distribute ..) => True
  | .stake _ (.withdraw ..) => True
  | .vest _ (.claim ..) => True
  | .rewards _ (.calcUnbond ..) => True
  | .rewards _ (.distribute ..) => True
  | .rewards _ (.withdraw ..) => True
  | .rewards _ (.fund ..) => True
  | _ => False

/-- Nothing in this stake contract is dated after `T`. -/
structure StakeBefore (T : Nat) (s : Stake.State) : Prop where
  stakes : ∀ a, ∀ e ∈ (s.info a).stakes, e.ts ≤ T
  last : ∀ a, (s.info a).last ≤ T
  hist : ∀ d ∈ s.hist.keys, d ≤ T
  rewards : ∀ t m, s.rewards t = some m → ∀ d ∈ m.keys, d ≤ T

/-- No stable pool and no stake contract keeps a time after `T`. -/
structure Before (T : Nat) (w : World) : Prop where
  stable : ∀ P p, w.stable P = some p → p.amp.initTime ≤ T ∧ p.amp.nextTime ≤ T
  stake : ∀ K, StakeBefore T (w.stake K)

end Phoenix.World.Spec
