import Verif.Spec.World
/-!
Vocabulary of C146: the tokens that a contract pays out in the course of its business.  Definitions only.
-/
namespace Phoenix.World.Spec
open Phoenix Phoenix.World

/-- The contract at `a` has business with the token `t`: it is one of the two tokens of the pool, the staked token or one of the
announced reward tokens of the stake contract, the token of the vesting contract, the reward token of the reward contract, or
anything at all if a trader is at `a`.  Nothing is the business of the factory, the router or a token contract, nor of a contract
that was never initialised. -/
def Handles (w : World) (a t : Addr) : Prop :=
  (∃ p, w.xyk a = some p ∧ (t = p.cfg.tokenA ∨ t = p.cfg.tokenB)) ∨
  (∃ p, w.stable a = some p ∧ (t = p.cfg.tokenA ∨ t = p.cfg.tokenB)) ∨
  (∃ cfg, (w.stake a).cfg = some cfg ∧ t = cfg.lpToken) ∨
  t ∈ (w.stake a).dists ∨
  (∃ v, w.vest a = some v ∧ t = v.token) ∨
  (∃ cfg, (w.rew a).cfg = some cfg ∧ t = cfg.token) ∨
  w.code a = .trader

end Phoenix.World.Spec
