import Verif.Model.Foreign
import Mathlib.Algebra.Order.BigOperators.Group.Finset
/-! What is asked of a foreign token, and what the contracts owe, for the theorems about
tokens of unknown code. -/
namespace Phoenix.Spec
open Phoenix

/-- No token call takes from `me` what `me` did not send.  A transfer of `x` of token `t`
lowers a balance of `me` only if `me` is the sender, only in token `t`, and by at most `x`;
minting and burning `t` lowers no balance of `me` in any other token.  Nothing is asked
about what the receiver gets, about other accounts, or about which calls succeed. -/
structure Fair {σ : Type} (T : Tokens σ) (me : Addr) : Prop where
  transfer : ∀ L c t src dst x L', T.transfer L c t src dst x = .ok L' → ∀ u,
    T.bal L u me - (if src = me ∧ u = t then x else 0) ≤ T.bal L' u me
  mint : ∀ L c t a x L', T.mint L c t a x = .ok L' → ∀ u, u ≠ t → T.bal L u me ≤ T.bal L' u me
  burn : ∀ L c t a x L', T.burn L c t a x = .ok L' → ∀ u, u ≠ t → T.bal L u me ≤ T.bal L' u me

/-- Transfers of token `t` by others to `me` arrive in full. -/
def Delivers {σ : Type} (T : Tokens σ) (me t : Addr) : Prop :=
  ∀ L c src x L', src ≠ me → T.transfer L c t src me x = .ok L' → T.bal L t me + x ≤ T.bal L' t me

/-- The outstanding balances of a set of vesting schedules (account, number) together. -/
def owedIn (v : Vesting.State) (K : Finset (Addr × Nat)) : Int :=
  ∑ k ∈ K, match v.sched k.1 k.2 with
    | some x => (x.balance : Int)
    | none => 0

/-- What a set of accounts has staked, entry by entry added up. -/
def stakedIn (s : Stake.State) (U : Finset Addr) : Int :=
  ∑ a ∈ U, ((Stake.queryStaked s a).stakes.map Stake.Entry.amount).sum

end Phoenix.Spec
