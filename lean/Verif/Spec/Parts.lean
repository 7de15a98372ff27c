import Verif.Spec.Pool
import Verif.Spec.Stable
import Verif.Spec.Stake
/-!
Doing something in several parts.
-/
namespace Phoenix.Parts
open Phoenix

/-- Withdrawals from a pool, directly one after the other, by whichever holders (other things may happen to
the token balances in between): the shares given back, what was paid of the two tokens in total, and the
pool before and after. -/
inductive Redeemed (me : Addr) : Pool.State → List Int → Int → Int → Pool.State → Prop
  | nil (p : Pool.State) : Redeemed me p [] 0 0 p
  | cons {c : Ctx} {p p1 p2 : Pool.State} {L L1 : Ledger} {sender : Addr} {sh mA mB ra rb ta tb : Int}
      {shares : List Int} {dl : Option Nat} (hc : c.auth me = false)
      (h : Pool.withdraw me c p L sender sh mA mB dl = .ok (p1, L1, ra, rb))
      (rest : Redeemed me p1 shares ta tb p2) : Redeemed me p (sh :: shares) (ra + ta) (rb + tb) p2

/-- The same for a stable pool. -/
inductive RedeemedStable (me : Addr) : Stable.State → List Int → Int → Int → Stable.State → Prop
  | nil (p : Stable.State) : RedeemedStable me p [] 0 0 p
  | cons {c : Ctx} {p p1 p2 : Stable.State} {L L1 : Ledger} {sender : Addr} {sh mA mB ra rb ta tb : Int}
      {shares : List Int} {dl : Option Nat} (hc : c.auth me = false)
      (h : Stable.withdraw me c p L sender sh mA mB dl = .ok (p1, L1, ra, rb))
      (rest : RedeemedStable me p1 shares ta tb p2) : RedeemedStable me p (sh :: shares) (ra + ta) (rb + tb) p2

/-- `query_withdrawable_rewards` answers, and reports `v` units of `tok` for account `a`. -/
def Reports (c : Ctx) (s : Stake.State) (tok a : Addr) (v : Nat) : Prop :=
  ∃ r, Stake.queryWithdrawable c s a = .ok r ∧ (tok, v) ∈ r

/-- The stakes of several accounts, together. -/
def stakesOf (s : Stake.State) (as : List Addr) : List Stake.Entry := as.flatMap (fun a => (Stake.queryStaked s a).stakes)

end Phoenix.Parts
