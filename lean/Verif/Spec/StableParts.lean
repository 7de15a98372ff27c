import Verif.Spec.Stable
/-!
Vocabulary for C145: swaps of a stable pool one after the other.
-/
namespace Phoenix.Stable.Spec
open Phoenix Stable

/-- The pool `p` with the tokens `L` can come about: some history leads there from a starting point. -/
def Reached (me : Addr) (p : State) (L : Ledger) : Prop :=
  ∃ s ts, Genesis me s ∧ (∀ t ∈ ts, Possible me t) ∧ (run me s ts).pool = some p ∧ (run me s ts).led = L

/-- Swaps that offer the token `offer`, directly one after the other (other things may happen to the token
balances in between, by whomever), each in a pool in fair condition: the amounts offered, the sum of what
the traders got, and the pool before and after. -/
inductive Sold (me offer : Addr) : State → List Int → Int → State → Prop
  | nil (p : State) : Sold me offer p [] 0 p
  | cons {c : Ctx} {p p1 p2 : State} {L L1 : Ledger} {sender : Addr} {a ret total : Int} {amounts : List Int}
      {mo ms mf : Option Int} {dl : Option Nat} (reached : Reached me p L) (fair : Fair 1 p) (hc : c.auth me = false)
      (h : swap me c p L sender offer a mo ms dl mf = .ok (p1, L1, ret))
      (rest : Sold me offer p1 amounts total p2) : Sold me offer p (a :: amounts) (ret + total) p2

end Phoenix.Stable.Spec
