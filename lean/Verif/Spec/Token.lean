import Verif.Spec.Ledger
import Mathlib.Algebra.BigOperators.Group.Finset.Piecewise
/-!
What each token entry point is supposed to do, stated without the model's helpers.
-/
namespace Phoenix.Spec
open Phoenix

/-- The amount by which an entry point of the token changes the balance of `a`. -/
def effect : TokenOp → Addr → Int
  | .mint d x, a => if d = a then x else 0
  | .setAdmin _, _ => 0
  | .approve _ _ _ _, _ => 0
  | .transfer s d x, a => (if d = a then x else 0) - (if s = a then x else 0)
  | .transferFrom _ s d x, a => (if d = a then x else 0) - (if s = a then x else 0)
  | .burn s x, a => -(if s = a then x else 0)
  | .burnFrom _ s x, a => -(if s = a then x else 0)

/-- The amount by which an entry point changes the total supply. -/
def supplyChange : TokenOp → Int
  | .mint _ x => x
  | .burn _ x => -x
  | .burnFrom _ _ x => -x
  | _ => 0

/-- Accounts whose balance an entry point may touch. -/
def parties : TokenOp → List Addr
  | .mint d _ => [d]
  | .setAdmin _ => []
  | .approve _ _ _ _ => []
  | .transfer s d _ => [s, d]
  | .transferFrom _ s d _ => [s, d]
  | .burn s _ => [s]
  | .burnFrom _ s _ => [s]

/-- Sum of the balances of a finite set of accounts. -/
def supply (S : Finset Addr) (t : Token) : Int := ∑ a ∈ S, t.bal a

/-- Arguments have their Rust type `i128`. -/
def Typed : TokenOp → Prop
  | .mint _ x => InI128 x
  | .setAdmin _ => True
  | .approve _ _ x _ => InI128 x
  | .transfer _ _ x => InI128 x
  | .transferFrom _ _ _ x => InI128 x
  | .burn _ x => InI128 x
  | .burnFrom _ _ x => InI128 x

/-- A failed token call is rolled back. -/
def tokenExec (t : Token) (k : Ctx × TokenOp) : Token :=
  match t.call k.1 k.2 with
  | .ok t' => t'
  | .error _ => t

/-- Token state after a history of calls. -/
def tokenRun (t : Token) (ks : List (Ctx × TokenOp)) : Token := ks.foldl tokenExec t

/-- The amount the call, if it succeeds, takes from `owner` under the allowance of `spender`. -/
def spentByCall (owner spender : Addr) (t : Token) (k : Ctx × TokenOp) : Int :=
  match t.call k.1 k.2, k.2 with
  | .ok _, .transferFrom sp o _ x => if sp = spender ∧ o = owner then x else 0
  | .ok _, .burnFrom sp o x => if sp = spender ∧ o = owner then x else 0
  | _, _ => 0

/-- Total taken from `owner` by `spender` through allowances over a history. -/
def spentBy (owner spender : Addr) : Token → List (Ctx × TokenOp) → Int
  | _, [] => 0
  | t, k :: ks => spentByCall owner spender t k + spentBy owner spender (tokenExec t k) ks

/-- The call is an approval by `owner` for `spender`. -/
def isApproval (owner spender : Addr) : TokenOp → Bool
  | .approve o s _ _ => o == owner && s == spender
  | _ => false

end Phoenix.Spec
