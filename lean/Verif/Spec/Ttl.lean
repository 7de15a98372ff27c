import Verif.Model.Ttl
import Verif.Spec.Token
/-! Vocabulary for the theorems about the lifetimes of the token's storage entries. -/
namespace Phoenix.Ttl.Spec
open Phoenix Phoenix.Ttl

/-- A network that gives every new entry some lifetime and allows for more than thirty days. -/
structure NetOK (n : Net) : Prop where
  temp : 1 ≤ n.minTemp
  pers : 1 ≤ n.minPers
  max : 30 * DAY < n.maxTtl

/-- The balance of an account, archived or not. -/
def balOf (t : TTok) (a : Addr) : Int :=
  match t.bal a with
  | none => 0
  | some x => x.val

/-- The balance entry of the account exists and is archived at ledger `seq`. -/
def Archived (t : TTok) (seq : Nat) (a : Addr) : Prop := ∃ x, t.bal a = some x ∧ x.live < seq

/-- Ledger sequence numbers do not fall. -/
def Ordered (seq : Nat) : List (Ctx × TOp) → Prop
  | [] => True
  | k :: ks => seq ≤ k.1.seq ∧ Ordered k.1.seq ks

/-- The last ledger of a history that starts after `seq`. -/
def lastSeq (seq : Nat) : List (Ctx × TOp) → Nat
  | [] => seq
  | k :: ks => lastSeq k.1.seq ks

/-- The call, if the transaction is one and succeeds. -/
def done (n : Net) (t : TTok) (k : Ctx × TOp) : List (Ctx × TokenOp) :=
  match k.2, step n k.1 t k.2 with
  | .call op, .ok _ => [(k.1, op)]
  | _, _ => []

/-- The calls of a history that succeeded. -/
def effective (n : Net) (t : TTok) : List (Ctx × TOp) → List (Ctx × TokenOp)
  | [] => []
  | k :: ks => done n t k ++ effective n (exec n t k) ks

/-- Every call of the list succeeds, in the model without lifetimes. -/
def AllSucceed (b : Token) : List (Ctx × TokenOp) → Prop
  | [] => True
  | k :: ks => (∃ b', b.call k.1 k.2 = .ok b') ∧ AllSucceed (Phoenix.Spec.tokenExec b k) ks

/-- The call changes the allowance of `spender` over the tokens of `owner`. -/
def Touches (owner spender : Addr) : TokenOp → Prop
  | .approve o s _ _ => o = owner ∧ s = spender
  | .transferFrom sp s _ _ => s = owner ∧ sp = spender
  | .burnFrom sp s _ => s = owner ∧ sp = spender
  | _ => False

end Phoenix.Ttl.Spec
