import Verif.Model.Life
import Verif.Spec.Ttl
/-
What the theorems about storage lifetimes speak of: the same calls without lifetimes, the calls
that went through, and the persistent entries a call touches.
-/
namespace Phoenix.Life.Spec
open Phoenix Phoenix.Store Phoenix.Life
open Phoenix.Ttl (Net)

/-- A network on which an entry can live for more than thirty days, and a new one lives at least in the
ledger that creates it. -/
structure NetOK (n : Net) : Prop where
  pers : 1 ≤ n.minPers
  max : PERS_BUMP < n.maxTtl

/-- One transaction in a world without lifetimes. -/
def plainStep {T E : Type} (C : Contract T E) (s : Store × E) (t : T) : Res (Store × E) := do
  let (L, σ) ← plain (C.prog t s.2) s.1
  .ok (σ, L)

/-- A list of transactions without lifetimes. -/
def plainRun {T E : Type} (C : Contract T E) (s : Store × E) (ts : List T) : Store × E :=
  ts.foldl (fun s t => match plainStep C s t with | .ok s' => s' | .error _ => s) s

/-- In a world without lifetimes every one of these transactions succeeds. -/
def AllSucceed {T E : Type} (C : Contract T E) : Store × E → List T → Prop
  | _, [] => True
  | s, t :: ts => ∃ s', plainStep C s t = .ok s' ∧ AllSucceed C s' ts

/-- The transactions of a history that succeeded, in their order. -/
def effective {T E : Type} (n : Net) (C : Contract T E) : LSys E → List (Act T) → List T
  | _, [] => []
  | s, a :: as =>
    (match a, step n C s a with
      | .call t _, .ok _ => [t]
      | _, _ => []) ++ effective n C (exec n C s a) as

/-- The persistent entries that a program reads, writes or extends. -/
def touched {α : Type} : Prog α → Store → List Key
  | .ret _, _ => []
  | .fail _, _ => []
  | .get .inst k next, σ => touched (next (Store.get σ .inst k)) σ
  | .get .pers k next, σ => k :: touched (next (Store.get σ .pers k)) σ
  | .set .inst k v next, σ => touched next (Store.set σ .inst k v)
  | .set .pers k v next, σ => k :: touched next (Store.set σ .pers k v)
  | .extend k _ _ next, σ => k :: touched next σ
  | .extendInst _ _ next, σ => touched next σ
  | .count next, σ => touched (next σ.length) σ

/-- What anybody can submit to bring back all that a transaction touches. -/
def restores {T : Type} (seq : Nat) (ks : List Key) : List (Act T) :=
  .restoreInst seq :: ks.map (fun k => .restore seq k)

end Phoenix.Life.Spec

namespace Phoenix.Life.Spec
open Phoenix

/-- Every one of these transactions succeeds, one after the other. -/
def AllOk {S T : Type} (f : S → T → Res S) : S → List T → Prop
  | _, [] => True
  | s, t :: ts => ∃ s', f s t = .ok s' ∧ AllOk f s' ts

end Phoenix.Life.Spec
