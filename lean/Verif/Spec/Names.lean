import Verif.Model.Names
import Verif.Spec.Multihop
/-!
What the theorems about names and symbols speak of.
-/
namespace Phoenix.World.Spec
open Phoenix Phoenix.World

/-- A labelled quote without its labels. -/
def unlabelled (q : QuoteN) : Quote := ⟨q.amount, q.commissions.map (·.2), q.spreads⟩

/-- The labels of a quote. -/
def labels (q : QuoteN) : List String := q.commissions.map (·.1)

/-- The decimals of the share token of a new pool of the kind, for the decimals the factory was set up with and those of the two tokens. -/
def shareDecimals (factory a b : Nat) : Kind → Nat
  | .xyk => factory
  | .stable => max a b

/-- The calls of a history, without texts. -/
def calls (ts : List TxN) : List Tx := ts.map (·.tx)

end Phoenix.World.Spec
