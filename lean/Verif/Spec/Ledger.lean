import Verif.Model.Token
/-!
Specification vocabulary for token movements, independent of how the contracts
compute them.
-/
namespace Phoenix.Spec
open Phoenix

/-- `amt` units of token `tok` go from `src` to `dst`. -/
structure Flow where
  tok : Addr
  src : Addr
  dst : Addr
  amt : Int

/-- What a flow adds to the balance of `a` in token `t` (both ends counted, so a
flow from an account to itself adds zero). -/
def Flow.delta (f : Flow) (t a : Addr) : Int :=
  (if f.tok = t ∧ f.dst = a then f.amt else 0) - (if f.tok = t ∧ f.src = a then f.amt else 0)

/-- Every balance of every token in `L'` is the balance in `L` changed by exactly
the listed flows. -/
def Settles (L L' : Ledger) (fs : List Flow) : Prop :=
  ∀ t a, L'.bal t a = L.bal t a + (fs.map (fun f => f.delta t a)).sum

/-- Everything about the tokens other than balances is unchanged. -/
def SameRights (L L' : Ledger) : Prop :=
  ∀ t, (L' t).admin = (L t).admin ∧ (L' t).allow = (L t).allow ∧ (L' t).decimals = (L t).decimals

/-- Exactly `amt` new units of `tok` were credited to `dst` (negative: debited). -/
def Issues (L L' : Ledger) (tok dst : Addr) (amt : Int) : Prop :=
  ∀ t a, L'.bal t a = L.bal t a + if tok = t ∧ dst = a then amt else 0

end Phoenix.Spec
