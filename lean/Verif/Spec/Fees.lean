import Verif.Spec.Pool
import Verif.Spec.Stable
/-!
What the swaps of a history pay, in total.
-/
namespace Phoenix.Fees
open Phoenix

/-- The sum of `f before t after` over the transactions `t` of a history that go through. -/
def total {σ τ : Type} (step : σ → τ → Res σ) (f : σ → τ → σ → Int) : σ → List τ → Int
  | _, [] => 0
  | s, t :: ts =>
    match step s t with
    | .ok s' => f s t s' + total step f s' ts
    | .error _ => total step f s ts

/-- What account `a` gained of token `X`. -/
def gain (L L' : Ledger) (X a : Addr) : Int := L'.bal X a - L.bal X a

section pool

/-- The trader, if the transaction is a swap that sells something else than `X`. -/
def buyer (X : Addr) : Pool.Tx → Option Addr
  | .pool _ (.swap sender offer _ _ _ _ _) => if offer = X then none else some sender
  | _ => none

/-- What the traders received of `X` in the swaps of the history. -/
def paid (me X : Addr) : Pool.Sys → List Pool.Tx → Int :=
  total (Pool.step me) (fun s t s' => match buyer X t with | some a => gain s.led s'.led X a | none => 0)

/-- What `R` received of `X` in the swaps of the history. -/
def tips (me X R : Addr) : Pool.Sys → List Pool.Tx → Int :=
  total (Pool.step me) (fun s t s' => match buyer X t with | some _ => gain s.led s'.led X R | none => 0)

/-- By how much the reported reserve of `X` fell in the swaps of the history that did not sell `X`. -/
def given (me X : Addr) : Pool.Sys → List Pool.Tx → Int :=
  total (Pool.step me) (fun s t s' =>
    match buyer X t, s.pool, s'.pool with
    | some _, some p, some p' => Spec.reserve p X - Spec.reserve p' X
    | _, _, _ => 0)

/-- The number of those swaps. -/
def buys (me X : Addr) : Pool.Sys → List Pool.Tx → Int :=
  total (Pool.step me) (fun _ t _ => match buyer X t with | some _ => 1 | none => 0)

/-- Whenever somebody tries to swap, the fee is between `lo` and `hi` basis points and goes to `R`. -/
def Charges (me R : Addr) (lo hi : Int) : Pool.Sys → List Pool.Tx → Prop
  | _, [] => True
  | s, t :: ts =>
    (Spec.isSwap t = true → ∀ p, s.pool = some p →
      p.cfg.feeRecipient = R ∧ lo ≤ p.cfg.totalFeeBps ∧ p.cfg.totalFeeBps ≤ hi) ∧
    Charges me R lo hi (Pool.exec me s t) ts

end pool

section stable

/-- The trader, if the transaction is a swap that sells something else than `X`. -/
def buyerS (X : Addr) : Stable.Tx → Option Addr
  | .pool _ (.swap sender offer _ _ _ _ _) => if offer = X then none else some sender
  | _ => none

/-- What the traders received of `X` in the swaps of the history. -/
def paidS (me X : Addr) : Stable.Sys → List Stable.Tx → Int :=
  total (Stable.step me) (fun s t s' => match buyerS X t with | some a => gain s.led s'.led X a | none => 0)

/-- What `R` received of `X` in the swaps of the history. -/
def tipsS (me X R : Addr) : Stable.Sys → List Stable.Tx → Int :=
  total (Stable.step me) (fun s t s' => match buyerS X t with | some _ => gain s.led s'.led X R | none => 0)

/-- By how much the reported reserve of `X` fell in the swaps of the history that did not sell `X`. -/
def givenS (me X : Addr) : Stable.Sys → List Stable.Tx → Int :=
  total (Stable.step me) (fun s t s' =>
    match buyerS X t, s.pool, s'.pool with
    | some _, some p, some p' => Stable.Spec.reserve p X - Stable.Spec.reserve p' X
    | _, _, _ => 0)

/-- The number of those swaps. -/
def buysS (me X : Addr) : Stable.Sys → List Stable.Tx → Int :=
  total (Stable.step me) (fun _ t _ => match buyerS X t with | some _ => 1 | none => 0)

/-- Whenever somebody tries to swap, the fee is between `lo` and `hi` basis points and goes to `R`. -/
def ChargesS (me R : Addr) (lo hi : Int) : Stable.Sys → List Stable.Tx → Prop
  | _, [] => True
  | s, t :: ts =>
    (Stable.Spec.isSwap t = true → ∀ p, s.pool = some p →
      p.cfg.feeRecipient = R ∧ lo ≤ p.cfg.totalFeeBps ∧ p.cfg.totalFeeBps ≤ hi) ∧
    ChargesS me R lo hi (Stable.exec me s t) ts

end stable

end Phoenix.Fees
