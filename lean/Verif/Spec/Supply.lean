import Verif.Spec.World
import Verif.Spec.Token
/-!
Specification vocabulary for the total supply of tokens in the whole protocol.
-/
namespace Phoenix.World.Spec
open Phoenix Phoenix.World

/-- The total supply of `t` is `n`: only finitely many addresses hold any of it, and their
balances add up to `n`. -/
def Supply (L : Ledger) (t : Addr) (n : Int) : Prop :=
  ∃ S : Finset Addr, (∀ a, a ∉ S → L.bal t a = 0) ∧ ∑ a ∈ S, L.bal t a = n

/-- The number of new units of `t` (negative: units destroyed) that a successful call from `w` to
`w'` stands for, read off the call and the number of shares that the called pool reports before
and after it.  Swaps, routes, trades, stakes, rewards, schedules, claims, deployments: none. -/
def issued (w w' : World) (t : Addr) : Call → Int
  | .token tok op => if tok = t then Phoenix.Spec.supplyChange op else 0
  | .xyk P _ =>
    match w.xyk P, w'.xyk P with
    | some p, some p' => if p.cfg.shareToken = t then p'.total - p.total else 0
    | _, _ => 0
  | .stable P _ =>
    match w.stable P, w'.stable P with
    | some p, some p' => if p.cfg.shareToken = t then p'.total - p.total else 0
    | _, _ => 0
  | .vest V (.mint _ x) => match w.vest V with
    | some v => if v.token = t then x else 0
    | none => 0
  | .vest V (.burn _ x) => match w.vest V with
    | some v => if v.token = t then -(x : Int) else 0
    | none => 0
  | _ => 0

/-- The amount argument of the vesting contract's `burn` has its Rust type `u128`. -/
def Fits : Call → Prop
  | .vest _ (.burn _ x) => x < U128_LIM
  | _ => True

/-- What all successful calls of a history add to the supply of `t`. -/
def issuedBy (h : Host) (t : Addr) : World → List Tx → Int
  | _, [] => 0
  | w, x :: xs =>
    (match step h w x.ctx x.call with
      | .ok w' => issued w w' t x.call
      | .error _ => 0) + issuedBy h t (exec h w x) xs

/-- The units of `t` that holders destroy by a successful `burn` or `burn_from` of the token, or by
`burn` of a vesting contract. -/
def burnt (w : World) (t : Addr) : Call → Int
  | .token tok (.burn _ x) => if tok = t then x else 0
  | .token tok (.burnFrom _ _ x) => if tok = t then x else 0
  | .vest V (.burn _ x) => match w.vest V with
    | some v => if v.token = t then (x : Int) else 0
    | none => 0
  | _ => 0

/-- What all successful burns of a history destroy of `t`. -/
def burntBy (h : Host) (t : Addr) : World → List Tx → Int
  | _, [] => 0
  | w, x :: xs =>
    (match step h w x.ctx x.call with
      | .ok _ => burnt w t x.call
      | .error _ => 0) + burntBy h t (exec h w x) xs

/-- The pool at `P`, of either kind, has the share token `t` and reports `n` shares. -/
def Reports (w : World) (P t : Addr) (n : Int) : Prop :=
  (∃ p, w.xyk P = some p ∧ p.cfg.shareToken = t ∧ p.total = n) ∨
  (∃ p, w.stable P = some p ∧ p.cfg.shareToken = t ∧ p.total = n)

end Phoenix.World.Spec
