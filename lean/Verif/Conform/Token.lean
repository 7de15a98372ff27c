import Verif.Model.Token
import Verif.Lemmas.Basic
/-
The repository's own unit tests of the token, replayed on the model: the same calls, the same
expected numbers (contracts/token/src/test.rs).  These are tests of the model, not proofs of
properties.
-/
namespace Phoenix.Conform.Token
open Phoenix

/-- `env.mock_all_auths()`: everybody signs -/
def all : Ctx := { now := 0, seq := 0, signed := fun _ => true }
/-- every call must succeed; the admin is 9 -/
def play (t : Token) : List TokenOp → Res Token
  | [] => .ok t
  | o :: os => do play (← t.call all o) os
def setup (os : List TokenOp) : Res Token := do play (← Token.construct 9 7) os
def has (r : Res Token) (l : List (Addr × Int)) : Bool := okAnd r (fun t => l.all (fun p => decide (t.bal p.1 = p.2)))
def allowed (r : Res Token) (o s : Addr) (x : Int) : Bool := okAnd r (fun t => decide (t.allowanceOf all o s = x))

/-- `test`, contracts/token/src/test.rs:21-146 -/
example :
    let h : List TokenOp := [.mint 1 1000, .approve 2 3 500 200]
    let h1 := h ++ [.transfer 1 2 600]
    let h2 := h1 ++ [.transferFrom 3 2 1 400]
    let h3 := h2 ++ [.transfer 1 3 300, .setAdmin 8]
    let h4 := h3 ++ [.approve 2 3 500 200]
    (has (setup h) [(1, 1000)] && allowed (setup h) 2 3 500 && has (setup h1) [(1, 400), (2, 600)] &&
      has (setup h2) [(1, 800), (2, 200)] && has (setup h3) [(1, 500), (3, 300)] && okAnd (setup h3) (fun t => decide (t.admin = 8)) &&
      allowed (setup h4) 2 3 500 && allowed (setup (h4 ++ [.approve 2 3 0 200])) 2 3 0) = true := by decide +kernel
/-- `test_burn` -/
example :
    let h : List TokenOp := [.mint 1 1000, .approve 1 2 500 200]
    let h1 := h ++ [.burnFrom 2 1 500]
    let h2 := h1 ++ [.burn 1 500]
    (allowed (setup h) 1 2 500 && allowed (setup h1) 1 2 0 && has (setup h1) [(1, 500), (2, 0)] && has (setup h2) [(1, 0), (2, 0)]) = true := by
  decide +kernel
/-- `transfer_insufficient_balance`, `transfer_from_insufficient_allowance`, `decimal_is_over_eighteen` -/
example : (failsWith (setup [.mint 1 1000, .transfer 1 2 1001]) .panic &&
    allowed (setup [.mint 1 1000, .approve 1 3 100 200]) 1 3 100 &&
    failsWith (setup [.mint 1 1000, .approve 1 3 100 200, .transferFrom 3 1 2 101]) .panic &&
    failsWith (Token.construct 9 19) .panic) = true := by decide +kernel
/-- `test_zero_allowance`: moving 0 without an allowance works and stores none -/
example : okAnd (setup [.transferFrom 3 1 2 0]) (fun t => decide (t.allow 1 3 = ⟨0, 0⟩)) = true := by decide +kernel

end Phoenix.Conform.Token
