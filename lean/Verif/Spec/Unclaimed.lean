import Verif.Spec.Stake
/-!
What an account earned and what it was paid, over a history of the stake contract.
-/
namespace Phoenix.Stake.Spec
open Phoenix Phoenix.Spec

/-- What the account earned in a history: for every distribution of `tok`, the documented rewards of the stakes
the account had at that moment. -/
def earnedBy (me : Addr) (s : Sys) (tok a : Addr) : List Tx → Int
  | [] => 0
  | t :: ts => ((distOf me s tok t).map (earnedFor (stakesOf s a))).sum + earnedBy me (exec me s t) tok a ts

/-- What withdrawals of rewards for account `a` took out of the contract in a history. -/
def paidTo (me : Addr) (s : Sys) (tok a : Addr) : List Tx → Int
  | [] => 0
  | t :: ts =>
    (match t with
      | .stake _ (.withdraw b) => if b = a then s.led.bal tok me - (exec me s t).led.bal tok me else 0
      | _ => 0) + paidTo me (exec me s t) tok a ts

/-- Every account for which rewards are withdrawn in the history is in `S`. -/
def Withdrawers (S : Finset Addr) (ts : List Tx) : Prop := ∀ c a, .stake c (.withdraw a) ∈ ts → a ∈ S

end Phoenix.Stake.Spec
