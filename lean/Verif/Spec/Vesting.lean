import Verif.Model.Vesting
import Verif.Spec.Curve
import Verif.Spec.Pool
import Mathlib.Algebra.Order.BigOperators.Group.Finset
/-! Specification vocabulary for the vesting contract: what is owed, what was claimed,
what was minted, read off balances and reported schedules. -/
namespace Phoenix.Vesting.Spec
open Phoenix Phoenix.Spec

/-- Before anything happened: not initialised, no negative balances, and the address of
the contract has granted no allowance. -/
def Genesis (me : Addr) (s : Sys) : Prop :=
  s.vest = none ∧ (∀ t a, 0 ≤ s.led.bal t a) ∧ NoAllowance me s.led

/-- Nobody can sign for the contract itself. -/
def Possible (me : Addr) (t : Tx) : Prop := t.ctx.auth me = false

/-- The schedule number `i` of account `a`, as `query_vesting_info` reports it. -/
def schedule? (s : Sys) (a : Addr) (i : Nat) : Option Info := s.vest.bind (fun v => v.sched a i)

/-- Outstanding balance of schedule `k = (account, index)`; zero if there is none. -/
def outstanding (s : Sys) (k : Addr × Nat) : Int :=
  match schedule? s k.1 k.2 with
  | some x => x.balance
  | none => 0

/-- Outstanding balances of a set of schedules together. -/
def owed (s : Sys) (K : Finset (Addr × Nat)) : Int := ∑ k ∈ K, outstanding s k

/-- The vesting token. -/
def token? (s : Sys) : Option Addr := s.vest.map State.token

/-- Balance of account `a` in the vesting token (zero before initialisation). -/
def held (s : Sys) (a : Addr) : Int :=
  match token? s with
  | some t => s.led.bal t a
  | none => 0

/-- What the transaction pays to `a` if it is a claim by `a` of schedule `i`: the
increase of the vesting token balance of `a`. -/
def paid (me : Addr) (s : Sys) (t : Tx) (a : Addr) (i : Nat) : Int :=
  match t with
  | .vest _ (.claim sender j) => if sender = a ∧ j = i then held (exec me s t) a - held s a else 0
  | _ => 0

/-- Total paid to `a` by claims of schedule `i` over a history. -/
def claimed (me : Addr) (s : Sys) (a : Addr) (i : Nat) : List Tx → Int
  | [] => 0
  | t :: ts => paid me s t a i + claimed me (exec me s t) a i ts

/-- A successful claim by `a` of schedule `i`. -/
def isClaim (me : Addr) (s : Sys) (t : Tx) (a : Addr) (i : Nat) : Bool :=
  match t with
  | .vest _ (.claim sender j) => sender == a && j == i && (step me s t).toOption.isSome
  | _ => false

/-- Time of the last successful claim by `a` of schedule `i`, `last` if there is none. -/
def lastClaim (me : Addr) (s : Sys) (a : Addr) (i : Nat) (last : Option Nat) : List Tx → Option Nat
  | [] => last
  | t :: ts => lastClaim me (exec me s t) a i (if isClaim me s t a i then some t.ctx.now else last) ts

/-- What the transaction mints through the contract: the increase of the contract's
vesting token balance if it is a call of `mint`. -/
def mintedBy (me : Addr) (s : Sys) (t : Tx) : Int :=
  match t with
  | .vest _ (.mint _ _) => held (exec me s t) me - held s me
  | _ => 0

/-- Total minted through the contract over a history. -/
def minted (me : Addr) (s : Sys) : List Tx → Int
  | [] => 0
  | t :: ts => mintedBy me s t + minted me (exec me s t) ts

/-- The minter's remaining capacity; zero if there is no minter. -/
def capacityOf (s : Sys) : Int :=
  match s.vest.bind State.minter with
  | some m => m.capacity
  | none => 0

/-- The transaction is an initialisation or sets the capacity. -/
def setsCapacity : Tx → Bool
  | .vest _ (.init ..) => true
  | .vest _ (.updateCapacity ..) => true
  | _ => false

/-- A curve users may vest along: not constant, valid, non-increasing and ending at 0;
`amount` is where it starts. -/
def Vests (c : Curve) (amount : Nat) : Prop :=
  NonConstant c ∧ c.validate = .ok () ∧
  (stepsOf c).Pairwise (fun x y => y.value ≤ x.value) ∧
  (stepsOf c).head?.map Step.value = some amount ∧ (stepsOf c).getLast?.map Step.value = some 0

end Phoenix.Vesting.Spec
