import Verif.Model.Work
import Verif.Spec.Stake
/-! Vocabulary for the work done by a call: how often something happened in a history. -/
namespace Phoenix.Work.Spec
open Phoenix Phoenix.Stake Phoenix.Stake.Spec

/-- How many transactions of the history were accepted and satisfy `p`. -/
def happened (me : Addr) (p : Tx → Bool) (s : Sys) : List Tx → Nat
  | [] => 0
  | t :: ts => (if p t && succeeds me s t then 1 else 0) + happened me p (exec me s t) ts

/-- The transaction bonds for `a`. -/
def bonds (a : Addr) : Tx → Bool
  | .stake _ (.bond b _) => b = a
  | _ => false

/-- The transaction unbonds for `a`. -/
def unbonds (a : Addr) : Tx → Bool
  | .stake _ (.unbond b _ _) => b = a
  | _ => false

/-- The transaction announces a new reward token. -/
def announces : Tx → Bool
  | .stake _ (.createFlow _ _) => true
  | _ => false

/-- The transaction distributes rewards (of whatever token) at a time that satisfies `p`. -/
def distributesAt (p : Nat → Bool) : Tx → Bool
  | .stake c (.distribute _ _ _) => p c.now
  | _ => false

/-- The transaction distributes rewards, of whatever token and at whatever time. -/
def distributes : Tx → Bool := distributesAt (fun _ => true)

/-- The number of stakes an account has. -/
def stakes (s : Sys) (a : Addr) : Nat := (stakesOf s a).length

/-- When an account last withdrew its rewards, as `query_staked` reports it (0: never). -/
def lastClaim (s : Sys) (a : Addr) : Nat := (queryStaked s.st a).last

/-- The same contract, initialised with another `max_complexity`. -/
def withComplexity (k : Nat) (s : Sys) : Sys :=
  { s with st := { s.st with cfg := s.st.cfg.map (fun cfg => { cfg with maxComplexity := k }) } }

end Phoenix.Work.Spec
