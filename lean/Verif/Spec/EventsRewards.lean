import Verif.Model.EventsRewards
import Verif.Spec.Rewards
/-!
How an outside reader interprets the log of the reward distribution contract, and what happened in the tokens.
-/
namespace Phoenix.Spec
open Phoenix

/-- The number an event carries under a name and key, 0 for all other events. -/
def Event.number (name key : String) (e : Event) : Int :=
  if e.name = name ∧ e.key = key then (match e.value with | .int x => x | _ => 0) else 0

/-- The sum of all numbers published under a name and key. -/
def sumByLog (name key : String) (log : List Event) : Int := (log.map (Event.number name key)).sum

/-- Reader of withdrawals: the account named last, and what `a` got so far. -/
def readPaid (a : Addr) (r : Option Addr × Int) (e : Event) : Option Addr × Int :=
  match e.name, e.key, e.value with
  | "withdraw_rewards", "user", .addr u => (some u, r.2)
  | "withdraw_rewards", "reward_amount", .int x => (r.1, if r.1 = some a then r.2 + x else r.2)
  | _, _, _ => r

/-- What `a` was paid according to the log. -/
def paidToByLog (a : Addr) (log : List Event) : Int := (log.foldl (readPaid a) (none, 0)).2

end Phoenix.Spec

namespace Phoenix.Rewards.Spec
open Phoenix Rewards

/-- The tokens `tok` that account `a` gains in the calls of the contract (not by calling the token directly). -/
def gained (me tok a : Addr) (s : Sys) : List Tx → Int
  | [] => 0
  | .token c t op :: ts => gained me tok a (exec me s (.token c t op)) ts
  | .rewards c k :: ts =>
    (exec me s (.rewards c k)).led.bal tok a - s.led.bal tok a + gained me tok a (exec me s (.rewards c k)) ts

/-- The tokens `tok` that account `a` gains in withdrawals and unbondings. -/
def rewarded (me tok a : Addr) (s : Sys) : List Tx → Int
  | [] => 0
  | t :: ts => (if payee t = none then 0 else (exec me s t).led.bal tok a - s.led.bal tok a) + rewarded me tok a (exec me s t) ts

end Phoenix.Rewards.Spec
