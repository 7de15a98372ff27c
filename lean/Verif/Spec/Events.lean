import Verif.Model.Events
/-!
How an outside reader interprets the events, independent of the contracts.
-/
namespace Phoenix.Spec
open Phoenix

/-- What a token event says about the balance of `a`. -/
def TokenEvent.moves : TokenEvent → Addr → Int
  | .mint _ d x, a => if d = a then x else 0
  | .transfer s d x, a => (if d = a then x else 0) - (if s = a then x else 0)
  | .burn s x, a => -(if s = a then x else 0)
  | _, _ => 0

/-- The balance of `a` according to a log that starts when the token is deployed. -/
def balanceByLog (log : List TokenEvent) (a : Addr) : Int := (log.map (fun e => TokenEvent.moves e a)).sum

/-- The admin according to a log, if `a` is the admin before it. -/
def adminByLog (a : Addr) : List TokenEvent → Addr
  | [] => a
  | .setAdmin _ n :: l => adminByLog n l
  | _ :: l => adminByLog a l

/-- The value published under a name and key. -/
def said (ev : List Event) (name key : String) : Option Val :=
  (ev.find? (fun e => e.name == name && e.key == key)).map (·.value)

/-- Reader of a stake contract's log: the account named last, and the stake of `a` so far. -/
def readStake (a : Addr) (r : Option Addr × Int) (e : Event) : Option Addr × Int :=
  match e.key, e.value with
  | "user", .addr u => (some u, r.2)
  | "amount", .int x =>
    if r.1 = some a then
      if e.name = "bond" then (r.1, r.2 + x) else if e.name = "unbond" then (r.1, r.2 - x) else r
    else r
  | _, _ => r

/-- The total stake of `a` according to the log of the stake contract. -/
def stakeByLog (a : Addr) (log : List Event) : Int := (log.foldl (readStake a) (none, 0)).2

/-- The pools announced by factory `F` in a log. -/
def announced (F : Addr) (log : List (Addr × Event)) : List Addr :=
  log.filterMap (fun e => if e.1 = F then (match e.2 with | ⟨"create", "liquidity_pool", .addr P⟩ => some P | _ => none) else none)

/-- Reader of a vesting contract's log: the minter and what they may still mint, if `r` held before. -/
def readMinter (r : Option (Addr × Int)) (e : Event) : Option (Addr × Int) :=
  match e.name, e.key, e.value with
  | "Mint", "Minted tokens: ", .int x => r.map (fun m => (m.1, m.2 - x))
  | "Update minter", "Updated minter to: ", .addr n => some (n, (r.map (·.2)).getD 0)
  | "Update minter capacity", "Updated minter capacity to: ", .int x => r.map (fun m => (m.1, x))
  | _, _, _ => r

/-- The minter according to a log. -/
def minterByLog (r : Option (Addr × Int)) (log : List Event) : Option (Addr × Int) := log.foldl readMinter r

end Phoenix.Spec
