import Verif.Model.Token
import Verif.Model.Curve
/-
Model of contracts/vesting (with the `minter` feature enabled).
Not modelled: TTLs, events, `update` (replaces the code), the name, symbol and decimals
of the token info (only its address is used).
-/
namespace Phoenix.Vesting
open Phoenix

/-- `VestingInfo`, contracts/vesting/src/storage.rs:47-55. -/
structure Info where
  balance : Nat
  recipient : Addr
  schedule : Curve
  deriving DecidableEq

/-- `MinterInfo`, contracts/vesting/src/storage.rs:57-63. -/
structure Minter where
  address : Addr
  capacity : Nat
  deriving DecidableEq

/-- Storage of an initialised vesting contract.  `entries` is the number of vesting
entries ever saved; it is not in the source and only bounds the search loop of
`save_vesting` (a storage holds finitely many entries). contracts/vesting/src/storage.rs:20-64. -/
structure State where
  admin : Addr
  token : Addr
  maxComplexity : Nat
  minter : Option Minter
  sched : Addr → Nat → Option Info
  entries : Nat

/-- `initialize`, contracts/vesting/src/contract.rs:84-114 and `initialize_with_minter`,
117-149 (the latter passes a minter).  Neither asks for any authorisation. -/
def init (v : Option State) (admin token : Addr) (maxComplexity : Nat) (minter : Option Minter) : Res State := do
  req (v = none) (.code 31)
  .ok { admin := admin, token := token, maxComplexity := maxComplexity, minter := minter,
        sched := fun _ _ => none, entries := 0 }

/-- `check_duplications`, contracts/vesting/src/utils.rs:6-15, with the addresses seen
so far. -/
def checkDup (seen : List Addr) : List (Addr × Curve) → Res Unit
  | [] => .ok ()
  | (a, _) :: rest => do
    req (¬ a ∈ seen) (.code 19)
    checkDup (seen ++ [a]) rest

/-- the match of `validate_vesting_schedule`, contracts/vesting/src/utils.rs:21-55. -/
def vestedAmount : Curve → Res Nat
  | .constant _ => .error (.code 29)
  | .sl _ minY _ maxY => if maxY ≠ 0 then .error (.code 14) else .ok minY
  | .pl steps =>
    match Curve.endValue steps, Curve.firstValue steps with
    | some e, some f => if e ≠ 0 then .error (.code 14) else .ok f
    | _, _ => .error .panic

/-- `validate_vesting_schedule`, contracts/vesting/src/utils.rs:19-56.  The caller
turns an `Err` into a panic (`expect`, contracts/vesting/src/contract.rs:173-174). -/
def validateSchedule (c : Curve) : Res Nat :=
  match c.validateDec with
  | .error _ => .error .panic
  | .ok _ => vestedAmount c

/-- the search loop of `save_vesting`, contracts/vesting/src/storage.rs:113-120:
the first index from `i` on without an entry.  `fuel` bounds the iterations. -/
def firstFree (f : Nat → Option Info) (i : Nat) : Nat → Res Nat
  | 0 => .error .panic
  | fuel + 1 => match f i with
    | none => .ok i
    | some _ => firstFree f (i + 1) fuel

/-- `env.storage().persistent().set(VestingInfoKey { recipient, index }, info)`, contracts/vesting/src/storage.rs:106-142 -/
def putInfo (v : State) (a : Addr) (i : Nat) (info : Info) : State :=
  { v with sched := upd v.sched a (fun j => if j = i then some info else v.sched a j) }

/-- `save_vesting`, contracts/vesting/src/storage.rs:106-128. -/
def saveVesting (v : State) (a : Addr) (info : Info) : Res State := do
  let i ← firstFree (v.sched a) 0 (v.entries + 1)
  .ok { putInfo v a i info with entries := v.entries + 1 }

/-- the loop of `create_vesting_schedules`, contracts/vesting/src/contract.rs:171-195,
returning the new storage and the total vested amount. -/
def createLoop (v : State) (total : Nat) : List (Addr × Curve) → Res (State × Nat)
  | [] => .ok (v, total)
  | (a, c) :: rest => do
    let amount ← validateSchedule c
    req (¬ v.maxComplexity ≤ c.size) (.code 8)
    let v' ← saveVesting v a ⟨amount, a, c⟩
    let total' ← add128 total amount
    createLoop v' total' rest

/-- `create_vesting_schedules`, contracts/vesting/src/contract.rs:151-214. -/
def create (self : Addr) (c : Ctx) (v : State) (L : Ledger) (l : List (Addr × Curve)) : Res (State × Ledger) := do
  requireAuth c v.admin
  req (l ≠ []) (.code 7)
  checkDup [] l
  let (v', total) ← createLoop v 0 l
  let amount ← toI128 total
  req (¬ L.bal v.token v.admin < amount) (.code 25)
  let L' ← L.transfer (c.as self) v.token v.admin self amount
  .ok (v', L')

/-- `get_vesting`, contracts/vesting/src/storage.rs:143-159. -/
def getVesting (v : State) (a : Addr) (i : Nat) : Res Info :=
  match v.sched a i with
  | some x => .ok x
  | none => .error (.code 1)

/-- `query_available_to_claim`, contracts/vesting/src/contract.rs:461-470. -/
def available (c : Ctx) (v : State) (a : Addr) (i : Nat) : Res Int := do
  let info ← getVesting v a i
  let val ← info.schedule.value c.now
  let d ← subU info.balance val
  toI128 d

/-- `claim`, contracts/vesting/src/contract.rs:216-265. -/
def claim (self : Addr) (c : Ctx) (v : State) (L : Ledger) (sender : Addr) (i : Nat) : Res (State × Ledger) := do
  requireAuth c sender
  let av ← available c v sender i
  req (0 < av) (.code 14)
  let info ← getVesting v sender i
  let vested ← info.schedule.value c.now
  let liquid ← subU info.balance vested
  let avU ← toU128 av
  req (¬ liquid < avU) (.code 11)
  let rest ← subU info.balance avU
  let L' ← L.transfer (c.as self) v.token self sender av
  .ok (putInfo v sender i { info with balance := rest }, L')

/-- `x as i128` for a `u128`: wraps. contracts/vesting/src/contract.rs:281. -/
def castI128 (x : Nat) : Int := if (x : Int) ≤ I128_MAX then x else (x : Int) - U128_LIM

/-- `burn`, contracts/vesting/src/contract.rs:268-285. -/
def burn (self : Addr) (c : Ctx) (v : State) (L : Ledger) (sender : Addr) (amount : Nat) : Res Ledger := do
  requireAuth c sender
  req (amount ≠ 0) (.code 16)
  L.burn (c.as self) v.token sender (castI128 amount)

/-- `get_minter(..)` with the panic of its absence (contracts/vesting/src/contract.rs:300-305). -/
def needMinter (v : State) : Res Minter :=
  match v.minter with
  | some m => .ok m
  | none => .error (.code 3)

/-- `mint`, contracts/vesting/src/contract.rs:288-340. -/
def mint (self : Addr) (c : Ctx) (v : State) (L : Ledger) (sender : Addr) (amount : Int) : Res (State × Ledger) := do
  requireAuth c sender
  req (0 < amount) (.code 17)
  let m ← needMinter v
  req (sender = m.address) (.code 13)
  let x ← toU128 amount
  let rest ← subU m.capacity x
  let L' ← L.mint (c.as self) v.token self amount
  .ok ({ v with minter := some ⟨m.address, rest⟩ }, L')

/-- who may replace the minter (contracts/vesting/src/contract.rs:349-355) -/
def minterOwner (v : State) : Addr :=
  match v.minter with
  | some m => m.address
  | none => v.admin

/-- `current_minter.map_or(0, |m| m.mint_capacity)`, contracts/vesting/src/contract.rs:365. -/
def capacity (v : State) : Nat :=
  match v.minter with
  | some m => m.capacity
  | none => 0

/-- `update_minter`, contracts/vesting/src/contract.rs:343-376. -/
def updateMinter (c : Ctx) (v : State) (sender new : Addr) : Res State := do
  requireAuth c sender
  req (sender = minterOwner v) (.code 13)
  .ok { v with minter := some ⟨new, capacity v⟩ }

/-- `update_minter_capacity`, contracts/vesting/src/contract.rs:379-410. -/
def updateCapacity (c : Ctx) (v : State) (sender : Addr) (new : Nat) : Res State := do
  requireAuth c sender
  req (sender = v.admin) (.code 13)
  let m ← needMinter v
  .ok { v with minter := some ⟨m.address, new⟩ }

/-- `query_balance`, contracts/vesting/src/contract.rs:412-417. -/
def queryBalance (v : State) (L : Ledger) (a : Addr) : Int := L.bal v.token a
/-- `query_vesting_contract_balance`, contracts/vesting/src/contract.rs:453-459. -/
def queryContractBalance (self : Addr) (v : State) (L : Ledger) : Int := L.bal v.token self

/-- the loop of `get_all_vestings`, contracts/vesting/src/storage.rs:161-185, with the
same bound on the iterations as the search of `save_vesting`. -/
def allVestings (f : Nat → Option Info) (i : Nat) : Nat → List Info
  | 0 => []
  | fuel + 1 => match f i with
    | none => []
    | some x => x :: allVestings f (i + 1) fuel

/-- `query_all_vesting_info`, contracts/vesting/src/contract.rs:426-431. -/
def queryAll (v : State) (a : Addr) : List Info := allVestings (v.sched a) 0 (v.entries + 1)

/-- External calls of the vesting contract. contracts/vesting/src/contract.rs:83-478. -/
inductive Call where
  | init (admin token : Addr) (maxComplexity : Nat) (minter : Option Minter)
  | create (l : List (Addr × Curve))
  | claim (sender : Addr) (index : Nat)
  | burn (sender : Addr) (amount : Nat)
  | mint (sender : Addr) (amount : Int)
  | updateMinter (sender new : Addr)
  | updateCapacity (sender : Addr) (new : Nat)

/-- The vesting contract together with all tokens (modelling device, nothing of /repo). -/
structure Sys where
  vest : Option State
  led : Ledger

/-- A transaction: a call of the vesting contract or of any token (modelling device, nothing of /repo). -/
inductive Tx where
  | vest (c : Ctx) (k : Call)
  | token (c : Ctx) (tok : Addr) (op : TokenOp)

/-- Signers and clock of a transaction (modelling device, nothing of /repo). -/
def Tx.ctx : Tx → Ctx
  | .vest c _ => c
  | .token c _ _ => c

/-- Reads of an uninitialised contract fail (contracts/vesting/src/storage.rs:81-97, 216-233). -/
def loaded (v : Option State) : Res State :=
  match v with
  | some v => .ok v
  | none => .error (.code 6)

/-- Effect of one successful transaction (contracts/vesting/src/contract.rs:84-410). -/
def step (self : Addr) (s : Sys) : Tx → Res Sys
  | .token c tok op => do
    let L ← s.led.call c tok op
    .ok { s with led := L }
  | .vest _ (.init a t m mi) => do
    let v ← init s.vest a t m mi
    .ok { s with vest := some v }
  | .vest c (.create l) => do
    let v ← loaded s.vest
    let (v', L) ← create self c v s.led l
    .ok ⟨some v', L⟩
  | .vest c (.claim sender i) => do
    let v ← loaded s.vest
    let (v', L) ← claim self c v s.led sender i
    .ok ⟨some v', L⟩
  | .vest c (.burn sender amount) => do
    let v ← loaded s.vest
    let L ← burn self c v s.led sender amount
    .ok { s with led := L }
  | .vest c (.mint sender amount) => do
    let v ← loaded s.vest
    let (v', L) ← mint self c v s.led sender amount
    .ok ⟨some v', L⟩
  | .vest c (.updateMinter sender new) => do
    let v ← loaded s.vest
    let v' ← updateMinter c v sender new
    .ok { s with vest := some v' }
  | .vest c (.updateCapacity sender new) => do
    let v ← loaded s.vest
    let v' ← updateCapacity c v sender new
    .ok { s with vest := some v' }

/-- A failed transaction is rolled back (modelling device, nothing of /repo). -/
def exec (self : Addr) (s : Sys) (t : Tx) : Sys :=
  match step self s t with
  | .ok s' => s'
  | .error _ => s

/-- State after a whole history of transactions (modelling device, nothing of /repo). -/
def run (self : Addr) (s : Sys) (ts : List Tx) : Sys := ts.foldl (exec self) s

end Phoenix.Vesting
