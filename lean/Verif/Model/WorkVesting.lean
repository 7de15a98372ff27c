import Verif.Model.Vesting
/-! The calls of the vesting contract once more, this time counting the work they do.  One unit of
work is one lookup of a schedule in storage, one point of a curve that is read from storage,
written to storage or visited by a loop, or one address that is compared.  Everything else (the
fixed number of small entries, arithmetic, one token transfer) is a constant per call and is not
counted. -/
namespace Phoenix.WorkV
open Phoenix Phoenix.Vesting Phoenix.Curve

/-- the loop of `PiecewiseLinear::value`, packages/curve/src/lib.rs:321-331: the points visited. -/
def plScan (prev : Step) (rest : List Step) (x : Nat) : Res (Nat × Nat) :=
  match rest with
  | [] => .ok (prev.value, 0)
  | next :: rest' =>
    if x < next.time then do
      let v ← interpolate prev.time prev.value next.time next.value x
      .ok (v, 1)
    else do
      let (v, n) ← plScan next rest' x
      .ok (v, n + 1)

/-- `PiecewiseLinear::value`, packages/curve/src/lib.rs:300-331: the first and the last point are
read, and the first one again before the loop. -/
def plValue (steps : List Step) (x : Nat) : Res (Nat × Nat) :=
  match steps with
  | [] => .error .panic
  | first :: rest =>
    if x ≤ first.time then .ok (first.value, 2)
    else if x ≥ (lastStep first rest).time then .ok ((lastStep first rest).value, 2)
    else do
      let (v, n) ← plScan first rest x
      .ok (v, n + 3)

/-- `Curve::value`, packages/curve/src/lib.rs:73-79. -/
def value (c : Curve) (x : Nat) : Res (Nat × Nat) :=
  match c with
  | .constant y => .ok (y, 0)
  | .sl minX minY maxX maxY => do
    let v ← slValue minX minY maxX maxY x
    .ok (v, 0)
  | .pl steps => plValue steps x

/-- the points visited when `validate_monotonic_decreasing` accepts the curve,
packages/curve/src/lib.rs:110-116, 335-394: one walk for the order of the times, one for the shape;
a straight line is checked without a loop. -/
def validateWork : Curve → Nat
  | .pl steps => steps.length + steps.length
  | _ => 0

/-- A schedule in storage: one lookup and the points of its curve (contracts/vesting/src/storage.rs:47-55). -/
def entry (x : Info) : Nat := 1 + x.schedule.size

/-- `check_duplications`, contracts/vesting/src/utils.rs:6-15: `contains` is counted as a walk
through all addresses seen so far. -/
def checkDup (seen : List Addr) : List (Addr × Curve) → Res Nat
  | [] => .ok 0
  | (a, _) :: rest => do
    req (¬ a ∈ seen) (.code 19)
    let n ← checkDup (seen ++ [a]) rest
    .ok (seen.length + n)

/-- the search loop of `save_vesting`, contracts/vesting/src/storage.rs:113-120: one lookup (`has`)
per index. -/
def firstFree (f : Nat → Option Info) (i : Nat) : Nat → Res (Nat × Nat)
  | 0 => .error .panic
  | fuel + 1 => match f i with
    | none => .ok (i, 1)
    | some _ => do
      let (k, n) ← firstFree f (i + 1) fuel
      .ok (k, n + 1)

/-- `save_vesting`, contracts/vesting/src/storage.rs:106-128: the search and the new entry. -/
def saveVesting (v : State) (a : Addr) (info : Info) : Res (State × Nat) := do
  let (i, n) ← firstFree (v.sched a) 0 (v.entries + 1)
  .ok ({ putInfo v a i info with entries := v.entries + 1 }, n + entry info)

/-- the loop of `create_vesting_schedules`, contracts/vesting/src/contract.rs:171-195. -/
def createLoop (v : State) (total : Nat) : List (Addr × Curve) → Res ((State × Nat) × Nat)
  | [] => .ok ((v, total), 0)
  | (a, c) :: rest => do
    let amount ← validateSchedule c
    req (¬ v.maxComplexity ≤ c.size) (.code 8)
    let (v', n) ← saveVesting v a ⟨amount, a, c⟩
    let total' ← add128 total amount
    let (r, k) ← createLoop v' total' rest
    .ok (r, validateWork c + n + k)

/-- `create_vesting_schedules`, contracts/vesting/src/contract.rs:151-214. -/
def create (self : Addr) (c : Ctx) (v : State) (L : Ledger) (l : List (Addr × Curve)) : Res ((State × Ledger) × Nat) := do
  requireAuth c v.admin
  req (l ≠ []) (.code 7)
  let d ← checkDup [] l
  let ((v', total), n) ← createLoop v 0 l
  let amount ← toI128 total
  req (¬ L.bal v.token v.admin < amount) (.code 25)
  let L' ← L.transfer (c.as self) v.token v.admin self amount
  .ok ((v', L'), d + n)

/-- `query_available_to_claim`, contracts/vesting/src/contract.rs:461-470: the entry is read and its
curve evaluated. -/
def available (c : Ctx) (v : State) (a : Addr) (i : Nat) : Res (Int × Nat) := do
  let info ← getVesting v a i
  let (val, n) ← value info.schedule c.now
  let d ← subU info.balance val
  let r ← toI128 d
  .ok (r, entry info + n)

/-- `claim`, contracts/vesting/src/contract.rs:216-265: calls `query_available_to_claim`, reads the
entry and evaluates the curve once more, and writes the entry. -/
def claim (self : Addr) (c : Ctx) (v : State) (L : Ledger) (sender : Addr) (i : Nat) : Res ((State × Ledger) × Nat) := do
  requireAuth c sender
  let (av, n) ← available c v sender i
  req (0 < av) (.code 14)
  let info ← getVesting v sender i
  let (vested, k) ← value info.schedule c.now
  let liquid ← subU info.balance vested
  let avU ← toU128 av
  req (¬ liquid < avU) (.code 11)
  let rest ← subU info.balance avU
  let L' ← L.transfer (c.as self) v.token self sender av
  .ok ((putInfo v sender i { info with balance := rest }, L'), n + entry info + k + entry info)

/-- the loop of `get_all_vestings`, contracts/vesting/src/storage.rs:161-185: one lookup per entry
and one that finds nothing. -/
def allVestings (f : Nat → Option Info) (i : Nat) : Nat → List Info × Nat
  | 0 => ([], 1)
  | fuel + 1 => match f i with
    | none => ([], 1)
    | some x => (x :: (allVestings f (i + 1) fuel).1, entry x + (allVestings f (i + 1) fuel).2)

/-- `query_all_vesting_info`, contracts/vesting/src/contract.rs:426-431. -/
def queryAll (v : State) (a : Addr) : List Info × Nat := allVestings (v.sched a) 0 (v.entries + 1)

/-- Effect and work of one successful transaction (contracts/vesting/src/contract.rs:84-410).  Only
`create_vesting_schedules` and `claim` touch schedules. -/
def step (self : Addr) (s : Sys) : Tx → Res (Sys × Nat)
  | .vest c (.create l) => do
    let v ← loaded s.vest
    let ((v', L), n) ← create self c v s.led l
    .ok (⟨some v', L⟩, n)
  | .vest c (.claim sender i) => do
    let v ← loaded s.vest
    let ((v', L), n) ← claim self c v s.led sender i
    .ok (⟨some v', L⟩, n)
  | t => do
    let s' ← Vesting.step self s t
    .ok (s', 0)

end Phoenix.WorkV
