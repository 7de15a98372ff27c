import Verif.Model.Store
import Verif.Model.Ttl
/-
Storage with lifetimes for the contracts that keep their state in persistent entries and in their
instance (pool, pool_stable, stake, vesting; the token, which also has temporary entries, is in
Verif.Model.Ttl).  A call is written as a program of host storage operations, with every
`extend_ttl` where the source has it, and run in two ways: `plain` on the key-value store of
Verif.Model.Store, without lifetimes, and `timed` on a store in which every persistent entry and
the instance have a last live ledger.  The host operations follow the documentation of the host;
they are not code of this repository.
Not modelled: the lifetime of the wasm code entry (extended together with the instance) and the
lifetimes of the tokens' own entries (C106); that a token's entry makes a transaction fail is the
`blocked` of `Act.call`.
-/
namespace Phoenix.Life
open Phoenix Phoenix.Store
open Phoenix.Ttl (Net extended)

/-- `phoenix::ttl`, packages/phoenix/src/ttl.rs:2 -/
def DAY : Nat := 17280
/-- `INSTANCE_BUMP_AMOUNT`, packages/phoenix/src/ttl.rs:4 -/
def INST_BUMP : Nat := 7 * DAY
/-- `INSTANCE_LIFETIME_THRESHOLD`, packages/phoenix/src/ttl.rs:5 -/
def INST_LOW : Nat := INST_BUMP - DAY
/-- `PERSISTENT_BUMP_AMOUNT`, packages/phoenix/src/ttl.rs:7 -/
def PERS_BUMP : Nat := 30 * DAY
/-- `PERSISTENT_LIFETIME_THRESHOLD`, packages/phoenix/src/ttl.rs:8 -/
def PERS_LOW : Nat := PERS_BUMP - DAY

/-- `storage().instance()` and `storage().persistent()` (soroban_sdk) -/
inductive Place where
  | inst
  | pers
  deriving DecidableEq, Repr

/-- the map of Verif.Model.Store -/
def Place.dur : Place → Dur
  | .inst => .inst
  | .pers => .pers

/-- A program of host storage operations: `get` (also `has`), `set`, `persistent().extend_ttl(key, ..)`,
`instance().extend_ttl(..)`, or failure.  `count` is not an operation of the host: it tells how often
the storage has been written, which bounds the searches through it. -/
inductive Prog (α : Type) where
  | ret (a : α)
  | fail (e : Err)
  | get (d : Place) (k : Key) (next : Option Cell → Prog α)
  | set (d : Place) (k : Key) (v : Cell) (next : Prog α)
  | extend (k : Key) (low bump : Nat) (next : Prog α)
  | extendInst (low bump : Nat) (next : Prog α)
  | count (next : Nat → Prog α)

/-- one program after the other (modelling device, nothing of /repo) -/
def Prog.bind {α β : Type} (p : Prog α) (f : α → Prog β) : Prog β :=
  match p with
  | .ret a => f a
  | .fail e => .fail e
  | .get d k next => .get d k (fun c => (next c).bind f)
  | .set d k v next => .set d k v (next.bind f)
  | .extend k lo hi next => .extend k lo hi (next.bind f)
  | .extendInst lo hi next => .extendInst lo hi (next.bind f)
  | .count next => .count (fun c => (next c).bind f)

instance : Monad Prog where
  pure := .ret
  bind := .bind

/-- a computation that does not touch the storage (arithmetic, authorisation, calls of tokens) (modelling device, nothing of /repo) -/
def lift {α : Type} : Res α → Prog α
  | .ok a => .ret a
  | .error e => .fail e

instance : MonadLift (Except Err) Prog where
  monadLift := lift

/-- `storage().d().get(&k)` (soroban_sdk) -/
def read (d : Place) (k : Key) : Prog (Option Cell) := .get d k .ret
/-- `storage().d().set(&k, &v)` (soroban_sdk) -/
def write (d : Place) (k : Key) (v : Cell) : Prog Unit := .set d k v (.ret ())
/-- `persistent().extend_ttl(&k, PERSISTENT_LIFETIME_THRESHOLD, PERSISTENT_BUMP_AMOUNT)` (soroban_sdk) -/
def keep (k : Key) : Prog Unit := .extend k PERS_LOW PERS_BUMP (.ret ())
/-- `instance().extend_ttl(INSTANCE_LIFETIME_THRESHOLD, INSTANCE_BUMP_AMOUNT)` (soroban_sdk) -/
def keepInst : Prog Unit := .extendInst INST_LOW INST_BUMP (.ret ())
/-- `instance().extend_ttl(PERSISTENT_LIFETIME_THRESHOLD, PERSISTENT_BUMP_AMOUNT)` (soroban_sdk) -/
def keepInstLong : Prog Unit := .extendInst PERS_LOW PERS_BUMP (.ret ())

/-- `get(&k)` at a type, failing with `e` if there is nothing (soroban_sdk) -/
def fetch {α : Type} (d : Place) (k : Key) (as : Cell → Option α) (e : Err) : Prog α := do
  let c ← read d k
  match c with
  | none => .fail e
  | some c => match as c with
    | some x => .ret x
    | none => .fail .panic

/-- `get(&k)` at a type, with a default if there is nothing (soroban_sdk) -/
def fetchOr {α : Type} (d : Place) (k : Key) (as : Cell → Option α) (x0 : α) : Prog α := do
  let c ← read d k
  match c with
  | none => .ret x0
  | some c => match as c with
    | some x => .ret x
    | none => .fail .panic

/-- `persistent().has(&k).then(|| persistent().extend_ttl(&k, ..))` (soroban_sdk) -/
def keepIfThere (k : Key) : Prog Unit := do
  let c ← read .pers k
  if c.isSome = true then keep k else .ret ()

/-- Without lifetimes.  `extend_ttl` of an entry that is not there traps (modelling device, nothing of /repo). -/
def plain {α : Type} : Prog α → Store → Res (α × Store)
  | .ret a, σ => .ok (a, σ)
  | .fail e, _ => .error e
  | .get d k next, σ => plain (next (Store.get σ d.dur k)) σ
  | .set d k v next, σ => plain next (Store.set σ d.dur k v)
  | .extend k _ _ next, σ => if (Store.get σ .pers k).isSome = true then plain next σ else .error .panic
  | .extendInst _ _ next, σ => plain next σ
  | .count next, σ => plain (next σ.length) σ

/-- A contract's storage with the last live ledgers of its persistent entries and of its instance.
`live` says nothing about keys without an entry (modelling device, nothing of /repo). -/
structure LStore where
  st : Store
  live : Key → Nat
  inst : Nat

/-- change the last live ledger of one key (modelling device, nothing of /repo) -/
def put1 (f : Key → Nat) (k : Key) (v : Nat) : Key → Nat := fun x => if x = k then v else f x

/-- The persistent entry is archived: it is there, and its last live ledger is over (modelling device, nothing of /repo). -/
def LStore.archived (s : LStore) (seq : Nat) (k : Key) : Bool :=
  (Store.get s.st .pers k).isSome && decide (s.live k < seq)

/-- a persistent write: a new entry gets the network's minimal lifetime, an existing one keeps its own (modelling device, nothing of /repo) -/
def LStore.put (n : Net) (seq : Nat) (s : LStore) (k : Key) (v : Cell) : LStore :=
  { s with
    st := Store.set s.st .pers k v
    live := if (Store.get s.st .pers k).isSome = true then s.live else put1 s.live k (seq + n.minPers - 1) }

/-- With lifetimes, in ledger `seq`.  Touching an archived entry makes the transaction fail (modelling device, nothing of /repo). -/
def timed {α : Type} (n : Net) (seq : Nat) : Prog α → LStore → Res (α × LStore)
  | .ret a, s => .ok (a, s)
  | .fail e, _ => .error e
  | .get .inst k next, s => timed n seq (next (Store.get s.st .inst k)) s
  | .get .pers k next, s =>
    if s.archived seq k = true then .error .panic else timed n seq (next (Store.get s.st .pers k)) s
  | .set .inst k v next, s => timed n seq next { s with st := Store.set s.st .inst k v }
  | .set .pers k v next, s =>
    if s.archived seq k = true then .error .panic else timed n seq next (s.put n seq k v)
  | .extend k lo hi next, s =>
    if (Store.get s.st .pers k).isSome = true ∧ ¬ s.archived seq k = true then
      timed n seq next { s with live := put1 s.live k (extended n seq lo hi (s.live k)) }
    else .error .panic
  | .extendInst lo hi next, s => timed n seq next { s with inst := extended n seq lo hi s.inst }
  | .count next, s => timed n seq (next s.st.length) s

/-- A contract as its transactions see it: the program of a transaction, given all else there is (the
tokens; for contracts that call other contracts of this repository, those too); the ledger in which it
is made; and whether the contract itself is called (a token can be called as well) (modelling device, nothing of /repo). -/
structure Contract (T : Type) (E : Type := Ledger) where
  prog : T → E → Prog E
  seq : T → Nat
  calls : T → E → Bool

/-- The contract with lifetimes, and all else (all tokens) (modelling device, nothing of /repo). -/
structure LSys (E : Type := Ledger) where
  led : E
  cs : LStore

/-- What can happen: a transaction (`blocked`: it fails for a reason outside of this contract, such as
an archived entry of a token); anybody restores an archived entry or the instance; anybody extends the
lifetime of an entry or of the instance (queries do so as well) (modelling device, nothing of /repo). -/
inductive Act (T : Type) where
  | call (t : T) (blocked : Bool)
  | restore (seq : Nat) (k : Key)
  | restoreInst (seq : Nat)
  | extend (seq : Nat) (k : Key) (to_ : Nat)
  | extendInst (seq : Nat) (to_ : Nat)

/-- One act (modelling device, nothing of /repo). -/
def step {T E : Type} (n : Net) (C : Contract T E) (s : LSys E) : Act T → Res (LSys E)
  | .call t blocked => do
    req (blocked = false) .panic
    req (C.calls t s.led = true → C.seq t ≤ s.cs.inst) .panic
    let (L, cs) ← timed n (C.seq t) (C.prog t s.led) s.cs
    .ok ⟨L, cs⟩
  | .restore seq k =>
    if s.cs.archived seq k = true then .ok { s with cs := { s.cs with live := put1 s.cs.live k (seq + n.minPers - 1) } }
    else .ok s
  | .restoreInst seq =>
    if s.cs.inst < seq then .ok { s with cs := { s.cs with inst := seq + n.minPers - 1 } } else .ok s
  | .extend seq k to_ =>
    if s.cs.archived seq k = true then .error .panic
    else .ok { s with cs := { s.cs with live := put1 s.cs.live k (max (s.cs.live k) (min to_ (seq + n.maxTtl - 1))) } }
  | .extendInst seq to_ =>
    if s.cs.inst < seq then .error .panic
    else .ok { s with cs := { s.cs with inst := max s.cs.inst (min to_ (seq + n.maxTtl - 1)) } }

/-- A failed act leaves everything unchanged (modelling device, nothing of /repo). -/
def exec {T E : Type} (n : Net) (C : Contract T E) (s : LSys E) (a : Act T) : LSys E :=
  match step n C s a with
  | .ok s' => s'
  | .error _ => s

/-- The state after a whole history (modelling device, nothing of /repo). -/
def run {T E : Type} (n : Net) (C : Contract T E) (s : LSys E) (as : List (Act T)) : LSys E := as.foldl (exec n C) s

/-- A contract deployed in ledger `seq`: nothing stored, the instance with the minimal lifetime (modelling device, nothing of /repo). -/
def deployed {E : Type} (n : Net) (seq : Nat) (L : E) : LSys E := ⟨L, [], fun _ => 0, seq + n.minPers - 1⟩

end Phoenix.Life
