import Verif.Model.Life
import Verif.Model.StoreVesting
/-
contracts/vesting (with the `minter` feature) with the lifetimes of its storage: every `extend_ttl` of
the source is there.  The administrator and the schedules are persistent entries, everything else is in
the instance.  The keys and the arithmetic are those of Verif.Model.StoreVesting and Verif.Model.Vesting.
-/
namespace Phoenix.Life.Vesting
open Phoenix Phoenix.Store Phoenix.Life
open Phoenix.Store.Vesting (kAdmin kMinter kToken kComplexity kInit kSched)

/-- `save_admin`, contracts/vesting/src/storage.rs:72-79. -/
def saveAdmin (a : Addr) : Prog Unit := do
  write .pers kAdmin (.addr a)
  keep kAdmin
/-- `get_admin`, contracts/vesting/src/storage.rs:81-97. -/
def getAdmin : Prog Addr := do
  let a ← fetch .pers kAdmin asAddr (.code 6)
  keep kAdmin
  pure a
/-- the search loop of `save_vesting`, contracts/vesting/src/storage.rs:113-120: `has` does not extend
what it finds.  `fuel` bounds the iterations. -/
def firstFree (a : Addr) (i : Nat) : Nat → Prog Nat
  | 0 => .fail .panic
  | fuel + 1 => do
    let c ← read .pers (kSched a i)
    if c.isSome = true then firstFree a (i + 1) fuel else pure i
/-- `save_vesting`, contracts/vesting/src/storage.rs:106-128.  No store holds more entries than were
written, so the search ends within that many steps. -/
def saveVesting (a : Addr) (x : Phoenix.Vesting.Info) : Prog Unit := do
  let n ← Prog.count .ret
  let i ← firstFree a 0 (n + 1)
  write .pers (kSched a i) (.vesting x)
  keep (kSched a i)
/-- `update_vesting`, contracts/vesting/src/storage.rs:130-141. -/
def updateVesting (a : Addr) (i : Nat) (x : Phoenix.Vesting.Info) : Prog Unit := do
  write .pers (kSched a i) (.vesting x)
  keep (kSched a i)
/-- `get_vesting`, contracts/vesting/src/storage.rs:143-159. -/
def getVesting (a : Addr) (i : Nat) : Prog Phoenix.Vesting.Info := do
  let x ← fetch .pers (kSched a i) asVesting (.code 1)
  keep (kSched a i)
  pure x
/-- `save_minter`, contracts/vesting/src/storage.rs:187-193. -/
def saveMinter (m : Phoenix.Vesting.Minter) : Prog Unit := do
  write .inst kMinter (.minter m)
  keepInstLong
/-- `get_minter`, contracts/vesting/src/storage.rs:195-205. -/
def getMinter : Prog (Option Phoenix.Vesting.Minter) := do
  let m ← fetchOr .inst kMinter (fun c => (asMinter c).map some) none
  keepInst
  pure m
/-- `save_token_info`, contracts/vesting/src/storage.rs:207-214. -/
def saveToken (a : Addr) : Prog Unit := do
  write .inst kToken (.tokenInfo a)
  keepInstLong
/-- `get_token_info`, contracts/vesting/src/storage.rs:216-233. -/
def getToken : Prog Addr := do
  let a ← fetch .inst kToken asTokenInfo (.code 22)
  keepInstLong
  pure a
/-- `save_max_vesting_complexity`, contracts/vesting/src/storage.rs:235-242. -/
def saveComplexity (n : Nat) : Prog Unit := do
  write .inst kComplexity (.u32 n)
  keepInstLong
/-- `get_max_vesting_complexity`, contracts/vesting/src/storage.rs:244-255. -/
def getComplexity : Prog Nat := do
  let n ← fetch .inst kComplexity asU32 .panic
  keepInstLong
  pure n
/-- `is_initialized`, contracts/vesting/src/storage.rs:257-262. -/
def isInit : Prog Bool := fetchOr .inst kInit asBool false
/-- `set_initialized`, contracts/vesting/src/storage.rs:264-269. -/
def setInit : Prog Unit := do
  write .inst kInit (.bool true)
  keepInstLong

/-- `save_minter` of `initialize_with_minter`, contracts/vesting/src/contract.rs:135. -/
def putMinter (m : Option Phoenix.Vesting.Minter) : Prog Unit :=
  match m with
  | some m => saveMinter m
  | none => pure ()

/-- `initialize` and `initialize_with_minter`, contracts/vesting/src/contract.rs:84-149. -/
def init (admin token : Addr) (cx : Nat) (m : Option Phoenix.Vesting.Minter) : Prog Unit := do
  let b ← isInit
  req (b = false) (.code 31)
  setInit
  saveAdmin admin
  putMinter m
  saveToken token
  saveComplexity cx

/-- the loop of `create_vesting_schedules`, contracts/vesting/src/contract.rs:171-195. -/
def createLoop (cx : Nat) (total : Nat) : List (Addr × Curve) → Prog Nat
  | [] => pure total
  | (a, c) :: rest => do
    let amount ← Phoenix.Vesting.validateSchedule c
    req (¬ cx ≤ c.size) (.code 8)
    saveVesting a ⟨amount, a, c⟩
    let total' ← add128 total amount
    createLoop cx total' rest

/-- `create_vesting_schedules`, contracts/vesting/src/contract.rs:151-214. -/
def create (me : Addr) (c : Ctx) (L : Ledger) (l : List (Addr × Curve)) : Prog Ledger := do
  let admin ← getAdmin
  requireAuth c admin
  keepInst
  req (l ≠ []) (.code 7)
  Phoenix.Vesting.checkDup [] l
  let cx ← getComplexity
  let total ← createLoop cx 0 l
  let token ← getToken
  let amount ← toI128 total
  req (¬ L.bal token admin < amount) (.code 25)
  L.transfer (c.as me) token admin me amount

/-- `query_available_to_claim`, contracts/vesting/src/contract.rs:461-470. -/
def available (c : Ctx) (a : Addr) (i : Nat) : Prog Int := do
  keepInst
  let info ← getVesting a i
  let val ← info.schedule.value c.now
  let d ← subU info.balance val
  toI128 d

/-- `claim`, contracts/vesting/src/contract.rs:216-265. -/
def claim (me : Addr) (c : Ctx) (L : Ledger) (sender : Addr) (i : Nat) : Prog Ledger := do
  requireAuth c sender
  keepInst
  let av ← available c sender i
  req (0 < av) (.code 14)
  let token ← getToken
  let info ← getVesting sender i
  let vested ← info.schedule.value c.now
  let liquid ← subU info.balance vested
  let avU ← toU128 av
  req (¬ liquid < avU) (.code 11)
  let rest ← subU info.balance avU
  updateVesting sender i { info with balance := rest }
  L.transfer (c.as me) token me sender av

/-- `burn`, contracts/vesting/src/contract.rs:268-285. -/
def burn (me : Addr) (c : Ctx) (L : Ledger) (sender : Addr) (amount : Nat) : Prog Ledger := do
  requireAuth c sender
  keepInst
  req (amount ≠ 0) (.code 16)
  let token ← getToken
  L.burn (c.as me) token sender (Phoenix.Vesting.castI128 amount)

/-- `if let Some(minter) = get_minter(..) { minter } else { panic }`,
contracts/vesting/src/contract.rs:300-305, 392-403. -/
def needMinter : Prog Phoenix.Vesting.Minter := do
  let o ← getMinter
  match o with
  | some m => pure m
  | none => .fail (.code 3)

/-- `mint`, contracts/vesting/src/contract.rs:288-340: the minter is read twice. -/
def mint (me : Addr) (c : Ctx) (L : Ledger) (sender : Addr) (amount : Int) : Prog Ledger := do
  requireAuth c sender
  keepInst
  req (0 < amount) (.code 17)
  let m ← needMinter
  req (sender = m.address) (.code 13)
  let again ← getMinter
  let x ← toU128 amount
  let rest ← subU ((again.map (·.capacity)).getD 0) x
  let token ← getToken
  let L' ← L.mint (c.as me) token me amount
  saveMinter ⟨m.address, rest⟩
  pure L'

/-- who may replace the minter, contracts/vesting/src/contract.rs:349-355 -/
def minterOwner (m : Option Phoenix.Vesting.Minter) : Prog Addr :=
  match m with
  | some m => pure m.address
  | none => getAdmin

/-- `update_minter`, contracts/vesting/src/contract.rs:343-376. -/
def updateMinter (c : Ctx) (sender new : Addr) : Prog Unit := do
  requireAuth c sender
  keepInst
  let m ← getMinter
  let owner ← minterOwner m
  req (sender = owner) (.code 13)
  saveMinter ⟨new, (m.map (·.capacity)).getD 0⟩

/-- `update_minter_capacity`, contracts/vesting/src/contract.rs:379-410. -/
def updateCapacity (c : Ctx) (sender : Addr) (new : Nat) : Prog Unit := do
  requireAuth c sender
  keepInst
  let admin ← getAdmin
  req (sender = admin) (.code 13)
  let m ← needMinter
  saveMinter ⟨m.address, new⟩

/-- The program of one transaction (contracts/vesting/src/contract.rs:84-410). -/
def prog (me : Addr) (t : Phoenix.Vesting.Tx) (L : Ledger) : Prog Ledger :=
  match t with
  | .token c tok op => lift (L.call c tok op)
  | .vest _ (.init a t cx m) => do
    init a t cx m
    pure L
  | .vest c (.create l) => create me c L l
  | .vest c (.claim sender i) => claim me c L sender i
  | .vest c (.burn sender x) => burn me c L sender x
  | .vest c (.mint sender x) => mint me c L sender x
  | .vest c (.updateMinter sender new) => do
    updateMinter c sender new
    pure L
  | .vest c (.updateCapacity sender new) => do
    updateCapacity c sender new
    pure L

/-- the ledger in which a transaction happens (modelling device, nothing of /repo) -/
def seqOf : Phoenix.Vesting.Tx → Nat
  | .token c _ _ => c.seq
  | .vest c _ => c.seq

/-- whether the vesting contract is called (modelling device, nothing of /repo) -/
def callsOf : Phoenix.Vesting.Tx → Bool
  | .token _ _ _ => false
  | .vest _ _ => true

/-- contracts/vesting as a contract whose storage has lifetimes (modelling device, nothing of /repo). -/
def contract (me : Addr) : Contract Phoenix.Vesting.Tx := ⟨prog me, seqOf, fun t _ => callsOf t⟩

end Phoenix.Life.Vesting
