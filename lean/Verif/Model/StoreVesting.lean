import Verif.Model.Store
/-
contracts/vesting (with the `minter` feature) against the key-value store.
-/
namespace Phoenix.Store.Vesting
open Phoenix Phoenix.Store

/-- `DataKey::Admin = 1`, contracts/vesting/src/storage.rs:18-28. -/
def kAdmin : Key := .u32 1
/-- `DataKey::Minter = 3`, contracts/vesting/src/storage.rs:18-28. -/
def kMinter : Key := .u32 3
/-- `DataKey::VestingTokenInfo = 5`, contracts/vesting/src/storage.rs:18-28. -/
def kToken : Key := .u32 5
/-- `DataKey::MaxVestingComplexity = 6`, contracts/vesting/src/storage.rs:18-28. -/
def kComplexity : Key := .u32 6
/-- `DataKey::IsInitialized = 7`, contracts/vesting/src/storage.rs:18-28. -/
def kInit : Key := .u32 7
/-- `VestingInfoKey { recipient, index }`, contracts/vesting/src/storage.rs:99-104. -/
def kSched (a : Addr) (i : Nat) : Key := .mcons "index" (.u64 i) (.mcons "recipient" (.addr a) .mnil)

/-- `save_admin`, contracts/vesting/src/storage.rs:72-79. -/
def saveAdmin (σ : Store) (a : Addr) : Store := set σ .pers kAdmin (.addr a)
/-- `get_admin`, contracts/vesting/src/storage.rs:81-97. -/
def getAdmin (σ : Store) : Res Addr := load σ .pers kAdmin asAddr (.code 6)
/-- the search loop of `save_vesting`, contracts/vesting/src/storage.rs:113-120.  `fuel` bounds the
iterations. -/
def firstFree (σ : Store) (a : Addr) (i : Nat) : Nat → Res Nat
  | 0 => .error .panic
  | fuel + 1 => if has σ .pers (kSched a i) = true then firstFree σ a (i + 1) fuel else .ok i
/-- `save_vesting`, contracts/vesting/src/storage.rs:106-128.  No store holds more entries than were
written, so the search ends within that many steps. -/
def saveVesting (σ : Store) (a : Addr) (x : Phoenix.Vesting.Info) : Res Store := do
  let i ← firstFree σ a 0 (σ.length + 1)
  .ok (set σ .pers (kSched a i) (.vesting x))
/-- `update_vesting`, contracts/vesting/src/storage.rs:130-141. -/
def updateVesting (σ : Store) (a : Addr) (i : Nat) (x : Phoenix.Vesting.Info) : Store :=
  set σ .pers (kSched a i) (.vesting x)
/-- `get_vesting`, contracts/vesting/src/storage.rs:143-159. -/
def getVesting (σ : Store) (a : Addr) (i : Nat) : Res Phoenix.Vesting.Info :=
  load σ .pers (kSched a i) asVesting (.code 1)
/-- the loop of `get_all_vestings`, contracts/vesting/src/storage.rs:161-185. -/
def allVestings (σ : Store) (a : Addr) (i : Nat) : Nat → Res (List Phoenix.Vesting.Info)
  | 0 => .ok []
  | fuel + 1 =>
    if has σ .pers (kSched a i) = true then do
      let x ← getVesting σ a i
      let l ← allVestings σ a (i + 1) fuel
      .ok (x :: l)
    else .ok []
/-- `save_minter`, contracts/vesting/src/storage.rs:187-193. -/
def saveMinter (σ : Store) (m : Phoenix.Vesting.Minter) : Store := set σ .inst kMinter (.minter m)
/-- `get_minter`, contracts/vesting/src/storage.rs:195-205. -/
def getMinter (σ : Store) : Res (Option Phoenix.Vesting.Minter) :=
  match get σ .inst kMinter with
  | none => .ok none
  | some c => match asMinter c with
    | some m => .ok (some m)
    | none => .error .panic
/-- `save_token_info`, contracts/vesting/src/storage.rs:207-214. -/
def saveToken (σ : Store) (a : Addr) : Store := set σ .inst kToken (.tokenInfo a)
/-- `get_token_info`, contracts/vesting/src/storage.rs:216-233. -/
def getToken (σ : Store) : Res Addr := load σ .inst kToken asTokenInfo (.code 22)
/-- `save_max_vesting_complexity`, contracts/vesting/src/storage.rs:235-242. -/
def saveComplexity (σ : Store) (n : Nat) : Store := set σ .inst kComplexity (.u32 n)
/-- `get_max_vesting_complexity`, contracts/vesting/src/storage.rs:244-255. -/
def getComplexity (σ : Store) : Res Nat := load σ .inst kComplexity asU32 .panic
/-- `is_initialized`, contracts/vesting/src/storage.rs:257-262. -/
def isInit (σ : Store) : Res Bool := loadOr σ .inst kInit asBool false
/-- `set_initialized`, contracts/vesting/src/storage.rs:264-269. -/
def setInit (σ : Store) : Store := set σ .inst kInit (.bool true)

/-- `save_minter` of `initialize_with_minter`, contracts/vesting/src/contract.rs:135. -/
def putMinter (σ : Store) (m : Option Phoenix.Vesting.Minter) : Store :=
  match m with
  | some m => saveMinter σ m
  | none => σ

/-- `initialize` and `initialize_with_minter`, contracts/vesting/src/contract.rs:84-149. -/
def init (σ : Store) (admin token : Addr) (cx : Nat) (m : Option Phoenix.Vesting.Minter) : Res Store := do
  let b ← isInit σ
  req (b = false) (.code 31)
  let σ1 := setInit σ
  let σ2 := saveAdmin σ1 admin
  let σ3 := putMinter σ2 m
  let σ4 := saveToken σ3 token
  .ok (saveComplexity σ4 cx)

/-- the loop of `create_vesting_schedules`, contracts/vesting/src/contract.rs:171-195. -/
def createLoop (cx : Nat) (σ : Store) (total : Nat) : List (Addr × Curve) → Res (Store × Nat)
  | [] => .ok (σ, total)
  | (a, c) :: rest => do
    let amount ← Phoenix.Vesting.validateSchedule c
    req (¬ cx ≤ c.size) (.code 8)
    let σ' ← saveVesting σ a ⟨amount, a, c⟩
    let total' ← add128 total amount
    createLoop cx σ' total' rest

/-- `create_vesting_schedules`, contracts/vesting/src/contract.rs:151-214. -/
def create (me : Addr) (c : Ctx) (σ : Store) (L : Ledger) (l : List (Addr × Curve)) : Res (Store × Ledger) := do
  let admin ← getAdmin σ
  requireAuth c admin
  req (l ≠ []) (.code 7)
  Phoenix.Vesting.checkDup [] l
  let cx ← getComplexity σ
  let (σ', total) ← createLoop cx σ 0 l
  let token ← getToken σ'
  let amount ← toI128 total
  req (¬ L.bal token admin < amount) (.code 25)
  let L' ← L.transfer (c.as me) token admin me amount
  .ok (σ', L')

/-- `query_available_to_claim`, contracts/vesting/src/contract.rs:461-470. -/
def available (c : Ctx) (σ : Store) (a : Addr) (i : Nat) : Res Int := do
  let info ← getVesting σ a i
  let val ← info.schedule.value c.now
  let d ← subU info.balance val
  toI128 d

/-- `claim`, contracts/vesting/src/contract.rs:216-265. -/
def claim (me : Addr) (c : Ctx) (σ : Store) (L : Ledger) (sender : Addr) (i : Nat) : Res (Store × Ledger) := do
  requireAuth c sender
  let av ← available c σ sender i
  req (0 < av) (.code 14)
  let token ← getToken σ
  let info ← getVesting σ sender i
  let vested ← info.schedule.value c.now
  let liquid ← subU info.balance vested
  let avU ← toU128 av
  req (¬ liquid < avU) (.code 11)
  let rest ← subU info.balance avU
  let σ' := updateVesting σ sender i { info with balance := rest }
  let L' ← L.transfer (c.as me) token me sender av
  .ok (σ', L')

/-- `burn`, contracts/vesting/src/contract.rs:268-285. -/
def burn (me : Addr) (c : Ctx) (σ : Store) (L : Ledger) (sender : Addr) (amount : Nat) : Res Ledger := do
  requireAuth c sender
  req (amount ≠ 0) (.code 16)
  let token ← getToken σ
  L.burn (c.as me) token sender (Phoenix.Vesting.castI128 amount)

/-- `if let Some(minter) = get_minter(..) { minter } else { panic }`,
contracts/vesting/src/contract.rs:300-305, 392-403. -/
def needMinter (σ : Store) : Res Phoenix.Vesting.Minter := do
  let o ← getMinter σ
  match o with
  | some m => .ok m
  | none => .error (.code 3)

/-- `mint`, contracts/vesting/src/contract.rs:288-340: the minter is read twice. -/
def mint (me : Addr) (c : Ctx) (σ : Store) (L : Ledger) (sender : Addr) (amount : Int) : Res (Store × Ledger) := do
  requireAuth c sender
  req (0 < amount) (.code 17)
  let m ← needMinter σ
  req (sender = m.address) (.code 13)
  let again ← getMinter σ
  let x ← toU128 amount
  let rest ← subU ((again.map (·.capacity)).getD 0) x
  let token ← getToken σ
  let L' ← L.mint (c.as me) token me amount
  .ok (saveMinter σ ⟨m.address, rest⟩, L')

/-- who may replace the minter, contracts/vesting/src/contract.rs:349-355 -/
def minterOwner (σ : Store) (m : Option Phoenix.Vesting.Minter) : Res Addr :=
  match m with
  | some m => .ok m.address
  | none => getAdmin σ

/-- `update_minter`, contracts/vesting/src/contract.rs:343-376. -/
def updateMinter (c : Ctx) (σ : Store) (sender new : Addr) : Res Store := do
  requireAuth c sender
  let m ← getMinter σ
  let owner ← minterOwner σ m
  req (sender = owner) (.code 13)
  .ok (saveMinter σ ⟨new, (m.map (·.capacity)).getD 0⟩)

/-- `update_minter_capacity`, contracts/vesting/src/contract.rs:379-410. -/
def updateCapacity (c : Ctx) (σ : Store) (sender : Addr) (new : Nat) : Res Store := do
  requireAuth c sender
  let admin ← getAdmin σ
  req (sender = admin) (.code 13)
  let m ← needMinter σ
  .ok (saveMinter σ ⟨m.address, new⟩)

/-- `query_all_vesting_info`, contracts/vesting/src/contract.rs:426-431. -/
def queryAll (σ : Store) (a : Addr) : Res (List Phoenix.Vesting.Info) := allVestings σ a 0 (σ.length + 1)

/-- One transaction (contracts/vesting/src/contract.rs:84-410). -/
def step (me : Addr) (s : Store × Ledger) : Phoenix.Vesting.Tx → Res (Store × Ledger)
  | .token c tok op => do
    let L ← s.2.call c tok op
    .ok (s.1, L)
  | .vest _ (.init a t cx m) => do
    let σ ← init s.1 a t cx m
    .ok (σ, s.2)
  | .vest c (.create l) => create me c s.1 s.2 l
  | .vest c (.claim sender i) => claim me c s.1 s.2 sender i
  | .vest c (.burn sender x) => do
    let L ← burn me c s.1 s.2 sender x
    .ok (s.1, L)
  | .vest c (.mint sender x) => mint me c s.1 s.2 sender x
  | .vest c (.updateMinter sender new) => do
    let σ ← updateMinter c s.1 sender new
    .ok (σ, s.2)
  | .vest c (.updateCapacity sender new) => do
    let σ ← updateCapacity c s.1 sender new
    .ok (σ, s.2)

/-- A failed transaction leaves the store and the tokens unchanged (modelling device, nothing of /repo). -/
def exec (me : Addr) (s : Store × Ledger) (t : Phoenix.Vesting.Tx) : Store × Ledger :=
  match step me s t with
  | .ok s' => s'
  | .error _ => s

/-- State after a whole history (modelling device, nothing of /repo). -/
def run (me : Addr) (s : Store × Ledger) (ts : List Phoenix.Vesting.Tx) : Store × Ledger := ts.foldl (exec me) s

end Phoenix.Store.Vesting
