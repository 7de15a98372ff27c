import Verif.Model.Stake
/-! The calls of the stake contract once more, this time counting the work they do.  One unit of
work is one element of a list or map that is read from storage, written to storage or visited by
a loop.  Everything else (the fixed number of small entries, arithmetic, one token transfer per
reward token, a lookup in a map already loaded) is a constant per unit and is not counted. -/
namespace Phoenix.Work
open Phoenix Phoenix.Stake

/-- `remove_stake`, contracts/stake/src/contract.rs:397-410: the entries visited by `position`. -/
def removeStake (amount : Int) (ts : Nat) : List Entry → Res (List Entry × Nat)
  | [] => .error (.code 8)
  | e :: l => if e.amount = amount ∧ e.ts = ts then .ok (l, 1) else do
    let (l', n) ← removeStake amount ts l
    .ok (e :: l', n + 1)

/-- `bond`, contracts/stake/src/contract.rs:139-174: reads the list of stakes of the sender
(`get_stakes`, contracts/stake/src/storage.rs:70-89) and writes it back with one more entry
(`save_stakes`, contracts/stake/src/storage.rs:91-98). -/
def bond (self : Addr) (c : Ctx) (s : State) (L : Ledger) (sender : Addr) (tokens : Int) :
    Res ((State × Ledger) × Nat) := do
  requireAuth c sender
  let cfg ← getConfig s
  req (¬ tokens < cfg.minBond) (.code 4)
  let L' ← L.transfer (c.as self) cfg.lpToken sender self tokens
  let i := s.info sender
  let t ← addI i.total tokens
  let total ← addI s.total tokens
  let l := i.stakes ++ [⟨tokens, c.now⟩]
  .ok (({ s with info := upd s.info sender { i with stakes := l, total := t }, total := total }, L'),
    i.stakes.length + l.length)

/-- `unbond`, contracts/stake/src/contract.rs:176-199: reads the list of stakes of the sender,
searches it and writes it back. -/
def unbond (self : Addr) (c : Ctx) (s : State) (L : Ledger) (sender : Addr) (amount : Int) (ts : Nat) :
    Res ((State × Ledger) × Nat) := do
  requireAuth c sender
  let cfg ← getConfig s
  let i := s.info sender
  let (l, n) ← removeStake amount ts i.stakes
  let t ← subI i.total amount
  let L' ← L.transfer (c.as self) cfg.lpToken self sender amount
  let total ← subI s.total amount
  .ok (({ s with info := upd s.info sender { i with stakes := l, total := t }, total := total }, L'),
    i.stakes.length + n + l.length)

/-- `create_distribution_flow`, contracts/stake/src/contract.rs:201-218, with
`add_distribution`, contracts/stake/src/storage.rs:210-227: the list of reward tokens is read,
walked through and written back with one more entry; the new history is empty. -/
def createFlow (c : Ctx) (s : State) (sender asset : Addr) : Res (State × Nat) := do
  requireAuth c sender
  let cfg ← getConfig s
  req (¬ (sender ≠ cfg.manager ∧ sender ≠ cfg.owner)) (.code 5)
  req (¬ asset ∈ s.dists) (.code 10)
  let l := s.dists ++ [asset]
  .ok ({ s with dists := l, rewards := upd s.rewards asset (some []) },
    s.dists.length + s.dists.length + l.length)

/-- `distribute_rewards`, contracts/stake/src/contract.rs:220-260: reads the list of reward tokens
and searches it (`contains`; counted as a walk through the whole list), reads and writes the
history of the total staked and the history of the rewards of the token. -/
def distribute (self : Addr) (c : Ctx) (s : State) (L : Ledger) (sender : Addr) (amount : Int) (tok : Addr) :
    Res ((State × Ledger) × Nat) := do
  requireAuth c sender
  let cfg ← getConfig s
  req (¬ (sender ≠ cfg.manager ∧ sender ≠ cfg.owner)) (.code 5)
  req (tok ∈ s.dists) (.code 13)
  let h := s.hist.set c.now (asU128 s.total)
  let m ← rewardHistory s tok
  let m' := m.set c.now (asU128 amount)
  let L' ← L.transfer (c.as self) tok sender self amount
  .ok (({ s with hist := h, rewards := upd s.rewards tok (some m') }, L'),
    s.dists.length + s.dists.length + s.hist.length + h.length + m.length + m'.length)

/-- the loop over the stakes, contracts/stake/src/distribution.rs:97-113: one unit per stake. -/
def stakesLoop (day reward total : Nat) : List Entry → Int → Res (Int × Nat)
  | [], acc => .ok (acc, 0)
  | e :: l, acc => do
    let r ← stakeReward day reward total e
    let acc' ← addI acc r
    let (v, n) ← stakesLoop day reward total l acc'
    .ok (v, n + 1)

/-- one distribution, contracts/stake/src/distribution.rs:91-116: the stakes are only visited when
something was staked at the time. -/
def dayReward (m h : SMap) (stakes : List Entry) (day : Nat) (acc : Int) : Res (Int × Nat) :=
  match m.get day, h.get day with
  | some r, some t => if 0 < t then stakesLoop day r t stakes acc else .ok (acc, 0)
  | _, _ => .ok (acc, 0)

/-- the loop over the distributions, contracts/stake/src/distribution.rs:86-117: one unit per
distribution and the units of its stakes. -/
def daysLoop (m h : SMap) (stakes : List Entry) : List Nat → Int → Res (Int × Nat)
  | [], acc => .ok (acc, 0)
  | d :: ds, acc => do
    let (acc', n) ← dayReward m h stakes d acc
    let (v, k) ← daysLoop m h stakes ds acc'
    .ok (v, n + k + 1)

/-- `calculate_pending_rewards`, contracts/stake/src/distribution.rs:70-121: both histories are
read in full, the keys are listed, and searched (`find`) and skipped (`skip_while`) from the
first one; the search and the skipping are counted as one walk each through all keys. -/
def pending (c : Ctx) (s : State) (tok : Addr) (i : Info) : Res (Int × Nat) := do
  let m ← rewardHistory s tok
  let keys := m.keys
  let (v, n) ← daysLoop m s.hist i.stakes (relevant keys i.last c.now) 0
  .ok (v, m.length + s.hist.length + keys.length + keys.length + keys.length + n)

/-- the loop of `withdraw_rewards`, contracts/stake/src/contract.rs:271-282: one unit per reward
token and the units of its calculation. -/
def payLoop (self : Addr) (c : Ctx) (s : State) (sender : Addr) : List Addr → Ledger → Res (Ledger × Nat)
  | [], L => .ok (L, 0)
  | a :: l, L => do
    let (p, n) ← pending c s a (s.info sender)
    let L' ← L.transfer (c.as self) a self sender p
    let (L'', k) ← payLoop self c s sender l L'
    .ok (L'', n + k + 1)

/-- `withdraw_rewards`, contracts/stake/src/contract.rs:262-284: reads the stakes of the sender and
the list of reward tokens, runs the loop and writes the stakes back. -/
def withdraw (self : Addr) (c : Ctx) (s : State) (L : Ledger) (sender : Addr) :
    Res ((State × Ledger) × Nat) := do
  let i := s.info sender
  let (L', n) ← payLoop self c s sender s.dists L
  .ok (({ s with info := upd s.info sender { i with last := c.now } }, L'),
    i.stakes.length + s.dists.length + n + i.stakes.length)

/-- Effect and work of one successful transaction (contracts/stake/src/contract.rs:81-284).
`initialize` writes no list or map with elements; token calls do no work of this contract. -/
def step (self : Addr) (s : Sys) : Tx → Res (Sys × Nat)
  | .token c tok op => do
    let L ← s.led.call c tok op
    .ok ({ s with led := L }, 0)
  | .stake _ (.init a lp mb mr m o mc) => do
    let v ← Stake.init s.st a lp mb mr m o mc
    .ok ({ s with st := v }, 0)
  | .stake c (.bond sender x) => do
    let ((v, L), n) ← bond self c s.st s.led sender x
    .ok (⟨v, L⟩, n)
  | .stake c (.unbond sender x ts) => do
    let ((v, L), n) ← unbond self c s.st s.led sender x ts
    .ok (⟨v, L⟩, n)
  | .stake c (.createFlow sender asset) => do
    let (v, n) ← createFlow c s.st sender asset
    .ok ({ s with st := v }, n)
  | .stake c (.distribute sender x tok) => do
    let ((v, L), n) ← distribute self c s.st s.led sender x tok
    .ok (⟨v, L⟩, n)
  | .stake c (.withdraw sender) => do
    let ((v, L), n) ← withdraw self c s.st s.led sender
    .ok (⟨v, L⟩, n)

end Phoenix.Work
