import Verif.Model.Pool
import Verif.Model.Stable
import Verif.Model.Stake
import Verif.Model.Vesting
import Verif.Model.World
/-!
The events the contracts publish, which is all that an indexer or a block explorer sees.

A failed transaction publishes nothing (the host drops its events).  Functions with the suffix `E`
are the functions of the same name with the events added; `Verif.Lemmas.Events` proves that they do
the same otherwise.  The events of the tokens that a pool calls are events of those token contracts,
see `Token.events`.  The events of stake_rewards are in `Verif.Model.EventsRewards`.  Left out: the events of
`initialize` of the router and of the trader, and of `trade_token`, which never succeeds (C81).
-/
namespace Phoenix

/-- What an event of the token contract says (`TokenUtils::events()`, soroban-token-sdk; used in
contracts/token/src/contract.rs:51, 63, 92-94, 115, 130, 143, 157). -/
inductive TokenEvent where
  | mint (admin dst : Addr) (amount : Int)
  | setAdmin (admin newAdmin : Addr)
  | approve (owner spender : Addr) (amount : Int) (exp : Nat)
  | transfer (src dst : Addr) (amount : Int)
  | burn (src : Addr) (amount : Int)
  deriving DecidableEq

/-- The events of one successful call of the token contract,
contracts/token/src/contract.rs:51, 63, 92-94, 115, 130, 143, 157. -/
def Token.events (t : Token) : TokenOp → List TokenEvent
  | .mint d x => [.mint t.admin d x]
  | .setAdmin n => [.setAdmin t.admin n]
  | .approve o s x e => [.approve o s x e]
  | .transfer s d x => [.transfer s d x]
  | .transferFrom _ s d x => [.transfer s d x]
  | .burn s x => [.burn s x]
  | .burnFrom _ s x => [.burn s x]

/-- A call of the token contract with its events. contracts/token/src/contract.rs:41-157. -/
def Token.callE (c : Ctx) (t : Token) (op : TokenOp) : Res (Token × List TokenEvent) := do
  let t' ← t.call c op
  .ok (t', t.events op)

/-- The token's log of a history of calls; failed calls publish nothing (modelling device, nothing of /repo). -/
def Token.log : Token → List (Ctx × TokenOp) → List TokenEvent
  | _, [] => []
  | t, k :: ks =>
    match t.callE k.1 k.2 with
    | .ok (t', ev) => ev ++ Token.log t' ks
    | .error _ => Token.log t ks

/-- The data of an event of the other contracts (soroban_sdk). -/
inductive Val where
  | addr (a : Addr)
  | int (x : Int)
  | pair (a b : Addr)
  | unit
  deriving DecidableEq

/-- `env.events().publish((name, key), value)` (soroban_sdk). -/
structure Event where
  name : String
  key : String
  value : Val
  deriving DecidableEq

namespace Pool

/-- The events of `do_swap`, contracts/pool/src/contract.rs:947-960. -/
def swapEvents (sender sell : Addr) (amount received : Int) (buy : Addr) (r : ComputeSwap) : List Event :=
  [⟨"swap", "sender", .addr sender⟩, ⟨"swap", "sell_token", .addr sell⟩, ⟨"swap", "offer_amount", .int amount⟩,
   ⟨"swap", "actual received amount", .int received⟩, ⟨"swap", "buy_token", .addr buy⟩,
   ⟨"swap", "return_amount", .int r.ret⟩, ⟨"swap", "spread_amount", .int r.spread⟩,
   ⟨"swap", "referral_fee_amount", .int r.referral⟩]

/-- `do_swap`, contracts/pool/src/contract.rs:788-962, with its events. -/
def doSwapE (self : Addr) (c : Ctx) (p : State) (L : Ledger) (sender offer : Addr) (amount : Int)
    (minOut maxSpread maxFee : Option Int) : Res (State × Ledger × Int × List Event) := do
  let ms ← swapLimits p maxSpread maxFee
  let (sell, buy) ← sides p offer
  let fee ← Dec.bps p.cfg.totalFeeBps
  let r ← computeSwap sell buy amount fee 0
  whenSome minOut (fun m => req (m ≤ r.ret) (.code 21))
  let g1 ← addI r.ret r.commission
  let gross ← addI g1 r.referral
  assertMaxSpread ms gross r.spread
  let toks := tokensOf p offer
  let before := L.bal toks.1 self
  let L1 ← L.transfer (c.as self) toks.1 sender self amount
  let received ← subI (L1.bal toks.1 self) before
  let L2 ← L1.transfer (c.as self) toks.2 self sender r.ret
  let L3 ← L2.transfer (c.as self) toks.2 self p.cfg.feeRecipient r.commission
  let p' ← swapReserves p offer received r
  .ok (p', L3, r.ret, swapEvents sender toks.1 amount received toks.2 r)

/-- `swap`, contracts/pool/src/contract.rs:411-448, with its events. -/
def swapE (self : Addr) (c : Ctx) (p : State) (L : Ledger) (sender offer : Addr) (amount : Int)
    (minOut maxSpread : Option Int) (deadline : Option Nat) (maxFee : Option Int) :
    Res (State × Ledger × Int × List Event) := do
  checkDeadline c deadline
  validatePos (some amount)
  requireAuth c sender
  doSwapE self c p L sender offer amount minOut maxSpread maxFee

/-- The events of `provide_liquidity`, contracts/pool/src/contract.rs:398-407. -/
def provideEvents (p : State) (sender : Addr) (recA recB : Int) : List Event :=
  [⟨"provide_liquidity", "sender", .addr sender⟩, ⟨"provide_liquidity", "token_a", .addr p.cfg.tokenA⟩,
   ⟨"provide_liquidity", "token_a-amount", .int recA⟩, ⟨"provide_liquidity", "token_b", .addr p.cfg.tokenB⟩,
   ⟨"provide_liquidity", "token_b-amount", .int recB⟩]

/-- `provide_liquidity`, contracts/pool/src/contract.rs:268-408, with its events. -/
def provideE (self : Addr) (c : Ctx) (p : State) (L : Ledger) (sender : Addr)
    (desiredA minA desiredB minB custom : Option Int) (deadline : Option Nat) :
    Res (State × Ledger × List Event) := do
  checkDeadline c deadline
  validatePos desiredA
  validatePos minA
  validatePos desiredB
  validatePos minB
  requireAuth c sender
  checkSlippage p custom
  let (a, b) ← chooseAmounts p desiredA minA desiredB minB custom
  let iniA := L.bal p.cfg.tokenA self
  let iniB := L.bal p.cfg.tokenB self
  let L1 ← L.transfer (c.as self) p.cfg.tokenA sender self a
  let L2 ← L1.transfer (c.as self) p.cfg.tokenB sender self b
  let balA := L2.bal p.cfg.tokenA self
  let balB := L2.bal p.cfg.tokenB self
  let recA ← subI balA iniA
  let recB ← subI balB iniB
  let (n, p1, L3) ← newShares self c p L2 a b balA balB
  let m ← subI n p.total
  let (p2, L4) ← mintShares self c p1 L3 sender m
  .ok ({ p2 with resA := balA, resB := balB }, L4, provideEvents p sender recA recB)

/-- `withdraw_liquidity`, contracts/pool/src/contract.rs:450-537, with its events (lines 527-534). -/
def withdrawE (self : Addr) (c : Ctx) (p : State) (L : Ledger) (sender : Addr)
    (shares minA minB : Int) (deadline : Option Nat) : Res (State × Ledger × Int × Int × List Event) := do
  let (p', L', ra, rb) ← withdraw self c p L sender shares minA minB deadline
  .ok (p', L', ra, rb,
    [⟨"withdraw_liquidity", "sender", .addr sender⟩, ⟨"withdraw_liquidity", "shares_amount", .int shares⟩,
     ⟨"withdraw_liquidity", "return_amount_a", .int ra⟩, ⟨"withdraw_liquidity", "return_amount_b", .int rb⟩])

/-- One transaction with the events of the pool (contracts/pool/src/contract.rs:151-589).  `update_config`
and `upgrade` publish nothing; `initialize` publishes the two tokens (lines 261-264). -/
def stepE (self : Addr) (s : Sys) : Tx → Res (Sys × List Event)
  | .pool _ (.init i) => do
    let (p, L) ← init self s.pool s.led i
    .ok (⟨some p, L⟩, [⟨"initialize", "XYK LP token_a", .addr i.tokenA⟩, ⟨"initialize", "XYK LP token_b", .addr i.tokenB⟩])
  | .pool c (.provide sender dA mA dB mB cu dl) => do
    let p ← loaded s.pool
    let (p', L, ev) ← provideE self c p s.led sender dA mA dB mB cu dl
    .ok (⟨some p', L⟩, ev)
  | .pool c (.swap sender offer amount mo ms dl mf) => do
    let p ← loaded s.pool
    let (p', L, _, ev) ← swapE self c p s.led sender offer amount mo ms dl mf
    .ok (⟨some p', L⟩, ev)
  | .pool c (.withdraw sender sh mA mB dl) => do
    let p ← loaded s.pool
    let (p', L, _, _, ev) ← withdrawE self c p s.led sender sh mA mB dl
    .ok (⟨some p', L⟩, ev)
  | t => do
    let s' ← step self s t
    .ok (s', [])

/-- The log of events of a history; failed transactions publish nothing (modelling device, nothing of /repo). -/
def log (self : Addr) : Sys → List Tx → List Event
  | _, [] => []
  | s, t :: ts =>
    match stepE self s t with
    | .ok (s', ev) => ev ++ log self s' ts
    | .error _ => log self s ts

end Pool

namespace Stable

/-- The events of `do_swap`, contracts/pool_stable/src/contract.rs:968-975. -/
def swapEvents (sender sell : Addr) (amount : Int) (buy : Addr) (r : Quote) : List Event :=
  [⟨"swap", "sender", .addr sender⟩, ⟨"swap", "sell_token", .addr sell⟩, ⟨"swap", "offer_amount", .int amount⟩,
   ⟨"swap", "buy_token", .addr buy⟩, ⟨"swap", "return_amount", .int r.ret⟩, ⟨"swap", "spread_amount", .int r.spread⟩]

/-- `do_swap`, contracts/pool_stable/src/contract.rs:832-978, with its events. -/
def doSwapE (self : Addr) (c : Ctx) (p : State) (L : Ledger) (sender offer : Addr) (amount : Int)
    (minOut maxSpread maxFee : Option Int) : Res (State × Ledger × Int × List Event) := do
  let ms ← swapLimits p offer maxSpread maxFee
  let (sell, buy) ← sides p offer
  let r ← quote c.now p sell buy amount
  whenSome minOut (fun m => req (m ≤ r.ret) (.code 15))
  let g ← addI r.ret r.commission
  assertMaxSpread ms g r.spread
  let before := L.bal sell.tok self
  let L1 ← L.transfer (c.as self) sell.tok sender self amount
  let received ← subI (L1.bal sell.tok self) before
  let L2 ← L1.transfer (c.as self) buy.tok self sender r.ret
  let L3 ← L2.transfer (c.as self) buy.tok self p.cfg.feeRecipient r.commission
  let p' ← swapReserves p offer received r
  .ok (p', L3, r.ret, swapEvents sender sell.tok amount buy.tok r)

/-- `swap`, contracts/pool_stable/src/contract.rs:437-473, with its events. -/
def swapE (self : Addr) (c : Ctx) (p : State) (L : Ledger) (sender offer : Addr) (amount : Int)
    (minOut maxSpread : Option Int) (deadline : Option Nat) (maxFee : Option Int) :
    Res (State × Ledger × Int × List Event) := do
  checkDeadline c deadline
  validatePos (some amount)
  requireAuth c sender
  doSwapE self c p L sender offer amount minOut maxSpread maxFee

/-- The events of `provide_liquidity`, contracts/pool_stable/src/contract.rs:424-433. -/
def provideEvents (p : State) (sender : Addr) (recA recB : Int) : List Event :=
  [⟨"provide_liquidity", "sender", .addr sender⟩, ⟨"provide_liquidity", "token_a", .addr p.cfg.tokenA⟩,
   ⟨"provide_liquidity", "token_a-amount", .int recA⟩, ⟨"provide_liquidity", "token_b", .addr p.cfg.tokenB⟩,
   ⟨"provide_liquidity", "token_b-amount", .int recB⟩]

/-- `provide_liquidity`, contracts/pool_stable/src/contract.rs:275-434, with its events. -/
def provideE (self : Addr) (c : Ctx) (p : State) (L : Ledger) (sender : Addr) (a b : Int)
    (custom : Option Int) (deadline : Option Nat) (minShares : Option Nat) : Res (State × Ledger × List Event) := do
  checkDeadline c deadline
  validatePos (some a)
  validatePos (some b)
  requireAuth c sender
  req (custom.getD p.cfg.defaultSlippageBps ≤ p.cfg.maxSlippageBps) (.code 2)
  let amp ← currentAmp c.now p.amp
  let decA := (L p.cfg.tokenA).decimals
  let decB := (L p.cfg.tokenB).decimals
  let beforeA := L.bal p.cfg.tokenA self
  let beforeB := L.bal p.cfg.tokenB self
  let L1 ← L.transfer (c.as self) p.cfg.tokenA sender self a
  let L2 ← L1.transfer (c.as self) p.cfg.tokenB sender self b
  let balA := L2.bal p.cfg.tokenA self
  let balB := L2.bal p.cfg.tokenB self
  let ra ← subI balA beforeA
  let rb ← subI balB beforeB
  let na ← addI ra p.resA
  let nb ← addI rb p.resB
  let ua ← toU128 na
  let ub ← toU128 nb
  let d ← invariantOf amp ua ub decA decB
  let sh ← newShares p amp decA decB d
  whenSome minShares (fun m => req (m ≤ sh) (.code 21))
  let s ← toI128 sh
  let (p1, L3) ← mintShares self c p L2 sender s
  .ok ({ p1 with resA := balA, resB := balB }, L3, provideEvents p sender ra rb)

/-- `withdraw_liquidity`, contracts/pool_stable/src/contract.rs:475-562, with its events (lines 552-559). -/
def withdrawE (self : Addr) (c : Ctx) (p : State) (L : Ledger) (sender : Addr)
    (shares minA minB : Int) (deadline : Option Nat) : Res (State × Ledger × Int × Int × List Event) := do
  let (p', L', ra, rb) ← withdraw self c p L sender shares minA minB deadline
  .ok (p', L', ra, rb,
    [⟨"withdraw_liquidity", "sender", .addr sender⟩, ⟨"withdraw_liquidity", "shares_amount", .int shares⟩,
     ⟨"withdraw_liquidity", "return_amount_a", .int ra⟩, ⟨"withdraw_liquidity", "return_amount_b", .int rb⟩])

/-- One transaction with the events of the pool (contracts/pool_stable/src/contract.rs:146-603).  `update_config`
and `upgrade` publish nothing; `initialize` publishes the two tokens (lines 269-272). -/
def stepE (self : Addr) (s : Sys) : Tx → Res (Sys × List Event)
  | .pool c (.init i) => do
    let (p, L) ← init self c s.pool s.led i
    .ok (⟨some p, L⟩, [⟨"initialize", "XYK LP token_a", .addr i.tokenA⟩, ⟨"initialize", "XYK LP token_b", .addr i.tokenB⟩])
  | .pool c (.provide sender a b cu dl ms) => do
    let p ← loaded s.pool
    let (p', L, ev) ← provideE self c p s.led sender a b cu dl ms
    .ok (⟨some p', L⟩, ev)
  | .pool c (.swap sender offer amount mo ms dl mf) => do
    let p ← loaded s.pool
    let (p', L, _, ev) ← swapE self c p s.led sender offer amount mo ms dl mf
    .ok (⟨some p', L⟩, ev)
  | .pool c (.withdraw sender sh mA mB dl) => do
    let p ← loaded s.pool
    let (p', L, _, _, ev) ← withdrawE self c p s.led sender sh mA mB dl
    .ok (⟨some p', L⟩, ev)
  | t => do
    let s' ← step self s t
    .ok (s', [])

/-- The log of events of a history; failed transactions publish nothing (modelling device, nothing of /repo). -/
def log (self : Addr) : Sys → List Tx → List Event
  | _, [] => []
  | s, t :: ts =>
    match stepE self s t with
    | .ok (s', ev) => ev ++ log self s' ts
    | .error _ => log self s ts

end Stable

namespace Stake

/-- The events of a successful call of the stake contract, contracts/stake/src/contract.rs:121-122,
171-173, 196-198, 216-217, 258-259, 267-274; `s` is the state before the call. -/
def events (s : State) : Call → List Event
  | .init _ lp _ _ _ _ _ => [⟨"initialize", "LP Share token staking contract", .addr lp⟩]
  | .bond u x => [⟨"bond", "user", .addr u⟩, ⟨"bond", "token", .addr ((s.cfg.map (·.lpToken)).getD 0)⟩, ⟨"bond", "amount", .int x⟩]
  | .unbond u x _ => [⟨"unbond", "user", .addr u⟩, ⟨"unbond", "token", .addr ((s.cfg.map (·.lpToken)).getD 0)⟩, ⟨"unbond", "amount", .int x⟩]
  | .createFlow _ a => [⟨"create_distribution_flow", "asset", .addr a⟩]
  | .distribute _ _ a => [⟨"distribute_rewards", "asset", .addr a⟩]
  | .withdraw u => ⟨"withdraw_rewards", "user", .addr u⟩ :: s.dists.map (fun a => ⟨"withdraw_rewards", "reward_token", .addr a⟩)

/-- One transaction with the events of the stake contract and the ledger time at which they are
published (contracts/stake/src/contract.rs:81-284). -/
def stepE (self : Addr) (s : Sys) (t : Tx) : Res (Sys × List (Nat × Event)) := do
  let s' ← step self s t
  match t with
  | .stake c k => .ok (s', (events s.st k).map (fun e => (c.now, e)))
  | .token _ _ _ => .ok (s', [])

/-- The log of events of a history; failed transactions publish nothing (modelling device, nothing of /repo). -/
def log (self : Addr) : Sys → List Tx → List (Nat × Event)
  | _, [] => []
  | s, t :: ts =>
    match stepE self s t with
    | .ok (s', ev) => ev ++ log self s' ts
    | .error _ => log self s ts

end Stake

namespace Vesting

/-- `claim`, contracts/vesting/src/contract.rs:216-265, with its event. -/
def claimE (self : Addr) (c : Ctx) (v : State) (L : Ledger) (sender : Addr) (i : Nat) :
    Res (State × Ledger × List Event) := do
  requireAuth c sender
  let av ← available c v sender i
  req (0 < av) (.code 14)
  let info ← getVesting v sender i
  let vested ← info.schedule.value c.now
  let liquid ← subU info.balance vested
  let avU ← toU128 av
  req (¬ liquid < avU) (.code 11)
  let rest ← subU info.balance avU
  let L' ← L.transfer (c.as self) v.token self sender av
  .ok (putInfo v sender i { info with balance := rest }, L', [⟨"Claim", "Claimed tokens: ", .int av⟩])

/-- One transaction with the events of the vesting contract, contracts/vesting/src/contract.rs:112-113,
147-148, 263-264, 283-284, 338-339, 374-375, 406-409.  `create_vesting_schedules` publishes nothing. -/
def stepE (self : Addr) (s : Sys) : Tx → Res (Sys × List Event)
  | .vest c (.claim sender i) => do
    let v ← loaded s.vest
    let (v', L, ev) ← claimE self c v s.led sender i
    .ok (⟨some v', L⟩, ev)
  | .vest c (.init a t m mi) => do
    let s' ← step self s (.vest c (.init a t m mi))
    .ok (s', [⟨"Initialize", "Vesting contract with admin: ", .addr a⟩])
  | .vest c (.burn sender x) => do
    let s' ← step self s (.vest c (.burn sender x))
    .ok (s', [⟨"Burn", "Burned from: ", .addr sender⟩, ⟨"Burn", "Burned tokens: ", .int x⟩])
  | .vest c (.mint sender x) => do
    let s' ← step self s (.vest c (.mint sender x))
    .ok (s', [⟨"Mint", "sender: ", .addr sender⟩, ⟨"Mint", "Minted tokens: ", .int x⟩])
  | .vest c (.updateMinter sender n) => do
    let s' ← step self s (.vest c (.updateMinter sender n))
    .ok (s', [⟨"Update minter", "Updated minter to: ", .addr n⟩])
  | .vest c (.updateCapacity sender n) => do
    let s' ← step self s (.vest c (.updateCapacity sender n))
    .ok (s', [⟨"Update minter capacity", "Updated minter capacity to: ", .int n⟩])
  | t => do
    let s' ← step self s t
    .ok (s', [])

/-- The log of events of a history; failed transactions publish nothing (modelling device, nothing of /repo). -/
def log (self : Addr) : Sys → List Tx → List Event
  | _, [] => []
  | s, t :: ts =>
    match stepE self s t with
    | .ok (s', ev) => ev ++ log self s' ts
    | .error _ => log self s ts

end Vesting

namespace World

/-- One transaction with the events of the factories, each with the factory that publishes it:
contracts/factory/src/contract.rs:136-137 and 231-232. -/
def stepF (h : Host) (w : World) (c : Ctx) : Call → Res (World × List (Addr × Event))
  | .facInit F admin lp stb stk tok wl dec => do
    let w' ← step h w c (.facInit F admin lp stb stk tok wl dec)
    .ok (w', [(F, ⟨"initialize", "LP factory contract", .addr admin⟩)])
  | .create F sender i k amp sl mf => do
    expect w F .factory
    let (w', P) ← create h w c F sender i k amp sl mf
    .ok (w', [(F, ⟨"create", "liquidity_pool", .addr P⟩)])
  | k => do
    let w' ← step h w c k
    .ok (w', [])

/-- The factories' log of a history; failed transactions publish nothing (modelling device, nothing of /repo). -/
def facLog (h : Host) : World → List Tx → List (Addr × Event)
  | _, [] => []
  | w, t :: ts =>
    match stepF h w t.ctx t.call with
    | .ok (w', ev) => ev ++ facLog h w' ts
    | .error _ => facLog h w ts

end World

end Phoenix
