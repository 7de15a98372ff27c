import Verif.Model.Pool
import Verif.Model.Stable
import Verif.Model.Vesting
import Verif.Model.Stake
/-
The contracts that hold other people's tokens, run against token contracts about which
nothing is known.  The contracts of the repository never look inside a token: they ask for
a balance or for the decimals and they call `transfer`, `mint` and `burn`.  `Tokens σ` is
that interface, with `σ` the state of all token contracts of the ledger, and every function
below is the function of the same name in Verif.Model.Pool, .Stable, .Vesting and .Stake with
the calls going through the interface.  `Lemmas/Foreign` shows that with the repository's own
token (`ledgerTokens`) they are those functions.
-/
namespace Phoenix

/-- The token contracts as their callers see them (the client generated from
contracts/token/src/contract.rs, of which `balance`, `decimals`, `transfer`, `mint` and
`burn` are used).  Any SEP-41 token may be behind an address, so the effect of the calls is
left open. -/
structure Tokens (σ : Type) where
  bal : σ → Addr → Addr → Int
  decimals : σ → Addr → Nat
  transfer : σ → Ctx → Addr → Addr → Addr → Int → Res σ
  mint : σ → Ctx → Addr → Addr → Int → Res σ
  burn : σ → Ctx → Addr → Addr → Int → Res σ

/-- The repository's own token contract behind every address (contracts/token/src/contract.rs:41-158). -/
def ledgerTokens : Tokens Ledger where
  bal L t a := L.bal t a
  decimals L t := (L t).decimals
  transfer L c t a b x := L.transfer c t a b x
  mint L c t a x := L.mint c t a x
  burn L c t a x := L.burn c t a x

/-- A token that keeps a share of every transfer, as some tokens do: the sender is debited
`amount`, the receiver credited `amount` less `bps amount`/10000, the rest is burned.  Not in
the repository; used for the examples (modelling device, nothing of /repo). -/
def taxTransfer (bps : Addr → Int) (L : Ledger) (c : Ctx) (t src dst : Addr) (amount : Int) : Res Ledger := do
  let L1 ← L.transfer c t src dst amount
  let t2 ← (L1 t).spend dst (amount * bps t / 10000)
  .ok (upd L1 t t2)

/-- The repository's token with a tax on transfers of `bps t` basis points for token `t` (modelling device, nothing of /repo). -/
def taxTokens (bps : Addr → Int) : Tokens Ledger :=
  { ledgerTokens with transfer := taxTransfer bps }

namespace Pool

/-- `do_swap`, contracts/pool/src/contract.rs:788-962. -/
def doSwapX {σ : Type} (T : Tokens σ) (self : Addr) (c : Ctx) (p : State) (L : σ) (sender offer : Addr) (amount : Int)
    (minOut maxSpread maxFee : Option Int) : Res (State × σ × Int) := do
  let ms ← swapLimits p maxSpread maxFee
  let (sell, buy) ← sides p offer
  let fee ← Dec.bps p.cfg.totalFeeBps
  let r ← computeSwap sell buy amount fee 0
  whenSome minOut (fun m => req (m ≤ r.ret) (.code 21))
  let g1 ← addI r.ret r.commission
  let gross ← addI g1 r.referral
  assertMaxSpread ms gross r.spread
  let toks := tokensOf p offer
  let before := T.bal L toks.1 self
  let L1 ← T.transfer L (c.as self) toks.1 sender self amount
  let received ← subI (T.bal L1 toks.1 self) before
  let L2 ← T.transfer L1 (c.as self) toks.2 self sender r.ret
  let L3 ← T.transfer L2 (c.as self) toks.2 self p.cfg.feeRecipient r.commission
  let p' ← swapReserves p offer received r
  .ok (p', L3, r.ret)

/-- `swap`, contracts/pool/src/contract.rs:411-448. -/
def swapX {σ : Type} (T : Tokens σ) (self : Addr) (c : Ctx) (p : State) (L : σ) (sender offer : Addr) (amount : Int)
    (minOut maxSpread : Option Int) (deadline : Option Nat) (maxFee : Option Int) :
    Res (State × σ × Int) := do
  checkDeadline c deadline
  validatePos (some amount)
  requireAuth c sender
  doSwapX T self c p L sender offer amount minOut maxSpread maxFee

/-- `mint_shares`, contracts/pool/src/storage.rs:252-258. -/
def mintSharesX {σ : Type} (T : Tokens σ) (self : Addr) (c : Ctx) (p : State) (L : σ) (to : Addr) (amount : Int) :
    Res (State × σ) := do
  let L' ← T.mint L (c.as self) p.cfg.shareToken to amount
  let t ← addI p.total amount
  .ok ({ p with total := t }, L')

/-- `burn_shares`, contracts/pool/src/storage.rs:260-266. -/
def burnSharesX {σ : Type} (T : Tokens σ) (self : Addr) (c : Ctx) (p : State) (L : σ) (amount : Int) :
    Res (State × σ) := do
  let L' ← T.burn L (c.as self) p.cfg.shareToken self amount
  let t ← subI p.total amount
  .ok ({ p with total := t }, L')

/-- The share computation of `provide_liquidity`,
contracts/pool/src/contract.rs:361-386: returns the new total and the state after
the minimum-liquidity mint, if any. -/
def newSharesX {σ : Type} (T : Tokens σ) (self : Addr) (c : Ctx) (p : State) (L : σ) (amtA amtB balA balB : Int) :
    Res (Int × State × σ) :=
  if 0 < p.resA ∧ 0 < p.resB then do
    let ma ← mulI balA p.total
    let sa ← divI ma p.resA
    let mb ← mulI balB p.total
    let sb ← divI mb p.resB
    .ok (min sa sb, p, L)
  else do
    let m ← mulI amtA amtB
    let s ← isqrt m
    req (¬ MINIMUM_LIQUIDITY ≥ s) (.code 13)
    let (p', L') ← mintSharesX T self c p L self MINIMUM_LIQUIDITY
    let n ← subI s MINIMUM_LIQUIDITY
    .ok (n, p', L')

/-- `provide_liquidity`, contracts/pool/src/contract.rs:268-408. -/
def provideX {σ : Type} (T : Tokens σ) (self : Addr) (c : Ctx) (p : State) (L : σ) (sender : Addr)
    (desiredA minA desiredB minB custom : Option Int) (deadline : Option Nat) :
    Res (State × σ) := do
  checkDeadline c deadline
  validatePos desiredA
  validatePos minA
  validatePos desiredB
  validatePos minB
  requireAuth c sender
  checkSlippage p custom
  let (a, b) ← chooseAmounts p desiredA minA desiredB minB custom
  let iniA := T.bal L p.cfg.tokenA self
  let iniB := T.bal L p.cfg.tokenB self
  let L1 ← T.transfer L (c.as self) p.cfg.tokenA sender self a
  let L2 ← T.transfer L1 (c.as self) p.cfg.tokenB sender self b
  let balA := T.bal L2 p.cfg.tokenA self
  let balB := T.bal L2 p.cfg.tokenB self
  let _ ← subI balA iniA
  let _ ← subI balB iniB
  let (n, p1, L3) ← newSharesX T self c p L2 a b balA balB
  let m ← subI n p.total
  let (p2, L4) ← mintSharesX T self c p1 L3 sender m
  .ok ({ p2 with resA := balA, resB := balB }, L4)

/-- `withdraw_liquidity`, contracts/pool/src/contract.rs:450-537. -/
def withdrawX {σ : Type} (T : Tokens σ) (self : Addr) (c : Ctx) (p : State) (L : σ) (sender : Addr)
    (shares minA minB : Int) (deadline : Option Nat) : Res (State × σ × Int × Int) := do
  checkDeadline c deadline
  validatePos (some shares)
  validatePos (some minA)
  validatePos (some minB)
  requireAuth c sender
  let L1 ← T.transfer L (c.as self) p.cfg.shareToken sender self shares
  req (p.total ≠ 0) (.code 13)
  let ratio ← Dec.fromRatio shares p.total
  let ra ← Dec.mulInt p.resA ratio
  let rb ← Dec.mulInt p.resB ratio
  req (¬ (ra < minA ∨ rb < minB)) (.code 4)
  let (p1, L2) ← burnSharesX T self c p L1 shares
  let L3 ← T.transfer L2 (c.as self) p.cfg.tokenA self sender ra
  let L4 ← T.transfer L3 (c.as self) p.cfg.tokenB self sender rb
  let a ← subI p.resA ra
  let b ← subI p.resB rb
  .ok ({ p1 with resA := a, resB := b }, L4, ra, rb)

/-- A call of the pool with tokens of any kind behind it: the entry points of
contracts/pool/src/contract.rs:268-589 except `initialize`. -/
def callX {σ : Type} (T : Tokens σ) (self : Addr) (c : Ctx) (p : State) (L : σ) : Call → Res (State × σ)
  | .init _ => .error (.code 6)
  | .provide sender dA mA dB mB cu dl => provideX T self c p L sender dA mA dB mB cu dl
  | .swap sender offer amount mo ms dl mf => do
    let (p', L', _) ← swapX T self c p L sender offer amount mo ms dl mf
    .ok (p', L')
  | .withdraw sender sh mA mB dl => do
    let (p', L', _, _) ← withdrawX T self c p L sender sh mA mB dl
    .ok (p', L')
  | .updateConfig u => do
    let p' ← updateConfig c p u
    .ok (p', L)
  | .upgrade sl => do
    let p' ← upgrade c p sl
    .ok (p', L)

/-- What can become of a pool and the tokens, from the state in which it was created: calls of
the pool, and between them anything at all that does not lower a balance of the pool (modelling device, nothing of /repo). -/
inductive ReachX {σ : Type} (T : Tokens σ) (self : Addr) (p0 : State) (L0 : σ) : State → σ → Prop
  | start : ReachX T self p0 L0 p0 L0
  | call {p L p' L'} (c : Ctx) (k : Call) : ReachX T self p0 L0 p L → callX T self c p L k = .ok (p', L') →
      ReachX T self p0 L0 p' L'
  | other {p L} (L' : σ) : ReachX T self p0 L0 p L → (∀ t, T.bal L t self ≤ T.bal L' t self) →
      ReachX T self p0 L0 p L'

end Pool

namespace Stable

/-- `do_swap`, contracts/pool_stable/src/contract.rs:832-978. -/
def doSwapX {σ : Type} (T : Tokens σ) (self : Addr) (c : Ctx) (p : State) (L : σ) (sender offer : Addr) (amount : Int)
    (minOut maxSpread maxFee : Option Int) : Res (State × σ × Int) := do
  let ms ← swapLimits p offer maxSpread maxFee
  let (sell, buy) ← sides p offer
  let r ← quote c.now p sell buy amount
  whenSome minOut (fun m => req (m ≤ r.ret) (.code 15))
  let g ← addI r.ret r.commission
  assertMaxSpread ms g r.spread
  let before := T.bal L sell.tok self
  let L1 ← T.transfer L (c.as self) sell.tok sender self amount
  let received ← subI (T.bal L1 sell.tok self) before
  let L2 ← T.transfer L1 (c.as self) buy.tok self sender r.ret
  let L3 ← T.transfer L2 (c.as self) buy.tok self p.cfg.feeRecipient r.commission
  let p' ← swapReserves p offer received r
  .ok (p', L3, r.ret)

/-- `swap`, contracts/pool_stable/src/contract.rs:437-473. -/
def swapX {σ : Type} (T : Tokens σ) (self : Addr) (c : Ctx) (p : State) (L : σ) (sender offer : Addr) (amount : Int)
    (minOut maxSpread : Option Int) (deadline : Option Nat) (maxFee : Option Int) :
    Res (State × σ × Int) := do
  checkDeadline c deadline
  validatePos (some amount)
  requireAuth c sender
  doSwapX T self c p L sender offer amount minOut maxSpread maxFee

/-- `mint_shares`, contracts/pool_stable/src/storage.rs:279-285. -/
def mintSharesX {σ : Type} (T : Tokens σ) (self : Addr) (c : Ctx) (p : State) (L : σ) (to : Addr) (amount : Int) :
    Res (State × σ) := do
  let L' ← T.mint L (c.as self) p.cfg.shareToken to amount
  let t ← addI p.total amount
  .ok ({ p with total := t }, L')

/-- `burn_shares`, contracts/pool_stable/src/storage.rs:287-294. -/
def burnSharesX {σ : Type} (T : Tokens σ) (self : Addr) (c : Ctx) (p : State) (L : σ) (amount : Int) :
    Res (State × σ) := do
  let L' ← T.burn L (c.as self) p.cfg.shareToken self amount
  let t ← subI p.total amount
  .ok ({ p with total := t }, L')

/-- `provide_liquidity`, contracts/pool_stable/src/contract.rs:275-434. -/
def provideX {σ : Type} (T : Tokens σ) (self : Addr) (c : Ctx) (p : State) (L : σ) (sender : Addr) (a b : Int)
    (custom : Option Int) (deadline : Option Nat) (minShares : Option Nat) : Res (State × σ) := do
  checkDeadline c deadline
  validatePos (some a)
  validatePos (some b)
  requireAuth c sender
  req (custom.getD p.cfg.defaultSlippageBps ≤ p.cfg.maxSlippageBps) (.code 2)
  let amp ← currentAmp c.now p.amp
  let decA := T.decimals L p.cfg.tokenA
  let decB := T.decimals L p.cfg.tokenB
  let beforeA := T.bal L p.cfg.tokenA self
  let beforeB := T.bal L p.cfg.tokenB self
  let L1 ← T.transfer L (c.as self) p.cfg.tokenA sender self a
  let L2 ← T.transfer L1 (c.as self) p.cfg.tokenB sender self b
  let balA := T.bal L2 p.cfg.tokenA self
  let balB := T.bal L2 p.cfg.tokenB self
  let ra ← subI balA beforeA
  let rb ← subI balB beforeB
  let na ← addI ra p.resA
  let nb ← addI rb p.resB
  let ua ← toU128 na
  let ub ← toU128 nb
  let d ← invariantOf amp ua ub decA decB
  let sh ← newShares p amp decA decB d
  whenSome minShares (fun m => req (m ≤ sh) (.code 21))
  let s ← toI128 sh
  let (p1, L3) ← mintSharesX T self c p L2 sender s
  .ok ({ p1 with resA := balA, resB := balB }, L3)

/-- `withdraw_liquidity`, contracts/pool_stable/src/contract.rs:475-562. -/
def withdrawX {σ : Type} (T : Tokens σ) (self : Addr) (c : Ctx) (p : State) (L : σ) (sender : Addr)
    (shares minA minB : Int) (deadline : Option Nat) : Res (State × σ × Int × Int) := do
  checkDeadline c deadline
  validatePos (some shares)
  validatePos (some minA)
  validatePos (some minB)
  requireAuth c sender
  let L1 ← T.transfer L (c.as self) p.cfg.shareToken sender self shares
  req (p.total ≠ 0) (.code 5)
  let ratio ← Dec.fromRatio shares p.total
  let ra ← Dec.mulInt p.resA ratio
  let rb ← Dec.mulInt p.resB ratio
  req (¬ (ra < minA ∨ rb < minB)) (.code 3)
  let (p1, L2) ← burnSharesX T self c p L1 shares
  let L3 ← T.transfer L2 (c.as self) p.cfg.tokenA self sender ra
  let L4 ← T.transfer L3 (c.as self) p.cfg.tokenB self sender rb
  let a ← subI p.resA ra
  let b ← subI p.resB rb
  .ok ({ p1 with resA := a, resB := b }, L4, ra, rb)

/-- A call of the pool with tokens of any kind behind it: the entry points of
contracts/pool_stable/src/contract.rs:275-603 except `initialize`. -/
def callX {σ : Type} (T : Tokens σ) (self : Addr) (c : Ctx) (p : State) (L : σ) : Call → Res (State × σ)
  | .init _ => .error (.code 7)
  | .provide sender a b cu dl mn => provideX T self c p L sender a b cu dl mn
  | .swap sender offer amount mo ms dl mf => do
    let (p', L', _) ← swapX T self c p L sender offer amount mo ms dl mf
    .ok (p', L')
  | .withdraw sender sh mA mB dl => do
    let (p', L', _, _) ← withdrawX T self c p L sender sh mA mB dl
    .ok (p', L')
  | .updateConfig sender u => do
    let p' ← updateConfig p sender u
    .ok (p', L)

/-- What can become of a pool and the tokens, from the state in which it was created: calls of
the pool, and between them anything at all that does not lower a balance of the pool (modelling device, nothing of /repo). -/
inductive ReachX {σ : Type} (T : Tokens σ) (self : Addr) (p0 : State) (L0 : σ) : State → σ → Prop
  | start : ReachX T self p0 L0 p0 L0
  | call {p L p' L'} (c : Ctx) (k : Call) : ReachX T self p0 L0 p L → callX T self c p L k = .ok (p', L') →
      ReachX T self p0 L0 p' L'
  | other {p L} (L' : σ) : ReachX T self p0 L0 p L → (∀ t, T.bal L t self ≤ T.bal L' t self) →
      ReachX T self p0 L0 p L'

end Stable

namespace Vesting

/-- `create_vesting_schedules`, contracts/vesting/src/contract.rs:151-214. -/
def createX {σ : Type} (T : Tokens σ) (self : Addr) (c : Ctx) (v : State) (L : σ) (l : List (Addr × Curve)) : Res (State × σ) := do
  requireAuth c v.admin
  req (l ≠ []) (.code 7)
  checkDup [] l
  let (v', total) ← createLoop v 0 l
  let amount ← toI128 total
  req (¬ T.bal L v.token v.admin < amount) (.code 25)
  let L' ← T.transfer L (c.as self) v.token v.admin self amount
  .ok (v', L')

/-- `claim`, contracts/vesting/src/contract.rs:216-265. -/
def claimX {σ : Type} (T : Tokens σ) (self : Addr) (c : Ctx) (v : State) (L : σ) (sender : Addr) (i : Nat) : Res (State × σ) := do
  requireAuth c sender
  let av ← available c v sender i
  req (0 < av) (.code 14)
  let info ← getVesting v sender i
  let vested ← info.schedule.value c.now
  let liquid ← subU info.balance vested
  let avU ← toU128 av
  req (¬ liquid < avU) (.code 11)
  let rest ← subU info.balance avU
  let L' ← T.transfer L (c.as self) v.token self sender av
  .ok (putInfo v sender i { info with balance := rest }, L')

/-- A call of the vesting contract with a token of any kind behind it: `create_vesting_schedules`
and `claim`, contracts/vesting/src/contract.rs:151-265, and the calls that change only the
minter, 343-410.  The two wrappers `burn` and `mint` are left out. -/
def callX {σ : Type} (T : Tokens σ) (self : Addr) (c : Ctx) (v : State) (L : σ) : Call → Res (State × σ)
  | .create l => createX T self c v L l
  | .claim sender i => claimX T self c v L sender i
  | .updateMinter sender new => do
    let v' ← updateMinter c v sender new
    .ok (v', L)
  | .updateCapacity sender new => do
    let v' ← updateCapacity c v sender new
    .ok (v', L)
  | _ => .error .panic

/-- What can become of the contract and its token, from `v0`, `L0` on: calls of the contract,
and between them anything at all that does not lower a balance of the contract (modelling device, nothing of /repo). -/
inductive ReachX {σ : Type} (T : Tokens σ) (self : Addr) (v0 : State) (L0 : σ) : State → σ → Prop
  | start : ReachX T self v0 L0 v0 L0
  | call {v L v' L'} (c : Ctx) (k : Call) : ReachX T self v0 L0 v L → c.auth self = false →
      callX T self c v L k = .ok (v', L') → ReachX T self v0 L0 v' L'
  | other {v L} (L' : σ) : ReachX T self v0 L0 v L → (∀ t, T.bal L t self ≤ T.bal L' t self) →
      ReachX T self v0 L0 v L'

end Vesting

namespace Stake

/-- `bond`, contracts/stake/src/contract.rs:139-174. -/
def bondX {σ : Type} (T : Tokens σ) (self : Addr) (c : Ctx) (s : State) (L : σ) (sender : Addr) (tokens : Int) : Res (State × σ) := do
  requireAuth c sender
  let cfg ← getConfig s
  req (¬ tokens < cfg.minBond) (.code 4)
  let L' ← T.transfer L (c.as self) cfg.lpToken sender self tokens
  let i := s.info sender
  let t ← addI i.total tokens
  let total ← addI s.total tokens
  .ok ({ s with info := upd s.info sender { i with stakes := i.stakes ++ [⟨tokens, c.now⟩], total := t },
                total := total }, L')

/-- `unbond`, contracts/stake/src/contract.rs:176-199. -/
def unbondX {σ : Type} (T : Tokens σ) (self : Addr) (c : Ctx) (s : State) (L : σ) (sender : Addr) (amount : Int) (ts : Nat) :
    Res (State × σ) := do
  requireAuth c sender
  let cfg ← getConfig s
  let i := s.info sender
  let l ← removeStake amount ts i.stakes
  let t ← subI i.total amount
  let L' ← T.transfer L (c.as self) cfg.lpToken self sender amount
  let total ← subI s.total amount
  .ok ({ s with info := upd s.info sender { i with stakes := l, total := t }, total := total }, L')

/-- `distribute_rewards`, contracts/stake/src/contract.rs:220-260. -/
def distributeX {σ : Type} (T : Tokens σ) (self : Addr) (c : Ctx) (s : State) (L : σ) (sender : Addr) (amount : Int) (tok : Addr) :
    Res (State × σ) := do
  requireAuth c sender
  let cfg ← getConfig s
  req (¬ (sender ≠ cfg.manager ∧ sender ≠ cfg.owner)) (.code 5)
  req (tok ∈ s.dists) (.code 13)
  let m ← rewardHistory s tok
  let L' ← T.transfer L (c.as self) tok sender self amount
  .ok ({ s with hist := s.hist.set c.now (asU128 s.total),
                rewards := upd s.rewards tok (some (m.set c.now (asU128 amount))) }, L')

/-- the loop of `withdraw_rewards`, contracts/stake/src/contract.rs:271-282. -/
def payLoopX {σ : Type} (T : Tokens σ) (self : Addr) (c : Ctx) (s : State) (sender : Addr) : List Addr → σ → Res σ
  | [], L => .ok L
  | a :: l, L => do
    let p ← pending c s a (s.info sender)
    let L' ← T.transfer L (c.as self) a self sender p
    payLoopX T self c s sender l L'

/-- `withdraw_rewards`, contracts/stake/src/contract.rs:262-284.  No authorisation, and no
check that the contract is initialised. -/
def withdrawX {σ : Type} (T : Tokens σ) (self : Addr) (c : Ctx) (s : State) (L : σ) (sender : Addr) : Res (State × σ) := do
  let L' ← payLoopX T self c s sender s.dists L
  .ok ({ s with info := upd s.info sender { s.info sender with last := c.now } }, L')

/-- A call of the stake contract with tokens of any kind behind it:
contracts/stake/src/contract.rs:139-284. -/
def callX {σ : Type} (T : Tokens σ) (self : Addr) (c : Ctx) (s : State) (L : σ) : Call → Res (State × σ)
  | .init .. => .error (.code 1)
  | .bond sender x => bondX T self c s L sender x
  | .unbond sender x ts => unbondX T self c s L sender x ts
  | .createFlow sender asset => do
    let s' ← createFlow c s sender asset
    .ok (s', L)
  | .distribute sender x tok => distributeX T self c s L sender x tok
  | .withdraw sender => withdrawX T self c s L sender

/-- What can become of the contract and the tokens, from `s0`, `L0` on: calls of the contract,
and between them anything at all that does not lower a balance of the contract (modelling device, nothing of /repo). -/
inductive ReachX {σ : Type} (T : Tokens σ) (self : Addr) (s0 : State) (L0 : σ) : State → σ → Prop
  | start : ReachX T self s0 L0 s0 L0
  | call {s L s' L'} (c : Ctx) (k : Call) : ReachX T self s0 L0 s L → c.auth self = false →
      callX T self c s L k = .ok (s', L') → ReachX T self s0 L0 s' L'
  | other {s L} (L' : σ) : ReachX T self s0 L0 s L → (∀ t, T.bal L t self ≤ T.bal L' t self) →
      ReachX T self s0 L0 s L'

end Stake

end Phoenix
