import Verif.Model.World
import Mathlib.Logic.Equiv.Defs

/-!
# Renaming addresses

What it means to give every address another name: `σ` is a one-to-one renaming, and a state,
a call or a signature that spoke of the address `a` now speaks of `σ a`.  Everything that is not
an address (amounts, times, settings, schedules) stays.  These definitions do not look at what
the contracts do.
-/
namespace Phoenix.Rename
open Phoenix

/-- A one-to-one renaming of all addresses. -/
abbrev Names := Equiv.Perm Addr

variable (σ : Names)

/-- Who signed and who calls, under the new names. -/
def ctx (c : Ctx) : Ctx := ⟨c.now, c.seq, fun a => c.signed (σ.symm a), c.invoker.map σ⟩

/-- One token: its administrator, balances and allowances under the new names. -/
def token (t : Token) : Token :=
  ⟨σ t.admin, t.decimals, fun a => t.bal (σ.symm a), fun a b => t.allow (σ.symm a) (σ.symm b)⟩

/-- All tokens. -/
def ledger (L : Ledger) : Ledger := fun a => token σ (L (σ.symm a))

/-- A call of a token. -/
def tokenOp : TokenOp → TokenOp
  | .mint a x => .mint (σ a) x
  | .setAdmin a => .setAdmin (σ a)
  | .approve o s x e => .approve (σ o) (σ s) x e
  | .transfer s d x => .transfer (σ s) (σ d) x
  | .transferFrom p s d x => .transferFrom (σ p) (σ s) (σ d) x
  | .burn s x => .burn (σ s) x
  | .burnFrom p s x => .burnFrom (σ p) (σ s) x

/-! ### Constant product pools -/

/-- The storage of a pool. -/
def pool (p : Pool.State) : Pool.State :=
  { p with
    admin := σ p.admin
    cfg := { p.cfg with
      tokenA := σ p.cfg.tokenA, tokenB := σ p.cfg.tokenB, shareToken := σ p.cfg.shareToken,
      stakeContract := σ p.cfg.stakeContract, feeRecipient := σ p.cfg.feeRecipient } }

/-- The arguments of `initialize` of a pool. -/
def poolArgs (i : Pool.InitArgs) : Pool.InitArgs :=
  { i with
    admin := σ i.admin, feeRecipient := σ i.feeRecipient, tokenA := σ i.tokenA, tokenB := σ i.tokenB,
    shareToken := σ i.shareToken, stakeContract := σ i.stakeContract }

/-- The arguments of `update_config` of a pool. -/
def poolUpdate (u : Pool.ConfigUpdate) : Pool.ConfigUpdate :=
  { u with newAdmin := u.newAdmin.map σ, feeRecipient := u.feeRecipient.map σ }

/-- A call of a pool. -/
def poolCall : Pool.Call → Pool.Call
  | .init i => .init (poolArgs σ i)
  | .provide s a b c d e f => .provide (σ s) a b c d e f
  | .swap s o a b c d e => .swap (σ s) (σ o) a b c d e
  | .withdraw s a b c d => .withdraw (σ s) a b c d
  | .updateConfig u => .updateConfig (poolUpdate σ u)
  | .upgrade x => .upgrade x

/-! ### Stable pools -/

/-- The storage of a stable pool. -/
def stable (p : Stable.State) : Stable.State :=
  { p with
    admin := σ p.admin
    cfg := { p.cfg with
      tokenA := σ p.cfg.tokenA, tokenB := σ p.cfg.tokenB, shareToken := σ p.cfg.shareToken,
      stakeContract := σ p.cfg.stakeContract, feeRecipient := σ p.cfg.feeRecipient } }

/-- The arguments of `initialize` of a stable pool. -/
def stableArgs (i : Stable.InitArgs) : Stable.InitArgs :=
  { i with
    admin := σ i.admin, feeRecipient := σ i.feeRecipient, tokenA := σ i.tokenA, tokenB := σ i.tokenB,
    shareToken := σ i.shareToken, stakeContract := σ i.stakeContract }

/-- The arguments of `update_config` of a stable pool. -/
def stableUpdate (u : Stable.ConfigUpdate) : Stable.ConfigUpdate :=
  { u with newAdmin := u.newAdmin.map σ, feeRecipient := u.feeRecipient.map σ }

/-- A call of a stable pool. -/
def stableCall : Stable.Call → Stable.Call
  | .init i => .init (stableArgs σ i)
  | .provide s a b c d e => .provide (σ s) a b c d e
  | .swap s o a b c d e => .swap (σ s) (σ o) a b c d e
  | .withdraw s a b c d => .withdraw (σ s) a b c d
  | .updateConfig s u => .updateConfig (σ s) (stableUpdate σ u)

/-! ### Stake contracts -/

/-- The configuration of a stake contract. -/
def stakeConfig (c : Stake.Config) : Stake.Config :=
  { c with lpToken := σ c.lpToken, manager := σ c.manager, owner := σ c.owner }

/-- The storage of a stake contract. -/
def stake (s : Stake.State) : Stake.State :=
  { s with
    cfg := s.cfg.map (stakeConfig σ), admin := σ s.admin, info := fun a => s.info (σ.symm a),
    dists := s.dists.map σ, rewards := fun a => s.rewards (σ.symm a) }

/-- A call of a stake contract. -/
def stakeCall : Stake.Call → Stake.Call
  | .init a lp mb mr m o mc => .init (σ a) (σ lp) mb mr (σ m) (σ o) mc
  | .bond s x => .bond (σ s) x
  | .unbond s x t => .unbond (σ s) x t
  | .createFlow s a => .createFlow (σ s) (σ a)
  | .distribute s x a => .distribute (σ s) x (σ a)
  | .withdraw s => .withdraw (σ s)

/-! ### Vesting contracts -/

/-- The minter record. -/
def minter (m : Vesting.Minter) : Vesting.Minter := ⟨σ m.address, m.capacity⟩

/-- One vesting schedule. -/
def vestInfo (i : Vesting.Info) : Vesting.Info := ⟨i.balance, σ i.recipient, i.schedule⟩

/-- The storage of a vesting contract. -/
def vest (v : Vesting.State) : Vesting.State :=
  { v with
    admin := σ v.admin, token := σ v.token, minter := v.minter.map (minter σ),
    sched := fun a i => (v.sched (σ.symm a) i).map (vestInfo σ) }

/-- A call of a vesting contract. -/
def vestCall : Vesting.Call → Vesting.Call
  | .init a t m mi => .init (σ a) (σ t) m (mi.map (minter σ))
  | .create l => .create (l.map fun x => (σ x.1, x.2))
  | .claim s i => .claim (σ s) i
  | .burn s x => .burn (σ s) x
  | .mint s x => .mint (σ s) x
  | .updateMinter s a => .updateMinter (σ s) (σ a)
  | .updateCapacity s x => .updateCapacity (σ s) x

/-! ### Reward contracts -/

/-- The configuration of a reward contract. -/
def rewardsConfig (c : Rewards.Config) : Rewards.Config := { c with staking := σ c.staking, token := σ c.token }

/-- The storage of a reward contract. -/
def rewards (s : Rewards.State) : Rewards.State :=
  { s with cfg := s.cfg.map (rewardsConfig σ), admin := σ s.admin, adj := fun a => s.adj (σ.symm a) }

/-- A call of a reward contract. -/
def rewardsCall : Rewards.Call → Rewards.Call
  | .init a st tok mc mr mb => .init (σ a) (σ st) (σ tok) mc mr mb
  | .addUser u i => .addUser (σ u) i
  | .calcBond u i => .calcBond (σ u) i
  | .calcUnbond u i x => .calcUnbond (σ u) i x
  | .distribute x => .distribute x
  | .withdraw u i => .withdraw (σ u) i
  | .fund a d x => .fund a d x

/-! ### Factory, router and trader -/

/-- The storage of a factory. -/
def factory (f : Factory.State) : Factory.State :=
  { f with
    admin := σ f.admin, multihop := σ f.multihop, whitelist := f.whitelist.map σ, pools := f.pools.map σ,
    pair := fun a b => (f.pair (σ.symm a) (σ.symm b)).map σ }

/-- The storage of a router. -/
def multihop (m : Multihop.State) : Multihop.State := ⟨σ m.admin, σ m.factory⟩

/-- One operation of a route. -/
def hopOp (o : Multihop.Op) : Multihop.Op := ⟨σ o.ask, σ o.offer, o.min⟩

/-- The storage of a trader. -/
def trader (t : Trader.State) : Trader.State := ⟨σ t.admin, σ t.tokenA, σ t.tokenB, σ t.output⟩

/-! ### The whole ledger -/

/-- The description of a new pool. -/
def info (i : World.Info) : World.Info :=
  { i with
    admin := σ i.admin, feeRecipient := σ i.feeRecipient, tokenA := σ i.tokenA, tokenB := σ i.tokenB,
    manager := σ i.manager }

/-- The addresses that the host hands out. -/
def host (h : World.Host) : World.Host where
  poolAddr F a b := σ (h.poolAddr (σ.symm F) (σ.symm a) (σ.symm b))
  hopAddr F a := σ (h.hopAddr (σ.symm F) (σ.symm a))
  shareAddr P a b := σ (h.shareAddr (σ.symm P) (σ.symm a) (σ.symm b))
  stakeAddr P := σ (h.stakeAddr (σ.symm P))

/-- The state of the whole ledger. -/
def world (w : World.World) : World.World where
  led := ledger σ w.led
  code a := w.code (σ.symm a)
  xyk a := (w.xyk (σ.symm a)).map (pool σ)
  stable a := (w.stable (σ.symm a)).map (stable σ)
  stake a := stake σ (w.stake (σ.symm a))
  vest a := (w.vest (σ.symm a)).map (vest σ)
  fac a := (w.fac (σ.symm a)).map (factory σ)
  hop a := (w.hop (σ.symm a)).map (multihop σ)
  trd a := (w.trd (σ.symm a)).map (trader σ)
  rew a := rewards σ (w.rew (σ.symm a))

/-- A call. -/
def call : World.Call → World.Call
  | .token t op => .token (σ t) (tokenOp σ op)
  | .xykInit P i o d s m => .xykInit (σ P) (info σ i) (σ o) d s m
  | .xyk P k => .xyk (σ P) (poolCall σ k)
  | .stableInit P i o a m => .stableInit (σ P) (info σ i) (σ o) a m
  | .stable P k => .stable (σ P) (stableCall σ k)
  | .stake K k => .stake (σ K) (stakeCall σ k)
  | .vest V k => .vest (σ V) (vestCall σ k)
  | .facInit F a lp stb stk tok wl d => .facInit (σ F) (σ a) lp stb stk tok (wl.map σ) d
  | .create F s i k a sl m => .create (σ F) (σ s) (info σ i) k a sl m
  | .whitelist F s add rem => .whitelist (σ F) (σ s) (add.map σ) (rem.map σ)
  | .hashes F lp stk tok => .hashes (σ F) lp stk tok
  | .facUpdate F x => .facUpdate (σ F) x
  | .hopInit H a F => .hopInit (σ H) (σ a) (σ F)
  | .hopSwap H r ops sp x dl mf => .hopSwap (σ H) (σ r) (ops.map (hopOp σ)) sp x dl mf
  | .trdInit T a x y o => .trdInit (σ T) (σ a) (σ x) (σ y) (σ o)
  | .trade T s t p x sp dl mi mf => .trade (σ T) (σ s) (σ t) (σ p) x sp dl mi mf
  | .trdTransfer T s r x t => .trdTransfer (σ T) (σ s) (σ r) x (t.map σ)
  | .rewards R k => .rewards (σ R) (rewardsCall σ k)

/-- A transaction. -/
def tx (t : World.Tx) : World.Tx := ⟨ctx σ t.ctx, call σ t.call⟩

/-- The renaming keeps the order of the two tokens of a pool that the call creates.  The order
of token addresses decides which of them is the first of the pair; it is the only thing about an
address, besides its identity, that any contract looks at. -/
def KeepsOrder : World.Call → Prop
  | .xykInit _ i _ _ _ _ => σ i.tokenA < σ i.tokenB ↔ i.tokenA < i.tokenB
  | .stableInit _ i _ _ _ => σ i.tokenA < σ i.tokenB ↔ i.tokenA < i.tokenB
  | .create _ _ i _ _ _ _ => σ i.tokenA < σ i.tokenB ↔ i.tokenA < i.tokenB
  | _ => True

end Phoenix.Rename
