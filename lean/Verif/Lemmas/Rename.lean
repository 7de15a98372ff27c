import Verif.Spec.Rename
import Verif.Lemmas.Basic
/-! Every function of the model commutes with a renaming of the addresses. -/
namespace Phoenix.Rename
open Phoenix

variable {α β γ : Type} (σ : Names)

/-! ### The failure monad -/

@[simp] theorem map_ok (g : α → β) (a : α) : Except.map g (.ok a : Res α) = .ok (g a) := rfl
@[simp] theorem map_error (g : α → β) (e : Err) : Except.map g (.error e : Res α) = .error e := rfl

@[simp] theorem bind_map (x : Res α) (g : α → β) (k : β → Res γ) : (Except.map g x >>= k) = x >>= fun a => k (g a) := by
  cases x <;> rfl

@[simp] theorem map_bind (x : Res α) (k : α → Res β) (g : β → γ) :
    Except.map g (x >>= k) = x >>= fun a => Except.map g (k a) := by cases x <;> rfl

@[simp] theorem map_ite (p : Prop) [Decidable p] (x y : Res α) (g : α → β) :
    Except.map g (if p then x else y) = if p then Except.map g x else Except.map g y := by split <;> rfl

/-! ### Maps and signatures -/

@[simp] theorem upd_ren (f : Addr → α) (a : Addr) (v : α) :
    upd (fun x => f (σ.symm x)) (σ a) v = fun x => upd f a v (σ.symm x) := by
  funext x; simp [upd, Equiv.symm_apply_eq]

theorem upd_map (g : α → β) (f : Addr → α) (a : Addr) (v : α) :
    upd (fun x => g (f (σ.symm x))) (σ a) (g v) = fun x => g (upd f a v (σ.symm x)) := by
  funext x; simp only [upd, Equiv.symm_apply_eq]; split <;> rfl

@[simp] theorem auth_ren (c : Ctx) (a : Addr) : (ctx σ c).auth (σ a) = c.auth a := by
  simp only [Ctx.auth, ctx, Equiv.symm_apply_apply]
  cases c.invoker with
  | none => rfl
  | some b => simp only [Option.map_some, Option.some_beq_some]; congr 1; exact decide_eq_decide.mpr σ.injective.eq_iff

@[simp] theorem now_ren (c : Ctx) : (ctx σ c).now = c.now := rfl
@[simp] theorem seq_ren (c : Ctx) : (ctx σ c).seq = c.seq := rfl
@[simp] theorem as_ren (c : Ctx) (a : Addr) : (ctx σ c).as (σ a) = ctx σ (c.as a) := rfl
@[simp] theorem requireAuth_ren (c : Ctx) (a : Addr) : requireAuth (ctx σ c) (σ a) = requireAuth c a := by
  simp [requireAuth]

/-! ### Tokens -/

@[simp] theorem token_admin (t : Token) : (token σ t).admin = σ t.admin := rfl
@[simp] theorem token_decimals (t : Token) : (token σ t).decimals = t.decimals := rfl
@[simp] theorem token_bal (t : Token) (a : Addr) : (token σ t).bal (σ a) = t.bal a := by simp [token]
@[simp] theorem token_allow (t : Token) (a b : Addr) : (token σ t).allow (σ a) (σ b) = t.allow a b := by simp [token]

theorem construct_ren (a : Addr) (d : Nat) : Token.construct (σ a) d = (Token.construct a d).map (token σ) := by
  simp [Token.construct, token]

@[simp] theorem receive_ren (t : Token) (a : Addr) (x : Int) :
    (token σ t).receive (σ a) x = (t.receive a x).map (token σ) := by
  simp [Token.receive, token]

@[simp] theorem spend_ren (t : Token) (a : Addr) (x : Int) :
    (token σ t).spend (σ a) x = (t.spend a x).map (token σ) := by
  simp [Token.spend, token]

@[simp] theorem readAllowance_ren (t : Token) (n : Nat) (a b : Addr) :
    (token σ t).readAllowance n (σ a) (σ b) = t.readAllowance n a b := by
  simp [Token.readAllowance]

@[simp] theorem writeAllowance_ren (t : Token) (n : Nat) (a b : Addr) (x : Int) (e : Nat) :
    (token σ t).writeAllowance n (σ a) (σ b) x e = (t.writeAllowance n a b x e).map (token σ) := by
  simp only [Token.writeAllowance, map_bind, map_ok]
  congr 1
  funext _
  congr 1
  simp only [token, Token.mk.injEq, true_and]
  funext y z
  simp only [upd, Equiv.symm_apply_eq, Equiv.symm_apply_apply]
  split
  · exact congrFun (upd_ren σ (t.allow a) b _) z
  · rfl

@[simp] theorem spendAllowance_ren (t : Token) (n : Nat) (a b : Addr) (x : Int) :
    (token σ t).spendAllowance n (σ a) (σ b) x = (t.spendAllowance n a b x).map (token σ) := by
  simp [Token.spendAllowance]

@[simp] theorem token_call_ren (c : Ctx) (t : Token) (op : TokenOp) :
    (token σ t).call (ctx σ c) (tokenOp σ op) = (t.call c op).map (token σ) := by
  cases op
  case setAdmin a => simp [Token.call, tokenOp, Token.setAdmin, token]
  all_goals simp [Token.call, tokenOp, Token.mint, Token.approve, Token.transfer, Token.transferFrom, Token.burn,
    Token.burnFrom]

@[simp] theorem ledger_at (L : Ledger) (a : Addr) : ledger σ L (σ a) = token σ (L a) := by simp [ledger]
@[simp] theorem ledger_bal (L : Ledger) (t a : Addr) : (ledger σ L).bal (σ t) (σ a) = L.bal t a := by simp [Ledger.bal]

theorem ledger_upd (L : Ledger) (a : Addr) (t : Token) :
    upd (ledger σ L) (σ a) (token σ t) = ledger σ (upd L a t) := upd_map σ (token σ) L a t

@[simp] theorem ledger_call (c : Ctx) (L : Ledger) (t : Addr) (op : TokenOp) :
    (ledger σ L).call (ctx σ c) (σ t) (tokenOp σ op) = (L.call c t op).map (ledger σ) := by
  simp [Ledger.call, ledger_upd]

@[simp] theorem ledger_transfer (c : Ctx) (L : Ledger) (t a b : Addr) (x : Int) :
    (ledger σ L).transfer (ctx σ c) (σ t) (σ a) (σ b) x = (L.transfer c t a b x).map (ledger σ) :=
  ledger_call σ c L t (.transfer a b x)

@[simp] theorem ledger_mint (c : Ctx) (L : Ledger) (t a : Addr) (x : Int) :
    (ledger σ L).mint (ctx σ c) (σ t) (σ a) x = (L.mint c t a x).map (ledger σ) :=
  ledger_call σ c L t (.mint a x)

@[simp] theorem ledger_burn (c : Ctx) (L : Ledger) (t a : Addr) (x : Int) :
    (ledger σ L).burn (ctx σ c) (σ t) (σ a) x = (L.burn c t a x).map (ledger σ) :=
  ledger_call σ c L t (.burn a x)

/-! ### Constant product pools -/

/-- state and tokens -/
def poolLed (x : Pool.State × Ledger) : Pool.State × Ledger := (pool σ x.1, ledger σ x.2)

@[simp] theorem pool_loaded (p : Option Pool.State) : Pool.loaded (p.map (pool σ)) = (Pool.loaded p).map (pool σ) := by
  cases p <;> rfl

@[simp] theorem pool_sides (p : Pool.State) (o : Addr) : Pool.sides (pool σ p) (σ o) = Pool.sides p o := by
  simp [Pool.sides, pool]

@[simp] theorem pool_tokensOf (p : Pool.State) (o : Addr) :
    Pool.tokensOf (pool σ p) (σ o) = (σ (Pool.tokensOf p o).1, σ (Pool.tokensOf p o).2) := by
  simp only [Pool.tokensOf, pool, EmbeddingLike.apply_eq_iff_eq]
  split <;> rfl

@[simp] theorem pool_limits (p : Pool.State) (a b : Option Int) : Pool.swapLimits (pool σ p) a b = Pool.swapLimits p a b := rfl

@[simp] theorem pool_reserves (p : Pool.State) (o : Addr) (x : Int) (r : Pool.ComputeSwap) :
    Pool.swapReserves (pool σ p) (σ o) x r = (Pool.swapReserves p o x r).map (pool σ) := by
  simp [Pool.swapReserves, pool]

theorem pool_doSwap (P : Addr) (c : Ctx) (p : Pool.State) (L : Ledger) (s o : Addr) (x : Int) (a b d : Option Int) :
    Pool.doSwap (σ P) (ctx σ c) (pool σ p) (ledger σ L) (σ s) (σ o) x a b d
      = (Pool.doSwap P c p L s o x a b d).map fun y => (pool σ y.1, ledger σ y.2.1, y.2.2) := by
  have hf : (pool σ p).cfg.feeRecipient = σ p.cfg.feeRecipient := rfl
  have hb : (pool σ p).cfg.totalFeeBps = p.cfg.totalFeeBps := rfl
  simp [Pool.doSwap, hf, hb]

theorem pool_swap (P : Addr) (c : Ctx) (p : Pool.State) (L : Ledger) (s o : Addr) (x : Int) (a b : Option Int)
    (e : Option Nat) (d : Option Int) :
    Pool.swap (σ P) (ctx σ c) (pool σ p) (ledger σ L) (σ s) (σ o) x a b e d
      = (Pool.swap P c p L s o x a b e d).map fun y => (pool σ y.1, ledger σ y.2.1, y.2.2) := by
  have hd : Pool.checkDeadline (ctx σ c) e = Pool.checkDeadline c e := rfl
  simp [Pool.swap, pool_doSwap, hd]

theorem pool_mintShares (P : Addr) (c : Ctx) (p : Pool.State) (L : Ledger) (a : Addr) (x : Int) :
    Pool.mintShares (σ P) (ctx σ c) (pool σ p) (ledger σ L) (σ a) x
      = (Pool.mintShares P c p L a x).map (poolLed σ) := by
  have hs : (pool σ p).cfg.shareToken = σ p.cfg.shareToken := rfl
  simp [Pool.mintShares, hs, poolLed]
  rfl

theorem pool_burnShares (P : Addr) (c : Ctx) (p : Pool.State) (L : Ledger) (x : Int) :
    Pool.burnShares (σ P) (ctx σ c) (pool σ p) (ledger σ L) x = (Pool.burnShares P c p L x).map (poolLed σ) := by
  have hs : (pool σ p).cfg.shareToken = σ p.cfg.shareToken := rfl
  simp [Pool.burnShares, hs, poolLed]
  rfl

theorem pool_newShares (P : Addr) (c : Ctx) (p : Pool.State) (L : Ledger) (a b x y : Int) :
    Pool.newShares (σ P) (ctx σ c) (pool σ p) (ledger σ L) a b x y
      = (Pool.newShares P c p L a b x y).map fun z => (z.1, pool σ z.2.1, ledger σ z.2.2) := by
  have h1 : (pool σ p).resA = p.resA := rfl
  have h2 : (pool σ p).resB = p.resB := rfl
  have h3 : (pool σ p).total = p.total := rfl
  simp [Pool.newShares, h1, h2, h3, pool_mintShares, poolLed]

theorem pool_provide (P : Addr) (c : Ctx) (p : Pool.State) (L : Ledger) (s : Addr) (a b d e f : Option Int)
    (g : Option Nat) :
    Pool.provide (σ P) (ctx σ c) (pool σ p) (ledger σ L) (σ s) a b d e f g
      = (Pool.provide P c p L s a b d e f g).map (poolLed σ) := by
  have h1 : (pool σ p).cfg.tokenA = σ p.cfg.tokenA := rfl
  have h2 : (pool σ p).cfg.tokenB = σ p.cfg.tokenB := rfl
  have h3 : (pool σ p).total = p.total := rfl
  have hd : Pool.checkDeadline (ctx σ c) g = Pool.checkDeadline c g := rfl
  have hs : Pool.checkSlippage (pool σ p) f = Pool.checkSlippage p f := rfl
  have hc : Pool.chooseAmounts (pool σ p) a b d e f = Pool.chooseAmounts p a b d e f := rfl
  simp [Pool.provide, h1, h2, h3, hd, hs, hc, pool_newShares, pool_mintShares, poolLed]
  rfl

theorem pool_withdraw (P : Addr) (c : Ctx) (p : Pool.State) (L : Ledger) (s : Addr) (x a b : Int) (g : Option Nat) :
    Pool.withdraw (σ P) (ctx σ c) (pool σ p) (ledger σ L) (σ s) x a b g
      = (Pool.withdraw P c p L s x a b g).map fun y => (pool σ y.1, ledger σ y.2.1, y.2.2) := by
  have h1 : (pool σ p).cfg.tokenA = σ p.cfg.tokenA := rfl
  have h2 : (pool σ p).cfg.tokenB = σ p.cfg.tokenB := rfl
  have h3 : (pool σ p).total = p.total := rfl
  have h4 : (pool σ p).cfg.shareToken = σ p.cfg.shareToken := rfl
  have h5 : (pool σ p).resA = p.resA := rfl
  have h6 : (pool σ p).resB = p.resB := rfl
  have hd : Pool.checkDeadline (ctx σ c) g = Pool.checkDeadline c g := rfl
  simp [Pool.withdraw, h1, h2, h3, h4, h5, h6, hd, pool_burnShares, poolLed]
  rfl

theorem pool_updateConfig (c : Ctx) (p : Pool.State) (u : Pool.ConfigUpdate) :
    Pool.updateConfig (ctx σ c) (pool σ p) (poolUpdate σ u) = (Pool.updateConfig c p u).map (pool σ) := by
  simp [Pool.updateConfig, pool, poolUpdate]

theorem pool_upgrade (c : Ctx) (p : Pool.State) (x : Int) :
    Pool.upgrade (ctx σ c) (pool σ p) x = (Pool.upgrade c p x).map (pool σ) := by
  simp [Pool.upgrade, pool]

theorem pool_init (P : Addr) (p : Option Pool.State) (L : Ledger) (i : Pool.InitArgs)
    (ho : σ i.tokenA < σ i.tokenB ↔ i.tokenA < i.tokenB) :
    Pool.init (σ P) (p.map (pool σ)) (ledger σ L) (poolArgs σ i) = (Pool.init P p L i).map (poolLed σ) := by
  simp only [Pool.init, poolArgs, construct_ren, Option.isNone_map, ho, map_bind, bind_map, map_ok, ledger_upd]
  rfl

/-- pool and tokens, as the single-pool system has them -/
def poolSys (s : Pool.Sys) : Pool.Sys := ⟨s.pool.map (pool σ), ledger σ s.led⟩

theorem pool_step (P : Addr) (s : Pool.Sys) (c : Ctx) (k : Pool.Call) (hk : ∀ i, k ≠ .init i) :
    Pool.step (σ P) (poolSys σ s) (.pool (ctx σ c) (poolCall σ k)) = (Pool.step P s (.pool c k)).map (poolSys σ) := by
  cases k
  case init i => exact absurd rfl (hk i)
  all_goals
    simp [Pool.step, poolCall, poolSys, pool_swap, pool_provide, pool_withdraw, pool_updateConfig, pool_upgrade, poolLed]

/-! ### Stable pools -/

/-- state and tokens -/
def stableLed (x : Stable.State × Ledger) : Stable.State × Ledger := (stable σ x.1, ledger σ x.2)

/-- one side of a stable pool -/
def side (x : Stable.Side) : Stable.Side := ⟨σ x.tok, x.res, x.prec⟩

@[simp] theorem stable_loaded (p : Option Stable.State) :
    Stable.loaded (p.map (stable σ)) = (Stable.loaded p).map (stable σ) := by cases p <;> rfl

@[simp] theorem stable_sides (p : Stable.State) (o : Addr) :
    Stable.sides (stable σ p) (σ o) = (Stable.sides p o).map fun x => (side σ x.1, side σ x.2) := by
  simp [Stable.sides, stable, side]

@[simp] theorem stable_quote (n : Nat) (p : Stable.State) (a b : Stable.Side) (x : Int) :
    Stable.quote n (stable σ p) (side σ a) (side σ b) x = Stable.quote n p a b x := rfl

@[simp] theorem stable_limits (p : Stable.State) (o : Addr) (a b : Option Int) :
    Stable.swapLimits (stable σ p) (σ o) a b = Stable.swapLimits p o a b := by
  simp [Stable.swapLimits, stable]
  rfl

@[simp] theorem stable_reserves (p : Stable.State) (o : Addr) (x : Int) (r : Stable.Quote) :
    Stable.swapReserves (stable σ p) (σ o) x r = (Stable.swapReserves p o x r).map (stable σ) := by
  simp [Stable.swapReserves, stable]

theorem stable_doSwap (P : Addr) (c : Ctx) (p : Stable.State) (L : Ledger) (s o : Addr) (x : Int) (a b d : Option Int) :
    Stable.doSwap (σ P) (ctx σ c) (stable σ p) (ledger σ L) (σ s) (σ o) x a b d
      = (Stable.doSwap P c p L s o x a b d).map fun y => (stable σ y.1, ledger σ y.2.1, y.2.2) := by
  have hf : (stable σ p).cfg.feeRecipient = σ p.cfg.feeRecipient := rfl
  have ht : ∀ x, (side σ x).tok = σ x.tok := fun _ => rfl
  simp [Stable.doSwap, hf, ht]

theorem stable_swap (P : Addr) (c : Ctx) (p : Stable.State) (L : Ledger) (s o : Addr) (x : Int) (a b : Option Int)
    (e : Option Nat) (d : Option Int) :
    Stable.swap (σ P) (ctx σ c) (stable σ p) (ledger σ L) (σ s) (σ o) x a b e d
      = (Stable.swap P c p L s o x a b e d).map fun y => (stable σ y.1, ledger σ y.2.1, y.2.2) := by
  have hd : Stable.checkDeadline (ctx σ c) e = Stable.checkDeadline c e := rfl
  simp [Stable.swap, stable_doSwap, hd]

theorem stable_mintShares (P : Addr) (c : Ctx) (p : Stable.State) (L : Ledger) (a : Addr) (x : Int) :
    Stable.mintShares (σ P) (ctx σ c) (stable σ p) (ledger σ L) (σ a) x
      = (Stable.mintShares P c p L a x).map (stableLed σ) := by
  have hs : (stable σ p).cfg.shareToken = σ p.cfg.shareToken := rfl
  simp [Stable.mintShares, hs, stableLed]
  rfl

theorem stable_burnShares (P : Addr) (c : Ctx) (p : Stable.State) (L : Ledger) (x : Int) :
    Stable.burnShares (σ P) (ctx σ c) (stable σ p) (ledger σ L) x
      = (Stable.burnShares P c p L x).map (stableLed σ) := by
  have hs : (stable σ p).cfg.shareToken = σ p.cfg.shareToken := rfl
  simp [Stable.burnShares, hs, stableLed]
  rfl

theorem stable_provide (P : Addr) (c : Ctx) (p : Stable.State) (L : Ledger) (s : Addr) (a b : Int) (f : Option Int)
    (g m : Option Nat) :
    Stable.provide (σ P) (ctx σ c) (stable σ p) (ledger σ L) (σ s) a b f g m
      = (Stable.provide P c p L s a b f g m).map (stableLed σ) := by
  have h1 : (stable σ p).cfg.tokenA = σ p.cfg.tokenA := rfl
  have h2 : (stable σ p).cfg.tokenB = σ p.cfg.tokenB := rfl
  have h3 : (stable σ p).cfg.defaultSlippageBps = p.cfg.defaultSlippageBps := rfl
  have h4 : (stable σ p).cfg.maxSlippageBps = p.cfg.maxSlippageBps := rfl
  have h5 : (stable σ p).resA = p.resA := rfl
  have h6 : (stable σ p).resB = p.resB := rfl
  have h7 : (stable σ p).amp = p.amp := rfl
  have hd : Stable.checkDeadline (ctx σ c) g = Stable.checkDeadline c g := rfl
  have hn : ∀ x y z u, Stable.newShares (stable σ p) x y z u = Stable.newShares p x y z u := fun _ _ _ _ => rfl
  simp [Stable.provide, h1, h2, h3, h4, h5, h6, h7, hd, hn, stable_mintShares, stableLed]
  rfl

theorem stable_withdraw (P : Addr) (c : Ctx) (p : Stable.State) (L : Ledger) (s : Addr) (x a b : Int) (g : Option Nat) :
    Stable.withdraw (σ P) (ctx σ c) (stable σ p) (ledger σ L) (σ s) x a b g
      = (Stable.withdraw P c p L s x a b g).map fun y => (stable σ y.1, ledger σ y.2.1, y.2.2) := by
  have h1 : (stable σ p).cfg.tokenA = σ p.cfg.tokenA := rfl
  have h2 : (stable σ p).cfg.tokenB = σ p.cfg.tokenB := rfl
  have h3 : (stable σ p).total = p.total := rfl
  have h4 : (stable σ p).cfg.shareToken = σ p.cfg.shareToken := rfl
  have h5 : (stable σ p).resA = p.resA := rfl
  have h6 : (stable σ p).resB = p.resB := rfl
  have hd : Stable.checkDeadline (ctx σ c) g = Stable.checkDeadline c g := rfl
  simp [Stable.withdraw, h1, h2, h3, h4, h5, h6, hd, stable_burnShares, stableLed]
  rfl

theorem stable_updateConfig (p : Stable.State) (s : Addr) (u : Stable.ConfigUpdate) :
    Stable.updateConfig (stable σ p) (σ s) (stableUpdate σ u) = (Stable.updateConfig p s u).map (stable σ) := by
  simp [Stable.updateConfig, stable, stableUpdate]

theorem stable_init (P : Addr) (c : Ctx) (p : Option Stable.State) (L : Ledger) (i : Stable.InitArgs)
    (ho : σ i.tokenA < σ i.tokenB ↔ i.tokenA < i.tokenB) :
    Stable.init (σ P) (ctx σ c) (p.map (stable σ)) (ledger σ L) (stableArgs σ i)
      = (Stable.init P c p L i).map (stableLed σ) := by
  simp only [Stable.init, stableArgs, construct_ren, Option.isNone_map, ho, map_bind, bind_map, map_ok, ledger_upd,
    ledger_at, token_decimals]
  rfl

/-- stable pool and tokens -/
def stableSys (s : Stable.Sys) : Stable.Sys := ⟨s.pool.map (stable σ), ledger σ s.led⟩

theorem stable_step (P : Addr) (s : Stable.Sys) (c : Ctx) (k : Stable.Call) (hk : ∀ i, k ≠ .init i) :
    Stable.step (σ P) (stableSys σ s) (.pool (ctx σ c) (stableCall σ k))
      = (Stable.step P s (.pool c k)).map (stableSys σ) := by
  cases k
  case init i => exact absurd rfl (hk i)
  all_goals
    simp [Stable.step, stableCall, stableSys, stable_swap, stable_provide, stable_withdraw, stable_updateConfig, stableLed]

/-! ### Stake contracts -/

/-- state and tokens -/
def stakeLed (x : Stake.State × Ledger) : Stake.State × Ledger := (stake σ x.1, ledger σ x.2)

@[simp] theorem stake_config (s : Stake.State) :
    Stake.getConfig (stake σ s) = (Stake.getConfig s).map (stakeConfig σ) := by
  unfold Stake.getConfig; simp only [stake]; cases s.cfg <;> rfl

@[simp] theorem stake_info (s : Stake.State) (a : Addr) : (stake σ s).info (σ a) = s.info a := by simp [stake]
@[simp] theorem stake_rewards (s : Stake.State) (a : Addr) : (stake σ s).rewards (σ a) = s.rewards a := by simp [stake]
@[simp] theorem mem_ren (a : Addr) (l : List Addr) : σ a ∈ l.map σ ↔ a ∈ l := by simp

theorem stake_init (s : Stake.State) (a lp : Addr) (mb mr : Int) (m o : Addr) (mc : Nat) :
    Stake.init (stake σ s) (σ a) (σ lp) mb mr (σ m) (σ o) mc = (Stake.init s a lp mb mr m o mc).map (stake σ) := by
  simp [Stake.init, stake, stakeConfig]

theorem stake_bond (K : Addr) (c : Ctx) (s : Stake.State) (L : Ledger) (a : Addr) (x : Int) :
    Stake.bond (σ K) (ctx σ c) (stake σ s) (ledger σ L) (σ a) x = (Stake.bond K c s L a x).map (stakeLed σ) := by
  simp [Stake.bond, stakeLed, stakeConfig]
  simp [stake]
  rfl

theorem stake_unbond (K : Addr) (c : Ctx) (s : Stake.State) (L : Ledger) (a : Addr) (x : Int) (t : Nat) :
    Stake.unbond (σ K) (ctx σ c) (stake σ s) (ledger σ L) (σ a) x t = (Stake.unbond K c s L a x t).map (stakeLed σ) := by
  simp [Stake.unbond, stakeLed, stakeConfig]
  simp [stake]

theorem stake_createFlow (c : Ctx) (s : Stake.State) (a b : Addr) :
    Stake.createFlow (ctx σ c) (stake σ s) (σ a) (σ b) = (Stake.createFlow c s a b).map (stake σ) := by
  simp [Stake.createFlow, stakeConfig]
  simp [stake]

@[simp] theorem stake_history (s : Stake.State) (a : Addr) : Stake.rewardHistory (stake σ s) (σ a) = Stake.rewardHistory s a := by
  simp [Stake.rewardHistory]

theorem stake_distribute (K : Addr) (c : Ctx) (s : Stake.State) (L : Ledger) (a : Addr) (x : Int) (t : Addr) :
    Stake.distribute (σ K) (ctx σ c) (stake σ s) (ledger σ L) (σ a) x (σ t)
      = (Stake.distribute K c s L a x t).map (stakeLed σ) := by
  simp [Stake.distribute, stakeLed, stakeConfig]
  simp [stake]

@[simp] theorem stake_pending (c : Ctx) (s : Stake.State) (t : Addr) (i : Stake.Info) :
    Stake.pending (ctx σ c) (stake σ s) (σ t) i = Stake.pending c s t i := by
  simp only [Stake.pending, stake_history]; rfl

theorem stake_payLoop (K : Addr) (c : Ctx) (s : Stake.State) (a : Addr) (l : List Addr) (L : Ledger) :
    Stake.payLoop (σ K) (ctx σ c) (stake σ s) (σ a) (l.map σ) (ledger σ L)
      = (Stake.payLoop K c s a l L).map (ledger σ) := by
  induction l generalizing L with
  | nil => rfl
  | cons b l ih => simp [Stake.payLoop, ih]

theorem stake_withdraw (K : Addr) (c : Ctx) (s : Stake.State) (L : Ledger) (a : Addr) :
    Stake.withdraw (σ K) (ctx σ c) (stake σ s) (ledger σ L) (σ a) = (Stake.withdraw K c s L a).map (stakeLed σ) := by
  have hd : (stake σ s).dists = s.dists.map σ := rfl
  simp [Stake.withdraw, stakeLed, hd, stake_payLoop]
  simp [stake]

/-- stake contract and tokens -/
def stakeSys (s : Stake.Sys) : Stake.Sys := ⟨stake σ s.st, ledger σ s.led⟩

theorem stake_step (K : Addr) (s : Stake.Sys) (c : Ctx) (k : Stake.Call) :
    Stake.step (σ K) (stakeSys σ s) (.stake (ctx σ c) (stakeCall σ k))
      = (Stake.step K s (.stake c k)).map (stakeSys σ) := by
  cases k <;>
    simp [Stake.step, stakeCall, stakeSys, stake_init, stake_bond, stake_unbond, stake_createFlow, stake_distribute,
      stake_withdraw, stakeLed]

/-! ### Vesting contracts -/

/-- state and tokens -/
def vestLed (x : Vesting.State × Ledger) : Vesting.State × Ledger := (vest σ x.1, ledger σ x.2)

@[simp] theorem vest_loaded (v : Option Vesting.State) :
    Vesting.loaded (v.map (vest σ)) = (Vesting.loaded v).map (vest σ) := by cases v <;> rfl

theorem vest_init (v : Option Vesting.State) (a t : Addr) (m : Nat) (mi : Option Vesting.Minter) :
    Vesting.init (v.map (vest σ)) (σ a) (σ t) m (mi.map (minter σ)) = (Vesting.init v a t m mi).map (vest σ) := by
  simp [Vesting.init, vest]

@[simp] theorem vest_sched (v : Vesting.State) (a : Addr) (i : Nat) :
    (vest σ v).sched (σ a) i = (v.sched a i).map (vestInfo σ) := by simp [vest]

theorem checkDup_ren (seen : List Addr) (l : List (Addr × Curve)) :
    Vesting.checkDup (seen.map σ) (l.map fun x => (σ x.1, x.2)) = Vesting.checkDup seen l := by
  induction l generalizing seen with
  | nil => rfl
  | cons x l ih =>
    obtain ⟨a, k⟩ := x
    have := ih (seen ++ [a])
    simp only [List.map_append, List.map_cons, List.map_nil] at this
    simp only [List.map_cons, Vesting.checkDup, mem_ren, this]

theorem firstFree_ren (f : Nat → Option Vesting.Info) (i n : Nat) :
    Vesting.firstFree (fun j => (f j).map (vestInfo σ)) i n = Vesting.firstFree f i n := by
  induction n generalizing i with
  | zero => rfl
  | succ n ih =>
    simp only [Vesting.firstFree]
    cases f i with
    | none => rfl
    | some x => simpa using ih (i + 1)

@[simp] theorem putInfo_ren (v : Vesting.State) (a : Addr) (i : Nat) (x : Vesting.Info) :
    Vesting.putInfo (vest σ v) (σ a) i (vestInfo σ x) = vest σ (Vesting.putInfo v a i x) := by
  simp only [Vesting.putInfo, vest, Vesting.State.mk.injEq, true_and, and_true]
  funext y j
  simp only [upd, Equiv.symm_apply_eq]
  split
  · simp only [Equiv.symm_apply_apply]
    split <;> rfl
  · rfl

theorem saveVesting_ren (v : Vesting.State) (a : Addr) (x : Vesting.Info) :
    Vesting.saveVesting (vest σ v) (σ a) (vestInfo σ x) = (Vesting.saveVesting v a x).map (vest σ) := by
  have h1 : (vest σ v).sched (σ a) = fun j => (v.sched a j).map (vestInfo σ) := by funext j; simp
  have h2 : (vest σ v).entries = v.entries := rfl
  simp [Vesting.saveVesting, h1, h2, firstFree_ren]
  rfl

theorem createLoop_ren (v : Vesting.State) (n : Nat) (l : List (Addr × Curve)) :
    Vesting.createLoop (vest σ v) n (l.map fun x => (σ x.1, x.2))
      = (Vesting.createLoop v n l).map fun x => (vest σ x.1, x.2) := by
  induction l generalizing v n with
  | nil => rfl
  | cons x l ih =>
    obtain ⟨a, k⟩ := x
    have hm : (vest σ v).maxComplexity = v.maxComplexity := rfl
    have hs : ∀ y, Vesting.saveVesting (vest σ v) (σ a) ⟨y, σ a, k⟩ = (Vesting.saveVesting v a ⟨y, a, k⟩).map (vest σ) :=
      fun y => saveVesting_ren σ v a ⟨y, a, k⟩
    simp only [List.map_cons, Vesting.createLoop, hm, hs, ih, map_bind, bind_map]

theorem vest_create (V : Addr) (c : Ctx) (v : Vesting.State) (L : Ledger) (l : List (Addr × Curve)) :
    Vesting.create (σ V) (ctx σ c) (vest σ v) (ledger σ L) (l.map fun x => (σ x.1, x.2))
      = (Vesting.create V c v L l).map (vestLed σ) := by
  have h1 : (vest σ v).admin = σ v.admin := rfl
  have h2 : (vest σ v).token = σ v.token := rfl
  have h3 : Vesting.checkDup [] (l.map fun x => (σ x.1, x.2)) = Vesting.checkDup [] l := checkDup_ren σ [] l
  simp [Vesting.create, h1, h2, h3, createLoop_ren, vestLed]

@[simp] theorem getVesting_ren (v : Vesting.State) (a : Addr) (i : Nat) :
    Vesting.getVesting (vest σ v) (σ a) i = (Vesting.getVesting v a i).map (vestInfo σ) := by
  simp only [Vesting.getVesting, vest_sched]
  cases v.sched a i <;> rfl

@[simp] theorem available_ren (c : Ctx) (v : Vesting.State) (a : Addr) (i : Nat) :
    Vesting.available (ctx σ c) (vest σ v) (σ a) i = Vesting.available c v a i := by
  simp [Vesting.available, vestInfo]

theorem vest_claim (V : Addr) (c : Ctx) (v : Vesting.State) (L : Ledger) (a : Addr) (i : Nat) :
    Vesting.claim (σ V) (ctx σ c) (vest σ v) (ledger σ L) (σ a) i = (Vesting.claim V c v L a i).map (vestLed σ) := by
  have h2 : (vest σ v).token = σ v.token := rfl
  have h3 : ∀ (x : Vesting.Info) (n : Nat),
      Vesting.putInfo (vest σ v) (σ a) i ⟨n, (vestInfo σ x).recipient, x.schedule⟩
        = vest σ (Vesting.putInfo v a i ⟨n, x.recipient, x.schedule⟩) := fun x n => putInfo_ren σ v a i ⟨n, x.recipient, x.schedule⟩
  have h4 : ∀ x, (vestInfo σ x).schedule = x.schedule := fun _ => rfl
  have h5 : ∀ x, (vestInfo σ x).balance = x.balance := fun _ => rfl
  simp only [Vesting.claim, requireAuth_ren, available_ren, getVesting_ren, bind_map, map_bind, map_ok, now_ren, as_ren, h2, h3,
    h4, h5, ledger_transfer, vestLed]

theorem vest_burn (V : Addr) (c : Ctx) (v : Vesting.State) (L : Ledger) (a : Addr) (x : Nat) :
    Vesting.burn (σ V) (ctx σ c) (vest σ v) (ledger σ L) (σ a) x = (Vesting.burn V c v L a x).map (ledger σ) := by
  have h2 : (vest σ v).token = σ v.token := rfl
  simp [Vesting.burn, h2]

@[simp] theorem needMinter_ren (v : Vesting.State) :
    Vesting.needMinter (vest σ v) = (Vesting.needMinter v).map (minter σ) := by
  simp only [Vesting.needMinter, vest]; cases v.minter <;> rfl

@[simp] theorem minterOwner_ren (v : Vesting.State) : Vesting.minterOwner (vest σ v) = σ (Vesting.minterOwner v) := by
  simp only [Vesting.minterOwner, vest]; cases v.minter <;> rfl

@[simp] theorem capacity_ren (v : Vesting.State) : Vesting.capacity (vest σ v) = Vesting.capacity v := by
  simp only [Vesting.capacity, vest]; cases v.minter <;> rfl

theorem vest_mint (V : Addr) (c : Ctx) (v : Vesting.State) (L : Ledger) (a : Addr) (x : Int) :
    Vesting.mint (σ V) (ctx σ c) (vest σ v) (ledger σ L) (σ a) x = (Vesting.mint V c v L a x).map (vestLed σ) := by
  have h2 : (vest σ v).token = σ v.token := rfl
  simp [Vesting.mint, h2, minter, vestLed]
  rfl

theorem vest_updateMinter (c : Ctx) (v : Vesting.State) (a b : Addr) :
    Vesting.updateMinter (ctx σ c) (vest σ v) (σ a) (σ b) = (Vesting.updateMinter c v a b).map (vest σ) := by
  simp [Vesting.updateMinter]
  rfl

theorem vest_updateCapacity (c : Ctx) (v : Vesting.State) (a : Addr) (n : Nat) :
    Vesting.updateCapacity (ctx σ c) (vest σ v) (σ a) n = (Vesting.updateCapacity c v a n).map (vest σ) := by
  have h1 : (vest σ v).admin = σ v.admin := rfl
  simp [Vesting.updateCapacity, h1]
  rfl

/-- vesting contract and tokens -/
def vestSys (s : Vesting.Sys) : Vesting.Sys := ⟨s.vest.map (vest σ), ledger σ s.led⟩

theorem vest_step (V : Addr) (s : Vesting.Sys) (c : Ctx) (k : Vesting.Call) :
    Vesting.step (σ V) (vestSys σ s) (.vest (ctx σ c) (vestCall σ k))
      = (Vesting.step V s (.vest c k)).map (vestSys σ) := by
  cases k <;>
    simp [Vesting.step, vestCall, vestSys, vest_init, vest_create, vest_claim, vest_burn, vest_mint, vest_updateMinter,
      vest_updateCapacity, vestLed]

/-! ### Reward contracts -/

/-- state and tokens -/
def rewLed (x : Rewards.State × Ledger) : Rewards.State × Ledger := (rewards σ x.1, ledger σ x.2)

@[simp] theorem rew_config (s : Rewards.State) :
    Rewards.getConfig (rewards σ s) = (Rewards.getConfig s).map (rewardsConfig σ) := by
  unfold Rewards.getConfig; simp only [rewards]; cases s.cfg <;> rfl

@[simp] theorem rew_adj (s : Rewards.State) (a : Addr) : (rewards σ s).adj (σ a) = s.adj a := by simp [rewards]
@[simp] theorem rew_dist (s : Rewards.State) : (rewards σ s).dist = s.dist := rfl
@[simp] theorem rew_staking (c : Rewards.Config) : (rewardsConfig σ c).staking = σ c.staking := rfl
@[simp] theorem rew_token (c : Rewards.Config) : (rewardsConfig σ c).token = σ c.token := rfl
@[simp] theorem rew_power (c : Rewards.Config) (x : Int) : Rewards.power (rewardsConfig σ c) x = Rewards.power c x := rfl

theorem rew_init (s : Rewards.State) (a st t : Addr) (mc : Nat) (mr mb : Int) :
    Rewards.init (rewards σ s) (σ a) (σ st) (σ t) mc mr mb = (Rewards.init s a st t mc mr mb).map (rewards σ) := by
  simp [Rewards.init, rewards, rewardsConfig]

@[simp] theorem rew_update (s : Rewards.State) (a : Addr) (x y : Int) :
    Rewards.updateRewards (rewards σ s) (σ a) x y = (Rewards.updateRewards s a x y).map (rewards σ) := by
  simp [Rewards.updateRewards]
  simp [rewards]

theorem rew_addUser (c : Ctx) (s : Rewards.State) (a : Addr) (i : Stake.Info) :
    Rewards.addUser (ctx σ c) (rewards σ s) (σ a) i = (Rewards.addUser c s a i).map (rewards σ) := by
  simp [Rewards.addUser]

theorem rew_calcBond (c : Ctx) (s : Rewards.State) (a : Addr) (i : Stake.Info) :
    Rewards.calcBond (ctx σ c) (rewards σ s) (σ a) i = (Rewards.calcBond c s a i).map (rewards σ) := by
  simp [Rewards.calcBond]

@[simp] theorem rew_payable (c : Ctx) (k : Rewards.Config) (s : Rewards.State) (a : Addr) (i : Stake.Info) :
    Rewards.payable (ctx σ c) (rewardsConfig σ k) (rewards σ s) (σ a) i = Rewards.payable c k s a i := by
  simp [Rewards.payable, Rewards.claim]

theorem rew_withdraw (R : Addr) (c : Ctx) (s : Rewards.State) (L : Ledger) (a : Addr) (i : Stake.Info) :
    Rewards.withdraw (σ R) (ctx σ c) (rewards σ s) (ledger σ L) (σ a) i = (Rewards.withdraw R c s L a i).map (rewLed σ) := by
  simp [Rewards.withdraw, rewLed]
  simp [rewards]

theorem rew_withdrawIfAny (R : Addr) (c : Ctx) (s : Rewards.State) (L : Ledger) (a : Addr) (i : Stake.Info) :
    Rewards.withdrawIfAny (σ R) (ctx σ c) (rewards σ s) (ledger σ L) (σ a) i
      = (Rewards.withdrawIfAny R c s L a i).map (rewLed σ) := by
  simp [Rewards.withdrawIfAny, Rewards.queryWithdrawable, rew_withdraw]
  rfl

theorem rew_calcUnbond (R : Addr) (c : Ctx) (s : Rewards.State) (L : Ledger) (a : Addr) (i : Stake.Info) (x : Int) :
    Rewards.calcUnbond (σ R) (ctx σ c) (rewards σ s) (ledger σ L) (σ a) i x
      = (Rewards.calcUnbond R c s L a i x).map (rewLed σ) := by
  simp [Rewards.calcUnbond, rew_withdrawIfAny, rewLed]

theorem rew_distribute (R : Addr) (c : Ctx) (s : Rewards.State) (L : Ledger) (x : Int) :
    Rewards.distribute (σ R) (ctx σ c) (rewards σ s) (ledger σ L) x = (Rewards.distribute R c s L x).map (rewards σ) := by
  have hc : (rewards σ s).curve = s.curve := rfl
  simp [Rewards.distribute, Rewards.unlocked, hc]
  rfl

theorem rew_fund (R : Addr) (c : Ctx) (s : Rewards.State) (L : Ledger) (a d : Nat) (x : Int) :
    Rewards.fund (σ R) (ctx σ c) (rewards σ s) (ledger σ L) a d x = (Rewards.fund R c s L a d x).map (rewLed σ) := by
  have hc : (rewards σ s).curve = s.curve := rfl
  have ha : (rewards σ s).admin = σ s.admin := rfl
  have hm : ∀ k, (rewardsConfig σ k).minReward = k.minReward := fun _ => rfl
  have hx : ∀ k, (rewardsConfig σ k).maxComplexity = k.maxComplexity := fun _ => rfl
  simp [Rewards.fund, rewLed, hc, ha, hm, hx]
  rfl

/-- reward contract and tokens -/
def rewSys (s : Rewards.Sys) : Rewards.Sys := ⟨rewards σ s.st, ledger σ s.led⟩

theorem rew_step (R : Addr) (s : Rewards.Sys) (c : Ctx) (k : Rewards.Call) :
    Rewards.step (σ R) (rewSys σ s) (.rewards (ctx σ c) (rewardsCall σ k))
      = (Rewards.step R s (.rewards c k)).map (rewSys σ) := by
  cases k <;>
    simp [Rewards.step, rewardsCall, rewSys, rew_init, rew_addUser, rew_calcBond, rew_calcUnbond, rew_distribute,
      rew_withdraw, rew_fund, rewLed]

/-! ### Factory, router and trader -/

@[simp] theorem fac_loaded (f : Option Factory.State) :
    Factory.loaded (f.map (factory σ)) = (Factory.loaded f).map (factory σ) := by cases f <;> rfl
@[simp] theorem hop_loaded (m : Option Multihop.State) :
    Multihop.loaded (m.map (multihop σ)) = (Multihop.loaded m).map (multihop σ) := by cases m <;> rfl
@[simp] theorem trd_loaded (t : Option Trader.State) :
    Trader.loaded (t.map (trader σ)) = (Trader.loaded t).map (trader σ) := by cases t <;> rfl

@[simp] theorem lookup_ren (f : Factory.State) (a b : Addr) :
    Factory.lookup (factory σ f) (σ a) (σ b) = (Factory.lookup f a b).map σ := by
  simp only [Factory.lookup, Factory.lookupReverted, factory, Equiv.symm_apply_apply]
  cases f.pair a b with
  | some _ => rfl
  | none => cases f.pair b a <;> rfl

theorem addAll_ren (w l : List Addr) : Factory.addAll (w.map σ) (l.map σ) = (Factory.addAll w l).map σ := by
  induction l generalizing w with
  | nil => rfl
  | cons a l ih =>
    simp only [List.map_cons, Factory.addAll, mem_ren]
    by_cases h : a ∈ w
    · simp only [h, if_true, ih]
    · simp only [h, if_false]
      rw [← ih, List.map_append, List.map_cons, List.map_nil]

theorem erase_ren (w : List Addr) (a : Addr) : (w.map σ).erase (σ a) = (w.erase a).map σ := by
  induction w with
  | nil => rfl
  | cons b w ih =>
    by_cases e : b = a
    · subst e; simp
    · have e' : σ b ≠ σ a := fun x => e (σ.injective x)
      rw [List.map_cons, List.erase_cons_tail (by simpa using e'), List.erase_cons_tail (by simpa using e), ih, List.map_cons]

theorem removeAll_ren (w l : List Addr) : Factory.removeAll (w.map σ) (l.map σ) = (Factory.removeAll w l).map σ := by
  induction l generalizing w with
  | nil => rfl
  | cons a l ih => rw [List.map_cons, Factory.removeAll, Factory.removeAll, ← ih, erase_ren]

theorem fac_whitelist (c : Ctx) (f : Factory.State) (s : Addr) (l m : List Addr) :
    Factory.updateWhitelist (ctx σ c) (factory σ f) (σ s) (l.map σ) (m.map σ)
      = (Factory.updateWhitelist c f s l m).map (factory σ) := by
  have h1 : (factory σ f).admin = σ f.admin := rfl
  have h2 : (factory σ f).whitelist = f.whitelist.map σ := rfl
  simp [Factory.updateWhitelist, h1, h2, addAll_ren, removeAll_ren]
  rfl

theorem fac_hashes (c : Ctx) (f : Factory.State) (l s t : Option Nat) :
    Factory.updateHashes (ctx σ c) (factory σ f) l s t = (Factory.updateHashes c f l s t).map (factory σ) := by
  have h1 : (factory σ f).admin = σ f.admin := rfl
  simp [Factory.updateHashes, h1]
  rfl

theorem fac_update (c : Ctx) (f : Factory.State) (x : Nat) :
    Factory.update (ctx σ c) (factory σ f) x = (Factory.update c f x).map (factory σ) := by
  have h1 : (factory σ f).admin = σ f.admin := rfl
  simp [Factory.update, h1]
  rfl

@[simp] theorem hop_init (m : Option Multihop.State) (a f : Addr) :
    Multihop.init (m.map (multihop σ)) (σ a) (σ f) = (Multihop.init m a f).map (multihop σ) := by
  simp [Multihop.init, multihop]

@[simp] theorem verifySwap_ren : ∀ l : List Multihop.Op, Multihop.verifySwap (l.map (hopOp σ)) = Multihop.verifySwap l
  | [] => rfl
  | [_] => rfl
  | a :: b :: l => by
    have := verifySwap_ren (b :: l)
    simp only [List.map_cons] at this
    simp only [List.map_cons, Multihop.verifySwap, this]
    simp [hopOp]

@[simp] theorem trd_init (c : Ctx) (t : Option Trader.State) (a x y o : Addr) :
    Trader.init (ctx σ c) (t.map (trader σ)) (σ a) (σ x) (σ y) (σ o) = (Trader.init c t a x y o).map (trader σ) := by
  simp [Trader.init, trader]

@[simp] theorem trd_amount (L : Ledger) (a t : Addr) (x : Option Nat) :
    Trader.amountOf (ledger σ L) (σ a) (σ t) x = Trader.amountOf L a t x := by cases x <;> simp [Trader.amountOf]

theorem trd_transfer (T : Addr) (c : Ctx) (t : Trader.State) (L : Ledger) (s r : Addr) (x : Int) (k : Option Addr) :
    Trader.transfer (σ T) (ctx σ c) (trader σ t) (ledger σ L) (σ s) (σ r) x (k.map σ)
      = (Trader.transfer T c t L s r x k).map (ledger σ) := by
  simp [Trader.transfer, trader]

/-! ### The whole ledger -/

open World

@[simp] theorem w_code (w : World) (a : Addr) : (world σ w).code (σ a) = w.code a := by simp [world]
@[simp] theorem w_led (w : World) : (world σ w).led = ledger σ w.led := rfl
@[simp] theorem w_xyk (w : World) (a : Addr) : (world σ w).xyk (σ a) = (w.xyk a).map (pool σ) := by simp [world]
@[simp] theorem w_stable (w : World) (a : Addr) : (world σ w).stable (σ a) = (w.stable a).map (stable σ) := by simp [world]
@[simp] theorem w_stake (w : World) (a : Addr) : (world σ w).stake (σ a) = stake σ (w.stake a) := by simp [world]
@[simp] theorem w_vest (w : World) (a : Addr) : (world σ w).vest (σ a) = (w.vest a).map (vest σ) := by simp [world]
@[simp] theorem w_fac (w : World) (a : Addr) : (world σ w).fac (σ a) = (w.fac a).map (factory σ) := by simp [world]
@[simp] theorem w_hop (w : World) (a : Addr) : (world σ w).hop (σ a) = (w.hop a).map (multihop σ) := by simp [world]
@[simp] theorem w_trd (w : World) (a : Addr) : (world σ w).trd (σ a) = (w.trd a).map (trader σ) := by simp [world]
@[simp] theorem w_rew (w : World) (a : Addr) : (world σ w).rew (σ a) = rewards σ (w.rew a) := by simp [world]

theorem u_code (w : World) (a : Addr) (k : Code) :
    upd (world σ w).code (σ a) k = (world σ { w with code := upd w.code a k }).code := upd_ren σ w.code a k
theorem u_xyk (w : World) (a : Addr) (p : Option Pool.State) :
    upd (world σ w).xyk (σ a) (p.map (pool σ)) = (world σ { w with xyk := upd w.xyk a p }).xyk :=
  upd_map σ (Option.map (pool σ)) w.xyk a p
theorem u_stable (w : World) (a : Addr) (p : Option Stable.State) :
    upd (world σ w).stable (σ a) (p.map (stable σ)) = (world σ { w with stable := upd w.stable a p }).stable :=
  upd_map σ (Option.map (stable σ)) w.stable a p
theorem u_stake (w : World) (a : Addr) (p : Stake.State) :
    upd (world σ w).stake (σ a) (stake σ p) = (world σ { w with stake := upd w.stake a p }).stake :=
  upd_map σ (stake σ) w.stake a p
theorem u_vest (w : World) (a : Addr) (p : Option Vesting.State) :
    upd (world σ w).vest (σ a) (p.map (vest σ)) = (world σ { w with vest := upd w.vest a p }).vest :=
  upd_map σ (Option.map (vest σ)) w.vest a p
theorem u_fac (w : World) (a : Addr) (p : Option Factory.State) :
    upd (world σ w).fac (σ a) (p.map (factory σ)) = (world σ { w with fac := upd w.fac a p }).fac :=
  upd_map σ (Option.map (factory σ)) w.fac a p
theorem u_hop (w : World) (a : Addr) (p : Option Multihop.State) :
    upd (world σ w).hop (σ a) (p.map (multihop σ)) = (world σ { w with hop := upd w.hop a p }).hop :=
  upd_map σ (Option.map (multihop σ)) w.hop a p
theorem u_trd (w : World) (a : Addr) (p : Option Trader.State) :
    upd (world σ w).trd (σ a) (p.map (trader σ)) = (world σ { w with trd := upd w.trd a p }).trd :=
  upd_map σ (Option.map (trader σ)) w.trd a p
theorem u_rew (w : World) (a : Addr) (p : Rewards.State) :
    upd (world σ w).rew (σ a) (rewards σ p) = (world σ { w with rew := upd w.rew a p }).rew :=
  upd_map σ (rewards σ) w.rew a p

@[simp] theorem expect_ren (w : World) (a : Addr) (k : Code) : expect (world σ w) (σ a) k = expect w a k := by
  simp [expect]

@[simp] theorem deploy_ren (w : World) (a : Addr) (k : Code) :
    deploy (world σ w) (σ a) k = (deploy w a k).map (world σ) := by
  simp only [deploy, w_code, map_bind, map_ok, u_code]
  rfl

theorem initXyk_ren (h : Host) (w : World) (P : Addr) (i : Info) (o : Addr) (d : Nat) (sl mf : Int)
    (ho : σ i.tokenA < σ i.tokenB ↔ i.tokenA < i.tokenB) :
    initXyk (host σ h) (world σ w) (σ P) (info σ i) (σ o) d sl mf = (initXyk h w P i o d sl mf).map (world σ) := by
  have h1 : (host σ h).shareAddr (σ P) (σ i.tokenA) (σ i.tokenB) = σ (h.shareAddr P i.tokenA i.tokenB) := by
    simp [host]
  have h2 : (host σ h).stakeAddr (σ P) = σ (h.stakeAddr P) := by simp [host]
  have h3 := pool_init σ P (w.xyk P) w.led
    { admin := i.admin, swapFeeBps := i.swapFeeBps, feeRecipient := i.feeRecipient,
      maxSlippageBps := i.maxSlippageBps, maxSpreadBps := i.maxSpreadBps, maxReferralBps := i.maxReferralBps,
      tokenA := i.tokenA, tokenB := i.tokenB, minBond := i.minBond, minReward := i.minReward,
      maxComplexity := i.maxComplexity, shareDecimals := d, defaultSlippageBps := sl,
      maxAllowedFeeBps := mf, shareToken := h.shareAddr P i.tokenA i.tokenB, stakeContract := h.stakeAddr P } ho
  simp only [poolArgs] at h3
  simp only [initXyk, h1, h2, w_xyk, w_led, info, h3, bind_map, map_bind, map_ok, deploy_ren, w_stake, stake_init, poolLed,
    u_stake]
  congr 1; funext x; congr 1; funext w1; congr 1; funext w2; congr 1; funext st; congr 1
  rw [show some (pool σ x.1) = (some x.1).map (pool σ) from rfl, u_xyk]
  rfl

theorem initStable_ren (h : Host) (w : World) (c : Ctx) (P : Addr) (i : Info) (o : Addr) (a : Nat) (mf : Int)
    (ho : σ i.tokenA < σ i.tokenB ↔ i.tokenA < i.tokenB) :
    initStable (host σ h) (world σ w) (ctx σ c) (σ P) (info σ i) (σ o) a mf
      = (initStable h w c P i o a mf).map (world σ) := by
  have h1 : (host σ h).shareAddr (σ P) (σ i.tokenA) (σ i.tokenB) = σ (h.shareAddr P i.tokenA i.tokenB) := by
    simp [host]
  have h2 : (host σ h).stakeAddr (σ P) = σ (h.stakeAddr P) := by simp [host]
  have h3 := stable_init σ P c (w.stable P) w.led
    { admin := i.admin, swapFeeBps := i.swapFeeBps, feeRecipient := i.feeRecipient,
      maxSlippageBps := i.maxSlippageBps, defaultSlippageBps := i.defaultSlippageBps,
      maxSpreadBps := i.maxSpreadBps,
      tokenA := i.tokenA, tokenB := i.tokenB, minBond := i.minBond, minReward := i.minReward,
      maxComplexity := i.maxComplexity, amp := a, maxAllowedFeeBps := mf,
      shareToken := h.shareAddr P i.tokenA i.tokenB, stakeContract := h.stakeAddr P } ho
  simp only [stableArgs] at h3
  simp only [initStable, h1, h2, w_stable, w_led, info, expect_ren, h3, bind_map, map_bind, map_ok, deploy_ren, w_stake,
    stake_init, stableLed, u_stake]
  congr 1; funext _; congr 1; funext _
  congr 1; funext x; congr 1; funext w1; congr 1; funext w2; congr 1; funext st; congr 1
  rw [show some (stable σ x.1) = (some x.1).map (stable σ) from rfl, u_stable]
  rfl

theorem facInit_ren (h : Host) (w : World) (F a : Addr) (lp stb stk tok : Nat) (wl : List Addr) (d : Nat) :
    World.facInit (host σ h) (world σ w) (σ F) (σ a) lp stb stk tok (wl.map σ) d
      = (World.facInit h w F a lp stb stk tok wl d).map (world σ) := by
  have h2 : (host σ h).hopAddr (σ F) (σ a) = σ (h.hopAddr F a) := by simp [host]
  simp only [World.facInit, w_fac, Option.isNone_map, h2, deploy_ren, List.map_eq_nil_iff, bind_map, map_bind, map_ok, w_hop,
    hop_init]
  congr 1; funext _; congr 1; funext _; congr 1; funext w1; congr 1; funext m; congr 1
  rw [show some (multihop σ m) = (some m).map (multihop σ) from rfl, u_hop]
  exact congrArg (fun z => ({ world σ w1 with hop := _, fac := z } : World)) (u_fac σ w1 F (some
    { admin := a, multihop := h.hopAddr F a, lpHash := lp, stableHash := stb, stakeHash := stk, tokenHash := tok,
      whitelist := wl, lpDecimals := d, pools := [], pair := fun _ _ => none }))

theorem initPool_ren (h : Host) (w : World) (c : Ctx) (F P : Addr) (i : Info) (d : Nat) (sl mf : Int) (a : Option Nat)
    (k : Kind) (ho : σ i.tokenA < σ i.tokenB ↔ i.tokenA < i.tokenB) :
    initPool (host σ h) (world σ w) (ctx σ c) (σ F) (σ P) (info σ i) d sl mf a k
      = (initPool h w c F P i d sl mf a k).map (world σ) := by
  cases k
  · exact initXyk_ren σ h w P i F d sl mf ho
  · exact initStable_ren σ h w (c.as F) P i F (a.getD 0) mf ho

theorem create_ren (h : Host) (w : World) (c : Ctx) (F s : Addr) (i : Info) (k : Kind) (a : Option Nat) (sl mf : Int)
    (ho : σ i.tokenA < σ i.tokenB ↔ i.tokenA < i.tokenB) :
    World.create (host σ h) (world σ w) (ctx σ c) (σ F) (σ s) (info σ i) k a sl mf
      = (World.create h w c F s i k a sl mf).map fun x => (world σ x.1, σ x.2) := by
  have h1 : (host σ h).poolAddr (σ F) (σ i.tokenA) (σ i.tokenB) = σ (h.poolAddr F i.tokenA i.tokenB) := by
    simp [host]
  have h2 : (info σ i).tokenA = σ i.tokenA := rfl
  have h3 : (info σ i).tokenB = σ i.tokenB := rfl
  have hv : validateTokenInfo (info σ i) = validateTokenInfo i := by
    simp only [validateTokenInfo, h2, h3, ho]; rfl
  have hw : ∀ f : Factory.State, (factory σ f).whitelist = f.whitelist.map σ := fun _ => rfl
  have hd : ∀ f : Factory.State, (factory σ f).lpDecimals = f.lpDecimals := fun _ => rfl
  simp only [World.create, requireAuth_ren, w_fac, fac_loaded, bind_map, map_bind, map_ok, hw, mem_ren, hv, h2, h3, h1,
    deploy_ren, initPool_ren σ _ _ _ _ _ _ _ _ _ _ _ ho, hd]
  congr 1; funext _; congr 1; funext _; congr 1; funext f; congr 1; funext _; congr 1; funext _; congr 1; funext w1
  congr 1; funext _; congr 1; funext _; congr 1; funext _; congr 1; funext _; congr 1; funext _; congr 1; funext _
  congr 1; funext w2
  congr 1
  refine Prod.ext ?_ rfl
  have hp : upd (factory σ f).pair (σ i.tokenA)
        (upd ((factory σ f).pair (σ i.tokenA)) (σ i.tokenB) (some (σ (h.poolAddr F i.tokenA i.tokenB))))
      = (factory σ { f with pair := upd f.pair i.tokenA (upd (f.pair i.tokenA) i.tokenB
          (some (h.poolAddr F i.tokenA i.tokenB))) }).pair := by
    funext x y
    simp only [upd, factory, Equiv.symm_apply_eq]
    split
    · simp only [Equiv.symm_apply_apply]
      exact congrFun (upd_map σ (Option.map σ) (f.pair i.tokenA) i.tokenB (some (h.poolAddr F i.tokenA i.tokenB))) y
    · rfl
  refine congrArg (fun z => ({ world σ w2 with fac := z } : World)) ?_
  rw [hp]
  have := u_fac σ w2 F (some { f with
    pools := f.pools ++ [h.poolAddr F i.tokenA i.tokenB]
    pair := upd f.pair i.tokenA (upd (f.pair i.tokenA) i.tokenB (some (h.poolAddr F i.tokenA i.tokenB))) })
  rw [Option.map_some] at this
  have e : ((factory σ f).pools ++ [σ (h.poolAddr F i.tokenA i.tokenB)]) = (f.pools ++ [h.poolAddr F i.tokenA i.tokenB]).map σ := by
    simp [factory]
  rw [e]
  exact this

theorem poolSwap_ren (w : World) (c : Ctx) (P s o : Addr) (x : Int) (a b : Option Int) (d : Option Nat) (e : Option Int) :
    poolSwap (world σ w) (ctx σ c) (σ P) (σ s) (σ o) x a b d e
      = (poolSwap w c P s o x a b d e).map fun y => (world σ y.1, y.2) := by
  simp only [poolSwap, w_code]
  cases hk : w.code P
  case xyk =>
    simp only [w_xyk, pool_loaded, w_led, pool_swap, bind_map, map_bind, map_ok]
    congr 1; funext p; congr 1; funext y; congr 1
    refine Prod.ext ?_ rfl
    exact congrArg (fun z => ({ world σ w with xyk := z, led := _ } : World)) (u_xyk σ w P (some y.1))
  case stable =>
    simp only [w_stable, stable_loaded, w_led, stable_swap, bind_map, map_bind, map_ok]
    congr 1; funext p; congr 1; funext y; congr 1
    refine Prod.ext ?_ rfl
    exact congrArg (fun z => ({ world σ w with stable := z, led := _ } : World)) (u_stable σ w P (some y.1))
  all_goals rfl

@[simp] theorem findPool_ren (w : World) (F a b : Addr) :
    findPool (world σ w) (σ F) (σ a) (σ b) = (findPool w F a b).map σ := by
  simp [findPool]

theorem hopLoop_ren (w : World) (c : Ctx) (F r : Addr) (sp : Option Int) (d : Option Nat) (mf : Option Int)
    (ops : List Multihop.Op) (x : Int) :
    hopLoop (world σ w) (ctx σ c) (σ F) (σ r) sp d mf (ops.map (hopOp σ)) x
      = (hopLoop w c F r sp d mf ops x).map fun y => (world σ y.1, y.2) := by
  induction ops generalizing w x with
  | nil => rfl
  | cons o ops ih =>
    have h1 : (hopOp σ o).offer = σ o.offer := rfl
    have h2 : (hopOp σ o).ask = σ o.ask := rfl
    have h3 : (hopOp σ o).min = o.min := rfl
    simp only [List.map_cons, hopLoop, h1, h2, h3, findPool_ren, poolSwap_ren, bind_map, map_bind, ih]

theorem hopSwap_ren (w : World) (c : Ctx) (H r : Addr) (ops : List Multihop.Op) (sp : Option Int) (x : Int)
    (d : Option Nat) (mf : Option Int) :
    World.hopSwap (world σ w) (ctx σ c) (σ H) (σ r) (ops.map (hopOp σ)) sp x d mf
      = (World.hopSwap w c H r ops sp x d mf).map fun y => (world σ y.1, y.2) := by
  have hf : ∀ m : Multihop.State, (multihop σ m).factory = σ m.factory := fun _ => rfl
  simp [World.hopSwap, hf, hopLoop_ren]

theorem trade_ren (w : World) (c : Ctx) (T s t p : Addr) (x : Option Nat) (sp : Option Int) (d : Option Nat)
    (mi mf : Option Int) :
    World.trade (world σ w) (ctx σ c) (σ T) (σ s) (σ t) (σ p) x sp d mi mf
      = (World.trade w c T s t p x sp d mi mf).map fun y => (world σ y.1, y.2) := by
  simp [World.trade, trader, poolSwap_ren]

theorem step_ren (h : Host) (w : World) (c : Ctx) (k : Call) (ho : KeepsOrder σ k) :
    step (host σ h) (world σ w) (ctx σ c) (call σ k) = (step h w c k).map (world σ) := by
  cases k
  case token t op =>
    simp only [step, call, expect_ren, w_led, ledger_call, bind_map, map_bind, map_ok]; rfl
  case xykInit P i o d s m =>
    simp only [step, call, expect_ren, initXyk_ren σ _ _ _ _ _ _ _ _ ho, map_bind]
  case xyk P k =>
    by_cases hk : ∃ i, k = .init i
    · obtain ⟨i, rfl⟩ := hk; rfl
    · have hk' : ∀ i, k ≠ .init i := fun i e => hk ⟨i, e⟩
      have := pool_step σ P ⟨w.xyk P, w.led⟩ c k hk'
      simp only [poolSys] at this
      have e : ∀ s : Pool.Sys, ({ world σ w with xyk := upd (world σ w).xyk (σ P) (s.pool.map (pool σ)), led := ledger σ s.led } : World)
          = world σ { w with xyk := upd w.xyk P s.pool, led := s.led } := fun s => by rw [u_xyk]; rfl
      cases k
      case init i => exact absurd rfl (hk' i)
      all_goals
        simp only [poolCall] at this
        simp only [step, call, poolCall, expect_ren, w_xyk, w_led, this, bind_map, map_bind, map_ok, poolSys, e]
  case stableInit P i o a m =>
    simp only [step, call, expect_ren, initStable_ren σ _ _ _ _ _ _ _ _ ho, map_bind]
  case stable P k =>
    by_cases hk : ∃ i, k = .init i
    · obtain ⟨i, rfl⟩ := hk; rfl
    · have hk' : ∀ i, k ≠ .init i := fun i e => hk ⟨i, e⟩
      have := stable_step σ P ⟨w.stable P, w.led⟩ c k hk'
      simp only [stableSys] at this
      have e : ∀ s : Stable.Sys,
          ({ world σ w with stable := upd (world σ w).stable (σ P) (s.pool.map (stable σ)), led := ledger σ s.led } : World)
          = world σ { w with stable := upd w.stable P s.pool, led := s.led } := fun s => by rw [u_stable]; rfl
      cases k
      case init i => exact absurd rfl (hk' i)
      all_goals
        simp only [stableCall] at this
        simp only [step, call, stableCall, expect_ren, w_stable, w_led, this, bind_map, map_bind, map_ok, stableSys, e]
  case stake K k =>
    have := stake_step σ K ⟨w.stake K, w.led⟩ c k
    simp only [stakeSys] at this
    simp only [step, call, expect_ren, w_stake, w_led, this, bind_map, map_bind, map_ok, stakeSys, u_stake]
    rfl
  case vest V k =>
    have := vest_step σ V ⟨w.vest V, w.led⟩ c k
    simp only [vestSys] at this
    have ht : ∀ v, (vest σ v).token = σ v.token := fun _ => rfl
    have e : ∀ s : Vesting.Sys, ({ world σ w with vest := upd (world σ w).vest (σ V) (s.vest.map (vest σ)), led := ledger σ s.led } : World)
        = world σ { w with vest := upd w.vest V s.vest, led := s.led } := fun s => by rw [u_vest]; rfl
    cases k <;>
      (simp only [vestCall] at this
       simp only [step, call, vestCall, expect_ren, w_vest, w_led, vest_loaded, ht, this, bind_map, map_bind, map_ok, vestSys, e])
  case facInit F a lp stb stk tok wl d =>
    simp only [step, call, expect_ren, facInit_ren, map_bind]
  case create F s i k a sl m =>
    simp only [step, call, expect_ren, create_ren σ _ _ _ _ _ _ _ _ _ _ ho, map_bind, bind_map, map_ok]
  case whitelist F s l m =>
    simp only [step, call, expect_ren, w_fac, fac_loaded, fac_whitelist, map_bind, bind_map, map_ok]
    congr 1; funext _; congr 1; funext f; congr 1; funext f'; congr 1
    exact congrArg (fun z => ({ world σ w with fac := z } : World)) (u_fac σ w F (some f'))
  case hashes F l s t =>
    simp only [step, call, expect_ren, w_fac, fac_loaded, fac_hashes, map_bind, bind_map, map_ok]
    congr 1; funext _; congr 1; funext f; congr 1; funext f'; congr 1
    exact congrArg (fun z => ({ world σ w with fac := z } : World)) (u_fac σ w F (some f'))
  case facUpdate F x =>
    simp only [step, call, expect_ren, w_fac, fac_loaded, fac_update, map_bind, bind_map, map_ok]
    congr 1; funext _; congr 1; funext f; congr 1; funext f'; congr 1
    exact congrArg (fun z => ({ world σ w with fac := z } : World)) (u_fac σ w F (some f'))
  case hopInit H a F =>
    simp only [step, call, expect_ren, w_hop, hop_init, map_bind, bind_map, map_ok]
    congr 1; funext _; congr 1; funext m; congr 1
    exact congrArg (fun z => ({ world σ w with hop := z } : World)) (u_hop σ w H (some m))
  case hopSwap H r ops sp x dl mf =>
    simp only [step, call, expect_ren, hopSwap_ren, map_bind, bind_map, map_ok]
  case trdInit T a x y o =>
    simp only [step, call, expect_ren, w_trd, trd_init, map_bind, bind_map, map_ok]
    congr 1; funext _; congr 1; funext m; congr 1
    exact congrArg (fun z => ({ world σ w with trd := z } : World)) (u_trd σ w T (some m))
  case trade T s t p x sp dl mi mf =>
    simp only [step, call, expect_ren, trade_ren, map_bind, bind_map, map_ok]
  case trdTransfer T s r x t =>
    simp only [step, call, expect_ren, w_trd, trd_loaded, w_led, trd_transfer, map_bind, bind_map, map_ok]
    rfl
  case rewards R k =>
    have := rew_step σ R ⟨w.rew R, w.led⟩ c k
    simp only [rewSys] at this
    simp only [step, call, expect_ren, w_rew, w_led, this, bind_map, map_bind, map_ok, rewSys, u_rew]
    rfl

end Phoenix.Rename
