import Verif.Lemmas.Moves
import Verif.Spec.World
import Verif.Props.PoolSys
import Verif.Props.StableSys
import Verif.Props.Stake
/-! The invariant of the whole protocol (helpers only). -/
namespace Phoenix.World
open Phoenix Phoenix.World.Spec
open Phoenix.Moves (By)

/-- Invariants of whatever contract is at `a`. -/
structure At (L : Ledger) (x : Option Pool.State) (s : Option Stable.State) (k : Stake.State)
    (v : Option Vesting.State) (r : Rewards.State) (a : Addr) : Prop where
  xyk : Pool.SysInv a ⟨x, L⟩
  stable : Stable.SysInv a ⟨s, L⟩
  stake : Stake.InvA a ⟨k, L⟩
  vest : Vesting.SysInv a ⟨v, L⟩
  rew : Rewards.Inv a ⟨r, L⟩

abbrev AtW (w : World) (a : Addr) : Prop := At w.led (w.xyk a) (w.stable a) (w.stake a) (w.vest a) (w.rew a) a

theorem pool_none {a : Addr} {L : Ledger} (h : LedInv a L) : Pool.SysInv a ⟨none, L⟩ := ⟨h, fun _ k => by simp at k⟩
theorem stable_none {a : Addr} {L : Ledger} (h : LedInv a L) : Stable.SysInv a ⟨none, L⟩ := ⟨h, fun _ k => by simp at k⟩
theorem vest_none {a : Addr} {L : Ledger} (h : LedInv a L) : Vesting.SysInv a ⟨none, L⟩ :=
  ⟨h, fun _ k => by simp at k, fun _ k => by simp at k⟩
theorem stake_fresh {a : Addr} {L : Ledger} (h : LedInv a L) : Stake.InvA a ⟨Stake.fresh, L⟩ :=
  Stake.genesis_invA ⟨rfl, h.nonneg, h.noAllow⟩
theorem rew_fresh {a : Addr} {L : Ledger} (h : LedInv a L) : Rewards.Inv a ⟨Rewards.fresh, L⟩ :=
  Rewards.genesis_inv ⟨rfl, h.nonneg, h.noAllow⟩

theorem At.led {L : Ledger} {x : Option Pool.State} {s : Option Stable.State} {k : Stake.State}
    {v : Option Vesting.State} {r : Rewards.State} {a : Addr} (h : At L x s k v r a) : LedInv a L := h.xyk.led

/-- States and ledger. -/
structure Core (acct : Accounts) (w : World) : Prop where
  contracts : ∀ a, w.code a ≠ .none → ¬ acct a
  blank : ∀ t, w.code t = .none → ∀ a, w.led.bal t a = 0
  typed : ∀ t a, w.led.bal t a ≤ I128_MAX
  at_ : ∀ a, ¬ acct a → AtW w a

/-- A step in which only the contracts in `act` change their state. -/
theorem Core.acts {acct : Accounts} {w w' : World} (h : Core acct w) (act : Addr → Prop)
    (hc : w'.code = w.code)
    (hs : ∀ a, ¬ act a → w'.xyk a = w.xyk a ∧ w'.stable a = w.stable a ∧ w'.stake a = w.stake a ∧
      w'.vest a = w.vest a ∧ w'.rew a = w.rew a)
    (m : Moves (fun a => acct a ∨ act a) (fun t => w.code t ≠ .none) w.led w'.led)
    (ha : ∀ a, act a → ¬ acct a → AtW w' a) : Core acct w' := by
  refine ⟨fun a => ?_, fun t ht => ?_, m.typed h.typed, fun a hna => ?_⟩
  · rw [hc]; exact h.contracts a
  · rw [hc] at ht
    exact m.blank t (by simp [ht]) (h.blank t ht)
  · by_cases k : act a
    · exact ha a k hna
    · obtain ⟨e1, e2, e3, e4, e5⟩ := hs a k
      have hn : ¬ (acct a ∨ act a) := by simp [hna, k]
      have := h.at_ a hna
      unfold AtW
      rw [e1, e2, e3, e4, e5]
      exact ⟨m.pool hn this.xyk, m.stable hn this.stable, m.stake hn this.stake, m.vest hn this.vest, m.rew hn this.rew⟩

/-! ### Which contract is where -/

/-- The addresses in a pool's configuration. -/
def SameRefs (p q : Pool.State) : Prop :=
  q.cfg.tokenA = p.cfg.tokenA ∧ q.cfg.tokenB = p.cfg.tokenB ∧ q.cfg.shareToken = p.cfg.shareToken ∧
  q.cfg.stakeContract = p.cfg.stakeContract
def SameRefsS (p q : Stable.State) : Prop :=
  q.cfg.tokenA = p.cfg.tokenA ∧ q.cfg.tokenB = p.cfg.tokenB ∧ q.cfg.shareToken = p.cfg.shareToken ∧
  q.cfg.stakeContract = p.cfg.stakeContract

/-- Nothing is forgotten. -/
structure Grows (w w' : World) : Prop where
  code : ∀ a, w.code a ≠ .none → w'.code a = w.code a
  xyk : ∀ P p, w.xyk P = some p → ∃ q, w'.xyk P = some q ∧ SameRefs p q
  stable : ∀ P p, w.stable P = some p → ∃ q, w'.stable P = some q ∧ SameRefsS p q
  stake : ∀ K cfg, (w.stake K).cfg = some cfg → (w'.stake K).cfg = some cfg
  vest : ∀ V v, w.vest V = some v → ∃ u, w'.vest V = some u
  fac : ∀ F f, w.fac F = some f → ∃ g, w'.fac F = some g ∧ g.admin = f.admin ∧ g.multihop = f.multihop ∧
    (∀ a b P, f.pair a b = some P → g.pair a b = some P) ∧ f.pools <+: g.pools
  hop : ∀ H m, w.hop H = some m → w'.hop H = some m
  trd : ∀ T t, w.trd T = some t → w'.trd T = some t
  rew : ∀ R cfg, (w.rew R).cfg = some cfg → (w'.rew R).cfg = some cfg ∧ (w'.rew R).admin = (w.rew R).admin

theorem Grows.refl (w : World) : Grows w w :=
  ⟨fun _ _ => rfl, fun _ p h => ⟨p, h, rfl, rfl, rfl, rfl⟩, fun _ p h => ⟨p, h, rfl, rfl, rfl, rfl⟩, fun _ _ h => h,
    fun _ v h => ⟨v, h⟩, fun _ f h => ⟨f, h, rfl, rfl, fun _ _ _ k => k, List.prefix_refl _⟩, fun _ _ h => h, fun _ _ h => h,
    fun _ _ h => ⟨h, rfl⟩⟩

theorem Grows.trans {u v w : World} (h : Grows u v) (k : Grows v w) : Grows u w := by
  refine ⟨fun a ha => ?_, fun P p hp => ?_, fun P p hp => ?_, fun K c hc => k.stake K c (h.stake K c hc), fun V v hv => ?_,
    fun F f hf => ?_, fun H m hm => k.hop H m (h.hop H m hm), fun T t ht => k.trd T t (h.trd T t ht),
    fun R c hc => ⟨(k.rew R c (h.rew R c hc).1).1, (k.rew R c (h.rew R c hc).1).2.trans (h.rew R c hc).2⟩⟩
  · have e := h.code a ha
    rw [← e]; exact k.code a (by rw [e]; exact ha)
  · obtain ⟨q, hq, a1, a2, a3, a4⟩ := h.xyk P p hp
    obtain ⟨r, hr, b1, b2, b3, b4⟩ := k.xyk P q hq
    exact ⟨r, hr, b1.trans a1, b2.trans a2, b3.trans a3, b4.trans a4⟩
  · obtain ⟨q, hq, a1, a2, a3, a4⟩ := h.stable P p hp
    obtain ⟨r, hr, b1, b2, b3, b4⟩ := k.stable P q hq
    exact ⟨r, hr, b1.trans a1, b2.trans a2, b3.trans a3, b4.trans a4⟩
  · obtain ⟨u, hu⟩ := h.vest V v hv
    exact k.vest V u hu
  · obtain ⟨g, hg, a1, a2, a3, a4⟩ := h.fac F f hf
    obtain ⟨r, hr, b1, b2, b3, b4⟩ := k.fac F g hg
    exact ⟨r, hr, b1.trans a1, b2.trans a2, fun a b P e => b3 a b P (a3 a b P e), a4.trans b4⟩

/-- A stake contract at `K` for the token `t`. -/
def StakeFor (w : World) (K t : Addr) : Prop :=
  w.code K = .stake ∧ ∃ cfg, (w.stake K).cfg = some cfg ∧ cfg.lpToken = t

def OkXyk (w : World) (P : Addr) (p : Pool.State) : Prop :=
  w.code P = .xyk ∧ w.code p.cfg.shareToken = .token ∧ StakeFor w p.cfg.stakeContract p.cfg.shareToken

def OkStable (w : World) (P : Addr) (p : Stable.State) : Prop :=
  w.code P = .stable ∧ w.code p.cfg.shareToken = .token ∧ StakeFor w p.cfg.stakeContract p.cfg.shareToken ∧
  w.code p.cfg.tokenA = .token ∧ w.code p.cfg.tokenB = .token

/-- The registry of a factory. -/
structure FacOK (h : Host) (w : World) (F : Addr) (f : Factory.State) : Prop where
  code : w.code F = .factory
  hop : w.code f.multihop = .multihop ∧ w.hop f.multihop = some ⟨f.admin, F⟩
  pair : ∀ a b P, f.pair a b = some P → a < b ∧ P = h.poolAddr F a b ∧ PoolFor w P a b ∧ P ∈ f.pools
  pools : ∀ P ∈ f.pools, ∃ a b, f.pair a b = some P
  nodup : f.pools.Nodup

theorem code_keep {w w' : World} (g : Grows w w') {a : Addr} {k : Code} (h : w.code a = k) (hk : k ≠ .none) :
    w'.code a = k := by rw [g.code a (by rw [h]; exact hk), h]

theorem StakeFor.grows {w w' : World} (g : Grows w w') {K t : Addr} (h : StakeFor w K t) : StakeFor w' K t := by
  obtain ⟨h1, c, h2, h3⟩ := h
  exact ⟨code_keep g h1 (by simp), c, g.stake K c h2, h3⟩

theorem OkXyk.grows {w w' : World} (g : Grows w w') {P : Addr} {p q : Pool.State} (h : OkXyk w P p) (e : SameRefs p q) :
    OkXyk w' P q := by
  obtain ⟨h1, h2, h3⟩ := h
  obtain ⟨-, -, e3, e4⟩ := e
  unfold OkXyk
  rw [e3, e4]
  exact ⟨code_keep g h1 (by simp), code_keep g h2 (by simp), h3.grows g⟩

theorem OkStable.grows {w w' : World} (g : Grows w w') {P : Addr} {p q : Stable.State} (h : OkStable w P p)
    (e : SameRefsS p q) : OkStable w' P q := by
  obtain ⟨h1, h2, h3, h4, h5⟩ := h
  obtain ⟨e1, e2, e3, e4⟩ := e
  unfold OkStable
  rw [e1, e2, e3, e4]
  exact ⟨code_keep g h1 (by simp), code_keep g h2 (by simp), h3.grows g, code_keep g h4 (by simp), code_keep g h5 (by simp)⟩

theorem poolFor_grows {w w' : World} (g : Grows w w') {P a b : Addr} (h : PoolFor w P a b) : PoolFor w' P a b := by
  rcases h with ⟨h1, p, h2, h3, h4⟩ | ⟨h1, p, h2, h3, h4⟩
  · obtain ⟨q, hq, e1, e2, -⟩ := g.xyk P p h2
    exact .inl ⟨code_keep g h1 (by simp), q, hq, e1.trans h3, e2.trans h4⟩
  · obtain ⟨q, hq, e1, e2, -⟩ := g.stable P p h2
    exact .inr ⟨code_keep g h1 (by simp), q, hq, e1.trans h3, e2.trans h4⟩

theorem FacOK.grows {h : Host} {w w' : World} (g : Grows w w') {F : Addr} {f f' : Factory.State} (k : FacOK h w F f)
    (ea : f'.admin = f.admin) (em : f'.multihop = f.multihop) (e1 : f'.pair = f.pair) (e2 : f'.pools = f.pools) :
    FacOK h w' F f' := by
  refine ⟨code_keep g k.code (by simp), ?_, fun a b P hp => ?_, fun P hP => ?_, by rw [e2]; exact k.nodup⟩
  · rw [ea, em]; exact ⟨code_keep g k.hop.1 (by simp), g.hop _ _ k.hop.2⟩
  · rw [e1] at hp
    obtain ⟨a1, a2, a3, a4⟩ := k.pair a b P hp
    exact ⟨a1, a2, poolFor_grows g a3, by rw [e2]; exact a4⟩
  · rw [e2] at hP; rw [e1]; exact k.pools P hP

structure Refs (h : Host) (w : World) : Prop where
  xyk : ∀ P p, w.xyk P = some p → OkXyk w P p
  stable : ∀ P p, w.stable P = some p → OkStable w P p
  stake : ∀ K, w.code K ≠ .stake → w.stake K = Stake.fresh
  vest : ∀ V v, w.vest V = some v → w.code V = .vesting
  fac : ∀ F f, w.fac F = some f → FacOK h w F f
  hop : ∀ H m, w.hop H = some m → w.code H = .multihop
  trd : ∀ T t, w.trd T = some t → w.code T = .trader
  rew : ∀ R, w.code R ≠ .rewards → w.rew R = Rewards.fresh

/-- The old entries of a grown world are fine; only the new ones are to be checked. -/
theorem Refs.grows {h : Host} {w w' : World} (r : Refs h w) (g : Grows w w')
    (n1 : ∀ P q, w'.xyk P = some q → w.xyk P = none → OkXyk w' P q)
    (n2 : ∀ P q, w'.stable P = some q → w.stable P = none → OkStable w' P q)
    (n3 : ∀ K, w'.stake K = w.stake K ∨ w'.code K = .stake)
    (n4 : ∀ V v, w'.vest V = some v → w.vest V = none → w'.code V = .vesting)
    (n5 : ∀ F f', w'.fac F = some f' → (∃ f, w.fac F = some f ∧ f'.admin = f.admin ∧ f'.multihop = f.multihop ∧
      f'.pair = f.pair ∧ f'.pools = f.pools) ∨ FacOK h w' F f')
    (n6 : ∀ H m, w'.hop H = some m → w.hop H = none → w'.code H = .multihop)
    (n7 : ∀ T t, w'.trd T = some t → w.trd T = none → w'.code T = .trader)
    (n8 : ∀ R, w'.rew R = w.rew R ∨ w'.code R = .rewards := by exact fun _ => .inl rfl) : Refs h w' := by
  refine ⟨fun P q hq => ?_, fun P q hq => ?_, fun K hK => ?_, fun V v hv => ?_, fun F f' hf => ?_, fun H m hm => ?_,
    fun T t ht => ?_, fun R hR => ?_⟩
  · cases hp : w.xyk P with
    | none => exact n1 P q hq hp
    | some p =>
      obtain ⟨q', hq', e⟩ := g.xyk P p hp
      rw [hq] at hq'; cases hq'
      exact (r.xyk P p hp).grows g e
  · cases hp : w.stable P with
    | none => exact n2 P q hq hp
    | some p =>
      obtain ⟨q', hq', e⟩ := g.stable P p hp
      rw [hq] at hq'; cases hq'
      exact (r.stable P p hp).grows g e
  · rcases n3 K with e | e
    · rw [e]; apply r.stake
      intro k; exact hK (code_keep g k (by simp))
    · exact absurd e hK
  · cases hp : w.vest V with
    | none => exact n4 V v hv hp
    | some p => exact code_keep g (r.vest V p hp) (by simp)
  · rcases n5 F f' hf with ⟨f, h1, h2, h3, h4, h5⟩ | k
    · exact (r.fac F f h1).grows g h2 h3 h4 h5
    · exact k
  · cases hp : w.hop H with
    | none => exact n6 H m hm hp
    | some p => exact code_keep g (r.hop H p hp) (by simp)
  · cases hp : w.trd T with
    | none => exact n7 T t ht hp
    | some p => exact code_keep g (r.trd T p hp) (by simp)
  · rcases n8 R with e | e
    · rw [e]; apply r.rew
      intro k; exact hR (code_keep g k (by simp))
    · exact absurd e hR

/-- The invariant. -/
structure Inv (h : Host) (acct : Accounts) (w : World) : Prop where
  core : Core acct w
  refs : Refs h w

theorem genesis_inv {h : Host} {acct : Accounts} {w : World} (g : Genesis acct w) : Inv h acct w := by
  refine ⟨⟨g.contracts, g.blank, fun t a => (g.range t a).2, fun a ha => ?_⟩, ?_⟩
  · have L : LedInv a w.led := ⟨fun t a => (g.range t a).1, g.noAllow a ha⟩
    unfold AtW
    rw [g.xyk, g.stable, g.stake, g.vest, g.rew]
    exact ⟨pool_none L, stable_none L, stake_fresh L, vest_none L, rew_fresh L⟩
  · refine ⟨?_, ?_, fun K _ => g.stake K, ?_, ?_, ?_, ?_, fun R _ => g.rew R⟩
    · intro P p k; rw [g.xyk] at k; simp at k
    · intro P p k; rw [g.stable] at k; simp at k
    · intro P p k; rw [g.vest] at k; simp at k
    · intro P p k; rw [g.fac] at k; simp at k
    · intro P p k; rw [g.hop] at k; simp at k
    · intro P p k; rw [g.trd] at k; simp at k

end Phoenix.World
