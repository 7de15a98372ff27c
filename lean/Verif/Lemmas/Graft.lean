import Verif.Model.World
import Verif.Lemmas.Rename
/-! Every contract does the same whatever is recorded, besides balances, about tokens it does not call for minting
(helpers only). -/
namespace Phoenix.Graft
open Rename (map_ok map_error bind_map map_bind map_ite)

/-- The ledger with other records, but the same balances, for some tokens. -/
def graft (M : Addr → Option Token) (L : Ledger) : Ledger := fun t =>
  match M t with
  | none => L t
  | some r => { r with bal := (L t).bal }

@[local simp] theorem pure_bind' {α β : Type} (a : α) (f : α → Res β) : ((Except.ok a : Res α) >>= f) = f a := rfl

variable {M : Addr → Option Token}

@[simp] theorem graft_bal (L : Ledger) (t a : Addr) : (graft M L).bal t a = L.bal t a := by
  unfold Ledger.bal graft; split <;> rfl

theorem graft_at (L : Ledger) {t : Addr} (h : M t = none) : graft M L t = L t := by unfold graft; rw [h]

theorem graft_upd (L : Ledger) {s : Addr} (h : M s = none) (t : Token) : upd (graft M L) s t = graft M (upd L s t) := by
  funext u
  by_cases e : u = s
  · subst e; rw [upd_same, graft_at _ h, upd_same]
  · simp only [graft, upd_ne _ _ e]

theorem graft_none (L : Ledger) : graft (fun _ => none) L = L := rfl

theorem call_graft (L : Ledger) {tok : Addr} (h : M tok = none) (c : Ctx) (op : TokenOp) :
    (graft M L).call c tok op = (L.call c tok op).map (graft M) := by
  unfold Ledger.call
  rw [graft_at L h]
  cases (L tok).call c op with
  | error e => rfl
  | ok t => exact congrArg Except.ok (graft_upd L h t)

theorem some_upd (L : Ledger) {tok : Addr} {r : Token} (h : M tok = some r) (t : Token) :
    upd (graft M L) tok { r with bal := t.bal } = graft M (upd L tok t) := by
  funext u
  by_cases e : u = tok
  · subst e; simp only [upd_same, graft, h]
  · simp only [graft, upd_ne _ _ e]

@[simp] theorem transfer_graft (L : Ledger) (c : Ctx) (tok s d : Addr) (x : Int) :
    (graft M L).transfer c tok s d x = (L.transfer c tok s d x).map (graft M) := by
  cases h : M tok with
  | none => exact call_graft L h c _
  | some r =>
    unfold Ledger.transfer Ledger.call
    have e : (graft M L tok).call c (.transfer s d x) = ((L tok).call c (.transfer s d x)).map (fun t => { r with bal := t.bal }) := by
      have : graft M L tok = { r with bal := (L tok).bal } := by simp only [graft, h]
      rw [this]
      simp only [Token.call, Token.transfer, Token.spend, Token.receive, map_bind]
      simp
    rw [e]
    cases (L tok).call c (.transfer s d x) with
    | error e => rfl
    | ok t => exact congrArg Except.ok (some_upd L h t)

@[simp] theorem burn_graft (L : Ledger) (c : Ctx) (tok s : Addr) (x : Int) :
    (graft M L).burn c tok s x = (L.burn c tok s x).map (graft M) := by
  cases h : M tok with
  | none => exact call_graft L h c _
  | some r =>
    unfold Ledger.burn Ledger.call
    have e : (graft M L tok).call c (.burn s x) = ((L tok).call c (.burn s x)).map (fun t => { r with bal := t.bal }) := by
      have : graft M L tok = { r with bal := (L tok).bal } := by simp only [graft, h]
      rw [this]
      simp only [Token.call, Token.burn, Token.spend, map_bind]
      simp
    rw [e]
    cases (L tok).call c (.burn s x) with
    | error e => rfl
    | ok t => exact congrArg Except.ok (some_upd L h t)

theorem mint_graft (L : Ledger) {tok : Addr} (h : M tok = none) (c : Ctx) (d : Addr) (x : Int) :
    (graft M L).mint c tok d x = (L.mint c tok d x).map (graft M) := call_graft L h c _

theorem bind_congr_ok {α β : Type} {x : Res α} {f g : α → Res β} (h : ∀ a, x = .ok a → f a = g a) : (x >>= f) = (x >>= g) := by
  cases x with
  | error e => rfl
  | ok a => exact h a rfl

variable (M)
/-- state and tokens -/
def led2 {σ : Type} (x : σ × Ledger) : σ × Ledger := (x.1, graft M x.2)
variable {M}

/-! ### Stake -/

theorem payLoop (me : Addr) (c : Ctx) (s : Stake.State) (a : Addr) (l : List Addr) (L : Ledger) :
    Stake.payLoop me c s a l (graft M L) = (Stake.payLoop me c s a l L).map (graft M) := by
  induction l generalizing L with
  | nil => rfl
  | cons t l ih => simp [Stake.payLoop, ih]

def stakeSys (M : Addr → Option Token) (s : Stake.Sys) : Stake.Sys := ⟨s.st, graft M s.led⟩

theorem stake_step (me : Addr) (s : Stake.Sys) (c : Ctx) (k : Stake.Call) :
    Stake.step me (stakeSys M s) (.stake c k) = (Stake.step me s (.stake c k)).map (stakeSys M) := by
  cases k <;> simp [Stake.step, stakeSys, Stake.bond, Stake.unbond, Stake.distribute, Stake.withdraw, payLoop]
  rfl

/-! ### Vesting -/

def vestSys (M : Addr → Option Token) (s : Vesting.Sys) : Vesting.Sys := ⟨s.vest, graft M s.led⟩

theorem vest_step (me : Addr) (s : Vesting.Sys) (c : Ctx) (k : Vesting.Call)
    (hl : (∃ a x, k = .mint a x) → ∀ v, s.vest = some v → M v.token = none) :
    Vesting.step me (vestSys M s) (.vest c k) = (Vesting.step me s (.vest c k)).map (vestSys M) := by
  cases k with
  | mint a x =>
    have hl := hl ⟨a, x, rfl⟩
    obtain ⟨v, L⟩ := s
    cases v with
    | none => rfl
    | some v =>
      have := hl v rfl
      simp [Vesting.step, vestSys, Vesting.mint, Vesting.loaded, mint_graft _ this]
  | _ => simp [Vesting.step, vestSys, Vesting.create, Vesting.claim, Vesting.burn]

/-! ### Rewards -/

def rewSys (M : Addr → Option Token) (s : Rewards.Sys) : Rewards.Sys := ⟨s.st, graft M s.led⟩

theorem rew_withdraw (me : Addr) (c : Ctx) (s : Rewards.State) (L : Ledger) (u : Addr) (i : Stake.Info) :
    Rewards.withdraw me c s (graft M L) u i = (Rewards.withdraw me c s L u i).map (led2 M) := by
  simp [Rewards.withdraw, led2]

theorem rew_withdrawIfAny (me : Addr) (c : Ctx) (s : Rewards.State) (L : Ledger) (u : Addr) (i : Stake.Info) :
    Rewards.withdrawIfAny me c s (graft M L) u i = (Rewards.withdrawIfAny me c s L u i).map (led2 M) := by
  simp [Rewards.withdrawIfAny, rew_withdraw, led2]

@[simp] theorem rew_unlocked (me : Addr) (c : Ctx) (cfg : Rewards.Config) (s : Rewards.State) (L : Ledger) :
    Rewards.unlocked me c cfg s (graft M L) = Rewards.unlocked me c cfg s L := by
  simp [Rewards.unlocked]

theorem rew_step (me : Addr) (s : Rewards.Sys) (c : Ctx) (k : Rewards.Call) :
    Rewards.step me (rewSys M s) (.rewards c k) = (Rewards.step me s (.rewards c k)).map (rewSys M) := by
  cases k <;> simp [Rewards.step, rewSys, Rewards.calcUnbond, Rewards.distribute, Rewards.fund, rew_withdraw, rew_withdrawIfAny, led2]

/-! ### Constant product pools -/

def poolSys (M : Addr → Option Token) (s : Pool.Sys) : Pool.Sys := ⟨s.pool, graft M s.led⟩

theorem pool_mintShares (me : Addr) (c : Ctx) (p : Pool.State) (L : Ledger) (d : Addr) (x : Int) (h : M p.cfg.shareToken = none) :
    Pool.mintShares me c p (graft M L) d x = (Pool.mintShares me c p L d x).map (led2 M) := by
  simp [Pool.mintShares, mint_graft _ h, led2]

theorem pool_burnShares (me : Addr) (c : Ctx) (p : Pool.State) (L : Ledger) (x : Int) :
    Pool.burnShares me c p (graft M L) x = (Pool.burnShares me c p L x).map (led2 M) := by
  simp [Pool.burnShares, led2]

theorem mintShares_cfg {me : Addr} {c : Ctx} {p : Pool.State} {L : Ledger} {d : Addr} {x : Int} {r : Pool.State × Ledger}
    (h : Pool.mintShares me c p L d x = .ok r) : r.1.cfg = p.cfg := by
  simp only [Pool.mintShares, bind_ok, ok_inj] at h
  obtain ⟨_, _, _, _, rfl⟩ := h; rfl

theorem newShares_cfg {me : Addr} {c : Ctx} {p : Pool.State} {L : Ledger} {a b x y : Int} {r : Int × Pool.State × Ledger}
    (h : Pool.newShares me c p L a b x y = .ok r) : r.2.1.cfg = p.cfg := by
  unfold Pool.newShares at h
  split at h
  · simp only [bind_ok, ok_inj] at h
    obtain ⟨_, _, _, _, _, _, _, _, rfl⟩ := h; rfl
  · simp only [bind_ok, ok_inj, Prod.exists] at h
    obtain ⟨_, _, _, _, _, _, p1, L1, h1, _, _, rfl⟩ := h
    exact mintShares_cfg h1

theorem pool_newShares (me : Addr) (c : Ctx) (p : Pool.State) (L : Ledger) (a b x y : Int) (h : M p.cfg.shareToken = none) :
    Pool.newShares me c p (graft M L) a b x y = (Pool.newShares me c p L a b x y).map (fun r => (r.1, led2 M r.2)) := by
  unfold Pool.newShares
  split <;> simp [pool_mintShares _ _ _ _ _ _ h, led2]

theorem pool_provide (me : Addr) (c : Ctx) (p : Pool.State) (L : Ledger) (s : Addr) (x1 x2 x3 x4 x5 : Option Int)
    (dl : Option Nat) (h : M p.cfg.shareToken = none) :
    Pool.provide me c p (graft M L) s x1 x2 x3 x4 x5 dl = (Pool.provide me c p L s x1 x2 x3 x4 x5 dl).map (led2 M) := by
  simp only [Pool.provide, transfer_graft, graft_bal, map_bind, bind_map, pool_newShares _ _ _ _ _ _ _ _ h]
  refine bind_congr_ok fun _ _ => bind_congr_ok fun _ _ => bind_congr_ok fun _ _ => bind_congr_ok fun _ _ =>
    bind_congr_ok fun _ _ => bind_congr_ok fun _ _ => bind_congr_ok fun _ _ => bind_congr_ok fun _ _ =>
    bind_congr_ok fun _ _ => bind_congr_ok fun _ _ => bind_congr_ok fun _ _ => bind_congr_ok fun _ _ =>
    bind_congr_ok fun r hr => ?_
  have e := newShares_cfg hr
  obtain ⟨n, p1, L3⟩ := r
  simp only at e
  simp only [led2, pool_mintShares me c p1 L3 s _ (by rw [e]; exact h), bind_map]
  rfl

theorem pool_step (me : Addr) (s : Pool.Sys) (c : Ctx) (k : Pool.Call) (h : ∀ p, s.pool = some p → M p.cfg.shareToken = none)
    (hi : ∀ i, k = .init i → M i.shareToken = none) :
    Pool.step me (poolSys M s) (.pool c k) = (Pool.step me s (.pool c k)).map (poolSys M) := by
  obtain ⟨p, L⟩ := s
  cases k with
  | init i =>
    have := hi i rfl
    simp [Pool.step, poolSys, Pool.init, graft_upd _ this]
  | provide =>
    cases p with
    | none => rfl
    | some p => simp [Pool.step, poolSys, Pool.loaded, pool_provide _ _ _ _ _ _ _ _ _ _ _ (h p rfl), led2]
  | _ => simp [Pool.step, poolSys, Pool.swap, Pool.doSwap, Pool.withdraw, pool_burnShares, led2]

/-! ### Stable pools -/

def stableSys (M : Addr → Option Token) (s : Stable.Sys) : Stable.Sys := ⟨s.pool, graft M s.led⟩

theorem stable_mintShares (me : Addr) (c : Ctx) (p : Stable.State) (L : Ledger) (d : Addr) (x : Int) (h : M p.cfg.shareToken = none) :
    Stable.mintShares me c p (graft M L) d x = (Stable.mintShares me c p L d x).map (led2 M) := by
  simp [Stable.mintShares, mint_graft _ h, led2]

theorem stable_burnShares (me : Addr) (c : Ctx) (p : Stable.State) (L : Ledger) (x : Int) :
    Stable.burnShares me c p (graft M L) x = (Stable.burnShares me c p L x).map (led2 M) := by
  simp [Stable.burnShares, led2]

theorem stable_provide (me : Addr) (c : Ctx) (p : Stable.State) (L : Ledger) (s : Addr) (x y : Int) (x1 : Option Int)
    (dl m : Option Nat) (h : M p.cfg.shareToken = none) (hA : M p.cfg.tokenA = none) (hB : M p.cfg.tokenB = none) :
    Stable.provide me c p (graft M L) s x y x1 dl m = (Stable.provide me c p L s x y x1 dl m).map (led2 M) := by
  simp [Stable.provide, stable_mintShares _ _ _ _ _ _ h, graft_at _ hA, graft_at _ hB, led2]

theorem stable_step (me : Addr) (s : Stable.Sys) (c : Ctx) (k : Stable.Call)
    (h : ∀ p, s.pool = some p → M p.cfg.shareToken = none ∧ M p.cfg.tokenA = none ∧ M p.cfg.tokenB = none)
    (hi : ∀ i, k = .init i → M i.shareToken = none ∧ M i.tokenA = none ∧ M i.tokenB = none) :
    Stable.step me (stableSys M s) (.pool c k) = (Stable.step me s (.pool c k)).map (stableSys M) := by
  obtain ⟨p, L⟩ := s
  cases k with
  | init i =>
    obtain ⟨h1, h2, h3⟩ := hi i rfl
    simp [Stable.step, stableSys, Stable.init, graft_upd _ h1, graft_at _ h2, graft_at _ h3]
  | provide =>
    cases p with
    | none => rfl
    | some p =>
      obtain ⟨h1, h2, h3⟩ := h p rfl
      simp [Stable.step, stableSys, Stable.loaded, stable_provide _ _ _ _ _ _ _ _ _ _ h1 h2 h3, led2]
  | _ => simp [Stable.step, stableSys, Stable.swap, Stable.doSwap, Stable.withdraw, stable_burnShares, led2]

end Phoenix.Graft
