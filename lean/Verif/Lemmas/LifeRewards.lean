import Verif.Spec.LifeRewards
import Verif.Lemmas.Life
/-! The rewards contract against its storage and against the lifetimes. -/
namespace Phoenix.Life.Rewards
open Phoenix Phoenix.Store Phoenix.Life Phoenix.Life.Spec
open Phoenix.Rewards (State Config Dist Adj)
open Phoenix.Stake (Info Entry)
open Phoenix.Ttl (Net)

theorem curveOf_eq (t : Addr) : curveOf t = kCurve t := rfl
theorem totalsOf_eq (t : Addr) : totalsOf t = kDist t := rfl
theorem userOf_eq (t u : Addr) : userOf t u = kAdj u t := rfl

theorem kAdj_inj {u u' t t' : Addr} : kAdj u t = kAdj u' t' ↔ u = u' ∧ t = t' := by
  unfold kAdj
  constructor
  · intro h
    injection h with _ h
    injection h with h _
    injection h with _ h1 h2
    injection h1 with h1
    injection h2 with _ h2 _
    injection h2 with h2
    exact ⟨h2, h1⟩
  · rintro ⟨rfl, rfl⟩; rfl

section reads
variable {σ : Store} {s : State} {cfg : Config}

theorem Main.getConfig (h : Main σ s cfg) : plain getConfig σ = .ok (cfg, σ) := by
  refine (reads_fetch_keep kConfig asRewardsConfig .panic σ).trans ?_
  have e : load σ .pers kConfig asRewardsConfig .panic = .ok cfg := load_of h.config rfl
  simp only [e]; rfl
theorem Main.getAdmin (h : Main σ s cfg) : plain getAdmin σ = .ok (s.admin, σ) := by
  refine (reads_fetch_keep kAdmin asAddr .panic σ).trans ?_
  have e : load σ .pers kAdmin asAddr .panic = .ok s.admin := load_of h.admin rfl
  simp only [e]; rfl
theorem Main.getDist (h : Main σ s cfg) : plain (getDist cfg.token) σ = .ok (s.dist, σ) := by
  refine (plain_fetch .pers (kDist cfg.token) asRewardDist .panic σ).trans ?_
  have e : load σ .pers (kDist cfg.token) asRewardDist .panic = .ok s.dist := load_of h.dist rfl
  simp only [Place.dur, e]; rfl
theorem Main.getCurve (h : Main σ s cfg) : plain (getCurve cfg.token) σ = .ok (s.curve, σ) := by
  refine (plain_fetch .pers (kCurve cfg.token) asCurve .panic σ).trans ?_
  have e : load σ .pers (kCurve cfg.token) asCurve .panic = .ok s.curve := load_of h.curve rfl
  simp only [Place.dur, e]; rfl
theorem Main.getAdj (h : Main σ s cfg) (u : Addr) : plain (getAdj u cfg.token) σ = .ok (s.adj u, σ) := by
  refine (plain_fetchOr .pers (kAdj u cfg.token) asAdj ⟨0, 0⟩ σ).trans ?_
  have e : loadOr σ .pers (kAdj u cfg.token) asAdj ⟨0, 0⟩ = .ok (s.adj u) := by
    rcases h.users u with h1 | ⟨h1, h2⟩
    · exact loadOr_of h1 rfl
    · rw [h2]
      exact loadOr_none h1
  simp only [Place.dur, e]; rfl

theorem getConfig_blank (h : Blank σ) : plain getConfig σ = .error .panic := by
  refine (reads_fetch_keep kConfig asRewardsConfig .panic σ).trans ?_
  have e : load σ .pers kConfig asRewardsConfig .panic = .error .panic := load_none (h _ _)
  simp only [e]; rfl
theorem getAdmin_blank (h : Blank σ) : plain getAdmin σ = .error .panic := by
  refine (reads_fetch_keep kAdmin asAddr .panic σ).trans ?_
  have e : load σ .pers kAdmin asAddr .panic = .error .panic := load_none (h _ _)
  simp only [e]; rfl

theorem Main.saveDist (h : Main σ s cfg) (d : Dist) : Main (Store.set σ .pers (kDist cfg.token) (.rewardDist d)) { s with dist := d } cfg where
  config := by rw [get_set, if_neg (by rintro ⟨_, h⟩; cases h)]; exact h.config
  inited := by rw [get_set, if_neg (by rintro ⟨_, h⟩; cases h)]; exact h.inited
  admin := by rw [get_set, if_neg (by rintro ⟨_, h⟩; cases h)]; exact h.admin
  dist := by rw [get_set, if_pos ⟨rfl, rfl⟩]
  curve := by rw [get_set, if_neg (by rintro ⟨_, h⟩; injection h with h; injection h with h; exact absurd h (by decide))]; exact h.curve
  users := fun u => by
    rw [get_set, if_neg (by rintro ⟨_, h⟩; injection h with h; injection h with h; exact absurd h (by decide))]; exact h.users u
  only := every_set h.only _ ⟨rfl, .inl (by simp [totalsOf_eq])⟩

theorem Main.saveCurve (h : Main σ s cfg) (k : Curve) : Main (Store.set σ .pers (kCurve cfg.token) (.curve k)) { s with curve := k } cfg where
  config := by rw [get_set, if_neg (by rintro ⟨_, h⟩; cases h)]; exact h.config
  inited := by rw [get_set, if_neg (by rintro ⟨_, h⟩; cases h)]; exact h.inited
  admin := by rw [get_set, if_neg (by rintro ⟨_, h⟩; cases h)]; exact h.admin
  curve := by rw [get_set, if_pos ⟨rfl, rfl⟩]
  dist := by rw [get_set, if_neg (by rintro ⟨_, h⟩; injection h with h; injection h with h; exact absurd h (by decide))]; exact h.dist
  users := fun u => by
    rw [get_set, if_neg (by rintro ⟨_, h⟩; injection h with h; injection h with h; exact absurd h (by decide))]; exact h.users u
  only := every_set h.only _ ⟨rfl, .inl (by simp [curveOf_eq])⟩

theorem Main.saveAdj (h : Main σ s cfg) (u : Addr) (a : Adj) :
    Main (Store.set σ .pers (kAdj u cfg.token) (.adj a)) { s with adj := upd s.adj u a } cfg where
  config := by rw [get_set, if_neg (by rintro ⟨_, h⟩; cases h)]; exact h.config
  inited := by rw [get_set, if_neg (by rintro ⟨_, h⟩; cases h)]; exact h.inited
  admin := by rw [get_set, if_neg (by rintro ⟨_, h⟩; cases h)]; exact h.admin
  curve := by rw [get_set, if_neg (by rintro ⟨_, h⟩; injection h with h; injection h with h; exact absurd h (by decide))]; exact h.curve
  dist := by rw [get_set, if_neg (by rintro ⟨_, h⟩; injection h with h; injection h with h; exact absurd h (by decide))]; exact h.dist
  users := fun v => by
    rw [userOf_eq, get_set]
    by_cases e : v = u
    · subst e
      rw [if_pos ⟨rfl, rfl⟩]
      exact .inl (by simp [upd])
    · rw [if_neg (by rintro ⟨_, h⟩; exact e (kAdj_inj.1 h).1)]
      have := h.users v
      simpa [upd, e, userOf_eq] using this
  only := every_set h.only _ ⟨rfl, .inr ⟨u, rfl⟩⟩

end reads

theorem plain_saveDist (t d σ) : plain (saveDist t d) σ = .ok ((), Store.set σ .pers (kDist t) (.rewardDist d)) := rfl
theorem plain_saveCurve (t k σ) : plain (saveCurve t k) σ = .ok ((), Store.set σ .pers (kCurve t) (.curve k)) := rfl
theorem plain_saveAdj (u t a σ) : plain (saveAdj u t a) σ = .ok ((), Store.set σ .pers (kAdj u t) (.adj a)) := rfl

/-- a program and a function of the record, with the same errors and related results -/
abbrev SameP {α β : Type} (R : α → Store → β → Prop) (p : Prog α) (σ : Store) (x : Res β) : Prop :=
  Same (fun (r : α × Store) b => R r.1 r.2 b) (plain p σ) x

section
variable {σ : Store} {s : State} {cfg : Config}

theorem SameP.lift {α β γ : Type} {R : β → Store → γ → Prop} {x : Except Err α} {f : α → Prog β} {g : α → Res γ}
    (h : ∀ a, x = .ok a → SameP R (f a) σ (g a)) : SameP R ((liftM x : Prog α) >>= f) σ (x >>= g) := by
  unfold SameP
  rw [plain_bind, plain_liftM, bind_assoc]
  exact Same.bind_same h

theorem SameP.last {α β : Type} {R : α → Store → β → Prop} {x : Except Err α} {g : α → Res β}
    (h : ∀ a, x = .ok a → Same (fun (r : α × Store) b => R r.1 r.2 b) (.ok (a, σ)) (g a)) : SameP R (liftM x : Prog α) σ (x >>= g) := by
  unfold SameP
  rw [plain_liftM]
  exact Same.bind_same h

theorem SameP.step {α β γ : Type} {R : β → Store → γ → Prop} {p : Prog α} {f : α → Prog β} {y : Res γ} {a : α} {σ' : Store}
    (hp : plain p σ = .ok (a, σ')) (h : SameP R (f a) σ' y) : SameP R (p >>= f) σ y := by
  unfold SameP
  rw [plain_bind, hp]
  exact h

theorem SameP.bind {α β γ δ : Type} {Q : α → Store → β → Prop} {R : γ → Store → δ → Prop} {p : Prog α} {f : α → Prog γ} {y : Res β} {g : β → Res δ}
    (hp : SameP Q p σ y) (h : ∀ a σ' b, Q a σ' b → SameP R (f a) σ' (g b)) : SameP R (p >>= f) σ (y >>= g) := by
  unfold SameP
  rw [plain_bind]
  exact Same.bind hp (fun r b hr => h r.1 r.2 b hr)

theorem SameP.map {α β γ : Type} {Q : α → Store → β → Prop} {R : α → Store → γ → Prop} {p : Prog α} {y : Res β} {g : β → γ}
    (hp : SameP Q p σ y) (h : ∀ a σ' b, Q a σ' b → R a σ' (g b)) : SameP R p σ (y >>= fun b => .ok (g b)) := by
  unfold SameP at *
  cases hx : plain p σ with
  | error e =>
    rw [hx] at hp
    cases y with
    | error e' => exact hp
    | ok b => exact hp.elim
  | ok r =>
    rw [hx] at hp
    cases y with
    | error e' => exact hp.elim
    | ok b => exact h _ _ _ hp

theorem updateRewards_same (h : Main σ s cfg) (u : Addr) (old new : Int) :
    SameP (fun _ σ' s' => Main σ' s' cfg ∧ s'.cfg = s.cfg) (updateRewards u cfg.token s.dist old new) σ (Phoenix.Rewards.updateRewards s u old new) := by
  unfold updateRewards Phoenix.Rewards.updateRewards
  by_cases he : old = new
  · rw [if_pos he, if_pos he]
    exact ⟨h, rfl⟩
  · rw [if_neg he, if_neg he]
    refine .lift fun diff _ => .step (h.getAdj u) (.lift fun spp _ => .lift fun p _ => .lift fun corr _ => ?_)
    exact ⟨h.saveAdj u _, rfl⟩

theorem claimOf_eq (u : Addr) (total : Int) : claimOf cfg s.dist (s.adj u) total = Phoenix.Rewards.claim cfg s u total := rfl
theorem payableOf_eq (c : Ctx) (u : Addr) (i : Info) : payableOf c cfg s.dist (s.adj u) i = Phoenix.Rewards.payable c cfg s u i := rfl

theorem withdraw_same (h : Main σ s cfg) (hc : s.cfg = some cfg) (self : Addr) (c : Ctx) (L : Ledger) (u : Addr) (i : Info) :
    SameP (fun L' σ' (r : State × Ledger) => (Main σ' r.1 cfg ∧ r.1.cfg = s.cfg) ∧ L' = r.2) (withdraw self c L u i) σ
      (Phoenix.Rewards.withdraw self c s L u i) := by
  unfold withdraw Phoenix.Rewards.withdraw
  rw [show Phoenix.Rewards.getConfig s = .ok cfg by unfold Phoenix.Rewards.getConfig; rw [hc], ok_bind']
  refine .step h.getConfig (.lift fun _ _ => .step (plain_keepInst σ) (.step h.getDist (.step (h.getAdj u) ?_)))
  rw [payableOf_eq]
  refine .lift fun x _ => ?_
  by_cases hx : x = 0
  · rw [if_pos hx, if_pos hx]
    exact ⟨⟨h, rfl⟩, rfl⟩
  · rw [if_neg hx, if_neg hx]
    refine .lift fun w _ => .lift fun t _ => .step (plain_saveDist _ _ _) (.step (plain_saveAdj _ _ _ _) (.last fun L' _ => ?_))
    exact ⟨⟨(h.saveDist _).saveAdj u _, rfl⟩, rfl⟩

theorem queryWithdrawable_same (h : Main σ s cfg) (hc : s.cfg = some cfg) (c : Ctx) (u : Addr) (i : Info) :
    SameP (fun r σ' r' => r = r' ∧ σ' = σ) (queryWithdrawable c u i) σ (Phoenix.Rewards.queryWithdrawable c s u i) := by
  unfold queryWithdrawable Phoenix.Rewards.queryWithdrawable
  rw [show Phoenix.Rewards.getConfig s = .ok cfg by unfold Phoenix.Rewards.getConfig; rw [hc], ok_bind']
  refine .step (plain_keepInst σ) (.step h.getConfig (.step h.getDist (.step (h.getAdj u) ?_)))
  rw [payableOf_eq]
  refine .lift fun x _ => ?_
  unfold SameP
  rw [plain_liftM]
  cases toU128 x with
  | error e => rfl
  | ok y => exact ⟨rfl, rfl⟩

theorem withdrawIfAny_same (h : Main σ s cfg) (hc : s.cfg = some cfg) (self : Addr) (c : Ctx) (L : Ledger) (u : Addr) (i : Info) :
    SameP (fun L' σ' (r : State × Ledger) => (Main σ' r.1 cfg ∧ r.1.cfg = s.cfg) ∧ L' = r.2) (withdrawIfAny self c L u i) σ
      (Phoenix.Rewards.withdrawIfAny self c s L u i) := by
  unfold withdrawIfAny Phoenix.Rewards.withdrawIfAny
  refine (queryWithdrawable_same h hc c u i).bind ?_
  rintro r σ' _ ⟨rfl, rfl⟩
  by_cases hr : r ≠ 0
  · rw [if_pos hr, if_pos hr]
    exact withdraw_same h hc self c L u i
  · rw [if_neg hr, if_neg hr]
    exact ⟨⟨h, rfl⟩, rfl⟩

/-- the store holds the record, and the tokens are the same -/
def Rel (a : Store × Ledger) (b : Phoenix.Rewards.Sys) : Prop := Holds a.1 b.st ∧ a.2 = b.led

theorem holds_main {σ : Store} {s : State} (h : Main σ s cfg) (hc : s.cfg = some cfg) : Holds σ s := by
  unfold Holds
  rw [hc]
  exact h

theorem plainStep_same {me : Addr} {L : Ledger} {t : Phoenix.Rewards.Tx} {y : Res Phoenix.Rewards.Sys}
    (h : SameP (fun L' σ' (b : Phoenix.Rewards.Sys) => Holds σ' b.st ∧ L' = b.led) (prog me t L) σ y) :
    Same Rel (plainStep (contract me) (σ, L) t) y := by
  unfold plainStep
  have := Same.bind (f := fun r : Ledger × Store => (.ok (r.2, r.1) : Res (Store × Ledger))) (g := fun b => (.ok b : Res Phoenix.Rewards.Sys))
    (R := Rel) h (fun r b hr => by exact hr)
  have e : (y >>= fun b => (.ok b : Res Phoenix.Rewards.Sys)) = y := by cases y <;> rfl
  rw [e] at this
  exact this

theorem getConfig_some (hc : s.cfg = some cfg) : Phoenix.Rewards.getConfig s = .ok cfg := by
  unfold Phoenix.Rewards.getConfig; rw [hc]

theorem addUser_same (h : Main σ s cfg) (hc : s.cfg = some cfg) (c : Ctx) (u : Addr) (i : Info) :
    SameP (fun _ σ' s' => Main σ' s' cfg ∧ s'.cfg = s.cfg) (addUser c u i) σ (Phoenix.Rewards.addUser c s u i) := by
  unfold addUser Phoenix.Rewards.addUser
  rw [getConfig_some hc, ok_bind']
  exact .step h.getConfig (.lift fun _ _ => .step (plain_keepInst σ) (.lift fun new _ => .step h.getDist (updateRewards_same h u 0 new)))

theorem calcBond_same (h : Main σ s cfg) (hc : s.cfg = some cfg) (c : Ctx) (u : Addr) (i : Info) :
    SameP (fun _ σ' s' => Main σ' s' cfg ∧ s'.cfg = s.cfg) (calcBond c u i) σ (Phoenix.Rewards.calcBond c s u i) := by
  unfold calcBond Phoenix.Rewards.calcBond
  rw [getConfig_some hc, ok_bind']
  exact .step h.getConfig (.lift fun _ _ => .step (plain_keepInst σ) (.step h.getDist (.lift fun e _ => .lift fun old _ => .lift fun t _ =>
    .lift fun new _ => updateRewards_same h u old new)))

theorem calcUnbond_same (h : Main σ s cfg) (hc : s.cfg = some cfg) (self : Addr) (c : Ctx) (L : Ledger) (u : Addr) (i : Info) (x : Int) :
    SameP (fun L' σ' (r : State × Ledger) => (Main σ' r.1 cfg ∧ r.1.cfg = s.cfg) ∧ L' = r.2) (calcUnbond self c L u i x) σ
      (Phoenix.Rewards.calcUnbond self c s L u i x) := by
  unfold calcUnbond Phoenix.Rewards.calcUnbond
  rw [getConfig_some hc]
  refine .lift fun _ _ => .step (plain_keepInst σ) ?_
  rw [ok_bind']
  refine .step h.getConfig (.lift fun _ _ => (withdrawIfAny_same h hc self c L u i).bind ?_)
  rintro _ σ' ⟨s', L'⟩ ⟨⟨h', hc'⟩, rfl⟩
  simp only at h' hc'
  refine .step h'.getDist (.lift fun old _ => .lift fun t _ => .lift fun new _ => (updateRewards_same h' u old new).bind ?_)
  rintro _ σ'' s'' ⟨h'', hc''⟩
  exact ⟨⟨h'', hc''.trans hc'⟩, rfl⟩

theorem distribute_same (h : Main σ s cfg) (hc : s.cfg = some cfg) (self : Addr) (c : Ctx) (L : Ledger) (x : Int) :
    SameP (fun _ σ' s' => Main σ' s' cfg ∧ s'.cfg = s.cfg) (distribute self c L x) σ (Phoenix.Rewards.distribute self c s L x) := by
  unfold distribute Phoenix.Rewards.distribute
  rw [getConfig_some hc, ok_bind']
  refine .step h.getConfig (.lift fun _ _ => .step (plain_keepInst σ) (.lift fun p _ => .lift fun total _ => ?_))
  by_cases ht : total = 0
  · rw [if_pos ht, if_pos ht]
    exact ⟨h, rfl⟩
  · rw [if_neg ht, if_neg ht]
    unfold Phoenix.Rewards.unlocked
    simp only [bind_assoc]
    refine .step h.getDist (.lift fun b _ => .step h.getCurve (.lift fun v _ => .lift fun a _ => .lift fun amount _ => ?_))
    by_cases ha : amount = 0
    · rw [if_pos ha, if_pos ha]
      exact ⟨h, rfl⟩
    · rw [if_neg ha, if_neg ha]
      refine .lift fun d _ => ?_
      exact ⟨h.saveDist d, rfl⟩

theorem fund_same (h : Main σ s cfg) (hc : s.cfg = some cfg) (self : Addr) (c : Ctx) (L : Ledger) (a d : Nat) (x : Int) :
    SameP (fun L' σ' (r : State × Ledger) => (Main σ' r.1 cfg ∧ r.1.cfg = s.cfg) ∧ L' = r.2) (fund self c L a d x) σ
      (Phoenix.Rewards.fund self c s L a d x) := by
  unfold fund Phoenix.Rewards.fund
  rw [getConfig_some hc, ok_bind']
  refine .step h.getAdmin (.lift fun _ _ => .step (plain_keepInst σ) (.step h.getConfig (.lift fun _ _ => .step h.getCurve ?_)))
  refine .lift fun _ _ => .lift fun _ _ => .lift fun L' _ => .lift fun stop _ => .lift fun y _ => .lift fun _ _ => .lift fun k _ => ?_
  exact ⟨⟨h.saveCurve k, rfl⟩, rfl⟩

theorem plain_isInit_blank (h : Blank σ) : plain isInit σ = .ok (false, σ) := by
  refine (plain_fetchOr .pers kInit asBool false σ).trans ?_
  have e : loadOr σ .pers kInit asBool false = .ok false := loadOr_none (h _ _)
  simp only [Place.dur, e]; rfl
theorem Main.isInit (h : Main σ s cfg) : plain isInit σ = .ok (true, σ) := by
  refine (plain_fetchOr .pers kInit asBool false σ).trans ?_
  have e : loadOr σ .pers kInit asBool false = .ok true := loadOr_of h.inited rfl
  simp only [Place.dur, e]; rfl

theorem init_same (h : Holds σ s) (a st tok : Addr) (mc : Nat) (mr mb : Int) :
    SameP (fun _ σ' s' => Holds σ' s') (init a st tok mc mr mb) σ (Phoenix.Rewards.init s a st tok mc mr mb) := by
  unfold init Phoenix.Rewards.init
  unfold Holds at h
  cases hc : s.cfg with
  | some cfg =>
    rw [hc] at h
    exact .step h.isInit (by exact rfl)
  | none =>
    rw [hc] at h
    obtain ⟨hb, ha⟩ := h
    refine .step (plain_isInit_blank hb) ?_
    refine SameP.lift (x := req (false = false) (.code 1)) (f := fun _ => _) (g := fun _ => _) fun _ _ => ?_
    refine .step (writes_keep kInit (.bool true) σ) (.step (writes_keep kConfig (.rewardsConfig ⟨st, tok, mc, mr, mb⟩) _)
      (.step (plain_saveDist tok ⟨1, 0, 0, 0⟩ _) (.step (plain_saveCurve tok (.constant 0) _) ?_)))
    unfold SameP
    rw [show saveAdmin a = (write .pers kAdmin (.addr a) >>= fun _ => keep kAdmin) from rfl, writes_keep kAdmin (.addr a) _]
    refine Same.ok ?_
    unfold Holds
    simp only
    refine ⟨?_, ?_, ?_, ?_, ?_, ?_, ?_⟩
    · simp [kConfig, kInit, kAdmin, kDist, kCurve]
    · simp [kConfig, kInit, kAdmin, kDist, kCurve]
    · simp [kConfig, kInit, kAdmin, kDist, kCurve]
    · simp [kConfig, kInit, kAdmin, kDist, kCurve, totalsOf]
    · simp [kConfig, kInit, kAdmin, kDist, kCurve, curveOf]
    · intro u
      right
      refine ⟨?_, ha u⟩
      simp [kConfig, kInit, kAdmin, kDist, kCurve, userOf, hb _ _]
    · intro d k hk
      simp only [get_set, hb _ _] at hk
      have : d = .pers ∧ (k = kAdmin ∨ k = kCurve tok ∨ k = kDist tok ∨ k = kConfig ∨ k = kInit) := by
        repeat' (split at hk)
        all_goals first | (rename_i hx; exact ⟨hx.1, by simp [hx.2]⟩) | exact absurd rfl hk
      obtain ⟨rfl, hx⟩ := this
      refine ⟨rfl, .inl ?_⟩
      rcases hx with rfl | rfl | rfl | rfl | rfl <;> simp [kConfig, kInit, kAdmin, totalsOf_eq, curveOf_eq]

end

theorem plain_err_bind {α β : Type} {p : Prog α} {f : α → Prog β} {σ : Store} {e : Err} (h : plain p σ = .error e) : plain (p >>= f) σ = .error e := by
  rw [plain_bind, h]; rfl

/-- before `initialize` every call but that one fails -/
theorem blank_fails {σ : Store} (h : Blank σ) (me : Addr) (c : Ctx) (k : Phoenix.Rewards.Call) (hk : ∀ a st tok mc mr mb, k ≠ .init a st tok mc mr mb) (L : Ledger) :
    ∃ e, plain (prog me (.rewards c k) L) σ = .error e := by
  cases k with
  | init => exact absurd rfl (hk _ _ _ _ _ _)
  | addUser u i => exact ⟨_, plain_err_bind (plain_err_bind (getConfig_blank h))⟩
  | calcBond u i => exact ⟨_, plain_err_bind (plain_err_bind (getConfig_blank h))⟩
  | calcUnbond u i x =>
    unfold prog calcUnbond
    simp only
    rw [plain_bind, plain_liftM]
    cases requireAuth c u with
    | error e => exact ⟨e, rfl⟩
    | ok _ => exact ⟨.panic, plain_err_bind (p := getConfig) (getConfig_blank h)⟩
  | distribute x => exact ⟨_, plain_err_bind (plain_err_bind (getConfig_blank h))⟩
  | withdraw u i => exact ⟨_, plain_err_bind (getConfig_blank h)⟩
  | fund a d x => exact ⟨_, plain_err_bind (getAdmin_blank h)⟩

theorem fresh_fails {s : State} (h : s.cfg = none) (me : Addr) (c : Ctx) (k : Phoenix.Rewards.Call) (hk : ∀ a st tok mc mr mb, k ≠ .init a st tok mc mr mb) (L : Ledger) :
    ∃ e, Phoenix.Rewards.step me ⟨s, L⟩ (.rewards c k) = .error e := by
  have hg : Phoenix.Rewards.getConfig s = .error .panic := by unfold Phoenix.Rewards.getConfig; rw [h]
  cases k with
  | init => exact absurd rfl (hk _ _ _ _ _ _)
  | addUser u i => exact ⟨.panic, by simp only [Phoenix.Rewards.step, Phoenix.Rewards.addUser, hg]; rfl⟩
  | calcBond u i => exact ⟨.panic, by simp only [Phoenix.Rewards.step, Phoenix.Rewards.calcBond, hg]; rfl⟩
  | calcUnbond u i x =>
    simp only [Phoenix.Rewards.step, Phoenix.Rewards.calcUnbond, hg]
    cases requireAuth c u with
    | error e => exact ⟨e, rfl⟩
    | ok _ => exact ⟨.panic, rfl⟩
  | distribute x => exact ⟨.panic, by simp only [Phoenix.Rewards.step, Phoenix.Rewards.distribute, hg]; rfl⟩
  | withdraw u i => exact ⟨.panic, by simp only [Phoenix.Rewards.step, Phoenix.Rewards.withdraw, hg]; rfl⟩
  | fund a d x => exact ⟨.panic, by simp only [Phoenix.Rewards.step, Phoenix.Rewards.fund, hg]; rfl⟩

/-- one transaction on the storage is one transaction on the record -/
theorem step_alike (me : Addr) {σ : Store} {s : State} (h : Holds σ s) (L : Ledger) (t : Phoenix.Rewards.Tx) :
    Alike Rel (plainStep (contract me) (σ, L) t) (Phoenix.Rewards.step me ⟨s, L⟩ t) := by
  cases t with
  | token c tok op =>
    refine (plainStep_same ?_).alike
    unfold SameP prog Phoenix.Rewards.step
    simp only
    rw [plain_lift]
    exact Same.bind_same fun L' _ => ⟨h, rfl⟩
  | rewards c k =>
    by_cases hk : ∃ a st tok mc mr mb, k = .init a st tok mc mr mb
    · obtain ⟨a, st, tok, mc, mr, mb, rfl⟩ := hk
      refine (plainStep_same ?_).alike
      refine (init_same h a st tok mc mr mb).bind ?_
      intro _ σ' s' h'
      exact ⟨h', rfl⟩
    · have hk' : ∀ a st tok mc mr mb, k ≠ .init a st tok mc mr mb := fun a st tok mc mr mb e => hk ⟨a, st, tok, mc, mr, mb, e⟩
      cases hc : s.cfg with
      | none =>
        unfold Holds at h
        rw [hc] at h
        obtain ⟨e, he⟩ := blank_fails h.1 me c k hk' L
        obtain ⟨e', he'⟩ := fresh_fails hc me c k hk' L
        have : plainStep (contract me) (σ, L) (.rewards c k) = .error e := by
          unfold plainStep contract
          simp only
          rw [he]; rfl
        rw [this, he']
        trivial
      | some cfg =>
        unfold Holds at h
        rw [hc] at h
        simp only at h
        refine (plainStep_same ?_).alike
        cases k with
        | init => exact absurd rfl (hk' _ _ _ _ _ _)
        | addUser u i =>
          refine (addUser_same h hc c u i).bind ?_
          exact fun _ σ' s' h' => ⟨holds_main h'.1 (h'.2.trans hc), rfl⟩
        | calcBond u i =>
          refine (calcBond_same h hc c u i).bind ?_
          exact fun _ σ' s' h' => ⟨holds_main h'.1 (h'.2.trans hc), rfl⟩
        | distribute x =>
          refine (distribute_same h hc me c L x).bind ?_
          exact fun _ σ' s' h' => ⟨holds_main h'.1 (h'.2.trans hc), rfl⟩
        | calcUnbond u i x => exact SameP.map (calcUnbond_same h hc me c L u i x) fun L' σ' r h' => ⟨holds_main h'.1.1 (h'.1.2.trans hc), h'.2⟩
        | withdraw u i => exact SameP.map (withdraw_same h hc me c L u i) fun L' σ' r h' => ⟨holds_main h'.1.1 (h'.1.2.trans hc), h'.2⟩
        | fund a d x => exact SameP.map (fund_same h hc me c L a d x) fun L' σ' r h' => ⟨holds_main h'.1.1 (h'.1.2.trans hc), h'.2⟩

/-! Which entries a call uses -/

section
variable {α β : Type}

/-- like `Uses`, from this store -/
def UsesAt (p : Prog α) (σ : Store) (S : List Key) : Prop := ∀ a σ', plain p σ = .ok (a, σ') → ∀ k, k ∈ touched p σ ↔ k ∈ S

theorem UsesAt.step {p : Prog α} {f : α → Prog β} {σ : Store} {S S' : List Key} {a : α} {σ1 : Store} (hp : plain p σ = .ok (a, σ1)) (h : Uses p S)
    (hf : UsesAt (f a) σ1 S') : UsesAt (p >>= f) σ (S ++ S') := by
  intro b σ' hb k
  rw [touched_bind p f σ hp, List.mem_append, List.mem_append, h _ _ _ hp]
  rw [plain_bind, hp] at hb
  rw [hf _ _ hb]

theorem UsesAt.skip {p : Prog α} {f : α → Prog β} {σ : Store} {S : List Key} {a : α} {σ1 : Store} (hp : plain p σ = .ok (a, σ1)) (h : Uses p [])
    (hf : UsesAt (f a) σ1 S) : UsesAt (p >>= f) σ S := UsesAt.step hp h hf

theorem UsesAt.lift {x : Except Err α} {f : α → Prog β} {σ : Store} {S : List Key} (h : ∀ a, x = .ok a → UsesAt (f a) σ S) :
    UsesAt ((liftM x : Prog α) >>= f) σ S := by
  cases x with
  | error e => intro a σ' hb; cases hb
  | ok a => exact h a rfl

theorem uses_liftBind {x : Except Err α} {f : α → Prog β} {S : List Key} (h : ∀ a, x = .ok a → Uses (f a) S) :
    Uses ((liftM x : Prog α) >>= f) S := by
  cases x with
  | error e => intro σ a σ' hb; cases hb
  | ok a => exact h a rfl
end

/-- a program that succeeds touches at most these entries -/
def UsesLe {α : Type} (p : Prog α) (S : List Key) : Prop := ∀ σ a σ', plain p σ = .ok (a, σ') → ∀ k, k ∈ touched p σ → k ∈ S

theorem Uses.le {α : Type} {p : Prog α} {S : List Key} (h : Uses p S) : UsesLe p S := fun σ a σ' hp k => (h σ a σ' hp k).mp
theorem UsesLe.bind {α β : Type} {p : Prog α} {f : α → Prog β} {S S' : List Key} (h : UsesLe p S) (hf : ∀ a, UsesLe (f a) S') : UsesLe (p >>= f) (S ++ S') := by
  intro σ b σ' hp k
  rw [plain_bind, bind_ok] at hp
  obtain ⟨⟨a, σ1⟩, h1, h2⟩ := hp
  rw [touched_bind p f σ h1, List.mem_append, List.mem_append]
  exact Or.imp (h _ _ _ h1 k) (hf a _ _ _ h2 k)
theorem UsesLe.skip {α β : Type} {x : Except Err α} {f : α → Prog β} {S : List Key} (hf : ∀ a, UsesLe (f a) S) : UsesLe ((liftM x : Prog α) >>= f) S :=
  UsesLe.bind (S := []) (Uses.le (Uses.liftM x)) hf

theorem u_getConfig : Uses getConfig [kConfig] := Uses.get _ _ _
theorem u_getAdmin : Uses getAdmin [kAdmin] := Uses.get _ _ _
theorem u_getCurve (t) : Uses (getCurve t) [kCurve t] := Uses.fetch (.read _)
theorem u_getDist (t) : Uses (getDist t) [kDist t] := Uses.fetch (.read _)
theorem u_getAdj (u t) : Uses (getAdj u t) [kAdj u t] := Uses.fetchOr (.read _)
theorem u_isInit : Uses isInit [kInit] := Uses.fetchOr (.read _)
theorem u_saveCurve (t k) : Uses (saveCurve t k) [kCurve t] := Uses.write _ _
theorem u_saveDist (t d) : Uses (saveDist t d) [kDist t] := Uses.write _ _
theorem u_saveAdj (u t a) : Uses (saveAdj u t a) [kAdj u t] := Uses.write _ _

theorem u_updateRewards (u t d) (old new : Int) : Uses (updateRewards u t d old new) (if old = new then [] else [kAdj u t]) := by
  unfold updateRewards
  by_cases h : old = new
  · rw [if_pos h, if_pos h]
    exact .pure _
  · rw [if_neg h, if_neg h]
    refine Uses.skip (Uses.liftM _) fun _ => ?_
    refine Uses.congr (S := [kAdj u t] ++ [kAdj u t]) ?_ (fun k => by simp)
    exact (u_getAdj u t).bind fun _ => Uses.skip (Uses.liftM _) fun _ => Uses.skip (Uses.liftM _) fun _ => Uses.skip (Uses.liftM _) fun _ => u_saveAdj _ _ _

theorem Uses.at {α : Type} {p : Prog α} {S : List Key} (h : Uses p S) (σ : Store) : UsesAt p σ S := h σ
theorem UsesAt.congr {α : Type} {p : Prog α} {σ : Store} {S S' : List Key} (h : UsesAt p σ S) (hs : ∀ k, k ∈ S ↔ k ∈ S') : UsesAt p σ S' :=
  fun a σ' hp k => (h a σ' hp k).trans (hs k)

section
variable {σ : Store} {s : State} {cfg : Config}

theorem ua_addUser (h : Main σ s cfg) (c : Ctx) (u : Addr) (i : Info) :
    UsesAt (addUser c u i) σ ([kConfig] ++ ([kDist cfg.token] ++
      (if (Phoenix.Rewards.power cfg i.total).toOption = some 0 then [] else [kAdj u cfg.token]))) := by
  unfold addUser
  refine .step h.getConfig u_getConfig (.lift fun _ _ => .skip (plain_keepInst σ) .keepInst (.lift fun new hn => ?_))
  rw [hn]
  refine Uses.at ((u_getDist _).bind fun d => ?_) σ
  have := u_updateRewards u cfg.token d 0 new
  simpa [Except.toOption, eq_comm] using this

theorem ua_calcBond (h : Main σ s cfg) (c : Ctx) (u : Addr) (i : Info) :
    UsesAt (calcBond c u i) σ ([kConfig] ++ ([kDist cfg.token] ++
      (if (Phoenix.Rewards.power cfg i.total).toOption =
        (Phoenix.Rewards.power cfg (i.total + ((i.stakes.getLast?.map (·.amount)).getD 0))).toOption then [] else [kAdj u cfg.token]))) := by
  unfold calcBond
  refine .step h.getConfig u_getConfig (.lift fun _ _ => .skip (plain_keepInst σ) .keepInst ?_)
  refine Uses.at ((u_getDist _).bind fun d => uses_liftBind fun e he => uses_liftBind fun old ho => uses_liftBind fun t ht => uses_liftBind fun new hn => ?_) σ
  have h1 : i.stakes.getLast? = some e := by
    unfold Phoenix.Rewards.lastEntry at he
    cases hl : i.stakes.getLast? with
    | none => rw [hl] at he; cases he
    | some e' => rw [hl] at he; cases he; rfl
  have h2 : t = i.total + e.amount := by
    exact (addI_ok.1 ht).2.symm
  rw [h2] at hn
  have := u_updateRewards u cfg.token d old new
  simpa [Except.toOption, h1, hn, ho] using this

theorem ua_withdraw (h : Main σ s cfg) (self : Addr) (c : Ctx) (L : Ledger) (u : Addr) (i : Info) :
    UsesAt (withdraw self c L u i) σ [kConfig, kDist cfg.token, kAdj u cfg.token] := by
  unfold withdraw
  refine UsesAt.congr (S := [kConfig] ++ ([kDist cfg.token] ++ ([kAdj u cfg.token] ++ [kDist cfg.token, kAdj u cfg.token]))) ?_ (fun k => by simp; tauto)
  refine .step h.getConfig u_getConfig (.lift fun _ _ => .skip (plain_keepInst σ) .keepInst ?_)
  by_cases hx : ∃ x, payableOf c cfg s.dist (s.adj u) i = .ok x ∧ x = 0
  · obtain ⟨x, hx, rfl⟩ := hx
    refine UsesAt.congr (S := [kDist cfg.token] ++ ([kAdj u cfg.token] ++ [])) ?_ (fun k => by simp; tauto)
    refine .step h.getDist (u_getDist _) (.step (h.getAdj u) (u_getAdj _ _) (.lift fun y hy => ?_))
    rw [hx] at hy
    cases hy
    rw [if_pos rfl]
    exact Uses.at (.pure _) σ
  · refine .step h.getDist (u_getDist _) (.step (h.getAdj u) (u_getAdj _ _) (.lift fun y hy => ?_))
    rw [if_neg (fun h0 => hx ⟨y, hy, h0⟩)]
    refine Uses.at (Uses.congr (S := [kDist cfg.token] ++ ([kAdj u cfg.token] ++ [])) ?_ (fun k => by simp)) σ
    exact Uses.skip (Uses.liftM _) fun _ => Uses.skip (Uses.liftM _) fun _ => (u_saveDist _ _).bind fun _ => (u_saveAdj _ _ _).bind fun _ => .liftM _

theorem ua_query (h : Main σ s cfg) (c : Ctx) (u : Addr) (i : Info) :
    UsesAt (queryWithdrawable c u i) σ ([kConfig] ++ ([kDist cfg.token] ++ ([kAdj u cfg.token] ++ []))) := by
  unfold queryWithdrawable
  refine .skip (plain_keepInst σ) .keepInst (.step h.getConfig u_getConfig (.step h.getDist (u_getDist _) (.step (h.getAdj u) (u_getAdj _ _) ?_)))
  exact Uses.at (Uses.skip (Uses.liftM _) fun _ => .liftM _) σ

/-- one after the other, the first changing the store -/
theorem UsesAt.bind {α β : Type} {p : Prog α} {f : α → Prog β} {S S' : List Key} (h : UsesAt p σ S)
    (hf : ∀ a σ1, plain p σ = .ok (a, σ1) → UsesAt (f a) σ1 S') : UsesAt (p >>= f) σ (S ++ S') := by
  intro b σ' hb k
  have hb' := hb
  rw [plain_bind, bind_ok] at hb
  obtain ⟨⟨a, σ1⟩, h1, h2⟩ := hb
  rw [touched_bind p f σ h1, List.mem_append, List.mem_append, h _ _ h1, hf a σ1 h1 _ _ h2]

/-- what comes next uses nothing new -/
theorem UsesAt.absorb {α β : Type} {p : Prog α} {f : α → Prog β} {S S' : List Key} (h : UsesAt p σ S) (hf : ∀ a, UsesLe (f a) S') (hs : S' ⊆ S) :
    UsesAt (p >>= f) σ S := by
  intro b σ' hb k
  rw [plain_bind, bind_ok] at hb
  obtain ⟨⟨a, σ1⟩, h1, h2⟩ := hb
  rw [touched_bind p f σ h1, List.mem_append, h _ _ h1]
  exact ⟨fun hk => hk.elim id fun hk => hs (hf a _ _ _ h2 k hk), .inl⟩

theorem ua_withdrawIfAny (h : Main σ s cfg) (hc : s.cfg = some cfg) (self : Addr) (c : Ctx) (L : Ledger) (u : Addr) (i : Info) :
    UsesAt (withdrawIfAny self c L u i) σ [kConfig, kDist cfg.token, kAdj u cfg.token] := by
  unfold withdrawIfAny
  have hq := queryWithdrawable_same h hc c u i
  by_cases hr : ∃ r, plain (queryWithdrawable c u i) σ = .ok (r, σ) ∧ r = 0
  · obtain ⟨r, hr, rfl⟩ := hr
    refine UsesAt.congr (UsesAt.bind (S' := []) (ua_query h c u i) ?_) (fun k => by simp)
    intro a σ1 h1
    rw [hr] at h1
    cases h1
    rw [if_neg (by simp)]
    exact Uses.at (.pure _) σ
  · refine UsesAt.congr (UsesAt.bind (S' := [kConfig, kDist cfg.token, kAdj u cfg.token]) (ua_query h c u i) ?_) (fun k => by simp; tauto)
    intro a σ1 h1
    have hs : σ1 = σ := by
      unfold SameP at hq
      rw [h1] at hq
      cases hx : Phoenix.Rewards.queryWithdrawable c s u i with
      | error e => rw [hx] at hq; exact hq.elim
      | ok b => rw [hx] at hq; exact hq.2
    subst hs
    rw [if_pos (fun h0 => hr ⟨a, h1, h0⟩)]
    exact ua_withdraw h self c L u i

theorem ua_calcUnbond (h : Main σ s cfg) (hc : s.cfg = some cfg) (self : Addr) (c : Ctx) (L : Ledger) (u : Addr) (i : Info) (x : Int) :
    UsesAt (calcUnbond self c L u i x) σ [kConfig, kDist cfg.token, kAdj u cfg.token] := by
  unfold calcUnbond
  refine .lift fun _ _ => .skip (plain_keepInst σ) .keepInst ?_
  refine UsesAt.congr (S := [kConfig] ++ [kConfig, kDist cfg.token, kAdj u cfg.token]) ?_ (fun k => by simp)
  refine .step h.getConfig u_getConfig (.lift fun _ _ => ?_)
  refine UsesAt.absorb (S' := [kDist cfg.token] ++ ([kAdj u cfg.token] ++ [])) (ua_withdrawIfAny h hc self c L u i) (fun L' => ?_) (by simp)
  refine UsesLe.bind (Uses.le (u_getDist _)) fun d => UsesLe.skip fun old => UsesLe.skip fun t => UsesLe.skip fun new => ?_
  refine UsesLe.bind ?_ fun _ => Uses.le (Uses.pure _)
  intro σ a σ' hp k hk
  have := (u_updateRewards u cfg.token d old new σ a σ' hp k).mp hk
  split at this
  · cases this
  · exact this

theorem ua_distribute (h : Main σ s cfg) (self : Addr) (c : Ctx) (L : Ledger) (x : Int) :
    UsesAt (distribute self c L x) σ ([kConfig] ++
      (if (Phoenix.Rewards.power cfg x).toOption = some 0 then [] else [kDist cfg.token, kCurve cfg.token])) := by
  unfold distribute
  refine .step h.getConfig u_getConfig (.lift fun _ _ => .skip (plain_keepInst σ) .keepInst (.lift fun p hp => .lift fun total ht => ?_))
  have h0 : total = 0 ↔ p = 0 := by
    unfold toU128 at ht
    split at ht
    · cases ht
    · cases ht; omega
  rw [hp]
  by_cases h1 : total = 0
  · rw [if_pos h1, if_pos (show (Except.ok p : Res Int).toOption = some 0 by simp [Except.toOption, h0.1 h1])]
    exact Uses.at (.pure _) σ
  · rw [if_neg h1, if_neg (show ¬ (Except.ok p : Res Int).toOption = some 0 by simp [Except.toOption]; exact fun h2 => h1 (h0.2 h2))]
    refine UsesAt.congr (S := [kDist cfg.token] ++ ([kCurve cfg.token] ++ (if (do
        let v ← s.curve.value c.now
        let a ← subU (L.bal cfg.token self).toNat s.dist.withdrawable
        subU a v).toOption = some 0 then [] else [kDist cfg.token]))) ?_ (fun k => by split <;> simp; tauto)
    refine .step h.getDist (u_getDist _) (.lift fun b hb => .step h.getCurve (u_getCurve _) (.lift fun v hv => .lift fun a ha => .lift fun amount hm => ?_))
    have hb' : b = (L.bal cfg.token self).toNat := by
      unfold toU128 at hb
      split at hb
      · cases hb
      · cases hb; rfl
    subst hb'
    simp only [hv, ok_bind', ha, hm]
    by_cases h2 : amount = 0
    · subst h2
      rw [if_pos rfl, if_pos (show (Except.ok 0 : Res Nat).toOption = some 0 from rfl)]
      exact Uses.at (.pure _) σ
    · rw [if_neg h2, if_neg (show ¬ (Except.ok amount : Res Nat).toOption = some 0 by simp [Except.toOption, h2])]
      exact Uses.at (Uses.skip (Uses.liftM _) fun _ => u_saveDist _ _) σ

theorem ua_fund (h : Main σ s cfg) (self : Addr) (c : Ctx) (L : Ledger) (a d : Nat) (x : Int) :
    UsesAt (fund self c L a d x) σ [kAdmin, kConfig, kCurve cfg.token] := by
  unfold fund
  refine UsesAt.congr (S := [kAdmin] ++ ([kConfig] ++ ([kCurve cfg.token] ++ ([kCurve cfg.token] ++ [])))) ?_ (fun k => by simp)
  refine .step h.getAdmin u_getAdmin (.lift fun _ _ => .skip (plain_keepInst σ) .keepInst (.step h.getConfig u_getConfig (.lift fun _ _ => ?_)))
  refine Uses.at ((u_getCurve _).bind fun _ => Uses.skip (Uses.liftM _) fun _ => Uses.skip (Uses.liftM _) fun _ => Uses.skip (Uses.liftM _) fun _ =>
    Uses.skip (Uses.liftM _) fun _ => Uses.skip (Uses.liftM _) fun _ => Uses.skip (Uses.liftM _) fun _ => Uses.skip (Uses.liftM _) fun _ =>
    (u_saveCurve _ _).bind fun _ => .pure _) σ

end

/-- exactly the entries of the specification -/
theorem touched_iff {me : Addr} {t : Phoenix.Rewards.Tx} {L : Ledger} {σ : Store} {s : State} (hh : Holds σ s)
    {r : Ledger × Store} (h : plain (prog me t L) σ = .ok r) (k : Key) : k ∈ touched (prog me t L) σ ↔ k ∈ uses s t := by
  obtain ⟨r1, r2⟩ := r
  cases t with
  | token c tok op => exact Uses.lift _ _ _ _ h k
  | rewards c op =>
    by_cases hk : ∃ a st tok mc mr mb, op = .init a st tok mc mr mb
    · obtain ⟨a, st, tok, mc, mr, mb, rfl⟩ := hk
      refine Uses.congr (S := ([kInit] ++ ([kInit] ++ ([kConfig] ++ ([kDist tok] ++ ([kCurve tok] ++ [kAdmin]))))) ++ []) ?_
        (fun k => by simp [uses, kConfig, kInit, kAdmin, totalsOf_eq, curveOf_eq]) _ _ _ h k
      refine Uses.bind ?_ fun _ => Uses.pure _
      exact u_isInit.bind fun _ => Uses.skip (Uses.liftM _) fun _ => (Uses.save _ _).bind fun _ => (Uses.save _ _).bind fun _ => (u_saveDist _ _).bind fun _ =>
        (u_saveCurve _ _).bind fun _ => Uses.save _ _
    · have hk' : ∀ a st tok mc mr mb, op ≠ .init a st tok mc mr mb := fun a st tok mc mr mb e => hk ⟨a, st, tok, mc, mr, mb, e⟩
      unfold Holds at hh
      cases hc : s.cfg with
      | none =>
        rw [hc] at hh
        obtain ⟨e, he⟩ := blank_fails hh.1 me c op hk' L
        rw [he] at h
        cases h
      | some cfg =>
        rw [hc] at hh
        simp only at hh
        cases op with
        | init => exact absurd rfl (hk' _ _ _ _ _ _)
        | addUser u i =>
          refine ((UsesAt.bind (S' := []) (ua_addUser hh c u i) fun _ _ _ => Uses.at (.pure _) _).congr ?_) _ _ h k
          intro k
          simp [uses, hc, kConfig, totalsOf_eq, userOf_eq]
        | calcBond u i =>
          refine ((UsesAt.bind (S' := []) (ua_calcBond hh c u i) fun _ _ _ => Uses.at (.pure _) _).congr ?_) _ _ h k
          intro k
          simp [uses, hc, kConfig, totalsOf_eq, userOf_eq]
        | calcUnbond u i x =>
          refine ((ua_calcUnbond hh hc me c L u i x).congr ?_) _ _ h k
          intro k
          simp [uses, hc, kConfig, totalsOf_eq, userOf_eq]
        | distribute x =>
          refine ((UsesAt.bind (S' := []) (ua_distribute hh me c L x) fun _ _ _ => Uses.at (.pure _) _).congr ?_) _ _ h k
          intro k
          simp [uses, hc, kConfig, totalsOf_eq, curveOf_eq]
        | withdraw u i =>
          refine ((ua_withdraw hh me c L u i).congr ?_) _ _ h k
          intro k
          simp [uses, hc, kConfig, totalsOf_eq, userOf_eq]
        | fund a d x =>
          refine ((ua_fund hh me c L a d x).congr ?_) _ _ h k
          intro k
          simp [uses, hc, kConfig, kAdmin, curveOf_eq]

/-! What the calls keep alive, and what not -/

theorem k_getConfig {X} : Keeps X getConfig := keeps_get _ _ _
theorem k_getAdmin {X} : Keeps X getAdmin := keeps_get _ _ _
theorem loose_dist (t) : Loose (kDist t) := by simp [Loose, kDist]
theorem loose_curve (t) : Loose (kCurve t) := by simp [Loose, kCurve]
theorem loose_adj (u t) : Loose (kAdj u t) := by simp [Loose, kAdj]
theorem k_getCurve (t) : Keeps Loose (getCurve t) := Keeps.fetch' (.read (loose_curve t))
theorem k_getDist (t) : Keeps Loose (getDist t) := Keeps.fetch' (.read (loose_dist t))
theorem k_getAdj (u t) : Keeps Loose (getAdj u t) := Keeps.fetchOr' (.read (loose_adj u t))
theorem k_saveCurve (t k) : Keeps Loose (saveCurve t k) := Keeps.write (loose_curve t)
theorem k_saveDist (t d) : Keeps Loose (saveDist t d) := Keeps.write (loose_dist t)
theorem k_saveAdj (u t a) : Keeps Loose (saveAdj u t a) := Keeps.write (loose_adj u t)

theorem k_updateRewards (u t d old new) : Keeps Loose (updateRewards u t d old new) := by
  unfold updateRewards
  split
  · exact .pure _
  · exact (Keeps.liftM _).bind fun _ => (k_getAdj _ _).bind fun _ => (Keeps.liftM _).bind fun _ => (Keeps.liftM _).bind fun _ => (Keeps.liftM _).bind fun _ =>
      k_saveAdj _ _ _

theorem k_withdraw (self c L u i) : Keeps Loose (withdraw self c L u i) := by
  unfold withdraw
  refine k_getConfig.bind fun _ => (Keeps.liftM _).bind fun _ => Keeps.keepInst.bind fun _ => (k_getDist _).bind fun _ => (k_getAdj _ _).bind fun _ =>
    (Keeps.liftM _).bind fun _ => ?_
  split
  · exact .pure _
  · exact (Keeps.liftM _).bind fun _ => (Keeps.liftM _).bind fun _ => (k_saveDist _ _).bind fun _ => (k_saveAdj _ _ _).bind fun _ => .liftM _

theorem k_withdrawIfAny (self c L u i) : Keeps Loose (withdrawIfAny self c L u i) := by
  unfold withdrawIfAny queryWithdrawable
  refine (Keeps.keepInst.bind fun _ => k_getConfig.bind fun _ => (k_getDist _).bind fun _ => (k_getAdj _ _).bind fun _ =>
    (Keeps.liftM _).bind fun _ => .liftM _).bind fun _ => ?_
  split
  · exact k_withdraw _ _ _ _ _
  · exact .pure _

theorem k_distribute (self c L x) : Keeps Loose (distribute self c L x) := by
  unfold distribute
  refine k_getConfig.bind fun _ => (Keeps.liftM _).bind fun _ => Keeps.keepInst.bind fun _ => (Keeps.liftM _).bind fun _ => (Keeps.liftM _).bind fun _ => ?_
  split
  · exact .pure _
  · refine (k_getDist _).bind fun _ => (Keeps.liftM _).bind fun _ => (k_getCurve _).bind fun _ => (Keeps.liftM _).bind fun _ => (Keeps.liftM _).bind fun _ =>
      (Keeps.liftM _).bind fun _ => ?_
    split
    · exact .pure _
    · exact (Keeps.liftM _).bind fun _ => k_saveDist _ _

theorem keeps (me : Addr) (t : Phoenix.Rewards.Tx) (L : Ledger) : Keeps Loose (prog me t L) := by
  cases t with
  | token c tok op => exact .lift _
  | rewards c op =>
    cases op with
    | init a st tok mc mr mb =>
      refine Keeps.bind ?_ fun _ => .pure _
      refine Keeps.absorb (k := kInit) (Keeps.fetchOr' (.read (.inr rfl))) (fun _ => ?_) fun _ => .right fun _ => Touches.left (Touches.right fun _ => Touches.keep _)
      exact (Keeps.liftM _).bind fun _ => (keeps_save _ _).bind fun _ => (keeps_save _ _).bind fun _ => (k_saveDist _ _).bind fun _ => (k_saveCurve _ _).bind fun _ =>
        keeps_save _ _
    | addUser u i =>
      exact (k_getConfig.bind fun _ => (Keeps.liftM _).bind fun _ => Keeps.keepInst.bind fun _ => (Keeps.liftM _).bind fun _ => (k_getDist _).bind fun _ =>
        k_updateRewards _ _ _ _ _).bind fun _ => .pure _
    | calcBond u i =>
      exact (k_getConfig.bind fun _ => (Keeps.liftM _).bind fun _ => Keeps.keepInst.bind fun _ => (k_getDist _).bind fun _ => (Keeps.liftM _).bind fun _ =>
        (Keeps.liftM _).bind fun _ => (Keeps.liftM _).bind fun _ => (Keeps.liftM _).bind fun _ => k_updateRewards _ _ _ _ _).bind fun _ => .pure _
    | calcUnbond u i x =>
      exact (Keeps.liftM _).bind fun _ => Keeps.keepInst.bind fun _ => k_getConfig.bind fun _ => (Keeps.liftM _).bind fun _ => (k_withdrawIfAny _ _ _ _ _).bind fun _ =>
        (k_getDist _).bind fun _ => (Keeps.liftM _).bind fun _ => (Keeps.liftM _).bind fun _ => (Keeps.liftM _).bind fun _ => (k_updateRewards _ _ _ _ _).bind fun _ => .pure _
    | distribute x => exact (k_distribute _ _ _ _).bind fun _ => .pure _
    | withdraw u i => exact k_withdraw _ _ _ _ _
    | fund a d x =>
      exact k_getAdmin.bind fun _ => (Keeps.liftM _).bind fun _ => Keeps.keepInst.bind fun _ => k_getConfig.bind fun _ => (Keeps.liftM _).bind fun _ => (k_getCurve _).bind fun _ =>
        (Keeps.liftM _).bind fun _ => (Keeps.liftM _).bind fun _ => (Keeps.liftM _).bind fun _ => (Keeps.liftM _).bind fun _ => (Keeps.liftM _).bind fun _ =>
        (Keeps.liftM _).bind fun _ => (Keeps.liftM _).bind fun _ => (k_saveCurve _ _).bind fun _ => .pure _

theorem keepsInst (me : Addr) (t : Phoenix.Rewards.Tx) (ht : extendsInst t = true) (L : Ledger) : KeepsInst (prog me t L) := by
  cases t with
  | token c tok op => cases ht
  | rewards c op =>
    cases op with
    | init a st tok mc mr mb => cases ht
    | addUser u i => exact .left (.right fun _ => .right fun _ => .left .keepInst)
    | calcBond u i => exact .left (.right fun _ => .right fun _ => .left .keepInst)
    | calcUnbond u i x => exact .right fun _ => .left .keepInst
    | distribute x => exact .left (.right fun _ => .right fun _ => .left .keepInst)
    | withdraw u i => exact .right fun _ => .right fun _ => .left .keepInst
    | fund a d x => exact .right fun _ => .right fun _ => .left .keepInst

/-- The program does not extend the entry: an old one keeps its lifetime, a new one gets the minimal one. -/
def Leaves {α : Type} (k : Key) (p : Prog α) : Prop := ∀ (n : Net) (seq : Nat) (s s' : LStore) (a : α), timed n seq p s = .ok (a, s') →
  ((Store.get s.st .pers k).isSome = true → s'.live k = s.live k) ∧
  ((Store.get s.st .pers k).isSome = false → (Store.get s'.st .pers k).isSome = true → s'.live k = seq + n.minPers - 1)

section
variable {α β : Type} {k : Key}

theorem Leaves.ret (a : α) : Leaves k (.ret a) := by
  intro n seq s s' b h
  cases h
  exact ⟨fun _ => rfl, fun h h' => by rw [h] at h'; cases h'⟩
theorem Leaves.pure (a : α) : Leaves k (Pure.pure a : Prog α) := .ret a
theorem Leaves.fail (e : Err) : Leaves k (.fail e : Prog α) := by
  intro n seq s s' b h; cases h
theorem Leaves.lift (x : Res α) : Leaves k (Life.lift x) := by
  cases x <;> first | exact .ret _ | exact .fail _
theorem Leaves.liftM (x : Except Err α) : Leaves k (liftM x : Prog α) := .lift x
theorem Leaves.bind {p : Prog α} {f : α → Prog β} (hp : Leaves k p) (hf : ∀ a, Leaves k (f a)) : Leaves k (p >>= f) := by
  intro n seq s s' b h
  rw [timed_bind, bind_ok] at h
  obtain ⟨⟨a, s1⟩, h1, h2⟩ := h
  obtain ⟨i1, i2⟩ := hp n seq s s1 a h1
  obtain ⟨j1, j2⟩ := hf a n seq s1 s' b h2
  refine ⟨fun h => (j1 ((timed_grows h1).there k h)).trans (i1 h), fun h h' => ?_⟩
  by_cases hm : (Store.get s1.st .pers k).isSome = true
  · exact (j1 hm).trans (i2 h hm)
  · exact j2 (by simpa using hm) h'
theorem Leaves.read (k' : Key) : Leaves k (Life.read .pers k') := by
  intro n seq s s' b h
  simp only [Life.read, timed] at h
  split at h
  · cases h
  · cases h
    exact ⟨fun _ => rfl, fun h h' => by rw [h] at h'; cases h'⟩
theorem Leaves.write (k' : Key) (v : Cell) : Leaves k (Life.write .pers k' v) := by
  intro n seq s s' b h
  simp only [Life.write, timed] at h
  split at h
  · cases h
  · cases h
    unfold LStore.put
    refine ⟨fun h => ?_, fun h h' => ?_⟩
    · simp only
      split
      · rfl
      · rename_i hk
        rw [put1_apply, if_neg]
        rintro rfl
        exact hk h
    · simp only at h' ⊢
      rw [get_set] at h'
      split at h'
      · rename_i hk
        rw [if_neg (by rw [← hk.2, h]; simp), put1_apply, if_pos hk.2]
      · rw [h] at h'; cases h'
theorem Leaves.keep {k' : Key} (hk : k ≠ k') : Leaves k (Life.keep k') := by
  intro n seq s s' b h
  simp only [Life.keep, timed] at h
  split at h
  · cases h
    refine ⟨fun _ => ?_, fun h h' => by rw [h] at h'; cases h'⟩
    simp only [put1_apply, if_neg hk]
  · cases h
theorem Leaves.keepInst : Leaves k Life.keepInst := by
  intro n seq s s' b h
  cases h
  exact ⟨fun _ => rfl, fun h h' => by rw [h] at h'; cases h'⟩
theorem Leaves.fetch {k' : Key} {as : Cell → Option α} {e : Err} : Leaves k (Life.fetch .pers k' as e) := by
  refine (Leaves.read k').bind fun c => ?_
  cases c with
  | none => exact .fail _
  | some c =>
    simp only
    split
    · exact .ret _
    · exact .fail _
theorem Leaves.fetchOr {k' : Key} {as : Cell → Option α} {x : α} : Leaves k (Life.fetchOr .pers k' as x) := by
  refine (Leaves.read k').bind fun c => ?_
  cases c with
  | none => exact .ret _
  | some c =>
    simp only
    split
    · exact .ret _
    · exact .fail _
end

section
variable {k : Key} (hk : Loose k)
include hk

theorem l_getConfig : Leaves k getConfig := Leaves.fetch.bind fun _ => (Leaves.keep hk.1).bind fun _ => .pure _
theorem l_getAdmin : Leaves k getAdmin := Leaves.fetch.bind fun _ => (Leaves.keep hk.2.2).bind fun _ => .pure _

omit hk in
theorem l_updateRewards (u t d old new) : Leaves k (updateRewards u t d old new) := by
  unfold updateRewards
  split
  · exact .pure _
  · exact (Leaves.liftM _).bind fun _ => Leaves.fetchOr.bind fun _ => (Leaves.liftM _).bind fun _ => (Leaves.liftM _).bind fun _ => (Leaves.liftM _).bind fun _ =>
      Leaves.write _ _

theorem l_withdraw (self c L u i) : Leaves k (withdraw self c L u i) := by
  unfold withdraw
  refine (l_getConfig hk).bind fun _ => (Leaves.liftM _).bind fun _ => Leaves.keepInst.bind fun _ => Leaves.fetch.bind fun _ => Leaves.fetchOr.bind fun _ =>
    (Leaves.liftM _).bind fun _ => ?_
  split
  · exact .pure _
  · exact (Leaves.liftM _).bind fun _ => (Leaves.liftM _).bind fun _ => (Leaves.write _ _).bind fun _ => (Leaves.write _ _).bind fun _ => .liftM _

theorem l_withdrawIfAny (self c L u i) : Leaves k (withdrawIfAny self c L u i) := by
  unfold withdrawIfAny queryWithdrawable
  refine (Leaves.keepInst.bind fun _ => (l_getConfig hk).bind fun _ => Leaves.fetch.bind fun _ => Leaves.fetchOr.bind fun _ =>
    (Leaves.liftM _).bind fun _ => .liftM _).bind fun _ => ?_
  split
  · exact l_withdraw hk _ _ _ _ _
  · exact .pure _

theorem l_distribute (self c L x) : Leaves k (distribute self c L x) := by
  unfold distribute
  refine (l_getConfig hk).bind fun _ => (Leaves.liftM _).bind fun _ => Leaves.keepInst.bind fun _ => (Leaves.liftM _).bind fun _ => (Leaves.liftM _).bind fun _ => ?_
  split
  · exact .pure _
  · refine Leaves.fetch.bind fun _ => (Leaves.liftM _).bind fun _ => Leaves.fetch.bind fun _ => (Leaves.liftM _).bind fun _ => (Leaves.liftM _).bind fun _ =>
      (Leaves.liftM _).bind fun _ => ?_
    split
    · exact .pure _
    · exact (Leaves.liftM _).bind fun _ => Leaves.write _ _

/-- no call extends an entry other than the configuration, the mark and the administrator -/
theorem leaves (me : Addr) (t : Phoenix.Rewards.Tx) (L : Ledger) : Leaves k (prog me t L) := by
  cases t with
  | token c tok op => exact .lift _
  | rewards c op =>
    cases op with
    | init a st tok mc mr mb =>
      refine Leaves.bind ?_ fun _ => .pure _
      exact Leaves.fetchOr.bind fun _ => (Leaves.liftM _).bind fun _ => ((Leaves.write _ _).bind fun _ => Leaves.keep hk.2.1).bind fun _ =>
        ((Leaves.write _ _).bind fun _ => Leaves.keep hk.1).bind fun _ => (Leaves.write _ _).bind fun _ => (Leaves.write _ _).bind fun _ =>
        (Leaves.write _ _).bind fun _ => Leaves.keep hk.2.2
    | addUser u i =>
      exact ((l_getConfig hk).bind fun _ => (Leaves.liftM _).bind fun _ => Leaves.keepInst.bind fun _ => (Leaves.liftM _).bind fun _ => Leaves.fetch.bind fun _ =>
        l_updateRewards _ _ _ _ _).bind fun _ => .pure _
    | calcBond u i =>
      exact ((l_getConfig hk).bind fun _ => (Leaves.liftM _).bind fun _ => Leaves.keepInst.bind fun _ => Leaves.fetch.bind fun _ => (Leaves.liftM _).bind fun _ =>
        (Leaves.liftM _).bind fun _ => (Leaves.liftM _).bind fun _ => (Leaves.liftM _).bind fun _ => l_updateRewards _ _ _ _ _).bind fun _ => .pure _
    | calcUnbond u i x =>
      exact (Leaves.liftM _).bind fun _ => Leaves.keepInst.bind fun _ => (l_getConfig hk).bind fun _ => (Leaves.liftM _).bind fun _ => (l_withdrawIfAny hk _ _ _ _ _).bind fun _ =>
        Leaves.fetch.bind fun _ => (Leaves.liftM _).bind fun _ => (Leaves.liftM _).bind fun _ => (Leaves.liftM _).bind fun _ => (l_updateRewards _ _ _ _ _).bind fun _ => .pure _
    | distribute x => exact (l_distribute hk _ _ _ _).bind fun _ => .pure _
    | withdraw u i => exact l_withdraw hk _ _ _ _ _
    | fund a d x =>
      exact (l_getAdmin hk).bind fun _ => (Leaves.liftM _).bind fun _ => Leaves.keepInst.bind fun _ => (l_getConfig hk).bind fun _ => (Leaves.liftM _).bind fun _ => Leaves.fetch.bind fun _ =>
        (Leaves.liftM _).bind fun _ => (Leaves.liftM _).bind fun _ => (Leaves.liftM _).bind fun _ => (Leaves.liftM _).bind fun _ => (Leaves.liftM _).bind fun _ =>
        (Leaves.liftM _).bind fun _ => (Leaves.liftM _).bind fun _ => (Leaves.write _ _).bind fun _ => .pure _

end

/-- a history in which nobody restores or extends the entry from outside leaves its lifetime -/
theorem alone_live {k : Key} (hk : Loose k) {n : Net} (hn : NetOK n) {me : Addr} (as : List (Act Phoenix.Rewards.Tx)) (ha : Alone k as) (s : LSys)
    (hs : (Store.get s.cs.st .pers k).isSome = true) : (run n (contract me) s as).cs.live k = s.cs.live k := by
  induction as generalizing s with
  | nil => rfl
  | cons a as ih =>
    have h1 := ih ⟨fun q h => ha.1 q (List.mem_cons_of_mem _ h), fun q x h => ha.2 q x (List.mem_cons_of_mem _ h)⟩ (exec n (contract me) s a)
      ((exec_grows n hn (contract me) s a).there k hs)
    refine h1.trans ?_
    cases hx : step n (contract me) s a with
    | error e =>
      have : exec n (contract me) s a = s := by unfold exec; rw [hx]
      rw [this]
    | ok s' =>
      rw [exec_ok hx]
      cases a with
      | call t b =>
        obtain ⟨-, -, h2⟩ := step_call hx
        exact (leaves hk me t s.led n _ _ _ _ h2).1 hs
      | restore q k' =>
        simp only [step] at hx
        split at hx
        · cases hx
          simp only [put1_apply]
          rw [if_neg]
          rintro rfl
          exact ha.1 q (List.mem_cons_self ..)
        · cases hx; rfl
      | restoreInst q =>
        simp only [step] at hx
        split at hx <;> (cases hx; rfl)
      | extend q k' x =>
        simp only [step] at hx
        split at hx
        · cases hx
        · cases hx
          simp only [put1_apply]
          rw [if_neg]
          rintro rfl
          exact ha.2 q x (List.mem_cons_self ..)
      | extendInst q x =>
        simp only [step] at hx
        split at hx
        · cases hx
        · cases hx; rfl

end Phoenix.Life.Rewards
