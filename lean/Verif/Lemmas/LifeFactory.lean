import Verif.Spec.LifeFactory
import Verif.Lemmas.Life
import Verif.Lemmas.WorldFrame
/-! The factory with its storage against the record model. -/
namespace Phoenix.Store
section
variable {α β γ δ : Type}

theorem Alike.bind_same {R : γ → δ → Prop} {x : Res α} {f : α → Res γ} {g : α → Res δ}
    (h : ∀ a, x = .ok a → Alike R (f a) (g a)) : Alike R (x >>= f) (x >>= g) := by
  cases x with
  | error e => exact trivial
  | ok a => exact h a rfl

theorem Alike.bind_map {R : γ → δ → Prop} {x : Res α} {φ : α → β} {f : β → Res γ} {g : α → Res δ}
    (h : ∀ a, x = .ok a → Alike R (f (φ a)) (g a)) : Alike R (x.map φ >>= f) (x >>= g) := by
  cases x with
  | error e => exact trivial
  | ok a => exact h a rfl

theorem Alike.pass {R : Unit × Store → δ → Prop} {Q : γ × Store → δ → Prop} {x : Res (Unit × Store)} {a : γ} {y : Res δ} (h : Alike R x y)
    (hR : ∀ s d, R ((), s) d → Q (a, s) d := by exact fun _ _ h => h) : Alike Q (x >>= fun r => .ok (a, r.2)) y := by
  cases x <;> cases y
  · exact trivial
  · exact h.elim
  · exact h.elim
  · exact hR _ _ h

theorem Alike.fail {R : α → β → Prop} (e e' : Err) : Alike R (.error e) (.error e') := trivial

end
end Phoenix.Store

namespace Phoenix.Life
open Phoenix Phoenix.Store Phoenix.Life.Spec
open Phoenix.Ttl (Net)

theorem upkeep_inst_at {T E : Type} {C : Contract T E} {n : Net} (hn : NetOK n) {s s' : LSys E} {t : T} (hk : KeepsInst (C.prog t s.led))
    (hs : step n C s (.call t false) = .ok s') (bs : List (Act T)) : C.seq t + 6 * 17280 ≤ (run n C s' bs).cs.inst := by
  obtain ⟨-, -, h1⟩ := step_call hs
  exact Nat.le_trans (hk n hn _ _ _ _ h1) (run_grows n hn _ s' bs).inst

theorem upkeep_instLong_at {T E : Type} {C : Contract T E} {n : Net} (hn : NetOK n) {s s' : LSys E} {t : T} (hk : KeepsInstLong (C.prog t s.led))
    (hs : step n C s (.call t false) = .ok s') (bs : List (Act T)) : C.seq t + 29 * 17280 ≤ (run n C s' bs).cs.inst := by
  obtain ⟨-, -, h1⟩ := step_call hs
  exact Nat.le_trans (hk n hn _ _ _ _ h1) (run_grows n hn _ s' bs).inst

theorem KeepsInst.fail {α : Type} (e : Err) : KeepsInst (.fail e : Prog α) := fun _ _ _ _ _ _ h => by cases h

theorem KeepsInst.lift_bind {α β : Type} {x : Except Err α} {f : α → Prog β} (h : ∀ a, x = .ok a → KeepsInst (f a)) :
    KeepsInst ((liftM x : Prog α) >>= f) := by
  cases x with
  | error e => exact fun _ _ _ _ _ _ h => by cases h
  | ok a => exact h a rfl

section
variable {α : Type} {σ : Store} {k : Key} {as : Cell → Option α} {e : Err} {c : Cell} {x x0 : α}

theorem got (h : Store.get σ .pers k = some c) (hx : as c = some x) :
    plain (fetch .pers k as e >>= fun c => keep k >>= fun _ => pure c) σ = .ok (x, σ) := by
  have := reads_fetch_keep k as e σ
  simp only [load_of h hx] at this
  exact this
theorem got_none (h : Store.get σ .pers k = none) :
    plain (fetch .pers k as e >>= fun c => keep k >>= fun _ => pure c) σ = .error e := by
  have := reads_fetch_keep k as e σ
  simp only [load_none h] at this
  exact this
theorem gotOr (h : Store.get σ .pers k = some c) (hx : as c = some x) :
    plain (fetchOr .pers k as x0 >>= fun c => keepIfThere k >>= fun _ => pure c) σ = .ok (x, σ) := by
  have := reads_fetchOr_keep k as x0 σ
  simp only [loadOr_of h hx] at this
  exact this
theorem gotOr_none (h : Store.get σ .pers k = none) :
    plain (fetchOr .pers k as x0 >>= fun c => keepIfThere k >>= fun _ => pure c) σ = .ok (x0, σ) := by
  have := reads_fetchOr_keep k as x0 σ
  simp only [loadOr_none h] at this
  exact this
theorem readOr (h : Store.get σ .pers k = some c) (hx : as c = some x) : plain (fetchOr .pers k as x0) σ = .ok (x, σ) := by
  have := plain_fetchOr .pers k as x0 σ
  simp only [Place.dur, loadOr_of h hx] at this
  exact this
theorem readOr_none (h : Store.get σ .pers k = none) : plain (fetchOr .pers k as x0) σ = .ok (x0, σ) := by
  have := plain_fetchOr .pers k as x0 σ
  simp only [Place.dur, loadOr_none h] at this
  exact this
end

end Phoenix.Life

namespace Phoenix.Life.Factory
open Phoenix Phoenix.Store Phoenix.Life Phoenix.Life.Spec
open Phoenix.World (World Tx Call view Indep Free)

theorem others_view (F : Addr) (w : World) : others F w = view (fun m => upd m F none) id id w := rfl

theorem pairKey_eq (a b : Addr) : pairKey a b = kPair a b := rfl
theorem kPair_inj {a b a' b' : Addr} : kPair a b = kPair a' b' ↔ a = a' ∧ b = b' := by
  unfold kPair; simp only [Key.mcons.injEq, Key.addr.injEq, true_and, and_true]

/-- the stored part of the record -/
def cfgOf (f : Phoenix.Factory.State) : FactoryConfig :=
  ⟨f.admin, f.multihop, f.lpHash, f.stakeHash, f.tokenHash, f.whitelist, f.lpDecimals⟩

section reads
variable {σ : Store} {f : Phoenix.Factory.State}

theorem p_getConfig (h : Holds σ f) : plain getConfig σ = .ok (cfgOf f, σ) := got h.config rfl
theorem p_getPools (h : Holds σ f) : plain getPools σ = .ok (f.pools, σ) := got h.pools rfl
theorem p_getStable (h : Holds σ f) : plain getStable σ = .ok (f.stableHash, σ) := got h.stable rfl
theorem p_isInit (h : Holds σ f) : plain isInit σ = .ok (true, σ) := readOr h.inited rfl
theorem p_poolHash (h : Holds σ f) (k : World.Kind) : ∃ x, plain (poolHash (cfgOf f) k) σ = .ok (x, σ) := by
  cases k
  · exact ⟨_, rfl⟩
  · exact ⟨_, p_getStable h⟩

theorem b_getConfig (h : Blank σ) : plain getConfig σ = .error .panic := got_none (h _ _)
theorem b_isInit (h : Blank σ) : plain isInit σ = .ok (false, σ) := readOr_none (h _ _)

theorem w_saveConfig (c) (σ) : plain (saveConfig c) σ = .ok ((), Store.set σ .pers kConfig (.factoryConfig c)) := writes_keep _ _ σ
theorem w_savePools (l) (σ) : plain (savePools l) σ = .ok ((), Store.set σ .pers kPools (.addrs l)) := writes_keep _ _ σ
theorem w_savePair (a b P) (σ) : plain (savePair a b P) σ = .ok ((), Store.set σ .pers (kPair a b) (.addr P)) := writes_keep _ _ σ
theorem w_saveStable (x) (σ) : plain (saveStable x) σ = .ok ((), Store.set σ .pers kStable (.hash x)) := writes_keep _ _ σ
theorem w_setInit (σ) : plain setInit σ = .ok ((), Store.set σ .pers kInit (.bool true)) := writes_keep _ _ σ

theorem p_lookupOne (o : Option Addr) (a b : Addr) (h : Store.get σ .pers (kPair a b) = o.map .addr) : plain (lookupOne a b) σ = .ok (o, σ) := by
  cases o with
  | none => exact gotOr_none h
  | some P => exact gotOr (x := some P) h rfl

theorem p_lookup (h : Holds σ f) (a b : Addr) : plain (lookup a b) σ = Phoenix.Factory.lookup f a b >>= fun P => .ok (P, σ) := by
  unfold lookup
  rw [plain_bind, plain_keepInst, ok_bind', plain_bind, p_lookupOne _ a b (h.pair a b), ok_bind']
  unfold Phoenix.Factory.lookup Phoenix.Factory.lookupReverted
  cases f.pair a b with
  | some P => rfl
  | none =>
    simp only
    unfold lookupReverted
    rw [plain_bind, p_lookupOne _ b a (h.pair b a), ok_bind']
    cases f.pair b a <;> rfl

theorem b_lookup (h : Blank σ) (a b : Addr) : plain (lookup a b) σ = .error (.code 4) := by
  unfold lookup
  rw [plain_bind, plain_keepInst, ok_bind', plain_bind, p_lookupOne none a b (h _ _), ok_bind']
  simp only
  unfold lookupReverted
  rw [plain_bind, p_lookupOne none b a (h _ _), ok_bind']
  rfl

end reads

/-! Writing one variable -/
section writes
variable {σ : Store} {f : Phoenix.Factory.State}

theorem Holds.saveConfig (h : Holds σ f) {f' : Phoenix.Factory.State} (h1 : f'.pools = f.pools) (h2 : f'.stableHash = f.stableHash)
    (h3 : f'.pair = f.pair) : Holds (Store.set σ .pers kConfig (.factoryConfig (cfgOf f'))) f' where
  config := by rw [get_set]; rfl
  pools := by rw [get_set, if_neg (by simp [kConfig]), h1]; exact h.pools
  inited := by rw [get_set, if_neg (by simp [kConfig])]; exact h.inited
  stable := by rw [get_set, if_neg (by simp [kConfig]), h2]; exact h.stable
  pair := fun a b => by rw [get_set, if_neg (by simp [kConfig, pairKey]), h3]; exact h.pair a b
  only := every_set h.only _ ⟨rfl, .inl (by simp [kConfig])⟩

theorem Holds.saveStable (h : Holds σ f) (x : Nat) : Holds (Store.set σ .pers kStable (.hash x)) { f with stableHash := x } where
  config := by rw [get_set, if_neg (by simp [kStable])]; exact h.config
  pools := by rw [get_set, if_neg (by simp [kStable])]; exact h.pools
  inited := by rw [get_set, if_neg (by simp [kStable])]; exact h.inited
  stable := by rw [get_set]; rfl
  pair := fun a b => by rw [get_set, if_neg (by simp [kStable, pairKey])]; exact h.pair a b
  only := every_set h.only _ ⟨rfl, .inl (by simp [kStable])⟩

theorem Holds.savePools (h : Holds σ f) (l : List Addr) : Holds (Store.set σ .pers kPools (.addrs l)) { f with pools := l } where
  config := by rw [get_set, if_neg (by simp [kPools])]; exact h.config
  pools := by rw [get_set]; rfl
  inited := by rw [get_set, if_neg (by simp [kPools])]; exact h.inited
  stable := by rw [get_set, if_neg (by simp [kPools])]; exact h.stable
  pair := fun a b => by rw [get_set, if_neg (by simp [kPools, pairKey])]; exact h.pair a b
  only := every_set h.only _ ⟨rfl, .inl (by simp [kPools])⟩

theorem Holds.savePair (h : Holds σ f) (a b P : Addr) :
    Holds (Store.set σ .pers (kPair a b) (.addr P)) { f with pair := upd f.pair a (upd (f.pair a) b (some P)) } where
  config := by rw [get_set, if_neg (by simp [kPair])]; exact h.config
  pools := by rw [get_set, if_neg (by simp [kPair])]; exact h.pools
  inited := by rw [get_set, if_neg (by simp [kPair])]; exact h.inited
  stable := by rw [get_set, if_neg (by simp [kPair])]; exact h.stable
  pair := fun x y => by
    show _ = Option.map Cell.addr (upd f.pair a (upd (f.pair a) b (some P)) x y)
    by_cases hx : x = a
    · subst hx
      by_cases hy : y = b
      · subst hy
        rw [get_set, pairKey_eq, if_pos ⟨rfl, rfl⟩, upd_same, upd_same]; rfl
      · rw [get_set, pairKey_eq, if_neg (fun e => hy (kPair_inj.1 e.2).2), upd_same, upd_ne _ _ hy]; exact h.pair x y
    · rw [get_set, pairKey_eq, if_neg (fun e => hx (kPair_inj.1 e.2).1), upd_ne _ _ hx]; exact h.pair x y
  only := every_set h.only _ ⟨rfl, .inr ⟨a, b, rfl⟩⟩

theorem holds_new (h : Blank σ) (c : FactoryConfig) (stb : Nat) :
    Holds (Store.set (Store.set (Store.set (Store.set σ .pers kInit (.bool true)) .pers kConfig (.factoryConfig c)) .pers kStable (.hash stb)) .pers kPools
      (.addrs [])) ⟨c.admin, c.multihop, c.lpHash, stb, c.stakeHash, c.tokenHash, c.whitelist, c.lpDecimals, [], fun _ _ => none⟩ where
  config := by simp [kPools, kStable, kConfig]
  pools := by simp [kPools]
  inited := by simp [kPools, kStable, kConfig, kInit]
  stable := by simp [kPools, kStable]
  pair := fun a b => by simp [kPools, kStable, kConfig, kInit, pairKey, h _ _]
  only := by
    refine every_set (every_set (every_set (every_set (fun d k hk => absurd (h d k) hk) _ ?_) _ ?_) _ ?_) _ ?_
    all_goals exact ⟨rfl, .inl (by simp [kPools, kStable, kConfig, kInit])⟩

end writes

/-- the store holds the factory's variables, and all else is the same -/
def Rel (F : Addr) (a : Store × World) (w : World) : Prop := Stores a.1 (w.fac F) ∧ a.2 = others F w

theorem others_fac (F : Addr) (w : World) (o : Option Phoenix.Factory.State) : others F { w with fac := upd w.fac F o } = others F w := by
  unfold others; simp only [World.upd_upd]

theorem upd_self {w : World} {F : Addr} : upd w.fac F (w.fac F) = w.fac := by
  funext a; rw [upd_apply]; split
  · rename_i e; rw [e]
  · rfl

/-! One transaction -/
section
variable {h : World.Host} {F : Addr} {σ : Store} {w : World} {c : Ctx}

theorem init_alike (hs : Stores σ (w.fac F)) (admin : Addr) (lp stb stk tok : Nat) (wl : List Addr) (dec : Nat) :
    Alike (fun r w' => Rel F (r.2, r.1) w') (plain (init h (others F w) F admin lp stb stk tok wl dec) σ)
      (World.facInit h w F admin lp stb stk tok wl dec) := by
  unfold init World.facInit
  cases hf : w.fac F with
  | some f =>
    rw [hf] at hs
    rw [plain_bind, p_isInit hs]
    exact .fail _ _
  | none =>
    rw [hf] at hs
    simp only [plain_bind, b_isInit hs, plain_liftM, bind_assoc, w_setInit, w_saveConfig, w_saveStable, w_savePools, plain_pure, ok_bind', others_view, World.deploy_view]
    refine Alike.bind_same (fun _ _ => Alike.bind_same (fun _ _ => Alike.bind_map (fun w1 _ => Alike.bind_same (fun m _ => ?_))))
    refine ⟨?_, ?_⟩
    · simp only [upd_same]
      exact holds_new hs _ stb
    · show _ = others F { w1 with hop := _, fac := upd w1.fac F _ }
      unfold others
      simp only [World.upd_upd]
      rfl

theorem create_alike (hs : Stores σ (w.fac F)) (sender : Addr) (i : World.Info) (k : World.Kind) (amp : Option Nat) (sl mf : Int) :
    Alike (fun r w' => Rel F (r.2, r.1) w') (plain (create h (others F w) c F sender i k amp sl mf) σ)
      (World.create h w c F sender i k amp sl mf >>= fun r => .ok r.1) := by
  unfold create World.create
  cases hf : w.fac F with
  | none =>
    rw [hf] at hs
    simp only [plain_bind, plain_liftM, plain_keepInst, bind_assoc, ok_bind', b_getConfig hs]
    exact Alike.bind_same (fun _ _ => Alike.bind_same (fun _ _ => .fail _ _))
  | some f =>
    rw [hf] at hs
    have hs : Holds σ f := hs
    obtain ⟨x, hx⟩ := p_poolHash hs k
    simp only [plain_bind, plain_liftM, plain_keepInst, bind_assoc, ok_bind', p_getConfig hs, hx, p_getPools hs, w_savePools, w_savePair, plain_pure,
      others_view, World.deploy_view, Phoenix.Factory.loaded]
    refine Alike.bind_same (fun _ _ => Alike.bind_same (fun _ _ => Alike.bind_same (fun _ _ => Alike.bind_same (fun _ _ => Alike.bind_map (fun w1 _ => ?_)))))
    iterate 6 refine Alike.bind_same (fun _ _ => ?_)
    rw [World.initPool_view]
    refine Alike.bind_map (fun w2 _ => ⟨?_, ?_⟩)
    · simp only [upd_same]
      exact (hs.savePools (f.pools ++ [h.poolAddr F i.tokenA i.tokenB])).savePair i.tokenA i.tokenB (h.poolAddr F i.tokenA i.tokenB)
    · exact (others_fac F w2 _).symm

theorem whitelist_alike (hs : Stores σ (w.fac F)) (sender : Addr) (add rem : List Addr) :
    Alike (fun r w' => Rel F (r.2, others F w) w') (plain (whitelist c sender add rem) σ)
      (do let f ← Phoenix.Factory.loaded (w.fac F)
          let f' ← Phoenix.Factory.updateWhitelist c f sender add rem
          .ok { w with fac := upd w.fac F (some f') }) := by
  unfold whitelist Phoenix.Factory.updateWhitelist
  cases hf : w.fac F with
  | none =>
    rw [hf] at hs
    simp only [plain_bind, plain_liftM, plain_keepInst, bind_assoc, ok_bind', b_getConfig hs]
    cases requireAuth c sender <;> exact .fail _ _
  | some f =>
    rw [hf] at hs
    have hs : Holds σ f := hs
    simp only [plain_bind, plain_liftM, plain_keepInst, bind_assoc, ok_bind', p_getConfig hs, w_saveConfig, Phoenix.Factory.loaded]
    refine Alike.bind_same (fun _ _ => Alike.bind_same (fun _ _ => ⟨?_, (others_fac F w _).symm⟩))
    simp only [upd_same]
    exact hs.saveConfig (f' := { f with whitelist := Phoenix.Factory.removeAll (Phoenix.Factory.addAll f.whitelist add) rem }) rfl rfl rfl

theorem hashes_alike (hs : Stores σ (w.fac F)) (lp stk tok : Option Nat) :
    Alike (fun r w' => Rel F (r.2, others F w) w') (plain (hashes c lp stk tok) σ)
      (do let f ← Phoenix.Factory.loaded (w.fac F)
          let f' ← Phoenix.Factory.updateHashes c f lp stk tok
          .ok { w with fac := upd w.fac F (some f') }) := by
  unfold hashes Phoenix.Factory.updateHashes
  cases hf : w.fac F with
  | none =>
    rw [hf] at hs
    rw [plain_bind, b_getConfig hs]
    exact .fail _ _
  | some f =>
    rw [hf] at hs
    have hs : Holds σ f := hs
    simp only [plain_bind, plain_liftM, plain_keepInst, bind_assoc, ok_bind', p_getConfig hs, w_saveConfig, Phoenix.Factory.loaded]
    refine Alike.bind_same (fun _ _ => ⟨?_, (others_fac F w _).symm⟩)
    simp only [upd_same]
    exact hs.saveConfig (f' := { f with lpHash := lp.getD f.lpHash, stakeHash := stk.getD f.stakeHash, tokenHash := tok.getD f.tokenHash }) rfl rfl rfl

theorem update_alike (hs : Stores σ (w.fac F)) (stb : Nat) :
    Alike (fun r w' => Rel F (r.2, others F w) w') (plain (update c stb) σ)
      (do let f ← Phoenix.Factory.loaded (w.fac F)
          let f' ← Phoenix.Factory.update c f stb
          .ok { w with fac := upd w.fac F (some f') }) := by
  unfold update Phoenix.Factory.update
  cases hf : w.fac F with
  | none =>
    rw [hf] at hs
    rw [plain_bind, b_getConfig hs]
    exact .fail _ _
  | some f =>
    rw [hf] at hs
    have hs : Holds σ f := hs
    simp only [plain_bind, plain_liftM, bind_assoc, ok_bind', p_getConfig hs, w_saveStable, Phoenix.Factory.loaded]
    refine Alike.bind_same (fun _ _ => ⟨?_, (others_fac F w _).symm⟩)
    simp only [upd_same]
    exact hs.saveStable stb

theorem poolSwap_fac {w w' : World} {c : Ctx} {P s o : Addr} {x r : Int} {mi sp : Option Int} {dl : Option Nat} {mf : Option Int}
    (h : World.poolSwap w c P s o x mi sp dl mf = .ok (w', r)) : w'.fac = w.fac := by
  unfold World.poolSwap at h
  split at h
  · simp only [bind_ok] at h
    obtain ⟨_, _, ⟨_, _, _⟩, _, h⟩ := h
    cases h; rfl
  · simp only [bind_ok] at h
    obtain ⟨_, _, ⟨_, _, _⟩, _, h⟩ := h
    cases h; rfl
  · cases h

theorem hopLoop_fac {w : World} {c : Ctx} {G r : Addr} {sp : Option Int} {dl : Option Nat} {mf : Option Int} {ops : List Multihop.Op} {x : Int}
    {q : World × Int} (h : World.hopLoop w c G r sp dl mf ops x = .ok q) : q.1.fac = w.fac := by
  induction ops generalizing w x with
  | nil => cases h; rfl
  | cons op ops ih =>
    unfold World.hopLoop at h
    simp only [bind_ok] at h
    obtain ⟨_, _, ⟨w1, y⟩, h1, h2⟩ := h
    exact (ih h2).trans (poolSwap_fac h1)

theorem routeLoop_alike (hs : Stores σ (w.fac F)) (r : Addr) (sp : Option Int) (dl : Option Nat) (mf : Option Int) (ops : List Multihop.Op) (x : Int) :
    Alike (fun r w' => Rel F (r.2, r.1) w') (plain (routeLoop (others F w) c F r sp dl mf ops x) σ)
      (World.hopLoop w c F r sp dl mf ops x >>= fun r => .ok r.1) := by
  induction ops generalizing w x with
  | nil => exact ⟨hs, rfl⟩
  | cons op ops ih =>
    unfold routeLoop World.hopLoop World.findPool
    simp only [plain_bind, plain_liftM, bind_assoc, ok_bind', others_view, World.expect_view]
    refine Alike.bind_same (fun _ _ => ?_)
    cases hf : w.fac F with
    | none =>
      rw [hf] at hs
      rw [b_lookup hs]
      exact .fail _ _
    | some f =>
      rw [hf] at hs
      have hs : Holds σ f := hs
      simp only [p_lookup hs, bind_assoc, ok_bind', Phoenix.Factory.loaded, World.poolSwap_view]
      refine Alike.bind_same (fun P _ => Alike.bind_map (fun r hr => ?_))
      have e := poolSwap_fac (w' := r.1) (r := r.2) hr
      exact ih (by rw [e, hf]; exact hs) _

theorem route_alike (hs : Stores σ (w.fac F)) (H r : Addr) (ops : List Multihop.Op) (sp : Option Int) (x : Int) (dl : Option Nat) (mf : Option Int) :
    Alike (fun r w' => Rel F (r.2, r.1) w') (plain (route (others F w) c F H r ops sp x dl mf) σ)
      (World.hopSwap w c H r ops sp x dl mf >>= fun r => .ok r.1) := by
  unfold route World.hopSwap
  simp only [plain_bind, plain_liftM, bind_assoc, ok_bind']
  refine Alike.bind_same (fun _ _ => Alike.bind_same (fun _ _ => Alike.bind_same (fun _ _ => Alike.bind_same (fun m _ => ?_))))
  by_cases e : m.factory = F
  · rw [if_pos e, e]
    exact routeLoop_alike hs r sp dl mf ops x
  · rw [if_neg e]
    simp only [plain_bind, plain_liftM, bind_assoc, ok_bind', others_view, World.hopLoop_view w _ (World.free_upd e none)]
    refine Alike.bind_map (fun r hr => ⟨?_, rfl⟩)
    have : r.1.fac = w.fac := hopLoop_fac hr
    simp only [this]
    exact hs

/-- a transaction that leaves the factory alone -/
theorem other_alike (hs : Stores σ (w.fac F)) {k : Call} (hi : ∀ v, Indep (fun m => upd m F v) id id h w k) :
    Alike (fun r w' => Rel F (r.2, r.1) w') (plain (lift (World.step h (others F w) c k)) σ) (World.step h w c k) := by
  rw [plain_lift, others_view, World.step_view w c k (hi none)]
  cases hw : World.step h w c k with
  | error e => exact trivial
  | ok w' =>
    refine ⟨?_, rfl⟩
    have e := World.step_view w c k (hi (w.fac F))
    have e0 : view (fun m => upd m F (w.fac F)) id id w = w := by
      unfold view
      simp only [upd_self, id]
    rw [e0, hw] at e
    have e1 : w' = view (fun m => upd m F (w.fac F)) id id w' := by
      injection e
    have e2 : w'.fac F = w.fac F := by
      rw [e1]
      exact upd_same _ _ _
    simp only [e2]
    exact hs

theorem expect_others (h' : World.Code) (A : Addr) : World.expect (others F w) A h' = World.expect w A h' := rfl

theorem prog_alike (hs : Stores σ (w.fac F)) (t : Tx) :
    Alike (fun r w' => Rel F (r.2, r.1) w') (plain (prog h F t (others F w)) σ) (World.step h w t.ctx t.call) := by
  obtain ⟨c, k⟩ := t
  unfold prog
  simp only
  cases k with
  | facInit F' admin lp stb stk tok wl dec =>
    simp only
    by_cases e : F' = F
    · subst e
      rw [if_pos rfl, plain_bind, plain_liftM, expect_others]
      simp only [World.step, bind_assoc, ok_bind']
      exact Alike.bind_same fun _ _ => init_alike hs ..
    · rw [if_neg e]
      exact other_alike hs fun v => ⟨World.free_upd e v, World.free_id _⟩
  | create F' sender i k amp sl mf =>
    simp only
    by_cases e : F' = F
    · subst e
      rw [if_pos rfl, plain_bind, plain_liftM, expect_others]
      simp only [World.step, bind_assoc, ok_bind']
      exact Alike.bind_same fun _ _ => create_alike hs ..
    · rw [if_neg e]
      exact other_alike hs fun v => World.free_upd e v
  | whitelist F' sender add rem =>
    simp only
    by_cases e : F' = F
    · subst e
      rw [if_pos rfl]
      simp only [World.step, plain_bind, plain_liftM, plain_pure, bind_assoc, ok_bind', expect_others]
      exact Alike.bind_same fun _ _ => Alike.pass (whitelist_alike hs ..)
    · rw [if_neg e]
      exact other_alike hs fun v => World.free_upd e v
  | hashes F' lp stk tok =>
    simp only
    by_cases e : F' = F
    · subst e
      rw [if_pos rfl]
      simp only [World.step, plain_bind, plain_liftM, plain_pure, bind_assoc, ok_bind', expect_others]
      exact Alike.bind_same fun _ _ => Alike.pass (hashes_alike hs ..)
    · rw [if_neg e]
      exact other_alike hs fun v => World.free_upd e v
  | facUpdate F' stb =>
    simp only
    by_cases e : F' = F
    · subst e
      rw [if_pos rfl]
      simp only [World.step, plain_bind, plain_liftM, plain_pure, bind_assoc, ok_bind', expect_others]
      exact Alike.bind_same fun _ _ => Alike.pass (update_alike hs ..)
    · rw [if_neg e]
      exact other_alike hs fun v => World.free_upd e v
  | hopSwap H r ops sp x dl mf =>
    simp only [World.step, plain_bind, plain_liftM, bind_assoc, ok_bind', expect_others]
    exact Alike.bind_same fun _ _ => route_alike hs ..
  | hopInit H a F' => exact other_alike hs fun v => World.free_id _
  | trdInit T a x y o => exact other_alike hs fun v => World.free_id _
  | trade T a b d e f g i j => exact other_alike hs fun v => World.free_id _
  | trdTransfer T a b d e => exact other_alike hs fun v => World.free_id _
  | token _ _ => exact other_alike hs fun v => trivial
  | xykInit _ _ _ _ _ _ => exact other_alike hs fun v => trivial
  | xyk _ _ => exact other_alike hs fun v => trivial
  | stableInit _ _ _ _ _ => exact other_alike hs fun v => trivial
  | stable _ _ => exact other_alike hs fun v => trivial
  | stake _ _ => exact other_alike hs fun v => trivial
  | vest _ _ => exact other_alike hs fun v => trivial
  | rewards _ _ => exact other_alike hs fun v => trivial

theorem step_alike (hs : Stores σ (w.fac F)) (t : Tx) :
    Alike (Rel F) (plainStep (contract h F) (σ, others F w) t) (World.step h w t.ctx t.call) := by
  have := prog_alike (h := h) hs t
  show Alike (Rel F) (plain (prog h F t (others F w)) σ >>= fun r => .ok (r.2, r.1)) _
  revert this
  cases plain (prog h F t (others F w)) σ <;> cases World.step h w t.ctx t.call <;> exact id

end

/-- a program that only reads first -/
theorem Reads.split {α β : Type} {p : Prog α} {g : Store → Res α} {f : α → Prog β} {σ : Store} {r : β × Store} (hp : Reads p g)
    (h : plain (p >>= f) σ = .ok r) : ∃ a, g σ = .ok a ∧ plain p σ = .ok (a, σ) ∧ plain (f a) σ = .ok r := by
  rw [hp.bind, bind_ok] at h
  obtain ⟨a, h1, h2⟩ := h
  exact ⟨a, h1, by rw [hp σ, h1]; rfl, h2⟩

/-! The entries used -/
section
variable {h : World.Host} {F : Addr} {σ : Store} {w : World} {c : Ctx}

theorem u_init (h : World.Host) (w : World) (F admin : Addr) (lp stb stk tok : Nat) (wl : List Addr) (dec : Nat) :
    Uses (init h w F admin lp stb stk tok wl dec) [kConfig, kPools, kInit, kStable] := by
  refine Uses.congr (S := [kInit] ++ ([kInit] ++ ([kConfig] ++ ([kStable] ++ ([kPools] ++ []))))) ?_ (fun k => by simp; tauto)
  exact (Uses.fetchOr (.read kInit)).bind fun _ => .skip (.liftM _) fun _ => .skip (.liftM _) fun _ => (Uses.save kInit _).bind fun _ =>
    .skip (.liftM _) fun _ => .skip (.liftM _) fun _ => (Uses.save kConfig _).bind fun _ => (Uses.save kStable _).bind fun _ =>
    (Uses.save kPools _).bind fun _ => .pure _

theorem u_poolHash (cfg : FactoryConfig) (k : World.Kind) : Uses (poolHash cfg k) (if k = .stable then [kStable] else []) := by
  cases k
  · exact .pure _
  · exact Uses.get kStable _ _

theorem u_create (h : World.Host) (w : World) (c : Ctx) (F sender : Addr) (i : World.Info) (k : World.Kind) (amp : Option Nat) (sl mf : Int) :
    Uses (create h w c F sender i k amp sl mf) (kConfig :: kPools :: kPair i.tokenA i.tokenB :: (if k = .stable then [kStable] else [])) := by
  refine Uses.congr (S := [kConfig] ++ ([kConfig] ++ ((if k = .stable then [kStable] else []) ++ ([kPools] ++ ([kPools] ++
    ([kPair i.tokenA i.tokenB] ++ [])))))) ?_ (fun k => by simp only [List.mem_append, List.mem_cons, List.not_mem_nil, or_false]; tauto)
  exact .skip (.liftM _) fun _ => .skip .keepInst fun _ => .skip (.liftM _) fun _ => (Uses.get kConfig _ _).bind fun _ => .skip (.liftM _) fun _ =>
    .skip (.liftM _) fun _ => (Uses.get kConfig _ _).bind fun _ => (u_poolHash _ k).bind fun _ => .skip (.liftM _) fun _ =>
    .skip (.liftM _) fun _ => .skip (.liftM _) fun _ => .skip (.liftM _) fun _ => .skip (.liftM _) fun _ => .skip (.liftM _) fun _ =>
    .skip (.liftM _) fun _ => .skip (.liftM _) fun _ => (Uses.get kPools _ _).bind fun _ => (Uses.save kPools _).bind fun _ =>
    (Uses.save (kPair i.tokenA i.tokenB) _).bind fun _ => .pure _

theorem u_whitelist (c : Ctx) (s : Addr) (a r : List Addr) : Uses (whitelist c s a r) [kConfig] := by
  refine Uses.congr (S := [kConfig] ++ [kConfig]) ?_ (fun k => by simp)
  exact .skip (.liftM _) fun _ => .skip .keepInst fun _ => (Uses.get kConfig _ _).bind fun _ => .skip (.liftM _) fun _ => Uses.save kConfig _

theorem u_hashes (c : Ctx) (a b d : Option Nat) : Uses (hashes c a b d) [kConfig] := by
  refine Uses.congr (S := [kConfig] ++ [kConfig]) ?_ (fun k => by simp)
  exact (Uses.get kConfig _ _).bind fun _ => .skip (.liftM _) fun _ => .skip .keepInst fun _ => Uses.save kConfig _

theorem u_update (c : Ctx) (x : Nat) : Uses (update c x) [kConfig, kStable] := by
  refine Uses.congr (S := [kConfig] ++ [kStable]) ?_ (fun k => by simp)
  exact (Uses.get kConfig _ _).bind fun _ => .skip (.liftM _) fun _ => Uses.save kStable _

/-- the entries that a lookup that finds a pool uses -/
theorem lookup_uses {f : Phoenix.Factory.State} (hs : Holds σ f) {a b P : Addr} {σ' : Store} (hp : plain (lookup a b) σ = .ok (P, σ')) (k : Key) :
    σ' = σ ∧ (k ∈ touched (lookup a b) σ ↔ k ∈ asked (some f) a b) := by
  have hq := hp
  rw [p_lookup hs, bind_ok] at hq
  obtain ⟨_, -, hq⟩ := hq
  cases hq
  refine ⟨rfl, ?_⟩
  unfold lookup at hp ⊢
  have e1 : plain keepInst σ = .ok ((), σ) := rfl
  have e2 := p_lookupOne (f.pair a b) a b (hs.pair a b)
  have u1 : Uses (lookupOne a b) [kPair a b] := Uses.getOr (kPair a b) _ _
  rw [plain_bind, e1, ok_bind', plain_bind, e2, ok_bind'] at hp
  rw [touched_bind _ _ _ e1, touched_bind _ _ _ e2, List.mem_append, List.mem_append, Uses.keepInst _ _ _ e1, u1 _ _ _ e2]
  unfold asked
  cases hf : f.pair a b with
  | some Q =>
    rw [hf] at hp
    simp only [Option.bind_some, hf, Option.isSome_some, if_true]
    show _ ∨ _ ∨ k ∈ [] ↔ _
    simp [pairKey_eq]
  | none =>
    rw [hf] at hp
    simp only [Option.bind_some, hf, Option.isSome_none, Bool.false_eq_true, if_false]
    have u2 : Uses (lookupReverted a b) ([kPair b a] ++ []) := (Uses.getOr (kPair b a) _ _).bind fun o => by
      cases o with
      | none => exact .fail _ _
      | some Q => exact .pure _
    rw [u2 _ _ _ hp k]
    simp [pairKey_eq]

theorem routeLoop_uses (hs : Stores σ (w.fac F)) {r : Addr} {sp : Option Int} {dl : Option Nat} {mf : Option Int} {ops : List Multihop.Op} {x : Int}
    {q : World × Store} (hp : plain (routeLoop (others F w) c F r sp dl mf ops x) σ = .ok q) (k : Key) :
    k ∈ touched (routeLoop (others F w) c F r sp dl mf ops x) σ ↔ k ∈ ops.flatMap (fun op => asked (w.fac F) op.offer op.ask) := by
  induction ops generalizing w x with
  | nil => exact Iff.rfl
  | cons op ops ih =>
    unfold routeLoop at hp ⊢
    rw [plain_bind, bind_ok] at hp
    obtain ⟨⟨_, σ1⟩, h1, hp⟩ := hp
    have h1' := h1
    rw [plain_liftM, bind_ok] at h1'
    obtain ⟨_, -, h1'⟩ := h1'
    cases h1'
    rw [plain_bind, bind_ok] at hp
    obtain ⟨⟨P, σ2⟩, h2, hp⟩ := hp
    cases hf : w.fac F with
    | none =>
      rw [hf] at hs
      rw [b_lookup hs] at h2
      cases h2
    | some f =>
      rw [hf] at hs
      have hs : Holds σ f := hs
      obtain ⟨rfl, h3⟩ := lookup_uses hs h2 k
      rw [plain_bind, bind_ok] at hp
      obtain ⟨⟨⟨w1, y⟩, σ3⟩, h4, hp⟩ := hp
      have h4' := h4
      rw [plain_liftM, bind_ok] at h4'
      obtain ⟨⟨w1', y'⟩, h5, h4'⟩ := h4'
      cases h4'
      rw [others_view, World.poolSwap_view] at h5
      cases h6 : World.poolSwap w c P r op.offer x op.min sp dl mf with
      | error e => rw [h6] at h5; cases h5
      | ok q' =>
        obtain ⟨w2, y2⟩ := q'
        rw [h6] at h5
        cases h5
        have e := poolSwap_fac h6
        have := ih (w := w2) (x := y2) (by rw [e, hf]; exact hs) hp
        rw [touched_bind _ _ _ h1, touched_bind _ _ _ h2, touched_bind _ _ _ h4, List.mem_append, List.mem_append, List.mem_append,
          Uses.liftM _ _ _ _ h1, Uses.liftM _ _ _ _ h4, h3, List.flatMap_cons, List.mem_append]
        rw [e, hf] at this
        simp only [List.not_mem_nil, false_or]
        exact or_congr Iff.rfl this

theorem touched_iff (hs : Stores σ (w.fac F)) {t : Tx} {q : World × Store} (hp : plain (prog h F t (others F w)) σ = .ok q) (k : Key) :
    k ∈ touched (prog h F t (others F w)) σ ↔ k ∈ uses F w t := by
  have hn : ∀ {x : Res World} {q : World × Store}, plain (lift x) σ = .ok q → (k ∈ touched (lift x) σ ↔ k ∈ []) := fun hp => Uses.lift _ _ _ _ hp k
  obtain ⟨c, cl⟩ := t
  unfold prog at hp ⊢
  simp only at hp ⊢
  unfold uses
  cases cl with
  | facInit F' admin lp stb stk tok wl dec =>
    simp only at hp ⊢
    by_cases e : F' = F
    · rw [if_pos e] at hp ⊢
      rw [if_pos e]
      exact (Uses.skip (.liftM _) fun _ => u_init _ _ _ _ _ _ _ _ _ _) _ _ _ hp k
    · rw [if_neg e] at hp ⊢
      rw [if_neg e]
      exact hn hp
  | create F' sender i kd amp sl mf =>
    simp only at hp ⊢
    by_cases e : F' = F
    · rw [if_pos e] at hp ⊢
      rw [if_pos e]
      exact (Uses.skip (.liftM _) fun _ => u_create _ _ _ _ _ _ _ _ _ _) _ _ _ hp k
    · rw [if_neg e] at hp ⊢
      rw [if_neg e]
      exact hn hp
  | whitelist F' sender add rem =>
    simp only at hp ⊢
    by_cases e : F' = F
    · rw [if_pos e] at hp ⊢
      rw [if_pos e]
      exact (Uses.skip (.liftM _) fun _ => (u_whitelist _ _ _ _).bind (S' := []) fun _ => .pure _) _ _ _ hp k
    · rw [if_neg e] at hp ⊢
      rw [if_neg e]
      exact hn hp
  | hashes F' lp stk tok =>
    simp only at hp ⊢
    by_cases e : F' = F
    · rw [if_pos e] at hp ⊢
      rw [if_pos e]
      exact (Uses.skip (.liftM _) fun _ => (u_hashes _ _ _ _).bind (S' := []) fun _ => .pure _) _ _ _ hp k
    · rw [if_neg e] at hp ⊢
      rw [if_neg e]
      exact hn hp
  | facUpdate F' stb =>
    simp only at hp ⊢
    by_cases e : F' = F
    · rw [if_pos e] at hp ⊢
      rw [if_pos e]
      exact (Uses.skip (.liftM _) fun _ => (u_update _ _).bind (S' := []) fun _ => .pure _) _ _ _ hp k
    · rw [if_neg e] at hp ⊢
      rw [if_neg e]
      exact hn hp
  | hopSwap H r ops sp x dl mf =>
    simp only at hp ⊢
    unfold route at hp ⊢
    obtain ⟨_, g1, p1, hp⟩ := Reads.split (reads_lift _) hp
    obtain ⟨_, g2, p2, hp⟩ := Reads.split (reads_lift _) hp
    obtain ⟨_, g3, p3, hp⟩ := Reads.split (reads_lift _) hp
    obtain ⟨_, g4, p4, hp⟩ := Reads.split (reads_lift _) hp
    obtain ⟨m, g5, p5, hp⟩ := Reads.split (reads_lift _) hp
    rw [touched_bind _ _ _ p1, touched_bind _ _ _ p2, touched_bind _ _ _ p3, touched_bind _ _ _ p4, touched_bind _ _ _ p5]
    simp only [List.mem_append, Uses.liftM _ _ _ _ p1, Uses.liftM _ _ _ _ p2, Uses.liftM _ _ _ _ p3, Uses.liftM _ _ _ _ p4, Uses.liftM _ _ _ _ p5,
      List.not_mem_nil, false_or]
    have hm : w.hop H = some m := by
      have g5 : Multihop.loaded (w.hop H) = .ok m := g5
      unfold Multihop.loaded at g5
      cases hw : w.hop H with
      | none => rw [hw] at g5; cases g5
      | some m' => rw [hw] at g5; cases g5; rfl
    rw [hm]
    simp only [Option.map_some, Option.some.injEq]
    by_cases e : m.factory = F
    · rw [if_pos e] at hp ⊢
      rw [if_pos e]
      exact routeLoop_uses hs hp k
    · rw [if_neg e] at hp ⊢
      rw [if_neg e]
      exact (Uses.skip (.liftM _) fun _ => .pure _) _ _ _ hp k
  | hopInit H a F' => exact hn hp
  | trdInit T a x y o => exact hn hp
  | trade T a b d e f g i j => exact hn hp
  | trdTransfer T a b d e => exact hn hp
  | token _ _ => exact hn hp
  | xykInit _ _ _ _ _ _ => exact hn hp
  | xyk _ _ => exact hn hp
  | stableInit _ _ _ _ _ => exact hn hp
  | stable _ _ => exact hn hp
  | stake _ _ => exact hn hp
  | vest _ _ => exact hn hp
  | rewards _ _ => exact hn hp

/-! Upkeep -/

theorem k_lookupOne {X : Key → Prop} (a b : Addr) : Keeps X (lookupOne a b) := keeps_getOr _ _ _
theorem k_lookupReverted {X : Key → Prop} (a b : Addr) : Keeps X (lookupReverted a b) := (k_lookupOne b a).bind fun o => by
  cases o with
  | some P => exact .pure _
  | none => exact .fail _
theorem k_lookup {X : Key → Prop} (a b : Addr) : Keeps X (lookup a b) := Keeps.keepInst.bind fun _ => (k_lookupOne a b).bind fun o => by
  cases o with
  | some P => exact .pure _
  | none => exact k_lookupReverted a b

theorem k_routeLoop {X : Key → Prop} (w : World) (c : Ctx) (F r : Addr) (sp : Option Int) (dl : Option Nat) (mf : Option Int) (ops : List Multihop.Op) (x : Int) :
    Keeps X (routeLoop w c F r sp dl mf ops x) := by
  induction ops generalizing w x with
  | nil => exact .pure _
  | cons op ops ih => exact (Keeps.liftM _).bind fun _ => (k_lookup _ _).bind fun _ => (Keeps.liftM _).bind fun _ => ih _ _

theorem k_init {X : Key → Prop} (h : World.Host) (w : World) (F admin : Addr) (lp stb stk tok : Nat) (wl : List Addr) (dec : Nat) :
    Keeps X (init h w F admin lp stb stk tok wl dec) :=
  Keeps.absorb (k := kInit) (.fetchOr' (.read (.inr rfl)))
    (fun _ => (Keeps.liftM _).bind fun _ => (Keeps.liftM _).bind fun _ => (keeps_save kInit _).bind fun _ => (Keeps.liftM _).bind fun _ =>
      (Keeps.liftM _).bind fun _ => (keeps_save kConfig _).bind fun _ => (keeps_save kStable _).bind fun _ => (keeps_save kPools _).bind fun _ => .pure _)
    (fun _ => .right fun _ => .right fun _ => Touches.left (.right fun _ => .keep kInit))

theorem k_poolHash {X : Key → Prop} (cfg : FactoryConfig) (k : World.Kind) : Keeps X (poolHash cfg k) := by
  cases k
  · exact .pure _
  · exact keeps_get kStable _ _

theorem k_create {X : Key → Prop} (h : World.Host) (w : World) (c : Ctx) (F sender : Addr) (i : World.Info) (k : World.Kind) (amp : Option Nat) (sl mf : Int) :
    Keeps X (create h w c F sender i k amp sl mf) :=
  (Keeps.liftM _).bind fun _ => Keeps.keepInst.bind fun _ => (Keeps.liftM _).bind fun _ => (keeps_get kConfig _ _).bind fun _ => (Keeps.liftM _).bind fun _ =>
    (Keeps.liftM _).bind fun _ => (keeps_get kConfig _ _).bind fun _ => (k_poolHash _ k).bind fun _ => (Keeps.liftM _).bind fun _ =>
    (Keeps.liftM _).bind fun _ => (Keeps.liftM _).bind fun _ => (Keeps.liftM _).bind fun _ => (Keeps.liftM _).bind fun _ => (Keeps.liftM _).bind fun _ =>
    (Keeps.liftM _).bind fun _ => (Keeps.liftM _).bind fun _ => (keeps_get kPools _ _).bind fun _ => (keeps_save kPools _).bind fun _ =>
    (keeps_save (kPair i.tokenA i.tokenB) _).bind fun _ => .pure _

theorem keeps (h : World.Host) (F : Addr) (t : Tx) (w : World) : Keeps (fun _ => False) ((contract h F).prog t w) := by
  obtain ⟨c, k⟩ := t
  show Keeps _ (prog h F ⟨c, k⟩ w)
  unfold prog
  simp only
  cases k with
  | facInit F' admin lp stb stk tok wl dec =>
    simp only
    split
    · exact (Keeps.liftM _).bind fun _ => k_init _ _ _ _ _ _ _ _ _ _
    · exact .lift _
  | create F' sender i kd amp sl mf =>
    simp only
    split
    · exact (Keeps.liftM _).bind fun _ => k_create _ _ _ _ _ _ _ _ _ _
    · exact .lift _
  | whitelist F' sender add rem =>
    simp only
    split
    · exact (Keeps.liftM _).bind fun _ => Keeps.bind ((Keeps.liftM _).bind fun _ => Keeps.keepInst.bind fun _ => (keeps_get kConfig _ _).bind fun _ =>
        (Keeps.liftM _).bind fun _ => keeps_save kConfig _) fun _ => .pure _
    · exact .lift _
  | hashes F' lp stk tok =>
    simp only
    split
    · exact (Keeps.liftM _).bind fun _ => Keeps.bind ((keeps_get kConfig _ _).bind fun _ => (Keeps.liftM _).bind fun _ => Keeps.keepInst.bind fun _ =>
        keeps_save kConfig _) fun _ => .pure _
    · exact .lift _
  | facUpdate F' stb =>
    simp only
    split
    · exact (Keeps.liftM _).bind fun _ => Keeps.bind ((keeps_get kConfig _ _).bind fun _ => (Keeps.liftM _).bind fun _ => keeps_save kStable _) fun _ => .pure _
    · exact .lift _
  | hopSwap H r ops sp x dl mf =>
    simp only
    refine (Keeps.liftM _).bind fun _ => (Keeps.liftM _).bind fun _ => (Keeps.liftM _).bind fun _ => (Keeps.liftM _).bind fun _ =>
      (Keeps.liftM _).bind fun m => ?_
    split
    · exact k_routeLoop _ _ _ _ _ _ _ _ _
    · exact (Keeps.liftM _).bind fun _ => .pure _
  | _ => exact .lift _

theorem ki_routeLoop (w : World) (c : Ctx) (F r : Addr) (sp : Option Int) (dl : Option Nat) (mf : Option Int) {ops : List Multihop.Op} (ho : ops ≠ []) (x : Int) :
    KeepsInst (routeLoop w c F r sp dl mf ops x) := by
  cases ops with
  | nil => exact absurd rfl ho
  | cons op ops => exact .right fun _ => .left (.left .keepInst)

theorem keepsInst (h : World.Host) (F : Addr) (t : Tx) (w : World) (ht : extendsInst F w t = true) : KeepsInst ((contract h F).prog t w) := by
  obtain ⟨c, k⟩ := t
  show KeepsInst (prog h F ⟨c, k⟩ w)
  unfold prog
  simp only
  unfold extendsInst callsOf at ht
  cases k with
  | create F' sender i kd amp sl mf =>
    simp only [decide_eq_true_eq] at ht ⊢
    rw [if_pos ht]
    exact .right fun _ => .right fun _ => .left .keepInst
  | whitelist F' sender add rem =>
    simp only [decide_eq_true_eq] at ht ⊢
    rw [if_pos ht]
    exact .right fun _ => .left (.right fun _ => .left .keepInst)
  | hashes F' lp stk tok =>
    simp only [decide_eq_true_eq] at ht ⊢
    rw [if_pos ht]
    exact .right fun _ => .left (.right fun _ => .right fun _ => .left .keepInst)
  | hopSwap H r ops sp x dl mf =>
    simp only [decide_eq_true_eq] at ht ⊢
    cases hw : w.hop H with
    | none => rw [hw] at ht; cases ht
    | some m =>
      rw [hw] at ht
      simp only [Option.map_some, Option.some.injEq] at ht
      refine .right fun _ => .lift_bind fun _ ho => .right fun _ => .right fun _ => .lift_bind fun m' hm => ?_
      rw [hw] at hm
      cases hm
      rw [if_pos ht]
      exact ki_routeLoop _ _ _ _ _ _ _ (req_ok.1 ho) _
  | _ => simp at ht

end

end Phoenix.Life.Factory
