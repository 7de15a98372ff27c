import Verif.Spec.LifeVesting
import Verif.Lemmas.Life
import Verif.Props.StoreVesting
import Verif.Props.AvailVesting
/-! The vesting contract with lifetimes against the one without. -/
namespace Phoenix.Life.Vesting
open Phoenix Phoenix.Store Phoenix.Life Phoenix.Life.Spec
open Phoenix.Store.Vesting (kAdmin kMinter kToken kComplexity kInit kSched kSched_inj)

theorem w_saveAdmin (a) : Writes (saveAdmin a) (fun σ => Store.Vesting.saveAdmin σ a) := writes_keep _ _
theorem r_getAdmin : Reads getAdmin Store.Vesting.getAdmin := reads_fetch_keep _ _ _
theorem w_updateVesting (a i x) : Writes (updateVesting a i x) (fun σ => Store.Vesting.updateVesting σ a i x) := writes_keep _ _
theorem r_getVesting (a i) : Reads (getVesting a i) (fun σ => Store.Vesting.getVesting σ a i) := reads_fetch_keep _ _ _
theorem w_saveMinter (m) : Writes (saveMinter m) (fun σ => Store.Vesting.saveMinter σ m) := writes_instLong _ _
theorem r_getMinter : Reads getMinter Store.Vesting.getMinter := by
  intro σ
  unfold getMinter Store.Vesting.getMinter
  rw [plain_bind, plain_fetchOr]
  simp only [Place.dur, loadOr]
  cases Store.get σ .inst kMinter with
  | none => rfl
  | some c => simp only; cases asMinter c <;> rfl
theorem w_saveToken (a) : Writes (saveToken a) (fun σ => Store.Vesting.saveToken σ a) := writes_instLong _ _
theorem r_getToken : Reads getToken Store.Vesting.getToken := reads_fetchInst_long _ _ _
theorem w_saveComplexity (n) : Writes (saveComplexity n) (fun σ => Store.Vesting.saveComplexity σ n) := writes_instLong _ _
theorem r_getComplexity : Reads getComplexity Store.Vesting.getComplexity := reads_fetchInst_long _ _ _
theorem r_isInit : Reads isInit Store.Vesting.isInit := plain_fetchOr _ _ _ _
theorem w_setInit : Writes setInit Store.Vesting.setInit := writes_instLong _ _
theorem w_putMinter (m) : Writes (putMinter m) (fun σ => Store.Vesting.putMinter σ m) := by
  cases m with
  | none => intro σ; rfl
  | some m => exact w_saveMinter m

theorem r_firstFree (a i fuel) : Reads (firstFree a i fuel) (fun σ => Store.Vesting.firstFree σ a i fuel) := by
  induction fuel generalizing i with
  | zero => intro σ; rfl
  | succ n ih =>
    intro σ
    unfold firstFree Store.Vesting.firstFree
    rw [plain_bind]
    show plain (if (Store.get σ .pers (kSched a i)).isSome = true then _ else _) σ = _
    by_cases hc : (Store.get σ .pers (kSched a i)).isSome = true
    · have hc' : has σ .pers (kSched a i) = true := hc
      simp only
      rw [if_pos hc, if_pos hc']; exact ih _ σ
    · have hc' : ¬ has σ .pers (kSched a i) = true := hc
      simp only
      rw [if_neg hc, if_neg hc']; rfl

theorem p_saveVesting (a x) (σ : Store) : plain (saveVesting a x) σ = Store.Vesting.saveVesting σ a x >>= fun s => .ok ((), s) := by
  unfold saveVesting Store.Vesting.saveVesting
  rw [plain_bind]
  show plain (firstFree a 0 (σ.length + 1) >>= _) σ = _
  rw [plain_bind, r_firstFree]
  simp only
  cases Store.Vesting.firstFree σ a 0 (σ.length + 1) with
  | error e => rfl
  | ok i => exact writes_keep (kSched a i) (.vesting x) σ

theorem p_createLoop (cx T l) (σ : Store) : plain (createLoop cx T l) σ = Store.Vesting.createLoop cx σ T l >>= fun r => .ok (r.2, r.1) := by
  induction l generalizing σ T with
  | nil => rfl
  | cons p l ih =>
    obtain ⟨a, c⟩ := p
    simp only [createLoop, Store.Vesting.createLoop, plain_bind, plain_liftM, p_saveVesting, ih, bind_assoc]
    rfl

theorem r_available (c a i) : Reads (available c a i) (fun σ => Store.Vesting.available c σ a i) := by
  intro σ
  simp only [available, Store.Vesting.available, plain_bind, plain_keepInst, r_getVesting _ _ _, plain_liftM, bind_assoc]
  rfl

theorem r_needMinter : Reads needMinter Store.Vesting.needMinter := by
  intro σ
  unfold needMinter Store.Vesting.needMinter
  rw [plain_bind, r_getMinter]
  cases Store.Vesting.getMinter σ with
  | error e => rfl
  | ok o => cases o <;> rfl

theorem r_minterOwner (m) : Reads (minterOwner m) (fun σ => Store.Vesting.minterOwner σ m) := by
  cases m with
  | none => exact r_getAdmin
  | some m => intro σ; rfl

/-- without lifetimes, the program of a transaction is the transaction of Verif.Model.StoreVesting -/
theorem plainStep_eq (me : Addr) (s : Store × Ledger) (t : Phoenix.Vesting.Tx) : plainStep (contract me) s t = Store.Vesting.step me s t := by
  obtain ⟨σ, L⟩ := s
  unfold plainStep contract
  simp only
  cases t with
  | token c tok op =>
    simp only [prog, Store.Vesting.step, plain_lift, bind_assoc]
    rfl
  | vest c op =>
    cases op with
    | init a t cx m =>
      simp only [prog, Store.Vesting.step, init, Store.Vesting.init, plain_bind, r_isInit _, plain_liftM, w_setInit _, w_saveAdmin _ _, w_putMinter _ _,
        w_saveToken _ _, w_saveComplexity _ _, plain_pure, bind_assoc]
      rfl
    | create l =>
      simp only [prog, Store.Vesting.step, create, Store.Vesting.create, plain_bind, plain_keepInst, r_getAdmin _, r_getComplexity _, r_getToken _,
        p_createLoop, plain_liftM, bind_assoc]
      rfl
    | claim sender i =>
      simp only [prog, Store.Vesting.step, claim, Store.Vesting.claim, plain_bind, plain_keepInst, r_available _ _ _ _, r_getToken _, r_getVesting _ _ _,
        w_updateVesting _ _ _ _, plain_liftM, bind_assoc]
      rfl
    | burn sender x =>
      simp only [prog, Store.Vesting.step, burn, Store.Vesting.burn, plain_bind, plain_keepInst, r_getToken _, plain_liftM, bind_assoc]
      rfl
    | mint sender x =>
      simp only [prog, Store.Vesting.step, mint, Store.Vesting.mint, plain_bind, plain_keepInst, r_getToken _, r_needMinter _, r_getMinter _,
        w_saveMinter _ _, plain_liftM, plain_pure, bind_assoc]
      rfl
    | updateMinter sender new =>
      simp only [prog, Store.Vesting.step, updateMinter, Store.Vesting.updateMinter, plain_bind, plain_keepInst, r_getMinter _, r_minterOwner _ _,
        w_saveMinter _ _, plain_liftM, plain_pure, bind_assoc]
      rfl
    | updateCapacity sender new =>
      simp only [prog, Store.Vesting.step, updateCapacity, Store.Vesting.updateCapacity, plain_bind, plain_keepInst, r_getAdmin _, r_needMinter _,
        w_saveMinter _ _, plain_liftM, plain_pure, bind_assoc]
      rfl

/-! The entries used -/

/-- `n` schedules of `a` are there, with the indices below `n`; the next index is free -/
def Next (σ : Store) (a : Addr) (n : Nat) : Prop :=
  (∀ j < n, (Store.get σ .pers (kSched a j)).isSome = true) ∧ ¬ (Store.get σ .pers (kSched a n)).isSome = true

theorem Next.unique {σ : Store} {a : Addr} {n m : Nat} (h : Next σ a n) (h' : Next σ a m) : n = m := by
  rcases Nat.lt_trichotomy n m with hl | hl | hl
  · exact absurd (h'.1 n hl) h.2
  · exact hl
  · exact absurd (h.1 m hl) h'.2

theorem firstFree_uses {a : Addr} {fuel i n : Nat} {σ σ' : Store} (h : plain (firstFree a i fuel) σ = .ok (n, σ')) :
    σ' = σ ∧ i ≤ n ∧ (∀ j, i ≤ j → j < n → (Store.get σ .pers (kSched a j)).isSome = true) ∧
    ¬ (Store.get σ .pers (kSched a n)).isSome = true ∧
    (∀ k, k ∈ touched (firstFree a i fuel) σ ↔ ∃ j, i ≤ j ∧ j ≤ n ∧ k = kSched a j) := by
  induction fuel generalizing i with
  | zero => cases h
  | succ f ih =>
    unfold firstFree at h ⊢
    have hr : plain (read .pers (kSched a i)) σ = .ok (Store.get σ .pers (kSched a i), σ) := rfl
    rw [plain_bind, hr, ok_bind'] at h
    simp only at h
    rw [touched_bind _ _ _ hr]
    have ht : touched (read .pers (kSched a i)) σ = [kSched a i] := rfl
    rw [ht]
    by_cases hs : (Store.get σ .pers (kSched a i)).isSome = true
    · rw [if_pos hs] at h ⊢
      obtain ⟨e1, e2, e3, e4, e5⟩ := ih h
      refine ⟨e1, by omega, fun j h1 h2 => ?_, e4, fun k => ?_⟩
      · rcases Nat.eq_or_lt_of_le h1 with rfl | h1
        · exact hs
        · exact e3 j h1 h2
      · rw [List.mem_append, List.mem_singleton, e5]
        constructor
        · rintro (rfl | ⟨j, h1, h2, rfl⟩)
          · exact ⟨i, by omega, by omega, rfl⟩
          · exact ⟨j, by omega, h2, rfl⟩
        · rintro ⟨j, h1, h2, rfl⟩
          rcases Nat.eq_or_lt_of_le h1 with rfl | h1
          · exact .inl rfl
          · exact .inr ⟨j, h1, h2, rfl⟩
    · rw [if_neg hs] at h ⊢
      cases h
      refine ⟨rfl, Nat.le_refl _, fun j h1 h2 => by omega, hs, fun k => ?_⟩
      show k ∈ [kSched a n] ++ [] ↔ _
      rw [List.append_nil, List.mem_singleton]
      constructor
      · rintro rfl; exact ⟨n, by omega, by omega, rfl⟩
      · rintro ⟨j, h1, h2, rfl⟩; rw [show j = n by omega]

theorem saveVesting_uses {a : Addr} {x : Phoenix.Vesting.Info} {σ : Store} {r : Unit × Store} (h : plain (saveVesting a x) σ = .ok r) :
    ∃ n, Next σ a n ∧ r.2 = Store.set σ .pers (kSched a n) (.vesting x) ∧
      (∀ k, k ∈ touched (saveVesting a x) σ ↔ ∃ j ≤ n, k = kSched a j) ∧ kSched a n ∈ kept (saveVesting a x) σ := by
  unfold saveVesting at h ⊢
  have h0 : plain (Prog.count .ret) σ = .ok (σ.length, σ) := rfl
  rw [plain_bind, h0, ok_bind'] at h
  simp only at h
  rw [plain_bind, bind_ok] at h
  obtain ⟨⟨n, σ1⟩, h1, h2⟩ := h
  obtain ⟨e1, e2, e3, e4, e5⟩ := firstFree_uses h1
  subst e1
  simp only at h2
  have h3 := writes_keep (kSched a n) (.vesting x) σ1
  rw [h3] at h2
  cases h2
  refine ⟨n, ⟨fun j hj => e3 j (Nat.zero_le _) hj, e4⟩, rfl, fun k => ?_, ?_⟩
  · rw [touched_bind _ _ _ h0, touched_bind _ _ _ h1, List.mem_append, List.mem_append, e5]
    rw [Uses.save (kSched a n) (.vesting x) _ _ _ h3]
    constructor
    · rintro (h | ⟨j, _, hj, rfl⟩ | h)
      · cases h
      · exact ⟨j, hj, rfl⟩
      · exact ⟨n, Nat.le_refl _, List.mem_singleton.1 h⟩
    · rintro ⟨j, hj, rfl⟩
      exact .inr (.inl ⟨j, Nat.zero_le _, hj, rfl⟩)
  · rw [kept_bind _ _ _ h0, kept_bind _ _ _ h1]
    refine List.mem_append_right _ (List.mem_append_right _ ?_)
    exact Extends.right (fun _ => Extends.keep (kSched a n)) _ _ _ h3

theorem next_set {σ : Store} {a b : Addr} {n m : Nat} {c : Cell} (hab : b ≠ a) : Next (Store.set σ .pers (kSched a n) c) b m ↔ Next σ b m := by
  unfold Next
  have : ∀ j, Store.get (Store.set σ .pers (kSched a n) c) .pers (kSched b j) = Store.get σ .pers (kSched b j) := by
    intro j
    rw [get_set, if_neg]
    rintro ⟨_, h⟩
    exact hab (kSched_inj.1 h).1
  simp only [this]

theorem createLoop_uses {cx T : Nat} {l : List (Addr × Curve)} {σ : Store} {r : Nat × Store} (hd : (l.map Prod.fst).Nodup)
    (h : plain (createLoop cx T l) σ = .ok r) :
    (∀ k, k ∈ touched (createLoop cx T l) σ ↔ ∃ p ∈ l, ∃ n, Next σ p.1 n ∧ ∃ j ≤ n, k = kSched p.1 j) ∧
    (∀ p ∈ l, ∃ n, Next σ p.1 n ∧ kSched p.1 n ∈ kept (createLoop cx T l) σ) := by
  induction l generalizing σ T with
  | nil =>
    refine ⟨fun k => ⟨fun h => ?_, fun h => ?_⟩, fun p hp => ?_⟩
    · cases h
    · obtain ⟨p, hp, _⟩ := h
      cases hp
    · cases hp
  | cons p l ih =>
    obtain ⟨a, cv⟩ := p
    simp only [createLoop] at h ⊢
    rw [plain_bind, bind_ok] at h
    obtain ⟨⟨x1, σ1⟩, h1, h⟩ := h
    have e1 : touched (liftM (Phoenix.Vesting.validateSchedule cv) : Prog Nat) σ = [] := by
      rw [List.eq_nil_iff_forall_not_mem]; intro k hk; exact absurd ((Uses.liftM _ _ _ _ h1 k).1 hk) (by simp)
    have h1' := h1
    rw [plain_liftM, bind_ok] at h1'
    obtain ⟨_, -, h1'⟩ := h1'
    cases h1'
    rw [plain_bind, bind_ok] at h
    obtain ⟨⟨x2, σ2⟩, h2, h⟩ := h
    have h2' := h2
    rw [plain_liftM, bind_ok] at h2'
    obtain ⟨_, -, h2'⟩ := h2'
    cases h2'
    have e2 : touched (liftM (req (¬ cx ≤ cv.size) (.code 8)) : Prog Unit) σ = [] := by
      rw [List.eq_nil_iff_forall_not_mem]; intro k hk; exact absurd ((Uses.liftM _ _ _ _ h2 k).1 hk) (by simp)
    rw [plain_bind, bind_ok] at h
    obtain ⟨⟨x3, σ3⟩, h3, h⟩ := h
    obtain ⟨n, n1, n2, n3, n4⟩ := saveVesting_uses h3
    simp only at n2
    rw [plain_bind, bind_ok] at h
    obtain ⟨⟨x4, σ4⟩, h4, h⟩ := h
    have h4' := h4
    rw [plain_liftM, bind_ok] at h4'
    obtain ⟨_, -, h4'⟩ := h4'
    cases h4'
    have e4 : ∀ k, k ∉ touched (liftM (add128 T x1) : Prog Nat) σ3 := by
      intro k hk; exact absurd ((Uses.liftM _ _ _ _ h4 k).1 hk) (by simp)
    simp only [List.map_cons, List.nodup_cons] at hd
    obtain ⟨i1, i2⟩ := ih hd.2 h
    have hne : ∀ p ∈ l, p.1 ≠ a := fun p hp e => hd.1 (e ▸ List.mem_map_of_mem hp)
    constructor
    · intro k
      rw [touched_bind _ _ _ h1, touched_bind _ _ _ h2, touched_bind _ _ _ h3, touched_bind _ _ _ h4, e1, e2]
      simp only [List.nil_append, List.mem_append, n3, i1]
      constructor
      · rintro (⟨j, hj, rfl⟩ | h | ⟨p, hp, m, hm, hj⟩)
        · exact ⟨_, List.mem_cons_self .., n, n1, j, hj, rfl⟩
        · exact absurd h (e4 k)
        · rw [n2, next_set (hne p hp)] at hm
          exact ⟨p, List.mem_cons_of_mem _ hp, m, hm, hj⟩
      · rintro ⟨p, hp, m, hm, hj⟩
        rcases List.mem_cons.1 hp with rfl | hp
        · rw [hm.unique n1] at hj
          exact .inl hj
        · refine .inr (.inr ⟨p, hp, m, ?_, hj⟩)
          rw [n2, next_set (hne p hp)]
          exact hm
    · intro p hp
      rw [kept_bind _ _ _ h1, kept_bind _ _ _ h2, kept_bind _ _ _ h3, kept_bind _ _ _ h4]
      rcases List.mem_cons.1 hp with rfl | hp
      · exact ⟨n, n1, List.mem_append_right _ (List.mem_append_right _ (List.mem_append_left _ n4))⟩
      · obtain ⟨m, hm, hk⟩ := i2 p hp
        rw [n2, next_set (hne p hp)] at hm
        exact ⟨m, hm, List.mem_append_right _ (List.mem_append_right _ (List.mem_append_right _ (List.mem_append_right _ hk)))⟩

theorem Reads.split {α β : Type} {p : Prog α} {g : Store → Res α} {f : α → Prog β} {σ : Store} {r : β × Store} (hp : Reads p g)
    (h : plain (p >>= f) σ = .ok r) : ∃ a, g σ = .ok a ∧ plain p σ = .ok (a, σ) ∧ plain (f a) σ = .ok r := by
  rw [hp.bind, bind_ok] at h
  obtain ⟨a, h1, h2⟩ := h
  exact ⟨a, h1, by rw [hp σ, h1]; rfl, h2⟩

theorem u_getAdmin : Uses getAdmin [kAdmin] := Uses.get _ _ _
theorem u_saveAdmin (a) : Uses (saveAdmin a) [kAdmin] := Uses.save _ _
theorem u_getVesting (a i) : Uses (getVesting a i) [kSched a i] := Uses.get _ _ _
theorem u_updateVesting (a i x) : Uses (updateVesting a i x) [kSched a i] := Uses.save _ _
theorem u_saveMinter (m) : Uses (saveMinter m) [] := uses_instLong _ _
theorem u_getMinter : Uses getMinter [] := .skip (.fetchOr (.readInst _)) fun _ => .skip .keepInst fun _ => .pure _
theorem u_saveToken (a) : Uses (saveToken a) [] := uses_instLong _ _
theorem u_getToken : Uses getToken [] := uses_fetchInst_long _ _ _
theorem u_saveComplexity (x) : Uses (saveComplexity x) [] := uses_instLong _ _
theorem u_getComplexity : Uses getComplexity [] := uses_fetchInst_long _ _ _
theorem u_isInit : Uses isInit [] := .fetchOr (.readInst _)
theorem u_setInit : Uses setInit [] := uses_instLong _ _
theorem u_putMinter (m) : Uses (putMinter m) [] := by
  cases m with
  | none => exact .pure _
  | some m => exact u_saveMinter m
theorem u_needMinter : Uses needMinter [] := .skip u_getMinter fun o => by
  cases o with
  | none => exact .fail _ _
  | some m => exact .pure _

theorem u_init (a t cx m) : Uses (init a t cx m) [kAdmin] :=
  .skip u_isInit fun _ => .skip (.liftM _) fun _ => .skip u_setInit fun _ => ((u_saveAdmin a).bind (S' := []) fun _ =>
    .skip (u_putMinter m) fun _ => .skip (u_saveToken t) fun _ => u_saveComplexity cx)

theorem u_available (c a i) : Uses (available c a i) [kSched a i] :=
  .skip .keepInst fun _ => ((u_getVesting a i).bind (S' := []) fun _ => .skip (.liftM _) fun _ => .skip (.liftM _) fun _ => .liftM _)

theorem u_claim (me c L s i) : Uses (claim me c L s i) [kSched s i] := by
  refine Uses.congr (S := [kSched s i] ++ ([kSched s i] ++ ([kSched s i] ++ []))) ?_ (fun k => by simp)
  exact .skip (.liftM _) fun _ => .skip .keepInst fun _ => (u_available c s i).bind fun _ => .skip (.liftM _) fun _ => .skip u_getToken fun _ =>
    (u_getVesting s i).bind fun _ => .skip (.liftM _) fun _ => .skip (.liftM _) fun _ => .skip (.liftM _) fun _ => .skip (.liftM _) fun _ =>
    .skip (.liftM _) fun _ => (u_updateVesting s i _).bind fun _ => .liftM _

theorem u_burn (me c L s x) : Uses (burn me c L s x) [] :=
  .skip (.liftM _) fun _ => .skip .keepInst fun _ => .skip (.liftM _) fun _ => .skip u_getToken fun _ => .liftM _

theorem u_mint (me c L s x) : Uses (mint me c L s x) [] :=
  .skip (.liftM _) fun _ => .skip .keepInst fun _ => .skip (.liftM _) fun _ => .skip u_needMinter fun _ => .skip (.liftM _) fun _ =>
    .skip u_getMinter fun _ => .skip (.liftM _) fun _ => .skip (.liftM _) fun _ => .skip u_getToken fun _ => .skip (.liftM _) fun _ =>
    .skip (u_saveMinter _) fun _ => .pure _

theorem u_updateCapacity (c s x) : Uses (updateCapacity c s x) [kAdmin] :=
  .skip (.liftM _) fun _ => .skip .keepInst fun _ => (u_getAdmin.bind (S' := []) fun _ => .skip (.liftM _) fun _ => .skip u_needMinter fun _ => u_saveMinter _)

theorem u_updateRest (sender new owner : Addr) (m : Option Phoenix.Vesting.Minter) :
    Uses ((liftM (req (sender = owner) (.code 13)) : Prog Unit) >>= fun _ => saveMinter ⟨new, (m.map (·.capacity)).getD 0⟩) [] :=
  .skip (.liftM _) fun _ => u_saveMinter _

/-- replacing a minter uses nothing persistent; setting the first one uses the administrator's entry -/
theorem updateMinter_uses {c : Ctx} {sender new : Addr} {σ : Store} {r : Unit × Store} (h : plain (updateMinter c sender new) σ = .ok r) :
    ∃ m, Store.Vesting.getMinter σ = .ok m ∧ (∀ k, k ∈ touched (updateMinter c sender new) σ ↔ m = none ∧ k = kAdmin) ∧
      (m = none → kAdmin ∈ kept (updateMinter c sender new) σ) := by
  unfold updateMinter at h ⊢
  obtain ⟨_, -, p1, h⟩ := Reads.split (reads_lift _) h
  have p2 : plain keepInst σ = .ok ((), σ) := rfl
  rw [plain_bind, p2, ok_bind'] at h
  obtain ⟨m, g3, p3, h⟩ := Reads.split r_getMinter h
  refine ⟨m, g3, ?_⟩
  rw [touched_bind _ _ _ p1, touched_bind _ _ _ p2, touched_bind _ _ _ p3, kept_bind _ _ _ p1, kept_bind _ _ _ p2, kept_bind _ _ _ p3]
  simp only [List.mem_append, Uses.liftM _ _ _ _ p1, Uses.keepInst _ _ _ p2, u_getMinter _ _ _ p3, List.not_mem_nil, false_or]
  cases m with
  | some m =>
    have hu : Uses (minterOwner (some m) >>= fun owner => (liftM (req (sender = owner) (.code 13)) : Prog Unit) >>= fun _ =>
        saveMinter ⟨new, ((some m).map (·.capacity)).getD 0⟩) [] := .skip (.pure _) fun _ => u_updateRest _ _ _ _
    refine ⟨fun k => ?_, fun e => by cases e⟩
    have := hu _ _ _ h k
    simp only at this ⊢
    rw [this]
    simp
  | none =>
    have hu : Uses (minterOwner none >>= fun owner => (liftM (req (sender = owner) (.code 13)) : Prog Unit) >>= fun _ =>
        saveMinter ⟨new, ((none : Option Phoenix.Vesting.Minter).map (·.capacity)).getD 0⟩) ([kAdmin] ++ []) := u_getAdmin.bind fun _ => u_updateRest _ _ _ _
    refine ⟨fun k => ?_, fun _ => .inr (.inr (.inr ?_))⟩
    · have := hu _ _ _ h k
      simp only at this ⊢
      rw [this]
      simp
    · exact (Extends.right fun _ => (Extends.keep kAdmin).left).left _ _ _ h

/-- creating schedules uses the administrator's entry and what the loop over the schedules uses -/
theorem create_uses {me : Addr} {c : Ctx} {L : Ledger} {l : List (Addr × Curve)} {σ : Store} {r : Ledger × Store}
    (h : plain (create me c L l) σ = .ok r) :
    (l.map Prod.fst).Nodup ∧ ∃ cx s, plain (createLoop cx 0 l) σ = .ok s ∧
      (∀ k, k ∈ touched (create me c L l) σ ↔ k = kAdmin ∨ k ∈ touched (createLoop cx 0 l) σ) ∧
      (∀ k, k = kAdmin ∨ k ∈ kept (createLoop cx 0 l) σ → k ∈ kept (create me c L l) σ) := by
  unfold create at h ⊢
  obtain ⟨a, -, p1, h⟩ := Reads.split r_getAdmin h
  obtain ⟨_, -, p2, h⟩ := Reads.split (reads_lift _) h
  have p3 : plain keepInst σ = .ok ((), σ) := rfl
  rw [plain_bind, p3, ok_bind'] at h
  obtain ⟨_, -, p4, h⟩ := Reads.split (reads_lift _) h
  obtain ⟨_, g5, p5, h⟩ := Reads.split (reads_lift _) h
  obtain ⟨cx, -, p6, h⟩ := Reads.split r_getComplexity h
  rw [plain_bind, bind_ok] at h
  obtain ⟨⟨T, σ7⟩, p7, h⟩ := h
  have hd := Phoenix.Props.World.checkDup_nodup List.nodup_nil g5
  refine ⟨by simpa using hd, cx, _, p7, fun k => ?_, fun k hk => ?_⟩
  · have hu : Uses (getToken >>= fun token => (liftM (toI128 T) : Prog Int) >>= fun amount =>
        (liftM (req (¬ L.bal token a < amount) (.code 25)) : Prog Unit) >>= fun _ =>
        (liftM (L.transfer (c.as me) token a me amount) : Prog Ledger)) [] :=
      .skip u_getToken fun _ => .skip (.liftM _) fun _ => .skip (.liftM _) fun _ => .liftM _
    rw [touched_bind _ _ _ p1, touched_bind _ _ _ p2, touched_bind _ _ _ p3, touched_bind _ _ _ p4, touched_bind _ _ _ p5, touched_bind _ _ _ p6,
      touched_bind _ _ _ p7]
    simp only [List.mem_append, u_getAdmin _ _ _ p1, Uses.liftM _ _ _ _ p2, Uses.keepInst _ _ _ p3, Uses.liftM _ _ _ _ p4, Uses.liftM _ _ _ _ p5,
      u_getComplexity _ _ _ p6, List.not_mem_nil, false_or, List.mem_singleton]
    have := hu _ _ _ h k
    rw [this]
    simp
  · rw [kept_bind _ _ _ p1, kept_bind _ _ _ p2, kept_bind _ _ _ p3, kept_bind _ _ _ p4, kept_bind _ _ _ p5, kept_bind _ _ _ p6, kept_bind _ _ _ p7]
    rcases hk with rfl | hk
    · exact List.mem_append_left _ ((Extends.right fun _ => (Extends.keep kAdmin).left) _ _ _ p1)
    · iterate 6 refine List.mem_append_right _ ?_
      exact List.mem_append_left _ hk

theorem schedule_eq (a : Addr) (i : Nat) : schedule a i = kSched a i := rfl

section rel
variable {σ : Store} {v : Phoenix.Vesting.State}

theorem sched_isSome (h : Store.Vesting.Rel σ v) (a : Addr) (i : Nat) : (Store.get σ .pers (kSched a i)).isSome = (v.sched a i).isSome := by
  have := h.1.sched a i
  show (Store.get σ .pers (Key.mcons "index" (.u64 i) (.mcons "recipient" (.addr a) .mnil))).isSome = _
  rw [this]
  cases v.sched a i <;> rfl

theorem mem_upToNext (h : Store.Vesting.Rel σ v) {a : Addr} {n : Nat} (hn : Next σ a n) (j : Nat) : j ∈ upToNext v a ↔ j ≤ n := by
  unfold upToNext
  rw [List.mem_filter, List.mem_range, List.all_eq_true]
  simp only [List.mem_range]
  constructor
  · rintro ⟨_, h2⟩
    by_contra hc
    have := h2 n (by omega)
    rw [← sched_isSome h] at this
    exact hn.2 this
  · intro hj
    refine ⟨?_, fun i hi => ?_⟩
    · by_contra hc
      have h1 := hn.1 v.entries (by omega)
      rw [sched_isSome h, h.2 a v.entries (Nat.le_refl _)] at h1
      cases h1
    · rw [← sched_isSome h]
      exact hn.1 i (by omega)

end rel

/-- the entries a successful transaction touches -/
theorem touched_iff {me : Addr} {t : Phoenix.Vesting.Tx} {L : Ledger} {σ : Store} {o : Option Phoenix.Vesting.State} (ho : Store.Vesting.Rel? σ o)
    {r : Ledger × Store} (h : plain (prog me t L) σ = .ok r) (k : Key) : k ∈ touched (prog me t L) σ ↔ k ∈ uses o t := by
  cases t with
  | token c tok op => exact Uses.lift _ _ _ _ h k
  | vest c op =>
    cases op with
    | init a t cx m =>
      have hu : Uses (prog me (.vest c (.init a t cx m)) L) ([kAdmin] ++ []) := (u_init a t cx m).bind fun _ => .pure _
      exact hu _ _ _ h k
    | create l =>
      obtain ⟨hd, cx, s, hl, ht, -⟩ := create_uses h
      have ht' : k ∈ touched (prog me (.vest c (.create l)) L) σ ↔ k = kAdmin ∨ k ∈ touched (createLoop cx 0 l) σ := ht k
      rw [ht', (createLoop_uses hd hl).1]
      cases o with
      | none =>
        exfalso
        have hb : Store.Vesting.getAdmin σ = .error (.code 6) := by
          unfold Store.Vesting.getAdmin load
          rw [show Store.get σ .pers kAdmin = none from ho _ _]
        have h' : plain (create me c L l) σ = .ok r := h
        unfold create at h'
        rw [r_getAdmin.bind, hb] at h'
        cases h'
      | some v =>
        have hv : Store.Vesting.Rel σ v := ho
        simp only [uses, List.mem_cons, List.mem_flatMap, List.mem_map]
        refine or_congr Iff.rfl ⟨?_, ?_⟩
        · rintro ⟨p, hp, n, hn, j, hj, rfl⟩
          exact ⟨p, hp, j, (mem_upToNext hv hn j).2 hj, rfl⟩
        · rintro ⟨p, hp, j, hj, rfl⟩
          obtain ⟨n, hn, -⟩ := (createLoop_uses hd hl).2 p hp
          exact ⟨p, hp, n, hn, j, (mem_upToNext hv hn j).1 hj, rfl⟩
    | claim sender i => exact u_claim _ _ _ _ _ _ _ _ h k
    | burn sender x => exact u_burn _ _ _ _ _ _ _ _ h k
    | mint sender x => exact u_mint _ _ _ _ _ _ _ _ h k
    | updateMinter sender new =>
      have h' : plain (updateMinter c sender new >>= fun _ => pure L) σ = .ok r := h
      rw [plain_bind, bind_ok] at h'
      obtain ⟨s, h1, -⟩ := h'
      have ht : touched (prog me (.vest c (.updateMinter sender new)) L) σ = touched (updateMinter c sender new) σ ++ [] := touched_bind _ _ _ h1
      obtain ⟨m, g, hm, -⟩ := updateMinter_uses h1
      rw [ht, List.append_nil, hm]
      cases o with
      | none =>
        exfalso
        have hb : Store.Vesting.getMinter σ = .ok none := by
          unfold Store.Vesting.getMinter
          rw [show Store.get σ .inst kMinter = none from ho _ _]
        rw [hb] at g
        cases g
        have h1' := (hm kAdmin).2 ⟨rfl, rfl⟩
        have hb' : Store.Vesting.getAdmin σ = .error (.code 6) := by
          unfold Store.Vesting.getAdmin load
          rw [show Store.get σ .pers kAdmin = none from ho _ _]
        unfold updateMinter at h1
        obtain ⟨_, -, p1, h1⟩ := Reads.split (reads_lift _) h1
        rw [plain_bind, show plain keepInst σ = .ok ((), σ) from rfl, ok_bind'] at h1
        obtain ⟨m, g3, p3, h1⟩ := Reads.split r_getMinter h1
        rw [hb] at g3
        cases g3
        rw [(r_minterOwner none).bind, show Store.Vesting.minterOwner σ none = Store.Vesting.getAdmin σ from rfl, hb'] at h1
        cases h1
      | some v =>
        have hv : Store.Vesting.Rel σ v := ho
        have hg : Store.Vesting.getMinter σ = .ok v.minter := by
          unfold Store.Vesting.getMinter
          rw [show Store.get σ .inst kMinter = v.minter.map .minter from hv.1.minter]
          cases v.minter <;> rfl
        rw [hg] at g
        cases g
        simp only [uses]
        split <;> rename_i hc <;> simp [hc, kAdmin]
    | updateCapacity sender new =>
      have hu : Uses (prog me (.vest c (.updateCapacity sender new)) L) ([kAdmin] ++ []) := (u_updateCapacity c sender new).bind fun _ => .pure _
      exact hu _ _ _ h k

/-- what a successful transaction keeps alive -/
theorem keeps {me : Addr} {t : Phoenix.Vesting.Tx} {L : Ledger} {σ : Store} {o : Option Phoenix.Vesting.State} (ho : Store.Vesting.Rel? σ o)
    {r : Ledger × Store} (h : plain (prog me t L) σ = .ok r) (k : Key) (hk : k ∈ keepsAlive o t) : k ∈ kept (prog me t L) σ := by
  cases t with
  | token c tok op => cases hk
  | vest c op =>
    cases op with
    | init a t cx m =>
      rw [List.mem_singleton.1 hk]
      have he : Extends kAdmin (init a t cx m) := .right fun _ => .right fun _ => .right fun _ => .left (.right fun _ => .keep _)
      exact he.left _ _ _ h
    | create l =>
      obtain ⟨hd, cx, s, hl, -, ht⟩ := create_uses h
      refine ht k ?_
      cases o with
      | none => exact .inl (List.mem_singleton.1 hk)
      | some v =>
        have hv : Store.Vesting.Rel σ v := ho
        simp only [keepsAlive, List.mem_cons, List.mem_flatMap, List.mem_map, List.mem_filter] at hk
        rcases hk with hk | ⟨p, hp, j, ⟨hj, hs⟩, rfl⟩
        · exact .inl hk
        · obtain ⟨n, hn, hkn⟩ := (createLoop_uses hd hl).2 p hp
          have hj' := (mem_upToNext hv hn j).1 hj
          have : j = n := by
            by_contra hne
            have h1 := hn.1 j (by omega)
            rw [sched_isSome hv] at h1
            rw [Option.isNone_iff_eq_none] at hs
            rw [hs] at h1
            cases h1
          subst this
          exact .inr hkn
    | claim sender i =>
      rw [List.mem_singleton.1 hk]
      have he : Extends (kSched sender i) (claim me c L sender i) :=
        .right fun _ => .right fun _ => .left (.right fun _ => .left (.right fun _ => (Extends.keep _).left))
      exact he _ _ _ h
    | burn sender x => cases hk
    | mint sender x => cases hk
    | updateMinter sender new =>
      have h' : plain (updateMinter c sender new >>= fun _ => pure L) σ = .ok r := h
      rw [plain_bind, bind_ok] at h'
      obtain ⟨s, h1, -⟩ := h'
      have ht : kept (prog me (.vest c (.updateMinter sender new)) L) σ = kept (updateMinter c sender new) σ ++ [] := kept_bind _ _ _ h1
      obtain ⟨m, g, -, hm⟩ := updateMinter_uses h1
      rw [ht, List.append_nil]
      cases o with
      | none => cases hk
      | some v =>
        have hv : Store.Vesting.Rel σ v := ho
        have hg : Store.Vesting.getMinter σ = .ok v.minter := by
          unfold Store.Vesting.getMinter
          rw [show Store.get σ .inst kMinter = v.minter.map .minter from hv.1.minter]
          cases v.minter <;> rfl
        rw [hg] at g
        cases g
        simp only [keepsAlive, uses] at hk
        split at hk
        · rename_i hc
          rw [List.mem_singleton.1 hk]
          exact hm hc
        · cases hk
    | updateCapacity sender new =>
      rw [List.mem_singleton.1 hk]
      have he : Extends kAdmin (updateCapacity c sender new) := .right fun _ => .right fun _ => .left (.right fun _ => (Extends.keep _).left)
      exact he.left _ _ _ h

/-- every call leaves the instance twenty-nine days -/
theorem keepsInst (me : Addr) (t : Phoenix.Vesting.Tx) (ht : callsOf t = true) (L : Ledger) : KeepsInstLong (prog me t L) := by
  cases t with
  | token c tok op => cases ht
  | vest c op =>
    have hT : KeepsInstLong getToken := long_fetchInst _ _ _
    have hM : ∀ m, KeepsInstLong (saveMinter m) := fun m => long_inst _ _
    cases op with
    | init a t cx m =>
      have h : KeepsInstLong (init a t cx m) := .right fun _ => .right fun _ => (long_inst _ _).left
      exact h.left
    | create l =>
      exact .right fun _ => .right fun _ => .right fun _ => .right fun _ => .right fun _ => (long_fetchInst _ _ _).left
    | claim sender i => exact .right fun _ => .right fun _ => .right fun _ => .right fun _ => hT.left
    | burn sender x => exact .right fun _ => .right fun _ => .right fun _ => hT.left
    | mint sender x =>
      exact .right fun _ => .right fun _ => .right fun _ => .right fun _ => .right fun _ => .right fun _ => .right fun _ => .right fun _ => hT.left
    | updateMinter sender new =>
      have h : KeepsInstLong (updateMinter c sender new) := .right fun _ => .right fun _ => .right fun _ => .right fun _ => .right fun _ => hM _
      exact h.left
    | updateCapacity sender new =>
      have h : KeepsInstLong (updateCapacity c sender new) := .right fun _ => .right fun _ => .right fun _ => .right fun _ => .right fun _ => hM _
      exact h.left

end Phoenix.Life.Vesting
