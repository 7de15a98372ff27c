import Verif.Props.Vesting
import Verif.Lemmas.Store
import Verif.Lemmas.Vesting
import Verif.Spec.StoreVesting
/-! C120 for the vesting contract: run on the key-value store that its source uses, it behaves
exactly as the record model. -/
namespace Phoenix.Store.Vesting
open Phoenix Phoenix.Store

variable {σ : Store} {v : Phoenix.Vesting.State} {me : Addr} {c : Ctx} {L : Ledger}

theorem getAdmin_eq (h : Holds σ v) : getAdmin σ = .ok v.admin := load_of h.admin rfl
theorem getToken_eq (h : Holds σ v) : getToken σ = .ok v.token := load_of h.token rfl
theorem getComplexity_eq (h : Holds σ v) : getComplexity σ = .ok v.maxComplexity := load_of h.complexity rfl
theorem isInit_eq (h : Holds σ v) : isInit σ = .ok true := loadOr_of h.inited rfl

theorem getMinter_eq (h : Holds σ v) : getMinter σ = .ok v.minter := by
  unfold getMinter
  have hm := h.minter
  change get σ .inst kMinter = _ at hm
  rw [hm]
  cases v.minter <;> rfl

theorem needMinter_eq (h : Holds σ v) : needMinter σ = Phoenix.Vesting.needMinter v := by
  unfold needMinter Phoenix.Vesting.needMinter
  rw [getMinter_eq h, ok_bind']
  cases v.minter <;> rfl

theorem getVesting_eq (h : Holds σ v) (a : Addr) (i : Nat) : getVesting σ a i = Phoenix.Vesting.getVesting v a i := by
  unfold getVesting Phoenix.Vesting.getVesting
  have hs := h.sched a i
  cases hc : v.sched a i with
  | none => rw [hc] at hs; exact load_none hs
  | some x => rw [hc] at hs; exact load_of hs rfl

theorem has_iff (h : Holds σ v) (a : Addr) (i : Nat) : has σ .pers (kSched a i) = true ↔ v.sched a i ≠ none := by
  unfold has kSched
  rw [h.sched a i]
  cases v.sched a i <;> simp

theorem kSched_inj {a b : Addr} {i j : Nat} : kSched a i = kSched b j ↔ a = b ∧ i = j := by
  unfold kSched
  constructor
  · intro h; injection h with _ h1 h2; injection h1 with h1; injection h2 with _ h2 _; injection h2 with h2; exact ⟨h2, h1⟩
  · rintro ⟨rfl, rfl⟩; rfl

/-- a store with `n` entries has no more than `n` schedules of one recipient -/
theorem some_free (σ : Store) (a : Addr) : ∃ i ≤ σ.length, has σ .pers (kSched a i) = false := by
  by_contra hcon
  push Not at hcon
  have hsub : (List.range (σ.length + 1)).map (fun i => (Dur.pers, kSched a i)) ⊆ σ.map Prod.fst := by
    intro x hx
    obtain ⟨i, hi, rfl⟩ := List.mem_map.mp hx
    have hh := hcon i (by have := List.mem_range.mp hi; omega)
    have hh' : has σ .pers (kSched a i) = true := by simpa using hh
    unfold has get at hh'
    obtain ⟨cell, hcell⟩ := Option.isSome_iff_exists.mp hh'
    obtain ⟨l1, l2, hl, _⟩ := List.lookup_eq_some_iff.mp hcell
    exact List.mem_map.mpr ⟨((Dur.pers, kSched a i), cell), by rw [hl]; simp, rfl⟩
  have hnd : ((List.range (σ.length + 1)).map (fun i => (Dur.pers, kSched a i))).Nodup := by
    refine List.Nodup.map ?_ List.nodup_range
    intro i j hij
    simp only [Prod.mk.injEq, true_and] at hij
    exact (kSched_inj.mp hij).2
  have := (hnd.subperm hsub).length_le
  simp at this

theorem firstFree_eq {σ : Store} {a : Addr} {i n k : Nat} (hik : i ≤ k) (hkn : k < i + n)
    (hk : has σ .pers (kSched a k) = false) (hl : ∀ j, i ≤ j → j < k → has σ .pers (kSched a j) = true) :
    firstFree σ a i n = .ok k := by
  induction n generalizing i with
  | zero => omega
  | succ n ih =>
    unfold firstFree
    by_cases he : i = k
    · subst he; rw [if_neg (by simp [hk])]
    · rw [if_pos (hl i (le_refl _) (by omega))]
      exact ih (by omega) (by omega) (fun j h1 h2 => hl j (by omega) h2)

theorem firstFree_eq' {f : Nat → Option Phoenix.Vesting.Info} {i n k : Nat} (hik : i ≤ k) (hkn : k < i + n)
    (hk : f k = none) (hl : ∀ j, i ≤ j → j < k → f j ≠ none) : Phoenix.Vesting.firstFree f i n = .ok k := by
  induction n generalizing i with
  | zero => omega
  | succ n ih =>
    unfold Phoenix.Vesting.firstFree
    by_cases he : i = k
    · subst he; rw [hk]
    · have := hl i (le_refl _) (by omega)
      cases hf : f i with
      | none => exact absurd hf this
      | some x => exact ih (by omega) (by omega) (fun j h1 h2 => hl j (by omega) h2)

/-- The two searches find the same index. -/
theorem firstFree_agree (h : Holds σ v) (hf : ∀ a i, v.entries ≤ i → v.sched a i = none) (a : Addr) :
    ∃ k, firstFree σ a 0 (σ.length + 1) = .ok k ∧ Phoenix.Vesting.firstFree (v.sched a) 0 (v.entries + 1) = .ok k ∧
      v.sched a k = none ∧ k ≤ v.entries := by
  obtain ⟨i, hi, hfree⟩ := some_free σ a
  have hex : ∃ k, v.sched a k = none := ⟨v.entries, hf a _ (le_refl _)⟩
  classical
  let k := Nat.find hex
  have hk : v.sched a k = none := Nat.find_spec hex
  have hmin : ∀ j, j < k → v.sched a j ≠ none := fun j hj => Nat.find_min hex hj
  have h1 : k ≤ v.entries := Nat.find_min' hex (hf a _ (le_refl _))
  have h2 : k ≤ i := by
    apply Nat.find_min' hex
    by_contra hne
    rw [(has_iff h a i).mpr hne] at hfree
    cases hfree
  refine ⟨k, ?_, ?_, hk, h1⟩
  · refine firstFree_eq (Nat.zero_le _) (by omega) ?_ (fun j _ hj => (has_iff h a j).mpr (hmin j hj))
    cases hb : has σ .pers (kSched a k) with
    | false => rfl
    | true => exact absurd hk ((has_iff h a k).mp hb)
  · exact firstFree_eq' (Nat.zero_le _) (by omega) hk (fun j _ hj => hmin j hj)

/-- a write to one schedule -/
theorem putInfo_holds (h : Holds σ v) (a : Addr) (i : Nat) (x : Phoenix.Vesting.Info) (n : Nat) :
    Holds (set σ .pers (kSched a i) (.vesting x)) { Phoenix.Vesting.putInfo v a i x with entries := n } := by
  refine ⟨?_, ?_, ?_, ?_, ?_, ?_, ?_⟩
  · simp [kSched, Phoenix.Vesting.putInfo, h.admin]
  · simp [Phoenix.Vesting.putInfo, h.token]
  · simp [Phoenix.Vesting.putInfo, h.complexity]
  · simp [h.inited]
  · simp [Phoenix.Vesting.putInfo, h.minter]
  · intro b j
    have hs := h.sched b j
    by_cases hb : b = a ∧ j = i
    · obtain ⟨rfl, rfl⟩ := hb
      simp [kSched, Phoenix.Vesting.putInfo, upd]
    · have hne : ¬ (Dur.pers = Dur.pers ∧ kSched b j = kSched a i) := fun e => hb (kSched_inj.mp e.2)
      show get (set σ .pers (kSched a i) (.vesting x)) .pers (kSched b j) = _
      rw [get_set, if_neg hne]
      have e : (Phoenix.Vesting.putInfo v a i x).sched b j = v.sched b j := by
        unfold Phoenix.Vesting.putInfo upd
        by_cases h1 : b = a
        · subst h1
          have h2 : j ≠ i := fun e => hb ⟨rfl, e⟩
          simp [h2]
        · simp [h1]
      show _ = ((Phoenix.Vesting.putInfo v a i x).sched b j).map _
      rw [e]; exact hs
  · intro d k hk
    rw [get_set] at hk
    split at hk
    · rename_i he; right; exact ⟨he.1, Or.inr ⟨a, i, he.2⟩⟩
    · exact h.only d k hk

theorem saveMinter_holds (h : Holds σ v) (m : Phoenix.Vesting.Minter) : Holds (saveMinter σ m) { v with minter := some m } := by
  refine ⟨?_, ?_, ?_, ?_, ?_, ?_, ?_⟩
  · simp [saveMinter, h.admin]
  · simp [saveMinter, kMinter, h.token]
  · simp [saveMinter, kMinter, h.complexity]
  · simp [saveMinter, kMinter, h.inited]
  · simp [saveMinter, kMinter]
  · intro b j; have hs := h.sched b j; simpa [saveMinter] using hs
  · intro d k hk
    simp only [saveMinter, kMinter, get_set] at hk
    split at hk
    · rename_i he; left; exact ⟨he.1, by simp [he.2]⟩
    · exact h.only d k hk

/-- The store holds the record, and the record's entry counter is an upper bound. -/
def Rel (σ : Store) (v : Phoenix.Vesting.State) : Prop :=
  Holds σ v ∧ ∀ a i, v.entries ≤ i → v.sched a i = none

/-- The same store and the same ledger. -/
def R2 (a : Store × Ledger) (b : Phoenix.Vesting.State × Ledger) : Prop := Rel a.1 b.1 ∧ a.2 = b.2

theorem saveVesting_same (h : Rel σ v) (a : Addr) (x : Phoenix.Vesting.Info) :
    Same (fun σ' v' => Rel σ' v' ∧ v'.maxComplexity = v.maxComplexity ∧ v'.token = v.token ∧ v'.admin = v.admin)
      (saveVesting σ a x) (Phoenix.Vesting.saveVesting v a x) := by
  obtain ⟨k, h1, h2, h3, h4⟩ := firstFree_agree h.1 h.2 a
  unfold saveVesting Phoenix.Vesting.saveVesting
  simp only [h1, h2, ok_bind']
  refine ⟨⟨putInfo_holds h.1 a k x _, ?_⟩, rfl, rfl, rfl⟩
  intro b j hj
  simp only at hj
  show (Phoenix.Vesting.putInfo v a k x).sched b j = none
  unfold Phoenix.Vesting.putInfo upd
  by_cases h1 : b = a
  · subst h1
    have h2 : j ≠ k := by omega
    simp [h2, h.2 b j (by omega)]
  · simp [h1, h.2 b j (by omega)]

theorem createLoop_same (h : Rel σ v) (l : List (Addr × Curve)) (T : Nat) :
    Same (fun (r : Store × Nat) (s : Phoenix.Vesting.State × Nat) => Rel r.1 s.1 ∧ r.2 = s.2 ∧ s.1.token = v.token ∧ s.1.admin = v.admin)
      (createLoop v.maxComplexity σ T l) (Phoenix.Vesting.createLoop v T l) := by
  induction l generalizing σ v T with
  | nil => exact ⟨h, rfl, rfl, rfl⟩
  | cons p l ih =>
    obtain ⟨a, cv⟩ := p
    unfold createLoop Phoenix.Vesting.createLoop
    refine Same.bind_same fun n _ => Same.bind_same fun _ _ => ?_
    refine Same.bind (saveVesting_same h a _) ?_
    rintro σ' v' ⟨h1, h2, h3, h4⟩
    refine Same.bind_same fun T' _ => ?_
    have := ih h1 T'
    rw [h2] at this
    rw [← bind_pure (createLoop v.maxComplexity σ' T' l), ← bind_pure (Phoenix.Vesting.createLoop v' T' l)]
    refine Same.bind this ?_
    rintro ⟨σ2, T2⟩ ⟨v2, T2'⟩ ⟨e1, e2, e3, e4⟩
    exact ⟨e1, e2, e3.trans h3, e4.trans h4⟩

theorem create_same (h : Rel σ v) (l : List (Addr × Curve)) :
    Same R2 (create me c σ L l) (Phoenix.Vesting.create me c v L l) := by
  unfold create Phoenix.Vesting.create
  simp only [getAdmin_eq h.1, getComplexity_eq h.1, ok_bind']
  refine Same.bind_same fun _ _ => Same.bind_same fun _ _ => Same.bind_same fun _ _ => ?_
  refine Same.bind (createLoop_same h l 0) ?_
  rintro ⟨σ', T⟩ ⟨v', T'⟩ ⟨h1, h2, h3, h4⟩
  simp only at h1 h2 h3 h4
  subst h2
  simp only [getToken_eq h1.1, h3, ok_bind']
  refine Same.bind_same fun _ _ => Same.bind_same fun _ _ => Same.bind_same fun L' _ => ?_
  exact ⟨h1, rfl⟩

theorem claim_same (h : Rel σ v) (sender : Addr) (i : Nat) :
    Same R2 (claim me c σ L sender i) (Phoenix.Vesting.claim me c v L sender i) := by
  unfold claim Phoenix.Vesting.claim available Phoenix.Vesting.available
  simp only [getVesting_eq h.1, getToken_eq h.1, ok_bind']
  refine Same.bind_same fun _ _ => Same.bind_same fun _ _ => Same.bind_same fun _ _ => Same.bind_same fun x hx =>
    Same.bind_same fun _ _ => Same.bind_same fun _ _ => Same.bind_same fun _ _ => Same.bind_same fun _ _ =>
    Same.bind_same fun r _ => Same.bind_same fun L' _ => ?_
  refine ⟨⟨putInfo_holds h.1 sender i _ v.entries, ?_⟩, rfl⟩
  intro b j hj
  have hs := h.2 b j hj
  unfold Phoenix.Vesting.putInfo upd
  by_cases h1 : b = sender
  · subst h1
    have h2 : j ≠ i := by
      rintro rfl
      rw [Phoenix.Vesting.getVesting_ok] at hx
      rw [hx] at hs; cases hs
    simp [h2, hs]
  · simp [h1, hs]

theorem burn_eq (h : Rel σ v) (sender : Addr) (x : Nat) :
    burn me c σ L sender x = Phoenix.Vesting.burn me c v L sender x := by
  unfold burn Phoenix.Vesting.burn
  simp only [getToken_eq h.1, ok_bind']

theorem mint_same (h : Rel σ v) (sender : Addr) (x : Int) :
    Same R2 (mint me c σ L sender x) (Phoenix.Vesting.mint me c v L sender x) := by
  unfold mint Phoenix.Vesting.mint
  simp only [needMinter_eq h.1, getMinter_eq h.1, getToken_eq h.1, ok_bind']
  refine Same.bind_same fun _ _ => Same.bind_same fun _ _ => Same.bind_same fun m hm => ?_
  have he : v.minter = some m := by
    unfold Phoenix.Vesting.needMinter at hm
    cases hc : v.minter with
    | none => rw [hc] at hm; cases hm
    | some y => rw [hc] at hm; cases hm; rfl
  rw [he]
  refine Same.bind_same fun _ _ => Same.bind_same fun _ _ => Same.bind_same fun r _ => Same.bind_same fun L' _ => ?_
  exact ⟨⟨saveMinter_holds h.1 _, h.2⟩, rfl⟩

theorem updateMinter_same (h : Rel σ v) (sender new : Addr) :
    Same Rel (updateMinter c σ sender new) (Phoenix.Vesting.updateMinter c v sender new) := by
  unfold updateMinter Phoenix.Vesting.updateMinter
  simp only [getMinter_eq h.1, ok_bind']
  refine Same.bind_same fun _ _ => ?_
  have ho : minterOwner σ v.minter = .ok (Phoenix.Vesting.minterOwner v) := by
    unfold minterOwner Phoenix.Vesting.minterOwner
    cases v.minter with
    | none => exact getAdmin_eq h.1
    | some m => rfl
  have hc : (v.minter.map (·.capacity)).getD 0 = Phoenix.Vesting.capacity v := by
    unfold Phoenix.Vesting.capacity
    cases v.minter <;> rfl
  simp only [ho, ok_bind', hc]
  exact Same.bind_same fun _ _ => ⟨saveMinter_holds h.1 _, h.2⟩

theorem updateCapacity_same (h : Rel σ v) (sender : Addr) (new : Nat) :
    Same Rel (updateCapacity c σ sender new) (Phoenix.Vesting.updateCapacity c v sender new) := by
  unfold updateCapacity Phoenix.Vesting.updateCapacity
  simp only [getAdmin_eq h.1, needMinter_eq h.1, ok_bind']
  exact Same.bind_same fun _ _ => Same.bind_same fun _ _ => Same.bind_same fun _ _ => ⟨saveMinter_holds h.1 _, h.2⟩

/-- the store and the record, before or after `initialize` -/
def Rel? (σ : Store) : Option Phoenix.Vesting.State → Prop
  | none => Blank σ
  | some v => Rel σ v

theorem init_same {o : Option Phoenix.Vesting.State} (h : Rel? σ o) (a t : Addr) (cx : Nat)
    (m : Option Phoenix.Vesting.Minter) : Same Rel (init σ a t cx m) (Phoenix.Vesting.init o a t cx m) := by
  cases o with
  | some p =>
    have hi : isInit σ = .ok true := isInit_eq h.1
    unfold init Phoenix.Vesting.init
    rw [hi]
    exact rfl
  | none =>
    have hb : ∀ d k, get σ d k = none := h
    have hi : isInit σ = .ok false := loadOr_none (hb _ _)
    unfold init Phoenix.Vesting.init
    simp only [hi, ok_bind']
    refine Same.bind (Q := fun _ _ => True) (by exact trivial) fun _ _ _ => ?_
    refine ⟨⟨?_, ?_, ?_, ?_, ?_, ?_, ?_⟩, fun _ _ _ => rfl⟩
    · cases m <;> simp [saveComplexity, saveToken, putMinter, saveMinter, saveAdmin, setInit, kAdmin]
    · simp [saveComplexity, saveToken, kComplexity, kToken]
    · simp [saveComplexity, kComplexity]
    · cases m <;> simp [saveComplexity, saveToken, putMinter, saveMinter, saveAdmin, setInit, kInit, kMinter, kToken, kComplexity]
    · cases m <;> simp [saveComplexity, saveToken, putMinter, saveMinter, saveAdmin, setInit, kInit, kMinter, kToken, kComplexity, hb]
    · intro b j
      cases m <;> simp [saveComplexity, saveToken, putMinter, saveMinter, saveAdmin, setInit, kAdmin, hb]
    · intro d k hk
      cases m <;>
      · simp only [saveComplexity, saveToken, putMinter, saveMinter, saveAdmin, setInit, kInit, kMinter, kToken, kComplexity,
          kAdmin, get_set, hb] at hk
        repeat' split at hk
        all_goals first
          | exact absurd rfl hk
          | (rename_i he; simp [he.1, he.2])

/-! A contract that was never initialised answers no other call. -/

theorem step_alike {o : Option Phoenix.Vesting.State} (h : Rel? σ o) (L : Ledger) (t : Phoenix.Vesting.Tx) :
    Alike (fun (a : Store × Ledger) (s : Phoenix.Vesting.Sys) => Rel? a.1 s.vest ∧ a.2 = s.led)
      (step me (σ, L) t) (Phoenix.Vesting.step me ⟨o, L⟩ t) ∧
    (∀ v, o = some v → Same (fun (a : Store × Ledger) (s : Phoenix.Vesting.Sys) => Rel? a.1 s.vest ∧ a.2 = s.led)
      (step me (σ, L) t) (Phoenix.Vesting.step me ⟨o, L⟩ t)) := by
  cases o with
  | some v =>
    have hv : Rel σ v := h
    suffices hS : Same (fun (a : Store × Ledger) (s : Phoenix.Vesting.Sys) => Rel? a.1 s.vest ∧ a.2 = s.led)
      (step me (σ, L) t) (Phoenix.Vesting.step me ⟨some v, L⟩ t) from ⟨hS.alike, fun _ _ => hS⟩
    cases t with
    | token c tok op =>
      simp only [step, Phoenix.Vesting.step]
      exact Same.bind_same fun L' _ => ⟨h, rfl⟩
    | vest c k =>
      cases k with
      | init a t cx m =>
        simp only [step, Phoenix.Vesting.step]
        exact Same.bind (init_same (o := some v) h a t cx m) fun _ _ h1 => ⟨h1, rfl⟩
      | create l =>
        simp only [step, Phoenix.Vesting.step, Phoenix.Vesting.loaded, ok_bind']
        rw [← bind_pure (create me c σ L l)]
        refine Same.bind (create_same hv l) ?_
        rintro ⟨σ', L'⟩ ⟨p', L''⟩ ⟨h1, h2⟩
        exact ⟨h1, h2⟩
      | claim sender i =>
        simp only [step, Phoenix.Vesting.step, Phoenix.Vesting.loaded, ok_bind']
        rw [← bind_pure (claim me c σ L sender i)]
        refine Same.bind (claim_same hv sender i) ?_
        rintro ⟨σ', L'⟩ ⟨p', L''⟩ ⟨h1, h2⟩
        exact ⟨h1, h2⟩
      | burn sender x =>
        simp only [step, Phoenix.Vesting.step, Phoenix.Vesting.loaded, ok_bind', burn_eq hv]
        exact Same.bind_same fun L' _ => ⟨h, rfl⟩
      | mint sender x =>
        simp only [step, Phoenix.Vesting.step, Phoenix.Vesting.loaded, ok_bind']
        rw [← bind_pure (mint me c σ L sender x)]
        refine Same.bind (mint_same hv sender x) ?_
        rintro ⟨σ', L'⟩ ⟨p', L''⟩ ⟨h1, h2⟩
        exact ⟨h1, h2⟩
      | updateMinter sender new =>
        simp only [step, Phoenix.Vesting.step, Phoenix.Vesting.loaded, ok_bind']
        exact Same.bind (updateMinter_same hv sender new) fun _ _ h1 => ⟨h1, rfl⟩
      | updateCapacity sender new =>
        simp only [step, Phoenix.Vesting.step, Phoenix.Vesting.loaded, ok_bind']
        exact Same.bind (updateCapacity_same hv sender new) fun _ _ h1 => ⟨h1, rfl⟩
  | none =>
    refine ⟨?_, fun v hv => by cases hv⟩
    have hb : ∀ d k, get σ d k = none := h
    have hadm : getAdmin σ = .error (.code 6) := load_none (hb _ _)
    have htok : getToken σ = .error (.code 22) := load_none (hb _ _)
    have hget : ∀ a i, getVesting σ a i = .error (.code 1) := fun a i => load_none (hb _ _)
    have hmin : getMinter σ = .ok none := by unfold getMinter; rw [hb]
    have hnone : ∀ (c : Ctx) (k : Phoenix.Vesting.Call), (∀ a t cx m, k ≠ .init a t cx m) →
        ∀ s, Phoenix.Vesting.step me ⟨none, L⟩ (.vest c k) ≠ .ok s := by
      intro c k hk s hs
      cases k with
      | init a t cx m => exact hk a t cx m rfl
      | _ => simp [Phoenix.Vesting.step, Phoenix.Vesting.loaded, Bind.bind, Except.bind] at hs
    cases t with
    | token c tok op =>
      simp only [step, Phoenix.Vesting.step]
      refine Same.alike (Same.bind_same fun L' _ => ?_)
      exact ⟨h, rfl⟩
    | vest c k =>
      cases k with
      | init a t cx m =>
        simp only [step, Phoenix.Vesting.step]
        refine Same.alike (Same.bind (init_same (o := none) h a t cx m) fun _ _ h1 => ?_)
        exact ⟨h1, rfl⟩
      | create l =>
        refine Alike.errors (fun r hr => ?_) (hnone c _ (fun _ _ _ _ h => by cases h))
        simp [step, create, hadm, Bind.bind, Except.bind] at hr
      | claim sender i =>
        refine Alike.errors (fun r hr => ?_) (hnone c _ (fun _ _ _ _ h => by cases h))
        simp only [step, claim, available, hget] at hr
        obtain ⟨_, _, hr⟩ := bind_ok.mp hr
        obtain ⟨_, hr, _⟩ := bind_ok.mp hr
        simp [Bind.bind, Except.bind] at hr
      | burn sender x =>
        refine Alike.errors (fun r hr => ?_) (hnone c _ (fun _ _ _ _ h => by cases h))
        simp only [step, burn, htok] at hr
        obtain ⟨_, hr, _⟩ := bind_ok.mp hr
        obtain ⟨_, _, hr⟩ := bind_ok.mp hr
        obtain ⟨_, _, hr⟩ := bind_ok.mp hr
        simp [Bind.bind, Except.bind] at hr
      | mint sender x =>
        refine Alike.errors (fun r hr => ?_) (hnone c _ (fun _ _ _ _ h => by cases h))
        simp only [step, mint, needMinter, hmin] at hr
        obtain ⟨_, _, hr⟩ := bind_ok.mp hr
        obtain ⟨_, _, hr⟩ := bind_ok.mp hr
        simp [Bind.bind, Except.bind] at hr
      | updateMinter sender new =>
        refine Alike.errors (fun r hr => ?_) (hnone c _ (fun _ _ _ _ h => by cases h))
        simp only [step, updateMinter, hmin] at hr
        obtain ⟨_, hr, _⟩ := bind_ok.mp hr
        obtain ⟨_, _, hr⟩ := bind_ok.mp hr
        simp [minterOwner, hadm, Bind.bind, Except.bind] at hr
      | updateCapacity sender new =>
        refine Alike.errors (fun r hr => ?_) (hnone c _ (fun _ _ _ _ h => by cases h))
        simp only [step, updateCapacity, hadm] at hr
        obtain ⟨_, hr, _⟩ := bind_ok.mp hr
        obtain ⟨_, _, hr⟩ := bind_ok.mp hr
        simp [Bind.bind, Except.bind] at hr

theorem run_rel (ts : List Phoenix.Vesting.Tx) {o : Option Phoenix.Vesting.State} (h : Rel? σ o) (L : Ledger) :
    Rel? (run me (σ, L) ts).1 (Phoenix.Vesting.run me ⟨o, L⟩ ts).vest ∧
      (run me (σ, L) ts).2 = (Phoenix.Vesting.run me ⟨o, L⟩ ts).led := by
  induction ts generalizing σ o L with
  | nil => exact ⟨h, rfl⟩
  | cons t ts ih =>
    have hs := (step_alike (me := me) h L t).1
    have e1 : run me (σ, L) (t :: ts) = run me (exec me (σ, L) t) ts := rfl
    have e2 : Phoenix.Vesting.run me ⟨o, L⟩ (t :: ts) = Phoenix.Vesting.run me (Phoenix.Vesting.exec me ⟨o, L⟩ t) ts := rfl
    rw [e1, e2]
    unfold exec Phoenix.Vesting.exec
    cases h1 : step me (σ, L) t with
    | error e =>
      cases h2 : Phoenix.Vesting.step me ⟨o, L⟩ t with
      | error e' => exact ih h L
      | ok s => rw [h1, h2] at hs; exact hs.elim
    | ok a =>
      cases h2 : Phoenix.Vesting.step me ⟨o, L⟩ t with
      | error e' => rw [h1, h2] at hs; exact hs.elim
      | ok b =>
        rw [h1, h2] at hs
        obtain ⟨σ', L'⟩ := a
        obtain ⟨s', L''⟩ := b
        obtain ⟨hh, hl⟩ := hs
        simp only at hl hh
        subst hl
        exact ih hh L'

theorem Rel?.stores {o : Option Phoenix.Vesting.State} (h : Rel? σ o) : Stores σ o := by
  cases o with
  | none => exact h
  | some v => exact h.1

theorem allVestings_eq (h : Holds σ v) (a : Addr) (i n m : Nat) {k : Nat} (hk : v.sched a k = none)
    (hik : i ≤ k) (hn : k < i + n) (hm : k < i + m) :
    allVestings σ a i n = .ok (Phoenix.Vesting.allVestings (v.sched a) i m) := by
  induction n generalizing i m with
  | zero => omega
  | succ n ih =>
    cases m with
    | zero => omega
    | succ m =>
      unfold allVestings Phoenix.Vesting.allVestings
      by_cases hh : v.sched a i = none
      · have hf : has σ .pers (kSched a i) ≠ true := fun e => (has_iff h a i).mp e hh
        rw [if_neg hf, hh]
      · rw [if_pos ((has_iff h a i).mpr hh)]
        have hlt : i < k := by
          rcases Nat.lt_or_eq_of_le hik with h1 | rfl
          · exact h1
          · exact absurd hk hh
        obtain ⟨x, hx⟩ := Option.ne_none_iff_exists'.mp hh
        have hg : getVesting σ a i = .ok x := by
          rw [getVesting_eq h]; unfold Phoenix.Vesting.getVesting; rw [hx]
        rw [hg, ok_bind', ih (i + 1) m (by omega) (by omega) (by omega), hx]
        rfl

end Phoenix.Store.Vesting

namespace Phoenix.Props
open Phoenix Phoenix.Store

/-- C120: over any history, starting with an empty store, the vesting contract's store holds exactly
the record of the model (nothing before `initialize`), and the tokens are the same. -/
theorem C120_vesting_history (me : Addr) (L : Ledger) (ts : List Phoenix.Vesting.Tx) :
    Store.Vesting.Stores (Store.Vesting.run me ([], L) ts).1 (Phoenix.Vesting.run me ⟨none, L⟩ ts).vest ∧
      (Store.Vesting.run me ([], L) ts).2 = (Phoenix.Vesting.run me ⟨none, L⟩ ts).led :=
  have h := Store.Vesting.run_rel (o := none) (me := me) ts blank_nil L
  ⟨h.1.stores, h.2⟩

/-- C120: after any history that initialised the contract, every further call has the outcome of the
record model: the same failure, or success with the same tokens and a store that again holds exactly
the new record; and the query of all schedules of a recipient lists the same schedules. -/
theorem C120_vesting_call (me : Addr) (L : Ledger) (ts : List Phoenix.Vesting.Tx) {v : Phoenix.Vesting.State}
    (hv : (Phoenix.Vesting.run me ⟨none, L⟩ ts).vest = some v) (t : Phoenix.Vesting.Tx) (a : Addr) :
    Same (fun (x : Store × Ledger) (y : Phoenix.Vesting.Sys) => Store.Vesting.Stores x.1 y.vest ∧ x.2 = y.led)
        (Store.Vesting.step me (Store.Vesting.run me ([], L) ts) t)
        (Phoenix.Vesting.step me (Phoenix.Vesting.run me ⟨none, L⟩ ts) t) ∧
      Store.Vesting.queryAll (Store.Vesting.run me ([], L) ts).1 a = .ok (Phoenix.Vesting.queryAll v a) := by
  obtain ⟨h1, h2⟩ := Store.Vesting.run_rel (o := none) (me := me) ts blank_nil L
  rw [hv] at h1
  have hr : Store.Vesting.Rel (Store.Vesting.run me ([], L) ts).1 v := h1
  constructor
  · have e1 : Store.Vesting.run me ([], L) ts =
        ((Store.Vesting.run me ([], L) ts).1, (Phoenix.Vesting.run me ⟨none, L⟩ ts).led) := by rw [← h2]
    have e2 : Phoenix.Vesting.run me ⟨none, L⟩ ts = ⟨some v, (Phoenix.Vesting.run me ⟨none, L⟩ ts).led⟩ := by rw [← hv]
    have hs := (Store.Vesting.step_alike (me := me) (o := some v) hr (Phoenix.Vesting.run me ⟨none, L⟩ ts).led t).2 v rfl
    rw [← e1, ← e2] at hs
    rw [← bind_pure (Store.Vesting.step me _ t), ← bind_pure (Phoenix.Vesting.step me _ t)]
    exact Same.bind hs fun x y hxy => ⟨hxy.1.stores, hxy.2⟩
  · obtain ⟨k, hk1, _, hk3, hk4⟩ := Store.Vesting.firstFree_agree hr.1 hr.2 a
    obtain ⟨i, hi, hfree⟩ := Store.Vesting.some_free (Store.Vesting.run me ([], L) ts).1 a
    have hni : v.sched a i = none := by
      by_contra hne
      rw [(Store.Vesting.has_iff hr.1 a i).mpr hne] at hfree; cases hfree
    unfold Store.Vesting.queryAll Phoenix.Vesting.queryAll
    rcases Nat.le_total i v.entries with hle | hle
    · exact Store.Vesting.allVestings_eq hr.1 a 0 _ _ hni (Nat.zero_le _) (by omega) (by omega)
    · exact Store.Vesting.allVestings_eq hr.1 a 0 _ _ (hr.2 a v.entries (le_refl _)) (Nat.zero_le _) (by omega) (by omega)

/-! The history of Props/Vesting, run on a store: two schedules for one recipient get the indices 0
and 1, one claim empties part of the first. -/
example : (Phoenix.Vesting.run 100 ⟨none, vExStart.led⟩ vExHist).vest.isSome = true ∧
    (Store.Vesting.queryAll (Store.Vesting.run 100 ([], vExStart.led) vExHist).1 1).toOption.map (·.length) = some 2 ∧
    Store.Vesting.getMinter (Store.Vesting.run 100 ([], vExStart.led) vExHist).1 = .ok (some ⟨6, 430⟩) := by decide +kernel
example : ∃ v, (Phoenix.Vesting.run 100 ⟨none, vExStart.led⟩ vExHist).vest = some v :=
  Option.isSome_iff_exists.mp (by decide +kernel)

end Phoenix.Props
