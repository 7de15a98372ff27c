import Verif.Spec.Life
import Verif.Lemmas.Store
/-! Lemmas about programs of storage operations with and without lifetimes. -/
namespace Phoenix.Life
open Phoenix Phoenix.Store Phoenix.Life.Spec
open Phoenix.Ttl (Net extended)

section bindlemmas
variable {α β : Type}

theorem plain_bind (p : Prog α) (f : α → Prog β) (σ : Store) :
    plain (p >>= f) σ = plain p σ >>= fun r => plain (f r.1) r.2 := by
  show plain (p.bind f) σ = _
  induction p generalizing σ with
  | ret a => rfl
  | fail e => rfl
  | get d k next ih => simp only [Prog.bind, plain]; exact ih _ _
  | set d k v next ih => simp only [Prog.bind, plain]; exact ih _
  | extend k lo hi next ih =>
    simp only [Prog.bind, plain]
    split
    · exact ih _
    · rfl
  | extendInst lo hi next ih => simp only [Prog.bind, plain]; exact ih _
  | count next ih => simp only [Prog.bind, plain]; exact ih _ _

theorem timed_bind (n : Net) (seq : Nat) (p : Prog α) (f : α → Prog β) (s : LStore) :
    timed n seq (p >>= f) s = timed n seq p s >>= fun r => timed n seq (f r.1) r.2 := by
  show timed n seq (p.bind f) s = _
  induction p generalizing s with
  | ret a => rfl
  | fail e => rfl
  | get d k next ih =>
    cases d
    · simp only [Prog.bind, timed]; exact ih _ _
    · simp only [Prog.bind, timed]
      split
      · rfl
      · exact ih _ _
  | set d k v next ih =>
    cases d
    · simp only [Prog.bind, timed]; exact ih _
    · simp only [Prog.bind, timed]
      split
      · rfl
      · exact ih _
  | extend k lo hi next ih =>
    simp only [Prog.bind, timed]
    split
    · exact ih _
    · rfl
  | extendInst lo hi next ih => simp only [Prog.bind, timed]; exact ih _
  | count next ih => simp only [Prog.bind, timed]; exact ih _ _

theorem touched_bind (p : Prog α) (f : α → Prog β) (σ : Store) {a : α} {σ' : Store} (h : plain p σ = .ok (a, σ')) :
    touched (p >>= f) σ = touched p σ ++ touched (f a) σ' := by
  show touched (p.bind f) σ = _
  induction p generalizing σ with
  | ret b => simp only [plain] at h; cases h; rfl
  | fail e => cases h
  | get d k next ih =>
    cases d
    · exact ih _ _ h
    · exact congrArg (k :: ·) (ih _ _ h)
  | set d k v next ih =>
    cases d
    · exact ih _ h
    · exact congrArg (k :: ·) (ih _ h)
  | extend k lo hi next ih =>
    simp only [plain] at h
    split at h
    · simp only [Prog.bind, touched, List.cons_append]; rw [ih _ h]
    · cases h
  | extendInst lo hi next ih => simp only [Prog.bind, touched]; rw [ih _ h]
  | count next ih => simp only [Prog.bind, touched]; exact ih _ _ h

end bindlemmas

/-- what succeeds with lifetimes succeeds without, in the same way -/
theorem timed_plain {α : Type} {n : Net} {seq : Nat} {p : Prog α} {s s' : LStore} {a : α}
    (h : timed n seq p s = .ok (a, s')) : plain p s.st = .ok (a, s'.st) := by
  induction p generalizing s with
  | ret b => simp only [timed] at h; cases h; rfl
  | fail e => cases h
  | get d k next ih =>
    cases d
    · exact ih _ h
    · simp only [timed] at h
      split at h
      · cases h
      · exact ih _ h
  | set d k v next ih =>
    cases d
    · exact ih h
    · simp only [timed] at h
      split at h
      · cases h
      · exact ih h
  | extend k lo hi next ih =>
    simp only [timed] at h
    split at h
    · rename_i hc
      simp only [plain]
      rw [if_pos hc.1]
      have := ih h
      exact this
    · cases h
  | extendInst lo hi next ih =>
    simp only [timed] at h
    have := ih h
    exact this
  | count next ih =>
    simp only [timed] at h
    have := ih _ h
    exact this

theorem extended_ge (n : Net) (seq lo hi l : Nat) : l ≤ extended n seq lo hi l := by
  unfold extended
  simp only
  split
  · rename_i h; exact Nat.le_of_lt h.2
  · exact Nat.le_refl _

/-- extending leaves at least `lo` ledgers -/
theorem extended_low {n : Net} {seq lo hi : Nat} (l : Nat) (h : lo ≤ hi) (hm : hi < n.maxTtl) :
    seq + lo ≤ extended n seq lo hi l := by
  unfold extended
  simp only
  split
  · omega
  · rename_i hc
    rw [not_and_or] at hc
    rcases hc with hc | hc
    · omega
    · have := Nat.le_of_not_lt hc; omega

theorem put1_apply (f : Key → Nat) (k : Key) (v : Nat) (x : Key) : put1 f k v x = if x = k then v else f x := rfl

theorem archived_iff {s : LStore} {seq : Nat} {k : Key} :
    s.archived seq k = true ↔ (Store.get s.st .pers k).isSome = true ∧ s.live k < seq := by
  unfold LStore.archived
  simp only [Bool.and_eq_true, decide_eq_true_eq]

/-- nothing becomes archived by an operation -/
theorem put_archived {n : Net} {seq : Nat} (hn : 1 ≤ n.minPers) {s : LStore} {k k' : Key} {v : Cell}
    (h : ¬ s.archived seq k' = true) (hk : ¬ s.archived seq k = true) : ¬ (s.put n seq k v).archived seq k' = true := by
  rw [archived_iff] at h hk ⊢
  unfold LStore.put
  simp only [get_set, true_and]
  rintro ⟨h1, h2⟩
  by_cases hs : (Store.get s.st .pers k).isSome = true
  · rw [if_pos hs] at h2
    by_cases e : k' = k
    · subst e; exact h ⟨hs, h2⟩
    · rw [if_neg e] at h1; exact h ⟨h1, h2⟩
  · rw [if_neg hs, put1_apply] at h2
    by_cases e : k' = k
    · rw [if_pos e] at h2; omega
    · rw [if_neg e] at h1 h2; exact h ⟨h1, h2⟩

/-- what succeeds without lifetimes succeeds with them unless it touches something archived -/
theorem timed_of_plain {α : Type} {n : Net} (hn : NetOK n) {seq : Nat} {p : Prog α} {s : LStore} {a : α} {σ' : Store}
    (h : plain p s.st = .ok (a, σ')) (ha : ∀ k ∈ touched p s.st, ¬ s.archived seq k = true) :
    ∃ s', timed n seq p s = .ok (a, s') ∧ s'.st = σ' := by
  have hp := hn.pers
  induction p generalizing s with
  | ret b => simp only [plain] at h; cases h; exact ⟨s, rfl, rfl⟩
  | fail e => cases h
  | get d k next ih =>
    cases d
    · exact ih _ h ha
    · simp only [timed]
      rw [if_neg (ha k (List.mem_cons_self ..))]
      exact ih _ h (fun k' hk' => ha k' (List.mem_cons_of_mem _ hk'))
  | set d k v next ih =>
    cases d
    · refine ih (s := { s with st := Store.set s.st .inst k v }) h (fun k' hk' => ?_)
      have := ha k' hk'
      rw [archived_iff] at this ⊢
      simp only [get_set] at this ⊢
      simpa using this
    · simp only [timed]
      have h0 := ha k (List.mem_cons_self ..)
      rw [if_neg h0]
      exact ih (s := s.put n seq k v) h (fun k' hk' => put_archived hp (ha k' (List.mem_cons_of_mem _ hk')) h0)
  | extend k lo hi next ih =>
    simp only [plain] at h
    split at h
    · rename_i hc
      have h0 := ha k (List.mem_cons_self ..)
      simp only [timed]
      rw [if_pos ⟨hc, h0⟩]
      refine ih (s := { s with live := put1 s.live k (extended n seq lo hi (s.live k)) }) h (fun k' hk' => ?_)
      have := ha k' (List.mem_cons_of_mem _ hk')
      rw [archived_iff] at this ⊢
      simp only [put1_apply]
      rintro ⟨h1, h2⟩
      refine this ⟨h1, ?_⟩
      split at h2
      · rename_i e
        subst e
        have := extended_ge n seq lo hi (s.live k')
        omega
      · exact h2
    · cases h
  | extendInst lo hi next ih => exact ih (s := { s with inst := extended n seq lo hi s.inst }) h ha
  | count next ih => exact ih _ h ha

/-- a program that succeeds touched nothing archived -/
theorem timed_live {α : Type} {n : Net} {seq : Nat} {p : Prog α} {s s' : LStore} {a : α}
    (h : timed n seq p s = .ok (a, s')) {k : Key} (hk : k ∈ touched p s.st) : ¬ s.archived seq k = true := by
  induction p generalizing s with
  | ret b => cases hk
  | fail e => cases h
  | get d k' next ih =>
    cases d
    · exact ih _ h hk
    · simp only [timed] at h
      split at h
      · cases h
      · rename_i hc
        rcases List.mem_cons.1 hk with rfl | hk
        · exact hc
        · exact ih _ h hk
  | set d k' v next ih =>
    cases d
    · have := ih (s := { s with st := Store.set s.st .inst k' v }) h hk
      rw [archived_iff] at this ⊢
      simp only [get_set] at this ⊢
      simpa using this
    · simp only [timed] at h
      split at h
      · cases h
      · rename_i hc
        by_cases e : k = k'
        · rw [e]; exact hc
        · rcases List.mem_cons.1 hk with e' | hk
          · exact absurd e' e
          · have := ih h hk
            rw [archived_iff] at this ⊢
            rintro ⟨h1, h2⟩
            refine this ⟨?_, ?_⟩
            · simp only [LStore.put, get_set]
              rw [if_neg (by rintro ⟨_, e'⟩; exact e e')]
              exact h1
            · simp only [LStore.put]
              split
              · exact h2
              · rw [put1_apply, if_neg e]; exact h2
  | extend k' lo hi next ih =>
    simp only [timed] at h
    split at h
    · rename_i hc
      by_cases e : k = k'
      · rw [e]; exact hc.2
      · rcases List.mem_cons.1 hk with e' | hk
        · exact absurd e' e
        · have := ih (s := { s with live := put1 s.live k' (extended n seq lo hi (s.live k')) }) h hk
          rw [archived_iff] at this ⊢
          simp only [put1_apply, if_neg e] at this
          exact this
    · cases h
  | extendInst lo hi next ih => exact ih (s := { s with inst := extended n seq lo hi s.inst }) h hk
  | count next ih => exact ih _ h hk

/-- lifetimes only grow -/
structure Grows (s s' : LStore) : Prop where
  there : ∀ k, (Store.get s.st .pers k).isSome = true → (Store.get s'.st .pers k).isSome = true
  live : ∀ k, (Store.get s.st .pers k).isSome = true → s.live k ≤ s'.live k
  inst : s.inst ≤ s'.inst

theorem Grows.refl (s : LStore) : Grows s s := ⟨fun _ h => h, fun _ _ => Nat.le_refl _, Nat.le_refl _⟩
theorem Grows.trans {s s' s'' : LStore} (h : Grows s s') (h' : Grows s' s'') : Grows s s'' :=
  ⟨fun k hk => h'.there k (h.there k hk), fun k hk => Nat.le_trans (h.live k hk) (h'.live k (h.there k hk)), Nat.le_trans h.inst h'.inst⟩

theorem put_grows (n : Net) (seq : Nat) (s : LStore) (k : Key) (v : Cell) : Grows s (s.put n seq k v) := by
  refine ⟨fun k' h => ?_, fun k' h => ?_, Nat.le_refl _⟩
  · unfold LStore.put; simp only [get_set]; split <;> simp [h]
  · unfold LStore.put
    simp only
    split
    · exact Nat.le_refl _
    · rename_i hk
      rw [put1_apply]
      split
      · rename_i e; subst e; exact absurd h hk
      · exact Nat.le_refl _

theorem timed_grows {α : Type} {n : Net} {seq : Nat} {p : Prog α} {s s' : LStore} {a : α}
    (h : timed n seq p s = .ok (a, s')) : Grows s s' := by
  induction p generalizing s with
  | ret b => simp only [timed] at h; cases h; exact .refl _
  | fail e => cases h
  | get d k next ih =>
    cases d
    · exact ih _ h
    · simp only [timed] at h
      split at h
      · cases h
      · exact ih _ h
  | set d k v next ih =>
    cases d
    · simp only [timed] at h
      have hg := ih h
      refine .trans ?_ hg
      refine ⟨fun k' hk => ?_, fun _ _ => Nat.le_refl _, Nat.le_refl _⟩
      simp only [get_set]; simpa using hk
    · simp only [timed] at h
      split at h
      · cases h
      · exact (put_grows n seq s k v).trans (ih h)
  | extend k lo hi next ih =>
    simp only [timed] at h
    split at h
    · have hg := ih h
      refine .trans ?_ hg
      refine ⟨fun k' hk => hk, fun k' _ => ?_, Nat.le_refl _⟩
      simp only [put1_apply]
      split
      · rename_i e; subst e; exact extended_ge ..
      · exact Nat.le_refl _
    · cases h
  | extendInst lo hi next ih =>
    simp only [timed] at h
    have hg := ih h
    refine .trans ?_ hg
    exact ⟨fun k' hk => hk, fun k' _ => Nat.le_refl _, extended_ge ..⟩
  | count next ih => exact ih _ h

/-- One act, with the same act without lifetimes. -/
theorem step_call {T E : Type} {n : Net} {C : Contract T E} {s s' : LSys E} {t : T} {b : Bool}
    (h : step n C s (.call t b) = .ok s') :
    b = false ∧ (C.calls t s.led = true → C.seq t ≤ s.cs.inst) ∧ timed n (C.seq t) (C.prog t s.led) s.cs = .ok (s'.led, s'.cs) := by
  simp only [step, bind_ok, req_ok] at h
  obtain ⟨_, h1, _, h2, ⟨L, cs⟩, h3, h4⟩ := h
  cases h4
  exact ⟨h1, h2, h3⟩

theorem step_other {T E : Type} {n : Net} {C : Contract T E} {s s' : LSys E} {a : Act T} (ha : ∀ t b, a ≠ .call t b)
    (h : step n C s a = .ok s') : s'.led = s.led ∧ s'.cs.st = s.cs.st := by
  cases a with
  | call t b => exact absurd rfl (ha t b)
  | restore seq k => simp only [step] at h; split at h <;> cases h <;> exact ⟨rfl, rfl⟩
  | restoreInst seq => simp only [step] at h; split at h <;> cases h <;> exact ⟨rfl, rfl⟩
  | extend seq k x => simp only [step] at h; split at h <;> cases h; exact ⟨rfl, rfl⟩
  | extendInst seq x => simp only [step] at h; split at h <;> cases h; exact ⟨rfl, rfl⟩

theorem plainStep_of {T E : Type} {n : Net} {C : Contract T E} {s s' : LSys E} {t : T} {b : Bool}
    (h : step n C s (.call t b) = .ok s') : plainStep C (s.cs.st, s.led) t = .ok (s'.cs.st, s'.led) := by
  have := timed_plain (step_call h).2.2
  simp only [plainStep, this]
  rfl

/-- the state is that of the transactions that succeeded -/
theorem run_effective {T E : Type} (n : Net) (C : Contract T E) (s : LSys E) (as : List (Act T)) :
    AllSucceed C (s.cs.st, s.led) (effective n C s as) ∧
    ((run n C s as).cs.st, (run n C s as).led) = plainRun C (s.cs.st, s.led) (effective n C s as) := by
  induction as generalizing s with
  | nil => exact ⟨trivial, rfl⟩
  | cons a as ih =>
    have ih' := ih (exec n C s a)
    have hr : run n C s (a :: as) = run n C (exec n C s a) as := rfl
    rw [hr]
    simp only [effective]
    cases hs : step n C s a with
    | error e =>
      have he : exec n C s a = s := by unfold exec; rw [hs]
      rw [he] at ih' ⊢
      cases a <;> exact ih'
    | ok s' =>
      have he : exec n C s a = s' := by unfold exec; rw [hs]
      rw [he] at ih' ⊢
      by_cases hc : ∃ t b, a = .call t b
      · obtain ⟨t, b, rfl⟩ := hc
        have hp := plainStep_of hs
        refine ⟨⟨_, hp, ih'.1⟩, ?_⟩
        rw [ih'.2]
        simp only [plainRun, List.foldl_append, List.foldl_cons, List.foldl_nil, hp]
      · have ⟨h1, h2⟩ := step_other (fun t b e => hc ⟨t, b, e⟩) hs
        rw [h1, h2] at ih'
        cases a <;> first | exact absurd ⟨_, _, rfl⟩ hc | exact ih'

theorem exec_grows {T E : Type} (n : Net) (hn : NetOK n) (C : Contract T E) (s : LSys E) (a : Act T) : Grows s.cs (exec n C s a).cs := by
  have hp := hn.pers
  unfold exec
  cases hs : step n C s a with
  | error e => exact .refl _
  | ok s' =>
    cases a with
    | call t b => exact timed_grows (step_call hs).2.2
    | restore seq k =>
      simp only [step] at hs
      split at hs <;> cases hs
      · rename_i h
        rw [archived_iff] at h
        refine ⟨fun _ h => h, fun k' _ => ?_, Nat.le_refl _⟩
        simp only [put1_apply]
        split
        · rename_i e; subst e; omega
        · exact Nat.le_refl _
      · exact .refl _
    | restoreInst seq =>
      simp only [step] at hs
      split at hs <;> cases hs
      · exact ⟨fun _ h => h, fun k' _ => Nat.le_refl _, by simp only; omega⟩
      · exact .refl _
    | extend seq k x =>
      simp only [step] at hs
      split at hs <;> cases hs
      refine ⟨fun _ h => h, fun k' _ => ?_, Nat.le_refl _⟩
      simp only [put1_apply]
      split
      · rename_i e; subst e; exact Nat.le_max_left ..
      · exact Nat.le_refl _
    | extendInst seq x =>
      simp only [step] at hs
      split at hs <;> cases hs
      exact ⟨fun _ h => h, fun k' _ => Nat.le_refl _, Nat.le_max_left ..⟩

theorem run_grows {T E : Type} (n : Net) (hn : NetOK n) (C : Contract T E) (s : LSys E) (as : List (Act T)) : Grows s.cs (run n C s as).cs := by
  induction as generalizing s with
  | nil => exact .refl _
  | cons a as ih => exact (exec_grows n hn C s a).trans (ih _)

/-- a call fails only for what is outside, the instance, or something archived that it touches -/
theorem call_works {T E : Type} {n : Net} (hn : NetOK n) {C : Contract T E} {s : LSys E} {t : T} {s' : Store × E}
    (h : plainStep C (s.cs.st, s.led) t = .ok s') (hi : C.calls t s.led = true → C.seq t ≤ s.cs.inst)
    (ha : ∀ k ∈ touched (C.prog t s.led) s.cs.st, ¬ s.cs.archived (C.seq t) k = true) :
    ∃ s'', step n C s (.call t false) = .ok s'' ∧ s''.cs.st = s'.1 ∧ s''.led = s'.2 := by
  simp only [plainStep, bind_ok] at h
  obtain ⟨⟨L, σ⟩, h1, h2⟩ := h
  cases h2
  obtain ⟨cs, h3, h4⟩ := timed_of_plain hn h1 ha
  refine ⟨⟨L, cs⟩, ?_, h4, rfl⟩
  simp only [step, bind_ok, req_ok]
  exact ⟨(), by trivial, (), hi, (L, cs), h3, rfl⟩

theorem exec_ok {T E : Type} {n : Net} {C : Contract T E} {s s' : LSys E} {a : Act T} (h : step n C s a = .ok s') : exec n C s a = s' := by
  unfold exec; rw [h]

/-- restoring what a call touches -/
theorem restored {T E : Type} {n : Net} (hn : NetOK n) (C : Contract T E) (s : LSys E) (seq : Nat) (ks : List Key) :
    (run n C s (restores seq ks)).cs.st = s.cs.st ∧ (run n C s (restores seq ks)).led = s.led ∧
    seq ≤ (run n C s (restores seq ks)).cs.inst ∧
    ∀ k ∈ ks, ¬ (run n C s (restores seq ks)).cs.archived seq k = true := by
  have hp := hn.pers
  have key : ∀ (ks : List Key) (s : LSys E), seq ≤ s.cs.inst →
      (run n C s (ks.map (fun k => Act.restore seq k))).cs.st = s.cs.st ∧
      (run n C s (ks.map (fun k => Act.restore seq k))).led = s.led ∧
      seq ≤ (run n C s (ks.map (fun k => Act.restore seq k))).cs.inst ∧
      ∀ k, (k ∈ ks ∨ ¬ s.cs.archived seq k = true) →
        ¬ (run n C s (ks.map (fun k => Act.restore seq k))).cs.archived seq k = true := by
    intro ks
    induction ks with
    | nil => intro s hi; exact ⟨rfl, rfl, hi, fun k h => h.resolve_left (by simp)⟩
    | cons k ks ih =>
      intro s hi
      have he : run n C s ((k :: ks).map (fun k => Act.restore seq k)) = run n C (exec n C s (.restore seq k)) (ks.map (fun k => Act.restore seq k)) := rfl
      rw [he]
      have hx : (exec n C s (.restore seq k)).cs.st = s.cs.st ∧ (exec n C s (.restore seq k)).led = s.led ∧
          (exec n C s (.restore seq k)).cs.inst = s.cs.inst ∧
          ∀ k', (k' = k ∨ ¬ s.cs.archived seq k' = true) → ¬ (exec n C s (.restore seq k)).cs.archived seq k' = true := by
        by_cases ha : s.cs.archived seq k = true
        · rw [exec_ok (s' := { s with cs := { s.cs with live := put1 s.cs.live k (seq + n.minPers - 1) } }) (by simp only [step]; rw [if_pos ha])]
          refine ⟨rfl, rfl, rfl, fun k' h => ?_⟩
          rw [archived_iff] at h ⊢
          simp only [put1_apply]
          rintro ⟨h1, h2⟩
          split at h2
          · omega
          · rename_i hk
            exact h.resolve_left hk ⟨h1, h2⟩
        · rw [exec_ok (s' := s) (by simp only [step]; rw [if_neg ha])]
          refine ⟨rfl, rfl, rfl, fun k' h => ?_⟩
          rcases h with rfl | h
          · exact ha
          · exact h
      obtain ⟨e1, e2, e3, e4⟩ := hx
      obtain ⟨i1, i2, i3, i4⟩ := ih (exec n C s (.restore seq k)) (by omega)
      refine ⟨i1.trans e1, i2.trans e2, i3, fun k' h => i4 k' ?_⟩
      by_cases hk : k' ∈ ks
      · exact .inl hk
      · refine .inr (e4 k' ?_)
        rcases h with h | h
        · rcases List.mem_cons.1 h with h | h
          · exact .inl h
          · exact absurd h hk
        · exact .inr h
  have hx : (exec n C s (.restoreInst seq)).cs.st = s.cs.st ∧ (exec n C s (.restoreInst seq)).led = s.led ∧
      seq ≤ (exec n C s (.restoreInst seq)).cs.inst := by
    by_cases h : s.cs.inst < seq
    · rw [exec_ok (s' := { s with cs := { s.cs with inst := seq + n.minPers - 1 } }) (by simp only [step]; rw [if_pos h])]
      exact ⟨rfl, rfl, by simp only; omega⟩
    · rw [exec_ok (s' := s) (by simp only [step]; rw [if_neg h])]
      exact ⟨rfl, rfl, by omega⟩
  obtain ⟨k1, k2, k3, k4⟩ := key ks (exec n C s (.restoreInst seq)) hx.2.2
  exact ⟨k1.trans hx.1, k2.trans hx.2.1, k3, fun k hk => k4 k (.inl hk)⟩

/-- what a program does not touch it leaves there or not there -/
theorem untouched {α : Type} {p : Prog α} {σ σ' : Store} {a : α} (h : plain p σ = .ok (a, σ')) {k : Key} (hk : k ∉ touched p σ) :
    Store.get σ' .pers k = Store.get σ .pers k := by
  induction p generalizing σ with
  | ret b => simp only [plain] at h; cases h; rfl
  | fail e => cases h
  | get d k' next ih =>
    cases d
    · exact ih _ h hk
    · exact ih _ h (fun h' => hk (List.mem_cons_of_mem _ h'))
  | set d k' v next ih =>
    cases d
    · refine (ih h hk).trans ?_
      simp only [Place.dur, get_set]; simp
    · refine (ih h (fun h' => hk (List.mem_cons_of_mem _ h'))).trans ?_
      simp only [Place.dur, get_set, true_and]
      rw [if_neg]
      rintro rfl
      exact hk (List.mem_cons_self ..)
  | extend k' lo hi next ih =>
    simp only [plain] at h
    split at h
    · exact ih h (fun h' => hk (List.mem_cons_of_mem _ h'))
    · cases h
  | extendInst lo hi next ih => exact ih h hk
  | count next ih => exact ih _ h hk

/-! Upkeep -/

/-- Every persistent entry the program touches, but those in `X`, has at least 29 days left afterwards
if there is such an entry. -/
def Keeps {α : Type} (X : Key → Prop) (p : Prog α) : Prop :=
  ∀ (n : Net), NetOK n → ∀ (seq : Nat) (s s' : LStore) (a : α), timed n seq p s = .ok (a, s') →
    ∀ k ∈ touched p s.st, ¬ X k → (Store.get s'.st .pers k).isSome = true → seq + PERS_LOW ≤ s'.live k

theorem Keeps.ret {α : Type} {X : Key → Prop} (a : α) : Keeps X (.ret a) := by
  intro n _ seq s s' b _ k hk; cases hk
theorem Keeps.pure {α : Type} {X : Key → Prop} (a : α) : Keeps X (Pure.pure a : Prog α) := Keeps.ret a
theorem Keeps.fail {α : Type} {X : Key → Prop} (e : Err) : Keeps X (.fail e : Prog α) := by
  intro n _ seq s s' b _ k hk; cases hk
theorem Keeps.lift {α : Type} {X : Key → Prop} (x : Res α) : Keeps X (lift x) := by
  cases x <;> first | exact .ret _ | exact .fail _
theorem Keeps.liftM {α : Type} {X : Key → Prop} (x : Except Err α) : Keeps X (liftM x : Prog α) := Keeps.lift x

theorem Keeps.bind {α β : Type} {X : Key → Prop} {p : Prog α} {f : α → Prog β} (hp : Keeps X p) (hf : ∀ a, Keeps X (f a)) :
    Keeps X (p >>= f) := by
  intro n hn seq s s' b h k hk hx ht
  rw [timed_bind, bind_ok] at h
  obtain ⟨⟨a, s1⟩, h1, h2⟩ := h
  rw [touched_bind p f s.st (timed_plain h1)] at hk
  rcases List.mem_append.1 hk with hk | hk
  · by_cases h0 : (Store.get s1.st .pers k).isSome = true
    · exact Nat.le_trans (hp n hn seq s s1 a h1 k hk hx h0) ((timed_grows h2).live k h0)
    · by_cases hk2 : k ∈ touched (f a) s1.st
      · exact hf a n hn seq s1 s' b h2 k hk2 hx ht
      · exact absurd (untouched (timed_plain h2) hk2 ▸ ht) h0
  · exact hf a n hn seq s1 s' b h2 k hk hx ht

theorem Keeps.instRead {α : Type} {X : Key → Prop} {k : Key} {f : Option Cell → Prog α} (h : ∀ c, Keeps X (f c)) : Keeps X (.get .inst k f) := by
  intro n hn seq s s' b ht
  exact h _ n hn seq s s' b ht

theorem Keeps.keep {X : Key → Prop} (k : Key) : Keeps X (Life.keep k) := by
  intro n hn seq s s' b h k' hk hx ht
  simp only [Life.keep, timed] at h
  split at h
  · cases h
    simp only [Life.keep, touched, List.mem_singleton] at hk
    subst hk
    simp only [put1_apply, if_true]
    exact extended_low _ (by decide) hn.max
  · cases h

theorem Keeps.keepInst {X : Key → Prop} : Keeps X Life.keepInst := by
  intro n hn seq s s' b h k' hk; cases hk
theorem Keeps.keepInstLong {X : Key → Prop} : Keeps X Life.keepInstLong := by
  intro n hn seq s s' b h k' hk; cases hk
theorem Keeps.writeInst {X : Key → Prop} (k : Key) (v : Cell) : Keeps X (write .inst k v) := by
  intro n hn seq s s' b h k' hk; cases hk

/-- the program, if it succeeds, touches the entry -/
def Touches {α : Type} (k : Key) (p : Prog α) : Prop := ∀ σ a σ', plain p σ = .ok (a, σ') → k ∈ touched p σ

theorem Touches.left {α β : Type} {k : Key} {p : Prog α} {f : α → Prog β} (h : Touches k p) : Touches k (p >>= f) := by
  intro σ b σ' hp
  rw [plain_bind, bind_ok] at hp
  obtain ⟨⟨a, σ1⟩, h1, _⟩ := hp
  rw [touched_bind p f σ h1]
  exact List.mem_append_left _ (h _ _ _ h1)

theorem Touches.right {α β : Type} {k : Key} {p : Prog α} {f : α → Prog β} (h : ∀ a, Touches k (f a)) : Touches k (p >>= f) := by
  intro σ b σ' hp
  rw [plain_bind, bind_ok] at hp
  obtain ⟨⟨a, σ1⟩, h1, h2⟩ := hp
  rw [touched_bind p f σ h1]
  exact List.mem_append_right _ (h a _ _ _ h2)

theorem Touches.keep (k : Key) : Touches k (Life.keep k) := fun _ _ _ _ => List.mem_cons_self ..
theorem Touches.read (k : Key) : Touches k (Life.read .pers k) := fun _ _ _ _ => List.mem_cons_self ..
theorem Touches.keepIfThere (k : Key) : Touches k (Life.keepIfThere k) := (Touches.read k).left

/-- an entry is kept if the program goes on to keep it -/
theorem Keeps.absorb {α β : Type} {X : Key → Prop} {k : Key} {p : Prog α} {f : α → Prog β} (hp : Keeps (fun k' => X k' ∨ k' = k) p)
    (hf : ∀ a, Keeps X (f a)) (ht : ∀ a, Touches k (f a)) : Keeps X (p >>= f) := by
  intro n hn seq s s' b h k' hk hx hs
  have h' := h
  rw [timed_bind, bind_ok] at h'
  obtain ⟨⟨a, s1⟩, h1, h2⟩ := h'
  by_cases e : k' = k
  · subst e
    exact hf a n hn seq s1 s' b h2 k' (ht a _ _ _ (timed_plain h2)) hx hs
  · have h3 : Keeps (fun x => X x ∨ x = k) (p >>= f) :=
      hp.bind (fun a n hn seq s s' b h k' hk hx => hf a n hn seq s s' b h k' hk (fun h => hx (.inl h)))
    exact h3 n hn seq s s' b h k' hk (fun h => h.elim hx e) hs

/-- what only touches exceptions keeps everything else -/
theorem Keeps.read {X : Key → Prop} {k : Key} (h : X k) : Keeps X (Life.read .pers k) := by
  intro n hn seq s s' b ht k' hk hx
  simp only [Life.read, touched, List.mem_singleton] at hk
  exact absurd (hk ▸ h) hx

theorem Keeps.write {X : Key → Prop} {k : Key} {v : Cell} (h : X k) : Keeps X (Life.write .pers k v) := by
  intro n hn seq s s' b ht k' hk hx
  simp only [Life.write, touched, List.mem_singleton] at hk
  exact absurd (hk ▸ h) hx

theorem Keeps.readInst {X : Key → Prop} (k : Key) : Keeps X (Life.read .inst k) := by
  intro n hn seq s s' b ht k' hk; cases hk

theorem Keeps.fetch' {α : Type} {X : Key → Prop} {d : Place} {k : Key} {as : Cell → Option α} {e : Err} (h : Keeps X (Life.read d k)) :
    Keeps X (fetch d k as e) := by
  refine h.bind (fun c => ?_)
  cases c with
  | none => exact .fail _
  | some c =>
    simp only
    split
    · exact .ret _
    · exact .fail _

theorem Keeps.fetchOr' {α : Type} {X : Key → Prop} {d : Place} {k : Key} {as : Cell → Option α} {x0 : α} (h : Keeps X (Life.read d k)) :
    Keeps X (fetchOr d k as x0) := by
  refine h.bind (fun c => ?_)
  cases c with
  | none => exact .ret _
  | some c =>
    simp only
    split
    · exact .ret _
    · exact .fail _

theorem Keeps.keepIfThere {X : Key → Prop} (k : Key) : Keeps X (Life.keepIfThere k) := by
  intro n hn seq s s' b h k' hk hx ht
  have hp := timed_plain h
  unfold Life.keepIfThere at h hk hp
  rw [timed_bind, bind_ok] at h
  obtain ⟨⟨c, s1⟩, h1, h2⟩ := h
  have e1 := timed_plain h1
  simp only [Life.read, timed] at h1
  split at h1
  · cases h1
  · cases h1
    simp only at h2
    split at h2
    · rename_i hc
      rw [touched_bind _ _ _ e1] at hk
      simp only [Life.read, touched, hc, if_true] at hk
      refine Keeps.keep (X := X) k n hn seq s s' () h2 k' ?_ hx ht
      simp only [Life.keep, touched, List.cons_append, List.nil_append, List.mem_cons, List.not_mem_nil, or_false, or_self] at hk ⊢
      exact hk
    · rename_i hc
      cases h2
      rw [touched_bind _ _ _ e1] at hk
      simp only [Life.read, touched, hc, List.cons_append, List.nil_append] at hk
      simp only [Bool.false_eq_true, if_false, touched, List.mem_cons, List.not_mem_nil, or_false] at hk
      subst hk
      exact absurd ht hc

section plainlemmas
variable {α β : Type}

theorem plain_pure (a : α) (σ : Store) : plain (pure a : Prog α) σ = .ok (a, σ) := rfl
theorem plain_ret (a : α) (σ : Store) : plain (Prog.ret a) σ = .ok (a, σ) := rfl
theorem plain_lift (x : Res α) (σ : Store) : plain (lift x) σ = x >>= fun a => .ok (a, σ) := by cases x <;> rfl
theorem plain_liftM (x : Except Err α) (σ : Store) : plain (liftM x : Prog α) σ = x >>= fun a => .ok (a, σ) := plain_lift x σ
theorem plain_keepInst (σ : Store) : plain keepInst σ = .ok ((), σ) := rfl
theorem plain_keepInstLong (σ : Store) : plain keepInstLong σ = .ok ((), σ) := rfl

/-- reading leaves the store -/
def Reads (p : Prog α) (f : Store → Res α) : Prop := ∀ σ, plain p σ = f σ >>= fun a => .ok (a, σ)
/-- writing -/
def Writes (p : Prog Unit) (f : Store → Store) : Prop := ∀ σ, plain p σ = .ok ((), f σ)

theorem plain_fetch (d : Place) (k : Key) (as : Cell → Option α) (e : Err) : Reads (fetch d k as e) (fun σ => load σ d.dur k as e) := by
  intro σ
  simp only [fetch, read, plain_bind, plain, load]
  show plain _ _ = _
  cases Store.get σ d.dur k with
  | none => rfl
  | some c => simp only; cases as c <;> rfl

theorem plain_fetchOr (d : Place) (k : Key) (as : Cell → Option α) (x : α) : Reads (fetchOr d k as x) (fun σ => loadOr σ d.dur k as x) := by
  intro σ
  simp only [fetchOr, read, plain_bind, plain, loadOr]
  show plain _ _ = _
  cases Store.get σ d.dur k with
  | none => rfl
  | some c => simp only; cases as c <;> rfl

theorem reads_fetch_keep (k : Key) (as : Cell → Option α) (e : Err) :
    Reads (fetch .pers k as e >>= fun c => keep k >>= fun _ => pure c) (fun σ => load σ .pers k as e) := by
  intro σ
  rw [plain_bind, plain_fetch]
  simp only [Place.dur]
  cases h : load σ .pers k as e with
  | error _ => rfl
  | ok c =>
    have : (Store.get σ .pers k).isSome = true := by
      unfold load at h
      cases hg : Store.get σ .pers k with
      | none => rw [hg] at h; cases h
      | some _ => rfl
    show plain (keep k >>= fun _ => pure c) σ = _
    rw [plain_bind]
    simp only [keep, plain, this, if_true]
    rfl

theorem plain_keepIfThere (k : Key) (σ : Store) : plain (keepIfThere k) σ = .ok ((), σ) := by
  unfold keepIfThere
  rw [plain_bind]
  simp only [read, plain, Place.dur]
  show plain _ _ = _
  simp only
  split
  · rename_i h
    simp only [keep, plain, h, if_true]
  · rfl

theorem reads_fetchOr_keep (k : Key) (as : Cell → Option α) (x : α) :
    Reads (fetchOr .pers k as x >>= fun c => keepIfThere k >>= fun _ => pure c) (fun σ => loadOr σ .pers k as x) := by
  intro σ
  rw [plain_bind, plain_fetchOr]
  simp only [Place.dur]
  cases h : loadOr σ .pers k as x with
  | error _ => rfl
  | ok c =>
    show plain (keepIfThere k >>= fun _ => pure c) σ = _
    rw [plain_bind, plain_keepIfThere]
    rfl

theorem writes_keep (k : Key) (v : Cell) : Writes (write .pers k v >>= fun _ => keep k) (fun σ => Store.set σ .pers k v) := by
  intro σ
  rw [plain_bind]
  simp only [write, plain]
  show plain (keep k) (Store.set σ .pers k v) = _
  simp only [keep, plain, get_set, and_self, if_true, Option.isSome_some]

theorem Reads.bind {p : Prog α} {f : Store → Res α} (h : Reads p f) (g : α → Prog β) (σ : Store) :
    plain (p >>= g) σ = f σ >>= fun a => plain (g a) σ := by
  rw [plain_bind, h]
  cases f σ <;> rfl

theorem Writes.bind {p : Prog Unit} {f : Store → Store} (h : Writes p f) (g : Unit → Prog β) (σ : Store) :
    plain (p >>= g) σ = plain (g ()) (f σ) := by
  rw [plain_bind, h]
  rfl

theorem Reads.andThen {p : Prog α} {f : Store → Res α} {g : α → Prog β} {h : α → Store → Res β} (hp : Reads p f) (hg : ∀ a, Reads (g a) (h a)) :
    Reads (p >>= g) (fun σ => f σ >>= fun a => h a σ) := by
  intro σ
  rw [hp.bind, bind_assoc]
  congr 1
  funext a
  exact hg a σ

theorem Reads.done (a : α) : Reads (pure a : Prog α) (fun _ => .ok a) := fun _ => rfl

theorem reads_lift (x : Except Err α) : Reads (liftM x : Prog α) (fun _ => x) := fun σ => plain_liftM x σ
theorem writes_keepInst : Writes keepInst id := fun _ => rfl

theorem keeps_get {X : Key → Prop} (k : Key) (as : Cell → Option α) (e : Err) :
    Keeps X (fetch .pers k as e >>= fun c => keep k >>= fun _ => pure c) :=
  Keeps.absorb (k := k) (.fetch' (.read (.inr rfl))) (fun c => (Keeps.keep k).bind fun _ => .pure c) (fun _ => (Touches.keep k).left)

theorem keeps_getOr {X : Key → Prop} (k : Key) (as : Cell → Option α) (x : α) :
    Keeps X (fetchOr .pers k as x >>= fun c => keepIfThere k >>= fun _ => pure c) :=
  Keeps.absorb (k := k) (.fetchOr' (.read (.inr rfl))) (fun c => (Keeps.keepIfThere k).bind fun _ => .pure c)
    (fun _ => (Touches.keepIfThere k).left)

theorem keeps_save {X : Key → Prop} (k : Key) (v : Cell) : Keeps X (write .pers k v >>= fun _ => keep k) :=
  Keeps.absorb (k := k) (.write (.inr rfl)) (fun _ => .keep k) (fun _ => .keep k)

end plainlemmas

end Phoenix.Life

namespace Phoenix.Life
open Phoenix Phoenix.Store Phoenix.Life.Spec
open Phoenix.Ttl (Net extended)
/-! Which entries a program uses -/

/-- a program that succeeds touches exactly these persistent entries -/
def Uses {α : Type} (p : Prog α) (S : List Key) : Prop := ∀ σ a σ', plain p σ = .ok (a, σ') → ∀ k, k ∈ touched p σ ↔ k ∈ S

section
variable {α β : Type}

theorem Uses.bind {p : Prog α} {f : α → Prog β} {S S' : List Key} (h : Uses p S) (hf : ∀ a, Uses (f a) S') : Uses (p >>= f) (S ++ S') := by
  intro σ b σ' hp k
  rw [plain_bind, bind_ok] at hp
  obtain ⟨⟨a, σ1⟩, h1, h2⟩ := hp
  rw [touched_bind p f σ h1, List.mem_append, List.mem_append, h _ _ _ h1, hf a _ _ _ h2]

/-- a program that touches nothing first -/
theorem Uses.skip {p : Prog α} {f : α → Prog β} {S : List Key} (h : Uses p []) (hf : ∀ a, Uses (f a) S) : Uses (p >>= f) S := h.bind hf

theorem Uses.congr {p : Prog α} {S S' : List Key} (h : Uses p S) (hs : ∀ k, k ∈ S ↔ k ∈ S') : Uses p S' :=
  fun σ a σ' hp k => (h σ a σ' hp k).trans (hs k)

theorem Uses.pure (a : α) : Uses (Pure.pure a : Prog α) [] := fun _ _ _ _ _ => Iff.rfl
theorem Uses.ret (a : α) : Uses (Prog.ret a) [] := fun _ _ _ _ _ => Iff.rfl
theorem Uses.fail (e : Err) (S : List Key) : Uses (Prog.fail e : Prog α) S := fun _ _ _ h => by cases h
theorem Uses.lift (x : Res α) : Uses (Life.lift x) [] := by cases x <;> first | exact .ret _ | exact .fail _ _
theorem Uses.liftM (x : Except Err α) : Uses (liftM x : Prog α) [] := .lift x
theorem Uses.keepInst : Uses Life.keepInst [] := fun _ _ _ _ _ => Iff.rfl
theorem Uses.keepInstLong : Uses Life.keepInstLong [] := fun _ _ _ _ _ => Iff.rfl
theorem Uses.keep (k : Key) : Uses (Life.keep k) [k] := fun _ _ _ _ _ => Iff.rfl
theorem Uses.read (k : Key) : Uses (Life.read .pers k) [k] := fun _ _ _ _ _ => Iff.rfl
theorem Uses.readInst (k : Key) : Uses (Life.read .inst k) [] := fun _ _ _ _ _ => Iff.rfl
theorem Uses.write (k : Key) (v : Cell) : Uses (Life.write .pers k v) [k] := fun _ _ _ _ _ => Iff.rfl
theorem Uses.writeInst (k : Key) (v : Cell) : Uses (Life.write .inst k v) [] := fun _ _ _ _ _ => Iff.rfl

theorem Uses.fetch {d : Place} {k : Key} {as : Cell → Option α} {e : Err} {S : List Key} (h : Uses (Life.read d k) S) : Uses (Life.fetch d k as e) S := by
  refine (h.bind (S' := []) (fun c => ?_)).congr (fun k => by simp)
  cases c with
  | none => exact .fail _ _
  | some c =>
    simp only
    split
    · exact .ret _
    · exact .fail _ _

theorem Uses.fetchOr {d : Place} {k : Key} {as : Cell → Option α} {x : α} {S : List Key} (h : Uses (Life.read d k) S) : Uses (Life.fetchOr d k as x) S := by
  refine (h.bind (S' := []) (fun c => ?_)).congr (fun k => by simp)
  cases c with
  | none => exact .ret _
  | some c =>
    simp only
    split
    · exact .ret _
    · exact .fail _ _

theorem Uses.keepIfThere (k : Key) : Uses (Life.keepIfThere k) [k] := by
  intro σ a σ' h k'
  unfold Life.keepIfThere at h ⊢
  rw [plain_bind, bind_ok] at h
  obtain ⟨⟨c, σ1⟩, h1, h2⟩ := h
  rw [touched_bind _ _ _ h1, List.mem_append, Uses.read k _ _ _ h1]
  split
  · simp [Life.keep, touched]
  · simp [touched]

theorem Uses.get (k : Key) (as : Cell → Option α) (e : Err) : Uses (Life.fetch .pers k as e >>= fun c => Life.keep k >>= fun _ => Pure.pure c) [k] :=
  ((Uses.fetch (.read k)).bind fun c => (Uses.keep k).bind fun _ => .pure c).congr (fun k => by simp)
theorem Uses.getOr (k : Key) (as : Cell → Option α) (x : α) : Uses (Life.fetchOr .pers k as x >>= fun c => Life.keepIfThere k >>= fun _ => Pure.pure c) [k] :=
  ((Uses.fetchOr (.read k)).bind fun c => (Uses.keepIfThere k).bind fun _ => .pure c).congr (fun k => by simp)
theorem Uses.save (k : Key) (v : Cell) : Uses (Life.write .pers k v >>= fun _ => Life.keep k) [k] :=
  ((Uses.write k v).bind fun _ => .keep k).congr (fun k => by simp)

/-- the program leaves the instance at least six days -/
def KeepsInst (p : Prog α) : Prop := ∀ (n : Net), NetOK n → ∀ (seq : Nat) (s s' : LStore) (a : α), timed n seq p s = .ok (a, s') → seq + INST_LOW ≤ s'.inst

theorem KeepsInst.left {p : Prog α} {f : α → Prog β} (h : KeepsInst p) : KeepsInst (p >>= f) := by
  intro n hn seq s s' b ht
  rw [timed_bind, bind_ok] at ht
  obtain ⟨⟨a, s1⟩, h1, h2⟩ := ht
  exact Nat.le_trans (h n hn seq s s1 a h1) (timed_grows h2).inst

theorem KeepsInst.right {p : Prog α} {f : α → Prog β} (h : ∀ a, KeepsInst (f a)) : KeepsInst (p >>= f) := by
  intro n hn seq s s' b ht
  rw [timed_bind, bind_ok] at ht
  obtain ⟨⟨a, s1⟩, h1, h2⟩ := ht
  exact h a n hn seq s1 s' b h2

theorem KeepsInst.keepInst : KeepsInst Life.keepInst := by
  intro n hn seq s s' b ht
  simp only [Life.keepInst, timed] at ht
  cases ht
  refine extended_low _ (by decide) (Nat.lt_trans ?_ hn.max)
  decide

theorem KeepsInst.keepInstLong : KeepsInst Life.keepInstLong := by
  intro n hn seq s s' b ht
  simp only [Life.keepInstLong, timed] at ht
  cases ht
  exact Nat.le_trans (Nat.add_le_add_left (by decide) seq) (extended_low (lo := PERS_LOW) _ (by decide) hn.max)
end

/-- after a successful call that keeps an entry, the entry is not archived for 29 days, whatever happens -/
theorem kept_live {T E : Type} {n : Net} (hn : NetOK n) {C : Contract T E} {s : LSys E} {k : Key} {seq : Nat}
    (h : (Store.get s.cs.st .pers k).isSome = true → seq + PERS_LOW ≤ s.cs.live k) (hs : (Store.get s.cs.st .pers k).isSome = true)
    (as : List (Act T)) {seq' : Nat} (hq : seq' ≤ seq + PERS_LOW) : ¬ (run n C s as).cs.archived seq' k = true := by
  rw [archived_iff]
  rintro ⟨_, h2⟩
  have h3 := (run_grows n hn C s as).live k hs
  have h4 := h hs
  omega

end Phoenix.Life

namespace Phoenix.Life
open Phoenix Phoenix.Store Phoenix.Life.Spec
open Phoenix.Ttl (Net extended)

/-- the transactions that succeed without lifetimes succeed in a record model, with related states -/
theorem simulate {S T E : Type} {C : Contract T E} {g : S → T → Res S} {e : S → T → S} {R : Store × E → S → Prop}
    (he : ∀ s t s', g s t = .ok s' → e s t = s')
    (h : ∀ a b t, R a b → Alike R (plainStep C a t) (g b t)) (ts : List T) (a : Store × E) (b : S) (hr : R a b)
    (hs : AllSucceed C a ts) : AllOk g b ts ∧ R (plainRun C a ts) (ts.foldl e b) := by
  induction ts generalizing a b with
  | nil => exact ⟨trivial, hr⟩
  | cons t ts ih =>
    obtain ⟨a', h1, h2⟩ := hs
    have h3 := h a b t hr
    rw [h1] at h3
    cases hg : g b t with
    | error _ => rw [hg] at h3; exact h3.elim
    | ok b' =>
      rw [hg] at h3
      obtain ⟨h4, h5⟩ := ih a' b' h3 h2
      refine ⟨⟨b', hg, h4⟩, ?_⟩
      have e1 : plainRun C a (t :: ts) = plainRun C a' ts := by simp only [plainRun, List.foldl_cons, h1]
      rw [e1, List.foldl_cons, he b t b' hg]
      exact h5

theorem plain_of_step {T E : Type} {C : Contract T E} {σ : Store} {L : E} {t : T} {r : Store × E} (h : plainStep C (σ, L) t = .ok r) :
    plain (C.prog t L) σ = .ok (r.2, r.1) := by
  simp only [plainStep, bind_ok] at h
  obtain ⟨⟨a, b⟩, h1, h2⟩ := h
  cases h2
  exact h1

end Phoenix.Life

namespace Phoenix.Life
open Phoenix Phoenix.Store Phoenix.Life.Spec
open Phoenix.Ttl (Net extended)

/-- A record model of a contract: its transactions, its states and their stores, the entries used. -/
structure Sim {S T E : Type} (C : Contract T E) (g : S → T → Res S) (e : S → T → S) (R : Store × E → S → Prop) (U : S → T → List Key) : Prop where
  exec : ∀ s t s', g s t = .ok s' → e s t = s'
  alike : ∀ a b t, R a b → Alike R (plainStep C a t) (g b t)
  uses : ∀ a b t r, R a b → plain (C.prog t a.2) a.1 = .ok r → ∀ k, k ∈ touched (C.prog t a.2) a.1 ↔ k ∈ U b t

section
variable {S T E : Type} {C : Contract T E} {g : S → T → Res S} {e : S → T → S} {R : Store × E → S → Prop} {U : S → T → List Key}

theorem Sim.history (h : Sim C g e R U) {n : Net} {s : LSys E} {b : S} (hr : R (s.cs.st, s.led) b) (as : List (Act T)) :
    AllOk g b (effective n C s as) ∧ R ((run n C s as).cs.st, (run n C s as).led) ((effective n C s as).foldl e b) := by
  obtain ⟨h1, h2⟩ := run_effective n C s as
  have h3 := simulate h.exec h.alike _ _ b hr h1
  rw [← h2] at h3
  exact h3

theorem Sim.plain (h : Sim C g e R U) {a : Store × E} {b b' : S} (hr : R a b) {t : T} (hg : g b t = .ok b') :
    ∃ a', plainStep C a t = .ok a' ∧ R a' b' := by
  have h2 := h.alike a b t hr
  rw [hg] at h2
  cases hp : plainStep C a t with
  | error _ => rw [hp] at h2; exact h2.elim
  | ok a' => rw [hp] at h2; exact ⟨a', rfl, h2⟩

theorem Sim.only_fail (h : Sim C g e R U) {n : Net} (hn : NetOK n) {s : LSys E} {b b' : S} (hr : R (s.cs.st, s.led) b) {t : T} (hg : g b t = .ok b')
    {err : Err} (hf : step n C s (.call t false) = .error err) :
    (C.calls t s.led = true ∧ s.cs.inst < C.seq t) ∨ ∃ k ∈ U b t, s.cs.archived (C.seq t) k = true := by
  obtain ⟨a', h1, h2⟩ := h.plain hr hg
  by_contra hc
  rw [not_or, not_and, not_exists] at hc
  obtain ⟨s', h3, _⟩ := call_works hn h1 (fun hcall => Nat.le_of_not_lt (hc.1 hcall)) (fun k hk ha =>
    hc.2 k ⟨(h.uses _ b t _ hr (plain_of_step h1) k).mp hk, ha⟩)
  rw [h3] at hf
  cases hf

theorem Sim.fails_iff (h : Sim C g e R U) {n : Net} (hn : NetOK n) {s : LSys E} {b b' : S} (hr : R (s.cs.st, s.led) b) {t : T} (hg : g b t = .ok b') :
    (∃ err, step n C s (.call t false) = .error err) ↔
      (C.calls t s.led = true ∧ s.cs.inst < C.seq t) ∨ ∃ k ∈ U b t, s.cs.archived (C.seq t) k = true := by
  constructor
  · rintro ⟨err, hf⟩
    exact h.only_fail hn hr hg hf
  · intro hc
    cases hs : step n C s (.call t false) with
    | error e => exact ⟨e, rfl⟩
    | ok s' =>
      exfalso
      obtain ⟨-, h1, h2⟩ := step_call hs
      rcases hc with ⟨h3, h4⟩ | ⟨k, hk, h4⟩
      · have := h1 h3
        omega
      · exact timed_live h2 ((h.uses (s.cs.st, s.led) b t _ hr (timed_plain h2) k).mpr hk) h4

theorem run_append {n : Net} {s : LSys E} (as bs : List (Act T)) : run n C s (as ++ bs) = run n C (run n C s as) bs := List.foldl_append ..

theorem Sim.restorable (h : Sim C g e R U) {n : Net} (hn : NetOK n) {s : LSys E} {b b' : S} (hr : R (s.cs.st, s.led) b) {t : T} (hg : g b t = .ok b') :
    ∃ s', step n C (run n C s (restores (C.seq t) (U b t))) (.call t false) = .ok s' ∧ R (s'.cs.st, s'.led) b' := by
  obtain ⟨a', h1, h2⟩ := h.plain hr hg
  obtain ⟨r1, r2, r3, r4⟩ := restored hn C s (C.seq t) (U b t)
  have ht := plain_of_step h1
  rw [← r1, ← r2] at h1
  obtain ⟨s', h3, h4, h5⟩ := call_works hn h1 (fun _ => r3) (fun k hk => r4 k (by
    rw [r1, r2] at hk
    exact (h.uses _ b t _ hr ht k).mp hk))
  refine ⟨s', h3, ?_⟩
  rw [h4, h5]
  exact h2

theorem Sim.upkeep (h : Sim C g e R U) {n : Net} (hn : NetOK n) {s s' : LSys E} {b : S} (hr : R (s.cs.st, s.led) b) {t : T} {X : Key → Prop}
    (hk : ∀ L, Keeps X (C.prog t L)) (hs : step n C s (.call t false) = .ok s') (bs : List (Act T)) :
    ∀ k ∈ U b t, ¬ X k → Store.get s'.cs.st .pers k ≠ none → ∀ seq ≤ C.seq t + 29 * 17280, ¬ (run n C s' bs).cs.archived seq k = true := by
  obtain ⟨-, -, h1⟩ := step_call hs
  intro k hu hx hp seq hq
  have hs' : (Store.get s'.cs.st .pers k).isSome = true := by rwa [← Option.isSome_iff_ne_none] at hp
  refine kept_live hn (seq := C.seq t) (fun _ => ?_) hs' bs hq
  exact hk _ n hn _ _ _ _ h1 k ((h.uses (s.cs.st, s.led) b t _ hr (timed_plain h1) k).mpr hu) hx hs'

theorem upkeep_inst {n : Net} (hn : NetOK n) {s s' : LSys E} {t : T} (hk : ∀ L, KeepsInst (C.prog t L))
    (hs : step n C s (.call t false) = .ok s') (bs : List (Act T)) : C.seq t + 6 * 17280 ≤ (run n C s' bs).cs.inst := by
  obtain ⟨-, -, h1⟩ := step_call hs
  exact Nat.le_trans (hk _ n hn _ _ _ _ h1) (run_grows n hn _ s' bs).inst

end

/-! A longer life of the instance: many functions extend it with the amounts for persistent entries. -/

/-- the program leaves the instance at least twenty-nine days -/
def KeepsInstLong {α : Type} (p : Prog α) : Prop :=
  ∀ (n : Net), NetOK n → ∀ (seq : Nat) (s s' : LStore) (a : α), timed n seq p s = .ok (a, s') → seq + PERS_LOW ≤ s'.inst

section
variable {α β : Type}

theorem KeepsInstLong.left {p : Prog α} {f : α → Prog β} (h : KeepsInstLong p) : KeepsInstLong (p >>= f) := by
  intro n hn seq s s' b ht
  rw [timed_bind, bind_ok] at ht
  obtain ⟨⟨a, s1⟩, h1, h2⟩ := ht
  exact Nat.le_trans (h n hn seq s s1 a h1) (timed_grows h2).inst

theorem KeepsInstLong.right {p : Prog α} {f : α → Prog β} (h : ∀ a, KeepsInstLong (f a)) : KeepsInstLong (p >>= f) := by
  intro n hn seq s s' b ht
  rw [timed_bind, bind_ok] at ht
  obtain ⟨⟨a, s1⟩, h1, h2⟩ := ht
  exact h a n hn seq s1 s' b h2

theorem KeepsInstLong.keepInstLong : KeepsInstLong Life.keepInstLong := by
  intro n hn seq s s' b ht
  simp only [Life.keepInstLong, timed] at ht
  cases ht
  exact extended_low (lo := PERS_LOW) _ (by decide) hn.max

theorem upkeep_instLong {T E : Type} {C : Contract T E} {n : Net} (hn : NetOK n) {s s' : LSys E} {t : T} (hk : ∀ L, KeepsInstLong (C.prog t L))
    (hs : step n C s (.call t false) = .ok s') (bs : List (Act T)) : C.seq t + 29 * 17280 ≤ (run n C s' bs).cs.inst := by
  obtain ⟨-, -, h1⟩ := step_call hs
  exact Nat.le_trans (hk _ n hn _ _ _ _ h1) (run_grows n hn _ s' bs).inst

/-! Reading and writing in the instance. -/

theorem reads_fetchInst_long (k : Key) (as : Cell → Option α) (e : Err) :
    Reads (fetch .inst k as e >>= fun c => keepInstLong >>= fun _ => pure c) (fun σ => load σ .inst k as e) := by
  intro σ
  rw [plain_bind, plain_fetch]
  simp only [Place.dur]
  cases load σ .inst k as e <;> rfl

theorem reads_fetchInst (k : Key) (as : Cell → Option α) (e : Err) :
    Reads (fetch .inst k as e >>= fun c => keepInst >>= fun _ => pure c) (fun σ => load σ .inst k as e) := by
  intro σ
  rw [plain_bind, plain_fetch]
  simp only [Place.dur]
  cases load σ .inst k as e <;> rfl

theorem writes_instLong (k : Key) (v : Cell) : Writes (write .inst k v >>= fun _ => keepInstLong) (fun σ => Store.set σ .inst k v) := fun _ => rfl
theorem writes_inst (k : Key) (v : Cell) : Writes (write .inst k v >>= fun _ => keepInst) (fun σ => Store.set σ .inst k v) := fun _ => rfl

theorem uses_fetchInst_long (k : Key) (as : Cell → Option α) (e : Err) :
    Uses (fetch .inst k as e >>= fun c => keepInstLong >>= fun _ => pure c) [] :=
  .skip (.fetch (.readInst _)) fun _ => .skip .keepInstLong fun _ => .pure _
theorem uses_fetchInst (k : Key) (as : Cell → Option α) (e : Err) :
    Uses (fetch .inst k as e >>= fun c => keepInst >>= fun _ => pure c) [] :=
  .skip (.fetch (.readInst _)) fun _ => .skip .keepInst fun _ => .pure _
theorem uses_instLong (k : Key) (v : Cell) : Uses (write .inst k v >>= fun _ => keepInstLong) [] := .skip (.writeInst _ _) fun _ => .keepInstLong
theorem uses_inst (k : Key) (v : Cell) : Uses (write .inst k v >>= fun _ => keepInst) [] := .skip (.writeInst _ _) fun _ => .keepInst

theorem long_fetchInst (k : Key) (as : Cell → Option α) (e : Err) :
    KeepsInstLong (fetch .inst k as e >>= fun c => keepInstLong >>= fun _ => pure c) :=
  .right fun _ => KeepsInstLong.keepInstLong.left
theorem long_inst (k : Key) (v : Cell) : KeepsInstLong (write .inst k v >>= fun _ => keepInstLong) := .right fun _ => .keepInstLong

/-- nothing persistent is touched: nothing has to be kept -/
theorem Keeps.of_uses {X : Key → Prop} {p : Prog α} (h : Uses p []) : Keeps X p := by
  intro n _ seq s s' a ht k hk
  have := (h _ _ _ (timed_plain ht) k).mp hk
  cases this

end
end Phoenix.Life

namespace Phoenix.Life
open Phoenix Phoenix.Store Phoenix.Life.Spec
open Phoenix.Ttl (Net extended)

/-! Which entries a program extends -/

/-- the persistent entries that a program extends with the amounts for persistent entries -/
def kept {α : Type} : Prog α → Store → List Key
  | .ret _, _ => []
  | .fail _, _ => []
  | .get d k next, σ => kept (next (Store.get σ d.dur k)) σ
  | .set d k v next, σ => kept next (Store.set σ d.dur k v)
  | .extend k lo hi next, σ => if lo = PERS_LOW ∧ hi = PERS_BUMP then k :: kept next σ else kept next σ
  | .extendInst _ _ next, σ => kept next σ
  | .count next, σ => kept (next σ.length) σ

theorem kept_bind {α β : Type} (p : Prog α) (f : α → Prog β) (σ : Store) {a : α} {σ' : Store} (h : plain p σ = .ok (a, σ')) :
    kept (p >>= f) σ = kept p σ ++ kept (f a) σ' := by
  show kept (p.bind f) σ = _
  induction p generalizing σ with
  | ret b => simp only [plain] at h; cases h; rfl
  | fail e => cases h
  | get d k next ih => exact ih _ _ h
  | set d k v next ih => exact ih _ h
  | extend k lo hi next ih =>
    simp only [plain] at h
    split at h
    · simp only [Prog.bind, kept]
      rw [ih _ h]
      split <;> rfl
    · cases h
  | extendInst lo hi next ih => exact ih _ h
  | count next ih => exact ih _ _ h

/-- an extended entry has twenty-nine days left at the end -/
theorem kept_lives {α : Type} {n : Net} (hn : NetOK n) {seq : Nat} {p : Prog α} {s s' : LStore} {a : α}
    (h : timed n seq p s = .ok (a, s')) {k : Key} (hk : k ∈ kept p s.st) :
    (Store.get s'.st .pers k).isSome = true ∧ seq + PERS_LOW ≤ s'.live k := by
  induction p generalizing s with
  | ret b => cases hk
  | fail e => cases h
  | get d k' next ih =>
    cases d
    · exact ih _ h hk
    · simp only [timed] at h
      split at h
      · cases h
      · exact ih _ h hk
  | set d k' v next ih =>
    cases d
    · exact ih (s := { s with st := Store.set s.st .inst k' v }) h hk
    · simp only [timed] at h
      split at h
      · cases h
      · exact ih h hk
  | extend k' lo hi next ih =>
    simp only [timed] at h
    split at h
    · rename_i hc
      have hg := timed_grows h
      simp only [kept] at hk
      split at hk
      · rename_i he
        rcases List.mem_cons.1 hk with rfl | hk
        · refine ⟨hg.there _ hc.1, Nat.le_trans ?_ (hg.live _ hc.1)⟩
          simp only [put1_apply, if_true]
          rw [he.1, he.2]
          exact extended_low _ (by decide) hn.max
        · exact ih (s := { s with live := put1 s.live k' (extended n seq lo hi (s.live k')) }) h hk
      · exact ih (s := { s with live := put1 s.live k' (extended n seq lo hi (s.live k')) }) h hk
    · cases h
  | extendInst lo hi next ih => exact ih (s := { s with inst := extended n seq lo hi s.inst }) h hk
  | count next ih => exact ih _ h hk

/-- the program, if it succeeds, extends the entry -/
def Extends {α : Type} (k : Key) (p : Prog α) : Prop := ∀ σ a σ', plain p σ = .ok (a, σ') → k ∈ kept p σ

theorem Extends.left {α β : Type} {k : Key} {p : Prog α} {f : α → Prog β} (h : Extends k p) : Extends k (p >>= f) := by
  intro σ b σ' hp
  rw [plain_bind, bind_ok] at hp
  obtain ⟨⟨a, σ1⟩, h1, _⟩ := hp
  rw [kept_bind p f σ h1]
  exact List.mem_append_left _ (h _ _ _ h1)

theorem Extends.right {α β : Type} {k : Key} {p : Prog α} {f : α → Prog β} (h : ∀ a, Extends k (f a)) : Extends k (p >>= f) := by
  intro σ b σ' hp
  rw [plain_bind, bind_ok] at hp
  obtain ⟨⟨a, σ1⟩, h1, h2⟩ := hp
  rw [kept_bind p f σ h1]
  exact List.mem_append_right _ (h a _ _ _ h2)

theorem Extends.keep (k : Key) : Extends k (Life.keep k) := fun _ _ _ _ => by
  simp only [Life.keep, kept, and_self, if_true, List.mem_singleton]

theorem Sim.upkeep' {S T E : Type} {C : Contract T E} {g : S → T → Res S} {e : S → T → S} {R : Store × E → S → Prop} {U : S → T → List Key}
    (_h : Sim C g e R U) {n : Net} (hn : NetOK n) {s s' : LSys E} {t : T} {K : List Key}
    (hk : ∀ r, Life.plain (C.prog t s.led) s.cs.st = .ok r → ∀ k ∈ K, k ∈ kept (C.prog t s.led) s.cs.st)
    (hs : step n C s (.call t false) = .ok s') (bs : List (Act T)) :
    ∀ k ∈ K, Store.get s'.cs.st .pers k ≠ none ∧ ∀ seq ≤ C.seq t + 29 * 17280, ¬ (run n C s' bs).cs.archived seq k = true := by
  obtain ⟨-, -, h1⟩ := step_call hs
  intro k hu
  obtain ⟨h2, h3⟩ := kept_lives hn h1 (hk _ (timed_plain h1) k hu)
  exact ⟨by rwa [← Option.isSome_iff_ne_none], fun seq hq => kept_live hn (seq := C.seq t) (fun _ => h3) h2 bs hq⟩

end Phoenix.Life
