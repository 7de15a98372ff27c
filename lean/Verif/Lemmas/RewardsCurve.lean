import Verif.Lemmas.RewardsSys
import Verif.Props.Curve
/-! The schedule of the reward distribution contract (helpers only). -/
namespace Phoenix.Rewards
open Phoenix Phoenix.Spec Stake Rewards.Spec Curve

theorem plValue_last {a : Step} {l : List Step} (h : SortedSteps (a :: l)) {t : Nat} (ht : ∀ s ∈ a :: l, s.time ≤ t) :
    plValue (a :: l) t = .ok (lastStep a l).value := by
  have h1 : plValue (a :: l) (max t (a.time + 1)) = .ok (lastStep a l).value := by
    rw [plValue_eq h, if_neg (by omega), plScan_after h]
    have := ht _ (lastStep_mem a l)
    omega
  exact plValue_after h ht (le_max_left _ _) h1

/-- A schedule that falls to zero, with all breakpoints up to `B`. -/
structure Sched (B : Nat) (k : Curve) : Prop where
  wf : WellFormed k
  dec : DecSteps (stepsOf k)
  zero : ∀ t, (∀ s ∈ stepsOf k, s.time ≤ t) → plValue (stepsOf k) t = .ok 0
  bound : ∀ s ∈ stepsOf k, s.time ≤ B

theorem sched_zero (B : Nat) : Sched B (.constant 0) := by
  refine ⟨trivial, by simp [DecSteps, stepsOf], fun t _ => ?_, by simp [stepsOf]⟩
  have : SortedSteps [⟨0, 0⟩] := by simp [SortedSteps]
  exact plValue_last this (by simp)

theorem sched_sl {B a x e : Nat} (h : a < e) (hB : e ≤ B) : Sched B (.sl a x e 0) := by
  refine ⟨h, by simp [DecSteps, stepsOf], fun t ht => ?_, ?_⟩
  · have : SortedSteps [⟨a, x⟩, ⟨e, 0⟩] := by simp [SortedSteps, h]
    exact plValue_last this ht
  · intro s hs; simp only [stepsOf, List.mem_cons, List.not_mem_nil, or_false] at hs
    rcases hs with rfl | rfl
    · simp only; omega
    · exact hB

theorem sched_plCombine {B : Nat} {f g : Curve} {r : List Step} (hf : Sched B f) (hg : Sched B g)
    (h : plCombine (stepsOf f) (stepsOf g) = .ok r) : Sched B (.pl r) := by
  obtain ⟨h1, h2, h3⟩ := plCombine_inv h
  obtain ⟨fn, fs⟩ := stepsOf_sorted hf.wf
  obtain ⟨gn, gs⟩ := stepsOf_sorted hg.wf
  cases r with
  | nil =>
    exfalso
    cases hst : stepsOf f with
    | nil => exact fn hst
    | cons a l =>
      have := (h2 a.time).mpr (.inl ⟨a, by rw [hst]; simp, rfl⟩)
      simp at this
  | cons z m =>
    refine ⟨⟨by simp, h1⟩, ?_, fun t ht => ?_, fun s hs => ?_⟩
    · show DecSteps (z :: m)
      unfold DecSteps
      refine List.Pairwise.imp_of_mem ?_ h1
      intro s s' hs hs' hlt
      obtain ⟨a, b, p1, p2, p3, -⟩ := h3 s hs
      obtain ⟨a', b', q1, q2, q3, -⟩ := h3 s' hs'
      have := plValue_anti fs hf.dec p1 q1 hlt.le
      have := plValue_anti gs hg.dec p2 q2 hlt.le
      omega
    · show plValue (z :: m) t = _
      have ht' : ∀ s ∈ z :: m, s.time ≤ t := ht
      rw [plValue_last h1 ht']
      obtain ⟨a, b, p1, p2, p3, -⟩ := h3 _ (lastStep_mem z m)
      have hmax : ∀ s ∈ z :: m, s.time ≤ (lastStep z m).time := le_lastStep h1
      have k1 := hf.zero (lastStep z m).time (fun s hs => by
        obtain ⟨s', hs', e⟩ := (h2 s.time).mpr (.inl ⟨s, hs, rfl⟩)
        rw [← e]; exact hmax s' hs')
      have k2 := hg.zero (lastStep z m).time (fun s hs => by
        obtain ⟨s', hs', e⟩ := (h2 s.time).mpr (.inr ⟨s, hs, rfl⟩)
        rw [← e]; exact hmax s' hs')
      rw [p1, ok_inj] at k1
      rw [p2, ok_inj] at k2
      rw [p3, k1, k2]
    · rcases (h2 s.time).mp ⟨s, hs, rfl⟩ with ⟨s', hs', e⟩ | ⟨s', hs', e⟩
      · rw [← e]; exact hf.bound s' hs'
      · rw [← e]; exact hg.bound s' hs'

theorem sched_const {B y : Nat} (h : Sched B (.constant y)) : y = 0 := by
  have := h.zero 0 (by simp [stepsOf])
  simp [stepsOf, plValue] at this
  exact this

theorem sched_combine {B a x e : Nat} {f k : Curve} (hf : Sched B f) (hg : Sched B (.sl a x e 0))
    (h : f.combine (.sl a x e 0) = .ok k) : Sched B k := by
  cases f with
  | constant y =>
    have := sched_const hf
    subst this
    simp only [combine, combineConst, bind_ok, add128_ok, ok_inj] at h
    obtain ⟨_, ⟨_, rfl⟩, _, ⟨_, rfl⟩, rfl⟩ := h
    exact hg
  | sl a' b' e' f' =>
    obtain ⟨r, rfl, h | h⟩ := Props.combine_inv h trivial trivial
    · exact sched_plCombine hf hg h
    · exact sched_plCombine hg hf h
  | pl st =>
    obtain ⟨r, rfl, h | h⟩ := Props.combine_inv h trivial trivial
    · exact sched_plCombine hf hg h
    · exact sched_plCombine hg hf h

theorem joinCurves_cases {now mx : Nat} {old new k : Curve} (h : joinCurves now mx old new = .ok k) :
    k = new ∨ old.combine new = .ok k := by
  unfold joinCurves at h
  split at h
  · split at h
    · rw [ok_inj] at h; exact .inl h.symm
    · simp only [bind_ok, ok_inj] at h
      obtain ⟨k', h1, _, _, rfl⟩ := h
      exact .inr h1
  · simp only [bind_ok, ok_inj] at h
    obtain ⟨k', h1, _, _, rfl⟩ := h
    exact .inr h1

theorem sched_join {B a x e now mx : Nat} {f k : Curve} (hf : Sched B f) (hlt : a < e) (he : e ≤ B)
    (h : joinCurves now mx f (.sl a x e 0) = .ok k) : Sched B k := by
  rcases joinCurves_cases h with rfl | h
  · exact sched_sl hlt he
  · exact sched_combine hf (sched_sl hlt he) h

/-- After its last breakpoint nothing is locked. -/
theorem sched_after {B t : Nat} {k : Curve} (h : Sched B k) (ht : B < t) : k.value t = .ok 0 := by
  cases k with
  | constant y => rw [sched_const h]; rfl
  | sl a b c d =>
    have h1 := h.zero t (fun s hs => by have := h.bound s hs; omega)
    have h2 := h.bound ⟨c, d⟩ (by simp [stepsOf])
    have h3 := h.wf
    simp only [WellFormed] at h3
    simp only at h2
    have : d = 0 := by
      have h4 : SortedSteps [⟨a, b⟩, ⟨c, d⟩] := by simp [SortedSteps, h3]
      have h5 := plValue_last h4 (t := t) (fun s hs => by have := h.bound s hs; omega)
      simp only [stepsOf] at h1
      rw [h1, ok_inj] at h5
      exact h5.symm
    subst this
    simp only [value, slValue]
    rw [if_neg (by omega), if_pos (by omega)]
  | pl st => exact h.zero t (fun s hs => by have := h.bound s hs; omega)

theorem step_sched {me B : Nat} {s s' : Sys} {t : Tx} (h : step me s t = .ok s') (hw : WellScheduled t)
    (hB : ∀ c a d x, t = .rewards c (.fund a d x) → c.now + d ≤ B) (hs : Sched B s.st.curve) : Sched B s'.st.curve := by
  cases t with
  | token c tok op =>
    simp only [step, bind_ok, ok_inj] at h
    obtain ⟨L, hL, rfl⟩ := h
    exact hs
  | rewards c k =>
    rcases step_kinds h with ⟨hled, hp, hf⟩ | ⟨cfg, u, i, x, e1, e2, e3, e4, e5, e6, e7, ⟨e8, e9, e10, e11, e12⟩, e13, e14, e15⟩ |
        ⟨cfg, a, d, x, kv, e1, rfl, e2, e3, e4, e5, e6, e7, e8, e9, e10, e11⟩
    · cases k with
      | init a st tok mc mr mb =>
        simp only [step, bind_ok, ok_inj] at h
        obtain ⟨v, hi, rfl⟩ := h
        obtain ⟨h1, rfl⟩ := init_inv hi
        exact sched_zero B
      | addUser u i =>
        simp only [step, bind_ok, ok_inj] at h
        obtain ⟨v, hi, rfl⟩ := h
        obtain ⟨_, _, _, rfl⟩ := addUser_inv hi
        exact hs
      | calcBond u i =>
        simp only [step, bind_ok, ok_inj] at h
        obtain ⟨v, hi, rfl⟩ := h
        obtain ⟨_, _, _, _, _, rfl⟩ := calcBond_inv hi
        exact hs
      | distribute T =>
        simp only [step, bind_ok, ok_inj] at h
        obtain ⟨v, hi, rfl⟩ := h
        obtain ⟨cfg', h1, _, _, ⟨rfl, -⟩ | ⟨x, d, h2, h3, h4, h5, rfl⟩⟩ := distribute_inv hi
        · exact hs
        · exact hs
      | calcUnbond u i y => simp [payee] at hp
      | withdraw u i => simp [payee] at hp
      | fund a d x => exact absurd rfl (hf a d x)
    · rw [e12]; exact hs
    · rw [e9]; exact sched_join hs hw (hB c a d x rfl) e8

theorem run_sched {me B : Nat} {s : Sys} (ts : List Tx) (hw : ∀ t ∈ ts, WellScheduled t)
    (hB : ∀ c a d x, .rewards c (.fund a d x) ∈ ts → c.now + d ≤ B) (hs : Sched B s.st.curve) :
    Sched B (run me s ts).st.curve := by
  induction ts generalizing s with
  | nil => exact hs
  | cons t ts ih =>
    refine ih (fun t' h' => hw t' (List.mem_cons_of_mem _ h')) (fun c a d x h' => hB c a d x (List.mem_cons_of_mem _ h')) ?_
    unfold exec
    cases h : step me s t with
    | ok s' =>
      exact step_sched h (hw t (List.mem_cons_self ..)) (fun c a d x e => hB c a d x (by rw [← e]; exact List.mem_cons_self ..)) hs
    | error e => exact hs

end Phoenix.Rewards
