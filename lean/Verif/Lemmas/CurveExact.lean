import Verif.Lemmas.Curve
/-! Sums of falling curves are rounded up, by less than a unit (helpers only). -/
namespace Phoenix.Curve
open Phoenix Phoenix.Spec

theorem dec_cons {a : Step} {l : List Step} : DecSteps (a :: l) ↔ (∀ b ∈ l, b.value ≤ a.value) ∧ DecSteps l :=
  List.pairwise_cons

theorem plScan_up {a : Step} {l : List Step} (hd : DecSteps (a :: l)) {x v : Nat} (h : plScan a l x = .ok v) :
    exactFrom a l x ≤ v ∧ (v : ℚ) < exactFrom a l x + 1 := by
  induction l generalizing a with
  | nil =>
    simp only [plScan, ok_inj] at h; subst h
    simp only [exactFrom]; constructor <;> linarith
  | cons c l ih =>
    have hd2 := dec_cons.mp hd
    simp only [plScan] at h
    simp only [exactFrom]
    split at h
    · rename_i hx
      rw [if_pos (by exact_mod_cast hx)]
      obtain ⟨k1, k2⟩ := (interpolate_line h).2 (hd2.1 c (by simp))
      exact ⟨k1, by linarith⟩
    · rename_i hx
      rw [if_neg (by exact_mod_cast hx)]
      exact ih hd2.2 h

/-- A falling curve is rounded up. -/
theorem plValue_up {s : List Step} (hs : SortedSteps s) (hd : DecSteps s) {x v : Nat} (h : plValue s x = .ok v) :
    exactPL s x ≤ v ∧ (v : ℚ) < exactPL s x + 1 := by
  cases s with
  | nil => simp [plValue] at h
  | cons a l =>
    rw [plValue_eq hs] at h
    simp only [exactPL]
    split at h
    · rename_i hx
      rw [if_pos (by exact_mod_cast hx)]
      rw [ok_inj] at h; subst h
      constructor <;> linarith
    · rename_i hx
      rw [if_neg (by exact_mod_cast hx)]
      exact plScan_up hd h

theorem exactFrom_at {a : Step} {l : List Step} (hs : SortedSteps (a :: l)) {st : Step} (h : st ∈ a :: l) :
    exactFrom a l st.time = st.value := by
  induction l generalizing a with
  | nil => simp only [List.mem_singleton] at h; subst h; rfl
  | cons c l ih =>
    rcases List.mem_cons.mp h with rfl | h
    · exact exactFrom_start hs
    · have hs2 := sorted_cons.mp hs
      have hle : c.time ≤ st.time := by
        rcases List.mem_cons.mp h with rfl | h'
        · exact le_refl _
        · exact ((sorted_cons.mp hs2.2).1 st h').le
      simp only [exactFrom]
      rw [if_neg (not_lt.mpr (by exact_mod_cast hle))]
      exact ih hs2.2 h

theorem exactPL_at {s : List Step} (hs : SortedSteps s) {st : Step} (h : st ∈ s) : exactPL s st.time = st.value := by
  cases s with
  | nil => simp at h
  | cons a l =>
    simp only [exactPL]
    split
    · rename_i hle
      rcases List.mem_cons.mp h with rfl | h'
      · rfl
      · have := (sorted_cons.mp hs).1 st h'
        have : st.time ≤ a.time := by exact_mod_cast hle
        omega
    · exact exactFrom_at hs h

theorem exactPL_before {k : List Step} {x y : Nat} (hle : ∀ s ∈ k, x ≤ s.time) (hy : y ≤ x) : exactPL k y = exactPL k x := by
  cases k with
  | nil => rfl
  | cons z m =>
    have := hle z (by simp)
    simp only [exactPL]
    rw [if_pos (by exact_mod_cast hy.trans this), if_pos (by exact_mod_cast this)]

theorem exactFrom_after {a : Step} {l : List Step} {x : Nat} (hle : ∀ s ∈ a :: l, s.time ≤ x) :
    exactFrom a l x = (lastStep a l).value := by
  induction l generalizing a with
  | nil => rfl
  | cons c l ih =>
    simp only [exactFrom, lastStep]
    have := hle c (by simp)
    rw [if_neg (not_lt.mpr (by exact_mod_cast this))]
    exact ih (fun s hs => hle s (List.mem_cons_of_mem _ hs))

theorem exactPL_after {a : Step} {l : List Step} (hs : SortedSteps (a :: l)) {x : Nat} (hle : ∀ s ∈ a :: l, s.time ≤ x) :
    exactPL (a :: l) x = (lastStep a l).value := by
  simp only [exactPL]
  split
  · rename_i h
    have h1 : x ≤ a.time := by exact_mod_cast h
    have h2 := hle _ (lastStep_mem a l)
    cases l with
    | nil => rfl
    | cons c l =>
      have h3 := (sorted_cons.mp hs).1 _ (lastStep_mem c l)
      simp only [lastStep] at h2
      omega
  · exact exactFrom_after hle

theorem exactPL_after' {k : List Step} (hs : SortedSteps k) {x y : Nat} (hle : ∀ s ∈ k, s.time ≤ x) (hy : x ≤ y) :
    exactPL k y = exactPL k x := by
  cases k with
  | nil => rfl
  | cons a l => rw [exactPL_after hs hle, exactPL_after hs (fun s h => (hle s h).trans hy)]

/-- Adding two falling curves: never less than the exact sum, and less than a unit more. -/
theorem plCombine_up {f g r : List Step} (hf : SortedSteps f) (hg : SortedSteps g) (df : DecSteps f) (dg : DecSteps g)
    (h : plCombine f g = .ok r) (hne : r ≠ []) (t : Nat) :
    exactPL f t + exactPL g t ≤ exactPL r t ∧ exactPL r t ≤ exactPL f t + exactPL g t + 1 := by
  obtain ⟨hr, htimes, hvals⟩ := plCombine_inv h
  have own : ∀ {k : List Step}, SortedSteps k → DecSteps k → ∀ {x v : Nat}, (∃ s ∈ k, s.time = x) → plValue k x = .ok v →
      exactPL k x = v := by
    intro k hk dk x v ⟨s, hs, e⟩ hv
    obtain ⟨k1, k2⟩ := plValue_up hk dk hv
    rw [← e, exactPL_at hk hs] at k1 k2
    rw [← e, exactPL_at hk hs]
    have q1 : s.value ≤ v := by exact_mod_cast k1
    have q2 : v < s.value + 1 := by exact_mod_cast k2
    have : s.value = v := by omega
    exact_mod_cast this
  have hstep : ∀ s ∈ r, exactPL f s.time + exactPL g s.time ≤ exactPL r s.time ∧
      exactPL r s.time ≤ exactPL f s.time + exactPL g s.time + 1 := by
    intro s hs
    obtain ⟨a, b, h1, h2, h3, -⟩ := hvals s hs
    rw [exactPL_at hr hs, h3]
    obtain ⟨f1, f2⟩ := plValue_up hf df h1
    obtain ⟨g1, g2⟩ := plValue_up hg dg h2
    push_cast
    refine ⟨by linarith, ?_⟩
    rcases (htimes s.time).mp ⟨s, hs, rfl⟩ with ho | ho
    · rw [own hf df ho h1] at *; linarith
    · rw [own hg dg ho h2] at *; linarith
  cases r with
  | nil => exact absurd rfl hne
  | cons x l =>
    have hmin : ∀ s, s ∈ f ∨ s ∈ g → x.time ≤ s.time := by
      intro s hs
      obtain ⟨s', hs', e⟩ := (htimes s.time).mpr (by rcases hs with hs | hs
                                                     · exact .inl ⟨s, hs, rfl⟩
                                                     · exact .inr ⟨s, hs, rfl⟩)
      rcases List.mem_cons.mp hs' with rfl | hs'
      · omega
      · have := (sorted_cons.mp hr).1 s' hs'; omega
    have hmax : ∀ s, s ∈ f ∨ s ∈ g → s.time ≤ (lastStep x l).time := by
      intro s hs
      obtain ⟨s', hs', e⟩ := (htimes s.time).mpr (by rcases hs with hs | hs
                                                     · exact .inl ⟨s, hs, rfl⟩
                                                     · exact .inr ⟨s, hs, rfl⟩)
      rw [← e]; exact le_lastStep hr s' hs'
    by_cases e1 : t ≤ x.time
    · rw [exactPL_before (fun s hs => hmin s (.inl hs)) e1, exactPL_before (fun s hs => hmin s (.inr hs)) e1,
        exactPL_before (k := x :: l) (x := x.time) (fun s hs => ?_) e1]
      · exact hstep x (by simp)
      · rcases List.mem_cons.mp hs with rfl | hs'
        · exact le_refl _
        · exact ((sorted_cons.mp hr).1 s hs').le
    · by_cases e2 : (lastStep x l).time ≤ t
      · rw [exactPL_after' hf (fun s hs => hmax s (.inl hs)) e2, exactPL_after' hg (fun s hs => hmax s (.inr hs)) e2,
          exactPL_after' hr (le_lastStep hr) e2]
        exact hstep _ (lastStep_mem x l)
      · obtain ⟨p, hp, n, hn, k1, k2, k3, -⟩ := plScan_segment hr (x := t) (by omega) (by omega)
        have hpn : p.time < n.time := by omega
        have hnoF : ∀ s ∈ f, ¬ ((p.time : ℚ) < s.time ∧ (s.time : ℚ) < n.time) := by
          intro s hs hc
          obtain ⟨s', hs', e⟩ := (htimes s.time).mpr (.inl ⟨s, hs, rfl⟩)
          exact k3 s' hs' (by rw [e]; exact_mod_cast hc)
        have hnoG : ∀ s ∈ g, ¬ ((p.time : ℚ) < s.time ∧ (s.time : ℚ) < n.time) := by
          intro s hs hc
          obtain ⟨s', hs', e⟩ := (htimes s.time).mpr (.inr ⟨s, hs, rfl⟩)
          exact k3 s' hs' (by rw [e]; exact_mod_cast hc)
        have q1 : (p.time : ℚ) < n.time := by exact_mod_cast hpn
        have q2 : (p.time : ℚ) ≤ t := by exact_mod_cast k1
        have q3 : (t : ℚ) ≤ n.time := by exact_mod_cast k2.le
        have aF := exactPL_affine hf q1.le hnoF t q2 q3
        have aG := exactPL_affine hg q1.le hnoG t q2 q3
        have aR := exactPL_affine hr q1.le (fun s hs hc => k3 s hs (by exact_mod_cast hc)) t q2 q3
        obtain ⟨p1, p2⟩ := hstep p hp
        obtain ⟨n1, n2⟩ := hstep n hn
        have hd : (0 : ℚ) < (n.time : ℚ) - p.time := by linarith
        constructor
        · refine le_of_mul_le_mul_right ?_ hd
          rw [add_mul, aF, aG, aR]
          nlinarith
        · refine le_of_mul_le_mul_right ?_ hd
          rw [add_mul, add_mul, aF, aG, aR]
          nlinarith

end Phoenix.Curve
