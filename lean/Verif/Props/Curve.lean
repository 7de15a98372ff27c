import Verif.Lemmas.Curve
/-!
Property theorems about curves (packages/curve): C25 - C28, C58, C59.
-/
namespace Phoenix.Props
open Phoenix Spec Curve

/-- example curve: 100 falling to 60 at time 20 and to 0 at time 50 -/
def exCurve : Curve := .pl [⟨10, 100⟩, ⟨20, 60⟩, ⟨50, 0⟩]
/-- example curve: 0 until time 5, rising to 77 at time 40 -/
def exCurve2 : Curve := .sl 5 0 40 77

example : exCurve.validate = .ok () ∧ exCurve2.validate = .ok () ∧ ValuesFit exCurve ∧ ValuesFit exCurve2 := by
  refine ⟨rfl, rfl, ?_, ?_⟩
  · simp [ValuesFit, exCurve, U128_LIM]
  · simp [ValuesFit, exCurve2, U128_LIM]

/-- **C25** For a valid curve every value it returns lies in the reported range. -/
theorem C25_value_in_range {c : Curve} (hv : c.validate = .ok ()) (hf : ValuesFit c) {t v : Nat}
    (h : c.value t = .ok v) : c.range.1 ≤ v ∧ v ≤ c.range.2 :=
  plValue_bounds (value_pl (validate_wf hv) h) (range_spec (validate_wf hv) hf).1

example : exCurve.value 33 = .ok 34 ∧ exCurve.range = (0, 100) := ⟨rfl, rfl⟩

/-- A step's value is returned at its time, or one second later for the end of a
saturating curve (helper). -/
theorem value_at_step {c : Curve} (hw : WellFormed c) (hf : ValuesFit c) {s : Step} (hs : s ∈ stepsOf c) :
    ∃ t, s.time ≤ t ∧ t ≤ s.time + 1 ∧ (t = s.time ∨ ∀ s' ∈ stepsOf c, s'.time ≤ s.time) ∧ c.value t = .ok s.value := by
  cases c with
  | constant y =>
    simp [stepsOf] at hs; subst hs
    exact ⟨0, le_refl _, by simp, .inl rfl, rfl⟩
  | pl l => exact ⟨s.time, le_refl _, by omega, .inl rfl, plValue_at hw.2 hf hs⟩
  | sl a b c d =>
    simp only [stepsOf, List.mem_cons, List.not_mem_nil, or_false] at hs
    simp only [WellFormed] at hw
    simp only [ValuesFit] at hf
    rcases hs with rfl | rfl
    · refine ⟨a, le_refl _, by simp, .inl rfl, ?_⟩
      simp only [value, slValue]
      rw [if_neg (by omega), if_neg (by omega)]
      exact interpolate_start hw hf.2
    · refine ⟨c + 1, by simp, by simp, .inr ?_, ?_⟩
      · simp [stepsOf]; omega
      · simp only [value, slValue]
        rw [if_neg (by omega), if_pos (by omega)]

/-- **C25** Both ends of the reported range are attained at a `u64` time, if all
breakpoints are below `u64::MAX`. -/
theorem C25_range_attained {c : Curve} (hv : c.validate = .ok ()) (hf : ValuesFit c)
    (ht : ∀ s ∈ stepsOf c, s.time + 1 < U64_LIM) :
    (∃ t < U64_LIM, c.value t = .ok c.range.1) ∧ (∃ t < U64_LIM, c.value t = .ok c.range.2) := by
  have hw := validate_wf hv
  obtain ⟨-, ⟨s, hs, e⟩, ⟨s', hs', e'⟩⟩ := range_spec hw hf
  obtain ⟨t, -, h1, -, h2⟩ := value_at_step hw hf hs
  obtain ⟨t', -, h1', -, h2'⟩ := value_at_step hw hf hs'
  have := ht s hs; have := ht s' hs'
  exact ⟨⟨t, by omega, by rw [h2, e]⟩, ⟨t', by omega, by rw [h2', e']⟩⟩

/-- **C26** A curve accepted by `validate_monotonic_decreasing` never increases. -/
theorem C26_decreasing {c : Curve} (hv : c.validateDec = .ok ()) {t1 t2 v1 v2 : Nat} (h : t1 ≤ t2)
    (h1 : c.value t1 = .ok v1) (h2 : c.value t2 = .ok v2) : v2 ≤ v1 := by
  obtain ⟨hval, hd⟩ := validateDec_ok.mp hv
  have hw := validate_wf hval
  exact plValue_anti (stepsOf_sorted hw).2 hd (value_pl hw h1) (value_pl hw h2) h

/-- **C26** A curve accepted by `validate_monotonic_increasing` never decreases. -/
theorem C26_increasing {c : Curve} (hv : c.validateInc = .ok ()) {t1 t2 v1 v2 : Nat} (h : t1 ≤ t2)
    (h1 : c.value t1 = .ok v1) (h2 : c.value t2 = .ok v2) : v1 ≤ v2 := by
  obtain ⟨hval, hd⟩ := validateInc_ok.mp hv
  have hw := validate_wf hval
  exact plValue_mono (stepsOf_sorted hw).2 hd (value_pl hw h1) (value_pl hw h2) h

/-- **C26** A valid curve that `validate_monotonic_decreasing` rejects really increases
somewhere. -/
theorem C26_rejected_increases {c : Curve} (hv : c.validate = .ok ()) (hf : ValuesFit c)
    (hr : c.validateDec ≠ .ok ()) :
    ∃ t1 t2 v1 v2, t1 < t2 ∧ c.value t1 = .ok v1 ∧ c.value t2 = .ok v2 ∧ v1 < v2 := by
  have hw := validate_wf hv
  have hnd : ¬ DecSteps (stepsOf c) := fun hd => hr (validateDec_ok.mpr ⟨hv, hd⟩)
  have : ∃ a ∈ stepsOf c, ∃ b ∈ stepsOf c, a.time < b.time ∧ a.value < b.value := by
    by_contra hc
    push Not at hc
    exact hnd ((stepsOf_sorted hw).2.imp_of_mem (fun ha hb hab => hc _ ha _ hb hab))
  obtain ⟨a, ha, b, hb, h1, h2⟩ := this
  obtain ⟨ta, k1, k2, k3, k4⟩ := value_at_step hw hf ha
  obtain ⟨tb, m1, m2, m3, m4⟩ := value_at_step hw hf hb
  have : ta = a.time := by
    rcases k3 with k3 | k3
    · exact k3
    · have := k3 b hb; omega
  exact ⟨ta, tb, a.value, b.value, by omega, k4, m4, h2⟩

/-- **C26** A valid curve that `validate_monotonic_increasing` rejects really decreases
somewhere. -/
theorem C26_rejected_decreases {c : Curve} (hv : c.validate = .ok ()) (hf : ValuesFit c)
    (hr : c.validateInc ≠ .ok ()) :
    ∃ t1 t2 v1 v2, t1 < t2 ∧ c.value t1 = .ok v1 ∧ c.value t2 = .ok v2 ∧ v2 < v1 := by
  have hw := validate_wf hv
  have hnd : ¬ IncSteps (stepsOf c) := fun hd => hr (validateInc_ok.mpr ⟨hv, hd⟩)
  have : ∃ a ∈ stepsOf c, ∃ b ∈ stepsOf c, a.time < b.time ∧ b.value < a.value := by
    by_contra hc
    push Not at hc
    exact hnd ((stepsOf_sorted hw).2.imp_of_mem (fun ha hb hab => hc _ ha _ hb hab))
  obtain ⟨a, ha, b, hb, h1, h2⟩ := this
  obtain ⟨ta, k1, k2, k3, k4⟩ := value_at_step hw hf ha
  obtain ⟨tb, m1, m2, m3, m4⟩ := value_at_step hw hf hb
  have : ta = a.time := by
    rcases k3 with k3 | k3
    · exact k3
    · have := k3 b hb; omega
  exact ⟨ta, tb, a.value, b.value, by omega, k4, m4, h2⟩

example : exCurve.validateDec = .ok () ∧ exCurve2.validateInc = .ok () ∧
    exCurve.validateInc = .error .monotonicDecreasing ∧ exCurve2.validateDec = .error .monotonicIncreasing ∧
    (Curve.pl [⟨1, 5⟩, ⟨2, 9⟩, ⟨3, 4⟩]).validateDec = .error .notMonotonic := ⟨rfl, rfl, rfl, rfl, rfl⟩

/-- shifting both ends of a segment shifts the interpolated value (helper) -/
theorem interpolate_shift {x0 y0 x1 y1 x k : Nat} (hx : x ≤ x1) (f1 : y1 + k < U128_LIM)
    {w : Nat} :
    interpolate x0 (y0 + k) x1 (y1 + k) x = .ok w ↔ ∃ v, interpolate x0 y0 x1 y1 x = .ok v ∧ w = v + k := by
  constructor
  · intro h
    obtain ⟨h0, h01, hc⟩ := interpolate_inv h
    have s1 : y1 + k - (y0 + k) = y1 - y0 := by omega
    have s2 : y0 + k - (y1 + k) = y0 - y1 := by omega
    rw [s1, s2] at hc
    have hp : (y1 - y0) * (x - x0) < U128_LIM ∧ (y0 - y1) * (x - x0) < U128_LIM := by
      rcases hc with ⟨hy, hm, -⟩ | ⟨hy, hm, -⟩
      · exact ⟨hm, by rw [show y0 - y1 = 0 by omega]; simp [U128_LIM]⟩
      · exact ⟨by rw [show y1 - y0 = 0 by omega]; simp [U128_LIM], hm⟩
    obtain ⟨v, hv⟩ := interpolate_succeeds (y0 := y0) h0 hx h01 (by omega) hp.1 hp.2
    refine ⟨v, hv, ?_⟩
    obtain ⟨-, -, hc'⟩ := interpolate_inv hv
    rcases hc with ⟨hy, -, rfl⟩ | ⟨hy, -, hq, rfl⟩ <;> rcases hc' with ⟨hy', -, rfl⟩ | ⟨hy', -, hq', rfl⟩ <;> omega
  · rintro ⟨v, h, rfl⟩
    obtain ⟨h0, h01, hc⟩ := interpolate_inv h
    have s1 : y1 + k - (y0 + k) = y1 - y0 := by omega
    have s2 : y0 + k - (y1 + k) = y0 - y1 := by omega
    have hp : (y1 - y0) * (x - x0) < U128_LIM ∧ (y0 - y1) * (x - x0) < U128_LIM := by
      rcases hc with ⟨hy, hm, -⟩ | ⟨hy, hm, -⟩
      · exact ⟨hm, by rw [show y0 - y1 = 0 by omega]; simp [U128_LIM]⟩
      · exact ⟨by rw [show y1 - y0 = 0 by omega]; simp [U128_LIM], hm⟩
    obtain ⟨w, hw⟩ := interpolate_succeeds (y0 := y0 + k) (y1 := y1 + k) h0 hx h01 f1 (by rw [s1]; exact hp.1)
      (by rw [s2]; exact hp.2)
    rw [hw]
    obtain ⟨-, -, hc'⟩ := interpolate_inv hw
    rw [s1, s2] at hc'
    congr 1
    rcases hc with ⟨hy, -, rfl⟩ | ⟨hy, -, hq, rfl⟩ <;> rcases hc' with ⟨hy', -, rfl⟩ | ⟨hy', -, hq', rfl⟩ <;> omega

theorem shiftSteps_inv {k : Nat} {s r : List Step} (h : shiftSteps k s = .ok r) :
    r = s.map (fun t => ⟨t.time, t.value + k⟩) ∧ ∀ t ∈ s, t.value + k < U128_LIM := by
  induction s generalizing r with
  | nil => simp only [shiftSteps, ok_inj] at h; subst h; simp
  | cons a l ih =>
    simp only [shiftSteps, bind_ok, add128_ok, ok_inj] at h
    obtain ⟨_, ⟨h1, rfl⟩, r', hr, rfl⟩ := h
    obtain ⟨rfl, h2⟩ := ih hr
    refine ⟨by simp [Nat.add_comm], fun t ht => ?_⟩
    rcases List.mem_cons.mp ht with rfl | ht
    · omega
    · exact h2 t ht

theorem plScan_shift {k : Nat} {a : Step} {l : List Step} (hf : ∀ t ∈ a :: l, t.value + k < U128_LIM) {x w : Nat} :
    plScan ⟨a.time, a.value + k⟩ (l.map (fun t => ⟨t.time, t.value + k⟩)) x = .ok w ↔
      ∃ v, plScan a l x = .ok v ∧ w = v + k := by
  induction l generalizing a with
  | nil => simp [plScan, eq_comm]
  | cons c l ih =>
    simp only [plScan, List.map_cons]
    split
    · rename_i hx
      exact interpolate_shift hx.le (hf c (by simp))
    · exact ih (fun t ht => hf t (List.mem_cons_of_mem _ ht))

theorem lastStep_shift (k : Nat) (a : Step) (l : List Step) :
    lastStep ⟨a.time, a.value + k⟩ (l.map (fun t => (⟨t.time, t.value + k⟩ : Step))) =
      ⟨(lastStep a l).time, (lastStep a l).value + k⟩ := by
  induction l generalizing a with
  | nil => rfl
  | cons c l ih => simp only [lastStep, List.map_cons]; exact ih c

/-- **C27** Combining a curve with a constant (in either order) adds the constant at
every time, whether or not the curve is valid. -/
theorem C27_combine_constant {c e : Curve} {k : Nat} (h : combine (.constant k) c = .ok e ∨ combine c (.constant k) = .ok e)
    (t w : Nat) : e.value t = .ok w ↔ ∃ v, c.value t = .ok v ∧ w = v + k := by
  have hc : combineConst c k = .ok e ∨ ∃ y, c = .constant y ∧ combineConst (.constant k) y = .ok e := by
    rcases h with h | h
    · left; simpa [combine] using h
    · cases c with
      | constant y => right; exact ⟨y, rfl, by simpa [combine] using h⟩
      | sl a b c d => left; simpa [combine] using h
      | pl s => left; simpa [combine] using h
  rcases hc with hc | ⟨y, rfl, hc⟩
  · cases c with
    | constant y =>
      simp only [combineConst, bind_ok, add128_ok, ok_inj] at hc
      obtain ⟨_, ⟨_, rfl⟩, rfl⟩ := hc
      simp only [value, ok_inj]
      constructor
      · rintro rfl; exact ⟨y, rfl, by omega⟩
      · rintro ⟨v, rfl, rfl⟩; omega
    | sl a b c d =>
      simp only [combineConst, bind_ok, add128_ok, ok_inj] at hc
      obtain ⟨_, ⟨h1, rfl⟩, _, ⟨h2, rfl⟩, rfl⟩ := hc
      simp only [value, slValue]
      split
      · simp only [ok_inj]
        constructor
        · rintro rfl; exact ⟨b, rfl, rfl⟩
        · rintro ⟨v, rfl, rfl⟩; rfl
      · split
        · simp only [ok_inj]
          constructor
          · rintro rfl; exact ⟨d, rfl, rfl⟩
          · rintro ⟨v, rfl, rfl⟩; rfl
        · exact interpolate_shift (by omega) h2
    | pl s =>
      simp only [combineConst, bind_ok, ok_inj] at hc
      obtain ⟨r, hr, rfl⟩ := hc
      obtain ⟨rfl, hf⟩ := shiftSteps_inv hr
      cases s with
      | nil => simp [value, plValue]
      | cons a l =>
        simp only [value, plValue, List.map_cons]
        rw [lastStep_shift]
        simp only
        split
        · simp only [ok_inj]
          constructor
          · rintro rfl; exact ⟨_, rfl, rfl⟩
          · rintro ⟨v, rfl, rfl⟩; rfl
        · split
          · simp only [ok_inj]
            constructor
            · rintro rfl; exact ⟨_, rfl, rfl⟩
            · rintro ⟨v, rfl, rfl⟩; rfl
          · exact plScan_shift hf
  · simp only [combineConst, bind_ok, add128_ok, ok_inj] at hc
    obtain ⟨_, ⟨_, rfl⟩, rfl⟩ := hc
    simp only [value, ok_inj]
    constructor
    · rintro rfl; exact ⟨y, rfl, rfl⟩
    · rintro ⟨v, rfl, rfl⟩; rfl

example : combine (.constant 7) exCurve = .ok (.pl [⟨10, 107⟩, ⟨20, 67⟩, ⟨50, 7⟩]) := rfl

theorem combine_inv {c d e : Curve} (h : combine c d = .ok e) (hc : NonConstant c) (hd : NonConstant d) :
    ∃ r, e = .pl r ∧ (plCombine (stepsOf c) (stepsOf d) = .ok r ∨ plCombine (stepsOf d) (stepsOf c) = .ok r) := by
  cases c <;> cases d <;> simp only [NonConstant] at hc hd <;>
    simp only [combine, plCombined, bind_ok, ok_inj] at h <;> obtain ⟨r, hr, rfl⟩ := h
  · exact ⟨r, rfl, .inl hr⟩
  · exact ⟨r, rfl, .inl hr⟩
  · exact ⟨r, rfl, .inr hr⟩
  · exact ⟨r, rfl, .inl hr⟩

/-- **C28** The breakpoints of a combined curve are strictly increasing in time and are
exactly the breakpoints of the two curves. -/
theorem C28_breakpoints {c d e : Curve} (h : combine c d = .ok e) (hc : NonConstant c) (hd : NonConstant d) :
    ∃ r, e = .pl r ∧ SortedSteps r ∧
      ∀ t, (∃ s ∈ r, s.time = t) ↔ (∃ s ∈ stepsOf c, s.time = t) ∨ (∃ s ∈ stepsOf d, s.time = t) := by
  obtain ⟨r, rfl, h | h⟩ := combine_inv h hc hd
  · obtain ⟨h1, h2, -⟩ := plCombine_inv h
    exact ⟨r, rfl, h1, h2⟩
  · obtain ⟨h1, h2, -⟩ := plCombine_inv h
    exact ⟨r, rfl, h1, fun t => (h2 t).trans Or.comm⟩

example : combine exCurve exCurve2 = .ok (.pl [⟨5, 100⟩, ⟨10, 111⟩, ⟨20, 93⟩, ⟨40, 97⟩, ⟨50, 77⟩]) := rfl

/-- **C27** At every breakpoint of either curve the combined curve is exactly the sum. -/
theorem C27_combine_at_breakpoints {c d e : Curve} (h : combine c d = .ok e) (hc : NonConstant c)
    (hd : NonConstant d) (hcv : WellFormed c) (hdv : WellFormed d) {t a b : Nat}
    (ht : (∃ s ∈ stepsOf c, s.time = t) ∨ (∃ s ∈ stepsOf d, s.time = t))
    (ha : c.value t = .ok a) (hb : d.value t = .ok b) : e.value t = .ok (a + b) := by
  have ha' := value_pl hcv ha
  have hb' := value_pl hdv hb
  obtain ⟨r, rfl, h | h⟩ := combine_inv h hc hd
  · obtain ⟨h1, h2, h3⟩ := plCombine_inv h
    obtain ⟨s, hs, rfl⟩ := (h2 t).mpr ht
    obtain ⟨a', b', k1, k2, k3, k4⟩ := h3 s hs
    rw [ha', ok_inj] at k1; rw [hb', ok_inj] at k2; subst k1 k2
    show plValue r s.time = _
    rw [plValue_at h1 (fun t ht => ?_) hs, k3]
    obtain ⟨_, _, _, _, e, f⟩ := h3 t ht
    omega
  · obtain ⟨h1, h2, h3⟩ := plCombine_inv h
    obtain ⟨s, hs, rfl⟩ := (h2 t).mpr ht.symm
    obtain ⟨a', b', k1, k2, k3, k4⟩ := h3 s hs
    rw [hb', ok_inj] at k1; rw [ha', ok_inj] at k2; subst k1 k2
    show plValue r s.time = _
    rw [plValue_at h1 (fun t ht => ?_) hs, k3, Nat.add_comm]
    obtain ⟨_, _, _, _, e, f⟩ := h3 t ht
    omega

/-- **C27** At every other time the combined curve differs from the sum by at most two
units; before the first and after the last breakpoint it is exactly the sum. -/
theorem C27_combine_near {c d e : Curve} (h : combine c d = .ok e) (hc : NonConstant c)
    (hd : NonConstant d) (hcv : WellFormed c) (hdv : WellFormed d) {t a b w : Nat}
    (ha : c.value t = .ok a) (hb : d.value t = .ok b) (hw : e.value t = .ok w) :
    (w ≤ a + b + 2 ∧ a + b ≤ w + 2) ∧
    ((∀ s ∈ stepsOf c ++ stepsOf d, t ≤ s.time) ∨ (∀ s ∈ stepsOf c ++ stepsOf d, s.time ≤ t) → w = a + b) := by
  have ha' := value_pl hcv ha
  have hb' := value_pl hdv hb
  have hcs := (stepsOf_sorted hcv).2
  have hds := (stepsOf_sorted hdv).2
  obtain ⟨r, rfl, h | h⟩ := combine_inv h hc hd
  · obtain ⟨h1, h2, -⟩ := plCombine_inv h
    obtain ⟨k1, k2⟩ := plCombine_near hcs hds h ha' hb' hw
    refine ⟨k1, fun ht => k2 ?_⟩
    rcases ht with ht | ht
    · left; intro s hs
      obtain ⟨s', h', e⟩ | ⟨s', h', e⟩ := (h2 s.time).mp ⟨s, hs, rfl⟩ <;>
        rw [← e] <;> exact ht s' (by simp [h'])
    · right; intro s hs
      obtain ⟨s', h', e⟩ | ⟨s', h', e⟩ := (h2 s.time).mp ⟨s, hs, rfl⟩ <;>
        rw [← e] <;> exact ht s' (by simp [h'])
  · obtain ⟨h1, h2, -⟩ := plCombine_inv h
    obtain ⟨k1, k2⟩ := plCombine_near hds hcs h hb' ha' hw
    rw [Nat.add_comm b a] at k1 k2
    refine ⟨k1, fun ht => k2 ?_⟩
    rcases ht with ht | ht
    · left; intro s hs
      obtain ⟨s', h', e⟩ | ⟨s', h', e⟩ := (h2 s.time).mp ⟨s, hs, rfl⟩ <;>
        rw [← e] <;> exact ht s' (by simp [h'])
    · right; intro s hs
      obtain ⟨s', h', e⟩ | ⟨s', h', e⟩ := (h2 s.time).mp ⟨s, hs, rfl⟩ <;>
        rw [← e] <;> exact ht s' (by simp [h'])

example : exCurve.value 27 = .ok 46 ∧ exCurve2.value 27 = .ok 48 ∧
    (Curve.pl [⟨5, 100⟩, ⟨10, 111⟩, ⟨20, 93⟩, ⟨40, 97⟩, ⟨50, 77⟩]).value 27 = .ok 94 := ⟨rfl, rfl, rfl⟩

/-- **C27** The sum of two valid curves is valid, if neither is a saturating curve
that starts at time zero. -/
theorem C27_combine_valid {c d e : Curve} (h : combine c d = .ok e) (hc : c.validate = .ok ())
    (hd : d.validate = .ok ()) (hcz : ∀ a b f, c ≠ .sl 0 a b f) (hdz : ∀ a b f, d ≠ .sl 0 a b f) :
    e.validate = .ok () := by
  have pos : ∀ {c : Curve}, NonConstant c → c.validate = .ok () → (∀ a b f, c ≠ .sl 0 a b f) →
      stepsOf c ≠ [] ∧ ∀ s ∈ stepsOf c, 0 < s.time := by
    intro c hn hv hz
    cases c with
    | constant y => simp [NonConstant] at hn
    | sl a b c d =>
      have := slValidate_ok.mp hv
      have ha : a ≠ 0 := by rintro rfl; exact hz _ _ _ rfl
      simp [stepsOf]; omega
    | pl s => have := plValidate_ok.mp hv; exact ⟨this.1, this.2.1⟩
  have constCase : ∀ {c e : Curve} {k : Nat}, combineConst c k = .ok e → c.validate = .ok () → e.validate = .ok () := by
    intro c e k hce hv
    cases c with
    | constant y =>
      simp only [combineConst, bind_ok, ok_inj] at hce
      obtain ⟨_, _, rfl⟩ := hce; rfl
    | sl a b c d =>
      simp only [combineConst, bind_ok, ok_inj] at hce
      obtain ⟨_, _, _, _, rfl⟩ := hce; exact hv
    | pl s =>
      simp only [combineConst, bind_ok, ok_inj] at hce
      obtain ⟨r, hr, rfl⟩ := hce
      obtain ⟨rfl, -⟩ := shiftSteps_inv hr
      have := plValidate_ok.mp hv
      refine plValidate_ok.mpr ⟨by simpa using this.1, ?_, ?_⟩
      · intro s hs; simp at hs; obtain ⟨s', h', rfl⟩ := hs; exact this.2.1 s' h'
      · unfold SortedSteps; rw [List.pairwise_map]; exact this.2.2
  by_cases nc : NonConstant c
  · by_cases nd : NonConstant d
    · obtain ⟨r, rfl, h1, h2⟩ := C28_breakpoints h nc nd
      obtain ⟨c1, c2⟩ := pos nc hc hcz
      obtain ⟨d1, d2⟩ := pos nd hd hdz
      refine plValidate_ok.mpr ⟨?_, ?_, h1⟩
      · obtain ⟨s, hs⟩ := List.exists_mem_of_ne_nil _ c1
        obtain ⟨s', h', -⟩ := (h2 s.time).mpr (.inl ⟨s, hs, rfl⟩)
        exact List.ne_nil_of_mem h'
      · intro s hs
        obtain ⟨s', h', e⟩ | ⟨s', h', e⟩ := (h2 s.time).mp ⟨s, hs, rfl⟩
        · rw [← e]; exact c2 s' h'
        · rw [← e]; exact d2 s' h'
    · cases d with
      | constant k =>
        cases c with
        | constant y => simp [NonConstant] at nc
        | sl a b c d => exact constCase (k := k) (by simpa [combine] using h) hc
        | pl s => exact constCase (k := k) (by simpa [combine] using h) hc
      | sl a b c d => simp [NonConstant] at nd
      | pl s => simp [NonConstant] at nd
  · cases c with
    | constant k => exact constCase (k := k) (by simpa [combine] using h) hd
    | sl a b c d => simp [NonConstant] at nc
    | pl s => simp [NonConstant] at nc

/-- **C27** The restriction is needed: two valid saturating curves starting at time
zero combine to a curve that `validate` rejects. -/
theorem C27_combine_can_be_invalid :
    (Curve.sl 0 0 10 100).validate = .ok () ∧
    combine (.sl 0 0 10 100) (.sl 0 0 10 100) = .ok (.pl [⟨0, 0⟩, ⟨10, 200⟩]) ∧
    (Curve.pl [⟨0, 0⟩, ⟨10, 200⟩]).validate = .error .pointsOutOfOrder := ⟨rfl, rfl, rfl⟩

/-- **C58** Every value a valid curve returns is less than one unit away from the exact
piecewise linear function. -/
theorem C58_value_near_exact {c : Curve} (hv : c.validate = .ok ()) {t v : Nat} (h : c.value t = .ok v) :
    (v : ℚ) - 1 < exactCurve c t ∧ exactCurve c t < v + 1 := by
  have hw := validate_wf hv
  have := plValue_near (stepsOf_sorted hw).2 (value_pl hw h)
  cases c with
  | constant y =>
    simp only [value, ok_inj] at h; subst h
    simp only [exactCurve]; constructor <;> linarith
  | sl a b c d => exact this
  | pl s => exact this

/-- **C58** At its breakpoints a valid curve returns the given values exactly (for a
saturating curve: at the start, and after the end). -/
theorem C58_value_at_breakpoints {c : Curve} (hv : c.validate = .ok ()) (hf : ValuesFit c) :
    (∀ l, c = .pl l → ∀ s ∈ l, c.value s.time = .ok s.value) ∧
    (∀ a b x y, c = .sl a b x y → c.value a = .ok b ∧ ∀ t, x < t → c.value t = .ok y) := by
  have hw := validate_wf hv
  constructor
  · rintro l rfl s hs; exact plValue_at hw.2 hf hs
  · rintro a b x y rfl
    simp only [WellFormed] at hw
    simp only [ValuesFit] at hf
    constructor
    · simp only [value, slValue]
      rw [if_neg (by omega), if_neg (by omega)]
      exact interpolate_start hw hf.2
    · intro t ht
      simp only [value, slValue]
      rw [if_neg (by omega), if_pos (by omega)]

/-- **C59** A valid curve whose values are at most `V` and whose breakpoints are at most
`T` can be evaluated at every time, if `V * T < 2^128`. -/
theorem C59_value_total {c : Curve} (hv : c.validate = .ok ()) (V T : Nat)
    (hV : ∀ s ∈ stepsOf c, s.value ≤ V ∧ s.time ≤ T) (hVT : V * T < U128_LIM) (hVL : V < U128_LIM) (t : Nat) :
    ∃ v, c.value t = .ok v := by
  have hw := validate_wf hv
  have seg : ∀ p n : Step, p.value ≤ V → n.value ≤ V → n.time ≤ T → p.time < n.time → p.time ≤ t → t ≤ n.time →
      ∃ v, interpolate p.time p.value n.time n.value t = .ok v := by
    intro p n h1 h2 h3 h4 h5 h6
    refine interpolate_succeeds h5 h6 h4 (by omega) ?_ ?_
    · exact lt_of_le_of_lt (Nat.mul_le_mul (by omega) (by omega)) hVT
    · exact lt_of_le_of_lt (Nat.mul_le_mul (by omega) (by omega)) hVT
  cases c with
  | constant y => exact ⟨y, rfl⟩
  | sl a b c d =>
    simp only [value, slValue]
    split
    · exact ⟨b, rfl⟩
    · split
      · exact ⟨d, rfl⟩
      · simp only [WellFormed] at hw
        simp [stepsOf] at hV
        exact seg ⟨a, b⟩ ⟨c, d⟩ hV.1.1 hV.2.1 hV.2.2 hw (by simp; omega) (by simp; omega)
  | pl l =>
    obtain ⟨hne, hs⟩ := hw
    cases l with
    | nil => simp at hne
    | cons a l =>
      simp only [stepsOf] at hV
      simp only [value]
      rw [plValue_eq hs]
      split
      · exact ⟨_, rfl⟩
      · by_cases e : (lastStep a l).time ≤ t
        · exact ⟨_, plScan_after hs e⟩
        · obtain ⟨p, hp, n, hn, k1, k2, k3, k4⟩ := plScan_segment hs (x := t) (by omega) (by omega)
          rw [k4]
          exact seg p n (hV p hp).1 (hV n hn).1 (hV n hn).2 (by omega) k1 k2.le

example : ∀ s ∈ stepsOf exCurve, s.value ≤ 100 ∧ s.time ≤ 50 := by decide

/-- **C59** Beyond that bound evaluation can fail although the curve is valid. -/
theorem C59_value_can_fail :
    (Curve.sl 0 340282366920938463463374607431768211455 10 0).validateDec = .ok () ∧
    (Curve.sl 0 340282366920938463463374607431768211455 10 0).value 5 = .error .overflow := ⟨rfl, rfl⟩

end Phoenix.Props
