import Verif.Spec.Released
import Verif.Lemmas.CurveExact
import Verif.Lemmas.RewardsCurve
import Verif.Props.FundingDates
/-!
C163: how fast funded rewards are released.  However the schedules of several fundings overlap, the stored
schedule is the sum of the straight lines that were announced, and a distribution leaves undistributed
exactly what is still locked of them, rounded up, at most a unit per funding.
-/
namespace Phoenix.Props.Released
open Phoenix Rewards Rewards.Spec Curve
open Phoenix.Spec (NonConstant stepsOf SortedSteps WellFormed exactPL line)
open Phoenix.Props.FundingDates (Corner)

/-- the dates of fundings -/
def datesOf (l : List Funding) : Finset Nat := (l.flatMap fun f => [f.start, f.stop]).toFinset

theorem mem_datesOf {l : List Funding} {t : Nat} : t ∈ datesOf l ↔ ∃ f ∈ l, t = f.start ∨ t = f.stop := by
  simp [datesOf]

theorem locked_exact {f : Funding} (h : f.start < f.stop) (t : Nat) :
    exactPL [⟨f.start, f.amount⟩, ⟨f.stop, 0⟩] t = f.locked t := by
  unfold Funding.locked
  simp only [exactPL, Phoenix.Spec.exactFrom]
  by_cases h1 : t ≤ f.start
  · rw [if_pos (by exact_mod_cast h1), if_pos h1]
  · rw [if_neg (by exact_mod_cast h1), if_neg h1]
    by_cases h2 : f.stop ≤ t
    · rw [if_neg (not_lt.mpr (by exact_mod_cast h2)), if_pos h2]; simp
    · rw [if_pos (by exact_mod_cast not_le.mp h2), if_neg h2]
      unfold line
      have : (f.stop : ℚ) - f.start ≠ 0 := by
        have : (f.start : ℚ) < f.stop := by exact_mod_cast h
        linarith
      field_simp
      push_cast
      ring

/-- the stored schedule is the sum of the fundings in force -/
def Near (l : List Funding) (k : Curve) : Prop :=
  Corner (datesOf l) k ∧ (∀ f ∈ l, f.start < f.stop) ∧ (∃ B, Sched B k) ∧
  (l ≠ [] → ∀ t : Nat, allLocked l t ≤ exactPL (stepsOf k) t ∧ exactPL (stepsOf k) t ≤ allLocked l t + (l.length - 1))

theorem sched_weaken {B B' : Nat} {k : Curve} (h : Sched B k) (hB : B ≤ B') : Sched B' k :=
  ⟨h.wf, h.dec, h.zero, fun s hs => (h.bound s hs).trans hB⟩

theorem near_one {f : Funding} (h : f.start < f.stop) : Near [f] (.sl f.start f.amount f.stop 0) := by
  refine ⟨?_, by simpa using h, ⟨f.stop, sched_sl h (le_refl _)⟩, fun _ t => ?_⟩
  · have := Phoenix.Props.FundingDates.corner_sl (X := f.amount) h
    have e : datesOf [f] = {f.start, f.stop} := by ext t; simp [datesOf]
    rw [e]; exact this
  · simp only [stepsOf]
    rw [locked_exact h]
    simp [allLocked]

theorem running_iff {l : List Funding} (hl : ∀ f ∈ l, f.start < f.stop) (now : Nat) :
    Running now (datesOf l) ↔ ∃ g ∈ l, now ≤ g.stop := by
  constructor
  · rintro ⟨t, ht, hle⟩
    obtain ⟨f, hf, rfl | rfl⟩ := mem_datesOf.mp ht
    · exact ⟨f, hf, hle.trans (hl f hf).le⟩
    · exact ⟨f, hf, hle⟩
  · rintro ⟨g, hg, hle⟩
    exact ⟨g.stop, mem_datesOf.mpr ⟨g, hg, .inr rfl⟩, hle⟩

theorem near_join {l : List Funding} {k k' : Curve} {now m : Nat} {f : Funding} (hk : Near l k) (hf : f.start < f.stop)
    (h : joinCurves now m k (.sl f.start f.amount f.stop 0) = .ok k') : Near (joins now l f) k' := by
  obtain ⟨hc, hl, ⟨B, hB⟩, hs⟩ := hk
  have hcj := (Phoenix.Props.FundingDates.join_corner hc hf h).1
  unfold together at hcj
  unfold joins
  by_cases hr : ∃ g ∈ l, now ≤ g.stop
  · rw [if_pos ((running_iff hl now).mpr hr)] at hcj
    rw [if_pos hr]
    have hne : l ≠ [] := by obtain ⟨g, hg, -⟩ := hr; exact List.ne_nil_of_mem hg
    rcases hc with ⟨rfl, h0⟩ | ⟨hn, hm, e, he, heD, hle⟩
    · obtain ⟨g, hg, -⟩ := hr
      have : g.stop ∈ datesOf l := mem_datesOf.mpr ⟨g, hg, .inr rfl⟩
      rw [h0] at this; simp at this
    · have hnow : ¬ e < now := by
        obtain ⟨g, hg, hgl⟩ := hr
        have := hle g.stop (mem_datesOf.mpr ⟨g, hg, .inr rfl⟩)
        omega
      have hcomb : k.combine (.sl f.start f.amount f.stop 0) = .ok k' := by
        simp only [joinCurves, he] at h
        rw [if_neg hnow] at h
        simp only [bind_ok, ok_inj] at h
        obtain ⟨k1, h1, _, _, rfl⟩ := h
        exact h1
      have hS : Sched (max B f.stop) k' :=
        sched_combine (sched_weaken hB (le_max_left _ _)) (sched_sl hf (le_max_right _ _)) hcomb
      refine ⟨?_, ?_, ⟨_, hS⟩, fun _ t => ?_⟩
      · have : datesOf (l ++ [f]) = datesOf l ∪ {f.start, f.stop} := by ext t; simp [datesOf]
        rw [this]; exact hcj
      · intro g hg
        rcases List.mem_append.mp hg with hg | hg
        · exact hl g hg
        · simp only [List.mem_singleton] at hg; subst hg; exact hf
      · obtain ⟨r, hk', hpl⟩ := Phoenix.Props.combine_inv hcomb hn trivial
        subst hk'
        have hrne : r ≠ [] := hS.wf.1
        have ks := (stepsOf_sorted hB.wf).2
        have fs : SortedSteps [⟨f.start, f.amount⟩, ⟨f.stop, 0⟩] := by simp [SortedSteps, hf]
        have fd : DecSteps [⟨f.start, f.amount⟩, ⟨f.stop, 0⟩] := by simp [DecSteps]
        have hup : exactPL (stepsOf k) t + f.locked t ≤ exactPL r t ∧ exactPL r t ≤ exactPL (stepsOf k) t + f.locked t + 1 := by
          rw [← locked_exact hf]
          rcases hpl with hpl | hpl
          · exact plCombine_up ks fs hB.dec fd hpl hrne t
          · have := plCombine_up fs ks fd hB.dec hpl hrne t
            constructor <;> linarith [this.1, this.2]
        obtain ⟨s1, s2⟩ := hs hne t
        have hsum : allLocked (l ++ [f]) t = allLocked l t + f.locked t := by simp [allLocked]
        simp only [stepsOf]
        rw [hsum]
        push_cast [List.length_append, List.length_singleton]
        constructor
        · linarith [hup.1]
        · linarith [hup.2]
  · rw [if_neg hr]
    have : k' = .sl f.start f.amount f.stop 0 := by
      rcases hc with ⟨rfl, h0⟩ | ⟨hn, hm, e, he, heD, hle⟩
      · simp only [joinCurves, Curve.end, Curve.combine, Curve.combineConst, bind_ok, add128_ok, ok_inj] at h
        obtain ⟨_, ⟨_, ⟨-, rfl⟩, _, ⟨-, rfl⟩, rfl⟩, _, hc, rfl⟩ := h
        rfl
      · simp only [joinCurves, he] at h
        have hlt : e < now := by
          by_contra hge
          exact hr ((running_iff hl now).mp ⟨e, heD, by omega⟩)
        rw [if_pos hlt, ok_inj] at h
        exact h.symm
    rw [this]
    exact near_one hf

/-- the invariant -/
def Inv (l : List Funding) (st : State) : Prop := Near l st.curve ∧ (st.cfg = none → l = [])

theorem near_nil : Near [] (.constant 0) := ⟨.inl ⟨rfl, rfl⟩, by simp, ⟨0, sched_zero 0⟩, fun h => absurd rfl h⟩

theorem step_inv {me : Addr} {s s' : Sys} {t : Tx} {l : List Funding} (hw : WellScheduled t) (h : Rewards.step me s t = .ok s')
    (hI : Inv l s.st) : Inv (inForceStep l true t) s'.st := by
  have keep : ∀ {v : State}, v.curve = s.st.curve → v.cfg = s.st.cfg → Inv l v := by
    intro v h1 h2; unfold Inv; rw [h1, h2]; exact hI
  cases t with
  | token c tok op =>
    simp only [Rewards.step, bind_ok, ok_inj] at h
    obtain ⟨L, hL, rfl⟩ := h
    exact hI
  | rewards c k =>
    rcases step_kinds h with ⟨hled, hp, hf⟩ | ⟨cfg, u, i, x, e1, e2, e3, e4, e5, e6, e7, ⟨e8, e9, e10, e11, e12⟩, e13, e14, e15⟩ |
        ⟨cfg, a, d, x, kv, e1, rfl, e2, e3, e4, e5, e6, e7, e8, e9, e10, e11⟩
    · cases k with
      | init a st tok mc mr mb =>
        simp only [Rewards.step, bind_ok, ok_inj] at h
        obtain ⟨v, hi, rfl⟩ := h
        obtain ⟨h1, rfl⟩ := init_inv hi
        have := hI.2 h1
        subst this
        exact ⟨near_nil, by simp⟩
      | addUser u i =>
        simp only [Rewards.step, bind_ok, ok_inj] at h
        obtain ⟨v, hi, rfl⟩ := h
        obtain ⟨_, _, _, rfl⟩ := addUser_inv hi
        exact hI
      | calcBond u i =>
        simp only [Rewards.step, bind_ok, ok_inj] at h
        obtain ⟨v, hi, rfl⟩ := h
        obtain ⟨_, _, _, _, _, rfl⟩ := calcBond_inv hi
        exact hI
      | distribute T =>
        simp only [Rewards.step, bind_ok, ok_inj] at h
        obtain ⟨v, hi, rfl⟩ := h
        obtain ⟨cfg', h1, _, _, ⟨rfl, -⟩ | ⟨x, d, h2, h3, h4, h5, rfl⟩⟩ := distribute_inv hi
        · exact hI
        · exact hI
      | calcUnbond u i y => simp [payee] at hp
      | withdraw u i => simp [payee] at hp
      | fund a d x => exact absurd rfl (hf a d x)
    · rcases e7 with rfl | ⟨y, rfl, -⟩ <;> exact keep e12 e10
    · rw [e9]
      refine ⟨near_join (f := ⟨a, c.now + d, x.toNat⟩) hI.1 hw e8, fun hc => ?_⟩
      have : s.st.cfg = none := hc
      rw [e1] at this; simp at this

theorem run_inv {me : Addr} (ts : List Tx) (hw : ∀ t ∈ ts, WellScheduled t) {s : Sys} {l : List Funding} (hI : Inv l s.st) :
    Inv (inForceFrom me s l ts) (Rewards.run me s ts).st := by
  induction ts generalizing s l with
  | nil => exact hI
  | cons t ts ih =>
    refine ih (fun t h => hw t (List.mem_cons_of_mem _ h)) ?_
    cases h : Rewards.step me s t with
    | ok s' =>
      have h1 : Rewards.Spec.succeeds me s t = true := by simp [Rewards.Spec.succeeds, h, Except.toOption]
      have h2 : exec me s t = s' := by simp [exec, h]
      rw [h1, h2]
      exact step_inv (hw t List.mem_cons_self) h hI
    | error e =>
      have h1 : Rewards.Spec.succeeds me s t = false := by simp [Rewards.Spec.succeeds, h, Except.toOption]
      have h2 : exec me s t = s := by simp [exec, h]
      rw [h1, h2]
      have : inForceStep l false t = l := by
        unfold inForceStep
        split <;> rfl
      rw [this]; exact hI

theorem reach {me : Addr} {s : Sys} (h0 : Rewards.Spec.Genesis me s) (ts : List Tx) (hw : ∀ t ∈ ts, WellScheduled t) :
    Inv (inForce me s ts) (Rewards.run me s ts).st :=
  run_inv ts hw ⟨by rw [h0.1]; exact near_nil, fun _ => rfl⟩

/-- the stored schedule, evaluated -/
theorem near_value {l : List Funding} {k : Curve} (h : Near l k) {t v : Nat} (hv : k.value t = .ok v) :
    allLocked l t ≤ v ∧ (v = 0 ∨ (v : ℚ) < allLocked l t + l.length) := by
  obtain ⟨hc, hl, ⟨B, hB⟩, hs⟩ := h
  by_cases hne : l = []
  · subst hne
    rcases hc with ⟨rfl, -⟩ | ⟨-, -, e, -, heD, -⟩
    · simp only [value, ok_inj] at hv
      subst hv
      simp [allLocked]
    · simp [datesOf] at heD
  · obtain ⟨s1, s2⟩ := hs hne t
    obtain ⟨u1, u2⟩ := plValue_up (stepsOf_sorted hB.wf).2 hB.dec (value_pl hB.wf hv)
    exact ⟨by linarith, .inr (by linarith)⟩

/-- **C163** A distribution to any stakers leaves undistributed what is still locked of the fundings in force, each of them
released evenly from its start to its end: never less, and less than one unit per funding more.  So nothing is released early,
and no overlap of schedules, in whatever order they were added, delays more than these units. -/
theorem C163_evenly {me : Addr} {s : Sys} (h0 : Rewards.Spec.Genesis me s) (ts : List Tx)
    (hw : ∀ t ∈ ts, WellScheduled t) {c : Ctx} {T : Int} {s' : Sys}
    (h : Rewards.step me (Rewards.run me s ts) (.rewards c (.distribute T)) = .ok s') {cfg : Config}
    (hc : queryConfig (Rewards.run me s ts).st = .ok cfg) (hT : 0 < weight cfg.minBond T) :
    ∃ U, queryUndistributed me s'.st s'.led cfg.token = .ok U ∧
      allLocked (inForce me s ts) c.now ≤ U ∧
      (U = 0 ∨ (U : ℚ) < allLocked (inForce me s ts) c.now + (inForce me s ts).length) := by
  have hI := reach h0 ts hw
  have hc' : (Rewards.run me s ts).st.cfg = some cfg := getConfig_ok.mp hc
  generalize Rewards.run me s ts = z at *
  simp only [Rewards.step, bind_ok, ok_inj] at h
  obtain ⟨v, hi', rfl⟩ := h
  obtain ⟨cfg', h1, _, _, h2⟩ := distribute_inv hi'
  rw [hc'] at h1; cases h1
  unfold queryUndistributed
  simp only [bind_ok, getConfig_ok, req_ok, toU128_ok, subU_ok]
  rcases h2 with ⟨rfl, h2 | h2⟩ | ⟨x, d, h2, h3, h4, h5, rfl⟩
  · omega
  · obtain ⟨w, k1, k2⟩ := unlocked_inv h2
    refine ⟨w, ⟨cfg, hc', (), rfl, z.st.dist.withdrawable + w, by omega, by omega, by omega⟩, near_value hI.1 k1⟩
  · obtain ⟨w, k1, k2⟩ := unlocked_inv h4
    obtain ⟨_, _, _, k4, k5⟩ := handOut_inv h5
    refine ⟨w, ⟨cfg, hc', (), rfl, d.withdrawable + w, ?_, ?_, ?_⟩, near_value hI.1 k1⟩ <;> (try dsimp only) <;> omega

/-- **C163** So between two distributions that follow each other, the second hands out what the announced schedules release in
that time, give or take a unit per funding in force. -/
theorem C163_between {me : Addr} {s : Sys} (h0 : Rewards.Spec.Genesis me s) (ts : List Tx)
    (hw : ∀ t ∈ ts, WellScheduled t) {c c' : Ctx} {T T' : Int} {s1 s2 : Sys}
    (h1 : Rewards.step me (Rewards.run me s ts) (.rewards c (.distribute T)) = .ok s1)
    (h2 : Rewards.step me s1 (.rewards c' (.distribute T')) = .ok s2) {cfg : Config}
    (hc : queryConfig (Rewards.run me s ts).st = .ok cfg) (hT : 0 < weight cfg.minBond T) (hT' : 0 < weight cfg.minBond T')
    {D1 D2 : Nat} (hD1 : queryDistributed s1.st cfg.token = .ok D1) (hD2 : queryDistributed s2.st cfg.token = .ok D2) :
    |((D2 : ℚ) - D1) - (allLocked (inForce me s ts) c.now - allLocked (inForce me s ts) c'.now)| ≤ (inForce me s ts).length := by
  have hrun : Rewards.run me s (ts ++ [.rewards c (.distribute T)]) = s1 := by
    simp only [Rewards.run, List.foldl_append, List.foldl_cons, List.foldl_nil]
    have : Rewards.step me (List.foldl (exec me) s ts) (.rewards c (.distribute T)) = .ok s1 := h1
    unfold Rewards.exec at this ⊢
    rw [this]
  have hforce : ∀ (ts : List Tx) (s : Sys) (l : List Funding),
      inForceFrom me s l (ts ++ [.rewards c (.distribute T)]) = inForceFrom me s l ts := by
    intro ts
    induction ts with
    | nil => intro s l; simp [inForceFrom, inForceStep]
    | cons t ts ih => intro s l; exact ih _ _
  have hc1 : queryConfig s1.st = .ok cfg := getConfig_ok.mpr (step_cfg h1 (getConfig_ok.mp hc)).1
  obtain ⟨U1, u1, a1, b1⟩ := C163_evenly h0 ts hw h1 hc hT
  obtain ⟨U2, u2, a2, b2⟩ := C163_evenly h0 (ts ++ [.rewards c (.distribute T)]) (by
    intro t ht
    rcases List.mem_append.mp ht with h | h
    · exact hw t h
    · simp only [List.mem_singleton] at h; subst h; trivial) (by rw [hrun]; exact h2) (by rw [hrun]; exact hc1) hT'
  unfold inForce at a2 b2
  rw [hforce] at a2 b2
  have hsum : (D2 : ℚ) - D1 = U1 - U2 := by
    have hcfg := getConfig_ok.mp hc1
    simp only [Rewards.step, bind_ok, ok_inj] at h2
    obtain ⟨v, hi', rfl⟩ := h2
    unfold queryUndistributed at u1 u2
    unfold queryDistributed at hD1 hD2
    simp only [bind_ok, getConfig_ok, req_ok, toU128_ok, subU_ok, ok_inj] at u1 u2 hD1 hD2
    obtain ⟨_, -, _, -, x1, p1, p2, rfl⟩ := u1
    obtain ⟨_, -, _, -, x2, q1, q2, rfl⟩ := u2
    obtain ⟨_, -, _, -, rfl⟩ := hD1
    obtain ⟨_, -, _, -, rfl⟩ := hD2
    obtain ⟨cfg', g1, -, -, ⟨rfl, -⟩ | ⟨x, d, g2, g3, g4, g5, rfl⟩⟩ := distribute_inv hi'
    · have : x1 = x2 := by omega
      subst this; simp
    · obtain ⟨_, _, _, k4, k5⟩ := handOut_inv g5
      dsimp only at q1 q2 ⊢
      have e1 : x1 = x2 := by omega
      subst e1
      rw [k4, k5, Nat.cast_sub p2, Nat.cast_sub (by omega)]
      push_cast
      ring
  rw [hsum]
  have l0 : ∀ t, 0 ≤ allLocked (inForce me s ts) t := by
    intro t
    refine List.sum_nonneg ?_
    intro y hy
    obtain ⟨f, hf, rfl⟩ := List.mem_map.mp hy
    have hlt := (reach h0 ts hw).1.2.1 f hf
    unfold Funding.locked
    split
    · positivity
    · split
      · exact le_refl _
      · rename_i k1 k2
        have q1 : (f.start : ℚ) < f.stop := by exact_mod_cast hlt
        have q2 : (t : ℚ) < f.stop := by exact_mod_cast not_le.mp k2
        refine div_nonneg (mul_nonneg (by positivity) (by linarith)) (by linarith)
  have hlen : (0 : ℚ) ≤ (inForce me s ts).length := by positivity
  have B1 : (U1 : ℚ) ≤ allLocked (inForce me s ts) c.now + (inForce me s ts).length := by
    rcases b1 with rfl | b1
    · have := l0 c.now; push_cast; linarith
    · exact b1.le
  have B2 : (U2 : ℚ) ≤ allLocked (inForce me s ts) c'.now + (inForce me s ts).length := by
    rcases b2 with rfl | b2
    · have := l0 c'.now; push_cast; linarith
    · exact b2.le
  have A2 : allLocked (inForce me s ts) c'.now ≤ U2 := a2
  rw [abs_le]
  constructor <;> linarith

/-! The example of C162: 10000 from day 0 to day 10 and 10000 from day 8 to day 18.  On day 9 a tenth of the first and nine
tenths of the second funding are locked. -/
open Phoenix.Props.FundingDates (exFunds exFunds_scheduled exFunds_config)

theorem exFunds_inForce : inForce 100 rExStart exFunds = [⟨0, 864000, 10000⟩, ⟨691200, 1555200, 10000⟩] := by decide +kernel

example : allLocked (inForce 100 rExStart exFunds) (9 * 86400) = 10000 := by
  rw [exFunds_inForce]
  norm_num [allLocked, Funding.locked]

example : ∃ s', Rewards.step 100 (Rewards.run 100 rExStart exFunds) (.rewards (rBy 3 9) (.distribute 15000)) = .ok s' ∧
    ∃ U, queryUndistributed 100 s'.st s'.led 40 = .ok U ∧ 10000 ≤ U ∧ U < 10002 := by
  have hs : Rewards.Spec.succeeds 100 (Rewards.run 100 rExStart exFunds) (.rewards (rBy 3 9) (.distribute 15000)) = true := by
    decide +kernel
  cases h : Rewards.step 100 (Rewards.run 100 rExStart exFunds) (.rewards (rBy 3 9) (.distribute 15000)) with
  | error e => simp [Rewards.Spec.succeeds, h, Except.toOption] at hs
  | ok s' =>
    obtain ⟨U, h1, h2, h3⟩ := C163_evenly rExStart_genesis exFunds exFunds_scheduled h exFunds_config (by decide)
    rw [exFunds_inForce] at h2 h3
    have e : allLocked [⟨0, 864000, 10000⟩, ⟨691200, 1555200, 10000⟩] (rBy 3 9).now = 10000 := by
      norm_num [allLocked, Funding.locked, rBy]
    rw [e] at h2 h3
    refine ⟨s', rfl, U, h1, by exact_mod_cast h2, ?_⟩
    rcases h3 with rfl | h3
    · decide
    · have : (U : ℚ) < 10002 := by
        have h3' : (U : ℚ) < 10000 + 2 := by simpa using h3
        linarith
      exact_mod_cast this

/-- distributions on day 9 and day 13 -/
example : ∃ s1 s2 D1 D2, Rewards.step 100 (Rewards.run 100 rExStart exFunds) (.rewards (rBy 3 9) (.distribute 15000)) = .ok s1 ∧
    Rewards.step 100 s1 (.rewards (rBy 3 13) (.distribute 15000)) = .ok s2 ∧ queryDistributed s1.st 40 = .ok D1 ∧
    queryDistributed s2.st 40 = .ok D2 ∧ |((D2 : ℚ) - D1) - 5000| ≤ 2 := by
  have hs : Rewards.Spec.succeeds 100 (Rewards.run 100 rExStart exFunds) (.rewards (rBy 3 9) (.distribute 15000)) = true ∧
      Rewards.Spec.succeeds 100 (Rewards.run 100 rExStart (exFunds ++ [.rewards (rBy 3 9) (.distribute 15000)]))
        (.rewards (rBy 3 13) (.distribute 15000)) = true := by decide +kernel
  have hrun : Rewards.run 100 rExStart (exFunds ++ [.rewards (rBy 3 9) (.distribute 15000)]) =
      exec 100 (Rewards.run 100 rExStart exFunds) (.rewards (rBy 3 9) (.distribute 15000)) := by simp [Rewards.run]
  rw [hrun] at hs
  cases h : Rewards.step 100 (Rewards.run 100 rExStart exFunds) (.rewards (rBy 3 9) (.distribute 15000)) with
  | error e => simp [Rewards.Spec.succeeds, h, Except.toOption] at hs
  | ok s1 =>
    have he : exec 100 (Rewards.run 100 rExStart exFunds) (.rewards (rBy 3 9) (.distribute 15000)) = s1 := by simp [exec, h]
    rw [he] at hs
    cases h' : Rewards.step 100 s1 (.rewards (rBy 3 13) (.distribute 15000)) with
    | error e => have := hs.2; simp [Rewards.Spec.succeeds, h', Except.toOption] at this
    | ok s2 =>
      have c1 := (step_cfg h (getConfig_ok.mp exFunds_config)).1
      have c2 := (step_cfg h' c1).1
      have d1 : queryDistributed s1.st 40 = .ok s1.st.dist.distributed := by
        unfold queryDistributed; rw [getConfig_ok.mpr c1]; rfl
      have d2 : queryDistributed s2.st 40 = .ok s2.st.dist.distributed := by
        unfold queryDistributed; rw [getConfig_ok.mpr c2]; rfl
      refine ⟨s1, s2, _, _, rfl, h', d1, d2, ?_⟩
      have := C163_between rExStart_genesis exFunds exFunds_scheduled h h' exFunds_config (by decide) (by decide) d1 d2
      rw [exFunds_inForce] at this
      have e1 : allLocked [⟨0, 864000, 10000⟩, ⟨691200, 1555200, 10000⟩] (rBy 3 9).now = 10000 := by
        norm_num [allLocked, Funding.locked, rBy]
      have e2 : allLocked [⟨0, 864000, 10000⟩, ⟨691200, 1555200, 10000⟩] (rBy 3 13).now = 5000 := by
        norm_num [allLocked, Funding.locked, rBy]
      rw [e1, e2] at this
      have e3 : (10000 : ℚ) - 5000 = 5000 := by norm_num
      rw [e3] at this
      simpa using this

end Phoenix.Props.Released
