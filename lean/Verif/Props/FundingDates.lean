import Verif.Spec.FundingDates
import Verif.Props.Rewards
import Verif.Props.Curve
/-!
C162: the limit on the complexity of a reward schedule limits the fundings.  It is counted in dates of all
fundings of the current run, past dates included, so a distribution that is funded again and again
before the schedule has run out refuses fundings until it has.
-/
namespace Phoenix.Props.FundingDates
open Phoenix Rewards Rewards.Spec Curve
open Phoenix.Spec (NonConstant stepsOf SortedSteps)

/-- the stored schedule has its corners at the dates in force -/
def Corner (D : Finset Nat) (k : Curve) : Prop :=
  (k = .constant 0 ∧ D = ∅) ∨
  (NonConstant k ∧ (∀ t, t ∈ D ↔ ∃ s ∈ stepsOf k, s.time = t) ∧ ∃ e, k.end = some e ∧ e ∈ D ∧ ∀ t ∈ D, t ≤ e)

theorem corner_sl {a X b : Nat} (h : a < b) : Corner {a, b} (.sl a X b 0) := by
  refine .inr ⟨trivial, fun t => ?_, b, rfl, by simp, ?_⟩
  · simp [stepsOf, eq_comm]
  · intro t ht
    simp only [Finset.mem_insert, Finset.mem_singleton] at ht
    omega

theorem corner_union {D : Finset Nat} {k k' : Curve} {a X b : Nat} (hk : NonConstant k)
    (hm : ∀ t, t ∈ D ↔ ∃ s ∈ stepsOf k, s.time = t) (h : k.combine (.sl a X b 0) = .ok k') :
    Corner (D ∪ {a, b}) k' ∧ k'.size = (D ∪ {a, b}).card := by
  obtain ⟨r, rfl, hs, hr⟩ := Phoenix.Props.C28_breakpoints h hk trivial
  have hmem : ∀ t, t ∈ D ∪ {a, b} ↔ ∃ s ∈ r, s.time = t := by
    intro t
    rw [hr, Finset.mem_union, hm]
    simp [stepsOf, eq_comm]
  have hnd : (r.map Step.time).Nodup := by
    have : (r.map Step.time).Pairwise (· < ·) := by rw [List.pairwise_map]; exact hs
    exact this.imp (fun h => Nat.ne_of_lt h)
  have hfin : D ∪ {a, b} = (r.map Step.time).toFinset := by
    ext t; rw [hmem, List.mem_toFinset, List.mem_map]
  constructor
  · refine .inr ⟨trivial, hmem, ?_⟩
    have hne : r ≠ [] := by
      obtain ⟨s, hs, -⟩ := (hmem a).mp (by simp)
      exact List.ne_nil_of_mem hs
    refine ⟨(r.getLast hne).time, ?_, (hmem _).mpr ⟨_, List.getLast_mem hne, rfl⟩, ?_⟩
    · simp [Curve.end, List.getLast?_eq_some_getLast hne]
    · intro t ht
      obtain ⟨s, hs', rfl⟩ := (hmem t).mp ht
      have hcat : r = r.dropLast ++ [r.getLast hne] := (List.dropLast_append_getLast hne).symm
      rw [hcat] at hs'
      unfold SortedSteps at hs
      rw [hcat, List.pairwise_append] at hs
      rcases List.mem_append.mp hs' with h | h
      · exact le_of_lt (hs.2.2 s h _ (by simp))
      · simp only [List.mem_singleton] at h; rw [h]
  · rw [hfin, List.toFinset_card_of_nodup hnd]
    simp [Curve.size]

theorem checkComplexity_ok {k : Curve} {m : Nat} : checkComplexity k m = .ok () ↔ k.size ≤ m := by
  unfold checkComplexity Curve.validateComplexity
  by_cases h : k.size ≤ m <;> simp [h]

/-- joining a new schedule: the dates, and the limit -/
theorem join_corner {D : Finset Nat} {k k' : Curve} {now m a X b : Nat} (hk : Corner D k) (hab : a < b)
    (h : joinCurves now m k (.sl a X b 0) = .ok k') :
    Corner (together now a b D) k' ∧ (Running now D → (D ∪ {a, b}).card ≤ m) ∧ (D = ∅ → 2 ≤ m) := by
  rcases hk with ⟨rfl, rfl⟩ | ⟨hn, hm, e, he, heD, hle⟩
  · simp only [joinCurves, Curve.end, Curve.combine, Curve.combineConst, bind_ok, add128_ok, ok_inj] at h
    obtain ⟨_, ⟨_, ⟨-, rfl⟩, _, ⟨-, rfl⟩, rfl⟩, _, hc, rfl⟩ := h
    have hr : ¬ Running now ∅ := by rintro ⟨t, ht, -⟩; simp at ht
    refine ⟨?_, fun h => absurd h hr, fun _ => ?_⟩
    · unfold together; rw [if_neg hr]; exact corner_sl hab
    · exact checkComplexity_ok.mp hc
  · have hD : D ≠ ∅ := by rintro rfl; simp at heD
    simp only [joinCurves, he] at h
    by_cases hlt : e < now
    · rw [if_pos hlt, ok_inj] at h
      subst h
      have hr : ¬ Running now D := by rintro ⟨t, ht, h⟩; have := hle t ht; omega
      refine ⟨?_, fun h => absurd h hr, fun h => absurd h hD⟩
      unfold together; rw [if_neg hr]; exact corner_sl hab
    · rw [if_neg hlt] at h
      simp only [bind_ok, ok_inj] at h
      obtain ⟨k1, h1, _, h2, rfl⟩ := h
      obtain ⟨c1, c2⟩ := corner_union hn hm h1
      have hr : Running now D := ⟨e, heD, by omega⟩
      refine ⟨?_, fun _ => ?_, fun h => absurd h hD⟩
      · unfold together; rw [if_pos hr]; exact c1
      · rw [← c2]; exact checkComplexity_ok.mp h2

/-- the dates in force, as an invariant -/
def Inv (D : Finset Nat) (st : State) : Prop := Corner D st.curve ∧ (st.cfg = none → D = ∅)

theorem step_inv {me : Addr} {s s' : Sys} {t : Tx} {D : Finset Nat} (hw : WellScheduled t) (h : Rewards.step me s t = .ok s')
    (hI : Inv D s.st) : Inv (noted D true t) s'.st := by
  have keep : ∀ {v : State}, v.curve = s.st.curve → v.cfg = s.st.cfg → Inv D v := by
    intro v h1 h2; unfold Inv; rw [h1, h2]; exact hI
  cases t with
  | token c tok op =>
    simp only [Rewards.step, bind_ok, ok_inj] at h
    obtain ⟨L, hL, rfl⟩ := h
    exact hI
  | rewards c k =>
    rcases step_kinds h with ⟨hled, hp, hf⟩ | ⟨cfg, u, i, x, e1, e2, e3, e4, e5, e6, e7, ⟨e8, e9, e10, e11, e12⟩, e13, e14, e15⟩ |
        ⟨cfg, a, d, x, kv, e1, rfl, e2, e3, e4, e5, e6, e7, e8, e9, e10, e11⟩
    · cases k with
      | init a st tok mc mr mb =>
        simp only [Rewards.step, bind_ok, ok_inj] at h
        obtain ⟨v, hi, rfl⟩ := h
        obtain ⟨h1, rfl⟩ := init_inv hi
        exact ⟨.inl ⟨rfl, hI.2 h1⟩, by simp⟩
      | addUser u i =>
        simp only [Rewards.step, bind_ok, ok_inj] at h
        obtain ⟨v, hi, rfl⟩ := h
        obtain ⟨_, _, _, rfl⟩ := addUser_inv hi
        exact hI
      | calcBond u i =>
        simp only [Rewards.step, bind_ok, ok_inj] at h
        obtain ⟨v, hi, rfl⟩ := h
        obtain ⟨_, _, _, _, _, rfl⟩ := calcBond_inv hi
        exact hI
      | distribute T =>
        simp only [Rewards.step, bind_ok, ok_inj] at h
        obtain ⟨v, hi, rfl⟩ := h
        obtain ⟨cfg', h1, _, _, ⟨rfl, -⟩ | ⟨x, d, h2, h3, h4, h5, rfl⟩⟩ := distribute_inv hi
        · exact hI
        · exact hI
      | calcUnbond u i y => simp [payee] at hp
      | withdraw u i => simp [payee] at hp
      | fund a d x => exact absurd rfl (hf a d x)
    · rcases e7 with rfl | ⟨y, rfl, -⟩ <;> exact keep e12 e10
    · rw [e9]
      refine ⟨(join_corner hI.1 hw e8).1, fun hc => ?_⟩
      have : s.st.cfg = none := hc
      rw [e1] at this; simp at this

theorem run_inv {me : Addr} (ts : List Tx) (hw : ∀ t ∈ ts, WellScheduled t) {s : Sys} {D : Finset Nat} (hI : Inv D s.st) :
    Inv (datesFrom me s D ts) (Rewards.run me s ts).st := by
  induction ts generalizing s D with
  | nil => exact hI
  | cons t ts ih =>
    refine ih (fun t h => hw t (List.mem_cons_of_mem _ h)) ?_
    cases h : Rewards.step me s t with
    | ok s' =>
      have h1 : succeeds me s t = true := by simp [Rewards.Spec.succeeds, h, Except.toOption]
      have h2 : exec me s t = s' := by simp [exec, h]
      rw [h1, h2]
      exact step_inv (hw t List.mem_cons_self) h hI
    | error e =>
      have h1 : succeeds me s t = false := by simp [Rewards.Spec.succeeds, h, Except.toOption]
      have h2 : exec me s t = s := by simp [exec, h]
      rw [h1, h2]
      have : noted D false t = D := by
        unfold noted
        split <;> rfl
      rw [this]; exact hI

theorem reach {me : Addr} {s : Sys} (h0 : Rewards.Spec.Genesis me s) (ts : List Tx) (hw : ∀ t ∈ ts, WellScheduled t) :
    Inv (dates me s ts) (Rewards.run me s ts).st :=
  run_inv ts hw ⟨.inl ⟨by rw [h0.1]; rfl, rfl⟩, fun _ => rfl⟩

/-- **C162** While the schedule runs, a funding is accepted only if the start and end dates of all fundings of the current run,
this one included and past ones counted too, are at most as many as the configured complexity.  The very first funding is
accepted only if the complexity is at least two. -/
theorem C162_limit {me : Addr} {s s' : Sys} (h0 : Rewards.Spec.Genesis me s) (ts : List Tx) (hw : ∀ t ∈ ts, WellScheduled t)
    {c : Ctx} {a d : Nat} {x : Int} (hab : a < c.now + d) {cfg : Config} (hc : queryConfig (Rewards.run me s ts).st = .ok cfg)
    (h : Rewards.step me (Rewards.run me s ts) (.rewards c (.fund a d x)) = .ok s') :
    (Running c.now (dates me s ts) → (dates me s ts ∪ {a, c.now + d}).card ≤ cfg.maxComplexity) ∧
    (dates me s ts = ∅ → 2 ≤ cfg.maxComplexity) := by
  have hI := reach h0 ts hw
  simp only [Rewards.step, bind_ok, ok_inj] at h
  obtain ⟨⟨v, L⟩, hf, -⟩ := h
  obtain ⟨cfg', k, e1, -, -, -, -, -, -, -, e8, -⟩ := fund_inv hf
  have : cfg' = cfg := by
    have := getConfig_ok.mp hc
    rw [e1] at this; exact Option.some.inj this
  subst this
  exact (join_corner hI.1 hab e8).2

/-! which failures are the complexity error -/

/-- not the complexity error -/
def Other {α : Type} (x : Res α) : Prop := x ≠ .error (.code 12)

theorem other_ok {α : Type} (a : α) : Other (.ok a : Res α) := by simp [Other]
theorem other_err {α : Type} {e : Err} (h : e ≠ .code 12) : Other (.error e : Res α) := by simpa [Other] using h
theorem other_bind {α β : Type} {x : Res α} {f : α → Res β} (h : Other x) (hf : ∀ a, x = .ok a → Other (f a)) : Other (x >>= f) := by
  cases x with
  | ok a => exact hf a rfl
  | error e => intro h'; exact h (by simpa [bind, Except.bind] using h')
theorem other_req {p : Prop} [Decidable p] {e : Err} (h : e ≠ .code 12) : Other (req p e) := by
  unfold req; split
  · exact other_ok _
  · exact other_err h
theorem other_u128 (x : Nat) : Other (u128 x) := by
  unfold u128; split
  · exact other_ok _
  · exact other_err (by simp)
theorem other_subU (a b : Nat) : Other (subU a b) := by
  unfold subU; split
  · exact other_ok _
  · exact other_err (by simp)
theorem other_divU (a b : Nat) : Other (divU a b) := by
  unfold divU; split
  · exact other_err (by simp)
  · exact other_ok _
theorem other_i128 (x : Int) : Other (i128 x) := by
  unfold i128; split
  · exact other_ok _
  · exact other_err (by simp)

theorem other_interpolate (x0 y0 x1 y1 x : Nat) : Other (interpolate x0 y0 x1 y1 x) := by
  unfold interpolate
  split <;>
    exact other_bind (other_subU _ _) fun _ _ => other_bind (other_subU _ _) fun _ _ => other_bind (other_u128 _) fun _ _ =>
      other_bind (other_subU _ _) fun _ _ => other_bind (other_divU _ _) fun _ _ => by first | exact other_u128 _ | exact other_subU _ _

theorem other_plScan (prev : Step) (rest : List Step) (x : Nat) : Other (plScan prev rest x) := by
  induction rest generalizing prev with
  | nil => exact other_ok _
  | cons n rest ih =>
    unfold plScan
    split
    · exact other_interpolate _ _ _ _ _
    · exact ih n

theorem other_plValue (l : List Step) (x : Nat) : Other (plValue l x) := by
  unfold plValue
  split
  · exact other_err (by simp)
  · split
    · exact other_ok _
    · split
      · exact other_ok _
      · exact other_plScan _ _ _

theorem other_sumSteps (f g : List Step) (ts : List Nat) : Other (sumSteps f g ts) := by
  induction ts with
  | nil => exact other_ok _
  | cons t ts ih =>
    unfold sumSteps
    exact other_bind (other_plValue _ _) fun _ _ => other_bind (other_plValue _ _) fun _ _ => other_bind (other_u128 _) fun _ _ =>
      other_bind ih fun _ _ => other_ok _

theorem other_combine (k : Curve) (a X b : Nat) : Other (k.combine (.sl a X b 0)) := by
  cases k with
  | constant y =>
    exact other_bind (other_u128 _) fun _ _ => other_bind (other_u128 _) fun _ _ => other_ok _
  | sl p q r s => exact other_bind (other_sumSteps _ _ _) fun _ _ => other_ok _
  | pl l => exact other_bind (other_sumSteps _ _ _) fun _ _ => other_ok _

theorem other_transfer (c : Ctx) (L : Ledger) (tok src dst : Addr) (x : Int) : Other (L.transfer c tok src dst x) := by
  refine other_bind ?_ fun _ _ => other_ok _
  refine other_bind (other_req (by simp)) fun _ _ => other_bind (other_req (by simp)) fun _ _ => other_bind ?_ fun _ _ => ?_
  · exact other_bind (other_req (by simp)) fun _ _ => other_bind (other_i128 _) fun _ _ => other_ok _
  · exact other_bind (other_i128 _) fun _ _ => other_ok _

theorem join_error {D : Finset Nat} {k : Curve} {now m a X b : Nat} (hk : Corner D k)
    (h : joinCurves now m k (.sl a X b 0) = .error (.code 12)) :
    (Running now D ∧ m < (D ∪ {a, b}).card) ∨ (D = ∅ ∧ m < 2) := by
  have go : ∀ {k1 : Curve}, (do checkComplexity k1 m; .ok k1 : Res Curve) = .error (.code 12) → m < k1.size := by
    intro k1 hh
    by_contra hle
    rw [checkComplexity_ok.mpr (by omega)] at hh
    simp [bind, Except.bind] at hh
  have split : ∀ {x : Res Curve}, Other x → (do let k ← x; checkComplexity k m; .ok k) = .error (.code 12) →
      ∃ k1, x = .ok k1 ∧ m < k1.size := by
    intro x hx hh
    cases x with
    | ok k1 => exact ⟨k1, rfl, go hh⟩
    | error e => exact absurd (by simpa [bind, Except.bind] using hh) hx
  rcases hk with ⟨rfl, rfl⟩ | ⟨hn, hm, e, he, heD, hle⟩
  · obtain ⟨k1, h1, h2⟩ := split (other_combine _ _ _ _) h
    simp only [Curve.combine, Curve.combineConst, bind_ok, add128_ok, ok_inj] at h1
    obtain ⟨_, ⟨-, rfl⟩, _, ⟨-, rfl⟩, rfl⟩ := h1
    exact .inr ⟨rfl, h2⟩
  · simp only [joinCurves, he] at h
    by_cases hlt : e < now
    · rw [if_pos hlt] at h; simp at h
    · rw [if_neg hlt] at h
      obtain ⟨k1, h1, h2⟩ := split (other_combine _ _ _ _) h
      obtain ⟨-, c2⟩ := corner_union hn hm h1
      exact .inl ⟨⟨e, heD, by omega⟩, by rw [← c2]; exact h2⟩

/-- **C162** And only then: a funding that is refused with the error "invalid maximum complexity" (12) either finds the schedule
running and would bring the dates of the current run over the limit, or is a first funding under a limit below two.  In
particular, once all dates are past, no funding is refused for that reason any more. -/
theorem C162_only_then {me : Addr} {s : Sys} (h0 : Rewards.Spec.Genesis me s) (ts : List Tx) (hw : ∀ t ∈ ts, WellScheduled t)
    {c : Ctx} {a d : Nat} {x : Int}
    (h : Rewards.step me (Rewards.run me s ts) (.rewards c (.fund a d x)) = .error (.code 12)) :
    ∃ cfg, queryConfig (Rewards.run me s ts).st = .ok cfg ∧
      ((Running c.now (dates me s ts) ∧ cfg.maxComplexity < (dates me s ts ∪ {a, c.now + d}).card) ∨
        (dates me s ts = ∅ ∧ cfg.maxComplexity < 2)) := by
  have hI := reach h0 ts hw
  generalize Rewards.run me s ts = z at *
  cases hc : z.st.cfg with
  | none =>
    exfalso
    refine absurd h (other_bind (other_bind ?_ fun cfg hcfg => ?_) fun _ _ => other_ok _)
    · simp [Rewards.getConfig, hc, Other]
    · rw [getConfig_ok, hc] at hcfg; simp at hcfg
  | some cfg =>
    refine ⟨cfg, getConfig_ok.mpr hc, ?_⟩
    by_contra hno
    refine absurd h (other_bind (other_bind ?_ fun cfg' hcfg => ?_) fun _ _ => other_ok _)
    · rw [getConfig_ok.mpr hc]; exact other_ok _
    · rw [getConfig_ok, hc] at hcfg
      cases hcfg
      refine other_bind (other_req (by simp)) fun _ _ => other_bind (other_req (by simp)) fun _ _ =>
        other_bind (other_req (by simp)) fun _ _ => other_bind (other_req (by simp)) fun _ _ =>
        other_bind (other_transfer _ _ _ _ _ _) fun _ _ => other_bind ?_ fun stop hstop => other_bind ?_ fun n _ =>
        other_bind (other_req (by simp)) fun _ _ => other_bind ?_ fun _ _ => other_ok _
      · unfold add64 u64; split
        · exact other_ok _
        · exact other_err (by simp)
      · unfold toU128; split
        · exact other_err (by simp)
        · exact other_ok _
      · rw [add64_ok] at hstop
        obtain ⟨-, rfl⟩ := hstop
        exact fun hj => hno (join_error hI.1 hj)

/-- **C162** When the limit is used up, the distribution refuses every funding with a new start or end date until the last
date of the current run is past, whoever signs and whatever is paid. -/
theorem C162_used_up {me : Addr} {s : Sys} (h0 : Rewards.Spec.Genesis me s) (ts : List Tx) (hw : ∀ t ∈ ts, WellScheduled t)
    {cfg : Config} (hc : queryConfig (Rewards.run me s ts).st = .ok cfg) (hfull : cfg.maxComplexity ≤ (dates me s ts).card)
    {c : Ctx} (hr : Running c.now (dates me s ts)) {a d : Nat} {x : Int} (hab : a < c.now + d)
    (hnew : a ∉ dates me s ts ∨ c.now + d ∉ dates me s ts) :
    Rewards.Spec.succeeds me (Rewards.run me s ts) (.rewards c (.fund a d x)) = false := by
  cases h : Rewards.step me (Rewards.run me s ts) (.rewards c (.fund a d x)) with
  | error e => simp [Rewards.Spec.succeeds, h, Except.toOption]
  | ok s' =>
    exfalso
    have h1 := (C162_limit h0 ts hw hab hc h).1 hr
    have : (dates me s ts).card < (dates me s ts ∪ {a, c.now + d}).card := by
      refine Finset.card_lt_card ⟨Finset.subset_union_left, fun hsub => ?_⟩
      rcases hnew with hn | hn
      · exact hn (hsub (by simp))
      · exact hn (hsub (by simp))
    omega

theorem small_join {now m a X b : Nat} {k : Curve} (hm : m < 2) : joinCurves now m (.constant 0) (.sl a X b 0) ≠ .ok k := by
  intro h
  simp only [joinCurves, Curve.end, Curve.combine, Curve.combineConst, bind_ok, add128_ok, ok_inj] at h
  obtain ⟨_, ⟨_, ⟨-, rfl⟩, _, ⟨-, rfl⟩, rfl⟩, _, hc, rfl⟩ := h
  have := checkComplexity_ok.mp hc
  simp only [Curve.size] at this
  omega

/-- under a limit below two the schedule stays empty -/
def Idle (st : State) : Prop := ∀ cfg, st.cfg = some cfg → cfg.maxComplexity < 2 → st.curve = .constant 0

theorem step_idle {me : Addr} {s s' : Sys} {t : Tx} (h : Rewards.step me s t = .ok s') (hI : Idle s.st) : Idle s'.st := by
  cases t with
  | token c tok op =>
    simp only [Rewards.step, bind_ok, ok_inj] at h
    obtain ⟨L, hL, rfl⟩ := h
    exact hI
  | rewards c k =>
    rcases step_kinds h with ⟨hled, hp, hf⟩ | ⟨cfg, u, i, x, e1, e2, e3, e4, e5, e6, e7, ⟨e8, e9, e10, e11, e12⟩, e13, e14, e15⟩ |
        ⟨cfg, a, d, x, kv, e1, rfl, e2, e3, e4, e5, e6, e7, e8, e9, e10, e11⟩
    · cases k with
      | init a st tok mc mr mb =>
        simp only [Rewards.step, bind_ok, ok_inj] at h
        obtain ⟨v, hi, rfl⟩ := h
        obtain ⟨h1, rfl⟩ := init_inv hi
        exact fun _ _ _ => rfl
      | addUser u i =>
        simp only [Rewards.step, bind_ok, ok_inj] at h
        obtain ⟨v, hi, rfl⟩ := h
        obtain ⟨_, _, _, rfl⟩ := addUser_inv hi
        exact hI
      | calcBond u i =>
        simp only [Rewards.step, bind_ok, ok_inj] at h
        obtain ⟨v, hi, rfl⟩ := h
        obtain ⟨_, _, _, _, _, rfl⟩ := calcBond_inv hi
        exact hI
      | distribute T =>
        simp only [Rewards.step, bind_ok, ok_inj] at h
        obtain ⟨v, hi, rfl⟩ := h
        obtain ⟨cfg', h1, _, _, ⟨rfl, -⟩ | ⟨x, d, h2, h3, h4, h5, rfl⟩⟩ := distribute_inv hi
        · exact hI
        · exact hI
      | calcUnbond u i y => simp [payee] at hp
      | withdraw u i => simp [payee] at hp
      | fund a d x => exact absurd rfl (hf a d x)
    · unfold Idle; rw [e12, e10]; exact hI
    · intro cfg' hc hm
      rw [e9] at hc
      have hc : s.st.cfg = some cfg' := hc
      rw [e1] at hc; cases hc
      rw [hI cfg e1 hm] at e8
      exact absurd e8 (small_join hm)

/-- **C162** The limit is not checked when the contract is set up.  Under a limit of zero or one no funding is ever accepted. -/
theorem C162_limit_too_small {me : Addr} {s : Sys} (h0 : Rewards.Spec.Genesis me s) (ts : List Tx) {cfg : Config}
    (hc : queryConfig (Rewards.run me s ts).st = .ok cfg) (hsmall : cfg.maxComplexity < 2)
    (c : Ctx) (a d : Nat) (x : Int) :
    Rewards.Spec.succeeds me (Rewards.run me s ts) (.rewards c (.fund a d x)) = false := by
  have run_idle : ∀ (ts : List Tx) (s : Sys), Idle s.st → Idle (Rewards.run me s ts).st := by
    intro ts
    induction ts with
    | nil => exact fun s h => h
    | cons t ts ih =>
      intro s h
      refine ih _ ?_
      unfold Rewards.exec
      split
      · rename_i h'; exact step_idle h' h
      · exact h
  have hI := run_idle ts s (by intro cfg h; rw [h0.1] at h; simp [fresh] at h)
  cases h : Rewards.step me (Rewards.run me s ts) (.rewards c (.fund a d x)) with
  | error e => simp [Rewards.Spec.succeeds, h, Except.toOption]
  | ok s' =>
    exfalso
    simp only [Rewards.step, bind_ok, ok_inj] at h
    obtain ⟨⟨v, L⟩, hf, -⟩ := h
    obtain ⟨cfg', k, e1, -, -, -, -, -, -, -, e8, -⟩ := fund_inv hf
    have h1 := getConfig_ok.mp hc
    rw [e1] at h1; cases h1
    rw [hI _ e1 hsmall] at e8
    exact small_join hsmall e8

/-! An example: a limit of five dates; the administrator 9 funds on days 0 (days 0 to 10), 8 (days 8 to 18) and tries on day 16
(days 16 to 26) and again on day 19. -/

/-- initialized with a limit of five, and funded twice -/
def exFunds : List Tx :=
  [ .rewards (rBy 9 0) (.init 9 50 40 5 1000 1000),
    .rewards (rBy 9 0) (.fund 0 864000 10000),
    .rewards (rBy 9 8) (.fund 691200 864000 10000) ]

theorem exFunds_scheduled : ∀ t ∈ exFunds, WellScheduled t := by
  intro t ht
  simp only [exFunds, List.mem_cons, List.not_mem_nil, or_false] at ht
  rcases ht with rfl | rfl | rfl <;> simp [WellScheduled, rBy]

theorem exFunds_dates : dates 100 rExStart exFunds = {0, 864000, 691200, 1555200} := by decide +kernel

theorem exFunds_config : queryConfig (Rewards.run 100 rExStart exFunds).st = .ok ⟨50, 40, 5, 1000, 1000⟩ := by decide +kernel

/-- On day 16 three of the four dates are past and only one earlier funding still runs, yet a funding from day 16 to day 26 is
refused; three days later, when everything is over, it is accepted. -/
theorem C162_past_dates_count :
    ((dates 100 rExStart exFunds).filter (fun t => (rBy 9 16).now ≤ t)).card = 1 ∧
    Rewards.step 100 (Rewards.run 100 rExStart exFunds) (.rewards (rBy 9 16) (.fund 1382400 864000 10000)) = .error (.code 12) ∧
    Rewards.Spec.succeeds 100 (Rewards.run 100 rExStart exFunds) (.rewards (rBy 9 19) (.fund 1641600 864000 10000)) = true := by
  refine ⟨by decide +kernel, ?_, by decide +kernel⟩
  have h : (match Rewards.step 100 (Rewards.run 100 rExStart exFunds) (.rewards (rBy 9 16) (.fund 1382400 864000 10000)) with
    | .error (.code 12) => true | _ => false) = true := by decide +kernel
  revert h
  split
  · rename_i h; intro _; exact h
  · simp

/-- a funding with one new date is accepted: five dates are allowed -/
example : Rewards.Spec.succeeds 100 (Rewards.run 100 rExStart exFunds) (.rewards (rBy 9 16) (.fund 1382400 172800 10000)) = true ∧
    (dates 100 rExStart exFunds ∪ {1382400, (rBy 9 16).now + 172800}).card = 5 := by decide +kernel

/-- after a third funding the limit is used up -/
example (x : Int) : Rewards.Spec.succeeds 100
    (Rewards.run 100 rExStart (exFunds ++ [.rewards (rBy 9 16) (.fund 1382400 172800 10000)]))
    (.rewards (rBy 9 17) (.fund 1500000 864000 x)) = false := by
  refine C162_used_up (cfg := ⟨50, 40, 5, 1000, 1000⟩) rExStart_genesis _ ?_ (by decide +kernel) (by decide +kernel) (by decide +kernel)
    (by decide +kernel) (by decide +kernel)
  intro t ht
  rcases List.mem_append.mp ht with h | h
  · exact exFunds_scheduled t h
  · simp only [List.mem_singleton] at h; subst h; simp [WellScheduled, rBy]

/-- the error of the example is the one described -/
example := C162_only_then rExStart_genesis exFunds exFunds_scheduled C162_past_dates_count.2.1

/-- under a limit of one -/
example (c : Ctx) (a d : Nat) (x : Int) : Rewards.Spec.succeeds 100
    (Rewards.run 100 rExStart [.rewards (rBy 9 0) (.init 9 50 40 1 1000 1000)]) (.rewards c (.fund a d x)) = false :=
  C162_limit_too_small (cfg := ⟨50, 40, 1, 1000, 1000⟩) rExStart_genesis _ (by decide +kernel) (by decide) c a d x

end Phoenix.Props.FundingDates
