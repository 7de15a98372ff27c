import Verif.Props.Released
import Verif.Props.AvailRewards
/-!
C164: rewards that the announced schedules still lock are really held by the reward distribution contract, and a
distribution in the middle of the schedules is accepted as soon as these have released one unit per funding.
-/
namespace Phoenix.Props.Covered
open Phoenix Rewards Rewards.Spec Curve
open Phoenix.Spec (NonConstant stepsOf SortedSteps WellFormed exactPL line)
open Phoenix.Props.Released (Near datesOf mem_datesOf)

theorem locked_between {f : Funding} (h : f.start < f.stop) (t : Nat) : 0 ≤ f.locked t ∧ f.locked t ≤ f.amount := by
  unfold Funding.locked
  split
  · exact ⟨by positivity, le_refl _⟩
  · split
    · exact ⟨le_refl _, by positivity⟩
    · rename_i k1 k2
      have q1 : (f.start : ℚ) < f.stop := by exact_mod_cast h
      have q2 : (t : ℚ) < f.stop := by exact_mod_cast not_le.mp k2
      have q3 : (f.start : ℚ) < t := by exact_mod_cast not_le.mp k1
      have q4 : (0 : ℚ) ≤ f.amount := by positivity
      refine ⟨div_nonneg (mul_nonneg q4 (by linarith)) (by linarith), ?_⟩
      rw [div_le_iff₀ (by linarith)]
      exact mul_le_mul_of_nonneg_left (by linarith) q4

theorem locked_anti {f : Funding} (h : f.start < f.stop) {t t' : Nat} (ht : t ≤ t') : f.locked t' ≤ f.locked t := by
  by_cases h1 : t ≤ f.start
  · have : f.locked t = f.amount := by unfold Funding.locked; rw [if_pos h1]
    rw [this]; exact (locked_between h t').2
  · by_cases h2 : f.stop ≤ t'
    · have : f.locked t' = 0 := by unfold Funding.locked; rw [if_neg (by omega), if_pos h2]
      rw [this]; exact (locked_between h t).1
    · unfold Funding.locked
      rw [if_neg (by omega), if_neg h2, if_neg h1, if_neg (by omega)]
      have q1 : (f.start : ℚ) < f.stop := by exact_mod_cast h
      have q2 : (t : ℚ) ≤ t' := by exact_mod_cast ht
      have q4 : (0 : ℚ) ≤ f.amount := by positivity
      exact div_le_div_of_nonneg_right (mul_le_mul_of_nonneg_left (by linarith) q4) (by linarith)

theorem allLocked_le {l : List Funding} {g h : Funding → ℚ} (H : ∀ f ∈ l, g f ≤ h f) : (l.map g).sum ≤ (l.map h).sum :=
  List.sum_le_sum H

theorem allLocked_anti {l : List Funding} (hl : ∀ f ∈ l, f.start < f.stop) {t t' : Nat} (ht : t ≤ t') :
    allLocked l t' ≤ allLocked l t := allLocked_le fun f hf => locked_anti (hl f hf) ht

theorem allLocked_nonneg {l : List Funding} (hl : ∀ f ∈ l, f.start < f.stop) (t : Nat) : 0 ≤ allLocked l t := by
  refine List.sum_nonneg ?_
  intro y hy
  obtain ⟨f, hf, rfl⟩ := List.mem_map.mp hy
  exact (locked_between (hl f hf) t).1

/-- what is locked at `now` is held and not yet handed out -/
def Cov (me : Addr) (l : List Funding) (now : Nat) (s : Sys) : Prop :=
  ∀ cfg, s.st.cfg = some cfg → allLocked l now ≤ ((s.led.bal cfg.token me - s.st.dist.withdrawable : Int) : ℚ)

theorem step_cov {me : Addr} {s s' : Sys} {t : Tx} {l : List Funding} {t0 : Nat} (hp : Rewards.Spec.Possible me t)
    (hw : WellScheduled t) (h : Rewards.step me s t = .ok s') (hI : Rewards.Inv me s) (hR : Released.Inv l s.st)
    (hC : Cov me l t0 s) (ht : t0 ≤ t.ctx.now) : Cov me (inForceStep l true t) t.ctx.now s' := by
  have hl := hR.1.2.1
  have hC' : Cov me l t.ctx.now s := fun cfg hc => (allLocked_anti hl ht).trans (hC cfg hc)
  cases t with
  | token c tok op =>
    simp only [Rewards.step, bind_ok, ok_inj] at h
    obtain ⟨L, hL, rfl⟩ := h
    obtain ⟨-, k2, -⟩ := ledger_call_others hL hp hI.led
    intro cfg hc
    refine (hC' cfg hc).trans ?_
    have := k2 cfg.token
    exact_mod_cast (by omega : s.led.bal cfg.token me - (s.st.dist.withdrawable : Int) ≤ L.bal cfg.token me - s.st.dist.withdrawable)
  | rewards c k =>
    simp only [Rewards.Spec.Possible, Tx.ctx] at hp hC' ⊢
    rcases step_kinds h with ⟨hled, hp', hf⟩ | ⟨cfg, u, i, x, e1, e2, e3, e4, e5, e6, e7, ⟨e8, e9, e10, e11, e12⟩, e13, e14, e15⟩ |
        ⟨cfg, a, d, x, kv, e1, rfl, e2, e3, e4, e5, e6, e7, e8, e9, e10, e11⟩
    · cases k with
      | init a st tok mc mr mb =>
        simp only [Rewards.step, bind_ok, ok_inj] at h
        obtain ⟨v, hi, rfl⟩ := h
        obtain ⟨h1, rfl⟩ := init_inv hi
        have := hR.2 h1
        subst this
        intro cfg hc
        simp only [inForceStep, allLocked, List.map_nil, List.sum_nil]
        have := hI.led.nonneg cfg.token me
        exact_mod_cast (by simpa using this)
      | addUser u i =>
        simp only [Rewards.step, bind_ok, ok_inj] at h
        obtain ⟨v, hi, rfl⟩ := h
        obtain ⟨_, _, _, rfl⟩ := addUser_inv hi
        exact hC'
      | calcBond u i =>
        simp only [Rewards.step, bind_ok, ok_inj] at h
        obtain ⟨v, hi, rfl⟩ := h
        obtain ⟨_, _, _, _, _, rfl⟩ := calcBond_inv hi
        exact hC'
      | distribute T =>
        simp only [Rewards.step, bind_ok, ok_inj] at h
        obtain ⟨v, hi, rfl⟩ := h
        obtain ⟨cfg', h1, _, _, ⟨rfl, -⟩ | ⟨x, d, h2, h3, h4, h5, rfl⟩⟩ := distribute_inv hi
        · exact hC'
        · intro cfg hc
          simp only at hc ⊢
          rw [h1] at hc; cases hc
          obtain ⟨w, k1, k2⟩ := unlocked_inv h4
          obtain ⟨_, _, _, _, h7⟩ := handOut_inv h5
          have e : s.led.bal cfg'.token me - (d.withdrawable : Int) = w := by rw [h7]; push_cast; omega
          rw [e]
          exact_mod_cast (Released.near_value hR.1 k1).1
      | calcUnbond u i y => simp [payee] at hp'
      | withdraw u i => simp [payee] at hp'
      | fund a d x => exact absurd rfl (hf a d x)
    · have hforce : inForceStep l true (.rewards c k) = l := by rcases e7 with rfl | ⟨y, rfl, -⟩ <;> rfl
      rw [hforce]
      intro cfg' hc
      rw [e10, e1] at hc; cases hc
      refine (hC' cfg e1).trans ?_
      rw [e8, Stake.settles_me e13]
      simp only [paidState, true_and, if_true]
      have : s.led.bal cfg.token me - (s.st.dist.withdrawable : Int) ≤
          s.led.bal cfg.token me + ((if u = me then x else 0) - x) - ((s.st.dist.withdrawable - x.toNat : Nat) : Int) := by
        split <;> omega
      exact_mod_cast this
    · have hne : s.st.admin ≠ me := by intro e; rw [e, hp] at e2; cases e2
      intro cfg' hc
      rw [e9] at hc ⊢
      simp only at hc ⊢
      rw [e1] at hc; cases hc
      have hb := Stake.settles_me (me := me) e10 cfg.token
      simp only [true_and, if_true, if_neg hne] at hb
      have hx : (x : ℚ) = x.toNat := by
        have : (x : Int) = (x.toNat : Int) := by omega
        exact_mod_cast congrArg (Int.cast : Int → ℚ) this
      have hf : (⟨a, c.now + d, x.toNat⟩ : Funding).locked c.now = x.toNat := by
        unfold Funding.locked; rw [if_pos (by exact e6)]
      have h1 := hC' cfg e1
      rw [hb]
      push_cast at h1 ⊢
      simp only [inForceStep, if_true, joins]
      split
      · simp only [allLocked, List.map_append, List.sum_append, List.map_cons, List.map_nil, List.sum_cons, List.sum_nil]
        rw [hf]
        unfold allLocked at h1
        linarith
      · simp only [allLocked, List.map_cons, List.map_nil, List.sum_cons, List.sum_nil]
        rw [hf]
        have := allLocked_nonneg hl c.now
        linarith

theorem run_cov {me : Addr} (ts : List Tx) (hp : ∀ t ∈ ts, Rewards.Spec.Possible me t) (hw : ∀ t ∈ ts, WellScheduled t)
    {s : Sys} {l : List Funding} {t0 now : Nat} (hts : (t0 :: ts.map (·.ctx.now)).Pairwise (· ≤ ·))
    (hnow : ∀ t ∈ ts, t.ctx.now ≤ now) (h0 : t0 ≤ now) (hI : Rewards.Inv me s) (hR : Released.Inv l s.st) (hC : Cov me l t0 s) :
    Cov me (inForceFrom me s l ts) now (Rewards.run me s ts) := by
  induction ts generalizing s l t0 with
  | nil => exact fun cfg hc => (allLocked_anti hR.1.2.1 h0).trans (hC cfg hc)
  | cons t ts ih =>
    have hp1 := hp t List.mem_cons_self
    have hw1 := hw t List.mem_cons_self
    simp only [List.map_cons] at hts
    have hle : t0 ≤ t.ctx.now := (List.pairwise_cons.mp hts).1 _ List.mem_cons_self
    refine ih (fun t h => hp t (List.mem_cons_of_mem _ h)) (fun t h => hw t (List.mem_cons_of_mem _ h))
      (List.pairwise_cons.mp hts).2 (fun t h => hnow t (List.mem_cons_of_mem _ h)) (hnow t List.mem_cons_self)
      (Rewards.exec_inv hp1 hI) ?_ ?_
    · cases h : Rewards.step me s t with
      | ok s' =>
        have h1 : Rewards.Spec.succeeds me s t = true := by simp [Rewards.Spec.succeeds, h, Except.toOption]
        have h2 : exec me s t = s' := by simp [exec, h]
        rw [h1, h2]
        exact Released.step_inv hw1 h hR
      | error e =>
        have h1 : Rewards.Spec.succeeds me s t = false := by simp [Rewards.Spec.succeeds, h, Except.toOption]
        have h2 : exec me s t = s := by simp [exec, h]
        have h3 : inForceStep l false t = l := by unfold inForceStep; split <;> rfl
        rw [h1, h2, h3]; exact hR
    · cases h : Rewards.step me s t with
      | ok s' =>
        have h1 : Rewards.Spec.succeeds me s t = true := by simp [Rewards.Spec.succeeds, h, Except.toOption]
        have h2 : exec me s t = s' := by simp [exec, h]
        rw [h1, h2]
        exact step_cov hp1 hw1 h hI hR hC hle
      | error e =>
        have h1 : Rewards.Spec.succeeds me s t = false := by simp [Rewards.Spec.succeeds, h, Except.toOption]
        have h2 : exec me s t = s := by simp [exec, h]
        have h3 : inForceStep l false t = l := by unfold inForceStep; split <;> rfl
        rw [h1, h2, h3]
        exact fun cfg hc => (allLocked_anti hR.1.2.1 hle).trans (hC cfg hc)

theorem pairwise_zero (l : List Nat) (h : l.Pairwise (· ≤ ·)) : (0 :: l).Pairwise (· ≤ ·) :=
  List.pairwise_cons.mpr ⟨fun _ _ => Nat.zero_le _, h⟩

/-- **C164** Whatever the announced schedules still lock, the contract reports as undistributed: no history of calls, with
clocks that never run backwards, pays out rewards before the schedules release them. -/
theorem C164_covered {me : Addr} {s : Sys} (h0 : Rewards.Spec.Genesis me s) (ts : List Tx)
    (hp : ∀ t ∈ ts, Rewards.Spec.Possible me t) (hw : ∀ t ∈ ts, WellScheduled t)
    (hclock : (ts.map (·.ctx.now)).Pairwise (· ≤ ·)) {now : Nat} (hnow : ∀ t ∈ ts, t.ctx.now ≤ now) {cfg : Config}
    (hc : queryConfig (Rewards.run me s ts).st = .ok cfg) {U : Nat}
    (hU : queryUndistributed me (Rewards.run me s ts).st (Rewards.run me s ts).led cfg.token = .ok U) :
    allLocked (inForce me s ts) now ≤ U := by
  have hcfg0 : s.st.cfg = none := by rw [h0.1]; rfl
  have h := run_cov (now := now) ts hp hw (pairwise_zero _ hclock) hnow (Nat.zero_le _) (Rewards.genesis_inv h0) (l := [])
    ⟨by rw [h0.1]; exact Released.near_nil, fun _ => rfl⟩ (fun cfg hc => by rw [hcfg0] at hc; cases hc) cfg (getConfig_ok.mp hc)
  unfold queryUndistributed at hU
  simp only [bind_ok, getConfig_ok, req_ok, toU128_ok, subU_ok] at hU
  obtain ⟨_, -, _, -, x, p1, p2, rfl⟩ := hU
  have e : (Rewards.run me s ts).led.bal cfg.token me - ((Rewards.run me s ts).st.dist.withdrawable : Int) =
      ((x - (Rewards.run me s ts).st.dist.withdrawable : Nat) : Int) := by omega
  rw [e] at h
  exact_mod_cast h

/-- a schedule of moderate amounts can be evaluated -/
theorem value_works {k : Curve} (hw : WellFormed k) (V T : Nat) (hV : ∀ s ∈ stepsOf k, s.value ≤ V ∧ s.time ≤ T)
    (hVT : V * T < U128_LIM) (hVL : V < U128_LIM) (t : Nat) : ∃ v, k.value t = .ok v := by
  have seg : ∀ p n : Step, p.value ≤ V → n.value ≤ V → n.time ≤ T → p.time < n.time → p.time ≤ t → t ≤ n.time →
      ∃ v, interpolate p.time p.value n.time n.value t = .ok v := by
    intro p n h1 h2 h3 h4 h5 h6
    refine interpolate_succeeds h5 h6 h4 (by omega) ?_ ?_
    · exact lt_of_le_of_lt (Nat.mul_le_mul (by omega) (by omega)) hVT
    · exact lt_of_le_of_lt (Nat.mul_le_mul (by omega) (by omega)) hVT
  cases k with
  | constant y => exact ⟨y, rfl⟩
  | sl a b c d =>
    simp only [value, slValue]
    split
    · exact ⟨b, rfl⟩
    · split
      · exact ⟨d, rfl⟩
      · simp only [Phoenix.Spec.WellFormed] at hw
        simp [stepsOf] at hV
        exact seg ⟨a, b⟩ ⟨c, d⟩ hV.1.1 hV.2.1 hV.2.2 hw (by simp; omega) (by simp; omega)
  | pl l =>
    obtain ⟨hne, hs⟩ := hw
    cases l with
    | nil => simp at hne
    | cons a l =>
      simp only [stepsOf] at hV
      simp only [value]
      rw [plValue_eq hs]
      split
      · exact ⟨_, rfl⟩
      · by_cases e : (lastStep a l).time ≤ t
        · exact ⟨_, plScan_after hs e⟩
        · obtain ⟨p, hp, n, hn, k1, k2, k3, k4⟩ := plScan_segment hs (x := t) (by omega) (by omega)
          rw [k4]
          exact seg p n (hV p hp).1 (hV n hn).1 (hV n hn).2 (by omega) k1 k2.le

theorem near_evaluates {l : List Funding} {k : Curve} (h : Near l k) (hsum : (l.map (·.amount)).sum + l.length ≤ 10 ^ 19)
    (hstop : ∀ f ∈ l, f.stop ≤ 10 ^ 19) (t : Nat) : ∃ v, k.value t = .ok v := by
  obtain ⟨hc, hl, ⟨B, hB⟩, hs⟩ := h
  rcases hc with ⟨rfl, -⟩ | ⟨hn, hm, e, he, heD, hle⟩
  · exact ⟨0, rfl⟩
  · have hne : l ≠ [] := by rintro rfl; simp [datesOf] at heD
    refine value_works hB.wf (10 ^ 19) (10 ^ 19) (fun st hst => ⟨?_, ?_⟩) (by simp only [U128_LIM]; norm_num)
      (by simp only [U128_LIM]; norm_num) t
    · have h1 := exactPL_at (stepsOf_sorted hB.wf).2 hst
      have h2 := (hs hne st.time).2
      have h3 : allLocked l st.time ≤ (l.map fun f => (f.amount : ℚ)).sum :=
        allLocked_le fun f hf => (locked_between (hl f hf) st.time).2
      have h4 : (l.map fun f => (f.amount : ℚ)).sum = ((l.map (·.amount)).sum : ℕ) := by
        push_cast; rw [List.map_map]; rfl
      have h5 : (((l.map (·.amount)).sum : ℕ) : ℚ) + l.length ≤ (10 ^ 19 : ℕ) := by exact_mod_cast hsum
      have h6 : (st.value : ℚ) ≤ (10 ^ 19 : ℕ) := by linarith
      exact_mod_cast h6
    · obtain ⟨f, hf, e | e⟩ := mem_datesOf.mp ((hm st.time).mpr ⟨st, hst, rfl⟩)
      · rw [e]; exact (hl f hf).le.trans (hstop f hf)
      · rw [e]; exact hstop f hf

/-- **C164** In the middle of the schedules a distribution is accepted, if what is undistributed exceeds what the announced
schedules still lock by a unit per funding in force (and the amounts are moderate).  So the refusal of C87, right after a
funding, does not last: it ends at the latest when the schedules have released these few units. -/
theorem C164_accepted {me : Addr} {s : Sys} (h0 : Rewards.Spec.Genesis me s) (ts : List Tx)
    (ht : ∀ t ∈ ts, Rewards.Spec.Possible me t) (hw : ∀ t ∈ ts, WellScheduled t) {c : Ctx} {T : Int} {cfg : Config} {D U : Nat}
    (hc : queryConfig (Rewards.run me s ts).st = .ok cfg) (hD : queryDistributed (Rewards.run me s ts).st cfg.token = .ok D)
    (hU : queryUndistributed me (Rewards.run me s ts).st (Rewards.run me s ts).led cfg.token = .ok U)
    (hlock : allLocked (inForce me s ts) c.now + (inForce me s ts).length ≤ U)
    (hsum : ((inForce me s ts).map (·.amount)).sum + (inForce me s ts).length ≤ 10 ^ 19)
    (hstop : ∀ f ∈ inForce me s ts, f.stop ≤ 10 ^ 19)
    (hD' : D ≤ 10 ^ 20) (ha : c.auth cfg.staking = true) (hT : 0 ≤ T) (hT' : T ≤ 10 ^ 18)
    (hb : (Rewards.run me s ts).led.bal cfg.token me ≤ 10 ^ 20) :
    ∃ s', Rewards.step me (Rewards.run me s ts) (.rewards c (.distribute T)) = .ok s' := by
  have hR := Released.reach h0 ts hw
  obtain ⟨w, hv⟩ := near_evaluates hR.1 hsum hstop c.now
  have hwU : w ≤ U := by
    rcases (Released.near_value hR.1 hv).2 with rfl | h
    · omega
    · have : (w : ℚ) < U := lt_of_lt_of_le h hlock
      exact_mod_cast this.le
  have hI := Rewards.run_inv ts ht (Rewards.genesis_inv h0)
  have hS := run_sinv ts ht (Rewards.genesis_inv h0) (genesis_sinv h0)
  obtain ⟨hc', rfl⟩ := distributed_val hc hD
  generalize inForce me s ts = l at *
  generalize Rewards.run me s ts = z at *
  have hsol := hI.solv cfg hc'
  have h1 := hS.spp
  have h2 := hS.paid 0
  have hw0 := weight_nonneg (mb := cfg.minBond) hT
  have hUv : U = (z.led.bal cfg.token me).toNat - z.st.dist.withdrawable := by
    unfold queryUndistributed at hU
    simp only [bind_ok, getConfig_ok, req_ok, toU128_ok, subU_ok] at hU
    obtain ⟨_, -, _, -, x, p1, p2, rfl⟩ := hU
    omega
  have hun : unlocked me c cfg z.st z.led = .ok (U - w) := by
    unfold unlocked
    simp only [bind_ok, toU128_ok, subU_ok]
    exact ⟨(z.led.bal cfg.token me).toNat, by omega, w, hv, _, ⟨by omega, rfl⟩, by omega, by omega⟩
  have hd : ∃ v, distribute me c z.st z.led T = .ok v := by
    unfold distribute
    simp only [bind_ok, getConfig_ok, requireAuth_ok, toU128_ok, power_works hT hT']
    by_cases hz : (weight cfg.minBond T).toNat = 0
    · exact ⟨z.st, cfg, hc', (), ha, _, rfl, (weight cfg.minBond T).toNat, by omega, by rw [if_pos hz]⟩
    · by_cases hx : U - w = 0
      · refine ⟨z.st, cfg, hc', (), ha, _, rfl, (weight cfg.minBond T).toNat, by omega, ?_⟩
        rw [if_neg hz]
        simp only [bind_ok]
        exact ⟨_, hun, by rw [if_pos hx]⟩
      · have hho : ∃ d, handOut z.st.dist (U - w) (weight cfg.minBond T).toNat = .ok d := by
          have hX' : U - w ≤ 10 ^ 20 := by omega
          have hX2 : (U - w : Nat) + z.st.dist.withdrawable ≤ 10 ^ 20 := by omega
          generalize U - w = X at *
          unfold handOut
          simp only [bind_ok, add128_ok, divU_ok]
          have hmod : X * 4294967296 % U128_LIM ≤ X * 4294967296 := Nat.mod_le _ _
          have hdiv : (X * 4294967296 % U128_LIM + z.st.dist.leftover) / (weight cfg.minBond T).toNat ≤
            X * 4294967296 % U128_LIM + z.st.dist.leftover := Nat.div_le_self _ _
          generalize X * 4294967296 % U128_LIM = Y at *
          generalize hQ : (Y + z.st.dist.leftover) / (weight cfg.minBond T).toNat = Q at *
          exact ⟨_, _, ⟨by simp only [U128_LIM]; omega, rfl⟩, Q, ⟨hz, hQ⟩, _, ⟨by simp only [U128_LIM]; omega, rfl⟩, _,
            ⟨by simp only [U128_LIM]; omega, rfl⟩, _, ⟨by simp only [U128_LIM]; omega, rfl⟩, rfl⟩
        obtain ⟨d, hho⟩ := hho
        refine ⟨{ z.st with dist := d }, cfg, hc', (), ha, _, rfl, (weight cfg.minBond T).toNat, by omega, ?_⟩
        rw [if_neg hz]
        simp only [bind_ok]
        refine ⟨_, hun, ?_⟩
        rw [if_neg hx]
        simp only [bind_ok]
        exact ⟨d, hho, rfl⟩
  obtain ⟨v, hd⟩ := hd
  refine ⟨{ z with st := v }, ?_⟩
  simp only [Rewards.step, bind_ok]
  exact ⟨v, hd, rfl⟩

/-- **C164** In particular: in a history whose clocks never run backwards, a distribution is accepted whenever, since the last
transaction, the announced schedules have released a unit per funding in force. -/
theorem C164_soon {me : Addr} {s : Sys} (h0 : Rewards.Spec.Genesis me s) (ts : List Tx)
    (ht : ∀ t ∈ ts, Rewards.Spec.Possible me t) (hw : ∀ t ∈ ts, WellScheduled t)
    (hclock : (ts.map (·.ctx.now)).Pairwise (· ≤ ·)) {now : Nat} (hnow : ∀ t ∈ ts, t.ctx.now ≤ now)
    {c : Ctx} {T : Int} {cfg : Config} {D : Nat}
    (hc : queryConfig (Rewards.run me s ts).st = .ok cfg) (hD : queryDistributed (Rewards.run me s ts).st cfg.token = .ok D)
    (hlock : allLocked (inForce me s ts) c.now + (inForce me s ts).length ≤ allLocked (inForce me s ts) now)
    (hsum : ((inForce me s ts).map (·.amount)).sum + (inForce me s ts).length ≤ 10 ^ 19)
    (hstop : ∀ f ∈ inForce me s ts, f.stop ≤ 10 ^ 19)
    (hD' : D ≤ 10 ^ 20) (ha : c.auth cfg.staking = true) (hT : 0 ≤ T) (hT' : T ≤ 10 ^ 18)
    (hb : (Rewards.run me s ts).led.bal cfg.token me ≤ 10 ^ 20) :
    ∃ s', Rewards.step me (Rewards.run me s ts) (.rewards c (.distribute T)) = .ok s' := by
  have hc' := getConfig_ok.mp hc
  have hsol := (Rewards.run_inv ts ht (Rewards.genesis_inv h0)).solv cfg hc'
  have hU : queryUndistributed me (Rewards.run me s ts).st (Rewards.run me s ts).led cfg.token =
      .ok (((Rewards.run me s ts).led.bal cfg.token me).toNat - (Rewards.run me s ts).st.dist.withdrawable) := by
    unfold queryUndistributed
    simp only [bind_ok, getConfig_ok, req_ok, toU128_ok, subU_ok]
    exact ⟨cfg, hc', (), rfl, ((Rewards.run me s ts).led.bal cfg.token me).toNat, by omega, by omega, rfl⟩
  exact C164_accepted h0 ts ht hw hc hD hU (hlock.trans (C164_covered h0 ts ht hw hclock hnow hc hU)) hsum hstop hD' ha hT hT' hb

/-! The history of C87: 100 from second 0 to second 7, a distribution in second 4, then in the same second a funding of 1000
until second 14, after which a distribution in second 4 is refused. -/
def exBlocked : List Tx :=
  rLate.take 2 ++ [.rewards (rAt 9 0) (.fund 0 7 100), .rewards (rAt 1 4) (.distribute 10000), .rewards (rAt 9 4) (.fund 5 10 1000)]

theorem exBlocked_possible : ∀ t ∈ exBlocked, Rewards.Spec.Possible 100 t := by
  intro t ht
  simp only [exBlocked, rLate, List.take, List.cons_append, List.nil_append, List.mem_cons, List.not_mem_nil, or_false] at ht
  rcases ht with rfl | rfl | rfl | rfl | rfl <;> simp [Rewards.Spec.Possible, Tx.ctx] <;> decide

theorem exBlocked_scheduled : ∀ t ∈ exBlocked, WellScheduled t := by
  intro t ht
  simp only [exBlocked, rLate, List.take, List.cons_append, List.nil_append, List.mem_cons, List.not_mem_nil, or_false] at ht
  rcases ht with rfl | rfl | rfl | rfl | rfl <;> simp [WellScheduled, rAt]

theorem exBlocked_inForce : inForce 100 rExStart exBlocked = [⟨0, 7, 100⟩, ⟨5, 14, 1000⟩] := by decide +kernel

theorem exBlocked_config : queryConfig (Rewards.run 100 rExStart exBlocked).st = .ok ⟨50, 40, 10, 1, 1000⟩ := by decide +kernel

/-- one second later the distribution is accepted -/
example : Rewards.Spec.succeeds 100 (Rewards.run 100 rExStart exBlocked) (.rewards (rAt 1 4) (.distribute 10000)) = false ∧
    ∃ s', Rewards.step 100 (Rewards.run 100 rExStart exBlocked) (.rewards (rAt 1 5) (.distribute 10000)) = .ok s' := by
  refine ⟨by decide +kernel, ?_⟩
  have hI := exBlocked_inForce
  refine C164_soon (D := 57) rExStart_genesis exBlocked exBlocked_possible exBlocked_scheduled (by decide) (now := 4) (by decide)
    exBlocked_config (by decide +kernel) ?_ ?_ ?_ (by norm_num) (by decide) (by norm_num) (by norm_num) (by decide +kernel)
  · rw [hI]; norm_num [allLocked, Funding.locked, rAt]
  · rw [hI]; norm_num
  · rw [hI]; simp

/-- what is locked in second 4, three sevenths of the first funding and all of the second, is there -/
example : allLocked (inForce 100 rExStart exBlocked) 4 = 1000 + 300 / 7 ∧
    queryUndistributed 100 (Rewards.run 100 rExStart exBlocked).st (Rewards.run 100 rExStart exBlocked).led 40 = .ok 1043 := by
  refine ⟨?_, by decide +kernel⟩
  rw [exBlocked_inForce]; norm_num [allLocked, Funding.locked]

example : allLocked (inForce 100 rExStart exBlocked) 4 ≤ (1043 : ℕ) :=
  C164_covered rExStart_genesis exBlocked exBlocked_possible exBlocked_scheduled (by decide) (by decide) exBlocked_config
    (by decide +kernel)

end Phoenix.Props.Covered
