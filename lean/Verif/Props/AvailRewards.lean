import Verif.Lemmas.RewardsLive
import Verif.Props.Rewards
/-!
C127: which calls the reward distribution contract accepts.  As long as the staking contract
reports truthfully and the amounts are moderate, no report of the staking contract is ever
refused, so the reward contract never blocks staking, unstaking or the payment of rewards.
Without a bound on the amounts this is false.
-/
namespace Phoenix.Props
open Phoenix Rewards Rewards.Spec
open Phoenix.Stake (Info Entry)
open Phoenix.Spec (Settles SameRights Flow NoAllowance)

/-- what is used of a history -/
theorem live_facts {me : Addr} {s : Sys} (h0 : Rewards.Spec.Genesis me s) (ts : List Tx)
    (ht : ∀ t ∈ ts, Rewards.Spec.Possible me t) (hh : HonestRun me (fun _ => 0) s ts) :
    Inv me (Rewards.run me s ts) ∧ SInv (Rewards.run me s ts).st ∧
      HInv (bookAfter me (fun _ => 0) s ts) (Rewards.run me s ts).st :=
  ⟨run_inv ts ht (Rewards.genesis_inv h0), run_sinv ts ht (Rewards.genesis_inv h0) (genesis_sinv h0),
    run_hinv ts ht (Rewards.genesis_inv h0) hh (genesis_hinv h0)⟩

theorem distributed_val {s : State} {cfg : Config} {D : Nat} (hc : queryConfig s = .ok cfg)
    (hD : queryDistributed s cfg.token = .ok D) : s.cfg = some cfg ∧ s.dist.distributed = D := by
  unfold queryDistributed at hD
  simp only [bind_ok, req_ok, ok_inj] at hD
  obtain ⟨_, _, _, _, h⟩ := hD
  exact ⟨getConfig_ok.mp hc, h⟩

/-- **C127** The contract can be initialized, by anybody and with any arguments, if and only if
it has no configuration yet. -/
theorem C127_init_iff {me : Addr} {s : Sys} {c : Ctx} {a st tok : Addr} {mc : Nat} {mr mb : Int} :
    Rewards.Spec.succeeds me s (.rewards c (.init a st tok mc mr mb)) = true ↔ ∀ cfg, queryConfig s.st ≠ .ok cfg := by
  unfold Rewards.Spec.succeeds
  simp only [queryConfig, ne_eq, getConfig_ok]
  cases hs : s.st.cfg with
  | none =>
    have : ∃ x, Rewards.step me s (.rewards c (.init a st tok mc mr mb)) = .ok x := by
      simp only [Rewards.step, init, bind_ok, req_ok, hs]
      exact ⟨_, _, ⟨(), trivial, rfl⟩, rfl⟩
    obtain ⟨x, hx⟩ := this
    rw [hx]; simp [Except.toOption]
  | some cfg =>
    have : ∀ x, Rewards.step me s (.rewards c (.init a st tok mc mr mb)) ≠ .ok x := by
      intro x hx
      simp only [Rewards.step, bind_ok] at hx
      obtain ⟨v, hv, -⟩ := hx
      have := (init_inv hv).1
      rw [hs] at this; simp at this
    cases hx : Rewards.step me s (.rewards c (.init a st tok mc mr mb)) with
    | ok x => exact absurd hx (this x)
    | error e => simp [Except.toOption]

/-- **C127** With truthful reports so far and moderate amounts, the staking contract can always
report a new user. -/
theorem C127_add_user_accepted {me : Addr} {s : Sys} (h0 : Rewards.Spec.Genesis me s) (ts : List Tx)
    (ht : ∀ t ∈ ts, Rewards.Spec.Possible me t) (hh : HonestRun me (fun _ => 0) s ts) {cfg : Config} {D : Nat} {S : Int}
    (hc : queryConfig (Rewards.run me s ts).st = .ok cfg) (hD : queryDistributed (Rewards.run me s ts).st cfg.token = .ok D)
    (hm : Moderate D S) {c : Ctx} (ha : c.auth cfg.staking = true) {u : Addr} {i : Info}
    (hr : Honest (bookAfter me (fun _ => 0) s ts) (.rewards c (.addUser u i))) (hS : i.total ≤ S) :
    ∃ s', Rewards.step me (Rewards.run me s ts) (.rewards c (.addUser u i)) = .ok s' := by
  obtain ⟨hI, hs, hb⟩ := live_facts h0 ts ht hh
  obtain ⟨hc', rfl⟩ := distributed_val hc hD
  generalize Rewards.run me s ts = z at *
  generalize bookAfter me (fun _ => 0) s ts = b at *
  obtain ⟨r1, r2⟩ := hr
  obtain ⟨-, k2, v, k3⟩ := restake_works (u := u) (n := i.total) hs hb hc' hm (by omega) r2 hS
  rw [r1, weight_zero] at k3
  refine ⟨{ z with st := v }, ?_⟩
  simp only [Rewards.step, bind_ok, Rewards.addUser, getConfig_ok, requireAuth_ok]
  exact ⟨v, ⟨cfg, hc', (), ha, _, k2, k3⟩, rfl⟩

/-- **C127** … it can always report a further stake … -/
theorem C127_bond_accepted {me : Addr} {s : Sys} (h0 : Rewards.Spec.Genesis me s) (ts : List Tx)
    (ht : ∀ t ∈ ts, Rewards.Spec.Possible me t) (hh : HonestRun me (fun _ => 0) s ts) {cfg : Config} {D : Nat} {S : Int}
    (hc : queryConfig (Rewards.run me s ts).st = .ok cfg) (hD : queryDistributed (Rewards.run me s ts).st cfg.token = .ok D)
    (hm : Moderate D S) {c : Ctx} (ha : c.auth cfg.staking = true) {u : Addr} {i : Info} {e : Entry}
    (he : i.stakes.getLast? = some e)
    (hr : Honest (bookAfter me (fun _ => 0) s ts) (.rewards c (.calcBond u i))) (hS : i.total + e.amount ≤ S) :
    ∃ s', Rewards.step me (Rewards.run me s ts) (.rewards c (.calcBond u i)) = .ok s' := by
  obtain ⟨hI, hs, hb⟩ := live_facts h0 ts ht hh
  obtain ⟨hc', rfl⟩ := distributed_val hc hD
  generalize Rewards.run me s ts = z at *
  generalize bookAfter me (fun _ => 0) s ts = b at *
  obtain ⟨r1, r2⟩ := hr
  have r3 := r2 e he
  have r4 := hb.nonneg u
  obtain ⟨k1, k2, v, k3⟩ := restake_works (u := u) (n := i.total + e.amount) hs hb hc' hm (by omega) (by omega) hS
  rw [← r1] at k1 k3
  refine ⟨{ z with st := v }, ?_⟩
  simp only [Rewards.step, bind_ok, Rewards.calcBond, getConfig_ok, requireAuth_ok, lastEntry_ok, addI_ok]
  obtain ⟨m1, m2, m3⟩ := hm
  exact ⟨v, ⟨cfg, hc', (), ha, e, he, _, k1, _, ⟨by simp only [InI128, I128_MIN, I128_MAX]; omega, rfl⟩, _, k2, k3⟩, rfl⟩

/-- **C127** … the query of a user's reward always answers … -/
theorem C127_query_answers {me : Addr} {s : Sys} (h0 : Rewards.Spec.Genesis me s) (ts : List Tx)
    (ht : ∀ t ∈ ts, Rewards.Spec.Possible me t) (hh : HonestRun me (fun _ => 0) s ts) {cfg : Config} {D : Nat} {S : Int}
    (hc : queryConfig (Rewards.run me s ts).st = .ok cfg) (hD : queryDistributed (Rewards.run me s ts).st cfg.token = .ok D)
    (hm : Moderate D S) {c : Ctx} {u : Addr} {i : Info} (hi : i.total = bookAfter me (fun _ => 0) s ts u)
    (hw : Rewards.Spec.WellFormed c.now i) (hS : i.total ≤ S) :
    ∃ r, queryWithdrawable c (Rewards.run me s ts).st u i = .ok r := by
  obtain ⟨hI, hs, hb⟩ := live_facts h0 ts ht hh
  obtain ⟨hc', rfl⟩ := distributed_val hc hD
  exact query_works hs hb hc' hm (by omega) hi hw

/-- **C127** … a user's reward can always be paid (if the user's balance has room for it) … -/
theorem C127_withdraw_accepted {me : Addr} {s : Sys} (h0 : Rewards.Spec.Genesis me s) (ts : List Tx)
    (ht : ∀ t ∈ ts, Rewards.Spec.Possible me t) (hh : HonestRun me (fun _ => 0) s ts) {cfg : Config} {D : Nat} {S : Int}
    (hc : queryConfig (Rewards.run me s ts).st = .ok cfg) (hD : queryDistributed (Rewards.run me s ts).st cfg.token = .ok D)
    (hm : Moderate D S) {c : Ctx} (ha : c.auth cfg.staking = true) {u : Addr} {i : Info} (hu : u ≠ me)
    (hr : Honest (bookAfter me (fun _ => 0) s ts) (.rewards c (.withdraw u i)))
    (hw : Rewards.Spec.WellFormed c.now i) (hS : i.total ≤ S)
    (hb : (Rewards.run me s ts).led.bal cfg.token me ≤ I128_MAX)
    (hb' : (Rewards.run me s ts).led.bal cfg.token u + D ≤ I128_MAX) :
    ∃ s', Rewards.step me (Rewards.run me s ts) (.rewards c (.withdraw u i)) = .ok s' := by
  have hr' : i.total = bookAfter me (fun _ => 0) s ts u := hr
  obtain ⟨r, hq⟩ := C127_query_answers h0 ts ht hh hc hD hm hr' hw hS
  obtain ⟨hI, hs, hB⟩ := live_facts h0 ts ht hh
  have hle : (r : Int) ≤ D := by
    obtain ⟨cfg', k1, k2⟩ := queryWithdrawable_inv hq
    obtain ⟨hc', e⟩ := distributed_val hc hD
    rw [hc'] at k1; cases k1
    obtain ⟨f, k3, -, -, -, k4⟩ := payable_inv k2
    have h1 := pts_small hs hB hc' u
    have h2 := (claim_inv k3).2
    rw [hr'] at h2
    unfold pts at h1
    omega
  obtain ⟨s', h, -⟩ := C85_query_then_withdraw h0 ts ht hh hu hr' hc ha hq hb (by omega)
  exact ⟨s', h⟩

/-- **C127** … and the removal of a stake can always be reported, with the user's approval. -/
theorem C127_unbond_accepted {me : Addr} {s : Sys} (h0 : Rewards.Spec.Genesis me s) (ts : List Tx)
    (ht : ∀ t ∈ ts, Rewards.Spec.Possible me t) (hh : HonestRun me (fun _ => 0) s ts) {cfg : Config} {D : Nat} {S : Int}
    (hc : queryConfig (Rewards.run me s ts).st = .ok cfg) (hD : queryDistributed (Rewards.run me s ts).st cfg.token = .ok D)
    (hm : Moderate D S) {c : Ctx} (ha : c.auth cfg.staking = true) {u : Addr} (hau : c.auth u = true) {i : Info} {y : Int}
    (hu : u ≠ me) (hr : Honest (bookAfter me (fun _ => 0) s ts) (.rewards c (.calcUnbond u i y)))
    (hw : Rewards.Spec.WellFormed c.now i) (hS : i.total ≤ S)
    (hb : (Rewards.run me s ts).led.bal cfg.token me ≤ I128_MAX)
    (hb' : (Rewards.run me s ts).led.bal cfg.token u + D ≤ I128_MAX) :
    ∃ s', Rewards.step me (Rewards.run me s ts) (.rewards c (.calcUnbond u i y)) = .ok s' := by
  obtain ⟨hr1, hr2, hr3⟩ := hr
  obtain ⟨r, hq⟩ := C127_query_answers h0 ts ht hh hc hD hm hr1 hw hS
  obtain ⟨sw, hsw⟩ := C127_withdraw_accepted h0 ts ht hh hc hD hm ha hu (i := i) hr1 hw hS hb hb'
  obtain ⟨hI, hs, hB⟩ := live_facts h0 ts ht hh
  obtain ⟨hc', rfl⟩ := distributed_val hc hD
  have hsB := step_hinv hsw hI (b := bookAfter me (fun _ => 0) s ts) hr1 hB
  have hsS := step_sinv hsw hI hs
  generalize Rewards.run me s ts = z at *
  have hbk : book me (bookAfter me (fun _ => 0) s ts) z (.rewards c (.withdraw u i)) = bookAfter me (fun _ => 0) s ts := by
    unfold book; split <;> rfl
  rw [hbk] at hsB
  generalize bookAfter me (fun _ => 0) s ts = b at *
  simp only [Rewards.step, bind_ok, ok_inj] at hsw
  obtain ⟨⟨v, L⟩, hwd, rfl⟩ := hsw
  obtain ⟨cfg', x, e1, -, e3, e4, -, rfl, -, -, -⟩ := withdraw_inv hwd
  rw [hc'] at e1; cases e1
  have hia : withdrawIfAny me c z.st z.led u i = .ok (paidState z.st u x, L) ∨
      (x = 0 ∧ withdrawIfAny me c z.st z.led u i = .ok (z.st, z.led)) := by
    unfold withdrawIfAny
    simp only [bind_ok]
    by_cases hz : r ≠ 0
    · exact .inl ⟨r, hq, by rw [if_pos hz]; exact hwd⟩
    · obtain ⟨cfg', k1, k2⟩ := queryWithdrawable_inv hq
      rw [hc'] at k1; cases k1
      rw [k2, ok_inj] at e3
      exact .inr ⟨by omega, r, hq, by rw [if_neg hz]⟩
  have hno := hB.nonneg u
  have hmm := hm
  obtain ⟨m1, m2, m3⟩ := hmm
  have fin : ∀ w L', withdrawIfAny me c z.st z.led u i = .ok (w, L') → HInv b w → SInv w → w.cfg = some cfg →
      w.dist.distributed = z.st.dist.distributed →
      ∃ s', Rewards.step me z (.rewards c (.calcUnbond u i y)) = .ok s' := by
    intro w L' hw' hB' hS' hcw hdw
    obtain ⟨k1, k2, v, k3⟩ := restake_works (u := u) (n := i.total - y) hS' hB' hcw (by rw [hdw]; exact hm) (by omega)
      (by omega) (by omega)
    rw [← hr1] at k1 k3
    refine ⟨⟨v, L'⟩, ?_⟩
    simp only [Rewards.step, bind_ok, Rewards.calcUnbond, getConfig_ok, requireAuth_ok, subI_ok]
    exact ⟨(v, L'), ⟨(), hau, cfg, hc', (), ha, (w, L'), hw', _, k1, _,
      ⟨by simp only [InI128, I128_MIN, I128_MAX]; omega, rfl⟩, _, k2, v, k3, rfl⟩, rfl⟩
  rcases hia with hia | ⟨-, hia⟩
  · exact fin _ _ hia hsB hsS hc' rfl
  · exact fin _ _ hia hB hs hc' rfl

/-- **C127** After the end of every funded schedule (each of which ends after it starts), rewards
can always be distributed, if the contract holds at most 10^20. -/
theorem C127_distribute_accepted {me : Addr} {s : Sys} (h0 : Rewards.Spec.Genesis me s) (ts : List Tx)
    (ht : ∀ t ∈ ts, Rewards.Spec.Possible me t) (hw : ∀ t ∈ ts, WellScheduled t) {c : Ctx} {T : Int}
    (hend : ∀ c' a d x, Tx.rewards c' (.fund a d x) ∈ ts → c'.now + d < c.now) (hnow : 0 < c.now) {cfg : Config} {D : Nat}
    (hc : queryConfig (Rewards.run me s ts).st = .ok cfg) (hD : queryDistributed (Rewards.run me s ts).st cfg.token = .ok D)
    (hD' : D ≤ 10 ^ 20) (ha : c.auth cfg.staking = true) (hT : 0 ≤ T) (hT' : T ≤ 10 ^ 18)
    (hb : (Rewards.run me s ts).led.bal cfg.token me ≤ 10 ^ 20) :
    ∃ s', Rewards.step me (Rewards.run me s ts) (.rewards c (.distribute T)) = .ok s' := by
  have hs : Sched (c.now - 1) (Rewards.run me s ts).st.curve := by
    refine run_sched ts hw (fun c' a d x h' => ?_) (by rw [h0.1]; exact sched_zero _)
    have := hend c' a d x h'
    omega
  have hv := sched_after hs (show c.now - 1 < c.now by omega)
  have hI := run_inv ts ht (Rewards.genesis_inv h0)
  have hS := run_sinv ts ht (Rewards.genesis_inv h0) (genesis_sinv h0)
  obtain ⟨hc', rfl⟩ := distributed_val hc hD
  generalize Rewards.run me s ts = z at *
  have hsol := hI.solv cfg hc'
  have h1 := hS.spp
  have h2 := hS.paid 0
  have hw0 := weight_nonneg (mb := cfg.minBond) hT
  have hun : unlocked me c cfg z.st z.led = .ok ((z.led.bal cfg.token me).toNat - z.st.dist.withdrawable) := by
    unfold unlocked
    simp only [bind_ok, toU128_ok, subU_ok]
    exact ⟨(z.led.bal cfg.token me).toNat, by omega, 0, hv, _, ⟨by omega, rfl⟩, by omega, by omega⟩
  have hd : ∃ v, distribute me c z.st z.led T = .ok v := by
    unfold distribute
    simp only [bind_ok, getConfig_ok, requireAuth_ok, toU128_ok, power_works hT hT']
    by_cases hz : (weight cfg.minBond T).toNat = 0
    · exact ⟨z.st, cfg, hc', (), ha, _, rfl, (weight cfg.minBond T).toNat, by omega, by rw [if_pos hz]⟩
    · by_cases hx : (z.led.bal cfg.token me).toNat - z.st.dist.withdrawable = 0
      · refine ⟨z.st, cfg, hc', (), ha, _, rfl, (weight cfg.minBond T).toNat, by omega, ?_⟩
        rw [if_neg hz]
        simp only [bind_ok]
        exact ⟨_, hun, by rw [if_pos hx]⟩
      · have hho : ∃ d, handOut z.st.dist ((z.led.bal cfg.token me).toNat - z.st.dist.withdrawable) (weight cfg.minBond T).toNat = .ok d := by
          generalize hX : (z.led.bal cfg.token me).toNat - z.st.dist.withdrawable = X at *
          have hX' : X ≤ 10 ^ 20 := by omega
          unfold handOut
          simp only [bind_ok, add128_ok, divU_ok]
          have hmod : X * 4294967296 % U128_LIM ≤ X * 4294967296 := Nat.mod_le _ _
          have hdiv : (X * 4294967296 % U128_LIM + z.st.dist.leftover) / (weight cfg.minBond T).toNat ≤
            X * 4294967296 % U128_LIM + z.st.dist.leftover := Nat.div_le_self _ _
          generalize X * 4294967296 % U128_LIM = Y at *
          generalize hQ : (Y + z.st.dist.leftover) / (weight cfg.minBond T).toNat = Q at *
          exact ⟨_, _, ⟨by simp only [U128_LIM]; omega, rfl⟩, Q, ⟨hz, hQ⟩, _, ⟨by simp only [U128_LIM]; omega, rfl⟩, _,
            ⟨by simp only [U128_LIM]; omega, rfl⟩, _, ⟨by simp only [U128_LIM]; omega, rfl⟩, rfl⟩
        obtain ⟨d, hho⟩ := hho
        refine ⟨{ z.st with dist := d }, cfg, hc', (), ha, _, rfl, (weight cfg.minBond T).toNat, by omega, ?_⟩
        rw [if_neg hz]
        simp only [bind_ok]
        refine ⟨_, hun, ?_⟩
        rw [if_neg hx]
        simp only [bind_ok]
        exact ⟨d, hho, rfl⟩
  obtain ⟨v, hd⟩ := hd
  refine ⟨{ z with st := v }, ?_⟩
  simp only [Rewards.step, bind_ok]
  exact ⟨v, hd, rfl⟩

/-- **C127** After the end of every funded schedule, exactly the following fundings are accepted:
signed by the administrator, approved by the staking contract, not starting in the past, of at
least the minimum, and one the administrator can pay. -/
theorem C127_fund_iff {me : Addr} {s : Sys} (h0 : Rewards.Spec.Genesis me s) (ts : List Tx)
    (ht : ∀ t ∈ ts, Rewards.Spec.Possible me t) (hw : ∀ t ∈ ts, WellScheduled t) {c : Ctx} (hme : c.auth me = false)
    (hend : ∀ c' a d x, Tx.rewards c' (.fund a d x) ∈ ts → c'.now + d < c.now) (hnow : 0 < c.now) {cfg : Config} {admin : Addr}
    (hc : queryConfig (Rewards.run me s ts).st = .ok cfg) (hadm : queryAdmin (Rewards.run me s ts).st = .ok admin)
    (hcx : 2 ≤ cfg.maxComplexity) (hr : (Rewards.run me s ts).led.bal cfg.token admin ≤ I128_MAX)
    {a d : Nat} (hd : c.now + d < U64_LIM) {x : Int} :
    (∃ s', Rewards.step me (Rewards.run me s ts) (.rewards c (.fund a d x)) = .ok s') ↔
      c.signed admin = true ∧ c.auth cfg.staking = true ∧ c.now ≤ a ∧ cfg.minReward ≤ x ∧ 0 ≤ x ∧
      x ≤ (Rewards.run me s ts).led.bal cfg.token admin ∧ (Rewards.run me s ts).led.bal cfg.token me + x ≤ I128_MAX := by
  have hs : Sched (c.now - 1) (Rewards.run me s ts).st.curve := by
    refine run_sched ts hw (fun c' a d x h' => ?_) (by rw [h0.1]; exact sched_zero _)
    have := hend c' a d x h'
    omega
  have hI := run_inv ts ht (Rewards.genesis_inv h0)
  have hc' : (Rewards.run me s ts).st.cfg = some cfg := getConfig_ok.mp hc
  generalize Rewards.run me s ts = z at *
  have hadm' : z.st.admin = admin := by
    unfold queryAdmin at hadm
    simp only [bind_ok, ok_inj] at hadm
    obtain ⟨_, _, h⟩ := hadm
    exact h
  subst hadm'
  have hself : c.signed me = false := by
    simp only [Ctx.auth, Bool.or_eq_false_iff] at hme; exact hme.1
  have hjoin : ∀ X : Nat, X < U128_LIM → ∃ k, joinCurves c.now cfg.maxComplexity z.st.curve (.sl a X (c.now + d) 0) = .ok k := by
    intro X hX
    unfold joinCurves
    cases hk : z.st.curve with
    | constant y =>
      rw [hk] at hs
      have := sched_const hs
      subst this
      refine ⟨.sl a X (c.now + d) 0, ?_⟩
      simp only [Curve.end, Curve.combine, Curve.combineConst, bind_ok, add128_ok]
      refine ⟨_, ⟨_, ⟨by omega, rfl⟩, _, ⟨by decide, rfl⟩, rfl⟩, (), ?_, rfl⟩
      have hv : Curve.validateComplexity (.sl a (X + 0) (c.now + d) (0 + 0)) cfg.maxComplexity = .ok () := by
        unfold Curve.validateComplexity; exact if_pos hcx
      unfold checkComplexity; rw [hv]
    | sl p q e f =>
      rw [hk] at hs
      have := hs.bound ⟨e, f⟩ (by simp [Phoenix.Spec.stepsOf])
      simp only at this
      simp only [Curve.end]
      rw [if_pos (by omega)]
      exact ⟨_, rfl⟩
    | pl st =>
      rw [hk] at hs
      have hne : st ≠ [] := hs.wf.1
      have h1 := List.getLast?_eq_some_getLast hne
      have := hs.bound _ (show st.getLast hne ∈ Phoenix.Spec.stepsOf (.pl st) from List.getLast_mem hne)
      simp only [Curve.end, h1, Option.map_some]
      rw [if_pos (by omega)]
      exact ⟨_, rfl⟩
  have hLt : ∀ hne : z.st.admin ≠ me, (∃ L', z.led.transfer (c.as me) cfg.token z.st.admin me x = .ok L') ↔
      c.signed z.st.admin = true ∧ 0 ≤ x ∧ x ≤ z.led.bal cfg.token z.st.admin ∧ z.led.bal cfg.token me + x ≤ I128_MAX := by
    intro hne
    have hau : (c.as me).auth z.st.admin = c.signed z.st.admin := by
      simp only [Ctx.auth, Ctx.as, Option.some_beq_some]
      rw [show (me == z.st.admin) = false from by simpa using Ne.symm hne, Bool.or_false]
    rw [← hau]
    constructor
    · rintro ⟨L', e⟩
      unfold Ledger.transfer at e
      rw [Ledger.call_ok] at e
      obtain ⟨t', ht', -⟩ := e
      simp only [Token.call] at ht'
      rw [Token.transfer_ok] at ht'
      obtain ⟨k0, k1, k2, -, k4, -⟩ := ht'
      rw [upd_ne _ _ (Ne.symm hne)] at k4
      exact ⟨k0, k1, k2, k4.2⟩
    · rintro ⟨k0, k1, k2, k3⟩
      exact Stake.transfer_works k0 k1 k2 hr (Ne.symm hne) (hI.led.nonneg _ _) k3
  constructor
  · rintro ⟨s', h⟩
    simp only [Rewards.step, bind_ok, ok_inj] at h
    obtain ⟨⟨v, L⟩, hf, -⟩ := h
    obtain ⟨cfg', k, e1, e2, e3, e4, e5, -⟩ := fund_inv hf
    rw [hc'] at e1; cases e1
    have hne : z.st.admin ≠ me := by
      intro e; rw [e, hme] at e2; simp at e2
    unfold fund at hf
    simp only [bind_ok] at hf
    obtain ⟨cfg'', k1, _, _, _, _, _, _, _, _, L', hL, -⟩ := hf
    rw [getConfig_ok, hc'] at k1; cases k1
    obtain ⟨k1, k2, k3, k4⟩ := (hLt hne).mp ⟨L', hL⟩
    exact ⟨k1, e3, e4, e5, k2, k3, k4⟩
  · rintro ⟨h1, h2, h3, h4, h5, h6, h7⟩
    have hne : z.st.admin ≠ me := by
      intro e; rw [e, hself] at h1; simp at h1
    obtain ⟨L', hL⟩ := (hLt hne).mpr ⟨h1, h5, h6, h7⟩
    have hmx : I128_MAX < (U128_LIM : Int) := by decide
    obtain ⟨k, hk⟩ := hjoin x.toNat (by omega)
    refine ⟨⟨{ z.st with curve := k }, L'⟩, ?_⟩
    simp only [Rewards.step, bind_ok, Rewards.fund, getConfig_ok, requireAuth_ok, req_ok, add64_ok, toU128_ok]
    refine ⟨_, ⟨cfg, hc', (), ?_, (), h2, (), by omega, (), by omega, L', hL, _, ⟨hd, rfl⟩, x.toNat, by omega, (), ?_, k, hk, rfl⟩, rfl⟩
    · simp [Ctx.auth, h1]
    · have hra : (Curve.sl a x.toNat (c.now + d) 0).range = (0, x.toNat) := by
        simp only [Curve.range]; rw [if_neg (by omega)]
      simp only [checkRange, req_ok, hra]
      simp

/-! The premises hold for the example history `rExHist`: all reports are truthful, a million was
handed out, users 1 and 2 have staked 6000 and 8000. -/

theorem rExHist_moderate : queryConfig (Rewards.run 100 rExStart rExHist).st = .ok ⟨50, 40, 10, 1000, 1000⟩ ∧
    queryDistributed (Rewards.run 100 rExStart rExHist).st 40 = .ok 1000000 ∧ Moderate (1000000 : Nat) (10 ^ 18) := by
  refine ⟨by decide +kernel, by decide +kernel, ?_⟩
  unfold Moderate; decide

/-- not yet initialized; and initialized -/
example : Rewards.Spec.succeeds 100 rExStart (.rewards (rBy 7 0) (.init 1 2 3 4 5 6)) = true :=
  C127_init_iff.mpr (fun cfg h => by cases h)
example : Rewards.Spec.succeeds 100 (Rewards.run 100 rExStart rExHist) (.rewards (rBy 7 0) (.init 1 2 3 4 5 6)) = false :=
  Bool.eq_false_iff.mpr (fun h => C127_init_iff.mp h _ rExHist_moderate.1)

/-- user 3 begins with 10^18 -/
example : ∃ s', Rewards.step 100 (Rewards.run 100 rExStart rExHist) (.rewards (rBy 3 102) (.addUser 3 (rInfo (10 ^ 18) 102))) = .ok s' :=
  C127_add_user_accepted rExStart_genesis rExHist rExHist_possible rExHist_honest.1 rExHist_moderate.1 rExHist_moderate.2.1
    rExHist_moderate.2.2 (by decide) (by rw [rExHist_honest.2]; exact ⟨by decide, by decide⟩) (by decide)

/-- user 1 adds 10^17 to the 6000 -/
example : ∃ s', Rewards.step 100 (Rewards.run 100 rExStart rExHist)
    (.rewards (rBy 1 102) (.calcBond 1 ⟨[⟨6000, 0⟩, ⟨10 ^ 17, 8812800⟩], 0, 6000⟩)) = .ok s' :=
  C127_bond_accepted rExStart_genesis rExHist rExHist_possible rExHist_honest.1 rExHist_moderate.1 rExHist_moderate.2.1
    rExHist_moderate.2.2 (by decide) (e := ⟨10 ^ 17, 8812800⟩) rfl
    (by rw [rExHist_honest.2]; exact ⟨by decide, by intro e he; cases he; decide⟩) (by decide)

/-- user 2 is shown and paid a reward, and takes back 8000 -/
theorem rExWell : Rewards.Spec.WellFormed (rBy 2 122).now ⟨[⟨5000, 0⟩, ⟨3000, 5356800⟩], 0, 8000⟩ := by
  refine ⟨?_, by decide⟩
  intro e he
  simp only [List.mem_cons, List.not_mem_nil, or_false] at he
  rcases he with rfl | rfl <;> decide
example : ∃ r, queryWithdrawable (rBy 2 122) (Rewards.run 100 rExStart rExHist).st 2 ⟨[⟨5000, 0⟩, ⟨3000, 5356800⟩], 0, 8000⟩ = .ok r :=
  C127_query_answers rExStart_genesis rExHist rExHist_possible rExHist_honest.1 rExHist_moderate.1 rExHist_moderate.2.1
    rExHist_moderate.2.2 (by rw [rExHist_honest.2]; decide) rExWell (by decide)
example : ∃ s', Rewards.step 100 (Rewards.run 100 rExStart rExHist)
    (.rewards (rBy 2 122) (.withdraw 2 ⟨[⟨5000, 0⟩, ⟨3000, 5356800⟩], 0, 8000⟩)) = .ok s' :=
  C127_withdraw_accepted rExStart_genesis rExHist rExHist_possible rExHist_honest.1 rExHist_moderate.1 rExHist_moderate.2.1
    rExHist_moderate.2.2 (by decide) (by decide) (by rw [rExHist_honest.2]; rfl) rExWell (by decide)
    (by rw [rExHist_result.2.2.1]; decide) (by rw [rExHist_result.2.1]; decide)
example : ∃ s', Rewards.step 100 (Rewards.run 100 rExStart rExHist)
    (.rewards (rBy 2 122) (.calcUnbond 2 ⟨[⟨5000, 0⟩, ⟨3000, 5356800⟩], 0, 8000⟩ 8000)) = .ok s' :=
  C127_unbond_accepted rExStart_genesis rExHist rExHist_possible rExHist_honest.1 rExHist_moderate.1 rExHist_moderate.2.1
    rExHist_moderate.2.2 (by decide) (by decide) (by decide)
    (by rw [rExHist_honest.2]; exact ⟨by decide, by decide, by decide⟩) rExWell (by decide)
    (by rw [rExHist_result.2.2.1]; decide) (by rw [rExHist_result.2.1]; decide)

theorem rExHist_scheduled : ∀ t ∈ rExHist, WellScheduled t := by
  intro t ht
  simp only [rExHist, List.mem_cons, List.not_mem_nil, or_false] at ht
  rcases ht with rfl | rfl | rfl | rfl | rfl | rfl | rfl | rfl | rfl | rfl | rfl <;> simp [WellScheduled, rBy]
theorem rExHist_ended {n : Nat} (hn : 100 * 86400 < n) (c' : Ctx) (a d : Nat) (x : Int)
    (h : Tx.rewards c' (.fund a d x) ∈ rExHist) : c'.now + d < n := by
  simp only [rExHist, List.mem_cons, List.not_mem_nil, or_false] at h
  simp at h
  obtain ⟨rfl, rfl, rfl, rfl⟩ := h
  simp only [rBy]; omega

/-- a distribution on day 102, and a second funding -/
example : ∃ s', Rewards.step 100 (Rewards.run 100 rExStart rExHist) (.rewards (rBy 3 102) (.distribute 14000)) = .ok s' :=
  C127_distribute_accepted rExStart_genesis rExHist rExHist_possible rExHist_scheduled (rExHist_ended (by decide)) (by decide)
    rExHist_moderate.1 rExHist_moderate.2.1 (by decide) (by decide) (by decide) (by decide)
    (by rw [rExHist_result.2.2.1]; decide)
example :
    ∃ s', Rewards.step 100 (Rewards.run 100 rExStart rExHist) (.rewards (rBy 9 102) (.fund 8812900 86400 5000)) = .ok s' :=
  (C127_fund_iff rExStart_genesis rExHist rExHist_possible rExHist_scheduled (by decide) (rExHist_ended (by decide)) (by decide)
    rExHist_moderate.1 (admin := 9) (by decide +kernel) (by decide) (by decide +kernel) (by decide)).mpr
    ⟨by decide, by decide, by decide, by decide, by decide, by decide +kernel, by decide +kernel⟩

/-- the invariant behind `C127_schedule_stays_simple` -/
def Simple (st : State) : Prop :=
  ∀ l, st.curve = .pl l → ∃ cfg, st.cfg = some cfg ∧ l.length ≤ cfg.maxComplexity

theorem step_simple {me : Addr} {s s' : Sys} {t : Tx} (h : Rewards.step me s t = .ok s') (hs : Simple s.st) : Simple s'.st := by
  cases t with
  | token c tok op =>
    simp only [Rewards.step, bind_ok, ok_inj] at h
    obtain ⟨L, hL, rfl⟩ := h
    exact hs
  | rewards c k =>
    rcases step_kinds h with ⟨hled, hp, hf⟩ | ⟨cfg, u, i, x, e1, e2, e3, e4, e5, e6, e7, ⟨e8, e9, e10, e11, e12⟩, e13, e14, e15⟩ |
        ⟨cfg, a, d, x, kv, e1, rfl, e2, e3, e4, e5, e6, e7, e8, e9, e10, e11⟩
    · cases k with
      | init a st tok mc mr mb =>
        simp only [Rewards.step, bind_ok, ok_inj] at h
        obtain ⟨v, hi, rfl⟩ := h
        obtain ⟨h1, rfl⟩ := init_inv hi
        intro l hl; simp at hl
      | addUser u i =>
        simp only [Rewards.step, bind_ok, ok_inj] at h
        obtain ⟨v, hi, rfl⟩ := h
        obtain ⟨_, _, _, rfl⟩ := addUser_inv hi
        exact hs
      | calcBond u i =>
        simp only [Rewards.step, bind_ok, ok_inj] at h
        obtain ⟨v, hi, rfl⟩ := h
        obtain ⟨_, _, _, _, _, rfl⟩ := calcBond_inv hi
        exact hs
      | distribute T =>
        simp only [Rewards.step, bind_ok, ok_inj] at h
        obtain ⟨v, hi, rfl⟩ := h
        obtain ⟨cfg', h1, _, _, ⟨rfl, -⟩ | ⟨x, d, h2, h3, h4, h5, rfl⟩⟩ := distribute_inv hi
        · exact hs
        · exact hs
      | calcUnbond u i y => simp [payee] at hp
      | withdraw u i => simp [payee] at hp
      | fund a d x => exact absurd rfl (hf a d x)
    · unfold Simple; rw [e12, e10]; exact hs
    · intro l hl
      rw [e9] at hl ⊢
      refine ⟨cfg, e1, ?_⟩
      have hl : kv = .pl l := hl
      have go : ∀ {k}, (do let k ← s.st.curve.combine (.sl a x.toNat (c.now + d) 0); checkComplexity k cfg.maxComplexity; .ok k) =
          (.ok k : Res Curve) → k.size ≤ cfg.maxComplexity := by
        intro k hk
        simp only [bind_ok, ok_inj] at hk
        obtain ⟨k', h1, _, h2, rfl⟩ := hk
        unfold checkComplexity Curve.validateComplexity at h2
        split at h2
        · rename_i h3
          split at h3
          · assumption
          · simp at h3
        · simp at h2
      unfold joinCurves at e8
      subst hl
      split at e8
      · split at e8
        · simp at e8
        · exact go e8
      · exact go e8

/-- **C127** The stored schedule never has more corner points than the configuration allows, whatever is funded and whenever: fundings
whose schedules would add up to more are refused.  So no call ever has to read or combine more points than that. -/
theorem C127_schedule_stays_simple {me : Addr} {s : Sys} (h0 : Rewards.Spec.Genesis me s) (ts : List Tx) {l : List Step}
    (hl : (Rewards.run me s ts).st.curve = .pl l) :
    ∃ cfg, queryConfig (Rewards.run me s ts).st = .ok cfg ∧ l.length ≤ cfg.maxComplexity := by
  have run_simple : ∀ (ts : List Tx) (s : Sys), Simple s.st → Simple (Rewards.run me s ts).st := by
    intro ts
    induction ts with
    | nil => exact fun s h => h
    | cons t ts ih =>
      intro s h
      refine ih _ ?_
      unfold Rewards.exec
      split
      · rename_i h'; exact step_simple h' h
      · exact h
  obtain ⟨cfg, h1, h2⟩ := run_simple ts s (by intro l hl; rw [h0.1] at hl; simp [fresh] at hl) l hl
  exact ⟨cfg, getConfig_ok.mpr h1, h2⟩

/-- at most four corner points: two fundings with overlapping schedules -/
def rFullHist : List Tx :=
  [ .rewards (rBy 9 0) (.init 9 50 40 4 1000 1000), .rewards (rBy 9 0) (.fund 0 8640000 10000),
    .rewards (rBy 9 1) (.fund 172800 8640000 20000) ]
/-- They add up to four corner points, and a third overlapping schedule is refused. -/
example : (∃ l, (Rewards.run 100 rExStart rFullHist).st.curve = .pl l ∧ l.length = 4) ∧
    failsWith (Rewards.step 100 (Rewards.run 100 rExStart rFullHist) (.rewards (rBy 9 2) (.fund 259200 8640000 30000))) (.code 12) = true :=
  ⟨⟨[⟨0, 30000⟩, ⟨172800, 29800⟩, ⟨8640000, 203⟩, ⟨8726400, 0⟩], by decide +kernel, rfl⟩, by decide +kernel⟩

/-! ### Without a bound on the amounts -/

/-- the administrator holds ten thousand of a token with 18 decimals -/
def rBigStart : Sys :=
  { st := fresh
    led := fun _ => { admin := 6, decimals := 18, bal := fun a => if a = 9 then 10 ^ 22 else 0,
                      allow := fun _ _ => ⟨0, 0⟩ } }
/-- user 1 is the only staker, with the minimum of 1000 units (a ten thousandth of a staked
token with seven decimals), when a thousand reward tokens are handed out -/
def rBigHist : List Tx :=
  [ .rewards (rBy 9 0) (.init 9 50 40 10 1000 1000),
    .rewards (rBy 1 0) (.addUser 1 (rInfo 1000 0)),
    .rewards (rBy 9 0) (.fund 0 86400 (10 ^ 21)),
    .rewards (rBy 1 2) (.distribute 1000) ]

/-- **C127**, what fails without a bound: after that, truthful reports of stakes of ten thousand
tokens (10^11 units) by other users are refused, although stakes of a thousand tokens (10^10) are
still accepted.  Whoever stakes first, however little, thus limits the stakes of all others for good. -/
theorem C127_large_stake_blocked :
    Rewards.Spec.succeeds 100 (Rewards.run 100 rBigStart rBigHist) (.rewards (rBy 2 3) (.addUser 2 (rInfo (10 ^ 10) 3))) = true ∧
    Rewards.Spec.succeeds 100 (Rewards.run 100 rBigStart rBigHist) (.rewards (rBy 2 3) (.addUser 2 (rInfo (10 ^ 11) 3))) = false ∧
    queryDistributed (Rewards.run 100 rBigStart rBigHist).st 40 = .ok (10 ^ 21) := by
  refine ⟨?_, ?_, ?_⟩ <;> decide +kernel

end Phoenix.Props
