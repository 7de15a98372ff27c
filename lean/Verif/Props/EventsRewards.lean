import Verif.Lemmas.EventsRewards
import Verif.Props.Rewards
/-!
Property theorems about the events of the reward distribution contract: C125.
-/
namespace Phoenix.Props.EventsRewards
open Phoenix Phoenix.Spec Rewards Rewards.Spec

/-- **C125** The functions that record events do the same as the ones that do not. -/
theorem C125_same (me : Addr) (s : Sys) (t : Tx) : Rewards.step me s t = (Rewards.stepE me s t).map (·.1) :=
  Rewards.step_eq me s t

theorem log_sums {me tok : Addr} : ∀ (ts : List Tx) (s : Sys), Rewards.Inv me s → (∀ t ∈ ts, Possible me t) →
    (∀ cfg, (Rewards.run me s ts).st.cfg = some cfg → cfg.token = tok) →
    sumByLog "distribute_rewards" "amount" (Rewards.log me s ts) =
      ((Rewards.run me s ts).st.dist.distributed : Int) - s.st.dist.distributed ∧
    sumByLog "withdraw_rewards" "reward_amount" (Rewards.log me s ts) =
      ((Rewards.run me s ts).st.dist.distributed : Int) - (Rewards.run me s ts).st.dist.withdrawable -
        (s.st.dist.distributed - s.st.dist.withdrawable) ∧
    (∀ a, a ≠ me → ∀ r, ((Rewards.log me s ts).foldl (readPaid a) r).2 = r.2 + rewarded me tok a s ts) ∧
    ((∀ t ∈ ts, payee t ≠ some me) →
      sumByLog "fund_reward_distribution" "amount" (Rewards.log me s ts) -
        sumByLog "withdraw_rewards" "reward_amount" (Rewards.log me s ts) = gained me tok me s ts)
  | [], s, _, _, _ => by simp [Rewards.log, Rewards.run, sumByLog, rewarded, gained]
  | t :: ts, s, hi, ht, hc => by
    have hrun : Rewards.run me s (t :: ts) = Rewards.run me (Rewards.exec me s t) ts := rfl
    have hi' : Rewards.Inv me (Rewards.exec me s t) := exec_inv (ht t List.mem_cons_self) hi
    rw [hrun] at hc ⊢
    obtain ⟨i1, i2, i3, i4⟩ := log_sums ts (Rewards.exec me s t) hi' (fun x hx => ht x (List.mem_cons_of_mem _ hx)) hc
    rcases log_cons me s t ts with ⟨s', ev, h1, h2, h3, h4⟩ | ⟨h3, h4⟩
    · rw [h4]
      have hx := h3
      rw [h3] at i1 i2 i3 i4 hc hi' ⊢
      have hT : Tells me tok s s' t ev := step_tells h2 hi (fun cfg hcfg => hc cfg (run_cfg ts hcfg).1)
      obtain ⟨j1, j2, j3, j4⟩ := hT
      refine ⟨?_, ?_, ?_, ?_⟩
      · rw [sumByLog_append, i1, j1]; ring
      · rw [sumByLog_append, i2, j2]; ring
      · intro a ha r
        rw [List.foldl_append, i3 a ha, j3 a ha, rewarded, hx]; ring
      · intro hp
        have := i4 (fun x hx => hp x (List.mem_cons_of_mem _ hx))
        have j := j4 (hp t List.mem_cons_self) (ht t List.mem_cons_self)
        rw [sumByLog_append, sumByLog_append]
        cases t with
        | token c tk op => simp only [gained, hx]; simp only at j; linarith
        | rewards c k => simp only [gained, hx]; simp only at j; linarith
    · rw [h4]
      have hx := h3
      rw [h3] at i1 i2 i3 i4 ⊢
      refine ⟨i1, i2, ?_, ?_⟩
      · intro a ha r
        rw [i3 a ha, rewarded, hx]
        simp
      · intro hp
        have := i4 (fun x hx => hp x (List.mem_cons_of_mem _ hx))
        cases t with
        | token c tk op => simp only [gained, hx]; exact this
        | rewards c k => simp only [gained, hx]; omega

/-- **C125** In every history the sum of the published distributions is what the contract answers when asked for the
distributed rewards. -/
theorem C125_distributed {me tok : Addr} {s : Sys} (h0 : Genesis me s) (ts : List Tx) (ht : ∀ t ∈ ts, Possible me t)
    {n : Nat} (hq : queryDistributed (Rewards.run me s ts).st tok = .ok n) :
    (n : Int) = sumByLog "distribute_rewards" "amount" (Rewards.log me s ts) := by
  simp only [queryDistributed, bind_ok, getConfig_ok, req_ok, ok_inj] at hq
  obtain ⟨cfg, h1, _, rfl, rfl⟩ := hq
  rw [(log_sums ts s (genesis_inv h0) ht (tok := cfg.token) (fun c hc => by rw [h1] at hc; cases hc; rfl)).1, h0.1]
  simp [Rewards.fresh]

/-- **C125** In every history the published distributions and payments tell how much of the balance is still owed to
users: the answer to the query for undistributed rewards is the balance less the difference of the two sums. -/
theorem C125_undistributed {me tok : Addr} {s : Sys} (h0 : Genesis me s) (ts : List Tx) (ht : ∀ t ∈ ts, Possible me t)
    {n : Nat} (hq : queryUndistributed me (Rewards.run me s ts).st (Rewards.run me s ts).led tok = .ok n) :
    (n : Int) = (Rewards.run me s ts).led.bal tok me -
      (sumByLog "distribute_rewards" "amount" (Rewards.log me s ts) -
        sumByLog "withdraw_rewards" "reward_amount" (Rewards.log me s ts)) := by
  simp only [queryUndistributed, bind_ok, getConfig_ok, req_ok, toU128_ok, subU_ok] at hq
  obtain ⟨cfg, h1, _, rfl, b, h2, h3, rfl⟩ := hq
  obtain ⟨i1, i2, -⟩ := log_sums ts s (genesis_inv h0) ht (tok := cfg.token) (fun c hc => by rw [h1] at hc; cases hc; rfl)
  rw [i1, i2, h0.1]
  simp only [Rewards.fresh]
  omega

/-- **C125** In every history the log tells what each account got: the payments that follow the name of the account add
up to the reward tokens its balance gained in withdrawals and unbondings. -/
theorem C125_paid_to {me tok a : Addr} {s : Sys} (h0 : Genesis me s) (ts : List Tx) (ht : ∀ t ∈ ts, Possible me t)
    {cfg : Config} (hc : queryConfig (Rewards.run me s ts).st = .ok cfg) (htok : cfg.token = tok) (ha : a ≠ me) :
    paidToByLog a (Rewards.log me s ts) = rewarded me tok a s ts := by
  have h1 := getConfig_ok.mp hc
  have := (log_sums ts s (genesis_inv h0) ht (tok := tok) (fun c hc => by rw [h1] at hc; cases hc; exact htok)).2.2.1 a ha (none, 0)
  rw [paidToByLog, this]; simp

/-- **C125** In every history the contract's own calls change its balance of the reward token by the published funding
less the published payments. -/
theorem C125_balance {me tok : Addr} {s : Sys} (h0 : Genesis me s) (ts : List Tx) (ht : ∀ t ∈ ts, Possible me t)
    (hp : ∀ t ∈ ts, payee t ≠ some me) {cfg : Config} (hc : queryConfig (Rewards.run me s ts).st = .ok cfg)
    (htok : cfg.token = tok) :
    gained me tok me s ts = sumByLog "fund_reward_distribution" "amount" (Rewards.log me s ts) -
      sumByLog "withdraw_rewards" "reward_amount" (Rewards.log me s ts) := by
  have h1 := getConfig_ok.mp hc
  exact ((log_sums ts s (genesis_inv h0) ht (tok := tok)
    (fun c hc => by rw [h1] at hc; cases hc; exact htok)).2.2.2 hp).symm

/-- **C125** The events of a funding tell its schedule: what is locked at any time afterwards is, up to two units of rounding, what
the running schedule locked before (nothing, if it had ended) and what a straight line locks that falls from the published amount at the
published start to nothing at the published end. -/
theorem C125_funding_told {me : Addr} {s s' : Sys} {c : Ctx} {a d : Nat} {x : Int} {ev : List Event}
    (h : Rewards.stepE me s (.rewards c (.fund a d x)) = .ok (s', ev)) {start stop amount : Nat}
    (hstart : (start : Int) = sumByLog "fund_reward_distribution" "start_time" ev)
    (hstop : (stop : Int) = sumByLog "fund_reward_distribution" "end_time" ev)
    (hamount : (amount : Int) = sumByLog "fund_reward_distribution" "amount" ev) (hlt : start < stop) (hold : WellFormed s.st.curve)
    {t old line new : Nat} (hnew : s'.st.curve.value t = .ok new) (hline : (Curve.sl start amount stop 0).value t = .ok line)
    (hrest : (∃ e, s.st.curve.end = some e ∧ e < c.now ∧ old = 0) ∨
      ((∀ e, s.st.curve.end = some e → c.now ≤ e) ∧ s.st.curve.value t = .ok old)) :
    new ≤ old + line + 2 ∧ old + line ≤ new + 2 := by
  simp only [Rewards.stepE, bind_ok, ok_inj, Prod.mk.injEq, getConfig_ok] at h
  obtain ⟨cfg, -, ⟨v, L⟩, h1, rfl, rfl⟩ := h
  obtain ⟨cfg', k, -, -, -, -, -, x0, -, -, hj, rfl, -⟩ := fund_inv h1
  simp [fundEvents, sumByLog, Event.number] at hstart hstop hamount
  obtain rfl : start = a := by omega
  obtain rfl : stop = c.now + d := by omega
  obtain rfl : amount = x.toNat := by omega
  have comb : ∀ k, s.st.curve.combine (.sl start x.toNat (c.now + d) 0) = .ok k → k.value t = .ok new →
      s.st.curve.value t = .ok old → new ≤ old + line + 2 ∧ old + line ≤ new + 2 := by
    intro k hk hn ho
    by_cases hc : NonConstant s.st.curve
    · exact (C27_combine_near hk hc trivial hold hlt ho hline hn).1
    · cases e : s.st.curve with
      | constant y =>
        rw [e] at hk ho
        obtain ⟨w, hw, rfl⟩ := (C27_combine_constant (.inl hk) t new).mp hn
        rw [hline, ok_inj] at hw
        simp only [Curve.value, ok_inj] at ho
        omega
      | sl _ _ _ _ => rw [e] at hc; exact absurd trivial hc
      | pl _ => rw [e] at hc; exact absurd trivial hc
  simp only at hnew
  unfold joinCurves at hj
  rcases hrest with ⟨e, he, hlt', rfl⟩ | ⟨he, ho⟩
  · rw [he] at hj
    simp only [hlt', if_true, ok_inj] at hj
    subst hj
    rw [hline, ok_inj] at hnew
    omega
  · cases hend : s.st.curve.end with
    | none =>
      rw [hend] at hj
      simp only [bind_ok, ok_inj] at hj
      obtain ⟨k', hk, _, -, rfl⟩ := hj
      exact comb _ hk hnew ho
    | some e =>
      rw [hend] at hj
      have := he e hend
      simp only [show ¬ e < c.now by omega, if_false, bind_ok, ok_inj] at hj
      obtain ⟨k', hk, _, -, rfl⟩ := hj
      exact comb _ hk hnew ho

/-- On day 30 of the example the admin funds the running schedule once more: 500000 units from day 40 on, for 100 days counted from
day 30.  On day 60, 400000 units of the first schedule are still locked, and 388889 of the second one. -/
example :
    (Rewards.run 100 rExStart (rExHist.take 5)).st.curve.end = some (100 * 86400) ∧
    (Rewards.run 100 rExStart (rExHist.take 5)).st.curve.value (60 * 86400) = .ok 400000 ∧
    (Curve.sl (40 * 86400) 500000 (130 * 86400) 0).value (60 * 86400) = .ok 388889 ∧
    okAnd (Rewards.stepE 100 (Rewards.run 100 rExStart (rExHist.take 5)) (.rewards (rBy 9 30) (.fund (40 * 86400) (100 * 86400) 500000)))
      (fun r => decide (sumByLog "fund_reward_distribution" "start_time" r.2 = 40 * 86400 ∧
        sumByLog "fund_reward_distribution" "end_time" r.2 = 130 * 86400 ∧
        sumByLog "fund_reward_distribution" "amount" r.2 = 500000 ∧ r.1.st.curve.value (60 * 86400) = .ok 788889)) = true := by
  decide +kernel

/-- the log of the example history tells 1000000 funded and distributed, 400000 paid to user 1 and 50000 to user 2 -/
example :
    sumByLog "fund_reward_distribution" "amount" (Rewards.log 100 rExStart rExHist) = 1000000 ∧
    sumByLog "distribute_rewards" "amount" (Rewards.log 100 rExStart rExHist) = 1000000 ∧
    paidToByLog 1 (Rewards.log 100 rExStart rExHist) = 400000 ∧ paidToByLog 2 (Rewards.log 100 rExStart rExHist) = 50000 ∧
    queryUndistributed 100 (Rewards.run 100 rExStart rExHist).st (Rewards.run 100 rExStart rExHist).led 40 = .ok 0 ∧
    (Rewards.log 100 rExStart rExHist).length = 22 := by decide +kernel
example : ∀ t ∈ rExHist, payee t ≠ some 100 := by decide +kernel
example := C125_paid_to (a := 1) rExStart_genesis rExHist rExHist_possible (cfg := ⟨50, 40, 10, 1000, 1000⟩) (by decide +kernel) rfl (by decide)

end Phoenix.Props.EventsRewards
