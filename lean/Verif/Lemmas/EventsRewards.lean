import Verif.Lemmas.Events
import Verif.Lemmas.RewardsSys
import Verif.Spec.EventsRewards
/-! The events of the reward distribution contract (helpers only). -/
namespace Phoenix.Rewards
open Phoenix Phoenix.Spec Stake Rewards.Spec

theorem withdraw_eq (me : Addr) (c : Ctx) (s : State) (L : Ledger) (u : Addr) (i : Info) :
    withdraw me c s L u i = (withdrawE me c s L u i).map (fun z => (z.1, z.2.1)) := by
  simp only [withdrawE, withdraw, Except.map_bind, Except.map_ok]
  congr 1; funext cfg; congr 1; funext _; congr 1; funext x
  split
  · rfl
  · simp only [Except.map_bind, Except.map_ok]

theorem withdrawIfAny_eq (me : Addr) (c : Ctx) (s : State) (L : Ledger) (u : Addr) (i : Info) :
    withdrawIfAny me c s L u i = (withdrawIfAnyE me c s L u i).map (fun z => (z.1, z.2.1)) := by
  simp only [withdrawIfAnyE, withdrawIfAny, Except.map_bind, withdraw_eq]
  congr 1; funext r
  split <;> rfl

theorem calcUnbond_eq (me : Addr) (c : Ctx) (s : State) (L : Ledger) (u : Addr) (i : Info) (x : Int) :
    calcUnbond me c s L u i x = (calcUnbondE me c s L u i x).map (fun z => (z.1, z.2.1)) := by
  simp only [calcUnbondE, calcUnbond, Except.map_bind, Except.map_ok, withdrawIfAny_eq]
  congr 1; funext _; congr 1; funext cfg; congr 1; funext _
  cases withdrawIfAnyE me c s L u i <;> rfl

theorem distribute_eq (me : Addr) (c : Ctx) (s : State) (L : Ledger) (T : Int) :
    distribute me c s L T = (distributeE me c s L T).map (·.1) := by
  simp only [distributeE, distribute, Except.map_bind]
  congr 1; funext cfg; congr 1; funext _; congr 1; funext p; congr 1; funext t
  split
  · rfl
  · simp only [Except.map_bind]
    congr 1; funext x
    split
    · rfl
    · simp only [Except.map_bind, Except.map_ok]

theorem step_eq (me : Addr) (s : Sys) (t : Tx) : step me s t = (stepE me s t).map (·.1) := by
  cases t with
  | token c tok op => simp only [stepE, Except.map_bind, Except.map_ok]; cases step me s (.token c tok op) <;> rfl
  | rewards c k =>
    cases k with
    | init a st tok mc mr mb => simp only [stepE, Except.map_bind, Except.map_ok]; cases step me s _ <;> rfl
    | addUser u i => simp only [stepE, Except.map_bind, Except.map_ok]; cases step me s _ <;> rfl
    | calcBond u i => simp only [stepE, Except.map_bind, Except.map_ok]; cases step me s _ <;> rfl
    | calcUnbond u i x =>
      simp only [stepE, step, Except.map_bind, Except.map_ok, calcUnbond_eq]
      cases calcUnbondE me c s.st s.led u i x <;> rfl
    | distribute x =>
      simp only [stepE, step, Except.map_bind, Except.map_ok, distribute_eq]
      cases distributeE me c s.st s.led x <;> rfl
    | withdraw u i =>
      simp only [stepE, step, Except.map_bind, Except.map_ok, withdraw_eq]
      cases withdrawE me c s.st s.led u i <;> rfl
    | fund a d x =>
      simp only [stepE, step, Except.map_bind, Except.map_ok]
      cases h : getConfig s.st with
      | error e =>
        simp only [fund, h]; rfl
      | ok cfg => rfl

theorem withdrawE_inv {me : Addr} {c : Ctx} {s v : State} {L L' : Ledger} {u : Addr} {i : Info} {ev : List Event}
    (h : withdrawE me c s L u i = .ok (v, L', ev)) :
    ∃ cfg x, s.cfg = some cfg ∧ payable c cfg s u i = .ok x ∧ ev = withdrawEvents u cfg.token x := by
  simp only [withdrawE, bind_ok, getConfig_ok, requireAuth_ok] at h
  obtain ⟨cfg, h1, _, h2, x, h3, h4⟩ := h
  refine ⟨cfg, x, h1, h3, ?_⟩
  split at h4
  · simp only [ok_inj, Prod.mk.injEq] at h4; exact h4.2.2.symm
  · simp only [bind_ok, ok_inj, Prod.mk.injEq] at h4
    obtain ⟨_, _, _, _, _, _, _, _, h5⟩ := h4
    exact h5.symm

theorem calcUnbondE_inv {me : Addr} {c : Ctx} {s v : State} {L L' : Ledger} {u : Addr} {i : Info} {y : Int} {ev : List Event}
    (h : calcUnbondE me c s L u i y = .ok (v, L', ev)) :
    ∃ cfg x, s.cfg = some cfg ∧ payable c cfg s u i = .ok x ∧
      ev = (if x = 0 then [] else withdrawEvents u cfg.token x) ++ [⟨"calculate_unbond", "user", .addr u⟩] := by
  simp only [calcUnbondE, bind_ok, getConfig_ok, requireAuth_ok, ok_inj, Prod.mk.injEq, withdrawIfAnyE] at h
  obtain ⟨_, _, cfg, h1, _, _, w, ⟨r, h8, h9⟩, _, _, _, _, _, _, _, _, -, -, rfl⟩ := h
  obtain ⟨cfg', e, h10⟩ := queryWithdrawable_inv h8
  rw [h1] at e; cases e
  refine ⟨cfg, r, h1, h10, ?_⟩
  split at h9
  · rename_i hr
    obtain ⟨w1, w2, w3⟩ := w
    obtain ⟨cfg', x, e1, e3, rfl⟩ := withdrawE_inv h9
    rw [h1] at e1; cases e1
    rw [h10, ok_inj] at e3
    subst e3
    rw [if_neg (by omega)]
  · rename_i e
    have : r = 0 := by omega
    subst this
    rw [ok_inj] at h9
    subst h9
    rfl

theorem distributeE_inv {me : Addr} {c : Ctx} {s v : State} {L : Ledger} {T : Int} {ev : List Event}
    (h : distributeE me c s L T = .ok (v, ev)) :
    ∃ cfg, s.cfg = some cfg ∧ ((v = s ∧ ev = []) ∨ ∃ (x : Nat) (d : Dist), x ≠ 0 ∧ handOut s.dist x (weight cfg.minBond T).toNat = .ok d ∧
      v = { s with dist := d } ∧
      ev = [⟨"distribute_rewards", "asset", .addr cfg.token⟩, ⟨"distribute_rewards", "amount", .int x⟩]) := by
  simp only [distributeE, bind_ok, getConfig_ok, requireAuth_ok, toU128_ok] at h
  obtain ⟨cfg, h1, _, h2, p, h3, t, h4, h5⟩ := h
  have := power_val h3
  subst this
  refine ⟨cfg, h1, ?_⟩
  split at h5
  · simp only [ok_inj, Prod.mk.injEq] at h5; exact .inl ⟨h5.1.symm, h5.2.symm⟩
  · simp only [bind_ok] at h5
    obtain ⟨x, h6, h7⟩ := h5
    split at h7
    · simp only [ok_inj, Prod.mk.injEq] at h7; exact .inl ⟨h7.1.symm, h7.2.symm⟩
    · rename_i hx
      simp only [bind_ok, ok_inj, Prod.mk.injEq] at h7
      obtain ⟨d, h8, rfl, rfl⟩ := h7
      refine .inr ⟨x, d, hx, ?_, rfl, rfl⟩
      rw [← h4]; exact h8

theorem log_cons (me : Addr) (s : Sys) (t : Tx) (ts : List Tx) :
    (∃ s' ev, step me s t = .ok s' ∧ stepE me s t = .ok (s', ev) ∧ exec me s t = s' ∧ log me s (t :: ts) = ev ++ log me s' ts) ∨
    (exec me s t = s ∧ log me s (t :: ts) = log me s ts) := by
  have := step_eq me s t
  cases h : stepE me s t with
  | ok p =>
    obtain ⟨s', ev⟩ := p
    rw [h] at this
    refine .inl ⟨s', ev, this, rfl, ?_, ?_⟩
    · simp only [exec, this, Except.map]
    · simp only [log, h]
  | error e =>
    rw [h] at this
    refine .inr ⟨?_, ?_⟩
    · simp only [exec, this, Except.map]
    · simp only [log, h]

theorem sumByLog_append (n k : String) (l m : List Event) : sumByLog n k (l ++ m) = sumByLog n k l + sumByLog n k m := by
  simp [sumByLog]

/-- What the events of one transaction tell. -/
structure Tells (me tok : Addr) (s s' : Sys) (t : Tx) (ev : List Event) : Prop where
  dist : sumByLog "distribute_rewards" "amount" ev = (s'.st.dist.distributed : Int) - s.st.dist.distributed
  paid : sumByLog "withdraw_rewards" "reward_amount" ev =
    (s'.st.dist.distributed : Int) - s'.st.dist.withdrawable - (s.st.dist.distributed - s.st.dist.withdrawable)
  got : ∀ a, a ≠ me → ∀ r, (ev.foldl (readPaid a) r).2 = r.2 + (if payee t = none then 0 else s'.led.bal tok a - s.led.bal tok a)
  mine : payee t ≠ some me → t.ctx.auth me = false →
    sumByLog "fund_reward_distribution" "amount" ev - sumByLog "withdraw_rewards" "reward_amount" ev =
      match t with
      | .rewards _ _ => s'.led.bal tok me - s.led.bal tok me
      | .token _ _ _ => 0

theorem tells_pay {me tok u : Addr} {s s' : Sys} {t : Tx} {x : Int} (ht : payee t = some u)
    (hr : ∀ c tk op, t ≠ .token c tk op) (h0 : 0 ≤ x) (h1 : x ≤ s.st.dist.withdrawable)
    (hd : s'.st.dist = (paidState s.st u x).dist) (hL : Settles s.led s'.led [⟨tok, me, u, x⟩])
    {ev : List Event} (e1 : sumByLog "distribute_rewards" "amount" ev = 0)
    (e2 : sumByLog "withdraw_rewards" "reward_amount" ev = x)
    (e3 : sumByLog "fund_reward_distribution" "amount" ev = 0)
    (e4 : ∀ a r, (ev.foldl (readPaid a) r).2 = r.2 + (if u = a then x else 0)) : Tells me tok s s' t ev := by
  refine ⟨?_, ?_, ?_, ?_⟩
  · rw [e1, hd]; simp [paidState]
  · rw [e2, hd]; simp only [paidState]; omega
  · intro a ha r
    rw [e4, ht, if_neg (c := some u = none) (by simp), hL tok a]
    simp [Flow.delta, Ne.symm ha]
  · intro hp _
    rw [e2, e3]
    cases t with
    | token c tk op => exact absurd rfl (hr c tk op)
    | rewards c k =>
      have : u ≠ me := fun h => hp (by rw [ht, h])
      simp [hL tok me, Flow.delta, this]

theorem wev_sums (u tk : Addr) (x : Int) :
    sumByLog "distribute_rewards" "amount" (withdrawEvents u tk x) = 0 ∧
    sumByLog "withdraw_rewards" "reward_amount" (withdrawEvents u tk x) = x ∧
    sumByLog "fund_reward_distribution" "amount" (withdrawEvents u tk x) = 0 ∧
    ∀ a r, ((withdrawEvents u tk x).foldl (readPaid a) r).2 = r.2 + (if u = a then x else 0) := by
  unfold withdrawEvents
  by_cases hx : x = 0
  · simp [hx, sumByLog, Event.number, readPaid]
  · refine ⟨by simp [hx, sumByLog, Event.number], by simp [hx, sumByLog, Event.number], by simp [hx, sumByLog, Event.number], ?_⟩
    intro a r
    by_cases h : u = a <;> simp [hx, readPaid, h]

/-- Calls that neither pay nor hand out anything. -/
theorem tells_quiet {me tok : Addr} {s s' : Sys} {t : Tx} {ev : List Event} (ht : payee t = none)
    (hd : (s'.st.dist.distributed : Int) = s.st.dist.distributed ∧ (s'.st.dist.withdrawable : Int) = s.st.dist.withdrawable)
    (hL : (∃ c tk op, t = .token c tk op) ∨ s'.led = s.led)
    (e1 : sumByLog "distribute_rewards" "amount" ev = 0)
    (e2 : sumByLog "withdraw_rewards" "reward_amount" ev = 0)
    (e3 : sumByLog "fund_reward_distribution" "amount" ev = 0)
    (e4 : ∀ a r, (ev.foldl (readPaid a) r).2 = r.2) : Tells me tok s s' t ev := by
  refine ⟨by rw [e1]; omega, by rw [e2]; omega, fun a _ r => by rw [e4, if_pos ht]; omega, fun _ _ => ?_⟩
  rw [e2, e3]
  rcases hL with ⟨c, tk, op, rfl⟩ | h
  · rfl
  · cases t with
    | token c tk op => rfl
    | rewards c k => simp [h]

theorem step_tells {me tok : Addr} {s s' : Sys} {t : Tx} {ev : List Event} (h : stepE me s t = .ok (s', ev))
    (hi : Inv me s) (hc : ∀ cfg, s'.st.cfg = some cfg → cfg.token = tok) : Tells me tok s s' t ev := by
  have hs : step me s t = .ok s' := by rw [step_eq, h]; rfl
  cases t with
  | token c tk op =>
    simp only [stepE, bind_ok, ok_inj, Prod.mk.injEq] at h
    obtain ⟨_, -, -, rfl⟩ := h
    simp only [step, bind_ok, ok_inj] at hs
    obtain ⟨L, -, rfl⟩ := hs
    exact tells_quiet rfl ⟨rfl, rfl⟩ (.inl ⟨_, _, _, rfl⟩) rfl rfl rfl (fun _ _ => rfl)
  | rewards c k =>
    cases k with
    | init a st tk mc mr mb =>
      simp only [stepE, bind_ok, ok_inj, Prod.mk.injEq] at h
      obtain ⟨_, -, -, rfl⟩ := h
      simp only [step, bind_ok, ok_inj] at hs
      obtain ⟨v, h2, rfl⟩ := hs
      obtain ⟨h3, rfl⟩ := init_inv h2
      have h4 := (hi.fresh h3).1
      refine tells_quiet rfl ⟨by simp [h4], by simp [h4]⟩ (.inr rfl) ?_ ?_ ?_ ?_ <;>
        simp [sumByLog, Event.number, readPaid]
    | addUser u i =>
      simp only [stepE, bind_ok, ok_inj, Prod.mk.injEq] at h
      obtain ⟨_, -, -, rfl⟩ := h
      simp only [step, bind_ok, ok_inj] at hs
      obtain ⟨v, h2, rfl⟩ := hs
      obtain ⟨_, _, _, rfl⟩ := addUser_inv h2
      refine tells_quiet rfl ⟨rfl, rfl⟩ (.inr rfl) ?_ ?_ ?_ ?_ <;> simp [sumByLog, Event.number, readPaid]
    | calcBond u i =>
      simp only [stepE, bind_ok, ok_inj, Prod.mk.injEq] at h
      obtain ⟨_, -, -, rfl⟩ := h
      simp only [step, bind_ok, ok_inj] at hs
      obtain ⟨v, h2, rfl⟩ := hs
      obtain ⟨_, _, _, _, _, rfl⟩ := calcBond_inv h2
      refine tells_quiet rfl ⟨rfl, rfl⟩ (.inr rfl) ?_ ?_ ?_ ?_ <;> simp [sumByLog, Event.number, readPaid]
    | calcUnbond u i y =>
      simp only [stepE, bind_ok, ok_inj, Prod.mk.injEq] at h
      obtain ⟨⟨v, L, ev'⟩, h1, rfl, rfl⟩ := h
      simp only [step, bind_ok, ok_inj, Sys.mk.injEq] at hs
      obtain ⟨⟨v', L'⟩, h2, rfl, rfl⟩ := hs
      obtain ⟨cfg, x, k1, k2, rfl⟩ := calcUnbondE_inv h1
      obtain ⟨cfg', x', m1, -, -, m4, m5, m6, rfl, -, m8, -⟩ := calcUnbond_inv h2
      rw [k1] at m1; cases m1
      rw [k2, ok_inj] at m4; subst m4
      have ht := hc cfg k1
      rw [ht] at m8 ⊢
      have hw := wev_sums u tok x
      refine tells_pay (u := u) (x := x) rfl (by simp) m5 m6 rfl m8 ?_ ?_ ?_ ?_
      · by_cases hx : x = 0
        · simp [hx, sumByLog, Event.number]
        · rw [if_neg hx, sumByLog_append, hw.1]; simp [sumByLog, Event.number]
      · by_cases hx : x = 0
        · simp [hx, sumByLog, Event.number]
        · rw [if_neg hx, sumByLog_append, hw.2.1]; simp [sumByLog, Event.number]
      · by_cases hx : x = 0
        · simp [hx, sumByLog, Event.number]
        · rw [if_neg hx, sumByLog_append, hw.2.2.1]; simp [sumByLog, Event.number]
      · intro a r
        by_cases hx : x = 0
        · simp [hx, readPaid]
        · rw [if_neg hx, List.foldl_append, ← hw.2.2.2 a r]; simp [readPaid]
    | distribute T =>
      simp only [stepE, bind_ok, ok_inj, Prod.mk.injEq] at h
      obtain ⟨⟨v, ev'⟩, h1, rfl, rfl⟩ := h
      obtain ⟨cfg, k1, ⟨rfl, rfl⟩ | ⟨x, d, hx, k2, rfl, rfl⟩⟩ := distributeE_inv h1
      · exact tells_quiet rfl ⟨rfl, rfl⟩ (.inr rfl) rfl rfl rfl (fun _ _ => rfl)
      · obtain ⟨-, -, -, k4, k5⟩ := handOut_inv k2
        refine ⟨?_, ?_, ?_, ?_⟩
        · simp [sumByLog, Event.number, k4]
        · simp [sumByLog, Event.number, k4, k5]
        · intro a _ r; simp [readPaid, payee]
        · intro _ _; simp [sumByLog, Event.number]
    | withdraw u i =>
      simp only [stepE, bind_ok, ok_inj, Prod.mk.injEq] at h
      obtain ⟨⟨v, L, ev'⟩, h1, rfl, rfl⟩ := h
      simp only [step, bind_ok, ok_inj, Sys.mk.injEq] at hs
      obtain ⟨⟨v', L'⟩, h2, rfl, rfl⟩ := hs
      obtain ⟨cfg, x, k1, k2, rfl⟩ := withdrawE_inv h1
      obtain ⟨cfg', x', m1, -, m4, m5, m6, rfl, -, m8, -⟩ := withdraw_inv h2
      rw [k1] at m1; cases m1
      rw [k2, ok_inj] at m4; subst m4
      have ht := hc cfg k1
      rw [ht] at m8 ⊢
      obtain ⟨w1, w2, w3, w4⟩ := wev_sums u tok x
      exact tells_pay (u := u) (x := x) rfl (by simp) m5 m6 rfl m8 w1 w2 w3 w4
    | fund a d x =>
      simp only [stepE, bind_ok, ok_inj, Prod.mk.injEq, getConfig_ok] at h
      obtain ⟨cfg, k1, ⟨v, L⟩, h1, rfl, rfl⟩ := h
      obtain ⟨cfg', kv, m1, m2, -, -, -, -, -, -, -, rfl, m3, -⟩ := fund_inv h1
      rw [k1] at m1; cases m1
      have ht := hc cfg k1
      rw [ht] at m3 ⊢
      refine ⟨?_, ?_, ?_, ?_⟩
      · simp [fundEvents, sumByLog, Event.number]
      · simp [fundEvents, sumByLog, Event.number]
      · intro b _ r; simp [fundEvents, readPaid, payee]
      · intro _ hm
        have : s.st.admin ≠ me := by
          intro e; rw [e] at m2
          simp only [Tx.ctx] at hm
          rw [hm] at m2; cases m2
        simp [fundEvents, sumByLog, Event.number, m3 tok me, Flow.delta, this]

end Phoenix.Rewards
