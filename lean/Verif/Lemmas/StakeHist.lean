import Verif.Lemmas.StakeTime
/-! Whole histories of the stake contract (helpers only). -/
namespace Phoenix.Stake
open Phoenix Phoenix.Spec

theorem exec_error {me : Addr} {s : Sys} {t : Tx} {e : Err} (h : step me s t = .error e) : exec me s t = s := by
  unfold exec; rw [h]

theorem distOf_error {me : Addr} {s : Sys} {t : Tx} {e : Err} (h : step me s t = .error e) (tok : Addr) :
    Spec.distOf me s tok t = [] := by
  have := succeeds_error h
  unfold Spec.distOf
  split
  · rw [this]; simp
  · rfl

theorem isDist_error {me : Addr} {s : Sys} {t : Tx} {e : Err} (h : step me s t = .error e) :
    Spec.isDist me s t = false := by
  have := succeeds_error h
  unfold Spec.isDist
  split
  · exact this
  · rfl

theorem paidBy_error {me : Addr} {s : Sys} {t : Tx} {e : Err} (h : step me s t = .error e) (tok : Addr) :
    Spec.paidBy me s tok t = 0 := by
  unfold Spec.paidBy
  split
  · rw [exec_error h]; ring
  · rfl

theorem InvB.later {me : Addr} {s : Sys} {n n' : Nat} {seen : List Nat} (h : InvB me s n seen) (hn : n ≤ n') :
    InvB me s n' seen :=
  ⟨fun a e he => le_trans (h.ts a e he) hn, fun a => le_trans (h.last a) hn, h.seenH,
    fun d hd => le_trans (h.seenLe d hd) hn, h.sortR, h.sub, h.early, h.backed⟩

/-- One transaction, successful or not. -/
theorem exec_B {me : Addr} {s : Sys} {t : Tx} {n : Nat} {seen : List Nat}
    (ht : Spec.Possible me t) (hA : InvA me s) (hB : InvB me s n seen) (hn : n ≤ t.ctx.now)
    (hf : Spec.isDist me s t = true → t.ctx.now ∉ seen) : StepB me s (exec me s t) t seen := by
  cases h : step me s t with
  | ok s' => rw [exec_ok h]; exact step_B h ht hA hB hn hf
  | error e =>
    rw [exec_error h]
    constructor
    · rw [isDist_error h]; exact hB.later hn
    · intro tok S
      exact ⟨S, by rw [paidBy_error h, distOf_error h]; simp⟩

theorem distributed_cons (me : Addr) (s : Sys) (tok : Addr) (t : Tx) (ts : List Tx) :
    Spec.distributed me s tok (t :: ts) =
      ((Spec.distOf me s tok t).map Spec.Dist.amount).sum + Spec.distributed me (exec me s t) tok ts := by
  simp [Spec.distributed, Spec.dists]

theorem run_B {me : Addr} {s : Sys} {n : Nat} {seen : List Nat} (ts : List Tx) (ht : ∀ t ∈ ts, Spec.Possible me t)
    (hA : InvA me s) (hB : InvB me s n seen) (ho : Spec.TimeOrdered n ts) (hd : Spec.DistinctTimes me s seen ts) :
    (∃ n' seen', InvB me (run me s ts) n' seen' ∧ ∀ k, n ≤ k → (∀ t ∈ ts, t.ctx.now ≤ k) → n' ≤ k) ∧
    ∀ tok, ∀ S : Finset Addr, ∃ S' : Finset Addr, Phi (run me s ts).st tok S + Spec.paidOut me s tok ts ≤
      Phi s.st tok S' + Spec.distributed me s tok ts := by
  induction ts generalizing s n seen with
  | nil => exact ⟨⟨n, seen, hB, fun k hk _ => hk⟩, fun tok S => ⟨S, by simp [run, Spec.paidOut, Spec.distributed, Spec.dists]⟩⟩
  | cons t ts ih =>
    have hp := ht t List.mem_cons_self
    have hstep := exec_B hp hA hB ho.1 hd.1
    obtain ⟨⟨n', seen', i1, i2⟩, i3⟩ := ih (fun u hu => ht u (List.mem_cons_of_mem _ hu)) (exec_invA hp hA) hstep.inv ho.2 hd.2
    refine ⟨⟨n', seen', i1, fun k hk hall => i2 k (hall t List.mem_cons_self)
      (fun u hu => hall u (List.mem_cons_of_mem _ hu))⟩, fun tok S => ?_⟩
    obtain ⟨S1, k1⟩ := i3 tok S
    obtain ⟨S2, k2⟩ := hstep.acct tok S1
    refine ⟨S2, ?_⟩
    rw [distributed_cons]
    simp only [Spec.paidOut]
    show Phi (run me (exec me s t) ts).st tok S + _ ≤ _
    omega

theorem genesis_B {me : Addr} {s : Sys} (h : Spec.Genesis me s) : InvB me s 0 [] := by
  obtain ⟨h1, h2, h3⟩ := h
  refine ⟨?_, ?_, ?_, ?_, ?_, ?_, ?_, ?_⟩ <;> (try rw [h1])
  · simp [fresh, noInfo]
  · simp [fresh, noInfo]
  · simp [fresh, SMap.get]
  · simp
  · simp [fresh]
  · simp [fresh]
  · simp [fresh, SMap.get]
  · intro tok S; simp only [Phi, fresh, principal, add_zero]; exact h2 _ _

/-- The log of one transaction. -/
structure LogStep (me : Addr) (s s' : Sys) (t : Tx) (seen : List Nat) : Prop where
  rew : ∀ tok, (s'.st.rewards tok).getD [] =
    (s.st.rewards tok).getD [] ++ (Spec.distOf me s tok t).map (fun d => (d.time, d.amount.toNat))
  keep : ∀ x ∈ seen, s'.st.hist.get x = s.st.hist.get x
  new : ∀ tok, ∀ d ∈ Spec.distOf me s tok t, s'.st.hist.get d.time = some d.staked.toNat ∧ 0 ≤ d.amount ∧ 0 ≤ d.staked ∧
    d.time = t.ctx.now ∧ Spec.isDist me s t = true

theorem step_log {me : Addr} {s s' : Sys} {t : Tx} {n : Nat} {seen : List Nat} (h : step me s t = .ok s')
    (ht : Spec.Possible me t) (hA : InvA me s) (hB : InvB me s n seen) (hn : n ≤ t.ctx.now)
    (hf : Spec.isDist me s t = true → t.ctx.now ∉ seen) : LogStep me s s' t seen := by
  have hok := h
  unfold Spec.Possible at ht
  cases t with
  | token c tok op =>
    simp only [step, bind_ok, ok_inj] at h
    obtain ⟨L, hL, rfl⟩ := h
    exact ⟨fun _ => by simp [Spec.distOf], fun _ _ => rfl, fun _ d hd => by simp [Spec.distOf] at hd⟩
  | stake c k =>
    simp only [Tx.ctx] at ht hn hf
    cases k with
    | init a lp mb mr m o mc =>
      simp only [step, bind_ok, ok_inj] at h
      obtain ⟨v, hi, rfl⟩ := h
      obtain ⟨h1, h2, h3, h4, rfl⟩ := init_inv hi
      obtain ⟨n1, n2, n3, n4, n5⟩ := hA.noCfg h1
      exact ⟨fun _ => by simp [Spec.distOf], fun _ _ => by simp only [n4], fun _ d hd => by simp [Spec.distOf] at hd⟩
    | bond a x =>
      simp only [step, bind_ok, ok_inj] at h
      obtain ⟨⟨v, L⟩, hb, rfl⟩ := h
      obtain ⟨h1, cfg, h2, h3, h4, h5, h6, h7, rfl, h8, h9⟩ := bond_inv hb
      exact ⟨fun _ => by simp [Spec.distOf], fun _ _ => rfl, fun _ d hd => by simp [Spec.distOf] at hd⟩
    | unbond a x ts =>
      simp only [step, bind_ok, ok_inj] at h
      obtain ⟨⟨v, L⟩, hb, rfl⟩ := h
      obtain ⟨h1, cfg, p, q, h2, h3, _, h4, h5, rfl, h8, h9⟩ := unbond_inv hb
      exact ⟨fun _ => by simp [Spec.distOf], fun _ _ => rfl, fun _ d hd => by simp [Spec.distOf] at hd⟩
    | createFlow a u =>
      simp only [step, bind_ok, ok_inj] at h
      obtain ⟨v, hi, rfl⟩ := h
      obtain ⟨h1, cfg, h2, h3, h4, rfl⟩ := createFlow_inv hi
      have hnone : s.st.rewards u = none := by
        by_contra hc
        exact h4 ((hA.dist u).mpr hc)
      refine ⟨fun tok => ?_, fun _ _ => rfl, fun _ d hd => by simp [Spec.distOf] at hd⟩
      simp only [upd_apply, Spec.distOf, List.map_nil, List.append_nil]
      by_cases e : tok = u
      · subst e; simp [hnone]
      · simp [e]
    | distribute a x u =>
      have hsuc := succeeds_ok hok
      have hisd : Spec.isDist me s (.stake c (.distribute a x u)) = true := hsuc
      have hfr : c.now ∉ seen := hf hisd
      simp only [step, bind_ok, ok_inj] at h
      obtain ⟨⟨v, L⟩, hb, rfl⟩ := h
      obtain ⟨h1, cfg, m, h2, h3, h4, h5, h6, h7, htr, rfl, h8, h9⟩ := distribute_inv hb
      have hne : a ≠ me := by rintro rfl; rw [ht] at h1; simp at h1
      have hx : x ≤ I128_MAX := transfer_small htr hne.symm (hA.led.nonneg _ _)
      have hxc : asU128 x = x.toNat := by have := asU128_nonneg h6 hx; omega
      have htc : asU128 s.st.total = s.st.total.toNat := by
        have := asU128_nonneg hA.nonneg hA.small; omega
      have hkeys : ∀ p ∈ m, p.1 < c.now := by
        intro p hp
        have hs := (hB.sub u m h5 p hp).1
        have := hB.seenLe _ hs
        have : p.1 ≠ c.now := fun e => hfr (e ▸ hs)
        omega
      refine ⟨fun tok => ?_, fun y hy => ?_, fun tok d hd => ?_⟩
      · simp only [upd_apply, Spec.distOf, hsuc, and_true]
        by_cases e : tok = u
        · subst e
          simp [h5, SMap.set_append hkeys, hxc]
        · have e' : u ≠ tok := fun h => e h.symm
          simp [e, e']
      · simp only [SMap.get_set]
        rw [if_neg]
        rintro rfl
        exact hfr hy
      · simp only [Spec.distOf, hsuc, and_true] at hd
        split at hd
        · simp only [List.mem_singleton] at hd
          subst hd
          refine ⟨?_, h6, hA.nonneg, rfl, hisd⟩
          simp [SMap.get_set, htc]
        · simp at hd
    | withdraw a =>
      simp only [step, bind_ok, ok_inj] at h
      obtain ⟨⟨v, L⟩, hb, rfl⟩ := h
      obtain ⟨rfl, h1⟩ := withdraw_inv hb
      exact ⟨fun _ => by simp [Spec.distOf], fun _ _ => rfl, fun _ d hd => by simp [Spec.distOf] at hd⟩

theorem exec_log {me : Addr} {s : Sys} {t : Tx} {n : Nat} {seen : List Nat}
    (ht : Spec.Possible me t) (hA : InvA me s) (hB : InvB me s n seen) (hn : n ≤ t.ctx.now)
    (hf : Spec.isDist me s t = true → t.ctx.now ∉ seen) : LogStep me s (exec me s t) t seen := by
  cases h : step me s t with
  | ok s' => rw [exec_ok h]; exact step_log h ht hA hB hn hf
  | error e =>
    rw [exec_error h]
    exact ⟨fun tok => by rw [distOf_error h]; simp, fun _ _ => rfl, fun tok d hd => by rw [distOf_error h] at hd; simp at hd⟩

/-- With distinct times the stored histories are the list of distributions. -/
theorem run_log {me : Addr} {s : Sys} {n : Nat} {seen : List Nat} (ts : List Tx) (ht : ∀ t ∈ ts, Spec.Possible me t)
    (hA : InvA me s) (hB : InvB me s n seen) (ho : Spec.TimeOrdered n ts) (hd : Spec.DistinctTimes me s seen ts) :
    (∀ tok, ((run me s ts).st.rewards tok).getD [] =
      (s.st.rewards tok).getD [] ++ (Spec.dists me s tok ts).map (fun d => (d.time, d.amount.toNat))) ∧
    (∀ x ∈ seen, (run me s ts).st.hist.get x = s.st.hist.get x) ∧
    (∀ tok, ∀ d ∈ Spec.dists me s tok ts, (run me s ts).st.hist.get d.time = some d.staked.toNat ∧ 0 ≤ d.amount ∧
      0 ≤ d.staked) := by
  induction ts generalizing s n seen with
  | nil => exact ⟨fun tok => by simp [run, Spec.dists], fun _ _ => rfl, fun tok d hd => by simp [Spec.dists] at hd⟩
  | cons t ts ih =>
    have hp := ht t List.mem_cons_self
    have hstep := exec_B hp hA hB ho.1 hd.1
    have hlog := exec_log hp hA hB ho.1 hd.1
    obtain ⟨i1, i2, i3⟩ := ih (fun u hu => ht u (List.mem_cons_of_mem _ hu)) (exec_invA hp hA) hstep.inv ho.2 hd.2
    have hr : run me s (t :: ts) = run me (exec me s t) ts := rfl
    rw [hr]
    refine ⟨fun tok => ?_, fun x hx => ?_, fun tok d hd' => ?_⟩
    · rw [i1, hlog.rew]; simp [Spec.dists]
    · rw [i2 x, hlog.keep x hx]
      split
      · exact List.mem_cons_of_mem _ hx
      · exact hx
    · simp only [Spec.dists, List.mem_append] at hd'
      rcases hd' with h | h
      · obtain ⟨k1, k2, k3, k4, k5⟩ := hlog.new tok d h
        refine ⟨?_, k2, k3⟩
        rw [i2 d.time, k1]
        rw [k5, k4]; simp
      · exact i3 tok d h

/-- The claimable amount in terms of the list of distributions. -/
theorem due_eq {v : State} {tok : Addr} {m : SMap} {log : List Spec.Dist} (hm : v.rewards tok = some m)
    (hlog : m = log.map (fun d => (d.time, d.amount.toNat)))
    (hh : ∀ d ∈ log, v.hist.get d.time = some d.staked.toNat ∧ 0 ≤ d.amount ∧ 0 ≤ d.staked) (i : Info) (now : Nat) :
    ((looked m i.last now).map (payFor v.hist i.stakes)).sum = Spec.due log i now := by
  clear hm
  subst hlog
  unfold looked Spec.due
  rw [List.filter_map, List.map_map]
  congr 1
  apply List.map_congr_left
  intro d hd
  obtain ⟨h1, h2, h3⟩ := hh d (List.mem_of_mem_filter hd)
  simp only [Function.comp, payFor, h1]
  have e1 : (d.amount.toNat : Int) = d.amount := by omega
  have e2 : (d.staked.toNat : Int) = d.staked := by omega
  rw [e1, e2]

/-- The contract's holdings never fall short of principal plus distributed minus paid. -/
theorem step_books {me : Addr} {s s' : Sys} {t : Tx} (h : step me s t = .ok s') (ht : Spec.Possible me t)
    (hA : InvA me s) (tok : Addr) :
    s.led.bal tok me - principal s.st tok + ((Spec.distOf me s tok t).map Spec.Dist.amount).sum - Spec.paidBy me s tok t ≤
      s'.led.bal tok me - principal s'.st tok := by
  have hok := h
  unfold Spec.Possible at ht
  cases t with
  | token c u op =>
    simp only [step, bind_ok, ok_inj] at h
    obtain ⟨L, hL, rfl⟩ := h
    obtain ⟨k1, k2, -⟩ := ledger_call_others hL ht hA.led
    have := k2 tok
    simp only [Spec.distOf, Spec.paidBy, List.map_nil, List.sum_nil]; omega
  | stake c k =>
    simp only [Tx.ctx] at ht
    cases k with
    | init a lp mb mr m o mc =>
      simp only [step, bind_ok, ok_inj] at h
      obtain ⟨v, hi, rfl⟩ := h
      obtain ⟨h1, h2, h3, h4, rfl⟩ := init_inv hi
      simp only [Spec.distOf, Spec.paidBy, List.map_nil, List.sum_nil, principal, h1]
      split <;> omega
    | bond a x =>
      simp only [step, bind_ok, ok_inj] at h
      obtain ⟨⟨v, L⟩, hb, rfl⟩ := h
      obtain ⟨h1, cfg, h2, h3, h4, h5, h6, h7, rfl, h8, h9⟩ := bond_inv hb
      have hne : a ≠ me := by rintro rfl; rw [ht] at h1; simp at h1
      have k := settles_me h8 (me := me) tok
      simp only [hne, and_false, if_false, and_true] at k
      simp only [Spec.distOf, Spec.paidBy, List.map_nil, List.sum_nil, principal, h2, k]
      split <;> omega
    | unbond a x ts =>
      simp only [step, bind_ok, ok_inj] at h
      obtain ⟨⟨v, L⟩, hb, rfl⟩ := h
      obtain ⟨h1, cfg, p, q, h2, h3, _, h4, h5, rfl, h8, h9⟩ := unbond_inv hb
      have hne : a ≠ me := by rintro rfl; rw [ht] at h1; simp at h1
      have k := settles_me h8 (me := me) tok
      simp only [hne, and_false, if_false, and_true] at k
      simp only [Spec.distOf, Spec.paidBy, List.map_nil, List.sum_nil, principal, h2, k]
      split <;> omega
    | createFlow a u =>
      simp only [step, bind_ok, ok_inj] at h
      obtain ⟨v, hi, rfl⟩ := h
      obtain ⟨h1, cfg, h2, h3, h4, rfl⟩ := createFlow_inv hi
      simp only [Spec.distOf, Spec.paidBy, List.map_nil, List.sum_nil, principal]; omega
    | distribute a x u =>
      have hsuc := succeeds_ok hok
      simp only [step, bind_ok, ok_inj] at h
      obtain ⟨⟨v, L⟩, hb, rfl⟩ := h
      obtain ⟨h1, cfg, m, h2, h3, h4, h5, h6, h7, htr, rfl, h8, h9⟩ := distribute_inv hb
      have hne : a ≠ me := by rintro rfl; rw [ht] at h1; simp at h1
      have k := settles_me h8 (me := me) tok
      simp only [hne, and_false, if_false, and_true] at k
      have hd : ((Spec.distOf me s tok (.stake c (.distribute a x u))).map Spec.Dist.amount).sum =
          if u = tok then x else 0 := by
        simp only [Spec.distOf, hsuc, and_true]
        split <;> simp
      rw [hd]
      simp only [Spec.paidBy, principal, k]
      omega
    | withdraw a =>
      have hex := exec_ok hok
      simp only [step, bind_ok, ok_inj] at h
      obtain ⟨⟨v, L⟩, hb, rfl⟩ := h
      obtain ⟨rfl, h1⟩ := withdraw_inv hb
      simp only [Spec.distOf, Spec.paidBy, hex, List.map_nil, List.sum_nil, principal]
      omega

theorem run_books {me : Addr} {s : Sys} (ts : List Tx) (ht : ∀ t ∈ ts, Spec.Possible me t) (hA : InvA me s) (tok : Addr) :
    s.led.bal tok me - principal s.st tok + Spec.distributed me s tok ts - Spec.paidOut me s tok ts ≤
      (run me s ts).led.bal tok me - principal (run me s ts).st tok := by
  induction ts generalizing s with
  | nil => simp [run, Spec.distributed, Spec.dists, Spec.paidOut]
  | cons t ts ih =>
    have hp := ht t List.mem_cons_self
    have i := ih (fun u hu => ht u (List.mem_cons_of_mem _ hu)) (exec_invA hp hA)
    have hr : run me s (t :: ts) = run me (exec me s t) ts := rfl
    rw [hr, distributed_cons]
    simp only [Spec.paidOut]
    cases h : step me s t with
    | ok s' =>
      have := step_books h hp hA tok
      rw [exec_ok h] at *; omega
    | error e =>
      rw [paidBy_error h, distOf_error h]
      rw [exec_error h] at *
      simp only [List.map_nil, List.sum_nil]; omega

end Phoenix.Stake
