import Verif.Lemmas.Work
import Verif.Props.Stake
/-!
Property theorems about the work done by the calls of the stake contract: C142.
The counting model (`Phoenix.Work`) computes the same results as the model of the contract and
additionally the number of list and map elements read, written and visited.  The size of a stored
list is never assumed: it is expressed by what happened in the history.
-/
namespace Phoenix.Props.Work
open Phoenix Phoenix.Stake Phoenix.Stake.Spec Phoenix.Work.Spec Phoenix.Props

/-- **C142** The counting model is the model of the contract: same acceptance, same error, same
effect. -/
theorem C142_same (me : Addr) (s : Sys) (t : Tx) : (Work.step me s t).map Prod.fst = Stake.step me s t :=
  Work.step_fst me s t

/-- **C142** The number of stakes of an account is the number of its accepted bonds minus the
number of its accepted unbonds, and the number of reward tokens is the number of accepted
announcements. -/
theorem C142_sizes {me : Addr} {s : Sys} (h0 : Genesis me s) (ts : List Tx) :
    (∀ a, stakes (run me s ts) a + happened me (unbonds a) s ts = happened me (bonds a) s ts) ∧
      (run me s ts).st.dists.length = happened me announces s ts :=
  have h := Work.sizes (me := me) h0.1 ts
  ⟨h.stakes, h.dists⟩

/-- **C142** The work of a bond depends only on the number of stakes the account has itself:
whatever others did, it is twice that number plus one. -/
theorem C142_bond {me : Addr} {s s' : Sys} {c : Ctx} {a : Addr} {x : Int} {n : Nat}
    (h : Work.step me s (.stake c (.bond a x)) = .ok (s', n)) : n = 2 * stakes s a + 1 := by
  simp only [Work.step, bind_ok, ok_inj, Prod.mk.injEq, Prod.exists] at h
  obtain ⟨v, L, k, h, _, rfl⟩ := h
  unfold Work.bond at h
  simp only [bind_ok, ok_inj, Prod.mk.injEq] at h
  obtain ⟨_, _, _, _, _, _, _, _, _, _, _, _, _, rfl⟩ := h
  simp only [List.length_append, List.length_singleton, stakes, stakesOf, queryStaked]
  omega

/-- **C142** The work of an unbond depends only on the number of stakes the account has itself:
at least twice and less than three times that number. -/
theorem C142_unbond {me : Addr} {s s' : Sys} {c : Ctx} {a : Addr} {x : Int} {u n : Nat}
    (h : Work.step me s (.stake c (.unbond a x u)) = .ok (s', n)) :
    2 * stakes s a ≤ n ∧ n < 3 * stakes s a := by
  simp only [Work.step, bind_ok, ok_inj, Prod.mk.injEq, Prod.exists] at h
  obtain ⟨v, L, k, h, _, rfl⟩ := h
  unfold Work.unbond at h
  simp only [bind_ok, ok_inj, Prod.mk.injEq, Prod.exists] at h
  obtain ⟨_, _, _, _, l, j, hl, _, _, _, _, _, _, _, rfl⟩ := h
  obtain ⟨a1, a2, a3⟩ := Work.removeStake_work hl
  simp only [stakes, stakesOf, queryStaked]
  omega

/-- **C142** The work of announcing a reward token is three times the number of reward tokens
announced before, plus one. -/
theorem C142_announce {me : Addr} {s s' : Sys} (h0 : Genesis me s) (ts : List Tx) {c : Ctx} {a t : Addr} {n : Nat}
    (h : Work.step me (run me s ts) (.stake c (.createFlow a t)) = .ok (s', n)) :
    n = 3 * happened me announces s ts + 1 := by
  have hz := (Work.sizes (me := me) h0.1 ts).dists
  simp only [Work.step, bind_ok, ok_inj, Prod.mk.injEq, Prod.exists] at h
  obtain ⟨v, k, h, _, rfl⟩ := h
  unfold Work.createFlow at h
  simp only [bind_ok, ok_inj, Prod.mk.injEq] at h
  obtain ⟨_, _, _, _, _, _, _, _, _, rfl⟩ := h
  simp only [List.length_append, List.length_singleton]
  omega

/-- **C142** The work of a distribution is bounded by the number of reward tokens announced and the
number of distributions made before. -/
theorem C142_distribute {me : Addr} {s s' : Sys} (h0 : Genesis me s) (ts : List Tx) {c : Ctx} {a t : Addr} {x : Int}
    {n : Nat} (h : Work.step me (run me s ts) (.stake c (.distribute a x t)) = .ok (s', n)) :
    n ≤ 2 * happened me announces s ts + 4 * happened me distributes s ts + 2 := by
  have hz := Work.sizes (me := me) h0.1 ts
  have h1 := hz.dists
  have h2 := hz.hist (fun _ => true)
  have h3 := hz.sum (fun _ => true)
  simp only [List.filter_true, SMap.keys, List.length_map] at h2 h3
  simp only [Work.step, bind_ok, ok_inj, Prod.mk.injEq, Prod.exists] at h
  obtain ⟨v, L, k, h, _, rfl⟩ := h
  unfold Work.distribute at h
  simp only [bind_ok, req_ok, rewardHistory_ok, ok_inj, Prod.mk.injEq] at h
  obtain ⟨_, _, _, _, _, _, _, hm, m, hmm, _, _, _, rfl⟩ := h
  have e1 := Work.set_filter (run me s ts).st.hist c.now (asU128 (run me s ts).st.total) (fun _ => true)
  have e2 := Work.set_filter m c.now (asU128 x) (fun _ => true)
  simp only [List.filter_true, SMap.keys, List.length_map, if_true] at e1 e2
  have e3 : m.length ≤ ((run me s ts).st.dists.map (fun t => (Work.mapOf (run me s ts).st t).length)).sum := by
    have : m.length = (Work.mapOf (run me s ts).st t).length := by simp [Work.mapOf, hmm]
    rw [this]
    exact List.single_le_sum (fun _ _ => Nat.zero_le _) _
      (List.mem_map_of_mem (f := fun t => (Work.mapOf (run me s ts).st t).length) hm)
  simp only [distributes]
  omega

/-- **C142** The work of a withdrawal: with `S` stakes of the account, `K` announced reward tokens,
`D` distributions ever made and `R` of them made after the account's last withdrawal, at most
`2 S + 2 K + (K + 4) D + R (S + 1)`. -/
theorem C142_withdraw {me : Addr} {s s' : Sys} (h0 : Genesis me s) (ts : List Tx) {c : Ctx} {a : Addr} {n : Nat}
    (h : Work.step me (run me s ts) (.stake c (.withdraw a)) = .ok (s', n)) :
    n ≤ 2 * stakes (run me s ts) a + 2 * happened me announces s ts +
        (happened me announces s ts + 4) * happened me distributes s ts +
        happened me (distributesAt (fun d => lastClaim (run me s ts) a < d)) s ts * (stakes (run me s ts) a + 1) := by
  have hz := Work.sizes (me := me) h0.1 ts
  have h1 := hz.dists
  have h2 := hz.hist (fun _ => true)
  have h3 := hz.sum (fun _ => true)
  have h4 := hz.sum (fun d => lastClaim (run me s ts) a < d)
  have h5 := hz.sorted
  simp only [List.filter_true, SMap.keys, List.length_map] at h2 h3
  generalize run me s ts = r at *
  simp only [Work.step, bind_ok, ok_inj, Prod.mk.injEq, Prod.exists] at h
  obtain ⟨v, L, k, h, _, rfl⟩ := h
  unfold Work.withdraw at h
  simp only [bind_ok, ok_inj, Prod.mk.injEq, Prod.exists] at h
  obtain ⟨L1, j, hp, _, rfl⟩ := h
  obtain ⟨_, hw⟩ := Work.payLoop_work hp
  have e1 : (r.st.dists.map (fun t => 4 * (Work.mapOf r.st t).length)).sum =
      4 * (r.st.dists.map (fun t => (Work.mapOf r.st t).length)).sum := Work.sum_four ..
  have e2 : (r.st.dists.map (fun t => (relevant (Work.mapOf r.st t).keys (r.st.info a).last c.now).length)).sum ≤
      happened me (distributesAt (fun d => lastClaim r a < d)) s ts := by
    refine le_trans (List.sum_le_sum ?_) h4
    intro t _
    rw [relevant_sorted (SMap.keys_sorted (h5 t))]
    refine List.Sublist.length_le ?_
    refine List.monotone_filter_right _ ?_
    intro d hd
    simp only [decide_eq_true_eq] at hd ⊢
    exact hd.1
  rw [e1, h1] at hw
  have e3 := Nat.mul_le_mul_right ((r.st.info a).stakes.length + 1) e2
  have e4 := Nat.mul_le_mul_left (happened me announces s ts) (Nat.succ_le_succ h2)
  simp only [distributes, stakes, stakesOf, queryStaked]
  simp only [Nat.succ_eq_add_one] at e4
  rw [h1]
  generalize happened me (distributesAt fun x => true) s ts = D at *
  generalize happened me announces s ts = K at *
  rw [Nat.mul_add] at e4 hw
  rw [Nat.mul_add] at e4
  rw [Nat.add_mul K 4 D]
  omega

/-- **C142** No withdrawal ever gets cheaper, whoever makes it: when no two distributions share
their time, every withdrawal by anybody, with or without stakes and however recently the last one
was, costs at least `(K + 4) D` for `K` announced reward tokens and `D` distributions ever made.
Nothing ever removes an entry from the histories. -/
theorem C142_withdraw_grows {me : Addr} {s s' : Sys} (h0 : Genesis me s) (ts : List Tx)
    (ht : DistinctTimes me s [] ts) {c : Ctx} {a : Addr} {n : Nat}
    (h : Work.step me (run me s ts) (.stake c (.withdraw a)) = .ok (s', n)) :
    (happened me announces s ts + 4) * happened me distributes s ts ≤ n := by
  have h1 := (Work.sizes (me := me) h0.1 ts).dists
  obtain ⟨h2, h3⟩ := Work.grows ht (by simp [h0.1, fresh, SMap.keys])
    (by simp [h0.1, fresh, Work.mapOf, SMap.keys]) (by simp [h0.1, fresh]) (by simp [h0.1, fresh])
  have e5 : s.st.hist.length = 0 := by simp [h0.1, fresh]
  have e6 : (s.st.dists.map (fun t => (Work.mapOf s.st t).length)).sum = 0 := by simp [h0.1, fresh]
  rw [e5, Nat.zero_add] at h2
  rw [e6, Nat.zero_add] at h3
  generalize run me s ts = r at *
  simp only [Work.step, bind_ok, ok_inj, Prod.mk.injEq, Prod.exists] at h
  obtain ⟨v, L, k, h, _, rfl⟩ := h
  unfold Work.withdraw at h
  simp only [bind_ok, ok_inj, Prod.mk.injEq, Prod.exists] at h
  obtain ⟨L1, j, hp, _, rfl⟩ := h
  obtain ⟨hw, _⟩ := Work.payLoop_work hp
  have e1 : (r.st.dists.map (fun t => 4 * (Work.mapOf r.st t).length)).sum =
      4 * (r.st.dists.map (fun t => (Work.mapOf r.st t).length)).sum := Work.sum_four ..
  rw [e1, h1, h2, h3, Nat.mul_add] at hw
  rw [Nat.add_mul]
  omega

/-- After the example history account 2 has two stakes, one token was announced and two
distributions were made.  Another bond of account 2 costs 5, its unbond 5, another announcement 4,
another distribution 12, and a withdrawal of account 3, which never did anything, 14. -/
example : happened 100 announces sExStart sExHist = 1 ∧ happened 100 distributes sExStart sExHist = 2 ∧
    happened 100 (bonds 1) sExStart sExHist = 2 ∧ happened 100 (unbonds 1) sExStart sExHist = 1 ∧
    stakes (run 100 sExStart sExHist) 1 = 1 ∧ stakes (run 100 sExStart sExHist) 2 = 2 ∧
    okAnd (Work.step 100 (run 100 sExStart sExHist) (.stake (sBy 2 (sDay 80)) (.bond 2 10))) (fun r => r.2 == 5) ∧
    okAnd (Work.step 100 (run 100 sExStart sExHist) (.stake (sBy 2 (sDay 80)) (.unbond 2 50 (sDay 76))))
      (fun r => r.2 == 5) ∧
    okAnd (Work.step 100 (run 100 sExStart sExHist) (.stake (sBy 9 (sDay 80)) (.createFlow 9 30)))
      (fun r => r.2 == 4) ∧
    okAnd (Work.step 100 (run 100 sExStart sExHist) (.stake (sBy 7 (sDay 80)) (.distribute 7 5 40)))
      (fun r => r.2 == 12) ∧
    okAnd (Work.step 100 (run 100 sExStart sExHist) (.stake (sBy 3 (sDay 80)) (.withdraw 3))) (fun r => r.2 == 14) := by
  decide +kernel

/-- The bound on withdrawals is attained: after seven transactions account 2 has one stake and two
distributions to be paid for; its withdrawal costs 18 = 2·1 + 2·1 + (1 + 4)·2 + 2·(1 + 1). -/
example : stakes (run 100 sExStart (sExHist.take 7)) 2 = 1 ∧
    happened 100 (distributesAt (fun d => lastClaim (run 100 sExStart (sExHist.take 7)) 2 < d)) sExStart
      (sExHist.take 7) = 2 ∧
    okAnd (Work.step 100 (run 100 sExStart (sExHist.take 7)) (.stake (sBy 2 (sDay 75)) (.withdraw 2)))
      (fun r => r.2 == 18) := by
  decide +kernel

/-- The histories of the examples satisfy the hypotheses of C142_withdraw_grows. -/
example : DistinctTimes 100 sExStart [] sExHist := sExHist_wellTimed.distinct

/-- **C142** The `max_complexity` given to `initialize` limits nothing: in an initialised contract
every call is accepted or refused with the same error, does the same and does the same work
whatever that number is. -/
theorem C142_complexity_ignored (me : Addr) {s : Sys} {cfg : Config} (hc : s.st.cfg = some cfg) (k : Nat) (t : Tx) :
    Work.step me (withComplexity k s) t = (Work.step me s t).map (fun r => (withComplexity k r.1, r.2)) := by
  have hc' : (withComplexity k s).st.cfg = some { cfg with maxComplexity := k } := by simp [withComplexity, hc]
  have g1 : getConfig s.st = .ok cfg := by simp [getConfig, hc]
  have g2 : getConfig (withComplexity k s).st = .ok { cfg with maxComplexity := k } := by simp [getConfig, hc']
  cases t with
  | token c tok op =>
    simp only [Work.step]
    show (s.led.call c tok op >>= _) = _
    cases s.led.call c tok op <;> rfl
  | stake c call =>
    cases call with
    | init a lp mb mr m o mc =>
      simp [Work.step, Stake.init, hc, hc', req, bind, Except.bind, Except.map]
    | bond a x =>
      simp only [Work.step, Work.bond, g1, g2, bind, Except.bind]
      simp only [withComplexity]
      cases requireAuth c a with
      | error _ => rfl
      | ok v0 =>
        try simp only
        cases req (¬ x < cfg.minBond) (.code 4) with
        | error _ => rfl
        | ok v1 =>
          try simp only
          cases s.led.transfer (c.as me) cfg.lpToken a me x with
          | error _ => rfl
          | ok v2 =>
            try simp only
            cases addI (s.st.info a).total x with
            | error _ => rfl
            | ok v3 =>
              try simp only
              cases addI s.st.total x with
              | error _ => rfl
              | ok v4 =>
                try simp only
                rfl
    | unbond a x u =>
      simp only [Work.step, Work.unbond, g1, g2, bind, Except.bind]
      simp only [withComplexity]
      cases requireAuth c a with
      | error _ => rfl
      | ok v0 =>
        try simp only
        cases Work.removeStake x u (s.st.info a).stakes with
        | error _ => rfl
        | ok v1 =>
          try simp only
          cases subI (s.st.info a).total x with
          | error _ => rfl
          | ok v2 =>
            try simp only
            cases s.led.transfer (c.as me) cfg.lpToken me a x with
            | error _ => rfl
            | ok v3 =>
              try simp only
              cases subI s.st.total x with
              | error _ => rfl
              | ok v4 =>
                try simp only
                rfl
    | createFlow a t =>
      simp only [Work.step, Work.createFlow, g1, g2, bind, Except.bind]
      simp only [withComplexity]
      cases requireAuth c a with
      | error _ => rfl
      | ok v0 =>
        try simp only
        cases req (¬ (a ≠ cfg.manager ∧ a ≠ cfg.owner)) (.code 5) with
        | error _ => rfl
        | ok v1 =>
          try simp only
          by_cases hm : t ∈ s.st.dists <;> simp [req, hm, Except.map]
    | distribute a x t =>
      have hr : rewardHistory (withComplexity k s).st t = rewardHistory s.st t := rfl
      simp only [Work.step, Work.distribute, g1, g2, hr, bind, Except.bind]
      simp only [withComplexity]
      cases requireAuth c a with
      | error _ => rfl
      | ok v0 =>
        try simp only
        cases req (¬ (a ≠ cfg.manager ∧ a ≠ cfg.owner)) (.code 5) with
        | error _ => rfl
        | ok v1 =>
          try simp only
          by_cases hm : t ∈ s.st.dists
          · simp only [req, hm, if_true]
            cases rewardHistory s.st t with
            | error _ => rfl
            | ok v2 =>
              simp only
              cases s.led.transfer (c.as me) t a me x with
              | error _ => rfl
              | ok v3 => rfl
          · simp [req, hm, Except.map]
    | withdraw a =>
      have hp : ∀ (l : List Addr) (L : Ledger),
          Work.payLoop me c (withComplexity k s).st a l L = Work.payLoop me c s.st a l L := by
        intro l
        induction l with
        | nil => intro L; rfl
        | cons t l ih => intro L; simp only [Work.payLoop, ih]; rfl
      simp only [Work.step, Work.withdraw, hp]
      show (Work.payLoop me c s.st a s.st.dists s.led >>= _) >>= _ = _
      cases Work.payLoop me c s.st a s.st.dists s.led <;> rfl

/-- An initialised contract with a `max_complexity` of 5; account 2 has two stakes and may add more
when the number is 1. -/
example : ((run 100 sExStart sExHist).st.cfg.map Config.maxComplexity) = some 5 ∧
    okAnd (Work.step 100 (withComplexity 1 (run 100 sExStart sExHist)) (.stake (sBy 2 (sDay 80)) (.bond 2 10)))
      (fun r => stakes r.1 2 == 3) := by
  decide +kernel

/-- the announced token 40 is distributed by its manager at the given times, nothing each time -/
def trickle (times : List Nat) : List Tx := times.map (fun d => .stake (sBy 7 d) (.distribute 7 0 40))

/-- the contract set up with reward token 40 and a `max_complexity` of 1 -/
def ready : List Tx := [.stake (sBy 9 0) (.init 9 30 10 1 7 9 1), .stake (sBy 7 1) (.createFlow 7 40)]

theorem transfer_zero {c : Ctx} {L : Ledger} {t a b : Addr} (h : c.auth a = true) (h1 : 0 ≤ L.bal t a)
    (h2 : InI128 (L.bal t a)) (h3 : InI128 (L.bal t b)) : L.transfer c t a b 0 = .ok L := by
  refine Ledger.call_ok.mpr ⟨L t, ?_, ?_⟩
  · refine Token.transfer_ok.mpr ⟨h, le_refl _, h1, by rw [sub_zero]; exact h2, ?_, ?_⟩
    · simp only [Ledger.bal] at *
      rw [upd_apply]; split <;> simpa
    · have : upd (upd (L t).bal a ((L t).bal a - 0)) b (upd (L t).bal a ((L t).bal a - 0) b + 0) = (L t).bal := by
        funext z
        simp only [upd_apply]
        split
        · subst_vars; split <;> simp_all
        · split <;> simp_all
      rw [this]
  · funext z
    rw [upd_apply]; split <;> simp_all

theorem start_small (t a : Addr) : 0 ≤ sExStart.led.bal t a ∧ InI128 (sExStart.led.bal t a) := by
  show (0:Int) ≤ (if a = 1 ∨ a = 2 ∨ a = 7 then 5000 else 0) ∧ InI128 (if a = 1 ∨ a = 2 ∨ a = 7 then 5000 else 0)
  split <;> decide

theorem trickle_run {s : Sys} {m : SMap} {cfg : Config} (hc : s.st.cfg = some cfg) (hm : cfg.manager = 7)
    (hd : s.st.dists = [40]) (hr : s.st.rewards 40 = some m) (hi : s.st.info 3 = noInfo)
    (hL : s.led = sExStart.led) (times : List Nat) :
    ∃ m', (run 100 s (trickle times)).st.dists = [40] ∧ (run 100 s (trickle times)).st.rewards 40 = some m' ∧
      (run 100 s (trickle times)).st.info 3 = noInfo ∧ (run 100 s (trickle times)).led = sExStart.led ∧
      happened 100 distributes s (trickle times) = times.length := by
  induction times generalizing s m with
  | nil => exact ⟨m, hd, hr, hi, hL, rfl⟩
  | cons d times ih =>
    have hstep : Stake.step 100 s (.stake (sBy 7 d) (.distribute 7 0 40)) =
        .ok ⟨{ s.st with hist := s.st.hist.set d (asU128 s.st.total),
                         rewards := upd s.st.rewards 40 (some (m.set d (asU128 0))) }, s.led⟩ := by
      have hl : s.led.transfer ((sBy 7 d).as 100) 40 7 100 0 = .ok s.led := by
        rw [hL]
        exact transfer_zero rfl (start_small _ _).1 (start_small _ _).2 (start_small _ _).2
      have hdis : Stake.distribute 100 (sBy 7 d) s.st s.led 7 0 40 =
          .ok ({ s.st with hist := s.st.hist.set d (asU128 s.st.total),
                           rewards := upd s.st.rewards 40 (some (m.set d (asU128 0))) }, s.led) := by
        unfold Stake.distribute
        simp only [bind_ok, requireAuth_ok, getConfig_ok, req_ok, rewardHistory_ok]
        exact ⟨(), rfl, cfg, hc, (), by simp [hm], (), by simp [hd], m, hr, s.led, hl, rfl⟩
      simp only [Stake.step, hdis]
      rfl
    have he := Work.exec_ok hstep
    have hs : Stake.Spec.succeeds 100 s (.stake (sBy 7 d) (.distribute 7 0 40)) = true := by
      simp [Stake.Spec.succeeds, hstep, Except.toOption]
    obtain ⟨m', i1, i2, i3, i4, i5⟩ := ih (s := exec 100 s (.stake (sBy 7 d) (.distribute 7 0 40)))
      (m := m.set d (asU128 0)) (by rw [he]; exact hc) (by rw [he]; exact hd)
      (by rw [he]; exact upd_same s.st.rewards 40 (some (m.set d (asU128 0)))) (by rw [he]; exact hi) (by rw [he]; exact hL)
    refine ⟨m', i1, i2, i3, i4, ?_⟩
    show (if distributes (.stake (sBy 7 d) (.distribute 7 0 40)) && _ then 1 else 0) + _ = _
    rw [hs]
    show 1 + happened 100 distributes _ (trickle times) = _
    rw [i5, List.length_cons]; omega

theorem trickle_distinct {s : Sys} {times seen : List Nat} (h : times.Nodup) (h2 : ∀ d ∈ times, d ∉ seen) :
    DistinctTimes 100 s seen (trickle times) := by
  induction times generalizing s seen with
  | nil => trivial
  | cons d times ih =>
    obtain ⟨k1, k2⟩ := List.nodup_cons.mp h
    refine ⟨fun _ => h2 d List.mem_cons_self, ih k2 ?_⟩
    intro e he hm
    split at hm
    · rcases List.mem_cons.mp hm with rfl | hm
      · exact k1 he
      · exact h2 e (List.mem_cons_of_mem _ he) hm
    · exact h2 e (List.mem_cons_of_mem _ he) hm

theorem daysLoop_none (m h : SMap) (ds : List Nat) (acc : Int) : Stake.daysLoop m h [] ds acc = .ok acc := by
  induction ds generalizing acc with
  | nil => rfl
  | cons d ds ih =>
    have : Stake.dayReward m h [] d acc = .ok acc := by
      unfold Stake.dayReward
      split
      · split <;> rfl
      · rfl
    simp only [Stake.daysLoop, this]
    exact ih acc

/-- **C142** (finding) There is no limit: for every number there is a history, of a contract with
`max_complexity` 1 and one reward token, after which the withdrawal of an account that never did
anything is accepted and costs more than that number. -/
theorem C142_no_limit (N : Nat) : ∃ ts s' n, WellTimed 100 sExStart ts ∧ (∀ t ∈ ts, Stake.Spec.Possible 100 t) ∧
    stakes (run 100 sExStart ts) 3 = 0 ∧
    Work.step 100 (run 100 sExStart ts) (.stake (sBy 3 (N + 2)) (.withdraw 3)) = .ok (s', n) ∧ N < n := by
  have hrun : run 100 sExStart (ready ++ trickle (List.range' 2 (N + 1))) =
      run 100 (run 100 sExStart ready) (trickle (List.range' 2 (N + 1))) := by simp [run]
  obtain ⟨m, k1, k2, k3, k4, k5⟩ := trickle_run (s := run 100 sExStart ready) (m := []) (cfg := ⟨30, 10, 1, 7, 9, 1⟩)
    (by decide +kernel) rfl (by decide +kernel) (by decide +kernel) (by decide +kernel) rfl (List.range' 2 (N + 1))
  have hd : DistinctTimes 100 sExStart [] (ready ++ trickle (List.range' 2 (N + 1))) := by
    refine ⟨by decide +kernel, ?_⟩
    refine ⟨by decide +kernel, trickle_distinct List.nodup_range' ?_⟩
    intro d _
    have e1 : isDist 100 sExStart (.stake (sBy 9 0) (.init 9 30 10 1 7 9 1)) = false := rfl
    have e2 : isDist 100 (exec 100 sExStart (.stake (sBy 9 0) (.init 9 30 10 1 7 9 1)))
      (.stake (sBy 7 1) (.createFlow 7 40)) = false := rfl
    rw [e1, e2]
    simp
  have ho : ∀ (k i now : Nat), now ≤ i → TimeOrdered now (trickle (List.range' i k)) := by
    intro k
    induction k with
    | zero => intro i now _; trivial
    | succ k ih =>
      intro i now hi
      rw [List.range'_succ]
      exact ⟨hi, ih _ _ (Nat.le_succ i)⟩
  have hstep : ∃ s', Stake.step 100 (run 100 sExStart (ready ++ trickle (List.range' 2 (N + 1))))
      (.stake (sBy 3 (N + 2)) (.withdraw 3)) = .ok s' := by
    rw [hrun]
    generalize run 100 (run 100 sExStart ready) (trickle (List.range' 2 (N + 1))) = r at *
    have hp : Stake.pending (sBy 3 (N + 2)) r.st 40 (r.st.info 3) = .ok 0 := by
      unfold Stake.pending
      simp only [bind_ok, rewardHistory_ok]
      refine ⟨m, k2, ?_⟩
      rw [k3]
      exact daysLoop_none ..
    have hl : r.led.transfer ((sBy 3 (N + 2)).as 100) 40 100 3 0 = .ok r.led := by
      rw [k4]
      exact transfer_zero rfl (start_small _ _).1 (start_small _ _).2 (start_small _ _).2
    have hw : Stake.withdraw 100 (sBy 3 (N + 2)) r.st r.led 3 =
        .ok ({ r.st with info := upd r.st.info 3 { r.st.info 3 with last := N + 2 } }, r.led) := by
      unfold Stake.withdraw
      simp only [bind_ok, k1, Stake.payLoop]
      exact ⟨r.led, ⟨0, hp, r.led, hl, rfl⟩, rfl⟩
    exact ⟨_, by simp only [Stake.step, hw]; rfl⟩
  obtain ⟨s', hs'⟩ := hstep
  rw [← Work.step_fst] at hs'
  obtain ⟨⟨s1, n⟩, hw⟩ : ∃ r, Work.step 100 (run 100 sExStart (ready ++ trickle (List.range' 2 (N + 1))))
      (.stake (sBy 3 (N + 2)) (.withdraw 3)) = .ok r := by
    cases e : Work.step 100 (run 100 sExStart (ready ++ trickle (List.range' 2 (N + 1))))
        (.stake (sBy 3 (N + 2)) (.withdraw 3)) with
    | error _ => rw [e] at hs'; cases hs'
    | ok r => exact ⟨r, rfl⟩
  have hg := C142_withdraw_grows sExStart_genesis _ hd hw
  refine ⟨_, s1, n, ⟨?_, hd⟩, ?_, ?_, hw, ?_⟩
  · exact ⟨le_refl _, Nat.zero_le 1, ho _ 2 1 (by omega)⟩
  · intro t ht
    rcases List.mem_append.mp ht with ht | ht
    · simp only [ready, List.mem_cons, List.not_mem_nil, or_false] at ht
      rcases ht with rfl | rfl <;> rfl
    · obtain ⟨d, _, rfl⟩ := List.mem_map.mp ht
      rfl
  · rw [hrun]
    simp [stakes, stakesOf, queryStaked, k3, noInfo]
  · rw [Work.happened_append _ distributes, k5, List.length_range'] at hg
    have : happened 100 distributes sExStart ready = 0 := by decide +kernel
    rw [this, Nat.add_mul] at hg
    omega

end Phoenix.Props.Work
