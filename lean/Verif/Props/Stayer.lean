import Verif.Spec.Stayer
import Verif.Props.Unclaimed
/-!
Property C152: a staker who stays gets what they earned, whoever withdraws it and when; and how anybody can take a
distribution away from a staker.
-/
namespace Phoenix.Props.Stayer
open Phoenix Phoenix.Stake Phoenix.Stake.Spec Phoenix.Props.Unclaimed

/-- One more transaction, exactly. -/
theorem step_exact {me : Addr} {s : Sys} {t : Tx} {log : List Dist} {tok a : Addr} (hA : InvA me s)
    (hlog : ∀ d ∈ log, d.time ≤ t.ctx.now) (hnew : ∀ d ∈ distOf me s tok t, (s.st.info a).last < d.time)
    (hnone : tok ∉ s.st.dists → log = []) (hstay : ∀ c x n, t ≠ .stake c (.unbond a x n))
    (hp : ∀ {p : Int}, pending t.ctx s.st tok (s.st.info a) = .ok p → p = due log (s.st.info a) t.ctx.now) :
    paidTo me s tok a [t] + open' (log ++ distOf me s tok t) ((exec me s t).st.info a) =
      open' log (s.st.info a) + earnedBy me s tok a [t] := by
  cases h : Stake.step me s t with
  | error e =>
    have e1 := exec_error h
    have e2 := distOf_error h tok
    simp only [paidTo, earnedBy, e1, e2, List.map_nil, List.sum_nil, List.append_nil, sub_self, ite_self, add_zero]
    split <;> omega
  | ok s' =>
    have e1 := exec_ok h
    simp only [paidTo, earnedBy, e1]
    cases t with
    | token c u op =>
      simp only [Stake.step, bind_ok, ok_inj] at h
      obtain ⟨L, -, rfl⟩ := h
      simp [distOf]
    | stake c k =>
      cases k with
      | init ad lp mb mr m o mc =>
        simp only [Stake.step, bind_ok, ok_inj] at h
        obtain ⟨v, hv, rfl⟩ := h
        obtain ⟨-, -, -, -, rfl⟩ := init_inv hv
        simp [distOf]
      | bond b x =>
        simp only [Stake.step, bind_ok, ok_inj] at h
        obtain ⟨⟨v, L⟩, hv, rfl⟩ := h
        obtain ⟨-, cfg, -, -, -, -, -, -, rfl, -, -⟩ := bond_inv hv
        simp only [distOf, List.append_nil, List.map_nil, List.sum_nil, add_zero, zero_add]
        by_cases hb : b = a
        · subst hb
          simp only [upd_same]
          have : ∀ d ∈ log, earnedFor ((s.st.info b).stakes ++ [⟨x, c.now⟩]) d = earnedFor (s.st.info b).stakes d := by
            intro d hd
            have := earned_fresh (x := x) (show d.time ≤ c.now from hlog d hd)
            simp only [earned_app, this, add_zero]
          exact le_antisymm (open_le rfl fun d hd => (this d hd).le) (open_le rfl fun d hd => (this d hd).ge)
        · simp [upd_apply, Ne.symm hb]
      | unbond b x ts =>
        simp only [Stake.step, bind_ok, ok_inj] at h
        obtain ⟨⟨v, L⟩, hv, rfl⟩ := h
        obtain ⟨-, cfg, p, q, -, hst, -, hx, -, rfl, -, -⟩ := unbond_inv hv
        simp only [distOf, List.append_nil, List.map_nil, List.sum_nil, add_zero, zero_add]
        have hb : b ≠ a := by rintro rfl; exact hstay c x ts rfl
        simp [upd_apply, Ne.symm hb]
      | createFlow b u =>
        simp only [Stake.step, bind_ok, ok_inj] at h
        obtain ⟨v, hv, rfl⟩ := h
        obtain ⟨-, cfg, -, -, -, rfl⟩ := createFlow_inv hv
        simp [distOf]
      | distribute b x u =>
        have hinfo : s'.st.info = s.st.info := by
          simp only [Stake.step, bind_ok, ok_inj] at h
          obtain ⟨⟨v, L⟩, hv, rfl⟩ := h
          obtain ⟨-, cfg, m, -, -, -, -, -, -, -, rfl, -⟩ := distribute_inv hv
          rfl
        rw [hinfo, open_app]
        have hall : open' (distOf me s tok (.stake c (.distribute b x u))) (s.st.info a)
            = ((distOf me s tok (.stake c (.distribute b x u))).map (earnedFor (s.st.info a).stakes)).sum := by
          unfold open'
          rw [List.filter_eq_self.2]
          intro d hd
          simpa using hnew d hd
        have e : Spec.stakesOf s a = (s.st.info a).stakes := rfl
        rw [e, hall]
        simp only
        omega
      | withdraw b =>
        simp only [Stake.step, bind_ok, ok_inj] at h
        obtain ⟨⟨v, L⟩, hv, rfl⟩ := h
        obtain ⟨rfl, hpay⟩ := withdraw_inv hv
        simp only [distOf, List.append_nil, List.map_nil, List.sum_nil, add_zero]
        by_cases hb : b = a
        · subst hb
          simp only [upd_same, if_true]
          rw [open_done (show ∀ d ∈ log, d.time ≤ c.now from hlog)]
          by_cases hme : b = me
          · subst hme
            rw [withdraw_self hpay]
            have : open' log (s.st.info b) = 0 := by
              unfold open'
              rw [hA.meNone]
              apply List.sum_eq_zero
              intro z hz
              obtain ⟨d, -, rfl⟩ := List.mem_map.1 hz
              simp [earnedFor]
            omega
          · obtain ⟨w1, w2⟩ := withdraw_bal hme hA.nodup hpay tok
            by_cases htok : tok ∈ s.st.dists
            · obtain ⟨p, q1, -, q3⟩ := w2 htok
              rw [open_eq_due hlog, ← hp q1, q3]
              omega
            · rw [w1 htok, hnone htok]
              simp [open']
        · simp [upd_apply, Ne.symm hb, hb]

/-- the last withdrawal of an account only changes with a successful withdrawal for it -/
theorem last_step {me : Addr} {s s' : Sys} {t : Tx} {a : Addr} (h : Stake.step me s t = .ok s')
    (hn : ∀ c, t ≠ .stake c (.withdraw a)) : (s'.st.info a).last = (s.st.info a).last := by
  cases t with
  | token c u op =>
    simp only [Stake.step, bind_ok, ok_inj] at h
    obtain ⟨L, -, rfl⟩ := h
    rfl
  | stake c k =>
    cases k <;> simp only [Stake.step, bind_ok, ok_inj] at h
    case init =>
      obtain ⟨v, hv, rfl⟩ := h
      obtain ⟨-, -, -, -, rfl⟩ := init_inv hv
      rfl
    case bond b x =>
      obtain ⟨⟨v, L⟩, hv, rfl⟩ := h
      obtain ⟨-, cfg, -, -, -, -, -, -, rfl, -, -⟩ := bond_inv hv
      by_cases hb : a = b
      · subst hb; simp only [upd_same]
      · simp [upd_apply, hb]
    case unbond b x ts =>
      obtain ⟨⟨v, L⟩, hv, rfl⟩ := h
      obtain ⟨-, cfg, p, q, -, hst, -, hx, -, rfl, -, -⟩ := unbond_inv hv
      by_cases hb : a = b
      · subst hb; simp only [upd_same]
      · simp [upd_apply, hb]
    case createFlow =>
      obtain ⟨v, hv, rfl⟩ := h
      obtain ⟨-, cfg, -, -, -, rfl⟩ := createFlow_inv hv
      rfl
    case distribute =>
      obtain ⟨⟨v, L⟩, hv, rfl⟩ := h
      obtain ⟨-, cfg, m, -, -, -, -, -, -, -, rfl, -⟩ := distribute_inv hv
      rfl
    case withdraw b =>
      obtain ⟨⟨v, L⟩, hv, rfl⟩ := h
      obtain ⟨rfl, -⟩ := withdraw_inv hv
      have hb : a ≠ b := by rintro rfl; exact hn c rfl
      simp [upd_apply, hb]

/-- no distribution falls into the second of a withdrawal before it -/
theorem stays_last {me : Addr} {tok a : Addr} {us : List Tx} {d : Dist} : ∀ {ts : List Tx} {s : Sys},
    Stays me s tok a (ts ++ us) → d ∈ dists me (Stake.run me s ts) tok us → (s.st.info a).last < d.time →
    ((Stake.run me s ts).st.info a).last < d.time
  | [], _, _, _, h => h
  | t :: ts, s, hs, hd, h => by
    have e : Stake.run me s (t :: ts) = Stake.run me (exec me s t) ts := rfl
    rw [e] at hd ⊢
    refine stays_last hs.2 hd ?_
    cases ht : Stake.step me s t with
    | error => rw [exec_error ht]; exact h
    | ok s' =>
      by_cases hw : ∃ c, t = .stake c (.withdraw a)
      · obtain ⟨c, rfl⟩ := hw
        have := hs.1 rfl d (show d ∈ dists me (exec me s (.stake c (.withdraw a))) tok (ts ++ us) by
          rw [dists_app]; exact List.mem_append_right _ hd)
        rw [exec_ok ht]
        simp only [Stake.step, bind_ok, ok_inj] at ht
        obtain ⟨⟨v, L⟩, hv, rfl⟩ := ht
        obtain ⟨rfl, -⟩ := withdraw_inv hv
        simp only [upd_same]
        exact this
      · rw [exec_ok ht, last_step ht fun c e => hw ⟨c, e⟩]
        exact h

theorem stays_app {me : Addr} {tok a : Addr} {us : List Tx} : ∀ {ts : List Tx} {s : Sys},
    Stays me s tok a (ts ++ us) → Stays me s tok a ts ∧ Stays me (Stake.run me s ts) tok a us
  | [], _, h => ⟨trivial, h⟩
  | t :: ts, s, h => by
    obtain ⟨i1, i2⟩ := stays_app h.2
    refine ⟨⟨?_, i1⟩, i2⟩
    have h1 := h.1
    cases t with
    | token c u op => trivial
    | stake c k =>
      cases k with
      | withdraw b =>
        intro e d hd
        refine h1 e d (show d ∈ dists me (exec me s (.stake c (.withdraw b))) tok (ts ++ us) from ?_)
        rw [dists_app]
        exact List.mem_append_left _ hd
      | unbond b x n => exact h1
      | _ => trivial

theorem stay_core {me : Addr} {s : Sys} (h0 : Genesis me s) (tok a : Addr) (ts : List Tx) :
    (∀ t ∈ ts, Stake.Spec.Possible me t) → WellTimed me s ts → Started ts → Stays me s tok a ts →
    paidTo me s tok a ts + open' (dists me s tok ts) ((Stake.run me s ts).st.info a) = earnedBy me s tok a ts := by
  induction ts using List.reverseRecOn with
  | nil => intro _ _ _ _; simp [paidTo, earnedBy, open', dists]
  | append_singleton ts t ih =>
    intro ht hw hst hs
    have ht1 : ∀ u ∈ ts, Stake.Spec.Possible me u := fun u hu => ht u (by simp [hu])
    have hw1 := wellTimed_app hw
    have hs1 := stays_app hs
    have ih := ih ht1 hw1 (fun u hu => hst u (by simp [hu])) hs1.1
    have hA := run_invA ts ht1 (genesis_invA h0)
    have ho := (ordered_snoc hw.ordered).2
    have hl := C41_all_recorded h0 ts ht1 hw1 tok
    have e : dists me (Stake.run me s ts) tok [t] = distOf me (Stake.run me s ts) tok t := by simp [dists]
    have key := step_exact (t := t) (log := dists me s tok ts) (tok := tok) (a := a) hA (dists_times ho)
      (fun d hd => by
        refine stays_last hs (by rw [e]; exact hd) ?_
        have : d.time = t.ctx.now := by
          unfold distOf at hd
          split at hd
          · split at hd
            · simp only [List.mem_singleton] at hd
              rw [hd]; rfl
            · simp at hd
          · simp at hd
        rw [this, h0.1]
        exact hst t (by simp))
      (fun hn => by
        have := hl.1
        rw [not_not.1 (fun h => hn ((hA.dist tok).2 h))] at this
        simpa using this.symm)
      (fun c x n hx => by
        subst hx
        exact hs1.2.1 rfl)
      (fun hp => (C39_pending_formula h0 ts ht1 hw1 hp).1)
    rw [paidTo_app, earnedBy_app, dists_app, run_snoc, e]
    omega

theorem stakesLoop_max {day R T : Nat} : ∀ {l : List Entry} {acc y : Int}, acc ≤ I128_MAX →
    stakesLoop day R T l acc = .ok y → y ≤ I128_MAX
  | [], acc, y, h, e => by simp only [stakesLoop, ok_inj] at e; omega
  | i :: l, acc, y, h, e => by
    simp only [stakesLoop, bind_ok, addI_ok] at e
    obtain ⟨r, -, z, ⟨hz, rfl⟩, e⟩ := e
    exact stakesLoop_max hz.2 e

theorem daysLoop_max {m h : SMap} {l : List Entry} : ∀ {ds : List Nat} {acc y : Int}, acc ≤ I128_MAX →
    daysLoop m h l ds acc = .ok y → y ≤ I128_MAX
  | [], acc, y, hm, e => by simp only [daysLoop, ok_inj] at e; omega
  | d :: ds, acc, y, hm, e => by
    simp only [daysLoop, bind_ok] at e
    obtain ⟨r, hr, e⟩ := e
    refine daysLoop_max ?_ e
    unfold dayReward at hr
    split at hr
    · split at hr
      · exact stakesLoop_max hm hr
      · simp only [ok_inj] at hr; omega
    · simp only [ok_inj] at hr; omega

theorem pending_max {c : Ctx} {s : State} {tok : Addr} {i : Info} {p : Int} (h : pending c s tok i = .ok p) : p ≤ I128_MAX := by
  unfold pending at h
  simp only [bind_ok] at h
  obtain ⟨m, -, h⟩ := h
  exact daysLoop_max (by simp [I128_MAX]) h

/-- **C152** An account which unbonds nothing: whenever the contract tells what it can withdraw, then for every reward token
that and what was withdrawn for the account before are together what it earned, that is, the documented rewards of the
stakes it had at the moments of the distributions.  Withdrawals, whoever makes them and whenever, cost it nothing, unless
one falls into the same second as a distribution after it. -/
theorem C152_stayers_get_all {me : Addr} {s : Sys} (h0 : Genesis me s) (ts : List Tx)
    (ht : ∀ t ∈ ts, Stake.Spec.Possible me t) (hw : WellTimed me s ts) (hst : Started ts) {tok a : Addr}
    (hs : Stays me s tok a ts) {c : Ctx} (hc : ∀ t ∈ ts, t.ctx.now ≤ c.now) {r : List (Addr × Nat)}
    (hq : queryWithdrawable c (Stake.run me s ts).st a = .ok r) (htok : tok ∈ r.map Prod.fst) :
    ∃ x, (tok, x) ∈ r ∧ paidTo me s tok a ts + x = earnedBy me s tok a ts := by
  have h := stay_core h0 tok a ts ht hw hst hs
  rw [open_eq_due (now := c.now) (dists_times hc)] at h
  obtain ⟨e1, e2⟩ := queryLoop_inv hq
  rw [e1] at htok
  obtain ⟨p, hp, hr⟩ := e2 tok htok
  obtain ⟨f1, f2⟩ := C39_pending_formula h0 ts ht hw hp
  refine ⟨_, hr, ?_⟩
  rw [asU128_nonneg f2 (pending_max hp), f1]
  exact h

/-! ### Somebody else's withdrawal in the second of a distribution -/

theorem suffix_core {me : Addr} {s : Sys} (h0 : Genesis me s) (tok a : Addr) (ts us : List Tx) :
    (∀ t ∈ ts ++ us, Stake.Spec.Possible me t) → WellTimed me s (ts ++ us) →
    paidTo me (Stake.run me s ts) tok a us + open' (dists me s tok (ts ++ us)) ((Stake.run me s (ts ++ us)).st.info a) ≤
      open' (dists me s tok ts) ((Stake.run me s ts).st.info a) + earnedBy me (Stake.run me s ts) tok a us := by
  induction us using List.reverseRecOn with
  | nil => intro _ _; simp [paidTo, earnedBy]
  | append_singleton us t ih =>
    intro ht hw
    rw [← List.append_assoc] at ht hw ⊢
    have ht1 : ∀ u ∈ ts ++ us, Stake.Spec.Possible me u := fun u hu => ht u (List.mem_append_left _ hu)
    have hw1 := wellTimed_app hw
    have ih := ih ht1 hw1
    have hA := run_invA (ts ++ us) ht1 (genesis_invA h0)
    have ho := (ordered_snoc hw.ordered).2
    have hl := (C41_all_recorded h0 (ts ++ us) ht1 hw1 tok).2
    rw [paidTo_app, earnedBy_app, dists_app _ _ _ (ts ++ us), run_snoc, ← run_app]
    have key := step_earned (t := t) (log := dists me s tok (ts ++ us)) (tok := tok) (a := a) hA (dists_times ho)
      (fun d hd => (hl d hd).2) (fun hp => (C39_pending_formula h0 (ts ++ us) ht1 hw1 hp).1)
    have e : dists me (Stake.run me s (ts ++ us)) tok [t] = distOf me (Stake.run me s (ts ++ us)) tok t := by simp [dists]
    rw [e]
    omega

/-- **C152** (negation) The exception is real, in every state and for every victim, and it is for ever: a withdrawal of
somebody's rewards needs nobody's signature, and if it goes through in the second of a distribution and before it, then the
account never gets anything of that distribution, whatever happens later. -/
theorem C152_anybody_takes_a_distribution_away {me : Addr} {s : Sys} (h0 : Genesis me s) (ts us : List Tx) {c c' : Ctx}
    {m tok a : Addr} {x : Int} (hn : c'.now = c.now)
    (ht : ∀ t ∈ ts ++ .stake c (.withdraw a) :: .stake c' (.distribute m x tok) :: us, Stake.Spec.Possible me t)
    (hw : WellTimed me s (ts ++ .stake c (.withdraw a) :: .stake c' (.distribute m x tok) :: us))
    (h1 : Stake.Spec.succeeds me (Stake.run me s ts) (.stake c (.withdraw a)) = true)
    (h2 : Stake.Spec.succeeds me (Stake.run me s (ts ++ [.stake c (.withdraw a)])) (.stake c' (.distribute m x tok)) = true) :
    paidTo me s tok a (ts ++ .stake c (.withdraw a) :: .stake c' (.distribute m x tok) :: us) +
        earnedFor (Spec.stakesOf (Stake.run me s ts) a) ⟨c.now, x, (Stake.run me s ts).st.total⟩ ≤
      earnedBy me s tok a (ts ++ .stake c (.withdraw a) :: .stake c' (.distribute m x tok) :: us) := by
  set W : Tx := .stake c (.withdraw a) with hW
  set D : Tx := .stake c' (.distribute m x tok) with hD
  have split : ts ++ W :: D :: us = (ts ++ [W]) ++ [D] ++ us := by simp
  rw [split] at ht hw ⊢
  have htA : ∀ t ∈ ts ++ [W], Stake.Spec.Possible me t := fun t h => ht t (by simp [List.mem_append] at h ⊢; tauto)
  have hwB := wellTimed_app hw
  have hwA := wellTimed_app hwB
  have k1 := account_core h0 tok a (ts ++ [W]) htA hwA
  have k2 := suffix_core h0 tok a (ts ++ [W] ++ [D]) us ht hw
  -- the state after the withdrawal
  have hsW : ∃ s1, Stake.step me (Stake.run me s ts) W = .ok s1 := by
    unfold Spec.succeeds at h1
    cases e : Stake.step me (Stake.run me s ts) W with
    | error => simp [e, Except.toOption] at h1
    | ok s1 => exact ⟨s1, rfl⟩
  obtain ⟨s1, hs1⟩ := hsW
  have hsD : ∃ s2, Stake.step me (Stake.run me s (ts ++ [W])) D = .ok s2 := by
    unfold Spec.succeeds at h2
    cases e : Stake.step me (Stake.run me s (ts ++ [W])) D with
    | error => simp [e, Except.toOption] at h2
    | ok s2 => exact ⟨s2, rfl⟩
  obtain ⟨s2, hs2⟩ := hsD
  have r1 : Stake.run me s (ts ++ [W]) = s1 := by rw [run_snoc]; exact exec_ok hs1
  have r2 : Stake.run me s (ts ++ [W] ++ [D]) = s2 := by rw [run_snoc]; exact exec_ok hs2
  have i1 : (s1.st.info a).last = c.now ∧ (s1.st.info a).stakes = Spec.stakesOf (Stake.run me s ts) a ∧
      s1.st.total = (Stake.run me s ts).st.total := by
    simp only [hW, Stake.step, bind_ok, ok_inj] at hs1
    obtain ⟨⟨v, L⟩, hv, rfl⟩ := hs1
    obtain ⟨rfl, -⟩ := withdraw_inv hv
    refine ⟨by simp only [upd_same], ?_, rfl⟩
    simp only [upd_same]
    rfl
  have i2 : (s2.st.info a) = s1.st.info a := by
    rw [r1] at hs2
    simp only [hD, Stake.step, bind_ok, ok_inj] at hs2
    obtain ⟨⟨v, L⟩, hv, rfl⟩ := hs2
    obtain ⟨-, cfg, q, -, -, -, -, -, -, -, rfl, -⟩ := distribute_inv hv
    rfl
  have hall : open' (dists me s tok (ts ++ [W] ++ [D])) ((Stake.run me s (ts ++ [W] ++ [D])).st.info a) = 0 := by
    apply open_done
    rw [r2, i2, i1.1]
    have ho := (ordered_snoc hwB.ordered).2
    refine dists_times (fun u hu => ?_)
    rcases List.mem_append.1 hu with hu | hu
    · have := ho u hu
      simp only [hD, Tx.ctx, hn] at this
      exact this
    · simp only [List.mem_singleton] at hu
      subst hu
      simp [hD, Tx.ctx, hn]
  have hd : earnedBy me (Stake.run me s (ts ++ [W])) tok a [D] =
      earnedFor (Spec.stakesOf (Stake.run me s ts) a) ⟨c.now, x, (Stake.run me s ts).st.total⟩ := by
    have e : Spec.stakesOf s1 a = Spec.stakesOf (Stake.run me s ts) a := i1.2.1
    rw [r1] at h2
    simp only [earnedBy, distOf, hD, r1, e, i1.2.2, hn]
    rw [hD] at h2
    simp [h2]
  have hz : paidTo me (Stake.run me s (ts ++ [W])) tok a [D] = 0 := by simp [paidTo, hD]
  have hpos : 0 ≤ open' (dists me s tok (ts ++ [W])) ((Stake.run me s (ts ++ [W])).st.info a) := by
    have hl := (C41_all_recorded h0 (ts ++ [W]) htA hwA tok).2
    have hA := run_invA (ts ++ [W]) htA (genesis_invA h0)
    unfold open'
    apply List.sum_nonneg
    intro z hz
    obtain ⟨d, hd, rfl⟩ := List.mem_map.1 hz
    have := hl d (List.mem_of_mem_filter hd)
    exact earned_nonneg (fun e he => (hA.pos a e he).le) this.2.1 this.2.2
  have hend : 0 ≤ open' (dists me s tok (ts ++ [W] ++ [D] ++ us)) ((Stake.run me s (ts ++ [W] ++ [D] ++ us)).st.info a) := by
    have hl := (C41_all_recorded h0 _ ht hw tok).2
    have hA := run_invA _ ht (genesis_invA h0)
    unfold open'
    apply List.sum_nonneg
    intro z hz
    obtain ⟨d, hd, rfl⟩ := List.mem_map.1 hz
    have := hl d (List.mem_of_mem_filter hd)
    exact earned_nonneg (fun e he => (hA.pos a e he).le) this.2.1 this.2.2
  rw [paidTo_app, paidTo_app _ _ _ [D], earnedBy_app, earnedBy_app _ _ _ [D], hd, hz]
  omega

/-! ### Concrete cases -/

/-- accounts 1 and 2 stake, 4000 and 300 units of token 40 are handed out, account 3 withdraws the rewards of account 1 in
between -/
def exStay : List Tx :=
  [ .stake (sBy 9 1) (.init 9 30 10 1 7 9 5),
    .stake (sBy 7 2) (.createFlow 7 40),
    .stake (sBy 1 (sDay 10)) (.bond 1 300),
    .stake (sBy 2 (sDay 40)) (.bond 2 100),
    .stake (sBy 7 (sDay 70)) (.distribute 7 4000 40),
    .stake (sBy 3 (sDay 71)) (.withdraw 1),
    .stake (sBy 7 (sDay 75)) (.distribute 7 300 40) ]

/-- The hypotheses hold; account 1 was paid 3000 and can withdraw 225 more, account 2 can withdraw 500 and 43. -/
example : (∀ t ∈ exStay, Stake.Spec.Possible 100 t) ∧ WellTimed 100 sExStart exStay ∧ Started exStay ∧
    Stays 100 sExStart 40 1 exStay ∧ (∀ t ∈ exStay, t.ctx.now ≤ sDay 80) ∧
    queryWithdrawable (sBy 3 (sDay 80)) (Stake.run 100 sExStart exStay).st 1 = .ok [(40, 225)] ∧
    paidTo 100 sExStart 40 1 exStay = 3000 ∧ earnedBy 100 sExStart 40 1 exStay = 3225 := by
  refine ⟨?_, ⟨?_, ?_⟩, ?_, ?_, ?_, by decide +kernel, by decide +kernel, by decide +kernel⟩
  · intro t ht
    simp only [exStay, List.mem_cons, List.not_mem_nil, or_false] at ht
    rcases ht with rfl | rfl | rfl | rfl | rfl | rfl | rfl <;> rfl
  · simp [TimeOrdered, exStay, Tx.ctx, sBy, sDay]
  · refine ⟨?_, ?_, ?_, ?_, ?_, ?_, ?_, trivial⟩ <;> decide +kernel
  · intro t ht
    simp only [exStay, List.mem_cons, List.not_mem_nil, or_false] at ht
    rcases ht with rfl | rfl | rfl | rfl | rfl | rfl | rfl <;> decide
  · refine ⟨trivial, trivial, trivial, trivial, trivial, ?_, trivial, trivial⟩
    intro _
    decide +kernel
  · intro t ht
    simp only [exStay, List.mem_cons, List.not_mem_nil, or_false] at ht
    rcases ht with rfl | rfl | rfl | rfl | rfl | rfl | rfl <;> decide

/-- Account 3 withdraws for account 1 in the second of the first distribution, just before it: the 3000 units which account
1 earned by it are never paid. -/
def exTaken : List Tx :=
  exStay.take 4 ++ .stake (sBy 3 (sDay 70)) (.withdraw 1) :: .stake (sBy 7 (sDay 70)) (.distribute 7 4000 40) ::
    [.stake (sBy 1 (sDay 71)) (.withdraw 1), .stake (sBy 7 (sDay 75)) (.distribute 7 300 40)]

example : (∀ t ∈ exTaken, Stake.Spec.Possible 100 t) ∧ WellTimed 100 sExStart exTaken ∧
    Stake.Spec.succeeds 100 (Stake.run 100 sExStart (exStay.take 4)) (.stake (sBy 3 (sDay 70)) (.withdraw 1)) = true ∧
    Stake.Spec.succeeds 100 (Stake.run 100 sExStart (exStay.take 4 ++ [.stake (sBy 3 (sDay 70)) (.withdraw 1)]))
      (.stake (sBy 7 (sDay 70)) (.distribute 7 4000 40)) = true ∧
    earnedFor (Spec.stakesOf (Stake.run 100 sExStart (exStay.take 4)) 1) ⟨sDay 70, 4000, 400⟩ = 3000 ∧
    paidTo 100 sExStart 40 1 exTaken = 0 ∧ earnedBy 100 sExStart 40 1 exTaken = 3225 := by
  refine ⟨?_, ⟨?_, ?_⟩, by decide +kernel, by decide +kernel, by decide +kernel, by decide +kernel, by decide +kernel⟩
  · intro t ht
    simp only [exTaken, exStay, List.take, List.cons_append, List.nil_append, List.mem_cons, List.not_mem_nil, or_false] at ht
    rcases ht with rfl | rfl | rfl | rfl | rfl | rfl | rfl | rfl <;> rfl
  · simp [TimeOrdered, exTaken, exStay, Tx.ctx, sBy, sDay]
  · refine ⟨?_, ?_, ?_, ?_, ?_, ?_, ?_, ?_, trivial⟩ <;> decide +kernel

end Phoenix.Props.Stayer
