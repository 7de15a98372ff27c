import Verif.Spec.Unclaimed
import Verif.Props.Stake
import Mathlib.Algebra.BigOperators.Ring.Finset
/-!
Property C144: rewards that nobody can ever claim.
-/
namespace Phoenix.Props.Unclaimed
open Phoenix Phoenix.Stake Phoenix.Stake.Spec

/-! ### histories, one transaction longer -/

theorem run_snoc (me : Addr) (s : Sys) (ts : List Tx) (t : Tx) : run me s (ts ++ [t]) = exec me (run me s ts) t := by
  simp [run]

theorem run_app (me : Addr) (s : Sys) (ts us : List Tx) : run me s (ts ++ us) = run me (run me s ts) us := by
  simp [run]

theorem dists_app (me : Addr) (tok : Addr) (us : List Tx) : ∀ (ts : List Tx) (s : Sys),
    dists me s tok (ts ++ us) = dists me s tok ts ++ dists me (run me s ts) tok us
  | [], _ => by simp [dists, run]
  | t :: ts, s => by
    simp only [List.cons_append, dists, dists_app me tok us ts, List.append_assoc]
    rfl

theorem earnedBy_app (me : Addr) (tok a : Addr) (us : List Tx) : ∀ (ts : List Tx) (s : Sys),
    earnedBy me s tok a (ts ++ us) = earnedBy me s tok a ts + earnedBy me (run me s ts) tok a us
  | [], _ => by simp [earnedBy, run]
  | t :: ts, s => by
    simp only [List.cons_append, earnedBy, earnedBy_app me tok a us ts, add_assoc]
    rfl

theorem paidTo_app (me : Addr) (tok a : Addr) (us : List Tx) : ∀ (ts : List Tx) (s : Sys),
    paidTo me s tok a (ts ++ us) = paidTo me s tok a ts + paidTo me (run me s ts) tok a us
  | [], _ => by simp [paidTo, run]
  | t :: ts, s => by
    simp only [List.cons_append, paidTo, paidTo_app me tok a us ts, add_assoc]
    rfl

theorem distributed_app (me : Addr) (tok : Addr) (s : Sys) (ts us : List Tx) :
    distributed me s tok (ts ++ us) = distributed me s tok ts + distributed me (run me s ts) tok us := by
  simp [distributed, dists_app]

theorem ordered_app {n : Nat} {ts us : List Tx} (h : TimeOrdered n (ts ++ us)) : TimeOrdered n ts := by
  induction ts generalizing n with
  | nil => trivial
  | cons t ts ih => exact ⟨h.1, ih h.2⟩

theorem distinct_app {me : Addr} {s : Sys} {seen : List Nat} {ts us : List Tx} (h : DistinctTimes me s seen (ts ++ us)) :
    DistinctTimes me s seen ts := by
  induction ts generalizing s seen with
  | nil => trivial
  | cons t ts ih => exact ⟨h.1, ih h.2⟩

theorem wellTimed_app {me : Addr} {s : Sys} {ts us : List Tx} (h : WellTimed me s (ts ++ us)) : WellTimed me s ts :=
  ⟨ordered_app h.ordered, distinct_app h.distinct⟩

theorem ordered_snoc {n : Nat} {ts : List Tx} {t : Tx} (h : TimeOrdered n (ts ++ [t])) :
    n ≤ t.ctx.now ∧ ∀ u ∈ ts, u.ctx.now ≤ t.ctx.now := by
  induction ts generalizing n with
  | nil => exact ⟨h.1, by simp⟩
  | cons u ts ih =>
    obtain ⟨i1, i2⟩ := ih h.2
    refine ⟨le_trans h.1 i1, fun v hv => ?_⟩
    rcases List.mem_cons.1 hv with rfl | hv
    · exact i1
    · exact i2 v hv

theorem dists_times {me : Addr} {tok : Addr} {n : Nat} : ∀ {ts : List Tx} {s : Sys}, (∀ u ∈ ts, u.ctx.now ≤ n) →
    ∀ d ∈ dists me s tok ts, d.time ≤ n
  | [], _, _, d, hd => by simp [dists] at hd
  | t :: ts, s, h, d, hd => by
    simp only [dists, List.mem_append] at hd
    rcases hd with hd | hd
    · unfold distOf at hd
      split at hd
      · split at hd
        · simp only [List.mem_singleton] at hd
          subst hd
          exact h _ List.mem_cons_self
        · simp at hd
      · simp at hd
    · exact dists_times (fun u hu => h u (List.mem_cons_of_mem _ hu)) d hd

/-! ### one account -/

/-- what is due for all distributions after the last withdrawal -/
def open' (log : List Dist) (i : Info) : Int :=
  ((log.filter (fun d => decide (i.last < d.time))).map (earnedFor i.stakes)).sum

theorem open_eq_due {log : List Dist} {i : Info} {now : Nat} (h : ∀ d ∈ log, d.time ≤ now) : open' log i = due log i now := by
  unfold open' due
  congr 2
  apply List.filter_congr
  intro d hd
  simp [h d hd]

theorem open_app (log log' : List Dist) (i : Info) : open' (log ++ log') i = open' log i + open' log' i := by
  simp [open']

theorem open_le {log : List Dist} {i j : Info} (hl : i.last = j.last)
    (h : ∀ d ∈ log, earnedFor i.stakes d ≤ earnedFor j.stakes d) : open' log i ≤ open' log j := by
  unfold open'
  rw [hl]
  apply List.sum_le_sum
  intro d hd
  exact h d (List.mem_of_mem_filter hd)

theorem open_done {log : List Dist} {i : Info} (h : ∀ d ∈ log, d.time ≤ i.last) : open' log i = 0 := by
  unfold open'
  rw [List.filter_eq_nil_iff.2]
  · simp
  · intro d hd
    have := h d hd
    simp; omega

theorem open_small {log : List Dist} {i : Info} (h : ∀ d ∈ log, 0 ≤ earnedFor i.stakes d) :
    open' log i ≤ (log.map (earnedFor i.stakes)).sum := by
  unfold open'
  induction log with
  | nil => simp
  | cons d log ih =>
    have := ih (fun x hx => h x (by simp [hx]))
    have := h d (by simp)
    rw [List.filter_cons]
    split <;> simp only [List.map_cons, List.sum_cons] <;> omega

theorem earned_nonneg {l : List Entry} {d : Dist} (hl : ∀ e ∈ l, 0 ≤ e.amount) (h1 : 0 ≤ d.amount) (h2 : 0 ≤ d.staked) :
    0 ≤ earnedFor l d := by
  unfold earnedFor
  split
  · exact le_refl _
  · apply List.sum_nonneg
    intro z hz
    obtain ⟨e, he, rfl⟩ := List.mem_map.1 hz
    exact reward_nonneg (hl e he) h1 h2 _ _

theorem earned_app (l l' : List Entry) (d : Dist) : earnedFor (l ++ l') d = earnedFor l d + earnedFor l' d := by
  unfold earnedFor
  split <;> simp

theorem earned_fresh {x : Int} {ts : Nat} {d : Dist} (h : d.time ≤ ts) : earnedFor [⟨x, ts⟩] d = 0 := by
  unfold earnedFor
  split
  · rfl
  · simp [reward, Nat.sub_eq_zero_of_le h]

/-- One more transaction. -/
theorem step_earned {me : Addr} {s : Sys} {t : Tx} {log : List Dist} {tok a : Addr} (hA : InvA me s)
    (hlog : ∀ d ∈ log, d.time ≤ t.ctx.now) (hpos : ∀ d ∈ log, 0 ≤ d.amount ∧ 0 ≤ d.staked)
    (hp : ∀ {p : Int}, pending t.ctx s.st tok (s.st.info a) = .ok p → p = due log (s.st.info a) t.ctx.now) :
    paidTo me s tok a [t] + open' (log ++ distOf me s tok t) ((exec me s t).st.info a) ≤
      open' log (s.st.info a) + earnedBy me s tok a [t] := by
  have hnn : ∀ l : List Entry, (∀ e ∈ l, 0 ≤ e.amount) → ∀ d ∈ log, 0 ≤ earnedFor l d := fun l hl d hd =>
    earned_nonneg hl (hpos d hd).1 (hpos d hd).2
  cases h : Stake.step me s t with
  | error e =>
    have e1 := exec_error h
    have e2 := distOf_error h tok
    simp only [paidTo, earnedBy, e1, e2, List.map_nil, List.sum_nil, List.append_nil, sub_self, ite_self, add_zero]
    split <;> omega
  | ok s' =>
    have e1 := exec_ok h
    simp only [paidTo, earnedBy, e1]
    cases t with
    | token c u op =>
      simp only [Stake.step, bind_ok, ok_inj] at h
      obtain ⟨L, -, rfl⟩ := h
      simp [distOf]
    | stake c k =>
      cases k with
      | init ad lp mb mr m o mc =>
        simp only [Stake.step, bind_ok, ok_inj] at h
        obtain ⟨v, hv, rfl⟩ := h
        obtain ⟨-, -, -, -, rfl⟩ := init_inv hv
        simp [distOf]
      | bond b x =>
        simp only [Stake.step, bind_ok, ok_inj] at h
        obtain ⟨⟨v, L⟩, hv, rfl⟩ := h
        obtain ⟨-, cfg, -, -, -, -, -, -, rfl, -, -⟩ := bond_inv hv
        simp only [distOf, List.append_nil, List.map_nil, List.sum_nil, add_zero, zero_add]
        by_cases hb : b = a
        · subst hb
          simp only [upd_same]
          refine open_le rfl (fun d hd => ?_)
          have := earned_fresh (x := x) (show d.time ≤ c.now from hlog d hd)
          simp only [earned_app, this]
          simp
        · simp [upd_apply, Ne.symm hb]
      | unbond b x ts =>
        simp only [Stake.step, bind_ok, ok_inj] at h
        obtain ⟨⟨v, L⟩, hv, rfl⟩ := h
        obtain ⟨-, cfg, p, q, -, hst, -, hx, -, rfl, -, -⟩ := unbond_inv hv
        simp only [distOf, List.append_nil, List.map_nil, List.sum_nil, add_zero, zero_add]
        by_cases hb : b = a
        · subst hb
          simp only [upd_same]
          refine open_le rfl (fun d hd => ?_)
          simp only [hst]
          have e : p ++ (⟨x, ts⟩ : Entry) :: q = p ++ ([⟨x, ts⟩] ++ q) := rfl
          rw [e, earned_app, earned_app, earned_app]
          have := hnn [⟨x, ts⟩] (by simpa using hx) d hd
          omega
        · simp [upd_apply, Ne.symm hb]
      | createFlow b u =>
        simp only [Stake.step, bind_ok, ok_inj] at h
        obtain ⟨v, hv, rfl⟩ := h
        obtain ⟨-, cfg, -, -, -, rfl⟩ := createFlow_inv hv
        simp [distOf]
      | distribute b x u =>
        have hsucc := succeeds_ok h
        have hin : ∀ d ∈ distOf me s tok (.stake c (.distribute b x u)), 0 ≤ d.amount ∧ 0 ≤ d.staked := by
          intro d hd
          simp only [Stake.step, bind_ok, ok_inj] at h
          obtain ⟨⟨v, L⟩, hv, rfl⟩ := h
          obtain ⟨-, cfg, m, -, -, -, -, hx, -⟩ := distribute_inv hv
          simp only [distOf] at hd
          split at hd
          · simp only [List.mem_singleton] at hd
            subst hd
            exact ⟨hx, hA.nonneg⟩
          · simp at hd
        have hinfo : s'.st.info = s.st.info := by
          simp only [Stake.step, bind_ok, ok_inj] at h
          obtain ⟨⟨v, L⟩, hv, rfl⟩ := h
          obtain ⟨-, cfg, m, -, -, -, -, -, -, -, rfl, -⟩ := distribute_inv hv
          rfl
        rw [hinfo, open_app]
        have := open_small (log := distOf me s tok (.stake c (.distribute b x u))) (i := s.st.info a)
          (fun d hd => earned_nonneg (fun e he => (hA.pos a e he).le) (hin d hd).1 (hin d hd).2)
        have e : Spec.stakesOf s a = (s.st.info a).stakes := rfl
        rw [e]
        simp only
        omega
      | withdraw b =>
        simp only [Stake.step, bind_ok, ok_inj] at h
        obtain ⟨⟨v, L⟩, hv, rfl⟩ := h
        obtain ⟨rfl, hpay⟩ := withdraw_inv hv
        simp only [distOf, List.append_nil, List.map_nil, List.sum_nil, add_zero]
        by_cases hb : b = a
        · subst hb
          simp only [upd_same, if_true]
          rw [open_done (show ∀ d ∈ log, d.time ≤ c.now from hlog)]
          have hnneg : 0 ≤ open' log (s.st.info b) := by
            unfold open'
            apply List.sum_nonneg
            intro z hz
            obtain ⟨d, hd, rfl⟩ := List.mem_map.1 hz
            exact hnn _ (fun e he => (hA.pos b e he).le) d (List.mem_of_mem_filter hd)
          by_cases hme : b = me
          · subst hme
            rw [withdraw_self hpay]
            simpa using hnneg
          · obtain ⟨w1, w2⟩ := withdraw_bal hme hA.nodup hpay tok
            by_cases htok : tok ∈ s.st.dists
            · obtain ⟨p, q1, -, q3⟩ := w2 htok
              rw [open_eq_due hlog, ← hp q1, q3]
              omega
            · rw [w1 htok]
              simpa using hnneg
        · simp [upd_apply, Ne.symm hb, hb]

theorem account_core {me : Addr} {s : Sys} (h0 : Genesis me s) (tok a : Addr) (ts : List Tx) :
    (∀ t ∈ ts, Stake.Spec.Possible me t) → WellTimed me s ts →
    paidTo me s tok a ts + open' (dists me s tok ts) ((Stake.run me s ts).st.info a) ≤ earnedBy me s tok a ts := by
  induction ts using List.reverseRecOn with
  | nil => intro _ _; simp [paidTo, earnedBy, open', dists]
  | append_singleton ts t ih =>
    intro ht hw
    have ht1 : ∀ u ∈ ts, Stake.Spec.Possible me u := fun u hu => ht u (by simp [hu])
    have hw1 := wellTimed_app hw
    have ih := ih ht1 hw1
    have hA := run_invA ts ht1 (genesis_invA h0)
    have ho := (ordered_snoc hw.ordered).2
    have hl := (C41_all_recorded h0 ts ht1 hw1 tok).2
    rw [paidTo_app, earnedBy_app, dists_app, run_snoc]
    have key := step_earned (t := t) (log := dists me s tok ts) (tok := tok) (a := a) hA (dists_times ho)
      (fun d hd => (hl d hd).2) (fun hp => (C39_pending_formula h0 ts ht1 hw1 hp).1)
    have e : dists me (Stake.run me s ts) tok [t] = distOf me (Stake.run me s ts) tok t := by simp [dists]
    rw [e]
    omega

/-- **C144** However often rewards are withdrawn for an account, and whatever else happens: of each reward token
it is never paid more than it earned, that is, the documented rewards of the stakes it had at the moments of the
distributions. -/
theorem C144_paid_at_most_earned {me : Addr} {s : Sys} (h0 : Genesis me s) (ts : List Tx)
    (ht : ∀ t ∈ ts, Stake.Spec.Possible me t) (hw : WellTimed me s ts) (tok a : Addr) :
    paidTo me s tok a ts ≤ earnedBy me s tok a ts := by
  have h := account_core h0 tok a ts ht hw
  have hl := (C41_all_recorded h0 ts ht hw tok).2
  have hA := run_invA ts ht (genesis_invA h0)
  have : 0 ≤ open' (dists me s tok ts) ((Stake.run me s ts).st.info a) := by
    unfold open'
    apply List.sum_nonneg
    intro z hz
    obtain ⟨d, hd, rfl⟩ := List.mem_map.1 hz
    have := hl d (List.mem_of_mem_filter hd)
    exact earned_nonneg (fun e he => (hA.pos a e he).le) this.2.1 this.2.2
  omega

/-! ### all accounts -/

theorem paid_sum {me : Addr} {tok : Addr} {S : Finset Addr} : ∀ {ts : List Tx} {s : Sys}, Withdrawers S ts →
    paidOut me s tok ts = ∑ a ∈ S, paidTo me s tok a ts
  | [], _, _ => by simp [paidOut, paidTo]
  | t :: ts, s, h => by
    have ih := paid_sum (me := me) (tok := tok) (S := S) (ts := ts) (s := exec me s t)
      (fun c a hm => h c a (List.mem_cons_of_mem _ hm))
    simp only [paidOut, paidTo, Finset.sum_add_distrib, ih]
    congr 1
    cases t with
    | token => simp [paidBy]
    | stake c k =>
      cases k with
      | withdraw b =>
        have := h c b List.mem_cons_self
        simp [paidBy, this]
      | _ => simp [paidBy]

/-- The reward of one stake, cross-multiplied. -/
theorem reward_frac {x R T : Int} {day ts k : Nat} (hx : 0 ≤ x) (hR : 0 ≤ R) (hT : 0 < T) (hk : min ((day - ts) / 86400) 60 ≤ k) :
    reward x R T day ts * (T * 60) ≤ x * R * k := by
  unfold reward
  have h1 := ediv_bounds (a := x * R) (b := T) hT
  have hu : 0 ≤ x * R / T := Int.ediv_nonneg (mul_nonneg hx hR) hT.le
  generalize x * R / T = u at *
  generalize (min ((day - ts) / 86400) 60 : Nat) = m at *
  have h2 : ((m : Int) * 10 ^ 18 / 60) * 60 ≤ k * 10 ^ 18 := by omega
  generalize ((m : Int) * 10 ^ 18 / 60) = f at *
  have h3 : (u * f / 10 ^ 18) * 10 ^ 18 ≤ u * f := by omega
  generalize u * f / 10 ^ 18 = g at *
  have e1 := mul_le_mul_of_nonneg_right h3 (show 0 ≤ T * 60 by omega)
  have e2 := mul_le_mul_of_nonneg_left h2 (mul_nonneg hu hT.le)
  have e3 := mul_le_mul_of_nonneg_right h1.1 (show (0 : Int) ≤ k * 10 ^ 18 by positivity)
  nlinarith

theorem earned_frac {l : List Entry} {d : Dist} {k : Nat} (hl : ∀ e ∈ l, 0 ≤ e.amount) (hR : 0 ≤ d.amount) (hT : 0 < d.staked)
    (hk : ∀ e ∈ l, min ((d.time - e.ts) / 86400) 60 ≤ k) :
    earnedFor l d * (d.staked * 60) ≤ (l.map Entry.amount).sum * d.amount * k := by
  unfold earnedFor
  rw [if_neg (by omega)]
  induction l with
  | nil => simp
  | cons e l ih =>
    have i1 := ih (fun x hx => hl x (by simp [hx])) (fun x hx => hk x (by simp [hx]))
    have i2 := reward_frac (hl e (by simp)) hR hT (hk e (by simp))
    simp only [List.map_cons, List.sum_cons, add_mul]
    omega

/-- What all accounts together earn in one distribution. -/
theorem all_earn {me : Addr} {s : Sys} (hA : InvA me s) {S : Finset Addr} {d : Dist} {k : Nat} (hd : d.staked = s.st.total)
    (hR : 0 ≤ d.amount) (hk : ∀ a ∈ S, ∀ e ∈ Spec.stakesOf s a, min ((d.time - e.ts) / 86400) 60 ≤ k) :
    ∑ a ∈ S, earnedFor (Spec.stakesOf s a) d ≤ d.amount * k / 60 := by
  have t0 := hA.nonneg
  by_cases hz : d.staked = 0
  · have : ∀ a ∈ S, earnedFor (Spec.stakesOf s a) d = 0 := fun a _ => by unfold earnedFor; rw [if_pos hz]
    rw [Finset.sum_eq_zero this]
    exact Int.ediv_nonneg (mul_nonneg hR (by omega)) (by norm_num)
  · have hT : 0 < d.staked := by omega
    have h1 : (∑ a ∈ S, earnedFor (Spec.stakesOf s a) d) * (d.staked * 60) ≤ (∑ a ∈ S, (s.st.info a).total) * d.amount * k := by
      rw [Finset.sum_mul, Finset.sum_mul, Finset.sum_mul]
      apply Finset.sum_le_sum
      intro a ha
      rw [hA.sum a]
      exact earned_frac (fun e he => (hA.pos a e he).le) hR hT (hk a ha)
    have h2 := hA.cover S
    rw [← hd] at h2
    have h3 := mul_le_mul_of_nonneg_right (mul_le_mul_of_nonneg_right h2 hR) (show (0 : Int) ≤ k by omega)
    generalize ∑ a ∈ S, earnedFor (Spec.stakesOf s a) d = E at *
    have h4 : d.staked * (E * 60) ≤ d.staked * (d.amount * k) := by nlinarith
    have h5 := le_of_mul_le_mul_left h4 hT
    omega

theorem one_dist {me : Addr} {s : Sys} (hA : InvA me s) (S : Finset Addr) (tok : Addr) (t : Tx) :
    ∑ a ∈ S, earnedBy me s tok a [t] ≤ distributed me s tok [t] := by
  simp only [earnedBy, distributed, dists, List.append_nil, add_zero]
  have : distOf me s tok t = [] ∨ ∃ d, distOf me s tok t = [d] ∧ 0 ≤ d.amount ∧ d.staked = s.st.total := by
    unfold distOf
    split
    · rename_i c b x u
      split
      · rename_i h
        right
        refine ⟨_, rfl, ?_, rfl⟩
        have h := h.2
        unfold Spec.succeeds at h
        cases e : Stake.step me s (.stake c (.distribute b x u)) with
        | error => simp [e, Except.toOption] at h
        | ok s' =>
          simp only [Stake.step, bind_ok, ok_inj] at e
          obtain ⟨⟨v, L⟩, hv, rfl⟩ := e
          obtain ⟨-, cfg, m, -, -, -, -, hx, -⟩ := distribute_inv hv
          exact hx
      · exact .inl rfl
    · exact .inl rfl
  rcases this with e | ⟨d, e, h1, h2⟩
  · simp [e]
  · rw [e]
    have := all_earn hA (S := S) h2 h1 (k := 60) (fun a _ e _ => Nat.min_le_right _ _)
    simp only [List.map_cons, List.map_nil, List.sum_cons, List.sum_nil, add_zero]
    omega

theorem all_dists {me : Addr} (S : Finset Addr) (tok : Addr) : ∀ (ts : List Tx) {s : Sys}, InvA me s →
    (∀ t ∈ ts, Stake.Spec.Possible me t) → ∑ a ∈ S, earnedBy me s tok a ts ≤ distributed me s tok ts
  | [], _, _, _ => by simp [earnedBy, distributed, dists]
  | t :: ts, s, hA, ht => by
    have h1 := one_dist hA S tok t
    have h2 := all_dists S tok ts (exec_invA (ht t (by simp)) hA) (fun u hu => ht u (by simp [hu]))
    have e1 := distributed_app me tok s [t] ts
    have e2 : ∀ a, earnedBy me s tok a (t :: ts) = earnedBy me s tok a [t] + earnedBy me (exec me s t) tok a ts := fun a =>
      earnedBy_app me tok a ts [t] s
    simp only [e2, Finset.sum_add_distrib]
    have e3 : run me s [t] = exec me s t := rfl
    rw [e3] at e1
    have e4 : distributed me s tok (t :: ts) = distributed me s tok ([t] ++ ts) := rfl
    omega

/-- **C144** What was distributed and not earned by anybody stays in the contract: it holds, of each token, at
least what was distributed less what the accounts earned at the moments of the distributions, on top of the
principal if it is the staked token.  (`S` is any set of accounts that contains all for which rewards were
withdrawn.) -/
theorem C144_unearned_stays {me : Addr} {s : Sys} (h0 : Genesis me s) (ts : List Tx)
    (ht : ∀ t ∈ ts, Stake.Spec.Possible me t) (hw : WellTimed me s ts) (tok : Addr) {S : Finset Addr} (hS : Withdrawers S ts) :
    distributed me s tok ts - ∑ a ∈ S, earnedBy me s tok a ts +
      (if lp? (Stake.run me s ts) = some tok then (Stake.run me s ts).st.total else 0) ≤
      (Stake.run me s ts).led.bal tok me := by
  have h1 := C37_holdings h0 ts ht tok
  have h2 := paid_sum (me := me) (tok := tok) (s := s) hS
  have h3 : ∑ a ∈ S, paidTo me s tok a ts ≤ ∑ a ∈ S, earnedBy me s tok a ts :=
    Finset.sum_le_sum (fun a _ => C144_paid_at_most_earned h0 ts ht hw tok a)
  omega

/-- The accounts for which rewards are withdrawn. -/
def withdrawers (ts : List Tx) : Finset Addr :=
  (ts.filterMap (fun t => match t with | .stake _ (.withdraw a) => some a | _ => none)).toFinset

theorem withdrawers_spec (ts : List Tx) : Withdrawers (withdrawers ts) ts := by
  intro c a h
  simp only [withdrawers, List.mem_toFinset, List.mem_filterMap]
  exact ⟨_, h, rfl⟩

/-- **C144** A distribution made while no stake is older than `k` days (`k < 60`; in whole days, so `k = 0` if no
stake has been there for a day or nobody has staked at all): of the `x` units at most `k` sixtieths can ever be
claimed.  Whatever happens later, the rest is never paid to anybody and stays in the contract for ever. -/
theorem C144_young_stakes_waste {me : Addr} {s : Sys} (h0 : Genesis me s) (ts us : List Tx) {c : Ctx} {m tok : Addr} {x : Int}
    (ht : ∀ t ∈ ts ++ .stake c (.distribute m x tok) :: us, Stake.Spec.Possible me t)
    (hw : WellTimed me s (ts ++ .stake c (.distribute m x tok) :: us))
    (hd : Stake.Spec.succeeds me (Stake.run me s ts) (.stake c (.distribute m x tok)) = true) {k : Nat}
    (hk : ∀ a, ∀ e ∈ Spec.stakesOf (Stake.run me s ts) a, (c.now - e.ts) / 86400 ≤ k) :
    paidOut me s tok (ts ++ .stake c (.distribute m x tok) :: us) + (x - x * k / 60) ≤
      distributed me s tok (ts ++ .stake c (.distribute m x tok) :: us) ∧
    x - x * k / 60 + (if lp? (Stake.run me s (ts ++ .stake c (.distribute m x tok) :: us)) = some tok then
        (Stake.run me s (ts ++ .stake c (.distribute m x tok) :: us)).st.total else 0) ≤
      (Stake.run me s (ts ++ .stake c (.distribute m x tok) :: us)).led.bal tok me := by
  set hist := ts ++ .stake c (.distribute m x tok) :: us with hh
  have hS := withdrawers_spec hist
  generalize withdrawers hist = S at hS
  have hA0 := genesis_invA h0
  have hA := run_invA ts (fun t h => ht t (by simp [hh, h])) hA0
  have hx : 0 ≤ x := by
    have h := hd
    unfold Spec.succeeds at h
    cases e : Stake.step me (Stake.run me s ts) (.stake c (.distribute m x tok)) with
    | error => simp [e, Except.toOption] at h
    | ok s' =>
      simp only [Stake.step, bind_ok, ok_inj] at e
      obtain ⟨⟨v, L⟩, hv, rfl⟩ := e
      obtain ⟨-, cfg, m, -, -, -, -, hx, -⟩ := distribute_inv hv
      exact hx
  have hpd : paidOut me s tok hist + (x - x * k / 60) ≤ distributed me s tok hist := by
    have h1 := paid_sum (me := me) (tok := tok) (s := s) hS
    have h2 : ∑ a ∈ S, paidTo me s tok a hist ≤ ∑ a ∈ S, earnedBy me s tok a hist :=
      Finset.sum_le_sum (fun a _ => C144_paid_at_most_earned h0 hist ht hw tok a)
    have e1 : ∀ a, earnedBy me s tok a hist = earnedBy me s tok a ts +
        (earnedFor (Spec.stakesOf (Stake.run me s ts) a) ⟨c.now, x, (Stake.run me s ts).st.total⟩ +
          earnedBy me (exec me (Stake.run me s ts) (.stake c (.distribute m x tok))) tok a us) := by
      intro a
      rw [hh, earnedBy_app]
      simp [earnedBy, distOf, hd]
    have e2 : distributed me s tok hist = distributed me s tok ts + (x +
          distributed me (exec me (Stake.run me s ts) (.stake c (.distribute m x tok))) tok us) := by
      rw [hh, distributed_app]
      simp [distributed, dists, distOf, hd]
    simp only [e1, Finset.sum_add_distrib] at h2
    have a1 := all_dists S tok ts hA0 (fun t h => ht t (by simp [hh, h]))
    have a2 := all_earn hA (S := S) (d := ⟨c.now, x, (Stake.run me s ts).st.total⟩) rfl hx (k := k)
      (fun a _ e he => le_trans (Nat.min_le_left _ _) (hk a e he))
    have a3 := all_dists S tok us (exec_invA (ht (.stake c (.distribute m x tok)) (by simp [hh])) hA)
      (fun t h => ht t (by simp [hh, h]))
    simp only at a2
    omega
  refine ⟨hpd, ?_⟩
  have h1 := C37_holdings h0 hist ht tok
  omega

theorem full_earn {l : List Entry} {d : Dist} (hT : 0 < d.staked) (hold : ∀ e ∈ l, e.ts + 60 * 86400 ≤ d.time) :
    (l.map Entry.amount).sum * d.amount ≤ (earnedFor l d + l.length) * d.staked := by
  unfold earnedFor
  rw [if_neg (by omega)]
  induction l with
  | nil => simp
  | cons e l ih =>
    have i1 := ih (fun x hx => hold x (by simp [hx]))
    have hk : min ((d.time - e.ts) / 86400) 60 = 60 := by
      have := hold e (by simp)
      omega
    have i2 : reward e.amount d.amount d.staked d.time e.ts = e.amount * d.amount / d.staked := by
      unfold reward
      rw [hk]
      norm_num
    have i3 := ediv_bounds (a := e.amount * d.amount) (b := d.staked) hT
    simp only [List.map_cons, List.sum_cons, List.length_cons, i2]
    generalize e.amount * d.amount / d.staked = u at *
    push_cast
    nlinarith

/-- **C144** The other way round: a distribution made while all stakes are 60 days old or older is earned in full,
up to one unit for each stake.  (`S` contains all stakers.) -/
theorem C144_old_stakes_earn_all {me : Addr} {s : Sys} (h0 : Genesis me s) (ts : List Tx)
    (ht : ∀ t ∈ ts, Stake.Spec.Possible me t) {now : Nat} {x : Int} {S : Finset Addr}
    (hS : ∀ a, a ∉ S → Spec.stakesOf (Stake.run me s ts) a = []) (hpos : 0 < (Stake.run me s ts).st.total)
    (hold : ∀ a, ∀ e ∈ Spec.stakesOf (Stake.run me s ts) a, e.ts + 60 * 86400 ≤ now) :
    x - ∑ a ∈ S, ((Spec.stakesOf (Stake.run me s ts) a).length : Int) ≤
      ∑ a ∈ S, earnedFor (Spec.stakesOf (Stake.run me s ts) a) ⟨now, x, (Stake.run me s ts).st.total⟩ := by
  have hA := run_invA ts ht (genesis_invA h0)
  have h1 : (∑ a ∈ S, ((Stake.run me s ts).st.info a).total) * x ≤
      (∑ a ∈ S, (earnedFor (Spec.stakesOf (Stake.run me s ts) a) ⟨now, x, (Stake.run me s ts).st.total⟩ +
        ((Spec.stakesOf (Stake.run me s ts) a).length : Int))) * (Stake.run me s ts).st.total := by
    rw [Finset.sum_mul, Finset.sum_mul]
    apply Finset.sum_le_sum
    intro a _
    rw [hA.sum a]
    exact full_earn (d := ⟨now, x, (Stake.run me s ts).st.total⟩) hpos (hold a)
  have h2 : ∑ a ∈ S, ((Stake.run me s ts).st.info a).total = (Stake.run me s ts).st.total := by
    obtain ⟨U, u1, u2⟩ := hA.users
    rw [← u2]
    have z : ∀ a, Spec.stakesOf (Stake.run me s ts) a = [] → ((Stake.run me s ts).st.info a).total = 0 := by
      intro a h
      have h : ((Stake.run me s ts).st.info a).stakes = [] := h
      rw [hA.sum a, h]; rfl
    have r1 : ∑ a ∈ S, ((Stake.run me s ts).st.info a).total = ∑ a ∈ S ∪ U, ((Stake.run me s ts).st.info a).total :=
      Finset.sum_subset Finset.subset_union_left (fun a _ hn => z a (hS a hn))
    have r2 : ∑ a ∈ U, ((Stake.run me s ts).st.info a).total = ∑ a ∈ S ∪ U, ((Stake.run me s ts).st.info a).total :=
      Finset.sum_subset Finset.subset_union_right (fun a _ hn => z a (u1 a hn))
    rw [r1, r2]
  rw [h2, Finset.sum_add_distrib, mul_comm] at h1
  have := le_of_mul_le_mul_right h1 hpos
  omega

/-- account 1 stakes 100 units; half a day later 1000 units of token 40 are handed out, and after 70 days 600 more;
account 1 withdraws the rewards: it is paid the 600, the 1000 stay in the contract -/
def exWaste : List Tx :=
  [ .stake (sBy 9 0) (.init 9 30 10 1 7 9 5),
    .stake (sBy 7 1) (.createFlow 7 40),
    .stake (sBy 1 (sDay 10)) (.bond 1 100),
    .stake (sBy 7 (sDay 10 + 43200)) (.distribute 7 1000 40),
    .stake (sBy 7 (sDay 80)) (.distribute 7 600 40),
    .stake (sBy 1 (sDay 81)) (.withdraw 1),
    .stake (sBy 1 (sDay 82)) (.unbond 1 100 (sDay 10)) ]

/-- the hypotheses hold, with `k = 0`; the amounts earned and paid are 600, and the bound on what stays is exact -/
example : (∀ t ∈ exWaste, Stake.Spec.Possible 100 t) ∧ WellTimed 100 sExStart exWaste ∧
    Stake.Spec.succeeds 100 (Stake.run 100 sExStart (exWaste.take 3)) (.stake (sBy 7 (sDay 10 + 43200)) (.distribute 7 1000 40)) = true ∧
    Spec.stakesOf (Stake.run 100 sExStart (exWaste.take 3)) 1 = [⟨100, sDay 10⟩] ∧
    earnedBy 100 sExStart 40 1 exWaste = 600 ∧ paidTo 100 sExStart 40 1 exWaste = 600 ∧
    distributed 100 sExStart 40 exWaste = 1600 ∧ (Stake.run 100 sExStart exWaste).led.bal 40 100 = 1000 ∧
    (Stake.run 100 sExStart exWaste).st.total = 0 := by
  refine ⟨?_, ⟨?_, ?_⟩, by decide +kernel, by decide +kernel, by decide +kernel, by decide +kernel, by decide +kernel,
    by decide +kernel, by decide +kernel⟩
  · intro t ht
    simp only [exWaste, List.mem_cons, List.not_mem_nil, or_false] at ht
    rcases ht with rfl | rfl | rfl | rfl | rfl | rfl | rfl <;> rfl
  · simp [TimeOrdered, exWaste, Tx.ctx, sBy, sDay]
  · refine ⟨?_, ?_, ?_, ?_, ?_, ?_, ?_, trivial⟩ <;> decide +kernel

/-- a withdrawn account set for it -/
example : Withdrawers {1} exWaste := by
  intro c a h
  simp only [exWaste, List.mem_cons, List.not_mem_nil, or_false] at h
  rcases h with h | h | h | h | h | h | h <;> simp at h
  simp [h.2]

end Phoenix.Props.Unclaimed
