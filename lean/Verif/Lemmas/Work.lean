import Verif.Spec.Work
import Verif.Lemmas.Stake
import Verif.Lemmas.SMap
/-! Helpers for the work done by the calls of the stake contract. -/
namespace Phoenix.Work
open Phoenix Phoenix.Stake Phoenix.Stake.Spec Phoenix.Work.Spec

/-! forgetting the counter -/
theorem removeStake_fst (x : Int) (ts : Nat) (l : List Entry) :
    (removeStake x ts l).map Prod.fst = Stake.removeStake x ts l := by
  induction l with
  | nil => rfl
  | cons e l ih =>
    simp only [removeStake, Stake.removeStake]
    split
    · rfl
    · rw [← ih]
      cases removeStake x ts l <;> rfl

theorem stakesLoop_fst (d r t : Nat) (l : List Entry) (acc : Int) :
    (stakesLoop d r t l acc).map Prod.fst = Stake.stakesLoop d r t l acc := by
  induction l generalizing acc with
  | nil => rfl
  | cons e l ih =>
    simp only [stakesLoop, Stake.stakesLoop]
    cases stakeReward d r t e with
    | error _ => rfl
    | ok v =>
      simp only [bind, Except.bind]
      cases addI acc v with
      | error _ => rfl
      | ok w =>
        simp only
        rw [← ih]
        cases stakesLoop d r t l w <;> rfl

theorem dayReward_fst (m h : SMap) (l : List Entry) (d : Nat) (acc : Int) :
    (dayReward m h l d acc).map Prod.fst = Stake.dayReward m h l d acc := by
  unfold dayReward Stake.dayReward
  cases m.get d with
  | none => rfl
  | some r =>
    cases h.get d with
    | none => rfl
    | some t =>
      simp only
      split
      · exact stakesLoop_fst ..
      · rfl

theorem daysLoop_fst (m h : SMap) (l : List Entry) (ds : List Nat) (acc : Int) :
    (daysLoop m h l ds acc).map Prod.fst = Stake.daysLoop m h l ds acc := by
  induction ds generalizing acc with
  | nil => rfl
  | cons d ds ih =>
    simp only [daysLoop, Stake.daysLoop]
    rw [← dayReward_fst]
    cases dayReward m h l d acc with
    | error _ => rfl
    | ok v =>
      simp only [bind, Except.bind, Except.map]
      rw [← ih]
      cases daysLoop m h l ds v.1 <;> rfl

theorem pending_fst (c : Ctx) (s : State) (tok : Addr) (i : Info) :
    (pending c s tok i).map Prod.fst = Stake.pending c s tok i := by
  unfold pending Stake.pending
  cases rewardHistory s tok with
  | error _ => rfl
  | ok m =>
    simp only [bind, Except.bind]
    rw [← daysLoop_fst]
    cases daysLoop m s.hist i.stakes (relevant m.keys i.last c.now) 0 <;> rfl

theorem payLoop_fst (me : Addr) (c : Ctx) (s : State) (a : Addr) (l : List Addr) (L : Ledger) :
    (payLoop me c s a l L).map Prod.fst = Stake.payLoop me c s a l L := by
  induction l generalizing L with
  | nil => rfl
  | cons t l ih =>
    simp only [payLoop, Stake.payLoop]
    rw [← pending_fst]
    cases pending c s t (s.info a) with
    | error _ => rfl
    | ok p =>
      simp only [bind, Except.bind, Except.map]
      cases L.transfer (c.as me) t me a p.1 with
      | error _ => rfl
      | ok L1 =>
        simp only
        rw [← ih]
        cases payLoop me c s a l L1 <;> rfl

theorem bond_fst (me : Addr) (c : Ctx) (s : State) (L : Ledger) (a : Addr) (x : Int) :
    (bond me c s L a x).map Prod.fst = Stake.bond me c s L a x := by
  unfold bond Stake.bond
  simp only [bind, Except.bind]
  repeat' split
  all_goals first | rfl | simp_all [Except.map]

theorem unbond_fst (me : Addr) (c : Ctx) (s : State) (L : Ledger) (a : Addr) (x : Int) (ts : Nat) :
    (unbond me c s L a x ts).map Prod.fst = Stake.unbond me c s L a x ts := by
  unfold unbond Stake.unbond
  simp only [bind, Except.bind]
  rw [← removeStake_fst]
  cases requireAuth c a with
  | error _ => rfl
  | ok _ =>
    cases getConfig s with
    | error _ => rfl
    | ok cfg =>
      simp only
      cases removeStake x ts (s.info a).stakes with
      | error _ => rfl
      | ok r =>
        simp only [Except.map]
        cases subI (s.info a).total x with
        | error _ => rfl
        | ok _ =>
          simp only
          cases L.transfer (c.as me) cfg.lpToken me a x with
          | error _ => rfl
          | ok _ =>
            simp only
            cases subI s.total x <;> rfl

theorem createFlow_fst (c : Ctx) (s : State) (a t : Addr) :
    (createFlow c s a t).map Prod.fst = Stake.createFlow c s a t := by
  unfold createFlow Stake.createFlow
  simp only [bind, Except.bind]
  repeat' split
  all_goals first | rfl | simp_all [Except.map]

theorem distribute_fst (me : Addr) (c : Ctx) (s : State) (L : Ledger) (a : Addr) (x : Int) (t : Addr) :
    (distribute me c s L a x t).map Prod.fst = Stake.distribute me c s L a x t := by
  unfold distribute Stake.distribute
  simp only [bind, Except.bind]
  repeat' split
  all_goals first | rfl | simp_all [Except.map]

theorem withdraw_fst (me : Addr) (c : Ctx) (s : State) (L : Ledger) (a : Addr) :
    (withdraw me c s L a).map Prod.fst = Stake.withdraw me c s L a := by
  unfold withdraw Stake.withdraw
  rw [← payLoop_fst]
  cases payLoop me c s a s.dists L <;> rfl

theorem step_fst (me : Addr) (s : Sys) (t : Tx) : (step me s t).map Prod.fst = Stake.step me s t := by
  cases t with
  | token c tok op =>
    simp only [step, Stake.step]
    cases s.led.call c tok op <;> rfl
  | stake c k =>
    cases k with
    | init a lp mb mr m o mc =>
      simp only [step, Stake.step]
      cases Stake.init s.st a lp mb mr m o mc <;> rfl
    | bond a x =>
      simp only [step, Stake.step]; rw [← bond_fst]
      cases bond me c s.st s.led a x <;> rfl
    | unbond a x ts =>
      simp only [step, Stake.step]; rw [← unbond_fst]
      cases unbond me c s.st s.led a x ts <;> rfl
    | createFlow a t =>
      simp only [step, Stake.step]; rw [← createFlow_fst]
      cases createFlow c s.st a t <;> rfl
    | distribute a x t =>
      simp only [step, Stake.step]; rw [← distribute_fst]
      cases distribute me c s.st s.led a x t <;> rfl
    | withdraw a =>
      simp only [step, Stake.step]; rw [← withdraw_fst]
      cases withdraw me c s.st s.led a <;> rfl

/-! the counters -/
theorem removeStake_work {x : Int} {ts : Nat} {l l' : List Entry} {n : Nat} (h : removeStake x ts l = .ok (l', n)) :
    1 ≤ n ∧ n ≤ l.length ∧ l'.length + 1 = l.length := by
  induction l generalizing l' n with
  | nil => simp [removeStake] at h
  | cons e l ih =>
    unfold removeStake at h
    split at h
    · simp only [ok_inj, Prod.mk.injEq] at h
      obtain ⟨rfl, rfl⟩ := h
      simp
    · simp only [bind_ok, ok_inj, Prod.mk.injEq, Prod.exists] at h
      obtain ⟨l1, k, h1, rfl, rfl⟩ := h
      obtain ⟨a1, a2, a3⟩ := ih h1
      simp only [List.length_cons]
      omega

theorem stakesLoop_work {d r t : Nat} {l : List Entry} {acc v : Int} {n : Nat}
    (h : stakesLoop d r t l acc = .ok (v, n)) : n = l.length := by
  induction l generalizing acc n with
  | nil =>
    simp only [stakesLoop, ok_inj, Prod.mk.injEq] at h
    simp [← h.2]
  | cons e l ih =>
    simp only [stakesLoop, bind_ok, ok_inj, Prod.mk.injEq, Prod.exists] at h
    obtain ⟨_, _, _, _, _, k, h1, rfl, rfl⟩ := h
    simp [ih h1]

theorem dayReward_work {m h : SMap} {l : List Entry} {d : Nat} {acc v : Int} {n : Nat}
    (e : dayReward m h l d acc = .ok (v, n)) : n ≤ l.length := by
  unfold dayReward at e
  split at e
  · split at e
    · exact (stakesLoop_work e).le
    · simp only [ok_inj, Prod.mk.injEq] at e; omega
  · simp only [ok_inj, Prod.mk.injEq] at e; omega

theorem daysLoop_work {m h : SMap} {l : List Entry} {ds : List Nat} {acc v : Int} {n : Nat}
    (e : daysLoop m h l ds acc = .ok (v, n)) : n ≤ ds.length * (l.length + 1) := by
  induction ds generalizing acc n with
  | nil =>
    simp only [daysLoop, ok_inj, Prod.mk.injEq] at e
    omega
  | cons d ds ih =>
    simp only [daysLoop, bind_ok, ok_inj, Prod.mk.injEq, Prod.exists] at e
    obtain ⟨_, a, h1, _, b, h2, rfl, rfl⟩ := e
    have := dayReward_work h1
    have := ih h2
    simp only [List.length_cons, Nat.add_mul]
    omega

/-- the recorded distributions of a reward token -/
def mapOf (s : State) (t : Addr) : SMap := (s.rewards t).getD []

theorem pending_work {c : Ctx} {s : State} {t : Addr} {i : Info} {v : Int} {n : Nat}
    (h : pending c s t i = .ok (v, n)) :
    4 * (mapOf s t).length + s.hist.length ≤ n ∧
      n ≤ 4 * (mapOf s t).length + s.hist.length +
        (relevant (mapOf s t).keys i.last c.now).length * (i.stakes.length + 1) := by
  unfold pending at h
  simp only [bind_ok, rewardHistory_ok, ok_inj, Prod.mk.injEq, Prod.exists] at h
  obtain ⟨m, hm, _, k, h1, _, rfl⟩ := h
  have := daysLoop_work h1
  have e : mapOf s t = m := by simp [mapOf, hm]
  rw [e]
  simp only [SMap.keys, List.length_map] at *
  omega

theorem payLoop_work {me : Addr} {c : Ctx} {s : State} {a : Addr} {l : List Addr} {L L' : Ledger} {n : Nat}
    (h : payLoop me c s a l L = .ok (L', n)) :
    (l.map (fun t => 4 * (mapOf s t).length)).sum + l.length * (s.hist.length + 1) ≤ n ∧
      n ≤ (l.map (fun t => 4 * (mapOf s t).length)).sum + l.length * (s.hist.length + 1) +
        (l.map (fun t => (relevant (mapOf s t).keys (s.info a).last c.now).length)).sum *
          ((s.info a).stakes.length + 1) := by
  induction l generalizing L n with
  | nil =>
    simp only [payLoop, ok_inj, Prod.mk.injEq] at h
    simp [← h.2]
  | cons t l ih =>
    simp only [payLoop, bind_ok, ok_inj, Prod.mk.injEq, Prod.exists] at h
    obtain ⟨p, k, h1, L1, _, _, j, h2, rfl, rfl⟩ := h
    obtain ⟨a1, a2⟩ := pending_work h1
    obtain ⟨b1, b2⟩ := ih h2
    simp only [List.map_cons, List.sum_cons, List.length_cons, Nat.add_mul]
    omega

theorem sum_four (l : List Addr) (f : Addr → Nat) : (l.map (fun t => 4 * f t)).sum = 4 * (l.map f).sum := by
  induction l with
  | nil => rfl
  | cons t l ih => simp only [List.map_cons, List.sum_cons, ih]; omega

/-! counting in a history -/
theorem exec_ok {me : Addr} {s s' : Sys} {t : Tx} (h : Stake.step me s t = .ok s') : exec me s t = s' := by
  simp [exec, h]

theorem happened_append (me : Addr) (p : Tx → Bool) (s : Sys) (ts us : List Tx) :
    happened me p s (ts ++ us) = happened me p s ts + happened me p (run me s ts) us := by
  induction ts generalizing s with
  | nil => simp [happened, run]
  | cons t ts ih =>
    simp only [List.cons_append, happened, ih, run, List.foldl_cons]
    omega

theorem run_snoc (me : Addr) (s : Sys) (ts : List Tx) (t : Tx) :
    run me s (ts ++ [t]) = exec me (run me s ts) t := by
  simp [run]

theorem happened_snoc (me : Addr) (p : Tx → Bool) (s : Sys) (ts : List Tx) (t : Tx) :
    happened me p s (ts ++ [t]) = happened me p s ts + if p t && succeeds me (run me s ts) t then 1 else 0 := by
  rw [happened_append]; simp [happened]

theorem set_filter (m : SMap) (k v : Nat) (p : Nat → Bool) :
    ((m.set k v).keys.filter p).length ≤ (m.keys.filter p).length + if p k then 1 else 0 := by
  induction m with
  | nil => by_cases h : p k <;> simp [SMap.set, SMap.keys, h]
  | cons q m ih =>
    obtain ⟨k', v'⟩ := q
    simp only [SMap.set]
    simp only [SMap.keys] at *
    split
    · by_cases h : p k <;> simp [h]
    · split
      · rename_i e
        subst e
        by_cases h : p k <;> simp [h]
      · by_cases h : p k' <;> simp [h] <;> omega

theorem set_new {m : SMap} {k v : Nat} (h : k ∉ m.keys) : (m.set k v).length = m.length + 1 := by
  induction m with
  | nil => rfl
  | cons q m ih =>
    obtain ⟨k', v'⟩ := q
    simp only [SMap.keys, List.map_cons, List.mem_cons, not_or] at h
    simp only [SMap.set]
    split
    · simp
    · split
      · exact absurd ‹_› h.1
      · simp [ih h.2]

theorem sum_le_of_one {l : List Addr} (hl : l.Nodup) {f g : Addr → Nat} {t : Addr} {d : Nat}
    (h : ∀ x, x ≠ t → g x = f x) (ht : g t ≤ f t + d) : (l.map g).sum ≤ (l.map f).sum + d := by
  induction l with
  | nil => simp
  | cons x l ih =>
    obtain ⟨h1, h2⟩ := List.nodup_cons.mp hl
    simp only [List.map_cons, List.sum_cons]
    by_cases e : x = t
    · subst e
      have : l.map g = l.map f := List.map_congr_left (fun y hy => h y (fun e => h1 (e ▸ hy)))
      rw [this]; omega
    · have := ih h2
      rw [h x e]; omega

theorem sum_eq_of_one {l : List Addr} (hl : l.Nodup) {f g : Addr → Nat} {t : Addr} (hm : t ∈ l)
    (h : ∀ x, x ≠ t → g x = f x) (ht : g t = f t + 1) : (l.map g).sum = (l.map f).sum + 1 := by
  induction l with
  | nil => simp at hm
  | cons x l ih =>
    obtain ⟨h1, h2⟩ := List.nodup_cons.mp hl
    simp only [List.map_cons, List.sum_cons]
    by_cases e : x = t
    · subst e
      have : l.map g = l.map f := List.map_congr_left (fun y hy => h y (fun e => h1 (e ▸ hy)))
      rw [this]; omega
    · have := ih h2 (by rcases List.mem_cons.mp hm with h | h
                        · exact absurd h.symm e
                        · exact h)
      rw [h x e]; omega

/-- the sizes of the entries, compared with what happened -/
structure Sizes (me : Addr) (s0 : Sys) (ts : List Tx) : Prop where
  stakes : ∀ a, ((run me s0 ts).st.info a).stakes.length + happened me (unbonds a) s0 ts = happened me (bonds a) s0 ts
  dists : (run me s0 ts).st.dists.length = happened me announces s0 ts
  nodup : (run me s0 ts).st.dists.Nodup
  sorted : ∀ t, SMap.Sorted (mapOf (run me s0 ts).st t)
  hist : ∀ p, ((run me s0 ts).st.hist.keys.filter p).length ≤ happened me (distributesAt p) s0 ts
  sum : ∀ p, ((run me s0 ts).st.dists.map (fun t => ((mapOf (run me s0 ts).st t).keys.filter p).length)).sum ≤
    happened me (distributesAt p) s0 ts

theorem mapOf_upd (s : State) (t x : Addr) (m : SMap) (h : SMap) (d : List Addr) :
    mapOf { s with hist := h, dists := d, rewards := upd s.rewards t (some m) } x = if x = t then m else mapOf s x := by
  unfold mapOf
  simp only [upd_apply]
  split <;> simp

theorem sizes {me : Addr} {s0 : Sys} (h0 : s0.st = fresh) (ts : List Tx) : Sizes me s0 ts := by
  induction ts using List.reverseRecOn with
  | nil =>
    constructor <;> simp [run, h0, fresh, noInfo, happened, mapOf, SMap.Sorted, SMap.keys]
  | append_singleton ts t ih =>
    obtain ⟨i1, i2, i3, i4, i5, i6⟩ := ih
    have hsame : ∀ s' : Sys, run me s0 (ts ++ [t]) = s' → s'.st = (run me s0 ts).st →
        (∀ a, (bonds a t && succeeds me (run me s0 ts) t) = false) →
        (∀ a, (unbonds a t && succeeds me (run me s0 ts) t) = false) →
        (announces t && succeeds me (run me s0 ts) t) = false →
        Sizes me s0 (ts ++ [t]) := by
      intro s' e1 e2 b1 b2 b3
      constructor <;> simp only [e1, e2, happened_snoc, b1, b2, b3] 
      · simpa using i1
      · simpa using i2
      · exact i3
      · exact i4
      · intro p; exact le_trans (i5 p) (Nat.le_add_right _ _)
      · intro p; exact le_trans (i6 p) (Nat.le_add_right _ _)
    generalize hs : run me s0 ts = s at *
    cases hstep : Stake.step me s t with
    | error e =>
      refine hsame s ?_ rfl ?_ ?_ ?_
      · rw [run_snoc, hs]; simp [exec, hstep]
      all_goals simp [Stake.Spec.succeeds, hstep, Except.toOption]
    | ok s' =>
      have hr : run me s0 (ts ++ [t]) = s' := by rw [run_snoc, hs]; exact exec_ok hstep
      have hsu : succeeds me s t = true := by simp [Stake.Spec.succeeds, hstep, Except.toOption]
      cases t with
      | token c tok op =>
        simp only [Stake.step, bind_ok, ok_inj] at hstep
        obtain ⟨L, _, rfl⟩ := hstep
        refine hsame _ hr rfl ?_ ?_ ?_ <;> simp [bonds, unbonds, announces]
      | stake c k =>
        cases k with
        | init a lp mb mr m o mc =>
          simp only [Stake.step, bind_ok, ok_inj] at hstep
          obtain ⟨v, hv, rfl⟩ := hstep
          obtain ⟨_, _, _, _, rfl⟩ := init_inv hv
          constructor <;> simp only [hr, happened_snoc, hs, bonds, unbonds, announces, distributesAt]
          · simpa using i1
          · simpa using i2
          · exact i3
          · exact i4
          · intro p; simp [SMap.keys]
          · simpa [mapOf] using i6
        | bond a x =>
          simp only [Stake.step, bind_ok, ok_inj, Prod.exists] at hstep
          obtain ⟨v, L, hv, rfl⟩ := hstep
          obtain ⟨_, cfg, _, _, _, _, _, _, rfl, _⟩ := bond_inv hv
          constructor <;> simp only [hr, happened_snoc, hs, bonds, unbonds, announces, distributesAt, hsu]
          · intro b
            have := i1 b
            rw [upd_apply]
            by_cases e : b = a
            · subst e; simp; omega
            · simp [e, Ne.symm e]; omega
          · simpa using i2
          · exact i3
          · exact i4
          · simpa using i5
          · simpa [mapOf] using i6
        | unbond a x u =>
          simp only [Stake.step, bind_ok, ok_inj, Prod.exists] at hstep
          obtain ⟨v, L, hv, rfl⟩ := hstep
          obtain ⟨_, cfg, p, q, _, e0, _, _, _, rfl, _⟩ := unbond_inv hv
          constructor <;> simp only [hr, happened_snoc, hs, bonds, unbonds, announces, distributesAt, hsu]
          · intro b
            have := i1 b
            rw [upd_apply]
            by_cases e : b = a
            · subst e
              rw [e0] at this
              simp only [List.length_append, List.length_cons] at this
              simp; omega
            · simp [e, Ne.symm e]; omega
          · simpa using i2
          · exact i3
          · exact i4
          · simpa using i5
          · simpa [mapOf] using i6
        | createFlow a t =>
          simp only [Stake.step, bind_ok, ok_inj] at hstep
          obtain ⟨v, hv, rfl⟩ := hstep
          obtain ⟨_, cfg, _, _, hn, rfl⟩ := createFlow_inv hv
          constructor <;> simp only [hr, happened_snoc, hs, bonds, unbonds, announces, distributesAt, hsu]
          · simpa using i1
          · simp [i2]
          · refine List.nodup_append.mpr ⟨i3, by simp, ?_⟩
            intro y hy z hz e
            rw [List.mem_singleton] at hz
            exact hn (by rw [← hz, ← e]; exact hy)
          · intro y
            rw [mapOf_upd]
            split
            · simp [SMap.Sorted]
            · exact i4 y
          · simpa using i5
          · intro p
            simp only [List.map_append, List.sum_append, mapOf_upd]
            have : s.st.dists.map (fun x => ((SMap.keys (if x = t then [] else mapOf s.st x)).filter p).length) =
                s.st.dists.map (fun x => ((mapOf s.st x).keys.filter p).length) :=
              List.map_congr_left (fun y hy => by rw [if_neg (fun e : y = t => hn (e ▸ hy))])
            rw [this]
            simpa [SMap.keys] using i6 p
        | distribute a x t =>
          simp only [Stake.step, bind_ok, ok_inj, Prod.exists] at hstep
          obtain ⟨v, L, hv, rfl⟩ := hstep
          obtain ⟨_, cfg, m, _, _, hm, hmm, _, _, _, rfl, _⟩ := distribute_inv hv
          have e : mapOf s.st t = m := by simp [mapOf, hmm]
          constructor <;> simp only [hr, happened_snoc, hs, bonds, unbonds, announces, distributesAt, hsu]
          · simpa using i1
          · simpa using i2
          · exact i3
          · intro y
            rw [mapOf_upd]
            split
            · exact SMap.sorted_set (e ▸ i4 t) _ _
            · exact i4 y
          · intro p
            have := set_filter s.st.hist c.now (asU128 s.st.total) p
            have := i5 p
            simp only [Bool.and_true]
            omega
          · intro p
            have h1 := sum_le_of_one i3 (t := t) (d := if p c.now then 1 else 0)
              (f := fun x => ((mapOf s.st x).keys.filter p).length)
              (g := fun y => ((SMap.keys (if y = t then m.set c.now (asU128 x) else mapOf s.st y)).filter p).length)
              (fun y hy => by simp [hy]) (by simpa [e] using set_filter m c.now (asU128 x) p)
            have h2 := i6 p
            simp only [mapOf_upd, Bool.and_true]
            omega
        | withdraw a =>
          simp only [Stake.step, bind_ok, ok_inj, Prod.exists] at hstep
          obtain ⟨v, L, hv, rfl⟩ := hstep
          obtain ⟨rfl, _⟩ := withdraw_inv hv
          constructor <;> simp only [hr, happened_snoc, hs, bonds, unbonds, announces, distributesAt, hsu]
          · intro b
            have := i1 b
            rw [upd_apply]
            by_cases e : b = a
            · subst e; simpa using this
            · simpa [e] using this
          · simpa using i2
          · exact i3
          · exact i4
          · simpa using i5
          · simpa [mapOf] using i6

/-- with distinct times every distribution leaves an entry in both histories for good -/
theorem grows {me : Addr} {s : Sys} {seen : List Nat} {ts : List Tx} (hd : DistinctTimes me s seen ts)
    (h1 : ∀ k ∈ s.st.hist.keys, k ∈ seen) (h2 : ∀ t, ∀ k ∈ (mapOf s.st t).keys, k ∈ seen)
    (h3 : s.st.cfg = none → s.st.hist = []) (h4 : s.st.dists.Nodup) :
    (run me s ts).st.hist.length = s.st.hist.length + happened me distributes s ts ∧
      ((run me s ts).st.dists.map (fun t => (mapOf (run me s ts).st t).length)).sum =
        (s.st.dists.map (fun t => (mapOf s.st t).length)).sum + happened me distributes s ts := by
  induction ts generalizing s seen with
  | nil => simp [run, happened]
  | cons t ts ih =>
    obtain ⟨d1, d2⟩ := hd
    have hr : run me s (t :: ts) = run me (exec me s t) ts := rfl
    rw [hr]
    simp only [happened]
    cases hstep : Stake.step me s t with
    | error e =>
      have e1 : exec me s t = s := by simp [exec, hstep]
      have e2 : Stake.Spec.succeeds me s t = false := by simp [Stake.Spec.succeeds, hstep, Except.toOption]
      have e3 : isDist me s t = false := by
        unfold isDist; split
        · exact e2
        · rfl
      rw [e1] at d2 ⊢
      rw [e3] at d2
      simp only [e2, Bool.and_false, Bool.false_eq_true, if_false, Nat.zero_add]
      exact ih d2 h1 h2 h3 h4
    | ok s' =>
      have e1 : exec me s t = s' := exec_ok hstep
      have hsu : Stake.Spec.succeeds me s t = true := by simp [Stake.Spec.succeeds, hstep, Except.toOption]
      rw [e1] at d2 ⊢
      cases t with
      | token c tok op =>
        simp only [Stake.step, bind_ok, ok_inj] at hstep
        obtain ⟨L, _, rfl⟩ := hstep
        simpa [distributes, distributesAt] using ih d2 h1 h2 h3 h4
      | stake c k =>
        cases k with
        | init a lp mb mr m o mc =>
          simp only [Stake.step, bind_ok, ok_inj] at hstep
          obtain ⟨v, hv, rfl⟩ := hstep
          obtain ⟨hc, _, _, _, rfl⟩ := init_inv hv
          have e := h3 hc
          have := ih d2 (by simp [SMap.keys]) h2 (by simp) h4
          simpa [distributes, distributesAt, e, mapOf] using this
        | bond a x =>
          simp only [Stake.step, bind_ok, ok_inj, Prod.exists] at hstep
          obtain ⟨v, L, hv, rfl⟩ := hstep
          obtain ⟨_, cfg, hc, _, _, _, _, _, rfl, _⟩ := bond_inv hv
          simpa [distributes, distributesAt, mapOf] using ih d2 h1 h2 (by simp [hc]) h4
        | unbond a x u =>
          simp only [Stake.step, bind_ok, ok_inj, Prod.exists] at hstep
          obtain ⟨v, L, hv, rfl⟩ := hstep
          obtain ⟨_, cfg, p, q, hc, e0, _, _, _, rfl, _⟩ := unbond_inv hv
          simpa [distributes, distributesAt, mapOf] using ih d2 h1 h2 (by simp [hc]) h4
        | createFlow a t =>
          simp only [Stake.step, bind_ok, ok_inj] at hstep
          obtain ⟨v, hv, rfl⟩ := hstep
          obtain ⟨_, cfg, hc, _, hn, rfl⟩ := createFlow_inv hv
          have := ih d2 h1 (by
            intro y k hk
            rw [mapOf_upd] at hk
            split at hk
            · simp [SMap.keys] at hk
            · exact h2 y k hk) (by simp [hc]) (by
            refine List.nodup_append.mpr ⟨h4, by simp, ?_⟩
            intro y hy z hz e
            rw [List.mem_singleton] at hz
            exact hn (by rw [← hz, ← e]; exact hy))
          simp only [List.map_append, List.sum_append, mapOf_upd] at this
          have e : s.st.dists.map (fun x => List.length (if x = t then ([] : SMap) else mapOf s.st x)) =
              s.st.dists.map (fun x => (mapOf s.st x).length) :=
            List.map_congr_left (fun y hy => by rw [if_neg (fun e : y = t => hn (e ▸ hy))])
          rw [e] at this
          simpa [distributes, distributesAt] using this
        | distribute a x t =>
          simp only [Stake.step, bind_ok, ok_inj, Prod.exists] at hstep
          obtain ⟨v, L, hv, rfl⟩ := hstep
          obtain ⟨_, cfg, m, hc, _, hm, hmm, _, _, _, rfl, _⟩ := distribute_inv hv
          have e : mapOf s.st t = m := by simp [mapOf, hmm]
          have hi : isDist me s (.stake c (.distribute a x t)) = true := hsu
          rw [hi] at d1 d2
          have hnew := d1 rfl
          simp only [Tx.ctx] at hnew d2
          have := ih d2 (by
            intro k hk
            rcases SMap.mem_keys_set.mp hk with rfl | hk
            · exact List.mem_cons_self
            · exact List.mem_cons_of_mem _ (h1 k hk)) (by
            intro y k hk
            rw [mapOf_upd] at hk
            split at hk
            · rcases SMap.mem_keys_set.mp hk with rfl | hk
              · exact List.mem_cons_self
              · exact List.mem_cons_of_mem _ (h2 t k (e ▸ hk))
            · exact List.mem_cons_of_mem _ (h2 y k hk)) (by simp [hc]) h4
          simp only [mapOf_upd, set_new (fun h => hnew (h1 _ h))] at this
          rw [sum_eq_of_one h4 hm (f := fun y => (mapOf s.st y).length) (fun y hy => by simp [hy])
            (by simp [e, set_new (fun h => hnew (h2 t _ (e ▸ h)))])] at this
          simp only [distributes, distributesAt, hsu, Bool.and_true, if_true]
          simp only [distributes, distributesAt] at this
          omega
        | withdraw a =>
          simp only [Stake.step, bind_ok, ok_inj, Prod.exists] at hstep
          obtain ⟨v, L, hv, rfl⟩ := hstep
          obtain ⟨rfl, _⟩ := withdraw_inv hv
          simpa [distributes, distributesAt, mapOf] using ih d2 h1 h2 h3 h4

end Phoenix.Work
