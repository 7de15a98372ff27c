import Verif.Spec.WorkVesting
import Verif.Props.Vesting
/-! Helpers for the work done by the calls of the vesting contract. -/
namespace Phoenix.WorkV
open Phoenix Phoenix.Vesting Phoenix.Curve Phoenix.Vesting.Spec Phoenix.WorkV.Spec

/-! forgetting the counter -/
theorem plScan_fst (p : Step) (l : List Step) (x : Nat) : (plScan p l x).map Prod.fst = Curve.plScan p l x := by
  induction l generalizing p with
  | nil => rfl
  | cons n l ih =>
    simp only [plScan, Curve.plScan]
    split
    · cases interpolate p.time p.value n.time n.value x <;> rfl
    · rw [← ih]; cases plScan n l x <;> rfl

theorem value_fst (c : Curve) (x : Nat) : (value c x).map Prod.fst = c.value x := by
  cases c with
  | constant y => rfl
  | sl a b d e =>
    simp only [value, Curve.value]
    cases slValue a b d e x <;> rfl
  | pl l =>
    simp only [value, Curve.value]
    cases l with
    | nil => rfl
    | cons f l =>
      simp only [plValue, Curve.plValue]
      split
      · rfl
      · split
        · rfl
        · rw [← plScan_fst]; cases plScan f l x <;> rfl

theorem checkDup_fst (seen : List Addr) (l : List (Addr × Curve)) :
    (checkDup seen l).map (fun _ => ()) = Vesting.checkDup seen l := by
  induction l generalizing seen with
  | nil => rfl
  | cons p l ih =>
    obtain ⟨a, c⟩ := p
    simp only [checkDup, Vesting.checkDup]
    cases req (¬ a ∈ seen) (.code 19) with
    | error _ => rfl
    | ok _ =>
      simp only [bind, Except.bind]
      rw [← ih]
      cases checkDup (seen ++ [a]) l <;> rfl

theorem firstFree_fst (f : Nat → Option Info) (i n : Nat) : (firstFree f i n).map Prod.fst = Vesting.firstFree f i n := by
  induction n generalizing i with
  | zero => rfl
  | succ n ih =>
    simp only [firstFree, Vesting.firstFree]
    cases f i with
    | none => rfl
    | some x =>
      simp only
      rw [← ih]
      cases firstFree f (i + 1) n <;> rfl

theorem saveVesting_fst (v : State) (a : Addr) (x : Info) : (saveVesting v a x).map Prod.fst = Vesting.saveVesting v a x := by
  simp only [saveVesting, Vesting.saveVesting]
  rw [← firstFree_fst]
  cases firstFree (v.sched a) 0 (v.entries + 1) <;> rfl

theorem createLoop_fst (v : State) (T : Nat) (l : List (Addr × Curve)) :
    (createLoop v T l).map Prod.fst = Vesting.createLoop v T l := by
  induction l generalizing v T with
  | nil => rfl
  | cons p l ih =>
    obtain ⟨a, c⟩ := p
    simp only [createLoop, Vesting.createLoop]
    cases validateSchedule c with
    | error _ => rfl
    | ok m =>
      simp only [bind, Except.bind]
      cases req (¬ v.maxComplexity ≤ c.size) (.code 8) with
      | error _ => rfl
      | ok _ =>
        simp only
        rw [← saveVesting_fst]
        cases saveVesting v a ⟨m, a, c⟩ with
        | error _ => rfl
        | ok r =>
          simp only [Except.map]
          cases add128 T m with
          | error _ => rfl
          | ok T' =>
            simp only
            rw [← ih]
            cases createLoop r.1 T' l <;> rfl

theorem create_fst (me : Addr) (c : Ctx) (v : State) (L : Ledger) (l : List (Addr × Curve)) :
    (create me c v L l).map Prod.fst = Vesting.create me c v L l := by
  unfold create Vesting.create
  cases requireAuth c v.admin with
  | error _ => rfl
  | ok _ =>
    simp only [bind, Except.bind]
    cases req (l ≠ []) (.code 7) with
    | error _ => rfl
    | ok _ =>
      simp only
      rw [← checkDup_fst]
      cases checkDup [] l with
      | error _ => rfl
      | ok d =>
        simp only [Except.map]
        have := createLoop_fst v 0 l
        rw [← this]
        cases createLoop v 0 l with
        | error _ => rfl
        | ok r =>
          simp only [Except.map]
          cases toI128 r.1.2 with
          | error _ => rfl
          | ok y =>
            simp only
            cases req (¬ L.bal v.token v.admin < y) (.code 25) with
            | error _ => rfl
            | ok _ =>
              simp only
              cases L.transfer (c.as me) v.token v.admin me y <;> rfl

theorem available_fst (c : Ctx) (v : State) (a : Addr) (i : Nat) :
    (available c v a i).map Prod.fst = Vesting.available c v a i := by
  unfold available Vesting.available
  cases getVesting v a i with
  | error _ => rfl
  | ok x =>
    simp only [bind, Except.bind]
    rw [← value_fst]
    cases value x.schedule c.now with
    | error _ => rfl
    | ok r =>
      simp only [Except.map]
      cases subU x.balance r.1 with
      | error _ => rfl
      | ok d =>
        simp only
        cases toI128 d <;> rfl

theorem claim_fst (me : Addr) (c : Ctx) (v : State) (L : Ledger) (a : Addr) (i : Nat) :
    (claim me c v L a i).map Prod.fst = Vesting.claim me c v L a i := by
  unfold claim Vesting.claim
  cases requireAuth c a with
  | error _ => rfl
  | ok _ =>
    simp only [bind, Except.bind]
    rw [← available_fst]
    cases available c v a i with
    | error _ => rfl
    | ok r =>
      simp only [Except.map]
      cases req (0 < r.1) (.code 14) with
      | error _ => rfl
      | ok _ =>
        simp only
        cases getVesting v a i with
        | error _ => rfl
        | ok x =>
          simp only
          rw [← value_fst]
          cases value x.schedule c.now with
          | error _ => rfl
          | ok w =>
            simp only [Except.map]
            cases subU x.balance w.1 with
            | error _ => rfl
            | ok q =>
              simp only
              cases toU128 r.1 with
              | error _ => rfl
              | ok u =>
                simp only
                cases req (¬ q < u) (.code 11) with
                | error _ => rfl
                | ok _ =>
                  simp only
                  cases subU x.balance u with
                  | error _ => rfl
                  | ok z =>
                    simp only
                    cases L.transfer (c.as me) v.token me a r.1 <;> rfl

theorem allVestings_fst (f : Nat → Option Info) (i n : Nat) : (allVestings f i n).1 = Vesting.allVestings f i n := by
  induction n generalizing i with
  | zero => rfl
  | succ n ih =>
    simp only [allVestings, Vesting.allVestings]
    cases f i with
    | none => rfl
    | some x => simp only [ih]

theorem step_fst (me : Addr) (s : Sys) (t : Tx) : (step me s t).map Prod.fst = Vesting.step me s t := by
  have gen : ∀ t, (do let s' ← Vesting.step me s t; Except.ok (s', 0) : Res (Sys × Nat)).map Prod.fst = Vesting.step me s t := by
    intro t; cases Vesting.step me s t <;> rfl
  cases t with
  | token c tok op => exact gen _
  | vest c k =>
    cases k with
    | create l =>
      simp only [step, Vesting.step]
      cases loaded s.vest with
      | error _ => rfl
      | ok v =>
        simp only [bind, Except.bind]
        rw [← create_fst]
        cases create me c v s.led l <;> rfl
    | claim a i =>
      simp only [step, Vesting.step]
      cases loaded s.vest with
      | error _ => rfl
      | ok v =>
        simp only [bind, Except.bind]
        rw [← claim_fst]
        cases claim me c v s.led a i <;> rfl
    | _ => exact gen _

/-! counting -/
theorem plScan_work {p : Step} {l : List Step} {x v n : Nat} (h : plScan p l x = .ok (v, n)) : n ≤ l.length := by
  induction l generalizing p n v with
  | nil => simp only [plScan, ok_inj, Prod.mk.injEq] at h; simp [← h.2]
  | cons q l ih =>
    simp only [plScan] at h
    split at h
    · simp only [bind_ok, ok_inj, Prod.mk.injEq] at h
      obtain ⟨_, _, _, rfl⟩ := h
      simp
    · simp only [bind_ok, ok_inj, Prod.mk.injEq, Prod.exists] at h
      obtain ⟨_, m, h1, _, rfl⟩ := h
      have := ih h1
      simp only [List.length_cons]; omega

theorem value_work {c : Curve} {x v n : Nat} (h : value c x = .ok (v, n)) : n ≤ c.size + 2 := by
  cases c with
  | constant y => simp only [value, ok_inj, Prod.mk.injEq] at h; omega
  | sl a b d e =>
    simp only [value, bind_ok, ok_inj, Prod.mk.injEq] at h
    obtain ⟨_, _, _, rfl⟩ := h; omega
  | pl l =>
    cases l with
    | nil => simp [value, plValue] at h
    | cons f l =>
      simp only [value, plValue] at h
      split at h
      · simp only [ok_inj, Prod.mk.injEq] at h; omega
      · split at h
        · simp only [ok_inj, Prod.mk.injEq] at h; omega
        · simp only [bind_ok, ok_inj, Prod.mk.injEq, Prod.exists] at h
          obtain ⟨_, m, h1, _, rfl⟩ := h
          have := plScan_work h1
          simp only [Curve.size, List.length_cons]; omega

theorem firstFree_work {f : Nat → Option Info} {i n k m : Nat} (h : firstFree f i n = .ok (k, m)) : k + 1 = i + m := by
  induction n generalizing i m with
  | zero => simp [firstFree] at h
  | succ n ih =>
    simp only [firstFree] at h
    cases e : f i with
    | none => rw [e] at h; simp only [ok_inj, Prod.mk.injEq] at h; omega
    | some x =>
      rw [e] at h
      simp only [bind_ok, ok_inj, Prod.mk.injEq, Prod.exists] at h
      obtain ⟨_, m', h1, rfl, rfl⟩ := h
      have := ih h1
      omega

/-- the number of schedules of an account in a storage -/
def num (v : State) (a : Addr) : Nat := (Vesting.queryAll v a).length

theorem num_iff {v : State} (h : StInv v) (a : Addr) (i : Nat) : v.sched a i = none ↔ num v a ≤ i := by
  have : (Vesting.queryAll v a)[i]? = v.sched a i := by
    unfold Vesting.queryAll
    rw [Props.allVestings_get (by rw [Nat.zero_add]; exact h.fresh a _ (le_refl _)) (fun i j => h.dense a i j), Nat.zero_add]
  rw [← this, List.getElem?_eq_none_iff]; rfl

theorem num_unique {v : State} (h : StInv v) {a : Addr} {k : Nat} (hk : ∀ j, v.sched a j = none ↔ k ≤ j) : num v a = k := by
  have h1 := (hk (num v a)).mp ((num_iff h a _).mpr (le_refl _))
  have h2 := (num_iff h a k).mp ((hk k).mpr (le_refl _))
  omega

theorem saveVesting_plain {v v' : State} {a : Addr} {x : Info} {n : Nat} (h : saveVesting v a x = .ok (v', n)) :
    Vesting.saveVesting v a x = .ok v' := by
  rw [← saveVesting_fst, h]; rfl

theorem saveVesting_num {v v' : State} {a : Addr} {c : Curve} {m : Nat} (hv : StInv v) (hm : Vests c m)
    (h : Vesting.saveVesting v a ⟨m, a, c⟩ = .ok v') (b : Addr) : num v' b = num v b + if b = a then 1 else 0 := by
  have hv' := saveVesting_stInv hv hm h
  obtain ⟨i, h1, h2, rfl⟩ := saveVesting_inv h
  have hi : num v a = i := by
    refine num_unique hv fun j => ⟨fun hj => ?_, fun hj => hv.dense a i j hj h1⟩
    by_contra hlt
    exact h2 j (by omega) hj
  refine num_unique hv' fun j => ?_
  simp only [putInfo_sched]
  by_cases e : b = a
  · subst e
    rw [if_pos rfl, hi]
    by_cases ej : j = i
    · subst ej; simp
    · rw [if_neg (by rintro ⟨-, rfl⟩; exact ej rfl), num_iff hv, hi]
      omega
  · rw [if_neg e, if_neg (by rintro ⟨rfl, -⟩; exact e rfl), num_iff hv, Nat.add_zero]

theorem saveVesting_work {v v' : State} {a : Addr} {x : Info} {n : Nat} (hv : StInv v) (h : saveVesting v a x = .ok (v', n)) :
    n = num v a + 1 + (1 + x.schedule.size) := by
  simp only [saveVesting, bind_ok, ok_inj, Prod.mk.injEq, Prod.exists] at h
  obtain ⟨i, m, h1, _, rfl⟩ := h
  have h2 := firstFree_work h1
  have h3 : Vesting.firstFree (v.sched a) 0 (v.entries + 1) = .ok i := by rw [← firstFree_fst, h1]; rfl
  obtain ⟨-, h4, h5⟩ := firstFree_ok h3
  have hi : num v a = i := by
    refine num_unique hv fun j => ⟨fun hj => ?_, fun hj => hv.dense a i j hj h4⟩
    by_contra hlt
    exact h5 j (by omega) (by omega) hj
  simp only [entry]
  omega

theorem checkDup_work {seen : List Addr} {l : List (Addr × Curve)} {n : Nat} (h : checkDup seen l = .ok n) :
    2 * n + l.length = l.length * (2 * seen.length + l.length) ∧ (l.map Prod.fst).Nodup ∧ ∀ a ∈ l.map Prod.fst, a ∉ seen := by
  induction l generalizing seen n with
  | nil => simp only [checkDup, ok_inj] at h; subst h; simp
  | cons p l ih =>
    obtain ⟨a, c⟩ := p
    simp only [checkDup, bind_ok, req_ok, ok_inj] at h
    obtain ⟨_, h1, m, h2, rfl⟩ := h
    obtain ⟨k1, k2, k3⟩ := ih h2
    simp only [List.length_append, List.length_singleton] at k1
    refine ⟨?_, ?_, ?_⟩
    · simp only [List.length_cons]
      nlinarith
    · simp only [List.map_cons, List.nodup_cons]
      exact ⟨fun hin => k3 a hin (by simp), k2⟩
    · intro b hb
      simp only [List.map_cons, List.mem_cons] at hb
      rcases hb with rfl | hb
      · exact h1
      · intro hs; exact k3 b hb (by simp [hs])

theorem createLoop_plain {v v' : State} {T T' n : Nat} {l : List (Addr × Curve)} (h : createLoop v T l = .ok ((v', T'), n)) :
    Vesting.createLoop v T l = .ok (v', T') := by
  rw [← createLoop_fst, h]; rfl

theorem createLoop_work {v v' : State} {T T' n : Nat} {l : List (Addr × Curve)} (hv : StInv v) (hd : (l.map Prod.fst).Nodup)
    (h : createLoop v T l = .ok ((v', T'), n)) :
    n = (l.map fun p => num v p.1 + 2 + p.2.size + validateWork p.2).sum := by
  induction l generalizing v T n v' T' with
  | nil => simp only [createLoop, ok_inj, Prod.mk.injEq] at h; simp [← h.2]
  | cons p l ih =>
    obtain ⟨a, c⟩ := p
    simp only [createLoop, bind_ok, ok_inj, Prod.mk.injEq, Prod.exists, req_ok] at h
    obtain ⟨m, hm, _, _, v1, n1, h1, T1, h2, v2, T2, k, h3, _, rfl⟩ := h
    rw [validateSchedule_ok] at hm
    simp only [List.map_cons, List.nodup_cons] at hd
    have hv1 := saveVesting_stInv hv hm (saveVesting_plain h1)
    have hk := ih hv1 hd.2 h3
    have hn := saveVesting_work hv h1
    have hsame : (l.map fun p => num v1 p.1 + 2 + p.2.size + validateWork p.2) =
        l.map fun p => num v p.1 + 2 + p.2.size + validateWork p.2 := by
      refine List.map_congr_left fun q hq => ?_
      have hne : q.1 ≠ a := fun e => hd.1 (by rw [← e]; exact List.mem_map_of_mem hq)
      rw [saveVesting_num hv hm (saveVesting_plain h1), if_neg hne, Nat.add_zero]
    rw [hsame] at hk
    simp only [List.map_cons, List.sum_cons]
    rw [hn, hk]
    simp only
    omega

theorem createLoop_num {v v' : State} {T T' : Nat} {l : List (Addr × Curve)} (hv : StInv v)
    (h : Vesting.createLoop v T l = .ok (v', T')) (b : Addr) :
    num v' b = num v b + (l.filter (fun p => p.1 == b)).length := by
  induction l generalizing v T with
  | nil => simp only [Vesting.createLoop, ok_inj, Prod.mk.injEq] at h; simp [← h.1]
  | cons p l ih =>
    obtain ⟨a, c⟩ := p
    simp only [Vesting.createLoop, bind_ok, req_ok] at h
    obtain ⟨m, hm, _, _, v1, h1, T1, h2, h3⟩ := h
    rw [validateSchedule_ok] at hm
    rw [ih (saveVesting_stInv hv hm h1) h3, saveVesting_num hv hm h1, List.filter_cons]
    by_cases e : b = a
    · subst e; simp; omega
    · simp [e, Ne.symm e]

theorem createLoop_small {v v' : State} {T T' : Nat} {l : List (Addr × Curve)} (h : Vesting.createLoop v T l = .ok (v', T')) :
    ∀ p ∈ l, p.2.size < v.maxComplexity := by
  induction l generalizing v T with
  | nil => simp
  | cons p l ih =>
    obtain ⟨a, c⟩ := p
    simp only [Vesting.createLoop, bind_ok, req_ok] at h
    obtain ⟨m, hm, _, h0, v1, h1, T1, h2, h3⟩ := h
    have := ih h3
    obtain ⟨i, -, -, rfl⟩ := saveVesting_inv h1
    intro q hq
    rcases List.mem_cons.mp hq with rfl | hq
    · simp only; omega
    · exact this q hq

/-- every stored curve has fewer points than the contract's limit -/
def Small (s : Sys) : Prop := ∀ v, s.vest = some v → ∀ a i x, v.sched a i = some x → x.schedule.size < v.maxComplexity

theorem step_small {me : Addr} {s s' : Sys} {t : Tx} (I : SysInv me s) (h : Vesting.step me s t = .ok s') (hs : Small s) : Small s' := by
  cases t with
  | token c tok op =>
    simp only [Vesting.step, bind_ok, ok_inj] at h
    obtain ⟨L, _, rfl⟩ := h
    exact hs
  | vest c k =>
    cases k with
    | init a t m mi =>
      simp only [Vesting.step, bind_ok, ok_inj] at h
      obtain ⟨v, hv, rfl⟩ := h
      obtain ⟨_, rfl⟩ := init_ok hv
      intro w hw a i x hx
      simp only [Option.some.injEq] at hw
      subst hw
      simp at hx
    | create l =>
      simp only [Vesting.step, bind_ok, ok_inj, loaded_ok] at h
      obtain ⟨v, hv, ⟨v', L'⟩, hk, rfl⟩ := h
      obtain ⟨-, -, -, T, h4, -⟩ := create_inv hk
      obtain ⟨-, -, -, e4, -, -, -, e8, -⟩ := createLoop_inv (I.st v hv) h4
      intro w hw a i x hx
      simp only [Option.some.injEq] at hw
      subst hw
      rw [e4]
      rcases e8 a i x hx with hx | ⟨-, hc⟩
      · exact hs v hv a i x hx
      · exact createLoop_small h4 _ hc.1
    | claim a i =>
      simp only [Vesting.step, bind_ok, ok_inj, loaded_ok] at h
      obtain ⟨v, hv, ⟨v', L'⟩, hk, rfl⟩ := h
      obtain ⟨-, x, n, hx, -, -, rfl, -⟩ := claim_inv hk
      intro w hw b j y hy
      simp only [Option.some.injEq] at hw
      subst hw
      simp only [putInfo_sched] at hy
      split at hy
      · simp only [Option.some.injEq] at hy; subst hy
        exact hs v hv a i x hx
      · exact hs v hv b j y hy
    | burn a n =>
      simp only [Vesting.step, bind_ok, ok_inj, loaded_ok] at h
      obtain ⟨v, hv, L', hk, rfl⟩ := h
      exact hs
    | mint a y =>
      simp only [Vesting.step, bind_ok, ok_inj, loaded_ok] at h
      obtain ⟨v, hv, ⟨v', L'⟩, hk, rfl⟩ := h
      obtain ⟨_, _, m, _, _, _, rfl, _⟩ := mint_inv hk
      intro w hw b j y hy
      simp only [Option.some.injEq] at hw
      subst hw
      exact hs v hv b j y hy
    | updateMinter a n =>
      simp only [Vesting.step, bind_ok, ok_inj, loaded_ok] at h
      obtain ⟨v, hv, v', hk, rfl⟩ := h
      obtain ⟨_, _, rfl⟩ := updateMinter_ok hk
      intro w hw b j y hy
      simp only [Option.some.injEq] at hw
      subst hw
      exact hs v hv b j y hy
    | updateCapacity a n =>
      simp only [Vesting.step, bind_ok, ok_inj, loaded_ok] at h
      obtain ⟨v, hv, v', hk, rfl⟩ := h
      obtain ⟨_, _, _, _, rfl⟩ := updateCapacity_ok hk
      intro w hw b j y hy
      simp only [Option.some.injEq] at hw
      subst hw
      exact hs v hv b j y hy

theorem run_small {me : Addr} {s : Sys} (ts : List Tx) (ht : ∀ t ∈ ts, Possible me t) (I : SysInv me s) (hs : Small s) :
    Small (Vesting.run me s ts) := by
  induction ts generalizing s with
  | nil => exact hs
  | cons t ts ih =>
    rw [Vesting.run_cons]
    refine ih (fun u hu => ht u (List.mem_cons_of_mem _ hu)) (Vesting.exec_inv (ht t (by simp)) I) ?_
    unfold Vesting.exec
    cases e : Vesting.step me s t with
    | error _ => exact hs
    | ok s' => exact step_small I e hs

theorem schedules_some {s : Sys} {v : State} (h : s.vest = some v) (a : Addr) : schedules s a = num v a := by
  simp [schedules, h, num]

end Phoenix.WorkV
