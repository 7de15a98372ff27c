import Verif.Lemmas.WorkVesting
/-! Property C159: how much work the calls of the vesting contract do.  `WorkV.step` is `Vesting.step`
with a counter: one unit for every schedule looked up in storage, for every point of a curve that is
read, written or visited, and for every address that is compared. -/
namespace Phoenix.Props.WorkVesting
open Phoenix Phoenix.Vesting Phoenix.Curve Phoenix.Vesting.Spec Phoenix.WorkV Phoenix.WorkV.Spec Phoenix.Props

/-- **C159** Counting changes nothing: without the counter the transactions do what they do in the
model of the contract. -/
theorem C159_same (me : Addr) (s : Sys) (t : Tx) : (WorkV.step me s t).map Prod.fst = Vesting.step me s t :=
  step_fst me s t

/-- **C159** A claim never becomes more expensive: its work is bounded by a number fixed when the
contract is set up, whatever happened before, however many schedules there are and whatever anybody
else does. -/
theorem C159_claim {me : Addr} {s : Sys} (h0 : Genesis me s) (ts : List Tx)
    (ht : ∀ t ∈ ts, Vesting.Spec.Possible me t) {c : Ctx} {a : Addr} {i : Nat} {s' : Sys} {n : Nat}
    (h : WorkV.step me (Vesting.run me s ts) (.vest c (.claim a i)) = .ok (s', n)) :
    n ≤ 5 * complexity (Vesting.run me s ts) + 2 := by
  have I := Vesting.genesis_inv h0
  have hs : Small (Vesting.run me s ts) := run_small ts ht I (by intro v hv; rw [h0.1] at hv; cases hv)
  generalize Vesting.run me s ts = S at *
  simp only [WorkV.step, bind_ok, ok_inj, loaded_ok, Prod.exists, Prod.mk.injEq] at h
  obtain ⟨v, hv, v', L', m, hk, -, rfl⟩ := h
  unfold WorkV.claim WorkV.available at hk
  simp only [bind_ok, ok_inj, Prod.exists, Prod.mk.injEq] at hk
  obtain ⟨_, -, av, k1, ⟨x, hx, w1, n1, hw1, d, -, r, -, -, rfl⟩, _, -, y, hy, w2, n2, hw2, _, -, _, -, _, -, _, -, L, -, -, rfl⟩ := hk
  rw [hx] at hy
  cases hy
  have hsz := hs v hv a i x (getVesting_ok.mp hx)
  have e1 := value_work hw1
  have e2 := value_work hw2
  simp only [complexity, hv, entry]
  omega

/-- **C159** What an accepted creation costs: every recipient's existing schedules are looked up one
by one, every new curve is written once and at most walked through twice, and every address is
compared with the addresses before it.  So it grows with the number of schedules the recipients
already have, and with nothing else of the history. -/
theorem C159_create {me : Addr} {s : Sys} (h0 : Genesis me s) (ts : List Tx)
    (ht : ∀ t ∈ ts, Vesting.Spec.Possible me t) {c : Ctx} {l : List (Addr × Curve)} {s' : Sys} {n : Nat}
    (h : WorkV.step me (Vesting.run me s ts) (.vest c (.create l)) = .ok (s', n)) :
    (l.map fun p => schedules (Vesting.run me s ts) p.1 + 2 + p.2.size).sum + l.length * (l.length - 1) / 2 ≤ n ∧
    n ≤ (l.map fun p => schedules (Vesting.run me s ts) p.1 + 2 + 3 * p.2.size).sum + l.length * (l.length - 1) / 2 ∧
    ∀ p ∈ l, p.2.size < complexity (Vesting.run me s ts) := by
  have I := Vesting.run_inv ts ht (Vesting.genesis_inv h0)
  generalize Vesting.run me s ts = S at *
  simp only [WorkV.step, bind_ok, ok_inj, loaded_ok, Prod.exists, Prod.mk.injEq] at h
  obtain ⟨v, hv, v', L', m, hk, -, rfl⟩ := h
  unfold WorkV.create at hk
  simp only [bind_ok, ok_inj, Prod.exists, Prod.mk.injEq] at hk
  obtain ⟨_, -, _, -, d, hd, v1, T, k, hl, _, -, _, -, L, -, -, rfl⟩ := hk
  obtain ⟨d1, d2, -⟩ := checkDup_work hd
  have hw := createLoop_work (I.st v hv) d2 hl
  have hd' : d = l.length * (l.length - 1) / 2 := by
    simp only [List.length_nil, Nat.mul_zero, Nat.zero_add] at d1
    rw [Nat.mul_sub, Nat.mul_one]
    omega
  have hle : ∀ q : Curve, validateWork q ≤ 2 * q.size := by
    intro q; cases q <;> simp only [validateWork, Curve.size] <;> omega
  have b1 : (l.map fun p => num v p.1 + 2 + p.2.size).sum ≤ k := by
    rw [hw]; exact List.sum_le_sum fun p _ => by omega
  have b2 : k ≤ (l.map fun p => num v p.1 + 2 + 3 * p.2.size).sum := by
    rw [hw]; exact List.sum_le_sum fun p _ => by have := hle p.2; omega
  simp only [schedules_some hv]
  refine ⟨by omega, by omega, fun p hp => ?_⟩
  simp only [complexity, hv]
  exact createLoop_small (createLoop_plain hl) p hp

/-- one transaction: the list of an account grows by what an accepted creation adds for it -/
theorem step_schedules {me : Addr} {s s' : Sys} {t : Tx} (ht : Vesting.Spec.Possible me t) (I : SysInv me s)
    (h : Vesting.step me s t = .ok s') (a : Addr) :
    schedules s' a = schedules s a + (match t with
      | .vest _ (.create l) => (l.filter (fun p => p.1 == a)).length
      | _ => 0) := by
  cases t with
  | token c tok op =>
    simp only [Vesting.step, bind_ok, ok_inj] at h
    obtain ⟨L, _, rfl⟩ := h
    rfl
  | vest c k =>
    cases k with
    | init ad t m mi =>
      simp only [Vesting.step, bind_ok, ok_inj] at h
      obtain ⟨v, hv, rfl⟩ := h
      obtain ⟨hn, rfl⟩ := init_ok hv
      simp [schedules, hn, Vesting.queryAll, Vesting.allVestings]
    | create l =>
      simp only [Vesting.step, bind_ok, ok_inj, loaded_ok] at h
      obtain ⟨v, hv, ⟨v', L'⟩, hk, rfl⟩ := h
      obtain ⟨-, -, -, T, h4, -⟩ := create_inv hk
      rw [schedules_some hv]
      exact createLoop_num (I.st v hv) h4 a
    | claim b i =>
      have I' := step_inv h ht I
      simp only [Vesting.step, bind_ok, ok_inj, loaded_ok] at h
      obtain ⟨v, hv, ⟨v', L'⟩, hk, rfl⟩ := h
      obtain ⟨-, x, n, hx, -, -, rfl, -⟩ := claim_inv hk
      rw [schedules_some hv]
      refine num_unique (I'.st _ rfl) fun j => ?_
      show _ ↔ num v a ≤ j
      rw [putInfo_sched, ← num_iff (I.st v hv)]
      split
      · rename_i e; obtain ⟨rfl, rfl⟩ := e; simp [hx]
      · rfl
    | burn b n =>
      simp only [Vesting.step, bind_ok, ok_inj, loaded_ok] at h
      obtain ⟨v, hv, L', hk, rfl⟩ := h
      simp [schedules, hv]
    | mint b y =>
      simp only [Vesting.step, bind_ok, ok_inj, loaded_ok] at h
      obtain ⟨v, hv, ⟨v', L'⟩, hk, rfl⟩ := h
      obtain ⟨_, _, m, _, _, _, rfl, _⟩ := mint_inv hk
      simp [schedules, hv, Vesting.queryAll]
    | updateMinter b n =>
      simp only [Vesting.step, bind_ok, ok_inj, loaded_ok] at h
      obtain ⟨v, hv, v', hk, rfl⟩ := h
      obtain ⟨_, _, rfl⟩ := updateMinter_ok hk
      simp [schedules, hv, Vesting.queryAll]
    | updateCapacity b n =>
      simp only [Vesting.step, bind_ok, ok_inj, loaded_ok] at h
      obtain ⟨v, hv, v', hk, rfl⟩ := h
      obtain ⟨_, _, _, _, rfl⟩ := updateCapacity_ok hk
      simp [schedules, hv, Vesting.queryAll]

/-- **C159** Nothing but accepted creations makes the list of an account longer, and every one of
them counts: the length of the list is the number of schedules ever created for the account.  Claims
never shorten it. -/
theorem C159_schedules {me : Addr} {s : Sys} (h0 : Genesis me s) (ts : List Tx)
    (ht : ∀ t ∈ ts, Vesting.Spec.Possible me t) (a : Addr) :
    schedules (Vesting.run me s ts) a = created me a s ts := by
  have gen : ∀ (ts : List Tx) (s : Sys), SysInv me s → (∀ t ∈ ts, Vesting.Spec.Possible me t) →
      schedules (Vesting.run me s ts) a = schedules s a + created me a s ts := by
    intro ts
    induction ts with
    | nil => intro s _ _; rfl
    | cons t ts ih =>
      intro s I ht
      rw [Vesting.run_cons, ih _ (Vesting.exec_inv (ht t (by simp)) I) (fun u hu => ht u (List.mem_cons_of_mem _ hu)), created,
        ← Nat.add_assoc]
      congr 1
      unfold Vesting.exec creates
      cases e : Vesting.step me s t with
      | error _ => cases t with
        | token => rfl
        | vest c k => cases k <;> rfl
      | ok s' =>
        have := step_schedules (ht t (by simp)) I e a
        cases t with
        | token => exact this
        | vest c k => cases k <;> exact this
  have := gen ts s (Vesting.genesis_inv h0) ht
  rw [this]
  simp [schedules, h0.1]

/-- **C159** Listing all schedules of an account returns what the contract returns, looks up each of
them once and stops at the first free place. -/
theorem C159_list (v : State) (a : Addr) :
    (WorkV.queryAll v a).1 = Vesting.queryAll v a ∧
    (WorkV.queryAll v a).2 = ((Vesting.queryAll v a).map fun x => 1 + x.schedule.size).sum + 1 := by
  have gen : ∀ (f : Nat → Option Info) (i n : Nat), (WorkV.allVestings f i n).2 =
      ((Vesting.allVestings f i n).map fun x => 1 + x.schedule.size).sum + 1 := by
    intro f i n
    induction n generalizing i with
    | zero => rfl
    | succ n ih =>
      simp only [WorkV.allVestings, Vesting.allVestings]
      cases f i with
      | none => rfl
      | some x => simp only [ih, List.map_cons, List.sum_cons, entry]; omega
  exact ⟨allVestings_fst _ _ _, gen _ _ _⟩

/-- a creation of one empty schedule for account 1 -/
def vMore : Tx := .vest (vBy 8 2) (.create [(1, .pl [⟨10, 0⟩])])

/-- **C159** So there is no bound on a creation: for every number there is a history of accepted
transactions after which a creation of one schedule does at least that much work, although all
claims stay within the same bound. -/
theorem C159_create_unbounded (N : Nat) : ∃ ts : List Tx, (∀ t ∈ ts, Vesting.Spec.Possible 100 t) ∧
    schedules (Vesting.run 100 vExStart ts) 1 = N ∧ complexity (Vesting.run 100 vExStart ts) = 10 ∧
    ∃ s' n, WorkV.step 100 (Vesting.run 100 vExStart ts) vMore = .ok (s', n) ∧ N < n := by
  have hposs : ∀ k, ∀ t ∈ Tx.vest (vBy 8 1) (.init 8 30 10 none) :: List.replicate k vMore, Vesting.Spec.Possible 100 t := by
    intro k t ht
    rcases List.mem_cons.mp ht with rfl | ht
    · rfl
    · rw [List.eq_of_mem_replicate ht]; rfl
  let R : Nat → Sys := fun k => Vesting.run 100 vExStart (Tx.vest (vBy 8 1) (.init 8 30 10 none) :: List.replicate k vMore)
  let P : Nat → Prop := fun k => (∃ v, (R k).vest = some v ∧ v.admin = 8 ∧ v.maxComplexity = 10 ∧ v.token = 30) ∧
    (R k).led.bal 30 8 = 1000 ∧ (R k).led.bal 30 100 = 0 ∧ schedules (R k) 1 = k
  have ok : ∀ k, P k → ∃ s', Vesting.step 100 (R k) vMore = .ok s' := by
    rintro k ⟨⟨v, hv, h8, h10, h30⟩, hb, hm, -⟩
    refine C61_valid_schedules_accepted vExStart_genesis _ (hposs k) hv (by rw [h8]; rfl) rfl (by simp) (by simp) (fun _ => 0)
      (fun p hp => ?_) ?_ ?_
    · simp only [List.mem_singleton] at hp
      subst hp
      refine ⟨⟨?_, rfl, ?_, rfl, rfl⟩, ?_⟩
      · exact trivial
      · exact List.pairwise_singleton _ _
      · rw [h10]; decide
    · show _ ≤ held (R k) v.admin
      simp [held, token?, hv, h30, h8, hb]
    · show held (R k) v.admin ≤ _ ∧ held (R k) 100 + _ ≤ _
      simp [held, token?, hv, h30, h8, hb, hm, I128_MAX]
  have all : ∀ k, P k := by
    intro k
    induction k with
    | zero => exact ⟨⟨_, rfl, rfl, rfl, rfl⟩, rfl, rfl, rfl⟩
    | succ k ih =>
      obtain ⟨s', hs'⟩ := ok k ih
      have hR : R (k + 1) = s' := by
        show Vesting.run 100 vExStart (_ :: List.replicate (k + 1) vMore) = s'
        rw [List.replicate_succ', ← List.cons_append, Vesting.run_append]
        show Vesting.exec 100 (R k) vMore = s'
        unfold Vesting.exec; rw [hs']
      obtain ⟨⟨v, hv, h8, h10, h30⟩, hb, hm, hk⟩ := ih
      have I : SysInv 100 (R k) := Vesting.run_inv _ (hposs k) (Vesting.genesis_inv vExStart_genesis)
      have hn := step_schedules (t := vMore) (by rfl : Vesting.Spec.Possible 100 vMore) I hs' 1
      have hs := hs'
      simp only [vMore, Vesting.step, bind_ok, ok_inj, loaded_ok] at hs
      obtain ⟨w, hw, ⟨v', L'⟩, hc, rfl⟩ := hs
      rw [hv] at hw; cases hw
      obtain ⟨-, -, -, T, h4, -, -, h5, -⟩ := create_inv hc
      obtain ⟨e1, e2, e3, e4, -⟩ := createLoop_inv (I.st v hv) h4
      have hT : T = 0 := by
        simp only [Vesting.createLoop, bind_ok, ok_inj, Prod.mk.injEq, req_ok] at h4
        obtain ⟨m, hm, _, _, v1, h1, T1, h2, -, rfl⟩ := h4
        have : m = 0 := by
          have : validateSchedule (.pl [⟨10, 0⟩]) = .ok 0 := rfl
          rw [this] at hm; cases hm; rfl
        subst this
        rw [add128_ok] at h2; omega
      subst hT
      refine ⟨⟨v', by rw [hR], ?_, ?_, ?_⟩, ?_, ?_, ?_⟩
      · rw [e2, h8]
      · rw [e4, h10]
      · rw [e3, h30]
      · rw [hR]; show L'.bal 30 8 = 1000
        rw [h5, h30]; simp [Phoenix.Spec.Flow.delta, hb]
      · rw [hR]; show L'.bal 30 100 = 0
        rw [h5, h30]; simp [Phoenix.Spec.Flow.delta, hm]
      · rw [hR, hn, hk]; rfl
  obtain ⟨⟨v, hv, h8, h10, h30⟩, -, -, hk⟩ := all N
  obtain ⟨s', hs'⟩ := ok N (all N)
  refine ⟨_, hposs N, hk, by show complexity (R N) = 10; simp [complexity, hv, h10], s', ?_⟩
  rw [← C159_same] at hs'
  cases e : WorkV.step 100 (Vesting.run 100 vExStart (Tx.vest (vBy 8 1) (.init 8 30 10 none) :: List.replicate N vMore)) vMore with
  | error _ => rw [e] at hs'; cases hs'
  | ok r =>
    obtain ⟨s1, n⟩ := r
    rw [e] at hs'
    simp only [Except.map, ok_inj] at hs'
    subst hs'
    refine ⟨n, rfl, ?_⟩
    have := (C159_create vExStart_genesis _ (hposs N) e).1
    simp only [List.map_cons, List.map_nil, List.sum_cons, List.sum_nil, Curve.size, List.length_singleton] at this
    have hk' : schedules (Vesting.run 100 vExStart (Tx.vest (vBy 8 1) (.init 8 30 10 none) :: List.replicate N vMore)) 1 = N := hk
    omega

/-- work of a transaction after some transactions of the example -/
def vWork (k : Nat) (t : Tx) : Option Nat := (WorkV.step 100 (Vesting.run 100 vExStart (vExHist.take k)) t).toOption.map Prod.snd

-- the claims and creations of the example, and the lists afterwards
example : vWork 1 (.vest (vBy 8 2) (.create [(1, vExSl), (2, vExPl)])) = some 16 ∧ vWork 2 (.vest (vBy 8 3) (.create [(1, vExPl)])) = some 12 ∧
    vWork 3 (.vest (vBy 1 30) (.claim 1 0)) = some 9 ∧ vWork 6 (.vest (vBy 2 32) (.claim 2 0)) = some 22 ∧
    complexity (Vesting.run 100 vExStart vExHist) = 10 ∧
    schedules (Vesting.run 100 vExStart vExHist) 1 = 2 ∧ created 100 1 vExStart vExHist = 2 ∧
    (Vesting.run 100 vExStart vExHist).vest.map (fun v => (WorkV.queryAll v 1).2) = some 8 := by decide +kernel
example : Genesis 100 vExStart ∧ ∀ t ∈ vExHist, Vesting.Spec.Possible 100 t := ⟨vExStart_genesis, vExHist_possible⟩

end Phoenix.Props.WorkVesting
