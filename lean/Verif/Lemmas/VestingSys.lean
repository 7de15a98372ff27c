import Verif.Lemmas.Vesting
/-! One transaction of the vesting contract, and histories (helpers only). -/
namespace Phoenix.Vesting
open Phoenix Phoenix.Spec Curve Spec Props

theorem claim_stInv {v : State} (hv : StInv v) {a : Addr} {i : Nat} {x : Info} {c n : Nat} (hx : v.sched a i = some x)
    (hn : x.schedule.value c = .ok n) (hlt : n < x.balance) : StInv (putInfo v a i { x with balance := n }) := by
  refine ⟨fun b j hj => ?_, fun b j k hjk => ?_, fun b j y => ?_⟩
  · rw [putInfo_sched]
    have := hv.fresh b j hj
    split
    · rename_i e; rw [e.1, e.2, hx] at this; simp at this
    · exact this
  · simp only [putInfo_sched]
    intro hno
    split at hno
    · simp at hno
    · have h0 := hv.dense b j k hjk hno
      split
      · rename_i e; rw [e.1, e.2, hx] at h0; simp at h0
      · exact h0
  · rw [putInfo_sched]
    intro hy
    split at hy
    · rename_i e
      cases hy
      obtain ⟨h1, m, h2, h3, -⟩ := hv.good a i x hx
      exact ⟨by rw [e.1]; exact h1, m, h2, by simp only; omega, c, hn⟩
    · exact hv.good b j y hy

theorem init_ok {v : Option State} {a t : Addr} {m : Nat} {mi : Option Minter} {w : State}
    (h : init v a t m mi = .ok w) : v = none ∧ w = ⟨a, t, m, mi, fun _ _ => none, 0⟩ := by
  unfold init at h
  simp only [bind_ok, req_ok, ok_inj] at h
  obtain ⟨_, h1, rfl⟩ := h
  exact ⟨h1, rfl⟩

theorem updateMinter_ok {c : Ctx} {v w : State} {a n : Addr} (h : updateMinter c v a n = .ok w) :
    c.auth a = true ∧ a = minterOwner v ∧ w = { v with minter := some ⟨n, capacity v⟩ } := by
  unfold updateMinter at h
  simp only [bind_ok, req_ok, requireAuth_ok, ok_inj] at h
  obtain ⟨_, h1, _, h2, rfl⟩ := h
  exact ⟨h1, h2, rfl⟩

theorem updateCapacity_ok {c : Ctx} {v w : State} {a : Addr} {n : Nat} (h : updateCapacity c v a n = .ok w) :
    c.auth a = true ∧ a = v.admin ∧ ∃ m, v.minter = some m ∧ w = { v with minter := some ⟨m.address, n⟩ } := by
  unfold updateCapacity at h
  simp only [bind_ok, req_ok, requireAuth_ok, needMinter_ok, ok_inj] at h
  obtain ⟨_, h1, _, h2, m, h3, rfl⟩ := h
  exact ⟨h1, h2, m, h3, rfl⟩

/-- The effect of a successful transaction on an initialised contract. -/
structure StepEff (me : Addr) (s s' : Sys) (v v' : State) : Prop where
  vest' : s'.vest = some v'
  admin : v'.admin = v.admin
  token : v'.token = v.token
  maxC : v'.maxComplexity = v.maxComplexity
  led : LedInv me s'.led
  st : StInv v'
  /-- the contract's balance changes at least as much as what it owes -/
  surplus : ∀ K : Finset (Addr × Nat), (∀ a i, (a, i) ∉ K → v'.sched a i = none) →
    s.led.bal v.token me - ∑ k ∈ K, out v k ≤ s'.led.bal v.token me - ∑ k ∈ K, out v' k
  backed : ∀ K : Finset (Addr × Nat), ∑ k ∈ K, out v' k ≤ s'.led.bal v.token me

theorem same_eff {me : Addr} {s s' : Sys} {v v' : State} (hs : SysInv me s) (hv : s.vest = some v)
    (h1 : s'.vest = some v') (h2 : v'.admin = v.admin) (h3 : v'.token = v.token)
    (h4 : v'.maxComplexity = v.maxComplexity) (h5 : LedInv me s'.led) (h6 : v'.sched = v.sched)
    (h7 : v'.entries = v.entries) (h8 : s.led.bal v.token me ≤ s'.led.bal v.token me) : StepEff me s s' v v' := by
  have hst := hs.st v hv
  have ho : ∀ k, out v' k = out v k := fun k => by unfold out; rw [h6]
  refine ⟨h1, h2, h3, h4, h5, ⟨?_, ?_, ?_⟩, fun K _ => ?_, fun K => ?_⟩
  · rw [h6, h7]; exact hst.fresh
  · rw [h6]; exact hst.dense
  · rw [h6]; exact hst.good
  · simp only [ho]; omega
  · simp only [ho]
    have := hs.backed v hv K
    omega

theorem burn_led {me : Addr} {c : Ctx} {v : State} {L L' : Ledger} {a : Addr} {n : Nat}
    (h : burn me c v L a n = .ok L') (hself : c.auth me = false) (hL : LedInv me L) :
    c.auth a = true ∧ 0 ≤ castI128 n ∧ castI128 n ≤ L.bal v.token a ∧ Issues L L' v.token a (-castI128 n) ∧
      SameRights L L' ∧ LedInv me L' ∧ L'.bal v.token me = L.bal v.token me := by
  unfold burn at h
  simp only [bind_ok, requireAuth_ok, req_ok] at h
  obtain ⟨_, h1, _, _, h⟩ := h
  obtain ⟨_, h2, h3, h4, h5⟩ := Ledger.burn_inv h
  have hne : a ≠ me := by rintro rfl; rw [hself] at h1; simp at h1
  refine ⟨h1, h2, h3, h4, h5, ⟨fun u b => ?_, fun u sp => ?_⟩, ?_⟩
  · rw [h4 u b]
    have := hL.nonneg u b
    split
    · rename_i e; obtain ⟨rfl, rfl⟩ := e; omega
    · omega
  · rw [(h5 u).2.1]; exact hL.noAllow u sp
  · rw [h4]; simp [hne]

theorem step_eff {me : Addr} {s s' : Sys} {t : Tx} {v : State} (h : step me s t = .ok s') (ht : Possible me t)
    (hs : SysInv me s) (hv : s.vest = some v) : ∃ v', StepEff me s s' v v' := by
  have hst := hs.st v hv
  unfold Vesting.Spec.Possible at ht
  cases t with
  | token c tok op =>
    simp only [step, bind_ok, ok_inj] at h
    obtain ⟨L, hL, rfl⟩ := h
    obtain ⟨k1, k2, -⟩ := ledger_call_others hL ht hs.led
    exact ⟨v, same_eff hs hv hv rfl rfl rfl k1 rfl rfl (k2 _)⟩
  | vest c k =>
    simp only [Tx.ctx] at ht
    cases k with
    | init a t m mi =>
      simp only [step, bind_ok, ok_inj] at h
      obtain ⟨w, hi, rfl⟩ := h
      rw [hv] at hi
      exact absurd (init_ok hi).1 (by simp)
    | create l =>
      simp only [step, bind_ok, ok_inj, loaded_ok] at h
      obtain ⟨w, hw, ⟨v', L'⟩, hk, rfl⟩ := h
      rw [hv] at hw; cases hw
      obtain ⟨h1, _, _, T, h4, h5, h6, h7, h8⟩ := create_inv hk
      obtain ⟨i1, i2, i3, i4, i5, i6, i7, i8, i9⟩ := createLoop_inv hst h4
      have hne : v.admin ≠ me := by intro e; rw [e, ht] at h1; simp at h1
      have hb : L'.bal v.token me = s.led.bal v.token me + T := by
        rw [h7]; simp [Flow.delta, hne]
      refine ⟨v', rfl, i2, i3, i4, settles_ledInv hs.led (by omega) h6 h7 h8, i1, fun K hK => ?_, fun K => ?_⟩
      · have := (i9 K).2 hK
        simp only [hb]; push_cast at this; omega
      · have := (i9 K).1
        have := hs.backed v hv K
        simp only [hb]; push_cast at *; omega
    | claim a i =>
      simp only [step, bind_ok, ok_inj, loaded_ok] at h
      obtain ⟨w, hw, ⟨v', L'⟩, hk, rfl⟩ := h
      rw [hv] at hw; cases hw
      obtain ⟨h1, x, n, h2, h3, h4, rfl, h5, h6, h7⟩ := claim_inv hk
      have hne : a ≠ me := by intro e; rw [e, ht] at h1; simp at h1
      have hb : L'.bal v.token me = s.led.bal v.token me - ((x.balance : Int) - n) := by
        rw [h6]; simp [Flow.delta, hne]; ring
      have ho : out v (a, i) = x.balance := by simp [out, h2]
      refine ⟨_, rfl, rfl, rfl, rfl, settles_ledInv hs.led (by omega) h5 h6 h7, claim_stInv hst h2 h3 h4,
        fun K hK => ?_, fun K => ?_⟩
      · have hin : (a, i) ∈ K := by
          by_contra hnot
          have := hK a i hnot
          rw [putInfo_sched] at this; simp at this
        rw [sum_putInfo, if_pos hin, ho]
        simp only [hb]; omega
      · have key : ∀ K : Finset (Addr × Nat), (a, i) ∈ K →
            ∑ k ∈ K, out (putInfo v a i { x with balance := n }) k ≤ L'.bal v.token me := by
          intro K hin
          have := hs.backed v hv K
          rw [sum_putInfo, if_pos hin, ho, hb]
          simp only; omega
        by_cases hin : (a, i) ∈ K
        · exact key K hin
        · refine le_trans ?_ (key (insert (a, i) K) (Finset.mem_insert_self _ _))
          rw [Finset.sum_insert hin]
          have : 0 ≤ out (putInfo v a i { x with balance := n }) (a, i) := by
            simp [out, putInfo_sched]
          simp only
          omega
    | burn a n =>
      simp only [step, bind_ok, ok_inj, loaded_ok] at h
      obtain ⟨w, hw, L', hk, rfl⟩ := h
      rw [hv] at hw; cases hw
      obtain ⟨_, _, _, _, _, h6, h7⟩ := burn_led hk ht hs.led
      exact ⟨v, same_eff hs hv hv rfl rfl rfl h6 rfl rfl (by simp only [h7]; exact le_refl _)⟩
    | mint a y =>
      simp only [step, bind_ok, ok_inj, loaded_ok] at h
      obtain ⟨w, hw, ⟨v', L'⟩, hk, rfl⟩ := h
      rw [hv] at hw; cases hw
      obtain ⟨h1, h2, m, h3, h4, h5, rfl, h6, h7⟩ := mint_inv hk
      refine ⟨_, same_eff hs hv rfl rfl rfl rfl (issues_ledInv hs.led h2.le h6 h7) rfl rfl ?_⟩
      simp only [h6 v.token me]; simp; omega
    | updateMinter a n =>
      simp only [step, bind_ok, ok_inj, loaded_ok] at h
      obtain ⟨w, hw, v', hk, rfl⟩ := h
      rw [hv] at hw; cases hw
      obtain ⟨_, _, rfl⟩ := updateMinter_ok hk
      exact ⟨_, same_eff hs hv rfl rfl rfl rfl hs.led rfl rfl (le_refl _)⟩
    | updateCapacity a n =>
      simp only [step, bind_ok, ok_inj, loaded_ok] at h
      obtain ⟨w, hw, v', hk, rfl⟩ := h
      rw [hv] at hw; cases hw
      obtain ⟨_, _, m, _, rfl⟩ := updateCapacity_ok hk
      exact ⟨_, same_eff hs hv rfl rfl rfl rfl hs.led rfl rfl (le_refl _)⟩

theorem step_inv {me : Addr} {s s' : Sys} {t : Tx} (h : step me s t = .ok s') (ht : Possible me t)
    (hs : SysInv me s) : SysInv me s' := by
  cases hv : s.vest with
  | some v =>
    obtain ⟨v', e⟩ := step_eff h ht hs hv
    refine ⟨e.led, fun w hw => ?_, fun w hw => ?_⟩
    · rw [e.vest'] at hw; cases hw; exact e.st
    · rw [e.vest'] at hw; cases hw; rw [e.token]; exact e.backed
  | none =>
    unfold Vesting.Spec.Possible at ht
    cases t with
    | token c tok op =>
      simp only [step, bind_ok, ok_inj] at h
      obtain ⟨L, hL, rfl⟩ := h
      obtain ⟨k1, k2, -⟩ := ledger_call_others hL ht hs.led
      exact ⟨k1, fun w hw => by simp [hv] at hw, fun w hw => by simp [hv] at hw⟩
    | vest c k =>
      cases k with
      | init a t m mi =>
        simp only [step, bind_ok, ok_inj] at h
        obtain ⟨w, hi, rfl⟩ := h
        obtain ⟨_, rfl⟩ := init_ok hi
        refine ⟨hs.led, fun w hw => ?_, fun w hw K => ?_⟩
        · cases hw
          exact ⟨fun _ _ _ => rfl, fun _ _ _ _ _ => rfl, fun _ _ _ hx => by simp at hx⟩
        · cases hw
          simp only [out, Finset.sum_const_zero]
          exact hs.led.nonneg _ _
      | _ => simp [step, bind_ok, loaded_ok, hv] at h

theorem exec_inv {me : Addr} {s : Sys} {t : Tx} (ht : Possible me t) (hs : SysInv me s) : SysInv me (exec me s t) := by
  unfold exec
  split
  · rename_i s' h; exact step_inv h ht hs
  · exact hs

theorem run_inv {me : Addr} {s : Sys} (ts : List Tx) (ht : ∀ t ∈ ts, Possible me t) (hs : SysInv me s) :
    SysInv me (run me s ts) := by
  induction ts generalizing s with
  | nil => exact hs
  | cons t ts ih =>
    exact ih (fun u hu => ht u (List.mem_cons_of_mem _ hu)) (exec_inv (ht t List.mem_cons_self) hs)

theorem genesis_inv {me : Addr} {s : Sys} (h : Genesis me s) : SysInv me s :=
  ⟨⟨h.2.1, h.2.2⟩, fun v hv => by rw [h.1] at hv; simp at hv, fun v hv => by rw [h.1] at hv; simp at hv⟩

theorem run_append (me : Addr) (s : Sys) (ts us : List Tx) : run me s (ts ++ us) = run me (run me s ts) us := by
  simp [run]

theorem run_cons (me : Addr) (s : Sys) (t : Tx) (ts : List Tx) : run me s (t :: ts) = run me (exec me s t) ts := rfl

/-- a call of `claim` of schedule `i` by `a` -/
def callsClaim (t : Tx) (a : Addr) (i : Nat) : Prop := ∃ c, t = .vest c (.claim a i)

theorem not_claim {me : Addr} {s : Sys} {t : Tx} {a : Addr} {i : Nat} (h : ¬ callsClaim t a i) :
    paid me s t a i = 0 ∧ isClaim me s t a i = false := by
  unfold paid isClaim
  cases t with
  | token c tok op => exact ⟨rfl, rfl⟩
  | vest c k =>
    cases k with
    | claim b j =>
      have : ¬ (b = a ∧ j = i) := fun ⟨h1, h2⟩ => h ⟨c, by rw [h1, h2]⟩
      refine ⟨by simp [this], ?_⟩
      simp only [Bool.and_eq_false_iff, beq_eq_false_iff_ne]
      by_cases e : b = a
      · exact .inl (.inr (fun e2 => this ⟨e, e2⟩))
      · exact .inl (.inl e)
    | _ => exact ⟨rfl, rfl⟩

/-- A transaction that is not a claim of this schedule leaves it alone, or creates it. -/
theorem step_other {me : Addr} {s s' : Sys} {t : Tx} {a : Addr} {i : Nat} (h : step me s t = .ok s')
    (hs : SysInv me s) (hne : ¬ callsClaim t a i) :
    schedule? s' a i = schedule? s a i ∨
    (schedule? s a i = none ∧ ∃ x, schedule? s' a i = some x ∧ x.schedule.value 0 = .ok x.balance) := by
  unfold schedule?
  cases t with
  | token c tok op =>
    simp only [step, bind_ok, ok_inj] at h
    obtain ⟨L, hL, rfl⟩ := h
    exact .inl rfl
  | vest c k =>
    cases k with
    | init b t m mi =>
      simp only [step, bind_ok, ok_inj] at h
      obtain ⟨w, hi, rfl⟩ := h
      obtain ⟨h1, rfl⟩ := init_ok hi
      left; simp [h1]
    | create l =>
      simp only [step, bind_ok, ok_inj, loaded_ok] at h
      obtain ⟨v, hv, ⟨v', L'⟩, hk, rfl⟩ := h
      obtain ⟨h1, _, _, T, h4, -⟩ := create_inv hk
      obtain ⟨i1, i2, i3, i4, i5, i6, i7, i8, i9⟩ := createLoop_inv (hs.st v hv) h4
      simp only [hv, Option.bind_some]
      cases hx : v'.sched a i with
      | none =>
        left
        cases hy : v.sched a i with
        | none => rfl
        | some y => rw [i7 a i y hy] at hx; simp at hx
      | some x =>
        rcases i8 a i x hx with h | ⟨h, h'⟩
        · exact .inl h.symm
        · exact .inr ⟨h, x, rfl, h'.2.2.at_zero⟩
    | claim b j =>
      simp only [step, bind_ok, ok_inj, loaded_ok] at h
      obtain ⟨v, hv, ⟨v', L'⟩, hk, rfl⟩ := h
      obtain ⟨h1, x, n, h2, h3, h4, rfl, h5, h6, h7⟩ := claim_inv hk
      left
      simp only [hv, Option.bind_some, putInfo_sched]
      rw [if_neg]
      rintro ⟨rfl, rfl⟩
      exact hne ⟨c, rfl⟩
    | burn b n =>
      simp only [step, bind_ok, ok_inj, loaded_ok] at h
      obtain ⟨v, hv, L', hk, rfl⟩ := h
      exact .inl rfl
    | mint b y =>
      simp only [step, bind_ok, ok_inj, loaded_ok] at h
      obtain ⟨v, hv, ⟨v', L'⟩, hk, rfl⟩ := h
      obtain ⟨h1, h2, m, h3, h4, h5, rfl, h6, h7⟩ := mint_inv hk
      left; simp [hv]
    | updateMinter b n =>
      simp only [step, bind_ok, ok_inj, loaded_ok] at h
      obtain ⟨v, hv, v', hk, rfl⟩ := h
      obtain ⟨_, _, rfl⟩ := updateMinter_ok hk
      left; simp [hv]
    | updateCapacity b n =>
      simp only [step, bind_ok, ok_inj, loaded_ok] at h
      obtain ⟨v, hv, v', hk, rfl⟩ := h
      obtain ⟨_, _, m, _, rfl⟩ := updateCapacity_ok hk
      left; simp [hv]

/-- A successful claim. -/
theorem step_claim {me : Addr} {s s' : Sys} {c : Ctx} {a : Addr} {i : Nat}
    (h : step me s (.vest c (.claim a i)) = .ok s') (ht : c.auth me = false) :
    ∃ x n, schedule? s a i = some x ∧ schedule? s' a i = some { x with balance := n } ∧
      x.schedule.value c.now = .ok n ∧ n < x.balance ∧ c.auth a = true ∧
      held s' a - held s a = (x.balance : Int) - n ∧ held s me - held s' me = (x.balance : Int) - n := by
  simp only [step, bind_ok, ok_inj, loaded_ok] at h
  obtain ⟨v, hv, ⟨v', L'⟩, hk, rfl⟩ := h
  obtain ⟨h1, x, n, h2, h3, h4, rfl, h5, h6, h7⟩ := claim_inv hk
  have hne : a ≠ me := by intro e; rw [e, ht] at h1; simp at h1
  refine ⟨x, n, by simp [schedule?, hv, h2], by simp [schedule?, putInfo_sched], h3, h4, h1, ?_, ?_⟩
  · simp only [held, token?, hv, Option.map_some]
    show L'.bal v.token a - _ = _
    rw [h6]; simp [Flow.delta, Ne.symm hne]
  · simp only [held, token?, hv, Option.map_some]
    show _ - L'.bal v.token me = _
    rw [h6]; simp [Flow.delta, hne]

/-- Book keeping of one schedule along a history. -/
def Books (s : Sys) (a : Addr) (i : Nat) (cl : Int) (last : Option Nat) : Prop :=
  (schedule? s a i = none → cl = 0 ∧ last = none) ∧
  ∀ x, schedule? s a i = some x → ∃ n : Nat, x.schedule.value 0 = .ok n ∧ cl = (n : Int) - x.balance ∧
    x.schedule.value (last.getD 0) = .ok x.balance

theorem books_exec {me : Addr} {s : Sys} {t : Tx} {a : Addr} {i : Nat} {cl : Int} {last : Option Nat}
    (hs : SysInv me s) (ht : Possible me t) (hb : Books s a i cl last) :
    Books (exec me s t) a i (cl + paid me s t a i) (if isClaim me s t a i then some t.ctx.now else last) := by
  by_cases hc : callsClaim t a i
  · obtain ⟨c, rfl⟩ := hc
    cases h : step me s (.vest c (.claim a i)) with
    | error e =>
      have he : exec me s (.vest c (.claim a i)) = s := by simp [exec, h]
      have hp : paid me s (.vest c (.claim a i)) a i = 0 := by simp [paid, he]
      have hi : isClaim me s (.vest c (.claim a i)) a i = false := by simp [isClaim, h, Except.toOption]
      rw [he, hp, hi]; simpa using hb
    | ok s' =>
      have he : exec me s (.vest c (.claim a i)) = s' := by simp [exec, h]
      obtain ⟨x, n, h1, h2, h3, h4, -, h5, -⟩ := step_claim h ht
      have hp : paid me s (.vest c (.claim a i)) a i = (x.balance : Int) - n := by simp [paid, he, h5]
      have hi : isClaim me s (.vest c (.claim a i)) a i = true := by simp [isClaim, h, Except.toOption]
      obtain ⟨m, k1, k2, k3⟩ := hb.2 x h1
      rw [he, hp, hi]
      refine ⟨fun hno => by rw [h2] at hno; simp at hno, fun y hy => ?_⟩
      rw [h2] at hy; cases hy
      exact ⟨m, k1, by simp only; omega, by simpa [Tx.ctx] using h3⟩
  · obtain ⟨hp, hi⟩ := not_claim (me := me) (s := s) hc
    rw [hp, hi]
    simp only [add_zero, Bool.false_eq_true, if_false]
    unfold exec
    split
    · rename_i s' h
      rcases step_other h hs hc with e | ⟨e, x, e2, e3⟩
      · unfold Books; rw [e]; exact hb
      · obtain ⟨z1, z2⟩ := hb.1 e
        refine ⟨fun hno => by rw [e2] at hno; simp at hno, fun y hy => ?_⟩
        rw [e2] at hy; cases hy
        exact ⟨x.balance, e3, by omega, by rw [z2]; exact e3⟩
    · exact hb

theorem books_run {me : Addr} {s : Sys} {a : Addr} {i : Nat} (ts : List Tx) {cl : Int} {last : Option Nat}
    (hs : SysInv me s) (ht : ∀ t ∈ ts, Possible me t) (hb : Books s a i cl last) :
    Books (run me s ts) a i (cl + claimed me s a i ts) (lastClaim me s a i last ts) := by
  induction ts generalizing s cl last with
  | nil => simpa [claimed, lastClaim, run] using hb
  | cons t ts ih =>
    have h1 := ht t List.mem_cons_self
    have := ih (exec_inv h1 hs) (fun u hu => ht u (List.mem_cons_of_mem _ hu)) (books_exec hs h1 hb)
    rw [run_cons]
    simp only [claimed, lastClaim]
    rwa [← add_assoc]

theorem lastClaim_none {me : Addr} {s : Sys} {a : Addr} {i : Nat} (ts : List Tx) (last : Option Nat)
    (h : lastClaim me s a i none ts = none) : lastClaim me s a i last ts = last := by
  have some_some : ∀ (ts : List Tx) (s : Sys) (n : Nat), lastClaim me s a i (some n) ts ≠ none := by
    intro ts
    induction ts with
    | nil => simp [lastClaim]
    | cons t ts ih =>
      intro s n
      simp only [lastClaim]
      split
      · exact ih _ _
      · exact ih _ _
  induction ts generalizing s with
  | nil => rfl
  | cons t ts ih =>
    simp only [lastClaim] at h ⊢
    split at h
    · exact absurd h (some_some ts _ _)
    · rename_i hc; rw [if_neg hc]; exact ih h

theorem lastClaim_mem {me : Addr} {s : Sys} {a : Addr} {i : Nat} (ts : List Tx) (last : Option Nat) {n : Nat}
    (h : lastClaim me s a i last ts = some n) : last = some n ∨ ∃ t ∈ ts, t.ctx.now = n := by
  induction ts generalizing s last with
  | nil => exact .inl h
  | cons t ts ih =>
    simp only [lastClaim] at h
    rcases ih _ h with h1 | ⟨u, hu, he⟩
    · split at h1
      · exact .inr ⟨t, List.mem_cons_self, by simpa using h1⟩
      · exact .inl h1
    · exact .inr ⟨u, List.mem_cons_of_mem _ hu, he⟩

/-- Schedules are permanent. -/
theorem sched_exec {me : Addr} {s : Sys} {t : Tx} {a : Addr} {i : Nat} {x : Info} (hs : SysInv me s)
    (ht : Possible me t) (hx : schedule? s a i = some x) :
    ∃ n, schedule? (exec me s t) a i = some { x with balance := n } ∧ n ≤ x.balance ∧
      (isClaim me s t a i = false → n = x.balance) := by
  by_cases hc : callsClaim t a i
  · obtain ⟨c, rfl⟩ := hc
    cases h : step me s (.vest c (.claim a i)) with
    | error e =>
      have he : exec me s (.vest c (.claim a i)) = s := by simp [exec, h]
      exact ⟨x.balance, by rw [he]; exact hx, le_refl _, fun _ => rfl⟩
    | ok s' =>
      have he : exec me s (.vest c (.claim a i)) = s' := by simp [exec, h]
      obtain ⟨y, n, h1, h2, h3, h4, -⟩ := step_claim h ht
      rw [hx] at h1; cases h1
      refine ⟨n, by rw [he]; exact h2, h4.le, fun hi => ?_⟩
      simp [isClaim, h, Except.toOption] at hi
  · refine ⟨x.balance, ?_, le_refl _, fun _ => rfl⟩
    unfold exec
    split
    · rename_i s' h
      rcases step_other h hs hc with e | ⟨e, -⟩
      · rw [e]; exact hx
      · rw [hx] at e; simp at e
    · exact hx

theorem sched_run {me : Addr} {s : Sys} {a : Addr} {i : Nat} (ts : List Tx) {x : Info} (hs : SysInv me s)
    (ht : ∀ t ∈ ts, Possible me t) (hx : schedule? s a i = some x) :
    ∃ n, schedule? (run me s ts) a i = some { x with balance := n } ∧ n ≤ x.balance ∧
      (lastClaim me s a i none ts = none → n = x.balance) := by
  induction ts generalizing s x with
  | nil => exact ⟨x.balance, hx, le_refl _, fun _ => rfl⟩
  | cons t ts ih =>
    have h1 := ht t List.mem_cons_self
    obtain ⟨n, k1, k2, k3⟩ := sched_exec hs h1 hx
    obtain ⟨m, j1, j2, j3⟩ := ih (exec_inv h1 hs) (fun u hu => ht u (List.mem_cons_of_mem _ hu)) k1
    simp only at j1 j2 j3
    refine ⟨m, j1, by omega, fun hn => ?_⟩
    simp only [lastClaim] at hn
    have hi : isClaim me s t a i = false := by
      by_contra hi
      simp only [Bool.not_eq_false] at hi
      rw [if_pos hi] at hn
      have : ∀ (ts : List Tx) (s : Sys) (n : Nat), lastClaim me s a i (some n) ts ≠ none := by
        intro ts
        induction ts with
        | nil => simp [lastClaim]
        | cons t ts ih =>
          intro s n
          simp only [lastClaim]
          split
          · exact ih _ _
          · exact ih _ _
      exact this _ _ _ hn
    rw [hi] at hn
    rw [j3 hn, k3 hi]

end Phoenix.Vesting
