import Verif.Spec.Vesting
import Verif.Lemmas.LedgerInv
import Verif.Props.Curve
import Mathlib.Algebra.BigOperators.Group.Finset.Piecewise
/-! Inversion lemmas and invariants of the vesting contract (helpers only). -/
namespace Phoenix.Vesting
open Phoenix Phoenix.Spec Curve Spec Props

theorem lastStep_getLast (a : Step) (l : List Step) : (a :: l).getLast? = some (lastStep a l) := by
  induction l generalizing a with
  | nil => rfl
  | cons b l ih => rw [List.getLast?_cons_cons, ih b]; rfl

/-- What `validate_vesting_schedule` accepts. -/
theorem validateSchedule_ok {c : Curve} {n : Nat} :
    validateSchedule c = .ok n ↔ Vests c n := by
  have hd := @validateDec_ok c
  unfold DecSteps at hd
  have this : (c.validateDec = .ok () ∧ vestedAmount c = .ok n) ↔ validateSchedule c = .ok n := by
    unfold validateSchedule
    cases c.validateDec <;> simp
  unfold Vests
  rw [← this, hd]
  cases c with
  | constant y => simp [vestedAmount, NonConstant]
  | sl a b x y =>
    simp only [vestedAmount, NonConstant, stepsOf, true_and]
    by_cases hy : y = 0 <;> simp [hy, and_assoc]
  | pl s =>
    cases s with
    | nil => simp [vestedAmount, endValue, firstValue, stepsOf]
    | cons a l =>
      simp only [vestedAmount, endValue, firstValue, NonConstant, stepsOf, true_and, and_assoc]
      rw [lastStep_getLast]
      simp only [List.head?_cons, Option.map_some]
      by_cases hy : (lastStep a l).value = 0 <;> simp [hy]

theorem Spec.Vests.dec {c : Curve} {n : Nat} (h : Vests c n) : c.validateDec = .ok () := by
  rw [validateDec_ok]; exact ⟨h.2.1, h.2.2.1⟩

/-- The curve starts at the vested amount. -/
theorem Spec.Vests.at_zero {c : Curve} {n : Nat} (h : Vests c n) : c.value 0 = .ok n := by
  obtain ⟨h1, h2, h3, h4, h5⟩ := h
  have hw := validate_wf h2
  cases c with
  | constant y => simp [NonConstant] at h1
  | sl a b x y =>
    simp only [stepsOf, List.head?_cons, Option.map_some, Option.some.injEq] at h4
    simp only [stepsOf, List.getLast?_cons_cons, List.getLast?_singleton, Option.map_some,
      Option.some.injEq] at h5
    subst h4; subst h5
    simp only [WellFormed] at hw
    simp only [value, slValue]
    split
    · rfl
    · have : a = 0 := by omega
      subst this
      simp [interpolate, subU, mul128, u128, U128_LIM, divU, bind, Except.bind, Nat.pos_iff_ne_zero.mp hw]
  | pl s =>
    cases s with
    | nil => simp [stepsOf] at h4
    | cons a l =>
      simp only [stepsOf, List.head?_cons, Option.map_some, Option.some.injEq] at h4
      simp [value, plValue, h4]

/-- After its end the curve is zero. -/
theorem Spec.Vests.at_end {c : Curve} {n e t : Nat} (h : Vests c n) (he : c.end = some e)
    (ht : e < t ∨ (e ≤ t ∧ ∃ v, c.value e = .ok v)) : c.value t = .ok 0 := by
  obtain ⟨h1, h2, h3, h4, h5⟩ := h
  have hw := validate_wf h2
  cases c with
  | constant y => simp [NonConstant] at h1
  | sl a b x y =>
    simp only [stepsOf, List.getLast?_cons_cons, List.getLast?_singleton, Option.map_some,
      Option.some.injEq] at h5
    subst h5
    simp only [WellFormed] at hw
    simp only [Curve.end, Option.some.injEq] at he
    subst he
    have late : ∀ t, x < t → value (.sl a b x 0) t = .ok 0 := by
      intro t ht
      simp only [value, slValue]
      rw [if_neg (by omega), if_pos (by omega)]
    rcases ht with ht | ⟨ht, v, hv⟩
    · exact late t ht
    · rcases Nat.lt_or_eq_of_le ht with ht | rfl
      · exact late t ht
      · simp only [value, slValue] at hv
        rw [if_neg (by omega), if_neg (by omega)] at hv
        simp only [value, slValue]
        rw [if_neg (by omega), if_neg (by omega), hv]
        unfold interpolate at hv
        rw [if_neg (by omega)] at hv
        simp only [bind_ok, subU_ok, mul128_ok, divU_ok] at hv
        obtain ⟨_, ⟨_, rfl⟩, _, ⟨_, rfl⟩, _, ⟨_, rfl⟩, _, ⟨_, rfl⟩, _, ⟨h0, rfl⟩, _, rfl⟩ := hv
        rw [Nat.mul_div_cancel _ (by omega)]
        simp
  | pl s =>
    cases s with
    | nil => simp [stepsOf] at h4
    | cons a l =>
      simp only [Curve.end, lastStep_getLast, Option.map_some, Option.some.injEq] at he
      simp only [stepsOf, lastStep_getLast, Option.map_some, Option.some.injEq] at h5
      subst he
      have ht : (lastStep a l).time ≤ t := by rcases ht with h | h <;> omega
      have hsl := hw.2
      simp only [value]
      rw [plValue_eq hsl]
      split
      · rename_i hx
        have h6 := le_lastStep hsl a (by simp)
        cases l with
        | nil => simp only [lastStep] at h5; rw [h5]
        | cons b l =>
          have := (sorted_cons.mp hsl).1 _ (lastStep_mem b l)
          simp only [lastStep] at ht h6 this; omega
      · rw [plScan_after hsl ht, h5]

/-! ### storage -/

theorem putInfo_sched (v : State) (a : Addr) (i : Nat) (x : Info) (b : Addr) (j : Nat) :
    (putInfo v a i x).sched b j = if b = a ∧ j = i then some x else v.sched b j := by
  unfold putInfo
  simp only [upd_apply]
  by_cases h1 : b = a
  · subst h1; by_cases h2 : j = i <;> simp [h2]
  · simp [h1]

theorem getVesting_ok {v : State} {a : Addr} {i : Nat} {x : Info} :
    getVesting v a i = .ok x ↔ v.sched a i = some x := by
  unfold getVesting
  cases v.sched a i <;> simp

theorem firstFree_ok {f : Nat → Option Info} {i n k : Nat} (h : firstFree f i n = .ok k) :
    i ≤ k ∧ f k = none ∧ ∀ j, i ≤ j → j < k → f j ≠ none := by
  induction n generalizing i with
  | zero => simp [firstFree] at h
  | succ n ih =>
    unfold firstFree at h
    split at h
    · rename_i hf
      rw [ok_inj] at h; subst h
      exact ⟨le_refl _, hf, fun j h1 h2 => by omega⟩
    · rename_i x hf
      obtain ⟨h1, h2, h3⟩ := ih h
      refine ⟨by omega, h2, fun j h4 h5 => ?_⟩
      by_cases e : j = i
      · subst e; rw [hf]; simp
      · exact h3 j (by omega) h5

/-- The search for a free index ends. -/
theorem firstFree_total {f : Nat → Option Info} (n : Nat) (i : Nat) (h : f (i + n) = none) :
    ∃ k, firstFree f i (n + 1) = .ok k := by
  induction n generalizing i with
  | zero => unfold firstFree; simp only [Nat.add_zero] at h; rw [h]; exact ⟨i, rfl⟩
  | succ n ih =>
    unfold firstFree
    split
    · exact ⟨i, rfl⟩
    · exact ih (i + 1) (by rw [show i + 1 + n = i + (n + 1) by omega]; exact h)

/-- outstanding balance in a storage -/
def out (v : State) (k : Addr × Nat) : Int :=
  match v.sched k.1 k.2 with
  | some x => x.balance
  | none => 0

theorem outstanding_some {s : Sys} {v : State} (h : s.vest = some v) (k : Addr × Nat) :
    outstanding s k = out v k := by
  simp only [outstanding, schedule?, h, out, Option.bind_some]
  cases v.sched k.1 k.2 <;> rfl

theorem owed_some {s : Sys} {v : State} (h : s.vest = some v) (K : Finset (Addr × Nat)) :
    owed s K = ∑ k ∈ K, out v k := by
  unfold owed; simp only [outstanding_some h]

theorem out_putInfo (v : State) (a : Addr) (i : Nat) (x : Info) (k : Addr × Nat) :
    out (putInfo v a i x) k = out v k + if k = (a, i) then (x.balance : Int) - out v (a, i) else 0 := by
  unfold out
  rw [putInfo_sched]
  by_cases h : k = (a, i)
  · subst h; simp
  · have : ¬ (k.1 = a ∧ k.2 = i) := fun ⟨h1, h2⟩ => h (by rw [← h1, ← h2])
    simp [h, this]

theorem sum_putInfo (v : State) (a : Addr) (i : Nat) (x : Info) (K : Finset (Addr × Nat)) :
    ∑ k ∈ K, out (putInfo v a i x) k =
      ∑ k ∈ K, out v k + if (a, i) ∈ K then (x.balance : Int) - out v (a, i) else 0 := by
  simp only [out_putInfo]
  rw [Finset.sum_add_distrib, Finset.sum_ite_eq']

/-- What holds of every reachable storage. -/
structure StInv (v : State) : Prop where
  fresh : ∀ a i, v.entries ≤ i → v.sched a i = none
  dense : ∀ a i j, i ≤ j → v.sched a i = none → v.sched a j = none
  good : ∀ a i x, v.sched a i = some x → x.recipient = a ∧
    ∃ n, Vests x.schedule n ∧ x.balance ≤ n ∧ ∃ t, x.schedule.value t = .ok x.balance

theorem saveVesting_inv {v v' : State} {a : Addr} {x : Info} (h : saveVesting v a x = .ok v') :
    ∃ i, v.sched a i = none ∧ (∀ j < i, v.sched a j ≠ none) ∧
      v' = { putInfo v a i x with entries := v.entries + 1 } := by
  unfold saveVesting at h
  simp only [bind_ok, ok_inj] at h
  obtain ⟨i, hi, rfl⟩ := h
  obtain ⟨_, h2, h3⟩ := firstFree_ok hi
  exact ⟨i, h2, fun j hj => h3 j (by omega) hj, rfl⟩

theorem saveVesting_stInv {v v' : State} {a : Addr} {c : Curve} {n : Nat} (hv : StInv v) (hn : Vests c n)
    (h : saveVesting v a ⟨n, a, c⟩ = .ok v') : StInv v' := by
  obtain ⟨i, h1, h2, rfl⟩ := saveVesting_inv h
  have hi : i ≤ v.entries := by
    by_contra hlt
    exact h2 v.entries (by omega) (hv.fresh a _ (le_refl _))
  refine ⟨fun b j hj => ?_, fun b j k hjk => ?_, fun b j x => ?_⟩
  · simp only at hj
    simp only [putInfo_sched]
    rw [if_neg (by omega)]
    exact hv.fresh b j (by omega)
  · simp only [putInfo_sched]
    intro hno
    split at hno
    · simp at hno
    · rename_i hne
      have h0 := hv.dense b j k hjk hno
      split
      · rename_i e
        obtain ⟨rfl, rfl⟩ := e
        exact absurd hno (h2 j (by
          rcases Nat.lt_or_eq_of_le hjk with h | h
          · exact h
          · exact absurd ⟨rfl, h⟩ hne))
      · exact h0
  · simp only [putInfo_sched]
    intro hx
    split at hx
    · rename_i e
      cases hx
      exact ⟨e.1.symm, n, hn, le_refl _, 0, hn.at_zero⟩
    · exact hv.good b j x hx

/-- the new entry's owner, curve and start, for a created schedule -/
def Created (l : List (Addr × Curve)) (a : Addr) (x : Info) : Prop :=
  (a, x.schedule) ∈ l ∧ x.recipient = a ∧ Vests x.schedule x.balance

theorem createLoop_inv {v v' : State} {T T' : Nat} {l : List (Addr × Curve)} (hv : StInv v)
    (h : createLoop v T l = .ok (v', T')) :
    StInv v' ∧ v'.admin = v.admin ∧ v'.token = v.token ∧ v'.maxComplexity = v.maxComplexity ∧
    v'.minter = v.minter ∧ T ≤ T' ∧
    (∀ a i x, v.sched a i = some x → v'.sched a i = some x) ∧
    (∀ a i x, v'.sched a i = some x → v.sched a i = some x ∨ (v.sched a i = none ∧ Created l a x)) ∧
    (∀ K : Finset (Addr × Nat), ∑ k ∈ K, out v' k ≤ ∑ k ∈ K, out v k + ((T' : Int) - T) ∧
      ((∀ a i, (a, i) ∉ K → v'.sched a i = none) →
        ∑ k ∈ K, out v' k = ∑ k ∈ K, out v k + ((T' : Int) - T))) := by
  induction l generalizing v T with
  | nil =>
    simp only [createLoop, ok_inj, Prod.mk.injEq] at h
    obtain ⟨rfl, rfl⟩ := h
    exact ⟨hv, rfl, rfl, rfl, rfl, le_refl _, fun _ _ _ h => h, fun _ _ _ h => .inl h, fun K => by simp⟩
  | cons p l ih =>
    obtain ⟨a, c⟩ := p
    simp only [createLoop, bind_ok, req_ok, add128_ok] at h
    obtain ⟨n, hn, _, _, v1, h1, T1, ⟨_, rfl⟩, h⟩ := h
    rw [validateSchedule_ok] at hn
    obtain ⟨i1, i2, i3, i4, i5, i6, i7, i8, i9⟩ := ih (saveVesting_stInv hv hn h1) h
    obtain ⟨i, hi, hlt, rfl⟩ := saveVesting_inv h1
    have hkeep : ∀ b j x, v.sched b j = some x → (putInfo v a i ⟨n, a, c⟩).sched b j = some x := by
      intro b j x hx
      rw [putInfo_sched]
      split
      · rename_i e; rw [e.1, e.2, hi] at hx; simp at hx
      · exact hx
    refine ⟨i1, i2, i3, i4, i5, by omega, fun b j x hx => i7 b j x (hkeep b j x hx), fun b j x hx => ?_, fun K => ?_⟩
    · rcases i8 b j x hx with h' | ⟨h', h''⟩
      · simp only [putInfo_sched] at h'
        split at h'
        · rename_i e
          cases h'
          refine .inr ⟨by rw [e.1, e.2]; exact hi, ?_, e.1.symm, hn⟩
          rw [e.1]; exact List.mem_cons_self
        · exact .inl h'
      · simp only [putInfo_sched] at h'
        split at h'
        · simp at h'
        · exact .inr ⟨h', List.mem_cons_of_mem _ h''.1, h''.2⟩
    · have hsum := sum_putInfo v a i ⟨n, a, c⟩ K
      have hout : out v (a, i) = 0 := by simp [out, hi]
      have e1 : ∑ k ∈ K, out { putInfo v a i ⟨n, a, c⟩ with entries := v.entries + 1 } k =
          ∑ k ∈ K, out (putInfo v a i ⟨n, a, c⟩) k := rfl
      obtain ⟨j1, j2⟩ := i9 K
      rw [e1, hsum, hout] at j1 j2
      simp only [sub_zero] at j1 j2
      push_cast at j1 j2
      refine ⟨?_, fun hK => ?_⟩
      · split at j1 <;> omega
      · have hin : (a, i) ∈ K := by
          by_contra hnot
          have := hK a i hnot
          rw [i7 a i ⟨n, a, c⟩ (by simp [putInfo_sched])] at this
          simp at this
        have := j2 hK
        rw [if_pos hin] at this
        omega

/-! ### calls -/

theorem create_inv {me : Addr} {c : Ctx} {v v' : State} {L L' : Ledger} {l : List (Addr × Curve)}
    (h : create me c v L l = .ok (v', L')) :
    c.auth v.admin = true ∧ l ≠ [] ∧ checkDup [] l = .ok () ∧ ∃ T : Nat, createLoop v 0 l = .ok (v', T) ∧
      (T : Int) ≤ I128_MAX ∧ (T : Int) ≤ L.bal v.token v.admin ∧
      Settles L L' [⟨v.token, v.admin, me, T⟩] ∧ SameRights L L' := by
  unfold create at h
  simp only [bind_ok, requireAuth_ok, req_ok, toI128_ok] at h
  obtain ⟨_, h1, _, h2, _, h3, ⟨v1, T⟩, h4, _, ⟨h5, rfl⟩, _, h6, L1, h7, h8⟩ := h
  simp only [ok_inj, Prod.mk.injEq] at h8
  obtain ⟨rfl, rfl⟩ := h8
  obtain ⟨_, _, _, h9, h10⟩ := Ledger.transfer_inv h7
  exact ⟨h1, h2, h3, T, h4, h5, by omega, h9, h10⟩

theorem available_ok {c : Ctx} {v : State} {a : Addr} {i : Nat} {y : Int} :
    available c v a i = .ok y ↔ ∃ x n, v.sched a i = some x ∧ x.schedule.value c.now = .ok n ∧ n ≤ x.balance ∧
      ((x.balance : Int) - n) ≤ I128_MAX ∧ y = (x.balance : Int) - n := by
  unfold available
  simp only [bind_ok, getVesting_ok, subU_ok, toI128_ok]
  constructor
  · rintro ⟨x, h1, n, h2, _, ⟨h3, rfl⟩, h4, rfl⟩
    refine ⟨x, n, h1, h2, h3, ?_, ?_⟩ <;> omega
  · rintro ⟨x, n, h1, h2, h3, h4, rfl⟩
    refine ⟨x, h1, n, h2, _, ⟨h3, rfl⟩, ?_, ?_⟩ <;> omega

theorem claim_inv {me : Addr} {c : Ctx} {v v' : State} {L L' : Ledger} {a : Addr} {i : Nat}
    (h : claim me c v L a i = .ok (v', L')) :
    c.auth a = true ∧ ∃ x n, v.sched a i = some x ∧ x.schedule.value c.now = .ok n ∧ n < x.balance ∧
      v' = putInfo v a i { x with balance := n } ∧ ((x.balance : Int) - n) ≤ L.bal v.token me ∧
      Settles L L' [⟨v.token, me, a, (x.balance : Int) - n⟩] ∧ SameRights L L' := by
  unfold claim at h
  simp only [bind_ok, requireAuth_ok, req_ok, available_ok, getVesting_ok, toU128_ok, subU_ok] at h
  obtain ⟨_, h1, av, ⟨x, n, h2, h3, h4, h5, rfl⟩, _, h6, x', h7, n', h8, _, ⟨h9, rfl⟩, m, h10, _, h11,
    _, ⟨h12, rfl⟩, L1, h13, h14⟩ := h
  rw [h2] at h7; cases h7
  rw [h3] at h8; rw [ok_inj] at h8; subst h8
  simp only [ok_inj, Prod.mk.injEq] at h14
  obtain ⟨rfl, rfl⟩ := h14
  obtain ⟨_, _, h15, h16, h17⟩ := Ledger.transfer_inv h13
  have : x.balance - m = n := by omega
  exact ⟨h1, x, n, h2, h3, by omega, by rw [this], h15, h16, h17⟩

theorem needMinter_ok {v : State} {m : Minter} : needMinter v = .ok m ↔ v.minter = some m := by
  unfold needMinter; cases v.minter <;> simp

theorem mint_inv {me : Addr} {c : Ctx} {v v' : State} {L L' : Ledger} {a : Addr} {y : Int}
    (h : mint me c v L a y = .ok (v', L')) :
    c.auth a = true ∧ 0 < y ∧ ∃ m, v.minter = some m ∧ m.address = a ∧ y ≤ m.capacity ∧
      v' = { v with minter := some ⟨a, m.capacity - y.toNat⟩ } ∧ Issues L L' v.token me y ∧ SameRights L L' := by
  unfold mint at h
  simp only [bind_ok, requireAuth_ok, req_ok, needMinter_ok, toU128_ok, subU_ok] at h
  obtain ⟨_, h1, _, h2, m, h3, _, h4, n, h5, _, ⟨h6, rfl⟩, L1, h7, h8⟩ := h
  simp only [ok_inj, Prod.mk.injEq] at h8
  obtain ⟨rfl, rfl⟩ := h8
  obtain ⟨_, _, h9, h10⟩ := Ledger.mint_inv h7
  refine ⟨h1, h2, m, h3, h4.symm, by omega, ?_, h9, h10⟩
  rw [h4, show y.toNat = n by omega]

theorem loaded_ok {v : Option State} {w : State} : loaded v = .ok w ↔ v = some w := by
  unfold loaded; cases v <;> simp

/-! ### the invariant of all histories -/

structure SysInv (me : Addr) (s : Sys) : Prop where
  led : LedInv me s.led
  st : ∀ v, s.vest = some v → StInv v
  backed : ∀ v, s.vest = some v → ∀ K : Finset (Addr × Nat), ∑ k ∈ K, out v k ≤ s.led.bal v.token me

/-- flows keep balances non-negative if the payer can pay -/
theorem settles_ledInv {me : Addr} {L L' : Ledger} {t s d : Addr} {x : Int} (h : LedInv me L) (hx : 0 ≤ x)
    (hb : x ≤ L.bal t s) (hs : Settles L L' [⟨t, s, d, x⟩]) (hr : SameRights L L') : LedInv me L' := by
  refine ⟨fun u a => ?_, fun u sp => ?_⟩
  · rw [hs u a]
    simp only [Flow.delta, List.map_cons, List.map_nil, List.sum_cons, List.sum_nil, add_zero]
    have h0 := h.nonneg u a
    by_cases e : t = u ∧ s = a
    · obtain ⟨rfl, rfl⟩ := e
      simp only [true_and, if_true]; split <;> omega
    · rw [if_neg e]; split <;> omega
  · rw [(hr u).2.1]; exact h.noAllow u sp

theorem issues_ledInv {me : Addr} {L L' : Ledger} {t d : Addr} {x : Int} (h : LedInv me L) (hx : 0 ≤ x)
    (hs : Issues L L' t d x) (hr : SameRights L L') : LedInv me L' := by
  refine ⟨fun u a => ?_, fun u sp => ?_⟩
  · rw [hs u a]
    have h0 := h.nonneg u a
    split <;> omega
  · rw [(hr u).2.1]; exact h.noAllow u sp

theorem burn_call {me : Addr} {c : Ctx} {v : State} {L L' : Ledger} {a : Addr} {n : Nat}
    (h : burn me c v L a n = .ok L') : c.auth a = true ∧ L.call (c.as me) v.token (.burn a (castI128 n)) = .ok L' := by
  unfold burn at h
  simp only [bind_ok, requireAuth_ok, req_ok] at h
  obtain ⟨_, h1, _, _, h⟩ := h
  exact ⟨h1, h⟩

end Phoenix.Vesting
