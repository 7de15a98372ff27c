import Verif.Lemmas.StakeSys
/-! Histories of the stake contract with ordered time and distinct distribution times (helpers only). -/
namespace Phoenix.Stake
open Phoenix Phoenix.Spec

/-- staked before `d` and still there -/
def early (i : Info) (d : Nat) : Int := ((i.stakes.filter (fun e => decide (e.ts < d))).map Entry.amount).sum
/-- the same, if the distribution at `d` has not been claimed -/
def unp (i : Info) (d : Nat) : Int := if i.last < d then early i d else 0
/-- at most this can still be claimed of distribution `p` by accounts in `S` -/
def term (v : State) (S : Finset Addr) (p : Nat × Nat) : Int :=
  match v.hist.get p.1 with
  | some T => p.2 * (∑ a ∈ S, unp (v.info a) p.1) / T
  | none => 0
/-- at most this can still be claimed of `tok` by accounts in `S` -/
def Phi (v : State) (tok : Addr) (S : Finset Addr) : Int :=
  match v.rewards tok with
  | some m => (m.map (term v S)).sum
  | none => 0

/-- principal kept in token `tok` -/
def principal (v : State) (tok : Addr) : Int :=
  match v.cfg with
  | some cfg => if cfg.lpToken = tok then v.total else 0
  | none => 0

theorem early_nonneg {i : Info} (h : ∀ e ∈ i.stakes, 0 ≤ e.amount) (d : Nat) : 0 ≤ early i d := by
  unfold early
  apply List.sum_nonneg
  intro z hz
  obtain ⟨e, he, rfl⟩ := List.mem_map.mp hz
  exact h e (List.mem_of_mem_filter he)

theorem filter_sum_le {l : List Entry} (h : ∀ e ∈ l, 0 ≤ e.amount) (p : Entry → Bool) :
    ((l.filter p).map Entry.amount).sum ≤ (l.map Entry.amount).sum := by
  induction l with
  | nil => simp
  | cons e l ih =>
    have := ih (fun x hx => h x (List.mem_cons_of_mem _ hx))
    have h0 := h e List.mem_cons_self
    rw [List.filter_cons]
    split
    · simp only [List.map_cons, List.sum_cons]; omega
    · simp only [List.map_cons, List.sum_cons]; omega

theorem early_le_total {me : Addr} {s : Sys} (hs : InvA me s) (a : Addr) (d : Nat) :
    early (s.st.info a) d ≤ (s.st.info a).total := by
  rw [hs.sum]
  exact filter_sum_le (fun e he => (hs.pos a e he).le) _

theorem div_mono {x y : Int} (h : x ≤ y) (T : Nat) : x / (T : Int) ≤ y / T := by
  rcases Nat.eq_zero_or_pos T with rfl | hT
  · simp
  · exact Int.ediv_le_ediv (by omega) h

theorem term_mono {v v' : State} {S : Finset Addr} {p : Nat × Nat} (hh : v'.hist.get p.1 = v.hist.get p.1)
    (h : ∀ a ∈ S, unp (v'.info a) p.1 ≤ unp (v.info a) p.1) : term v' S p ≤ term v S p := by
  unfold term
  rw [hh]
  cases v.hist.get p.1 with
  | none => exact le_refl _
  | some T => exact div_mono (mul_le_mul_of_nonneg_left (Finset.sum_le_sum h) (by omega)) T

theorem map_sum_le {α : Type} {l : List α} {f g : α → Int} (h : ∀ x ∈ l, f x ≤ g x) : (l.map f).sum ≤ (l.map g).sum :=
  List.sum_le_sum h

theorem Phi_mono {v v' : State} {tok : Addr} {S : Finset Addr} (hr : v'.rewards tok = v.rewards tok)
    (h : ∀ m, v.rewards tok = some m → ∀ p ∈ m, v'.hist.get p.1 = v.hist.get p.1 ∧
      ∀ a ∈ S, unp (v'.info a) p.1 ≤ unp (v.info a) p.1) : Phi v' tok S ≤ Phi v tok S := by
  unfold Phi
  rw [hr]
  cases hm : v.rewards tok with
  | none => exact le_refl _
  | some m => exact map_sum_le (fun p hp => term_mono (h m hm p hp).1 (h m hm p hp).2)

/-- What one account earns for one distribution is at most its part of the claimable amount. -/
theorem payFor_le {h : SMap} {i : Info} {d R T : Nat} (hp : ∀ e ∈ i.stakes, 0 ≤ e.amount) (hT : h.get d = some T) :
    payFor h i.stakes (d, R) ≤ R * early i d / T := by
  unfold payFor
  simp only [hT, Spec.earnedFor]
  split
  · rename_i e
    have : T = 0 := by omega
    subst this; simp
  · have hT0 : 0 < T := by omega
    unfold early
    generalize i.stakes = l at *
    clear hT
    induction l with
    | nil => simp
    | cons e l ih =>
      have ih := ih (fun x hx => hp x (List.mem_cons_of_mem _ hx))
      have h0 := hp e List.mem_cons_self
      simp only [List.map_cons, List.sum_cons, List.filter_cons]
      by_cases hts : e.ts < d
      · simp only [hts, decide_true, if_true, List.map_cons, List.sum_cons]
        have h1 := reward_le (R := R) (T := T) h0 (by omega) (by omega) d e.ts
        rw [mul_add]
        have h2 : (R : Int) * e.amount / T + R * ((l.filter (fun e => decide (e.ts < d))).map Entry.amount).sum / T ≤
            ((R : Int) * e.amount + R * ((l.filter (fun e => decide (e.ts < d))).map Entry.amount).sum) / T := by
          have hTi : (0:Int) < T := by omega
          rw [Int.le_ediv_iff_mul_le hTi, add_mul]
          exact add_le_add (Int.ediv_mul_le _ hTi.ne') (Int.ediv_mul_le _ hTi.ne')
        rw [mul_comm (R:Int) e.amount] at h2 ⊢
        omega
      · simp only [hts, decide_false]
        rw [reward_zero (by omega), zero_add]
        exact ih

/-- Rewards. -/
structure InvB (me : Addr) (s : Sys) (n : Nat) (seen : List Nat) : Prop where
  ts : ∀ a, ∀ e ∈ (s.st.info a).stakes, e.ts ≤ n
  last : ∀ a, (s.st.info a).last ≤ n
  seenH : ∀ d, s.st.hist.get d ≠ none ↔ d ∈ seen
  seenLe : ∀ d ∈ seen, d ≤ n
  sortR : ∀ t m, s.st.rewards t = some m → m.Sorted
  sub : ∀ t m, s.st.rewards t = some m → ∀ p ∈ m, p.1 ∈ seen ∧ (p.2 : Int) ≤ I128_MAX
  early : ∀ d T, s.st.hist.get d = some T → (T : Int) ≤ I128_MAX ∧ ∀ S : Finset Addr, ∑ a ∈ S, early (s.st.info a) d ≤ T
  backed : ∀ tok, ∀ S : Finset Addr, Phi s.st tok S + principal s.st tok ≤ s.led.bal tok me

theorem InvB.fine {me : Addr} {s : Sys} {n : Nat} {seen : List Nat} (h : InvB me s n seen) (hA : InvA me s)
    {t : Addr} {m : SMap} (hm : s.st.rewards t = some m) (a : Addr) : Fine m s.st.hist (s.st.info a).stakes := by
  refine ⟨hA.amt a, fun d R T hd hT hpos e he hlt => ?_⟩
  obtain ⟨_, hR⟩ := h.sub t m hm _ hd
  simp only at hR
  obtain ⟨_, h2⟩ := h.early d T hT
  have h3 := h2 {a}
  simp only [Finset.sum_singleton] at h3
  have h4 : e.amount ≤ Stake.early (s.st.info a) d := by
    unfold Stake.early
    apply List.single_le_sum
    · intro z hz
      obtain ⟨x, hx, rfl⟩ := List.mem_map.mp hz
      exact (hA.pos a x (List.mem_of_mem_filter hx)).le
    · exact List.mem_map.mpr ⟨e, List.mem_filter.mpr ⟨he, by simpa using hlt⟩, rfl⟩
  have h5 : e.amount * R / T ≤ R := by
    have hTi : (0:Int) < T := by omega
    have : e.amount * R ≤ T * R := mul_le_mul_of_nonneg_right (by omega) (by omega)
    calc _ ≤ (T : Int) * R / T := Int.ediv_le_ediv hTi this
      _ = R := Int.mul_ediv_cancel_left _ hTi.ne'
  omega

/-- A withdrawal pays at most what leaves the claimable amount. -/
theorem withdraw_phi {me : Addr} {s : Sys} {n : Nat} {seen : List Nat} (hB : InvB me s n seen) (hA : InvA me s)
    {c : Ctx} (hn : n ≤ c.now) {a tok : Addr} {m : SMap} (hm : s.st.rewards tok = some m) {p : Int}
    (hp : pending c s.st tok (s.st.info a) = .ok p) (S : Finset Addr) :
    Phi { s.st with info := upd s.st.info a { s.st.info a with last := c.now } } tok S + p ≤
      Phi s.st tok (insert a S) := by
  obtain ⟨rfl, -⟩ := pending_val hm (hB.sortR tok m hm) (hB.fine hA hm a) hp
  have hpos : ∀ b, ∀ e ∈ (s.st.info b).stakes, 0 ≤ e.amount := fun b e he => (hA.pos b e he).le
  have hlk : ((looked m (s.st.info a).last c.now).map (payFor s.st.hist (s.st.info a).stakes)).sum =
      (m.map (fun q => if (s.st.info a).last < q.1 then payFor s.st.hist (s.st.info a).stakes q else 0)).sum := by
    unfold looked
    have hall : ∀ q ∈ m, q.1 ≤ c.now := fun q hq => le_trans (hB.seenLe _ (hB.sub tok m hm q hq).1) hn
    clear hm hp
    induction m with
    | nil => rfl
    | cons q m ih =>
      have ih := ih (fun x hx => hall x (List.mem_cons_of_mem _ hx))
      have h0 := hall q List.mem_cons_self
      by_cases hq : (s.st.info a).last < q.1
      · simp only [List.filter_cons, hq, h0, and_self, decide_true, if_true, List.map_cons, List.sum_cons, ih]
      · simp only [List.filter_cons, hq, false_and, decide_false, List.map_cons, List.sum_cons]
        simp only [Bool.false_eq_true, if_false, zero_add]
        exact ih
  rw [hlk]
  unfold Phi
  simp only [hm]
  rw [← List.sum_map_add]
  apply map_sum_le
  intro q hq
  obtain ⟨hseen, _⟩ := hB.sub tok m hm q hq
  obtain ⟨T, hT⟩ := Option.ne_none_iff_exists'.mp ((hB.seenH q.1).mpr hseen)
  have hle : q.1 ≤ c.now := le_trans (hB.seenLe _ hseen) hn
  unfold term
  simp only [hT]
  -- unclaimed of the others
  have hu : ∀ b, unp (upd s.st.info a { s.st.info a with last := c.now } b) q.1 =
      if b = a then 0 else unp (s.st.info b) q.1 := by
    intro b
    rw [upd_apply]
    by_cases e : b = a
    · simp only [e, if_true]
      unfold unp
      rw [if_neg (by simp only; omega)]
    · simp [e]
  have hsum : ∑ b ∈ S, unp (upd s.st.info a { s.st.info a with last := c.now } b) q.1 =
      ∑ b ∈ S.erase a, unp (s.st.info b) q.1 := by
    rw [Finset.sum_congr rfl (fun b _ => hu b)]
    rw [← Finset.sum_filter_add_sum_filter_not S (fun b => b = a)]
    have e1 : ∑ b ∈ S.filter (fun b => b = a), (if b = a then 0 else unp (s.st.info b) q.1) = 0 := by
      apply Finset.sum_eq_zero
      intro b hb
      rw [Finset.mem_filter] at hb
      rw [if_pos hb.2]
    rw [e1, zero_add]
    have e2 : S.filter (fun b => ¬ b = a) = S.erase a := by
      ext b; simp [Finset.mem_filter, Finset.mem_erase, and_comm]
    rw [e2]
    apply Finset.sum_congr rfl
    intro b hb
    rw [if_neg (Finset.mem_erase.mp hb).1]
  have hins : ∑ b ∈ insert a S, unp (s.st.info b) q.1 =
      unp (s.st.info a) q.1 + ∑ b ∈ S.erase a, unp (s.st.info b) q.1 := by
    rw [← Finset.sum_erase_add (insert a S) _ (Finset.mem_insert_self a S), Finset.erase_insert_eq_erase]; ring
  rw [hsum, hins]
  by_cases hl : (s.st.info a).last < q.1
  · rw [if_pos hl]
    have h1 : payFor s.st.hist (s.st.info a).stakes q ≤ _ := payFor_le (i := s.st.info a) (R := q.2) (hpos a) hT
    have h2 : unp (s.st.info a) q.1 = early (s.st.info a) q.1 := by unfold unp; rw [if_pos hl]
    rw [h2]
    generalize ∑ b ∈ S.erase a, unp (s.st.info b) q.1 = X at *
    generalize early (s.st.info a) q.1 = Y at *
    have h3 : (q.2 : Int) * X / T + q.2 * Y / T ≤ q.2 * (Y + X) / T := by
      rcases Nat.eq_zero_or_pos T with rfl | hT0
      · simp
      · have hTi : (0:Int) < T := by omega
        rw [Int.le_ediv_iff_mul_le hTi, add_mul, mul_add, add_comm ((q.2:Int) * Y)]
        exact add_le_add (Int.ediv_mul_le _ hTi.ne') (Int.ediv_mul_le _ hTi.ne')
    omega
  · rw [if_neg hl, add_zero]
    have h2 : unp (s.st.info a) q.1 = 0 := by unfold unp; rw [if_neg hl]
    rw [h2, zero_add]

theorem exec_ok {me : Addr} {s s' : Sys} {t : Tx} (h : step me s t = .ok s') : exec me s t = s' := by
  unfold exec; rw [h]

theorem succeeds_ok {me : Addr} {s s' : Sys} {t : Tx} (h : step me s t = .ok s') : Spec.succeeds me s t = true := by
  unfold Spec.succeeds; rw [h]; rfl

theorem succeeds_error {me : Addr} {s : Sys} {t : Tx} {e : Err} (h : step me s t = .error e) :
    Spec.succeeds me s t = false := by
  unfold Spec.succeeds; rw [h]; rfl

/-- Effect of a successful transaction on the reward bookkeeping. -/
structure StepB (me : Addr) (s s' : Sys) (t : Tx) (seen : List Nat) : Prop where
  inv : InvB me s' t.ctx.now (if Spec.isDist me s t then t.ctx.now :: seen else seen)
  acct : ∀ tok, ∀ S : Finset Addr, ∃ S' : Finset Addr, Phi s'.st tok S + Spec.paidBy me s tok t ≤
    Phi s.st tok S' + ((Spec.distOf me s tok t).map Spec.Dist.amount).sum

/-- Calls that neither distribute nor withdraw and do not touch the histories. -/
theorem quiet {me : Addr} {s s' : Sys} {t : Tx} {n : Nat} {seen : List Nat} (hB : InvB me s n seen) (hn : n ≤ t.ctx.now)
    (hd : Spec.isDist me s t = false) (hp : ∀ tok, Spec.paidBy me s tok t = 0) (hdd : ∀ tok, Spec.distOf me s tok t = [])
    (h1 : s'.st.rewards = s.st.rewards) (h2 : s'.st.hist = s.st.hist)
    (h3 : ∀ a, ∀ e ∈ (s'.st.info a).stakes, e.ts ≤ t.ctx.now) (h4 : ∀ a, (s'.st.info a).last = (s.st.info a).last)
    (h5 : ∀ a d, d ≤ n → early (s'.st.info a) d ≤ early (s.st.info a) d)
    (h6 : ∀ tok, principal s'.st tok + s.led.bal tok me ≤ principal s.st tok + s'.led.bal tok me) :
    StepB me s s' t seen := by
  have hphi : ∀ tok S, Phi s'.st tok S ≤ Phi s.st tok S := by
    intro tok S
    apply Phi_mono (by rw [h1])
    intro m hm p hpm
    refine ⟨by rw [h2], fun a _ => ?_⟩
    have hle := hB.seenLe _ (hB.sub tok m hm p hpm).1
    unfold unp
    rw [h4]
    split
    · exact h5 a _ hle
    · exact le_refl _
  constructor
  · rw [hd]
    simp only [Bool.false_eq_true, if_false]
    refine ⟨h3, fun a => by rw [h4]; exact le_trans (hB.last a) hn, ?_, fun d hd => le_trans (hB.seenLe d hd) hn, ?_, ?_,
      ?_, ?_⟩
    · rw [h2]; exact hB.seenH
    · rw [h1]; exact hB.sortR
    · rw [h1]; exact hB.sub
    · rw [h2]
      intro d T hT
      refine ⟨(hB.early d T hT).1, fun S => le_trans (Finset.sum_le_sum (fun a _ => h5 a d ?_)) ((hB.early d T hT).2 S)⟩
      exact hB.seenLe d ((hB.seenH d).mp (by rw [hT]; simp))
    · intro tok S
      have := hphi tok S
      have := h6 tok
      have := hB.backed tok S
      omega
  · intro tok S
    refine ⟨S, ?_⟩
    rw [hp, hdd]
    simp only [List.map_nil, List.sum_nil, add_zero]
    exact hphi tok S

theorem early_append (i : Info) (x : Int) (ts d : Nat) (k : Int) (h : d ≤ ts) :
    early { i with stakes := i.stakes ++ [⟨x, ts⟩], total := k } d = early i d := by
  unfold early
  simp only [List.filter_append, List.map_append, List.sum_append]
  have : (List.filter (fun e : Entry => decide (e.ts < d)) [⟨x, ts⟩]) = [] := by
    simp; omega
  rw [this]; simp

theorem early_remove (i : Info) (p q : List Entry) (e : Entry) (d : Nat) (k : Int) (hi : i.stakes = p ++ e :: q)
    (he : 0 ≤ e.amount) : early { i with stakes := p ++ q, total := k } d ≤ early i d := by
  unfold early
  rw [hi]
  simp only [List.filter_append, List.map_append, List.sum_append, List.filter_cons]
  split
  · simp only [List.map_cons, List.sum_cons]; omega
  · exact le_refl _

theorem step_B {me : Addr} {s s' : Sys} {t : Tx} {n : Nat} {seen : List Nat} (h : step me s t = .ok s')
    (ht : Spec.Possible me t) (hA : InvA me s) (hB : InvB me s n seen) (hn : n ≤ t.ctx.now)
    (hf : Spec.isDist me s t = true → t.ctx.now ∉ seen) : StepB me s s' t seen := by
  have hA' := step_invA h ht hA
  have hok := h
  unfold Spec.Possible at ht
  cases t with
  | token c tok op =>
    simp only [step, bind_ok, ok_inj] at h
    obtain ⟨L, hL, rfl⟩ := h
    obtain ⟨k1, k2, -⟩ := ledger_call_others hL ht hA.led
    refine quiet hB hn rfl (fun _ => rfl) (fun _ => rfl) rfl rfl
      (fun a e he => le_trans (hB.ts a e he) hn) (fun _ => rfl) (fun _ _ _ => le_refl _) (fun tok => ?_)
    have := k2 tok
    simp only; omega
  | stake c k =>
    simp only [Tx.ctx] at ht hn hf
    cases k with
    | init a lp mb mr m o mc =>
      simp only [step, bind_ok, ok_inj] at h
      obtain ⟨v, hi, rfl⟩ := h
      obtain ⟨h1, h2, h3, h4, rfl⟩ := init_inv hi
      obtain ⟨n1, n2, n3, n4, n5⟩ := hA.noCfg h1
      refine quiet hB hn rfl (fun _ => rfl) (fun _ => rfl) rfl n4.symm
        (fun a e he => le_trans (hB.ts a e he) hn) (fun _ => rfl) (fun _ _ _ => le_refl _) (fun tok => ?_)
      simp [principal, h1]
    | bond a x =>
      simp only [step, bind_ok, ok_inj] at h
      obtain ⟨⟨v, L⟩, hb, rfl⟩ := h
      obtain ⟨h1, cfg, h2, h3, h4, h5, h6, h7, rfl, h8, h9⟩ := bond_inv hb
      have hne : a ≠ me := by rintro rfl; rw [ht] at h1; simp at h1
      refine quiet hB hn rfl (fun _ => rfl) (fun _ => rfl) rfl rfl
        (fun b e he => ?_) (fun b => ?_) (fun b d hd => ?_) (fun tok => ?_)
      · simp only [upd_apply] at he
        simp only [Tx.ctx]
        split at he
        · rcases List.mem_append.mp he with he | he
          · exact le_trans (hB.ts a e he) hn
          · simp at he; subst he; exact le_refl _
        · exact le_trans (hB.ts b e he) hn
      · simp only [upd_apply]; split
        · rename_i e; subst e; rfl
        · rfl
      · simp only [upd_apply]; split
        · rename_i e; subst e; rw [early_append _ _ _ _ _ (le_trans hd hn)]
        · exact le_refl _
      · simp only [principal, h2]
        rw [settles_me h8]
        simp only [hne, and_false, if_false, and_true]
        split <;> omega
    | unbond a x ts =>
      simp only [step, bind_ok, ok_inj] at h
      obtain ⟨⟨v, L⟩, hb, rfl⟩ := h
      obtain ⟨h1, cfg, p, q, h2, h3, _, h4, h5, rfl, h8, h9⟩ := unbond_inv hb
      have hne : a ≠ me := by rintro rfl; rw [ht] at h1; simp at h1
      refine quiet hB hn rfl (fun _ => rfl) (fun _ => rfl) rfl rfl
        (fun b e he => ?_) (fun b => ?_) (fun b d hd => ?_) (fun tok => ?_)
      · simp only [upd_apply] at he
        simp only [Tx.ctx]
        split at he
        · refine le_trans (hB.ts a e ?_) hn
          rw [h3]; simp only [List.mem_append, List.mem_cons] at *; tauto
        · exact le_trans (hB.ts b e he) hn
      · simp only [upd_apply]; split
        · rename_i e; subst e; rfl
        · rfl
      · simp only [upd_apply]; split
        · rename_i e; subst e; exact early_remove _ p q _ _ _ h3 h4
        · exact le_refl _
      · simp only [principal, h2]
        rw [settles_me h8]
        simp only [hne, and_false, if_false, and_true]
        split <;> omega
    | createFlow a u =>
      simp only [step, bind_ok, ok_inj] at h
      obtain ⟨v, hi, rfl⟩ := h
      obtain ⟨h1, cfg, h2, h3, h4, rfl⟩ := createFlow_inv hi
      have hnone : s.st.rewards u = none := by
        by_contra hc
        exact h4 ((hA.dist u).mpr hc)
      have hphi : ∀ tok S, Phi { s.st with dists := s.st.dists ++ [u], rewards := upd s.st.rewards u (some []) } tok S =
          Phi s.st tok S := by
        intro tok S
        unfold Phi
        simp only [upd_apply]
        by_cases e : tok = u
        · subst e; simp [hnone]
        · simp only [e, if_false]
          cases s.st.rewards tok <;> rfl
      constructor
      · simp only [Spec.isDist, Bool.false_eq_true, if_false, Tx.ctx]
        refine ⟨fun a e he => le_trans (hB.ts a e he) hn, fun a => le_trans (hB.last a) hn, hB.seenH,
          fun d hd => le_trans (hB.seenLe d hd) hn, fun w m hm => ?_, fun w m hm => ?_, hB.early, fun tok S => ?_⟩
        · simp only [upd_apply] at hm
          split at hm
          · cases hm; simp [SMap.Sorted]
          · exact hB.sortR w m hm
        · simp only [upd_apply] at hm
          split at hm
          · cases hm; simp
          · exact hB.sub w m hm
        · simp only [hphi]; exact hB.backed tok S
      · intro tok S
        refine ⟨S, ?_⟩
        simp only [hphi, Spec.paidBy, Spec.distOf, List.map_nil, List.sum_nil]
        exact le_refl _
    | distribute a x u =>
      have hsuc := succeeds_ok hok
      have hisd : Spec.isDist me s (.stake c (.distribute a x u)) = true := hsuc
      have hfr : c.now ∉ seen := hf hisd
      simp only [step, bind_ok, ok_inj] at h
      obtain ⟨⟨v, L⟩, hb, rfl⟩ := h
      obtain ⟨h1, cfg, m, h2, h3, h4, h5, h6, h7, htr, rfl, h8, h9⟩ := distribute_inv hb
      have hne : a ≠ me := by rintro rfl; rw [ht] at h1; simp at h1
      have hx : x ≤ I128_MAX := transfer_small htr hne.symm (hA.led.nonneg _ _)
      have hxc := asU128_nonneg h6 hx
      have htc := asU128_nonneg hA.nonneg hA.small
      have hkeys : ∀ w m', s.st.rewards w = some m' → ∀ p ∈ m', p.1 < c.now := by
        intro w m' hm p hp
        have hs := (hB.sub w m' hm p hp).1
        have := hB.seenLe _ hs
        have : p.1 ≠ c.now := fun e => hfr (e ▸ hs)
        omega
      have hget : ∀ d, (s.st.hist.set c.now (asU128 s.st.total)).get d =
          if d = c.now then some (asU128 s.st.total) else s.st.hist.get d := SMap.get_set _ _ _
      have hnew : ∀ S : Finset Addr, ∑ b ∈ S, early (s.st.info b) c.now ≤ s.st.total := fun S =>
        le_trans (Finset.sum_le_sum (fun b _ => early_le_total hA b c.now)) (hA.cover S)
      have hset : m.set c.now (asU128 x) = m ++ [(c.now, asU128 x)] := SMap.set_append (hkeys u m h5)
      have hold : ∀ w m', s.st.rewards w = some m' → ∀ (v : State), v.info = s.st.info →
          v.hist = s.st.hist.set c.now (asU128 s.st.total) → ∀ S, (m'.map (term v S)).sum = (m'.map (term s.st S)).sum := by
        intro w m' hm v hv1 hv2 S
        congr 1
        apply List.map_congr_left
        intro p hp
        have := hkeys w m' hm p hp
        unfold term
        rw [hv2, hget, if_neg (by omega), hv1]
      have hphi : ∀ v : State, v.info = s.st.info → v.hist = s.st.hist.set c.now (asU128 s.st.total) →
          v.rewards = upd s.st.rewards u (some (m.set c.now (asU128 x))) → ∀ tok S,
          Phi v tok S ≤ Phi s.st tok S + if u = tok then x else 0 := by
        intro v hv1 hv2 hv3 tok S
        unfold Phi
        rw [hv3]
        simp only [upd_apply]
        by_cases e : tok = u
        · subst e
          simp only [if_true, h5, hset, List.map_append, List.sum_append, List.map_cons, List.map_nil, List.sum_cons,
            List.sum_nil, add_zero]
          rw [hold tok m h5 v hv1 hv2]
          have : term v S (c.now, asU128 x) ≤ x := by
            unfold term
            rw [hv2]
            simp only [hget, if_true]
            rw [hxc, htc, hv1]
            have h10 : ∑ b ∈ S, unp (s.st.info b) c.now ≤ s.st.total := by
              refine le_trans (Finset.sum_le_sum (fun b _ => ?_)) (hnew S)
              unfold unp
              split
              · exact le_refl _
              · exact early_nonneg (fun e he => (hA.pos b e he).le) _
            rcases eq_or_lt_of_le hA.nonneg with e0 | e0
            · rw [← e0]; simp; omega
            · calc _ ≤ x * s.st.total / s.st.total :=
                    Int.ediv_le_ediv e0 (mul_le_mul_of_nonneg_left h10 h6)
                _ = x := Int.mul_ediv_cancel _ e0.ne'
          omega
        · have e' : u ≠ tok := fun h => e h.symm
          simp only [e, e', if_false, add_zero]
          cases hm : s.st.rewards tok with
          | none => exact le_refl _
          | some m' => simp only; rw [hold tok m' hm v hv1 hv2]
      have hbal : ∀ tok, L.bal tok me = s.led.bal tok me + if u = tok then x else 0 := by
        intro tok
        rw [settles_me h8]
        simp [hne]
      constructor
      · rw [hisd]
        simp only [if_true, Tx.ctx]
        refine ⟨fun a e he => le_trans (hB.ts a e he) hn, fun a => le_trans (hB.last a) hn, fun d => ?_, fun d hd => ?_,
          fun w m' hm => ?_, fun w m' hm => ?_, fun d T hT => ?_, fun tok S => ?_⟩
        · simp only [hget, List.mem_cons]
          by_cases e : d = c.now
          · simp [e]
          · simp only [e, if_false, false_or]; exact hB.seenH d
        · rcases List.mem_cons.mp hd with rfl | hd
          · exact le_refl _
          · exact le_trans (hB.seenLe d hd) hn
        · simp only [upd_apply] at hm
          split at hm
          · cases hm; exact SMap.sorted_set (hB.sortR u m h5) _ _
          · exact hB.sortR w m' hm
        · simp only [upd_apply] at hm
          split at hm
          · cases hm
            intro p hp
            rcases SMap.mem_set hp with rfl | hp
            · exact ⟨List.mem_cons_self, by rw [hxc]; exact hx⟩
            · obtain ⟨k1, k2⟩ := hB.sub u m h5 p hp
              exact ⟨List.mem_cons_of_mem _ k1, k2⟩
          · intro p hp
            obtain ⟨k1, k2⟩ := hB.sub w m' hm p hp
            exact ⟨List.mem_cons_of_mem _ k1, k2⟩
        · simp only [hget] at hT
          split at hT
          · rename_i e
            cases hT
            subst e
            rw [htc]
            exact ⟨hA.small, hnew⟩
          · exact hB.early d T hT
        · have k2 := hB.backed tok S
          have k3 := hbal tok
          refine le_trans (Int.add_le_add_right (hphi _ ?_ ?_ ?_ tok S) _) ?_
          · rfl
          · rfl
          · rfl
          show _ + principal s.st tok ≤ L.bal tok me
          omega
      · intro tok S
        refine ⟨S, ?_⟩
        have : ((Spec.distOf me s tok (.stake c (.distribute a x u))).map Spec.Dist.amount).sum =
            if u = tok then x else 0 := by
          simp only [Spec.distOf, hsuc, and_true]
          split <;> simp
        rw [this]
        simp only [Spec.paidBy, add_zero]
        refine hphi _ ?_ ?_ ?_ tok S <;> rfl
    | withdraw a =>
      have hex := exec_ok hok
      simp only [step, bind_ok, ok_inj] at h
      obtain ⟨⟨v, L⟩, hb, rfl⟩ := h
      obtain ⟨rfl, h1⟩ := withdraw_inv hb
      -- what is paid and what stays claimable
      have key : ∀ tok S, ∃ S', Phi { s.st with info := upd s.st.info a { s.st.info a with last := c.now } } tok S +
          (s.led.bal tok me - L.bal tok me) ≤ Phi s.st tok S' := by
        intro tok S
        by_cases hin : tok ∈ s.st.dists ∧ a ≠ me
        · obtain ⟨hin, hne⟩ := hin
          obtain ⟨p, hp, hp0, hpb⟩ := (withdraw_bal hne hA.nodup h1 tok).2 hin
          obtain ⟨m, hm⟩ := hA.mem_dists hin
          refine ⟨insert a S, ?_⟩
          have := withdraw_phi hB hA hn hm hp S
          omega
        · have hb0 : L.bal tok me = s.led.bal tok me := by
            by_cases e : a = me
            · subst e; exact withdraw_self h1 _ _
            · exact (withdraw_bal e hA.nodup h1 tok).1 (fun hc => hin ⟨hc, e⟩)
          refine ⟨S, ?_⟩
          rw [hb0, sub_self, add_zero]
          refine Phi_mono ?_ ?_
          · rfl
          intro m hm p hp
          refine ⟨rfl, fun b _ => ?_⟩
          simp only [upd_apply]
          split
          · rename_i e
            subst e
            have hle := le_trans (hB.seenLe _ (hB.sub tok m hm p hp).1) hn
            unfold unp
            rw [if_neg (by simp only; omega)]
            split
            · exact early_nonneg (fun e he => (hA.pos b e he).le) _
            · exact le_refl _
          · exact le_refl _
      have hst : ∀ b, (upd s.st.info a { s.st.info a with last := c.now } b).stakes = (s.st.info b).stakes := by
        intro b; rw [upd_apply]; split
        · rename_i e; subst e; rfl
        · rfl
      have hea : ∀ b d, early (upd s.st.info a { s.st.info a with last := c.now } b) d = early (s.st.info b) d := by
        intro b d; unfold early; rw [hst]
      constructor
      · simp only [Spec.isDist, Bool.false_eq_true, if_false, Tx.ctx]
        refine ⟨fun b e he => ?_, fun b => ?_, hB.seenH, fun d hd => le_trans (hB.seenLe d hd) hn, hB.sortR, hB.sub,
          fun d T hT => ?_, fun tok S => ?_⟩
        · simp only [hst] at he; exact le_trans (hB.ts b e he) hn
        · simp only [upd_apply]; split
          · exact le_refl _
          · exact le_trans (hB.last b) hn
        · simp only [hea]; exact hB.early d T hT
        · obtain ⟨S', k⟩ := key tok S
          have := hB.backed tok S'
          show _ + principal s.st tok ≤ L.bal tok me
          have k' := k
          refine le_trans (Int.add_le_add_right (?_ : _ ≤ Phi s.st tok S' - (s.led.bal tok me - L.bal tok me)) _) ?_
          · exact Int.le_sub_right_of_add_le k
          · omega
      · intro tok S
        obtain ⟨S', k⟩ := key tok S
        refine ⟨S', ?_⟩
        simp only [Spec.paidBy, hex, Spec.distOf, List.map_nil, List.sum_nil, add_zero]
        exact k

end Phoenix.Stake
