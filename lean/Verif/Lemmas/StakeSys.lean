import Verif.Lemmas.Stake
/-! Histories of the stake contract: principal (no assumption on time) and rewards (helpers only). -/
namespace Phoenix.Stake
open Phoenix Phoenix.Spec

theorem sum_upd_info {f : Info → Int} (g : Addr → Info) (a : Addr) (i : Info) (U : Finset Addr) :
    ∑ b ∈ U, f (upd g a i b) = ∑ b ∈ U, f (g b) + if a ∈ U then f i - f (g a) else 0 := by
  have h : ∀ b, f (upd g a i b) = f (g b) + if b = a then f i - f (g a) else 0 := by
    intro b
    rw [upd_apply]
    by_cases e : b = a
    · subst e; simp
    · simp [e]
  rw [Finset.sum_congr rfl (fun b _ => h b), Finset.sum_add_distrib, Finset.sum_ite_eq']

/-- Principal. -/
structure InvA (me : Addr) (s : Sys) : Prop where
  led : LedInv me s.led
  pos : ∀ a, ∀ e ∈ (s.st.info a).stakes, 0 < e.amount
  sum : ∀ a, (s.st.info a).total = ((s.st.info a).stakes.map Entry.amount).sum
  users : ∃ U : Finset Addr, (∀ a, a ∉ U → (s.st.info a).stakes = []) ∧ ∑ a ∈ U, (s.st.info a).total = s.st.total
  noCfg : s.st.cfg = none → (∀ a, (s.st.info a).stakes = []) ∧ s.st.dists = [] ∧ (∀ t, s.st.rewards t = none) ∧
    s.st.hist = [] ∧ s.st.total = 0
  minBond : ∀ cfg, s.st.cfg = some cfg → 0 < cfg.minBond
  dist : ∀ t, t ∈ s.st.dists ↔ s.st.rewards t ≠ none
  nodup : s.st.dists.Nodup
  meNone : (s.st.info me).stakes = []
  small : s.st.total ≤ I128_MAX
  lp : ∀ cfg, s.st.cfg = some cfg → cfg.lpToken ∉ s.st.dists → s.st.total ≤ s.led.bal cfg.lpToken me

theorem InvA.total_nonneg {me : Addr} {s : Sys} (h : InvA me s) (a : Addr) : 0 ≤ (s.st.info a).total := by
  rw [h.sum]
  apply List.sum_nonneg
  intro z hz
  obtain ⟨e, he, rfl⟩ := List.mem_map.mp hz
  exact (h.pos a e he).le

theorem InvA.cover {me : Addr} {s : Sys} (h : InvA me s) (S : Finset Addr) :
    ∑ a ∈ S, (s.st.info a).total ≤ s.st.total := by
  obtain ⟨U, h1, h2⟩ := h.users
  rw [← h2]
  have e : ∑ a ∈ S, (s.st.info a).total = ∑ a ∈ S ∩ U, (s.st.info a).total := by
    symm
    apply Finset.sum_subset Finset.inter_subset_left
    intro a ha hn
    have : a ∉ U := fun hu => hn (Finset.mem_inter.mpr ⟨ha, hu⟩)
    rw [h.sum, h1 a this]; rfl
  rw [e]
  exact Finset.sum_le_sum_of_subset_of_nonneg Finset.inter_subset_right (fun a _ _ => h.total_nonneg a)

theorem InvA.nonneg {me : Addr} {s : Sys} (h : InvA me s) : 0 ≤ s.st.total := by
  have := h.cover ∅
  simpa using this

theorem InvA.mem_le {me : Addr} {s : Sys} (h : InvA me s) {a : Addr} {e : Entry} (he : e ∈ (s.st.info a).stakes) :
    e.amount ≤ (s.st.info a).total := by
  rw [h.sum]
  apply List.single_le_sum
  · intro z hz
    obtain ⟨x, hx, rfl⟩ := List.mem_map.mp hz
    exact (h.pos a x hx).le
  · exact List.mem_map.mpr ⟨e, he, rfl⟩

theorem InvA.one_le {me : Addr} {s : Sys} (h : InvA me s) (a : Addr) : (s.st.info a).total ≤ s.st.total := by
  have := h.cover {a}
  simpa using this

theorem InvA.amt {me : Addr} {s : Sys} (h : InvA me s) (a : Addr) :
    ∀ e ∈ (s.st.info a).stakes, 0 ≤ e.amount ∧ e.amount ≤ I128_MAX := fun e he =>
  ⟨(h.pos a e he).le, le_trans (h.mem_le he) (le_trans (h.one_le a) h.small)⟩

theorem InvA.mem_dists {me : Addr} {s : Sys} (h : InvA me s) {t : Addr} (ht : t ∈ s.st.dists) :
    ∃ m, s.st.rewards t = some m := Option.ne_none_iff_exists'.mp ((h.dist t).mp ht)

/-- balance of the contract after a payment to or from another account -/
theorem settles_me {me : Addr} {L L' : Ledger} {t a b : Addr} {x : Int} (h : Settles L L' [⟨t, a, b, x⟩]) (u : Addr) :
    L'.bal u me = L.bal u me + ((if t = u ∧ b = me then x else 0) - (if t = u ∧ a = me then x else 0)) := by
  rw [h]; simp [Flow.delta]

theorem pays_delta {me a : Addr} (hne : a ≠ me) (ps : List (Addr × Int)) (hn : (ps.map Prod.fst).Nodup) (t : Addr) :
    ((pays me a ps).map (fun f => f.delta t me)).sum = - ((ps.filter (fun p => decide (p.1 = t))).map Prod.snd).sum := by
  induction ps with
  | nil => rfl
  | cons p ps ih =>
    simp only [List.map_cons, List.nodup_cons] at hn
    have := ih hn.2
    simp only [pays, List.map_cons, List.sum_cons, List.filter_cons] at *
    rw [this]
    by_cases e : p.1 = t
    · simp [Flow.delta, e, hne]; ring
    · simp [Flow.delta, e]

theorem filter_nodup {ps : List (Addr × Int)} (hn : (ps.map Prod.fst).Nodup) {p : Addr × Int} (hp : p ∈ ps) :
    ps.filter (fun q => decide (q.1 = p.1)) = [p] := by
  induction ps with
  | nil => simp at hp
  | cons q ps ih =>
    simp only [List.map_cons, List.nodup_cons] at hn
    rcases List.mem_cons.mp hp with rfl | hp
    · rw [List.filter_cons, if_pos (by simp)]
      congr 1
      rw [List.filter_eq_nil_iff]
      intro x hx
      simp only [decide_eq_true_eq]
      intro e
      exact hn.1 (by rw [← e]; exact List.mem_map.mpr ⟨x, hx, rfl⟩)
    · rw [List.filter_cons, if_neg, ih hn.2 hp]
      simp only [decide_eq_true_eq]
      intro e
      exact hn.1 (by rw [e]; exact List.mem_map.mpr ⟨p, hp, rfl⟩)

/-- What a withdrawal does to the contract's balances. -/
theorem withdraw_bal {me : Addr} {c : Ctx} {s : State} {a : Addr} {L L' : Ledger} (hne : a ≠ me)
    (hn : s.dists.Nodup) (h : payLoop me c s a s.dists L = .ok L') (t : Addr) :
    (t ∉ s.dists → L'.bal t me = L.bal t me) ∧
    (t ∈ s.dists → ∃ p, pending c s t (s.info a) = .ok p ∧ 0 ≤ p ∧ L'.bal t me = L.bal t me - p) := by
  obtain ⟨ps, e1, e2, e3, -⟩ := payLoop_inv h
  have hd := pays_delta hne ps (by rw [e1]; exact hn) t
  have hb := e3 t me
  rw [hd] at hb
  constructor
  · intro ht
    have : ps.filter (fun p => decide (p.1 = t)) = [] := by
      rw [List.filter_eq_nil_iff]
      intro x hx
      simp only [decide_eq_true_eq]
      rintro rfl
      exact ht (by rw [← e1]; exact List.mem_map.mpr ⟨x, hx, rfl⟩)
    rw [hb, this]; simp
  · intro ht
    rw [← e1] at ht
    obtain ⟨p, hp, rfl⟩ := List.mem_map.mp ht
    obtain ⟨k1, k2⟩ := e2 p hp
    refine ⟨p.2, k1, k2, ?_⟩
    rw [hb, filter_nodup (by rw [e1]; exact hn) hp]; simp; ring

/-- A withdrawal for the contract itself moves nothing. -/
theorem withdraw_self {me : Addr} {c : Ctx} {s : State} {L L' : Ledger} {l : List Addr}
    (h : payLoop me c s me l L = .ok L') (t b : Addr) : L'.bal t b = L.bal t b := by
  obtain ⟨ps, _, _, e3, -⟩ := payLoop_inv h
  rw [e3 t b]
  have : ((pays me me ps).map (fun f => f.delta t b)).sum = 0 := by
    clear * -
    induction ps with
    | nil => rfl
    | cons p ps ih => simp only [pays, List.map_cons, List.sum_cons] at *; rw [ih]; simp [Flow.delta]
  rw [this, add_zero]

theorem step_invA {me : Addr} {s s' : Sys} {t : Tx} (h : step me s t = .ok s') (ht : Spec.Possible me t)
    (hs : InvA me s) : InvA me s' := by
  unfold Spec.Possible at ht
  cases t with
  | token c tok op =>
    simp only [step, bind_ok, ok_inj] at h
    obtain ⟨L, hL, rfl⟩ := h
    obtain ⟨k1, k2, -⟩ := ledger_call_others hL ht hs.led
    exact ⟨k1, hs.pos, hs.sum, hs.users, hs.noCfg, hs.minBond, hs.dist, hs.nodup, hs.meNone, hs.small,
      fun cfg hc hn => le_trans (hs.lp cfg hc hn) (k2 _)⟩
  | stake c k =>
    simp only [Tx.ctx] at ht
    cases k with
    | init a lp mb mr m o mc =>
      simp only [step, bind_ok, ok_inj] at h
      obtain ⟨v, hi, rfl⟩ := h
      obtain ⟨h1, h2, h3, h4, rfl⟩ := init_inv hi
      obtain ⟨n1, n2, n3, n4, n5⟩ := hs.noCfg h1
      refine ⟨hs.led, hs.pos, hs.sum, ?_, ?_, ?_, hs.dist, hs.nodup, hs.meNone, I128_MAX_nonneg, ?_⟩
      · obtain ⟨U, u1, u2⟩ := hs.users
        exact ⟨U, u1, by rw [u2]; exact n5⟩
      · simp
      · simp only; rintro cfg hc; cases hc; exact h2
      · simp only; intro cfg hc _; exact hs.led.nonneg _ _
    | bond a x =>
      simp only [step, bind_ok, ok_inj] at h
      obtain ⟨⟨v, L⟩, hb, rfl⟩ := h
      obtain ⟨h1, cfg, h2, h3, h4, h5, h6, h7, rfl, h8, h9⟩ := bond_inv hb
      have hne : a ≠ me := by rintro rfl; rw [ht] at h1; simp at h1
      have hmb := hs.minBond cfg h2
      refine ⟨Vesting.settles_ledInv hs.led h4 h5 h8 h9, fun b e he => ?_, fun b => ?_, ?_, ?_, hs.minBond, hs.dist,
        hs.nodup, ?_, ?_, ?_⟩
      · simp only [upd_apply] at he
        split at he
        · rename_i e1
          rcases List.mem_append.mp he with he | he
          · exact hs.pos a e he
          · simp at he; subst he; simp only; omega
        · exact hs.pos b e he
      · simp only [upd_apply]
        split
        · simp only [List.map_append, List.map_cons, List.map_nil, List.sum_append, List.sum_cons, List.sum_nil]
          rw [← hs.sum a]; ring
        · exact hs.sum b
      · obtain ⟨U, u1, u2⟩ := hs.users
        refine ⟨insert a U, fun b hb => ?_, ?_⟩
        · rw [Finset.mem_insert, not_or] at hb
          simp only [upd_ne _ _ hb.1]; exact u1 b hb.2
        · simp only [sum_upd_info (f := Info.total), Finset.mem_insert_self, if_true]
          by_cases ha : a ∈ U
          · rw [Finset.insert_eq_of_mem ha, u2]; ring
          · rw [Finset.sum_insert ha, u2]
            have := u1 a ha
            have h0 := hs.sum a
            rw [this] at h0
            rw [h0]; simp
      · simp [h2]
      · simp only [upd_ne _ _ hne.symm]; exact hs.meNone
      · exact h7.2
      · simp only
        intro cfg' hc hn
        rw [h2] at hc; cases hc
        rw [settles_me h8]
        have := hs.lp cfg h2 hn
        simp [hne]; omega
    | unbond a x ts =>
      simp only [step, bind_ok, ok_inj] at h
      obtain ⟨⟨v, L⟩, hb, rfl⟩ := h
      obtain ⟨h1, cfg, p, q, h2, h3, _, h4, h5, rfl, h8, h9⟩ := unbond_inv hb
      have hne : a ≠ me := by rintro rfl; rw [ht] at h1; simp at h1
      have hmem : (⟨x, ts⟩ : Entry) ∈ (s.st.info a).stakes := by rw [h3]; simp
      refine ⟨Vesting.settles_ledInv hs.led h4 h5 h8 h9, fun b e he => ?_, fun b => ?_, ?_, ?_, hs.minBond, hs.dist,
        hs.nodup, ?_, ?_, ?_⟩
      · simp only [upd_apply] at he
        split at he
        · refine hs.pos a e ?_
          rw [h3]; simp only [List.mem_append, List.mem_cons] at *; tauto
        · exact hs.pos b e he
      · simp only [upd_apply]
        split
        · have := hs.sum a
          rw [h3] at this
          simp only [List.map_append, List.map_cons, List.sum_append, List.sum_cons] at *
          omega
        · exact hs.sum b
      · obtain ⟨U, u1, u2⟩ := hs.users
        have ha : a ∈ U := by
          by_contra ha
          rw [u1 a ha] at hmem; simp at hmem
        refine ⟨U, fun b hb => ?_, ?_⟩
        · have hba : b ≠ a := fun e => hb (e ▸ ha)
          simp only [upd_ne _ _ hba]; exact u1 b hb
        · simp only [sum_upd_info (f := Info.total), ha, if_true]
          rw [u2]; ring
      · simp [h2]
      · simp only [upd_ne _ _ hne.symm]; exact hs.meNone
      · have := hs.small; simp only; omega
      · simp only
        intro cfg' hc hn
        rw [h2] at hc; cases hc
        rw [settles_me h8]
        have := hs.lp cfg h2 hn
        simp [hne]; omega
    | createFlow a u =>
      simp only [step, bind_ok, ok_inj] at h
      obtain ⟨v, hi, rfl⟩ := h
      obtain ⟨h1, cfg, h2, h3, h4, rfl⟩ := createFlow_inv hi
      refine ⟨hs.led, hs.pos, hs.sum, hs.users, ?_, hs.minBond, fun w => ?_, ?_, hs.meNone, hs.small, ?_⟩
      · simp [h2]
      · simp only [upd_apply, List.mem_append, List.mem_singleton]
        split
        · rename_i e; simp [e]
        · rename_i e; simp only [e, or_false]; exact hs.dist w
      · simp only [List.nodup_append]
        exact ⟨hs.nodup, by simp, by intro x hx y hy; simp at hy; subst hy; rintro rfl; exact h4 hx⟩
      · simp only
        intro cfg' hc hn
        exact hs.lp cfg' hc (fun h => hn (List.mem_append_left _ h))
    | distribute a x u =>
      simp only [step, bind_ok, ok_inj] at h
      obtain ⟨⟨v, L⟩, hb, rfl⟩ := h
      obtain ⟨h1, cfg, m, h2, h3, h4, h5, h6, h7, _, rfl, h8, h9⟩ := distribute_inv hb
      have hne : a ≠ me := by rintro rfl; rw [ht] at h1; simp at h1
      refine ⟨Vesting.settles_ledInv hs.led h6 h7 h8 h9, hs.pos, hs.sum, hs.users, ?_, hs.minBond, fun w => ?_,
        hs.nodup, hs.meNone, hs.small, ?_⟩
      · simp [h2]
      · simp only [upd_apply]
        split
        · rename_i e; subst e; simp [h4]
        · exact hs.dist w
      · simp only
        intro cfg' hc hn
        rw [settles_me h8]
        have := hs.lp cfg' hc hn
        simp only [hne, and_false, if_false]
        split <;> omega
    | withdraw a =>
      simp only [step, bind_ok, ok_inj] at h
      obtain ⟨⟨v, L⟩, hb, rfl⟩ := h
      obtain ⟨rfl, h1⟩ := withdraw_inv hb
      have hst : ∀ b, (upd s.st.info a { s.st.info a with last := c.now } b).stakes = (s.st.info b).stakes ∧
          (upd s.st.info a { s.st.info a with last := c.now } b).total = (s.st.info b).total := by
        intro b; rw [upd_apply]; split
        · rename_i e; subst e; exact ⟨rfl, rfl⟩
        · exact ⟨rfl, rfl⟩
      refine ⟨payLoop_ledInv h1 hs.led, fun b e he => ?_, fun b => ?_, ?_, ?_, hs.minBond, hs.dist, hs.nodup, ?_,
        hs.small, ?_⟩
      · simp only [(hst b).1] at he; exact hs.pos b e he
      · simp only [(hst b).1, (hst b).2]; exact hs.sum b
      · obtain ⟨U, u1, u2⟩ := hs.users
        refine ⟨U, fun b hb => ?_, ?_⟩
        · simp only [(hst b).1]; exact u1 b hb
        · simp only [(hst _).2]; exact u2
      · simp only [(hst _).1]; exact hs.noCfg
      · simp only [(hst _).1]; exact hs.meNone
      · simp only
        intro cfg hc hn
        by_cases e : a = me
        · subst e
          rw [withdraw_self h1]; exact hs.lp cfg hc hn
        · rw [(withdraw_bal e hs.nodup h1 _).1 hn]; exact hs.lp cfg hc hn

theorem exec_invA {me : Addr} {s : Sys} {t : Tx} (ht : Spec.Possible me t) (hs : InvA me s) : InvA me (exec me s t) := by
  unfold exec
  split
  · rename_i s' h; exact step_invA h ht hs
  · exact hs

theorem run_invA {me : Addr} {s : Sys} (ts : List Tx) (ht : ∀ t ∈ ts, Spec.Possible me t) (hs : InvA me s) :
    InvA me (run me s ts) := by
  induction ts generalizing s with
  | nil => exact hs
  | cons t ts ih =>
    exact ih (fun u hu => ht u (List.mem_cons_of_mem _ hu)) (exec_invA (ht t List.mem_cons_self) hs)

theorem genesis_invA {me : Addr} {s : Sys} (h : Spec.Genesis me s) : InvA me s := by
  obtain ⟨h1, h2, h3⟩ := h
  refine ⟨⟨h2, h3⟩, ?_, ?_, ?_, ?_, ?_, ?_, ?_, ?_, ?_, ?_⟩ <;> rw [h1]
  · simp [fresh, noInfo]
  · simp [fresh, noInfo]
  · exact ⟨∅, by simp [fresh, noInfo], by simp [fresh]⟩
  · simp [fresh, noInfo]
  · simp [fresh]
  · simp [fresh]
  · simp [fresh]
  · simp [fresh, noInfo]
  · exact I128_MAX_nonneg
  · simp [fresh]

end Phoenix.Stake
