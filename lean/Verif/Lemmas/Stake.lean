import Verif.Spec.Stake
import Verif.Lemmas.SMap
import Verif.Lemmas.Vesting
import Mathlib.Algebra.BigOperators.Group.Finset.Piecewise
import Mathlib.Algebra.Order.BigOperators.Group.List
/-! The stake contract: inversion of its calls and the reward computation (helpers only). -/
namespace Phoenix.Stake
open Phoenix Phoenix.Spec

theorem getConfig_ok {s : State} {c : Config} : getConfig s = .ok c ↔ s.cfg = some c := by
  unfold getConfig; cases s.cfg <;> simp

theorem rewardHistory_ok {s : State} {t : Addr} {m : SMap} : rewardHistory s t = .ok m ↔ s.rewards t = some m := by
  unfold rewardHistory; cases s.rewards t <;> simp

theorem init_inv {s v : State} {a lp m o : Addr} {mb mr : Int} {mc : Nat}
    (h : init s a lp mb mr m o mc = .ok v) :
    s.cfg = none ∧ 0 < mb ∧ 0 < mr ∧ mc ≠ 0 ∧
      v = { s with cfg := some ⟨lp, mb, mr, m, o, mc⟩, admin := a, total := 0, hist := [] } := by
  unfold init at h
  simp only [bind_ok, req_ok, ok_inj] at h
  obtain ⟨_, h1, _, h2, _, h3, _, h4, rfl⟩ := h
  exact ⟨h1, by omega, by omega, h4, rfl⟩

theorem bond_inv {me : Addr} {c : Ctx} {s v : State} {L L' : Ledger} {a : Addr} {x : Int}
    (h : bond me c s L a x = .ok (v, L')) :
    c.auth a = true ∧ ∃ cfg, s.cfg = some cfg ∧ cfg.minBond ≤ x ∧ 0 ≤ x ∧ x ≤ L.bal cfg.lpToken a ∧
      InI128 ((s.info a).total + x) ∧ InI128 (s.total + x) ∧
      v = { s with info := upd s.info a { s.info a with stakes := (s.info a).stakes ++ [⟨x, c.now⟩],
                                                        total := (s.info a).total + x }, total := s.total + x } ∧
      Settles L L' [⟨cfg.lpToken, a, me, x⟩] ∧ SameRights L L' := by
  unfold bond at h
  simp only [bind_ok, requireAuth_ok, getConfig_ok, req_ok, addI_ok, ok_inj, Prod.mk.injEq] at h
  obtain ⟨_, h1, cfg, h2, _, h3, L1, hL, _, ⟨h4, rfl⟩, _, ⟨h5, rfl⟩, rfl, rfl⟩ := h
  obtain ⟨_, k2, k3, k4, k5⟩ := Ledger.transfer_inv hL
  exact ⟨h1, cfg, h2, by omega, k2, k3, h4, h5, rfl, k4, k5⟩

theorem removeStake_ok {x : Int} {ts : Nat} {l l' : List Entry} (h : removeStake x ts l = .ok l') :
    ∃ p q, l = p ++ ⟨x, ts⟩ :: q ∧ l' = p ++ q ∧ ⟨x, ts⟩ ∉ p := by
  induction l generalizing l' with
  | nil => simp [removeStake] at h
  | cons e l ih =>
    unfold removeStake at h
    split at h
    · rename_i he
      rw [ok_inj] at h
      refine ⟨[], l, ?_, by simp [h], by simp⟩
      obtain ⟨e1, e2⟩ := he
      cases e; simp only at e1 e2; subst e1; subst e2; rfl
    · rename_i he
      simp only [bind_ok, ok_inj] at h
      obtain ⟨l1, h1, rfl⟩ := h
      obtain ⟨p, q, rfl, rfl, hp⟩ := ih h1
      refine ⟨e :: p, q, rfl, rfl, ?_⟩
      intro hm
      rcases List.mem_cons.mp hm with h | h
      · exact he (by rw [← h]; exact ⟨rfl, rfl⟩)
      · exact hp h

theorem removeStake_mem {x : Int} {ts : Nat} {l : List Entry} (h : ⟨x, ts⟩ ∈ l) :
    ∃ l', removeStake x ts l = .ok l' := by
  induction l with
  | nil => simp at h
  | cons e l ih =>
    unfold removeStake
    split
    · exact ⟨l, rfl⟩
    · rename_i he
      rcases List.mem_cons.mp h with h | h
      · exact absurd (by rw [← h]; exact ⟨rfl, rfl⟩) he
      · obtain ⟨l', h1⟩ := ih h
        rw [h1]; exact ⟨_, rfl⟩

theorem unbond_inv {me : Addr} {c : Ctx} {s v : State} {L L' : Ledger} {a : Addr} {x : Int} {ts : Nat}
    (h : unbond me c s L a x ts = .ok (v, L')) :
    c.auth a = true ∧ ∃ cfg p q, s.cfg = some cfg ∧ (s.info a).stakes = p ++ ⟨x, ts⟩ :: q ∧ ⟨x, ts⟩ ∉ p ∧
      0 ≤ x ∧ x ≤ L.bal cfg.lpToken me ∧
      v = { s with info := upd s.info a { s.info a with stakes := p ++ q, total := (s.info a).total - x },
                   total := s.total - x } ∧
      Settles L L' [⟨cfg.lpToken, me, a, x⟩] ∧ SameRights L L' := by
  unfold unbond at h
  simp only [bind_ok, requireAuth_ok, getConfig_ok, subI_ok, ok_inj, Prod.mk.injEq] at h
  obtain ⟨_, h1, cfg, h2, l, h3, _, ⟨h4, rfl⟩, L1, hL, _, ⟨h5, rfl⟩, rfl, rfl⟩ := h
  obtain ⟨p, q, e1, rfl, e3⟩ := removeStake_ok h3
  obtain ⟨_, k2, k3, k4, k5⟩ := Ledger.transfer_inv hL
  exact ⟨h1, cfg, p, q, h2, e1, e3, k2, k3, rfl, k4, k5⟩

theorem createFlow_inv {c : Ctx} {s v : State} {a t : Addr} (h : createFlow c s a t = .ok v) :
    c.auth a = true ∧ ∃ cfg, s.cfg = some cfg ∧ (a = cfg.manager ∨ a = cfg.owner) ∧ t ∉ s.dists ∧
      v = { s with dists := s.dists ++ [t], rewards := upd s.rewards t (some []) } := by
  unfold createFlow at h
  simp only [bind_ok, requireAuth_ok, getConfig_ok, req_ok, ok_inj] at h
  obtain ⟨_, h1, cfg, h2, _, h3, _, h4, rfl⟩ := h
  refine ⟨h1, cfg, h2, ?_, h4, rfl⟩
  by_cases e : a = cfg.manager
  · exact .inl e
  · refine .inr ?_
    by_contra e2
    exact h3 ⟨e, e2⟩

theorem distribute_inv {me : Addr} {c : Ctx} {s v : State} {L L' : Ledger} {a : Addr} {x : Int} {t : Addr}
    (h : distribute me c s L a x t = .ok (v, L')) :
    c.auth a = true ∧ ∃ cfg m, s.cfg = some cfg ∧ (a = cfg.manager ∨ a = cfg.owner) ∧ t ∈ s.dists ∧
      s.rewards t = some m ∧ 0 ≤ x ∧ x ≤ L.bal t a ∧ L.transfer (c.as me) t a me x = .ok L' ∧
      v = { s with hist := s.hist.set c.now (asU128 s.total),
                   rewards := upd s.rewards t (some (m.set c.now (asU128 x))) } ∧
      Settles L L' [⟨t, a, me, x⟩] ∧ SameRights L L' := by
  unfold distribute at h
  simp only [bind_ok, requireAuth_ok, getConfig_ok, req_ok, rewardHistory_ok, ok_inj, Prod.mk.injEq] at h
  obtain ⟨_, h1, cfg, h2, _, h3, _, h4, m, h5, L1, hL, rfl, rfl⟩ := h
  obtain ⟨_, k2, k3, k4, k5⟩ := Ledger.transfer_inv hL
  refine ⟨h1, cfg, m, h2, ?_, h4, h5, k2, k3, hL, rfl, k4, k5⟩
  by_cases e : a = cfg.manager
  · exact .inl e
  · refine .inr ?_
    by_contra e2
    exact h3 ⟨e, e2⟩

theorem transfer_small {c : Ctx} {L L' : Ledger} {t a b : Addr} {x : Int} (h : L.transfer c t a b x = .ok L')
    (hne : b ≠ a) (h0 : 0 ≤ L.bal t b) : x ≤ I128_MAX := by
  obtain ⟨t1, h1, rfl⟩ := Ledger.call_ok.mp h
  obtain ⟨_, _, _, _, h2, _⟩ := Token.transfer_ok.mp h1
  rw [upd_ne _ _ hne] at h2
  have := h2.2
  simp only [Ledger.bal] at h0
  omega

/-- the payments of a withdrawal -/
def pays (me a : Addr) (ps : List (Addr × Int)) : List Flow := ps.map (fun p => ⟨p.1, me, a, p.2⟩)

theorem payLoop_inv {me : Addr} {c : Ctx} {s : State} {a : Addr} {l : List Addr} {L L' : Ledger}
    (h : payLoop me c s a l L = .ok L') :
    ∃ ps : List (Addr × Int), ps.map Prod.fst = l ∧ (∀ p ∈ ps, pending c s p.1 (s.info a) = .ok p.2 ∧ 0 ≤ p.2) ∧
      Settles L L' (pays me a ps) ∧ SameRights L L' := by
  induction l generalizing L with
  | nil =>
    simp only [payLoop, ok_inj] at h; subst h
    exact ⟨[], rfl, by simp, Ledger.settles_nil _, Ledger.sameRights_refl _⟩
  | cons t l ih =>
    simp only [payLoop, bind_ok] at h
    obtain ⟨p, hp, L1, hL, h⟩ := h
    obtain ⟨_, k2, k3, k4, k5⟩ := Ledger.transfer_inv hL
    obtain ⟨ps, e1, e2, e3, e4⟩ := ih h
    refine ⟨(t, p) :: ps, by simp [e1], ?_, Ledger.settles_trans k4 e3, Ledger.sameRights_trans k5 e4⟩
    intro q hq
    rcases List.mem_cons.mp hq with rfl | hq
    · exact ⟨hp, k2⟩
    · exact e2 q hq

theorem payLoop_ledInv {me : Addr} {c : Ctx} {s : State} {a : Addr} {l : List Addr} {L L' : Ledger}
    (h : payLoop me c s a l L = .ok L') (hL : LedInv me L) : LedInv me L' := by
  induction l generalizing L with
  | nil => simp only [payLoop, ok_inj] at h; subst h; exact hL
  | cons t l ih =>
    simp only [payLoop, bind_ok] at h
    obtain ⟨p, _, L1, hL1, h⟩ := h
    obtain ⟨_, k2, k3, k4, k5⟩ := Ledger.transfer_inv hL1
    exact ih h (Vesting.settles_ledInv hL k2 k3 k4 k5)

theorem withdraw_inv {me : Addr} {c : Ctx} {s v : State} {L L' : Ledger} {a : Addr}
    (h : withdraw me c s L a = .ok (v, L')) :
    v = { s with info := upd s.info a { s.info a with last := c.now } } ∧ payLoop me c s a s.dists L = .ok L' := by
  unfold withdraw at h
  simp only [bind_ok, ok_inj, Prod.mk.injEq] at h
  obtain ⟨L1, hL, rfl, rfl⟩ := h
  exact ⟨rfl, hL⟩

/-! the days looked at -/

theorem takeWhile_sorted {l : List Nat} (h : l.Pairwise (· < ·)) (n : Nat) :
    l.takeWhile (fun d => decide (d ≤ n)) = l.filter (fun d => decide (d ≤ n)) := by
  induction l with
  | nil => rfl
  | cons k l ih =>
    have h1 := (List.pairwise_cons.mp h).1
    by_cases hk : k ≤ n
    · simp [List.takeWhile_cons, List.filter_cons, hk, ih (List.pairwise_cons.mp h).2]
    · have : l.filter (fun d => decide (d ≤ n)) = [] := by
        rw [List.filter_eq_nil_iff]
        intro d hd
        have := h1 d hd
        simp only [decide_eq_true_eq]; omega
      simp [List.takeWhile_cons, List.filter_cons, hk, this]

theorem relevant_sorted {l : List Nat} (h : l.Pairwise (· < ·)) (last now : Nat) :
    relevant l last now = l.filter (fun d => decide (last < d ∧ d ≤ now)) := by
  unfold relevant
  induction l with
  | nil => rfl
  | cons k l ih =>
    have h1 := (List.pairwise_cons.mp h).1
    have h2 := (List.pairwise_cons.mp h).2
    by_cases hk : last < k
    · simp only [List.find?_cons, hk, decide_true]
      have e : (k :: l).dropWhile (fun d => decide (d < k)) = k :: l := by simp [List.dropWhile_cons]
      rw [e, takeWhile_sorted h]
      apply List.filter_congr
      intro d hd
      have : last < d := by
        rcases List.mem_cons.mp hd with rfl | hd
        · exact hk
        · exact lt_trans hk (h1 d hd)
      simp [this]
    · have ih := ih h2
      have e : (k :: l).filter (fun d => decide (last < d ∧ d ≤ now)) =
          l.filter (fun d => decide (last < d ∧ d ≤ now)) := by simp [List.filter_cons, hk]
      rw [e, ← ih]
      simp only [List.find?_cons, hk, decide_false]
      cases hf : l.find? (fun d => decide (last < d)) with
      | none => rfl
      | some f =>
        have hm := List.mem_of_find?_eq_some hf
        have := h1 f hm
        simp [List.dropWhile_cons, this]

/-! one reward -/

theorem multiplier_val (d : Nat) : multiplier d = .ok ((min d 60 : Nat) * 10 ^ 18 / 60 : Int) := by
  unfold multiplier
  split
  · rename_i h
    rw [Nat.min_eq_right h]; rfl
  · rename_i h
    rw [Nat.min_eq_left (by omega)]
    rw [Dec.fromRatio_ok]
    have h0 : (0:Int) ≤ d * Dec.ONE := by simp only [Dec.ONE]; omega
    rw [tdiv_nonneg_eq h0]
    have h1 : (d : Int) * Dec.ONE / 60 ≤ d * Dec.ONE := by
      apply Int.ediv_le_self; exact h0
    have h2 : 0 ≤ (d : Int) * Dec.ONE / 60 := Int.ediv_nonneg h0 (by decide)
    refine ⟨by decide, ?_, ?_, by simp only [Dec.ONE]; norm_num⟩ <;>
      (simp only [InI128, I128_MIN, I128_MAX, Dec.ONE] at *; omega)

/-- the factor never exceeds one -/
theorem factor_le (d : Nat) : (0:Int) ≤ (min d 60 : Nat) * 10 ^ 18 / 60 ∧ ((min d 60 : Nat) * 10 ^ 18 / 60 : Int) ≤ 10 ^ 18 := by
  have h : min d 60 ≤ 60 := Nat.min_le_right _ _
  generalize min d 60 = k at *
  omega

theorem reward_nonneg {x R T : Int} (hx : 0 ≤ x) (hR : 0 ≤ R) (hT : 0 ≤ T) (day ts : Nat) :
    0 ≤ Spec.reward x R T day ts := by
  unfold Spec.reward
  apply Int.ediv_nonneg _ (by norm_num)
  exact mul_nonneg (Int.ediv_nonneg (mul_nonneg hx hR) hT) (factor_le _).1

theorem reward_le {x R T : Int} (hx : 0 ≤ x) (hR : 0 ≤ R) (hT : 0 ≤ T) (day ts : Nat) :
    Spec.reward x R T day ts ≤ x * R / T := by
  unfold Spec.reward
  have h0 : 0 ≤ x * R / T := Int.ediv_nonneg (mul_nonneg hx hR) hT
  obtain ⟨f0, f1⟩ := factor_le ((day - ts) / 86400)
  calc _ ≤ x * R / T * 10 ^ 18 / 10 ^ 18 :=
        Int.ediv_le_ediv (by norm_num) (mul_le_mul_of_nonneg_left f1 h0)
    _ = x * R / T := Int.mul_ediv_cancel _ (by norm_num)

/-- a stake made at the time of the distribution (or less than a day before) earns nothing -/
theorem reward_zero {x R T : Int} {day ts : Nat} (h : day ≤ ts) : Spec.reward x R T day ts = 0 := by
  unfold Spec.reward
  have : day - ts = 0 := by omega
  rw [this]; simp

theorem stakeReward_val {day R T : Nat} {e : Entry} {y : Int} (he : 0 ≤ e.amount) (he2 : e.amount ≤ I128_MAX)
    (hT : 0 < T) (hs : e.ts < day → e.amount * R / T ≤ I128_MAX) (h : stakeReward day R T e = .ok y) :
    e.ts ≤ day ∧ y = Spec.reward e.amount R T day e.ts := by
  unfold stakeReward at h
  simp only [bind_ok, mul128_ok, divU_ok, subU_ok, multiplier_val, ok_inj] at h
  obtain ⟨_, ⟨h1, rfl⟩, _, ⟨_, rfl⟩, _, ⟨h2, rfl⟩, _, rfl, h3⟩ := h
  refine ⟨h2, ?_⟩
  rcases Nat.lt_or_ge e.ts day with hlt | hge
  · have hs := hs hlt
    have hc := asU128_nonneg he he2
    have hsh : ((asU128 e.amount * R / T : Nat) : Int) = e.amount * R / T := by push_cast; rw [hc]
    have := Dec.mulInt_val h3
    rw [asI128_small (by rw [hsh]; exact hs), hsh] at this
    rw [this, tdiv_nonneg_eq]
    · rfl
    · exact mul_nonneg (Int.ediv_nonneg (mul_nonneg he (by omega)) (by omega)) (factor_le _).1
  · rw [reward_zero hge]
    have : day - e.ts = 0 := by omega
    rw [this] at h3
    have := Dec.mulInt_val h3
    simpa using this

theorem stakeReward_succeeds {day R T : Nat} {e : Entry} (he : 0 ≤ e.amount) (he2 : e.amount ≤ I128_MAX)
    (hT : 0 < T) (hts : e.ts ≤ day) (h1 : e.amount * R < U128_LIM)
    (h2 : e.ts < day → e.amount * R / T * 10 ^ 18 ≤ I128_MAX) : ∃ y, stakeReward day R T e = .ok y := by
  have hc := asU128_nonneg he he2
  unfold stakeReward
  have k1 : mul128 (asU128 e.amount) R = .ok (asU128 e.amount * R) := by
    rw [mul128_ok]
    refine ⟨?_, rfl⟩
    have : ((asU128 e.amount * R : Nat) : Int) < U128_LIM := by push_cast; rw [hc]; exact h1
    exact_mod_cast this
  have k2 : divU (asU128 e.amount * R) T = .ok (asU128 e.amount * R / T) := by rw [divU_ok]; exact ⟨by omega, rfl⟩
  have k3 : subU day e.ts = .ok (day - e.ts) := by rw [subU_ok]; exact ⟨hts, rfl⟩
  simp only [k1, k2, k3, bind, Except.bind, multiplier_val]
  unfold Dec.mulInt
  split
  · exact ⟨_, rfl⟩
  · rename_i hne
    push Not at hne
    have hlt : e.ts < day := by
      rcases Nat.lt_or_ge e.ts day with h | h
      · exact h
      · have : day - e.ts = 0 := by omega
        exact absurd (by rw [this]; simp) hne.2
    have h2 := h2 hlt
    have hsh : ((asU128 e.amount * R / T : Nat) : Int) = e.amount * R / T := by push_cast; rw [hc]
    obtain ⟨f0, f1⟩ := factor_le ((day - e.ts) / 86400)
    generalize ((min ((day - e.ts) / 86400) 60 : Nat) * 10 ^ 18 / 60 : Int) = f at *
    have hq0 : 0 ≤ e.amount * R / T := Int.ediv_nonneg (mul_nonneg he (by omega)) (by omega)
    rw [asI128_small (by rw [hsh]; omega), hsh]
    generalize e.amount * (R:Int) / T = q at *
    have hqf : q * f ≤ q * 10 ^ 18 := mul_le_mul_of_nonneg_left f1 hq0
    have hqf0 : 0 ≤ q * f := mul_nonneg hq0 f0
    have e1 : mulI q f = .ok (q * f) := by
      rw [mulI_ok]; refine ⟨⟨?_, ?_⟩, rfl⟩
      · simp only [I128_MIN]; omega
      · omega
    rw [e1]
    have hd : q * f / Dec.ONE ≤ q * f := Int.ediv_le_self _ hqf0
    have hd0 : 0 ≤ q * f / Dec.ONE := Int.ediv_nonneg hqf0 (by decide)
    refine ⟨(q * f).tdiv Dec.ONE, ?_⟩
    show divI (q * f) Dec.ONE = _
    rw [divI_ok]
    refine ⟨by decide, ?_, rfl⟩
    rw [tdiv_nonneg_eq hqf0]
    exact ⟨by simp only [I128_MIN]; omega, by omega⟩

/-! the loops -/

theorem stakesLoop_val {day R T : Nat} {l : List Entry} {acc y : Int} (hT : 0 < T)
    (he : ∀ e ∈ l, 0 ≤ e.amount ∧ e.amount ≤ I128_MAX)
    (hs : ∀ e ∈ l, e.ts < day → e.amount * R / T ≤ I128_MAX) (h : stakesLoop day R T l acc = .ok y) :
    (∀ e ∈ l, e.ts ≤ day) ∧ y = acc + (l.map (fun e => Spec.reward e.amount R T day e.ts)).sum := by
  induction l generalizing acc with
  | nil => simp only [stakesLoop, ok_inj] at h; simp [h]
  | cons e l ih =>
    simp only [stakesLoop, bind_ok, addI_ok] at h
    obtain ⟨r, hr, _, ⟨_, rfl⟩, h⟩ := h
    obtain ⟨h1, h2⟩ := he e List.mem_cons_self
    obtain ⟨k1, rfl⟩ := stakeReward_val h1 h2 hT (hs e List.mem_cons_self) hr
    obtain ⟨j1, j2⟩ := ih (fun x hx => he x (List.mem_cons_of_mem _ hx))
      (fun x hx => hs x (List.mem_cons_of_mem _ hx)) h
    refine ⟨fun x hx => ?_, by rw [j2]; simp only [List.map_cons, List.sum_cons]; ring⟩
    rcases List.mem_cons.mp hx with rfl | hx
    · exact k1
    · exact j1 x hx

/-- reward of a list of stakes for the recorded distribution `p = (day, amount)` -/
def payFor (h : SMap) (stakes : List Entry) (p : Nat × Nat) : Int :=
  match h.get p.1 with
  | some T => Spec.earnedFor stakes ⟨p.1, p.2, T⟩
  | none => 0

/-- shares fit in an i128 -/
structure Fine (m h : SMap) (stakes : List Entry) : Prop where
  amt : ∀ e ∈ stakes, 0 ≤ e.amount ∧ e.amount ≤ I128_MAX
  share : ∀ d R T, (d, R) ∈ m → h.get d = some T → 0 < T → ∀ e ∈ stakes, e.ts < d → e.amount * R / T ≤ I128_MAX

/-- the recorded distributions looked at -/
def looked (m : SMap) (last now : Nat) : SMap := m.filter (fun p => decide (last < p.1 ∧ p.1 ≤ now))

theorem keys_looked (m : SMap) (hs : m.Sorted) (last now : Nat) :
    relevant m.keys last now = (looked m last now).map Prod.fst := by
  rw [relevant_sorted (SMap.keys_sorted hs)]
  unfold SMap.keys looked
  rw [List.filter_map]
  rfl

theorem dayReward_val {m h : SMap} {stakes : List Entry} {d R : Nat} {acc y : Int} (hs : m.Sorted)
    (hf : Fine m h stakes) (hd : (d, R) ∈ m) (hy : dayReward m h stakes d acc = .ok y) :
    y = acc + payFor h stakes (d, R) ∧ ∀ T, h.get d = some T → 0 < T → ∀ e ∈ stakes, e.ts ≤ d := by
  unfold dayReward at hy
  rw [(SMap.get_eq_some hs).mpr hd] at hy
  unfold payFor
  cases hT : h.get d with
  | none =>
    rw [hT] at hy; simp only [ok_inj] at hy; subst hy
    exact ⟨by simp, fun T e => by cases e⟩
  | some T =>
    rw [hT] at hy
    simp only at hy
    split at hy
    · rename_i hpos
      obtain ⟨h1, h2⟩ := stakesLoop_val hpos hf.amt (hf.share d R T hd hT hpos) hy
      refine ⟨?_, fun T' e hp => h1⟩
      simp only [Spec.earnedFor]
      rw [if_neg (by omega)]; exact h2
    · rename_i h0
      rw [ok_inj] at hy; subst hy
      refine ⟨?_, fun T' e hp => by cases e; exact absurd hp h0⟩
      simp only [Spec.earnedFor]
      rw [if_pos (by omega), add_zero]

theorem daysLoop_val {m h : SMap} {stakes : List Entry} {l : SMap} {acc y : Int} (hs : m.Sorted)
    (hf : Fine m h stakes) (hl : ∀ p ∈ l, p ∈ m) (hy : daysLoop m h stakes (l.map Prod.fst) acc = .ok y) :
    y = acc + (l.map (payFor h stakes)).sum ∧
      ∀ p ∈ l, ∀ T, h.get p.1 = some T → 0 < T → ∀ e ∈ stakes, e.ts ≤ p.1 := by
  induction l generalizing acc with
  | nil => simp only [List.map_nil, daysLoop, ok_inj] at hy; simp [hy]
  | cons p l ih =>
    obtain ⟨d, R⟩ := p
    simp only [List.map_cons, daysLoop, bind_ok] at hy
    obtain ⟨a1, h1, hy⟩ := hy
    obtain ⟨e1, e2⟩ := dayReward_val hs hf (hl _ List.mem_cons_self) h1
    obtain ⟨j1, j2⟩ := ih (fun q hq => hl q (List.mem_cons_of_mem _ hq)) hy
    refine ⟨by rw [j1, e1]; simp only [List.map_cons, List.sum_cons]; ring, fun q hq => ?_⟩
    rcases List.mem_cons.mp hq with rfl | hq
    · exact e2
    · exact j2 q hq

theorem pending_val {c : Ctx} {s : State} {tok : Addr} {i : Info} {m : SMap} {y : Int}
    (hm : s.rewards tok = some m) (hs : m.Sorted) (hf : Fine m s.hist i.stakes) (h : pending c s tok i = .ok y) :
    y = ((looked m i.last c.now).map (payFor s.hist i.stakes)).sum ∧
      ∀ p ∈ looked m i.last c.now, ∀ T, s.hist.get p.1 = some T → 0 < T → ∀ e ∈ i.stakes, e.ts ≤ p.1 := by
  unfold pending at h
  simp only [bind_ok, rewardHistory_ok] at h
  obtain ⟨m', hm', h⟩ := h
  rw [hm] at hm'; cases hm'
  rw [keys_looked m hs] at h
  have := daysLoop_val hs hf (fun p hp => List.mem_of_mem_filter hp) h
  rwa [zero_add] at this

theorem stakesLoop_succeeds {day R T : Nat} {l : List Entry} {acc : Int} (hT : 0 < T)
    (he : ∀ e ∈ l, 0 ≤ e.amount ∧ e.amount ≤ I128_MAX) (hts : ∀ e ∈ l, e.ts ≤ day)
    (h1 : ∀ e ∈ l, e.amount * R < U128_LIM)
    (h2 : ∀ e ∈ l, e.ts < day → e.amount * R / T * 10 ^ 18 ≤ I128_MAX) (hacc : 0 ≤ acc)
    (hb : acc + (l.map (fun e => Spec.reward e.amount R T day e.ts)).sum ≤ I128_MAX) :
    ∃ y, stakesLoop day R T l acc = .ok y := by
  induction l generalizing acc with
  | nil => exact ⟨acc, rfl⟩
  | cons e l ih =>
    obtain ⟨k1, k2⟩ := he e List.mem_cons_self
    have h2e := h2 e List.mem_cons_self
    obtain ⟨r, hr⟩ := stakeReward_succeeds k1 k2 hT (hts e List.mem_cons_self) (h1 e List.mem_cons_self) h2e
    have hq : e.ts < day → e.amount * R / T ≤ I128_MAX := fun h => by
      have := h2e h
      have h0 : 0 ≤ e.amount * R / T := Int.ediv_nonneg (mul_nonneg k1 (by omega)) (by omega)
      omega
    obtain ⟨_, rfl⟩ := stakeReward_val k1 k2 hT hq hr
    have hl : ∀ x ∈ l, x ∈ e :: l := fun x hx => List.mem_cons_of_mem _ hx
    have hnn : 0 ≤ (l.map (fun e => Spec.reward e.amount R T day e.ts)).sum := by
      apply List.sum_nonneg
      intro z hz
      obtain ⟨x, hx, rfl⟩ := List.mem_map.mp hz
      exact reward_nonneg (he x (hl x hx)).1 (by omega) (by omega) _ _
    have hr0 := reward_nonneg (R := R) (T := T) k1 (by omega) (by omega) day e.ts
    simp only [List.map_cons, List.sum_cons] at hb
    obtain ⟨y, hy⟩ := ih (acc := acc + Spec.reward e.amount R T day e.ts) (fun x hx => he x (hl x hx))
      (fun x hx => hts x (hl x hx)) (fun x hx => h1 x (hl x hx)) (fun x hx => h2 x (hl x hx)) (by omega) (by omega)
    refine ⟨y, ?_⟩
    simp only [stakesLoop]
    rw [hr]
    show (addI _ _ >>= _) = _
    rw [bind_ok]
    refine ⟨_, addI_ok.mpr ⟨⟨?_, ?_⟩, rfl⟩, hy⟩
    · simp only [I128_MIN]; omega
    · omega

end Phoenix.Stake
