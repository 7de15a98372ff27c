import Verif.Spec.More
import Verif.Props.Stayer
/-!
Property C155: what staking more does to one's own rewards and to the rewards of others.
-/
namespace Phoenix.Props.More
open Phoenix Phoenix.Stake Phoenix.Stake.Spec

/-! ### one distribution -/

/-- With more staked in total, the reward of a stake is not larger. -/
theorem reward_le {a R T x : Int} {day ts : Nat} (a0 : 0 ≤ a) (R0 : 0 ≤ R) (T0 : 0 < T) (x0 : 0 ≤ x) :
    reward a R (T + x) day ts ≤ reward a R T day ts := by
  unfold reward
  apply Int.ediv_le_ediv (by norm_num)
  apply mul_le_mul_of_nonneg_right
  · have hp : 0 ≤ a * R := mul_nonneg a0 R0
    have h1 : 0 ≤ a * R / (T + x) := Int.ediv_nonneg hp (by omega)
    rw [Int.le_ediv_iff_mul_le T0]
    have h2 := Int.ediv_mul_le (a * R) (show T + x ≠ 0 by omega)
    nlinarith
  · positivity

/-- At the age of 60 days a stake earns its full share. -/
theorem reward_ripe {a R T : Int} {day ts : Nat} (h : ts + 60 * 86400 ≤ day) : reward a R T day ts = a * R / T := by
  unfold reward
  have e : min ((day - ts) / 86400) 60 = 60 := by omega
  rw [e]
  have e2 : (((60 : Nat) : Int) * 10 ^ 18 / 60) = 10 ^ 18 := by norm_num
  rw [e2]
  exact Int.mul_ediv_cancel _ (by norm_num)

theorem earned_le {l : List Entry} {d : Dist} {x : Int} (hl : ∀ e ∈ l, 0 < e.amount) (R0 : 0 ≤ d.amount)
    (T0 : (l.map Entry.amount).sum ≤ d.staked) (x0 : 0 ≤ x) :
    earnedFor l { d with staked := d.staked + x } ≤ earnedFor l d := by
  cases l with
  | nil => simp [earnedFor]
  | cons e l =>
    have hT : 0 < d.staked := by
      have h1 := hl e (by simp)
      have h2 : 0 ≤ (l.map Entry.amount).sum := List.sum_nonneg (fun z hz => by
        obtain ⟨e', he', rfl⟩ := List.mem_map.mp hz
        exact (hl e' (by simp [he'])).le)
      simp only [List.map_cons, List.sum_cons] at T0
      omega
    unfold earnedFor
    rw [if_neg (by simp only; omega), if_neg (by omega)]
    apply List.sum_le_sum
    intro e' he'
    exact reward_le (hl e' he').le R0 hT x0

theorem sum_upper {R T : Int} (T0 : 0 < T) : ∀ l : List Entry,
    (l.map (fun e => e.amount * R / T)).sum * T ≤ (l.map Entry.amount).sum * R
  | [] => by simp
  | e :: l => by
    have ih := sum_upper T0 l (R := R)
    have h := Int.ediv_mul_le (e.amount * R) (show T ≠ 0 by omega)
    simp only [List.map_cons, List.sum_cons, add_mul]
    omega

theorem sum_lower {R T : Int} (T0 : 0 < T) : ∀ l : List Entry,
    (l.map Entry.amount).sum * R - l.length * (T - 1) ≤ (l.map (fun e => e.amount * R / T)).sum * T
  | [] => by simp
  | e :: l => by
    have ih := sum_lower T0 l (R := R)
    have h := Int.lt_ediv_add_one_mul_self (e.amount * R) T0
    simp only [List.map_cons, List.sum_cons, add_mul, List.length_cons, Nat.cast_add, Nat.cast_one, one_mul] at *
    omega

/-- All stakes ripe: a further stake costs at most a unit per older stake. -/
theorem earned_ripe {l l' : List Entry} {d : Dist} {x : Int} {u : Nat} (hl : ∀ e ∈ l, 0 < e.amount) (R0 : 0 ≤ d.amount)
    (T0 : (l.map Entry.amount).sum ≤ d.staked) (x0 : 0 < x) (hp : l'.Perm (⟨x, u⟩ :: l))
    (hr : ∀ e ∈ l', e.ts + 60 * 86400 ≤ d.time) :
    earnedFor l d ≤ earnedFor l' { d with staked := d.staked + x } + l.length := by
  have hr' : ∀ e ∈ (⟨x, u⟩ :: l : List Entry), e.ts + 60 * 86400 ≤ d.time := fun e he => hr e (hp.mem_iff.mpr he)
  have h2 : 0 ≤ (l.map Entry.amount).sum := List.sum_nonneg (fun z hz => by
    obtain ⟨e', he', rfl⟩ := List.mem_map.mp hz
    exact (hl e' he').le)
  have e1 : earnedFor l' { d with staked := d.staked + x } =
      ((⟨x, u⟩ :: l : List Entry).map (fun e => e.amount * d.amount / (d.staked + x))).sum := by
    unfold earnedFor
    rw [if_neg (by simp only; omega), (hp.map _).sum_eq]
    congr 1
    apply List.map_congr_left
    intro e he
    exact reward_ripe (hr' e he)
  rw [e1]
  have h3 := sum_lower (R := d.amount) (show 0 < d.staked + x by omega) (⟨x, u⟩ :: l)
  by_cases hT : d.staked = 0
  · have : earnedFor l d = 0 := by simp [earnedFor, hT]
    rw [this]
    have h4 : 0 ≤ ((⟨x, u⟩ :: l : List Entry).map (fun e => e.amount * d.amount / (d.staked + x))).sum := by
      apply List.sum_nonneg
      intro z hz
      obtain ⟨e', he', rfl⟩ := List.mem_map.mp hz
      apply Int.ediv_nonneg _ (by omega)
      apply mul_nonneg _ R0
      rcases List.mem_cons.mp he' with rfl | h
      · exact x0.le
      · exact (hl e' h).le
    omega
  · have hTp : 0 < d.staked := by omega
    have e2 : earnedFor l d = (l.map (fun e => e.amount * d.amount / d.staked)).sum := by
      unfold earnedFor
      rw [if_neg hT]
      congr 1
      apply List.map_congr_left
      intro e he
      exact reward_ripe (hr' e (by simp [he]))
    rw [e2]
    have h5 := sum_upper (R := d.amount) hTp l
    generalize (l.map (fun e => e.amount * d.amount / d.staked)).sum = P at *
    generalize ((⟨x, u⟩ :: l : List Entry).map (fun e => e.amount * d.amount / (d.staked + x))).sum = Q at *
    simp only [List.map_cons, List.sum_cons, List.length_cons, Nat.cast_add, Nat.cast_one] at h3
    generalize (l.map Entry.amount).sum = S at *
    have h11 : 0 ≤ (l.length : Int) := Int.natCast_nonneg _
    generalize (l.length : Int) = n at *
    generalize d.staked = T at *
    generalize d.amount = R at *
    by_contra hn
    have h6 : Q + n + 1 ≤ P := by omega
    have h7 := mul_le_mul_of_nonneg_left h6 (mul_nonneg hTp.le (show 0 ≤ T + x by omega))
    have h8 := mul_le_mul_of_nonneg_right h5 (show 0 ≤ T + x by omega)
    have h9 := mul_le_mul_of_nonneg_left h3 hTp.le
    have h10 := mul_nonneg (mul_nonneg R0 x0.le) (show 0 ≤ T - S by omega)
    have h12 := mul_nonneg hTp.le h11
    nlinarith

/-! ### histories -/

/-- The states after corresponding parts of the two histories. -/
structure Extra (x : Int) (u : Nat) (A : Addr) (s s' : Sys) : Prop where
  cfg : s'.st.cfg = s.st.cfg
  some : s.st.cfg ≠ none
  total : s'.st.total = s.st.total + x
  others : ∀ b, b ≠ A → (s'.st.info b).stakes = (s.st.info b).stakes
  mine : (s'.st.info A).stakes.Perm (⟨x, u⟩ :: (s.st.info A).stakes)

theorem removed {z e : Entry} {l l' p q p' q' : List Entry} (h : l'.Perm (e :: l)) (h1 : l = p ++ z :: q) (h2 : l' = p' ++ z :: q') :
    (p' ++ q').Perm (e :: (p ++ q)) := by
  subst h1 h2
  have a : (z :: (p' ++ q')).Perm (z :: e :: (p ++ q)) :=
    List.perm_middle.symm.trans (h.trans ((List.Perm.cons e List.perm_middle).trans (List.Perm.swap z e _)))
  exact (List.perm_cons z).mp a

theorem step_extra {me : Addr} {x : Int} {u : Nat} {A : Addr} {s s' r r' : Sys} {t : Tx} (h : Extra x u A s s')
    (h1 : step me s t = .ok r) (h2 : step me s' t = .ok r') : Extra x u A r r' := by
  cases t with
  | token c tok op =>
    simp only [step, bind_ok, ok_inj] at h1 h2
    obtain ⟨_, _, rfl⟩ := h1
    obtain ⟨_, _, rfl⟩ := h2
    exact ⟨h.cfg, h.some, h.total, h.others, h.mine⟩
  | stake c k =>
    cases k with
    | init a lp mb mr m o mc =>
      simp only [step, bind_ok, ok_inj, init, req_ok] at h1
      obtain ⟨_, ⟨_, hn, _⟩, _⟩ := h1
      exact absurd hn h.some
    | bond b y =>
      simp only [step, bind_ok, ok_inj, Prod.exists] at h1 h2
      obtain ⟨v, L, k1, rfl⟩ := h1
      obtain ⟨v', L', k2, rfl⟩ := h2
      obtain ⟨-, _, -, -, -, -, -, -, rfl, -⟩ := bond_inv k1
      obtain ⟨-, _, -, -, -, -, -, -, rfl, -⟩ := bond_inv k2
      refine ⟨h.cfg, h.some, ?_, fun d hd => ?_, ?_⟩
      · simp only [h.total]; omega
      · by_cases e : d = b
        · subst e; simp [upd_same, h.others d hd]
        · simp [upd_ne _ _ e, h.others d hd]
      · by_cases e : A = b
        · subst e
          simp only [upd_same]
          exact h.mine.append_right [⟨y, c.now⟩]
        · simp only [upd_ne _ _ e]
          exact h.mine
    | unbond b y ts =>
      simp only [step, bind_ok, ok_inj, Prod.exists] at h1 h2
      obtain ⟨v, L, k1, rfl⟩ := h1
      obtain ⟨v', L', k2, rfl⟩ := h2
      obtain ⟨-, _, p, q, -, e1, n1, -, -, rfl, -⟩ := unbond_inv k1
      obtain ⟨-, _, p', q', -, e2, n2, -, -, rfl, -⟩ := unbond_inv k2
      refine ⟨h.cfg, h.some, ?_, fun d hd => ?_, ?_⟩
      · simp only [h.total]; omega
      · by_cases e : d = b
        · subst e
          rw [h.others d hd, e1] at e2
          simp only [upd_same]
          have hpq : p = p' ∧ q = q' := by
            clear k1 k2 e1
            induction p generalizing p' with
            | nil =>
              cases p' with
              | nil => simpa using e2
              | cons z p' => simp only [List.nil_append, List.cons_append, List.cons.injEq] at e2; exact absurd (by simp [e2.1]) n2
            | cons z p ih =>
              cases p' with
              | nil => simp only [List.nil_append, List.cons_append, List.cons.injEq] at e2; exact absurd (by simp [e2.1]) n1
              | cons z' p' =>
                simp only [List.cons_append, List.cons.injEq] at e2
                obtain ⟨a, b⟩ := ih (fun h => n1 (by simp [h])) p' (fun h => n2 (by simp [h])) e2.2
                exact ⟨by rw [e2.1, a], b⟩
          rw [hpq.1, hpq.2]
        · simp [upd_ne _ _ e, h.others d hd]
      · by_cases e : A = b
        · subst e
          simp only [upd_same]
          exact removed h.mine e1 e2
        · simp only [upd_ne _ _ e]
          exact h.mine
    | createFlow b y =>
      simp only [step, bind_ok, ok_inj] at h1 h2
      obtain ⟨v, k1, rfl⟩ := h1
      obtain ⟨v', k2, rfl⟩ := h2
      obtain ⟨-, _, -, -, -, rfl⟩ := createFlow_inv k1
      obtain ⟨-, _, -, -, -, rfl⟩ := createFlow_inv k2
      exact ⟨h.cfg, h.some, h.total, h.others, h.mine⟩
    | distribute b y tok =>
      simp only [step, bind_ok, ok_inj, Prod.exists] at h1 h2
      obtain ⟨v, L, k1, rfl⟩ := h1
      obtain ⟨v', L', k2, rfl⟩ := h2
      obtain ⟨-, _, _, -, -, -, -, -, -, -, rfl, -⟩ := distribute_inv k1
      obtain ⟨-, _, _, -, -, -, -, -, -, -, rfl, -⟩ := distribute_inv k2
      exact ⟨h.cfg, h.some, h.total, h.others, h.mine⟩
    | withdraw b =>
      simp only [step, bind_ok, ok_inj, Prod.exists] at h1 h2
      obtain ⟨v, L, k1, rfl⟩ := h1
      obtain ⟨v', L', k2, rfl⟩ := h2
      obtain ⟨rfl, -⟩ := Stake.withdraw_inv k1
      obtain ⟨rfl, -⟩ := Stake.withdraw_inv k2
      refine ⟨h.cfg, h.some, h.total, fun d hd => ?_, ?_⟩
      · by_cases e : d = b
        · subst e; simp [upd_same, h.others d hd]
        · simp [upd_ne _ _ e, h.others d hd]
      · by_cases e : A = b
        · subst e
          simp only [upd_same]
          exact h.mine
        · simp only [upd_ne _ _ e]
          exact h.mine

theorem exec_extra {me : Addr} {x : Int} {u : Nat} {A : Addr} {s s' : Sys} {t : Tx} (h : Extra x u A s s')
    (hf : succeeds me s t = succeeds me s' t) : Extra x u A (exec me s t) (exec me s' t) := by
  unfold exec
  unfold Stake.Spec.succeeds at hf
  cases h1 : step me s t with
  | ok r =>
    cases h2 : step me s' t with
    | ok r' => exact step_extra h h1 h2
    | error e => rw [h1, h2] at hf; simp [Except.toOption] at hf
  | error e =>
    cases h2 : step me s' t with
    | ok r' => rw [h1, h2] at hf; simp [Except.toOption] at hf
    | error e => exact h

/-- The distributions of the two histories are the same but for the total staked. -/
theorem distOf_extra {me tok : Addr} {x : Int} {u : Nat} {A : Addr} {s s' : Sys} {t : Tx} (h : Extra x u A s s')
    (hf : succeeds me s t = succeeds me s' t) :
    distOf me s' tok t = (distOf me s tok t).map (fun d => { d with staked := d.staked + x }) ∧
      ∀ d ∈ distOf me s tok t, 0 ≤ d.amount ∧ d.staked = s.st.total := by
  cases t with
  | token => simp [distOf]
  | stake c k =>
    cases k with
    | distribute b y v =>
      simp only [distOf]
      rw [← hf]
      split
      · rename_i hs
        refine ⟨by simp [h.total], fun d hd => ?_⟩
        rw [List.mem_singleton.mp hd]
        refine ⟨?_, rfl⟩
        have := hs.2
        unfold Stake.Spec.succeeds at this
        cases h1 : step me s (.stake c (.distribute b y v)) with
        | error e => rw [h1] at this; simp [Except.toOption] at this
        | ok r =>
          simp only [step, bind_ok, ok_inj, Prod.exists] at h1
          obtain ⟨v, L, k1, rfl⟩ := h1
          obtain ⟨-, _, _, -, -, -, -, k, -⟩ := distribute_inv k1
          exact k
      · simp
    | _ => simp [distOf]

theorem staked_le {me : Addr} {s : Sys} (hs : InvA me s) (a : Addr) : ((s.st.info a).stakes.map Entry.amount).sum ≤ s.st.total := by
  rw [← hs.sum]
  exact hs.one_le a

theorem others_le {me : Addr} {x : Int} {u : Nat} {A B tok : Addr} (hB : B ≠ A) (x0 : 0 ≤ x) : ∀ (us : List Tx) {s s' : Sys},
    InvA me s → (∀ t ∈ us, Stake.Spec.Possible me t) → Extra x u A s s' → SameFate me s s' us →
    earnedBy me s' tok B us ≤ earnedBy me s tok B us
  | [], _, _, _, _, _, _ => le_refl _
  | t :: us, s, s', hs, hp, h, hf => by
    have ih := others_le (tok := tok) hB x0 us (exec_invA (hp t (by simp)) hs) (fun t ht => hp t (by simp [ht])) (exec_extra h hf.1) hf.2
    obtain ⟨e, hd⟩ := distOf_extra (tok := tok) h hf.1
    have hst : stakesOf s' B = stakesOf s B := h.others B hB
    simp only [earnedBy, e, hst, List.map_map]
    apply add_le_add _ ih
    apply List.sum_le_sum
    intro d hdm
    obtain ⟨d0, d1⟩ := hd d hdm
    exact earned_le (hs.pos B) d0 (by rw [d1]; exact staked_le hs B) x0

theorem ripe_ge {me : Addr} {x : Int} {u : Nat} {A tok : Addr} (x0 : 0 < x) : ∀ (us : List Tx) {s s' : Sys},
    InvA me s → (∀ t ∈ us, Stake.Spec.Possible me t) → Extra x u A s s' → SameFate me s s' us → Ripe me tok A s' us →
    earnedBy me s tok A us ≤ earnedBy me s' tok A us + shares me tok A s us
  | [], _, _, _, _, _, _, _ => by simp [earnedBy, shares]
  | t :: us, s, s', hs, hp, h, hf, hr => by
    have ih := ripe_ge (tok := tok) x0 us (exec_invA (hp t (by simp)) hs) (fun t ht => hp t (by simp [ht])) (exec_extra h hf.1) hf.2 hr.2
    obtain ⟨e, hd⟩ := distOf_extra (tok := tok) h hf.1
    have hr1 := hr.1
    rw [e] at hr1
    have key : ∀ l : List Dist, (∀ d ∈ l, 0 ≤ d.amount ∧ d.staked = s.st.total) →
        (∀ d ∈ l.map (fun d => { d with staked := d.staked + x }), ∀ e ∈ stakesOf s' A, e.ts + 60 * 86400 ≤ d.time) →
        (l.map (earnedFor (stakesOf s A))).sum ≤
          ((l.map (fun d => { d with staked := d.staked + x })).map (earnedFor (stakesOf s' A))).sum +
            ((l.length * (stakesOf s A).length : Nat) : Int) := by
      intro l
      induction l with
      | nil => simp
      | cons d l ihl =>
        intro h1 h2
        have := ihl (fun d hd => h1 d (by simp [hd])) (fun d hd => h2 d (by simp only [List.map_cons, List.mem_cons]; exact .inr hd))
        obtain ⟨d0, d1⟩ := h1 d (by simp)
        have k := earned_ripe (u := u) (hs.pos A) d0 (by rw [d1]; exact staked_le hs A) x0 h.mine
          (fun e he => h2 { d with staked := d.staked + x } (by simp) e he)
        simp only [List.map_cons, List.sum_cons, List.length_cons, Nat.add_mul, one_mul, Nat.cast_add] at this ⊢
        have k' : earnedFor (stakesOf s A) d ≤ earnedFor (stakesOf s' A) { d with staked := d.staked + x } +
          ((stakesOf s A).length : Int) := k
        omega
    have k := key _ hd hr1
    simp only [earnedBy, shares, e, Nat.cast_add]
    omega

theorem extra_of_bond {me : Addr} {s r : Sys} {c : Ctx} {A : Addr} {x : Int} (hs : InvA me s)
    (h : step me s (.stake c (.bond A x)) = .ok r) : Extra x c.now A s r ∧ 0 < x := by
  simp only [step, bind_ok, ok_inj, Prod.exists] at h
  obtain ⟨v, L, k1, rfl⟩ := h
  obtain ⟨-, cfg, hc, hm, -, -, -, -, rfl, -⟩ := bond_inv k1
  have := hs.minBond cfg hc
  refine ⟨⟨rfl, by rw [hc]; simp, rfl, fun b hb => by simp [upd_ne _ _ hb], ?_⟩, by omega⟩
  simp only [upd_same]
  exact List.perm_append_singleton _ _

/-- **C155** One more stake of somebody else never raises what an account earns: compare a history with the same
history without that stake, in which the same transactions go through. -/
theorem C155_others_never_gain {me : Addr} {s r : Sys} (h0 : Genesis me s) (ts us : List Tx)
    (ht : ∀ t ∈ ts, Stake.Spec.Possible me t) (hu : ∀ t ∈ us, Stake.Spec.Possible me t) {c : Ctx} {A B tok : Addr} {x : Int}
    (hb : step me (Stake.run me s ts) (.stake c (.bond A x)) = .ok r) (hf : SameFate me (Stake.run me s ts) r us) (hB : B ≠ A) :
    earnedBy me r tok B us ≤ earnedBy me (Stake.run me s ts) tok B us := by
  have hs := run_invA ts ht (genesis_invA h0)
  obtain ⟨h, x0⟩ := extra_of_bond hs hb
  exact others_le hB x0.le us hs hu h hf

/-- **C155** Once all stakes of an account are 60 days old, one more stake never costs it more than a unit per
distribution and older stake. -/
theorem C155_ripe_stake_pays {me : Addr} {s r : Sys} (h0 : Genesis me s) (ts us : List Tx)
    (ht : ∀ t ∈ ts, Stake.Spec.Possible me t) (hu : ∀ t ∈ us, Stake.Spec.Possible me t) {c : Ctx} {A tok : Addr} {x : Int}
    (hb : step me (Stake.run me s ts) (.stake c (.bond A x)) = .ok r) (hf : SameFate me (Stake.run me s ts) r us)
    (hr : Ripe me tok A r us) :
    earnedBy me (Stake.run me s ts) tok A us ≤ earnedBy me r tok A us + shares me tok A (Stake.run me s ts) us := by
  have hs := run_invA ts ht (genesis_invA h0)
  obtain ⟨h, x0⟩ := extra_of_bond hs hb
  exact ripe_ge x0 us hs hu h hf hr

theorem earned_append {me : Addr} {tok a : Addr} (us : List Tx) : ∀ (ts : List Tx) (s : Sys),
    earnedBy me s tok a (ts ++ us) = earnedBy me s tok a ts + earnedBy me (Stake.run me s ts) tok a us
  | [], s => by simp [earnedBy, Stake.run]
  | t :: ts, s => by
    have := earned_append us ts (exec me s t) (me := me) (tok := tok) (a := a)
    simp only [List.cons_append, earnedBy, this]
    simp only [Stake.run, List.foldl_cons]
    omega

theorem earned_bond {me : Addr} {s r : Sys} {tok a A : Addr} {c : Ctx} {x : Int} (ts us : List Tx)
    (hb : step me (Stake.run me s ts) (.stake c (.bond A x)) = .ok r) :
    earnedBy me s tok a (ts ++ .stake c (.bond A x) :: us) = earnedBy me s tok a ts + earnedBy me r tok a us := by
  rw [earned_append]
  simp only [earnedBy, distOf, List.map_nil, List.sum_nil, zero_add]
  unfold exec
  rw [hb]

section
variable {me : Addr} {s r : Sys} (h0 : Genesis me s) (ts us : List Tx) {c : Ctx} {A tok : Addr} {x : Int}
  (ht : ∀ t ∈ ts ++ .stake c (.bond A x) :: us, Stake.Spec.Possible me t)
  (hb : step me (Stake.run me s ts) (.stake c (.bond A x)) = .ok r) (hf : SameFate me (Stake.run me s ts) r us)
  (hw : WellTimed me s (ts ++ us)) (hw' : WellTimed me s (ts ++ .stake c (.bond A x) :: us))
  (hst : Started (ts ++ .stake c (.bond A x) :: us))
include h0 ht hb hf hw hw' hst

omit hf in
/-- What an account that stays gets in the two histories, in terms of what it earns. -/
theorem both_get {B : Addr} (hs : Stays me s tok B (ts ++ us)) (hs' : Stays me s tok B (ts ++ .stake c (.bond A x) :: us)) {d : Ctx}
    (hd : ∀ t ∈ ts ++ .stake c (.bond A x) :: us, t.ctx.now ≤ d.now) {l l' : List (Addr × Nat)}
    (hq : queryWithdrawable d (Stake.run me s (ts ++ us)).st B = .ok l)
    (hq' : queryWithdrawable d (Stake.run me s (ts ++ .stake c (.bond A x) :: us)).st B = .ok l')
    (hl : tok ∈ l.map Prod.fst) (hl' : tok ∈ l'.map Prod.fst) :
    ∃ y y', (tok, y) ∈ l ∧ (tok, y') ∈ l' ∧
      paidTo me s tok B (ts ++ us) + y = earnedBy me s tok B ts + earnedBy me (Stake.run me s ts) tok B us ∧
      paidTo me s tok B (ts ++ .stake c (.bond A x) :: us) + y' = earnedBy me s tok B ts + earnedBy me r tok B us := by
  have sub : ∀ t ∈ ts ++ us, t ∈ ts ++ .stake c (.bond A x) :: us := by
    intro t h
    simp only [List.mem_append, List.mem_cons] at h ⊢
    tauto
  obtain ⟨y, m, e⟩ := Props.Stayer.C152_stayers_get_all h0 (ts ++ us) (fun t h => ht t (sub t h)) hw (fun t h => hst t (sub t h)) hs
    (fun t h => hd t (sub t h)) hq hl
  obtain ⟨y', m', e'⟩ := Props.Stayer.C152_stayers_get_all h0 _ ht hw' hst hs' hd hq' hl'
  rw [earned_append] at e
  rw [earned_bond ts us hb] at e'
  exact ⟨y, y', m, m', e, e'⟩

/-- **C155** In terms of what is paid: another account that stays gets no more, what it can still withdraw at the end
included, than without the additional stake. -/
theorem C155_others_get_no_more {B : Addr} (hB : B ≠ A) (hs : Stays me s tok B (ts ++ us))
    (hs' : Stays me s tok B (ts ++ .stake c (.bond A x) :: us)) {d : Ctx}
    (hd : ∀ t ∈ ts ++ .stake c (.bond A x) :: us, t.ctx.now ≤ d.now) {l l' : List (Addr × Nat)}
    (hq : queryWithdrawable d (Stake.run me s (ts ++ us)).st B = .ok l)
    (hq' : queryWithdrawable d (Stake.run me s (ts ++ .stake c (.bond A x) :: us)).st B = .ok l')
    (hl : tok ∈ l.map Prod.fst) (hl' : tok ∈ l'.map Prod.fst) :
    ∃ y y', (tok, y) ∈ l ∧ (tok, y') ∈ l' ∧
      paidTo me s tok B (ts ++ .stake c (.bond A x) :: us) + y' ≤ paidTo me s tok B (ts ++ us) + y := by
  obtain ⟨y, y', m, m', e, e'⟩ := both_get h0 ts us ht hb hw hw' hst hs hs' hd hq hq' hl hl'
  have := C155_others_never_gain h0 ts us (fun t h => ht t (by simp [h])) (fun t h => ht t (by simp [h])) hb hf hB (tok := tok)
  exact ⟨y, y', m, m', by omega⟩

/-- **C155** In terms of what is paid: if its stakes are ripe at the distributions after it, the additional stake costs its
owner at most a unit per distribution and older stake. -/
theorem C155_ripe_stake_is_paid (hs : Stays me s tok A (ts ++ us))
    (hs' : Stays me s tok A (ts ++ .stake c (.bond A x) :: us)) (hr : Ripe me tok A r us) {d : Ctx}
    (hd : ∀ t ∈ ts ++ .stake c (.bond A x) :: us, t.ctx.now ≤ d.now) {l l' : List (Addr × Nat)}
    (hq : queryWithdrawable d (Stake.run me s (ts ++ us)).st A = .ok l)
    (hq' : queryWithdrawable d (Stake.run me s (ts ++ .stake c (.bond A x) :: us)).st A = .ok l')
    (hl : tok ∈ l.map Prod.fst) (hl' : tok ∈ l'.map Prod.fst) :
    ∃ y y', (tok, y) ∈ l ∧ (tok, y') ∈ l' ∧
      paidTo me s tok A (ts ++ us) + y ≤
        paidTo me s tok A (ts ++ .stake c (.bond A x) :: us) + y' + shares me tok A (Stake.run me s ts) us := by
  obtain ⟨y, y', m, m', e, e'⟩ := both_get h0 ts us ht hb hw hw' hst hs hs' hd hq hq' hl hl'
  have := C155_ripe_stake_pays h0 ts us (fun t h => ht t (by simp [h])) (fun t h => ht t (by simp [h])) hb hf hr
  exact ⟨y, y', m, m', by omega⟩

end

/-! ### concrete histories -/

/-- accounts 1 and 2 have staked 300 and 100 -/
def mExPast : List Tx :=
  [ .stake (sBy 9 1) (.init 9 30 10 1 7 9 5),
    .stake (sBy 7 2) (.createFlow 7 40),
    .stake (sBy 1 (sDay 10)) (.bond 1 300),
    .stake (sBy 2 (sDay 40)) (.bond 2 100) ]
/-- account 1 stakes `x` more on day 70 -/
def mExBond (x : Int) : Tx := .stake (sBy 1 (sDay 70)) (.bond 1 x)
/-- what comes after: a distribution of `R` on the given day, and both accounts withdraw -/
def mExAfter (R : Int) (day : Nat) : List Tx :=
  [ .stake (sBy 7 (sDay day)) (.distribute 7 R 40),
    .stake (sBy 1 (sDay (day + 1))) (.withdraw 1),
    .stake (sBy 2 (sDay (day + 2))) (.withdraw 2) ]

theorem mExPast_possible : ∀ t ∈ mExPast, Stake.Spec.Possible 100 t := by
  intro t ht
  simp only [mExPast, List.mem_cons, List.not_mem_nil, or_false] at ht
  rcases ht with rfl | rfl | rfl | rfl <;> rfl
theorem mExAfter_possible (R : Int) (day : Nat) : ∀ t ∈ mExAfter R day, Stake.Spec.Possible 100 t := by
  intro t ht
  simp only [mExAfter, List.mem_cons, List.not_mem_nil, or_false] at ht
  rcases ht with rfl | rfl | rfl <;> rfl

/-- the hypotheses of both theorems, and what they say: account 1 stakes 400 more, 130 days before the distribution of
4000, and gets 3500 of it instead of 3000; account 2 gets 500 instead of 1000 -/
example : ∃ r, Stake.step 100 (Stake.run 100 sExStart mExPast) (mExBond 400) = .ok r ∧
    SameFate 100 (Stake.run 100 sExStart mExPast) r (mExAfter 4000 200) ∧ Ripe 100 40 1 r (mExAfter 4000 200) ∧
    earnedBy 100 (Stake.run 100 sExStart mExPast) 40 2 (mExAfter 4000 200) = 1000 ∧ earnedBy 100 r 40 2 (mExAfter 4000 200) = 500 ∧
    earnedBy 100 (Stake.run 100 sExStart mExPast) 40 1 (mExAfter 4000 200) = 3000 ∧ earnedBy 100 r 40 1 (mExAfter 4000 200) = 3500 ∧
    shares 100 40 1 (Stake.run 100 sExStart mExPast) (mExAfter 4000 200) = 1 := by
  refine ⟨_, rfl, ⟨?_, ?_, ?_, trivial⟩, ⟨?_, ?_, ?_, trivial⟩, ?_, ?_, ?_, ?_, ?_⟩ <;> decide +kernel

/-- the further hypotheses of `C155_others_get_no_more` and `C155_ripe_stake_is_paid`, and what they say -/
example : (∀ t ∈ mExPast ++ mExBond 400 :: mExAfter 4000 200, Stake.Spec.Possible 100 t) ∧
    WellTimed 100 sExStart (mExPast ++ mExAfter 4000 200) ∧ WellTimed 100 sExStart (mExPast ++ mExBond 400 :: mExAfter 4000 200) ∧
    Started (mExPast ++ mExBond 400 :: mExAfter 4000 200) ∧
    (∀ B ∈ [1, 2], Stays 100 sExStart 40 B (mExPast ++ mExAfter 4000 200) ∧
      Stays 100 sExStart 40 B (mExPast ++ mExBond 400 :: mExAfter 4000 200)) ∧
    (∀ t ∈ mExPast ++ mExBond 400 :: mExAfter 4000 200, t.ctx.now ≤ sDay 210) ∧
    (∀ B ∈ [1, 2], queryWithdrawable (sBy 3 (sDay 210)) (Stake.run 100 sExStart (mExPast ++ mExAfter 4000 200)).st B = .ok [(40, 0)] ∧
      queryWithdrawable (sBy 3 (sDay 210)) (Stake.run 100 sExStart (mExPast ++ mExBond 400 :: mExAfter 4000 200)).st B = .ok [(40, 0)]) ∧
    [1, 2].map (fun B => paidTo 100 sExStart 40 B (mExPast ++ mExAfter 4000 200)) = [3000, 1000] ∧
    [1, 2].map (fun B => paidTo 100 sExStart 40 B (mExPast ++ mExBond 400 :: mExAfter 4000 200)) = [3500, 500] := by
  refine ⟨?_, ⟨?_, ?_⟩, ⟨?_, ?_⟩, ?_, ?_, ?_, by decide +kernel, by decide +kernel, by decide +kernel⟩
  · intro t ht
    simp only [mExPast, mExBond, mExAfter, List.cons_append, List.nil_append, List.mem_cons, List.not_mem_nil, or_false] at ht
    rcases ht with rfl | rfl | rfl | rfl | rfl | rfl | rfl | rfl <;> rfl
  · simp [TimeOrdered, mExPast, mExAfter, Tx.ctx, sBy, sDay]
  · refine ⟨?_, ?_, ?_, ?_, ?_, ?_, ?_, trivial⟩ <;> decide +kernel
  · simp [TimeOrdered, mExPast, mExBond, mExAfter, Tx.ctx, sBy, sDay]
  · refine ⟨?_, ?_, ?_, ?_, ?_, ?_, ?_, ?_, trivial⟩ <;> decide +kernel
  · intro t ht
    simp only [mExPast, mExBond, mExAfter, List.cons_append, List.nil_append, List.mem_cons, List.not_mem_nil, or_false] at ht
    rcases ht with rfl | rfl | rfl | rfl | rfl | rfl | rfl | rfl <;> decide
  · intro B _
    constructor
    · refine ⟨trivial, trivial, trivial, trivial, trivial, ?_, ?_, trivial⟩ <;> intro _ <;> decide +kernel
    · refine ⟨trivial, trivial, trivial, trivial, trivial, trivial, ?_, ?_, trivial⟩ <;> intro _ <;> decide +kernel
  · intro t ht
    simp only [mExPast, mExBond, mExAfter, List.cons_append, List.nil_append, List.mem_cons, List.not_mem_nil, or_false] at ht
    rcases ht with rfl | rfl | rfl | rfl | rfl | rfl | rfl | rfl <;> decide

/-- **C155** A stake made shortly before a distribution costs the staker: with 300 of the 400 staked, account 1 is paid
3000 of 4000 (of what they hold at the end, 5000 are theirs from the start). Had they staked 400 more on the day of the
distribution, they would have been paid 1500, and the other staker 250 instead of 500; the rest stays in the contract. -/
theorem C155_more_can_earn_less :
    (Stake.run 100 sExStart (mExPast ++ mExAfter 4000 70)).led.bal 40 1 = 5000 + 3000 ∧
    (Stake.run 100 sExStart (mExPast ++ mExBond 400 :: mExAfter 4000 70)).led.bal 40 1 = 5000 + 1500 ∧
    (Stake.run 100 sExStart (mExPast ++ mExAfter 4000 70)).led.bal 40 2 = 5000 + 500 ∧
    (Stake.run 100 sExStart (mExPast ++ mExBond 400 :: mExAfter 4000 70)).led.bal 40 2 = 5000 + 250 ∧
    stakedBy (Stake.run 100 sExStart (mExPast ++ mExBond 400 :: mExAfter 4000 70)) 1 = 700 := by
  decide +kernel

/-- **C155** The unit lost by rounding is really lost: 3 of a distribution of 4 for 300 of 400 staked, and 2 for 310 of 410. -/
theorem C155_rounding_costs :
    (Stake.run 100 sExStart (mExPast ++ mExAfter 4 200)).led.bal 40 1 = 5000 + 3 ∧
    (Stake.run 100 sExStart (mExPast ++ mExBond 10 :: mExAfter 4 200)).led.bal 40 1 = 5000 + 2 ∧
    stakedBy (Stake.run 100 sExStart (mExPast ++ mExBond 10 :: mExAfter 4 200)) 1 = 310 := by
  decide +kernel

end Phoenix.Props.More
