import Verif.Lemmas.Rewards
import Mathlib.Algebra.BigOperators.Ring.Finset
/-! The reward distribution contract: invariants of histories (helpers only). -/
namespace Phoenix.Rewards
open Phoenix Phoenix.Spec Stake Rewards.Spec

/-- Invariant of all histories. -/
structure Inv (me : Addr) (s : Sys) : Prop where
  led : LedInv me s.led
  solv : ∀ cfg, s.st.cfg = some cfg → (s.st.dist.withdrawable : Int) ≤ s.led.bal cfg.token me
  fresh : s.st.cfg = none → s.st.dist = ⟨0, 0, 0, 0⟩ ∧ ∀ a, s.st.adj a = ⟨0, 0⟩

theorem genesis_inv {me : Addr} {s : Sys} (h : Spec.Genesis me s) : Inv me s := by
  obtain ⟨h1, h2, h3⟩ := h
  refine ⟨⟨h2, h3⟩, ?_, ?_⟩
  · rw [h1]; intro cfg h; simp [Rewards.fresh] at h
  · rw [h1]; intro _; exact ⟨rfl, fun _ => rfl⟩

/-- Every successful call either leaves the tokens alone, or is a payment to a user, or a funding. -/
theorem step_kinds {me : Addr} {s s' : Sys} {c : Ctx} {k : Call} (h : step me s (.rewards c k) = .ok s') :
    (s'.led = s.led ∧ payee (.rewards c k) = none ∧ (∀ a d x, k ≠ .fund a d x)) ∨
    (∃ cfg u i x, s.st.cfg = some cfg ∧ c.auth cfg.staking = true ∧ payee (.rewards c k) = some u ∧
      payable c cfg s.st u i = .ok x ∧ 0 ≤ x ∧ x ≤ s.st.dist.withdrawable ∧
      (k = .withdraw u i ∨ ∃ y, k = .calcUnbond u i y ∧ c.auth u = true) ∧
      (s'.st.dist = (paidState s.st u x).dist ∧ (∀ a, (s'.st.adj a).withdrawn = ((paidState s.st u x).adj a).withdrawn) ∧
        s'.st.cfg = s.st.cfg ∧ s'.st.admin = s.st.admin ∧ s'.st.curve = s.st.curve) ∧
      Settles s.led s'.led [⟨cfg.token, me, u, x⟩] ∧ SameRights s.led s'.led ∧ (x = 0 ∨ x ≤ s.led.bal cfg.token me)) ∨
    (∃ cfg a d x kv, s.st.cfg = some cfg ∧ k = .fund a d x ∧ c.auth s.st.admin = true ∧ c.auth cfg.staking = true ∧
      0 ≤ x ∧ x ≤ s.led.bal cfg.token s.st.admin ∧ c.now ≤ a ∧ cfg.minReward ≤ x ∧
      joinCurves c.now cfg.maxComplexity s.st.curve (.sl a x.toNat (c.now + d) 0) = .ok kv ∧
      s'.st = { s.st with curve := kv } ∧
      Settles s.led s'.led [⟨cfg.token, s.st.admin, me, x⟩] ∧ SameRights s.led s'.led) := by
  cases k with
  | init a st tok mc mr mb =>
    simp only [step, bind_ok, ok_inj] at h
    obtain ⟨v, _, rfl⟩ := h
    exact .inl ⟨rfl, rfl, by simp⟩
  | addUser u i =>
    simp only [step, bind_ok, ok_inj] at h
    obtain ⟨v, _, rfl⟩ := h
    exact .inl ⟨rfl, rfl, by simp⟩
  | calcBond u i =>
    simp only [step, bind_ok, ok_inj] at h
    obtain ⟨v, _, rfl⟩ := h
    exact .inl ⟨rfl, rfl, by simp⟩
  | distribute T =>
    simp only [step, bind_ok, ok_inj] at h
    obtain ⟨v, _, rfl⟩ := h
    exact .inl ⟨rfl, rfl, by simp⟩
  | calcUnbond u i y =>
    simp only [step, bind_ok, ok_inj] at h
    obtain ⟨⟨v, L⟩, hb, rfl⟩ := h
    obtain ⟨cfg, x, e1, e2, e3, e4, e5, e6, rfl, e7, e8, e9⟩ := calcUnbond_inv hb
    refine .inr (.inl ⟨cfg, u, i, x, e1, e3, rfl, e4, e5, e6, .inr ⟨y, rfl, e2⟩, ⟨rfl, fun a => ?_, rfl, rfl, rfl⟩, e8, e9, e7⟩)
    simp only [upd_apply]
    split
    · rename_i e; subst e; rfl
    · rfl
  | withdraw u i =>
    simp only [step, bind_ok, ok_inj] at h
    obtain ⟨⟨v, L⟩, hb, rfl⟩ := h
    obtain ⟨cfg, x, e1, e2, e3, e4, e5, rfl, e7, e8, e9⟩ := withdraw_inv hb
    exact .inr (.inl ⟨cfg, u, i, x, e1, e2, rfl, e3, e4, e5, .inl rfl, ⟨rfl, fun a => rfl, rfl, rfl, rfl⟩, e8, e9, e7⟩)
  | fund a d x =>
    simp only [step, bind_ok, ok_inj] at h
    obtain ⟨⟨v, L⟩, hb, rfl⟩ := h
    obtain ⟨cfg, k, e1, e2, e3, e4, e5, e6, e7, e8, e9, rfl, e10, e11⟩ := fund_inv hb
    exact .inr (.inr ⟨cfg, a, d, x, k, e1, rfl, e2, e3, e6, e7, e4, e5, e9, rfl, e10, e11⟩)

theorem settles_ledInv0 {me : Addr} {L L' : Ledger} {t a b : Addr} {x : Int} (hL : LedInv me L) (h0 : 0 ≤ x)
    (h1 : x = 0 ∨ x ≤ L.bal t a) (h2 : Settles L L' [⟨t, a, b, x⟩]) (h3 : SameRights L L') : LedInv me L' := by
  refine Vesting.settles_ledInv hL h0 ?_ h2 h3
  rcases h1 with rfl | h1
  · exact hL.nonneg _ _
  · exact h1

theorem step_inv {me : Addr} {s s' : Sys} {t : Tx} (h : step me s t = .ok s') (ht : Spec.Possible me t)
    (hs : Inv me s) : Inv me s' := by
  cases t with
  | token c tok op =>
    simp only [step, bind_ok, ok_inj] at h
    obtain ⟨L, hL, rfl⟩ := h
    obtain ⟨k1, k2, -⟩ := ledger_call_others hL ht hs.led
    exact ⟨k1, fun cfg hc => le_trans (hs.solv cfg hc) (k2 _), hs.fresh⟩
  | rewards c k =>
    simp only [Spec.Possible, Tx.ctx] at ht
    rcases step_kinds h with ⟨hled, hp, hf⟩ | ⟨cfg, u, i, x, e1, e2, e3, e4, e5, e6, e7, ⟨e8, e9, e10, e11, e12⟩, e13, e14, e15⟩ |
        ⟨cfg, a, d, x, kv, e1, rfl, e2, e3, e4, e5, e6, e7, e8, e9, e10, e11⟩
    · refine ⟨by rw [hled]; exact hs.led, ?_, ?_⟩
      · rw [hled]
        intro cfg hc
        cases k with
        | init a st tok mc mr mb =>
          simp only [step, bind_ok, ok_inj] at h
          obtain ⟨v, hi, rfl⟩ := h
          obtain ⟨_, rfl⟩ := init_inv hi
          exact hs.led.nonneg _ _
        | addUser u i =>
          simp only [step, bind_ok, ok_inj] at h
          obtain ⟨v, hi, rfl⟩ := h
          obtain ⟨_, _, _, rfl⟩ := addUser_inv hi
          exact hs.solv cfg hc
        | calcBond u i =>
          simp only [step, bind_ok, ok_inj] at h
          obtain ⟨v, hi, rfl⟩ := h
          obtain ⟨_, _, _, _, _, rfl⟩ := calcBond_inv hi
          exact hs.solv cfg hc
        | distribute T =>
          simp only [step, bind_ok, ok_inj] at h
          obtain ⟨v, hi, rfl⟩ := h
          obtain ⟨cfg', h1, _, _, ⟨rfl, -⟩ | ⟨x, d, h2, h3, h4, h5, rfl⟩⟩ := distribute_inv hi
          · exact hs.solv cfg hc
          · simp only at hc ⊢
            rw [h1] at hc; cases hc
            obtain ⟨v, _, h6⟩ := unlocked_inv h4
            obtain ⟨_, _, _, _, h7⟩ := handOut_inv h5
            rw [h7]; push_cast; omega
        | calcUnbond u i y => simp [payee] at hp
        | withdraw u i => simp [payee] at hp
        | fund a d x => exact absurd rfl (hf a d x)
      · cases k with
        | init a st tok mc mr mb =>
          simp only [step, bind_ok, ok_inj] at h
          obtain ⟨v, hi, rfl⟩ := h
          obtain ⟨_, rfl⟩ := init_inv hi
          intro hc; simp at hc
        | addUser u i =>
          simp only [step, bind_ok, ok_inj] at h
          obtain ⟨v, hi, rfl⟩ := h
          obtain ⟨cfg, h1, _, rfl⟩ := addUser_inv hi
          intro hc; simp [h1] at hc
        | calcBond u i =>
          simp only [step, bind_ok, ok_inj] at h
          obtain ⟨v, hi, rfl⟩ := h
          obtain ⟨cfg, _, h1, _, _, rfl⟩ := calcBond_inv hi
          intro hc; simp [h1] at hc
        | distribute T =>
          simp only [step, bind_ok, ok_inj] at h
          obtain ⟨v, hi, rfl⟩ := h
          obtain ⟨cfg', h1, _, _, ⟨rfl, -⟩ | ⟨x, d, h2, h3, h4, h5, rfl⟩⟩ := distribute_inv hi
          · exact hs.fresh
          · intro hc; simp [h1] at hc
        | calcUnbond u i y => simp [payee] at hp
        | withdraw u i => simp [payee] at hp
        | fund a d x => exact absurd rfl (hf a d x)
    · refine ⟨settles_ledInv0 hs.led e5 e15 e13 e14, ?_, ?_⟩
      · intro cfg' hc
        rw [e10, e1] at hc; cases hc
        rw [e8, settles_me e13]
        have := hs.solv cfg e1
        simp only [paidState, true_and, if_true]
        split <;> omega
      · intro hc; rw [e10, e1] at hc; simp at hc
    · refine ⟨Vesting.settles_ledInv hs.led e4 e5 e10 e11, ?_, ?_⟩
      · intro cfg' hc
        rw [e9] at hc ⊢
        simp only at hc ⊢
        rw [e1] at hc; cases hc
        rw [settles_me e10]
        have := hs.solv cfg e1
        simp only [true_and, if_true]
        split
        · omega
        · omega
      · intro hc; rw [e9] at hc; simp [e1] at hc

theorem exec_inv {me : Addr} {s : Sys} {t : Tx} (ht : Spec.Possible me t) (hs : Inv me s) : Inv me (exec me s t) := by
  unfold exec
  cases h : step me s t with
  | ok s' => exact step_inv h ht hs
  | error e => exact hs

theorem run_inv {me : Addr} {s : Sys} (ts : List Tx) (ht : ∀ t ∈ ts, Spec.Possible me t) (hs : Inv me s) :
    Inv me (run me s ts) := by
  induction ts generalizing s with
  | nil => exact hs
  | cons t ts ih =>
    exact ih (fun t' h' => ht t' (List.mem_cons_of_mem _ h')) (exec_inv (ht t (List.mem_cons_self ..)) hs)

/-- Configuration and administrator never change once set. -/
theorem step_cfg {me : Addr} {s s' : Sys} {t : Tx} (h : step me s t = .ok s') {cfg : Config} (hc : s.st.cfg = some cfg) :
    s'.st.cfg = some cfg ∧ s'.st.admin = s.st.admin := by
  cases t with
  | token c tok op =>
    simp only [step, bind_ok, ok_inj] at h
    obtain ⟨L, hL, rfl⟩ := h
    exact ⟨hc, rfl⟩
  | rewards c k =>
    rcases step_kinds h with ⟨hled, hp, hf⟩ | ⟨cfg, u, i, x, e1, e2, e3, e4, e5, e6, e7, ⟨e8, e9, e10, e11, e12⟩, e13, e14, e15⟩ |
        ⟨cfg, a, d, x, kv, e1, rfl, e2, e3, e4, e5, e6, e7, e8, e9, e10, e11⟩
    · cases k with
      | init a st tok mc mr mb =>
        simp only [step, bind_ok, ok_inj] at h
        obtain ⟨v, hi, rfl⟩ := h
        obtain ⟨h1, rfl⟩ := init_inv hi
        rw [hc] at h1; simp at h1
      | addUser u i =>
        simp only [step, bind_ok, ok_inj] at h
        obtain ⟨v, hi, rfl⟩ := h
        obtain ⟨_, _, _, rfl⟩ := addUser_inv hi
        exact ⟨hc, rfl⟩
      | calcBond u i =>
        simp only [step, bind_ok, ok_inj] at h
        obtain ⟨v, hi, rfl⟩ := h
        obtain ⟨_, _, _, _, _, rfl⟩ := calcBond_inv hi
        exact ⟨hc, rfl⟩
      | distribute T =>
        simp only [step, bind_ok, ok_inj] at h
        obtain ⟨v, hi, rfl⟩ := h
        obtain ⟨cfg', h1, _, _, ⟨rfl, -⟩ | ⟨x, d, h2, h3, h4, h5, rfl⟩⟩ := distribute_inv hi
        · exact ⟨hc, rfl⟩
        · exact ⟨hc, rfl⟩
      | calcUnbond u i y => simp [payee] at hp
      | withdraw u i => simp [payee] at hp
      | fund a d x => exact absurd rfl (hf a d x)
    · rw [e10, e11]; exact ⟨hc, rfl⟩
    · rw [e9]; exact ⟨hc, rfl⟩

theorem exec_cfg {me : Addr} {s : Sys} {t : Tx} {cfg : Config} (hc : s.st.cfg = some cfg) :
    (exec me s t).st.cfg = some cfg ∧ (exec me s t).st.admin = s.st.admin := by
  unfold exec
  cases h : step me s t with
  | ok s' => exact step_cfg h hc
  | error e => exact ⟨hc, rfl⟩

theorem run_cfg {me : Addr} {s : Sys} (ts : List Tx) {cfg : Config} (hc : s.st.cfg = some cfg) :
    (run me s ts).st.cfg = some cfg ∧ (run me s ts).st.admin = s.st.admin := by
  induction ts generalizing s with
  | nil => exact ⟨hc, rfl⟩
  | cons t ts ih =>
    obtain ⟨h1, h2⟩ := exec_cfg (me := me) (t := t) hc
    obtain ⟨h3, h4⟩ := ih h1
    exact ⟨h3, by rw [show run me s (t :: ts) = run me (exec me s t) ts from rfl, h4, h2]⟩

/-! ### Truthful reports -/

/-- accumulated points of a user -/
def pts (s : State) (cfg : Config) (b : Book) (u : Addr) : Int :=
  s.dist.spp * weight cfg.minBond (b u) + (s.adj u).corr

/-- what a user may still claim, in points -/
def due (s : State) (cfg : Config) (b : Book) (u : Addr) : Int :=
  pts s cfg b u - 4294967296 * (s.adj u).withdrawn

structure HInv (b : Book) (s : State) : Prop where
  nonneg : ∀ u, 0 ≤ b u
  empty : s.cfg = none → ∀ u, b u = 0
  own : ∀ cfg, s.cfg = some cfg → ∀ u, 0 ≤ due s cfg b u
  sum : ∀ cfg, s.cfg = some cfg → ∀ U : Finset Addr,
    ∑ u ∈ U, due s cfg b u + s.dist.leftover ≤ 4294967296 * s.dist.withdrawable

theorem weight_zero (mb : Int) : weight mb 0 = 0 := by unfold weight; split <;> simp

theorem weight_sum {mb : Int} {b : Book} (hb : ∀ u, 0 ≤ b u) (U : Finset Addr) {T : Int}
    (h : ∑ u ∈ U, b u ≤ T) : ∑ u ∈ U, weight mb (b u) ≤ weight mb T := by
  have hT : 0 ≤ T := le_trans (Finset.sum_nonneg (fun u _ => hb u)) h
  by_cases hz : ∀ u ∈ U, weight mb (b u) = 0
  · rw [Finset.sum_eq_zero hz]; exact weight_nonneg hT
  · push Not at hz
    obtain ⟨u, hu, hne⟩ := hz
    have h1 : mb ≤ b u := by
      by_contra hlt
      exact hne (by unfold weight; rw [if_pos (by omega)])
    have h2 : b u ≤ T := le_trans (Finset.single_le_sum (f := b) (fun v _ => hb v) hu) h
    have h3 : weight mb T = T / 1000 := by
      unfold weight; rw [if_neg (by omega), Int.tdiv_eq_ediv_of_nonneg hT]
    rw [h3]
    have h4 : ∀ v, weight mb (b v) ≤ b v / 1000 := by
      intro v; have := hb v
      unfold weight; split
      · omega
      · rw [Int.tdiv_eq_ediv_of_nonneg this]
    have h5 : ∑ v ∈ U, 1000 * (weight mb (b v)) ≤ ∑ v ∈ U, b v :=
      Finset.sum_le_sum (fun v _ => by have := h4 v; omega)
    rw [← Finset.mul_sum] at h5
    omega

/-- A change of one user's stake with the matching correction changes nobody's points. -/
theorem due_restake {s : State} {cfg : Config} {b : Book} {u : Addr} {n : Int} (v : Addr) :
    due { s with adj := upd s.adj u { s.adj u with
            corr := (s.adj u).corr - s.dist.spp * (weight cfg.minBond n - weight cfg.minBond (b u)) } } cfg (upd b u n) v =
      due s cfg b v := by
  unfold due pts
  simp only [upd_apply]
  split
  · rename_i e; subst e; simp only; ring
  · rfl

theorem hinv_restake {s : State} {b : Book} {u : Addr} {n : Int} {cfg : Config} (hc : s.cfg = some cfg) (hn : 0 ≤ n)
    (h : HInv b s) :
    HInv (upd b u n) { s with adj := upd s.adj u { s.adj u with
            corr := (s.adj u).corr - s.dist.spp * (weight cfg.minBond n - weight cfg.minBond (b u)) } } := by
  refine ⟨fun v => ?_, fun h0 => ?_, fun cfg' h0 v => ?_, fun cfg' h0 U => ?_⟩
  · rw [upd_apply]; split
    · exact hn
    · exact h.nonneg v
  · simp [hc] at h0
  · simp only [hc] at h0; cases h0
    rw [due_restake]; exact h.own _ hc v
  · simp only [hc] at h0; cases h0
    simp only [due_restake]; exact h.sum _ hc U

theorem claim_due {cfg : Config} {s : State} {b : Book} {u : Addr} {r : Nat} (h : claim cfg s u (b u) = .ok r) :
    (r : Int) = due s cfg b u / 4294967296 ∧ 4294967296 * (r : Int) ≤ due s cfg b u := by
  obtain ⟨_, h2⟩ := claim_inv h
  unfold due pts
  constructor <;> omega

theorem due_paid {s : State} {cfg : Config} {b : Book} {u : Addr} {x : Int} (hx : 0 ≤ x) (v : Addr) :
    due (paidState s u x) cfg b v = due s cfg b v - (if v = u then 4294967296 * x else 0) := by
  unfold due pts paidState
  simp only [upd_apply]
  by_cases e : v = u
  · subst e; simp only [if_true]; omega
  · simp only [e, if_false]; omega

theorem hinv_paid {s : State} {cfg : Config} {b : Book} {u : Addr} {x : Int} (hc : s.cfg = some cfg) (hx : 0 ≤ x)
    (hd : 4294967296 * x ≤ due s cfg b u) (hw : x ≤ s.dist.withdrawable) (h : HInv b s) : HInv b (paidState s u x) := by
  refine ⟨h.nonneg, fun h0 => h.empty h0, fun cfg' h0 v => ?_, fun cfg' h0 U => ?_⟩
  · have h0' : s.cfg = some cfg' := h0
    rw [hc] at h0'; cases h0'
    rw [due_paid hx]
    have := h.own cfg hc v
    split
    · rename_i e; subst e; omega
    · omega
  · have h0' : s.cfg = some cfg' := h0
    rw [hc] at h0'; cases h0'
    have e1 : ((paidState s u x).dist.withdrawable : Int) = s.dist.withdrawable - x := by
      simp only [paidState]; omega
    have e2 : (paidState s u x).dist.leftover = s.dist.leftover := rfl
    simp only [due_paid hx, Finset.sum_sub_distrib, Finset.sum_ite_eq']
    rw [e1, e2]
    by_cases hu : u ∈ U
    · rw [if_pos hu]
      have := h.sum cfg hc U
      omega
    · rw [if_neg hu]
      have := h.sum cfg hc (insert u U)
      rw [Finset.sum_insert hu] at this
      omega

theorem hinv_handOut {s : State} {cfg : Config} {b : Book} {x : Nat} {d : Dist} {T : Int} (hc : s.cfg = some cfg)
    (hT : ∀ U : Finset Addr, ∑ u ∈ U, b u ≤ T) (hp : 0 < weight cfg.minBond T)
    (hd : handOut s.dist x (weight cfg.minBond T).toNat = .ok d) (h : HInv b s) : HInv b { s with dist := d } := by
  obtain ⟨h1, h2, h3, h4, h5⟩ := handOut_inv hd
  obtain ⟨P, hP⟩ : ∃ P : Nat, (P : Int) = weight cfg.minBond T := ⟨(weight cfg.minBond T).toNat, by omega⟩
  have hPn : (weight cfg.minBond T).toNat = P := by omega
  rw [hPn] at h1 h2 h3
  generalize hq : x * 4294967296 % U128_LIM + s.dist.leftover = q at *
  have hdue : ∀ u, due { s with dist := d } cfg b u = due s cfg b u + (q / P : Nat) * weight cfg.minBond (b u) := by
    intro u
    unfold due pts
    simp only [h2]; push_cast; ring
  refine ⟨h.nonneg, fun h0 => ?_, fun cfg' h0 v => ?_, fun cfg' h0 U => ?_⟩
  · simp [hc] at h0
  · simp only [hc] at h0; cases h0
    rw [hdue]
    have := h.own _ hc v
    have := weight_nonneg (mb := cfg.minBond) (h.nonneg v)
    positivity
  · simp only [hc] at h0; cases h0
    simp only [hdue, Finset.sum_add_distrib, ← Finset.mul_sum]
    have e1 := h.sum _ hc U
    have e2 := weight_sum (mb := cfg.minBond) h.nonneg U (hT U)
    rw [← hP] at e2
    have e3 : ((q / P : Nat) : Int) * ∑ u ∈ U, weight cfg.minBond (b u) ≤ ((q / P : Nat) : Int) * P :=
      mul_le_mul_of_nonneg_left e2 (Int.natCast_nonneg _)
    have e4 : (q / P) * P + q % P = q := Nat.div_add_mod' q P
    have e5 : q % P % U64_LIM ≤ q % P := Nat.mod_le _ _
    have e6 : x * 4294967296 % U128_LIM ≤ x * 4294967296 := Nat.mod_le _ _
    simp only [h3, h5]
    have e7 : ((q / P : Nat) : Int) * P + ((q % P : Nat) : Int) = q := by exact_mod_cast e4
    generalize ((q / P : Nat) : Int) * ∑ u ∈ U, weight cfg.minBond (b u) = A at *
    generalize ((q / P : Nat) : Int) * P = B at *
    generalize q % P % U64_LIM = C at *
    generalize q % P = D at *
    push_cast
    omega

theorem succeeds_of {me : Addr} {s s' : Sys} {t : Tx} (h : step me s t = .ok s') : Spec.succeeds me s t = true := by
  unfold Spec.succeeds; rw [h]; rfl

theorem fails_of {me : Addr} {s : Sys} {t : Tx} {e : Err} (h : step me s t = .error e) : Spec.succeeds me s t = false := by
  unfold Spec.succeeds; rw [h]; rfl

theorem step_hinv {me : Addr} {s s' : Sys} {t : Tx} {b : Book} (h : step me s t = .ok s') (hi : Inv me s)
    (hh : Honest b t) (hb : HInv b s.st) : HInv (book me b s t) s'.st := by
  have hsucc := succeeds_of h
  unfold book
  rw [hsucc]
  simp only [if_true]
  cases t with
  | token c tok op =>
    simp only [step, bind_ok, ok_inj] at h
    obtain ⟨L, hL, rfl⟩ := h
    exact hb
  | rewards c k =>
    cases k with
    | init a st tok mc mr mb =>
      simp only [step, bind_ok, ok_inj] at h
      obtain ⟨v, hv, rfl⟩ := h
      obtain ⟨h1, rfl⟩ := init_inv hv
      obtain ⟨f1, f2⟩ := hi.fresh h1
      have hz := hb.empty h1
      generalize hst : ({ s.st with cfg := some ⟨st, tok, mc, mr, mb⟩, admin := a, dist := ⟨1, 0, 0, 0⟩, curve := .constant 0 } : State) = w
      have hd : ∀ u, due w ⟨st, tok, mc, mr, mb⟩ b u = 0 := by
        intro u; unfold due pts; subst hst; simp [f2, hz, weight_zero]
      have hw : w.cfg = some ⟨st, tok, mc, mr, mb⟩ ∧ w.dist = ⟨1, 0, 0, 0⟩ := by subst hst; exact ⟨rfl, rfl⟩
      refine ⟨hb.nonneg, fun h0 => by simp [hw.1] at h0, fun cfg' h0 v => ?_, fun cfg' h0 U => ?_⟩
      · simp only [hw.1, Option.some.injEq] at h0; subst h0; rw [hd]
      · simp only [hw.1, Option.some.injEq] at h0; subst h0; simp [hd, hw.2]
    | addUser u i =>
      simp only [step, bind_ok, ok_inj] at h
      obtain ⟨v, hv, rfl⟩ := h
      obtain ⟨cfg, h1, _, rfl⟩ := addUser_inv hv
      obtain ⟨g1, g2⟩ := hh
      have := hinv_restake (u := u) (n := i.total) h1 g2 hb
      rw [g1, weight_zero] at this
      exact this
    | calcBond u i =>
      simp only [step, bind_ok, ok_inj] at h
      obtain ⟨v, hv, rfl⟩ := h
      obtain ⟨cfg, e, h1, _, h2, rfl⟩ := calcBond_inv hv
      obtain ⟨g1, g2⟩ := hh
      have := hinv_restake (u := u) (n := b u + e.amount) h1 (add_nonneg (hb.nonneg u) (g2 e h2)) hb
      simp only [h2, Option.map_some, Option.getD_some]
      rw [g1]
      exact this
    | calcUnbond u i y =>
      simp only [step, bind_ok, ok_inj] at h
      obtain ⟨⟨v, L⟩, hv, rfl⟩ := h
      obtain ⟨cfg, x, e1, e2, e3, e4, e5, e6, rfl, e7, e8, e9⟩ := calcUnbond_inv hv
      obtain ⟨g1, g2, g3⟩ := hh
      obtain ⟨r, r1, -, -, -, r2⟩ := payable_inv e4
      rw [g1] at r1
      have hp := hinv_paid (u := u) (b := b) e1 e5 (by have := (claim_due r1).2; omega) e6 hb
      have := hinv_restake (u := u) (n := b u - y) (s := paidState s.st u x) e1 (by omega) hp
      simp only
      rw [g1]
      simp only [paidState, upd_same] at this ⊢
      exact this
    | distribute T =>
      simp only [step, bind_ok, ok_inj] at h
      obtain ⟨v, hv, rfl⟩ := h
      obtain ⟨cfg', h1, _, _, ⟨rfl, -⟩ | ⟨x, d, h2, h3, h4, h5, rfl⟩⟩ := distribute_inv hv
      · exact hb
      · exact hinv_handOut h1 hh h3 h5 hb
    | withdraw u i =>
      simp only [step, bind_ok, ok_inj] at h
      obtain ⟨⟨v, L⟩, hv, rfl⟩ := h
      obtain ⟨cfg, x, e1, e2, e3, e4, e5, rfl, e7, e8, e9⟩ := withdraw_inv hv
      obtain ⟨r, r1, -, -, -, r2⟩ := payable_inv e3
      have g1 : i.total = b u := hh
      rw [g1] at r1
      have hp := hinv_paid (u := u) (b := b) e1 e4 (by have := (claim_due r1).2; omega) e5 hb
      exact hp
    | fund a d x =>
      simp only [step, bind_ok, ok_inj] at h
      obtain ⟨⟨v, L⟩, hv, rfl⟩ := h
      obtain ⟨cfg, k, e1, e2, e3, e4, e5, e6, e7, e8, e9, rfl, e10, e11⟩ := fund_inv hv
      exact ⟨hb.nonneg, hb.empty, hb.own, hb.sum⟩

theorem exec_hinv {me : Addr} {s : Sys} {t : Tx} {b : Book} (hi : Inv me s)
    (hh : Honest b t) (hb : HInv b s.st) : HInv (book me b s t) (exec me s t).st := by
  unfold exec
  cases h : step me s t with
  | ok s' => exact step_hinv h hi hh hb
  | error e => unfold book; rw [fails_of h]; exact hb

theorem run_hinv {me : Addr} {s : Sys} {b : Book} (ts : List Tx) (ht : ∀ t ∈ ts, Spec.Possible me t) (hi : Inv me s)
    (hh : HonestRun me b s ts) (hb : HInv b s.st) : HInv (bookAfter me b s ts) (run me s ts).st := by
  induction ts generalizing s b with
  | nil => exact hb
  | cons t ts ih =>
    exact ih (fun t' h' => ht t' (List.mem_cons_of_mem _ h')) (exec_inv (ht t (List.mem_cons_self ..)) hi) hh.2
      (exec_hinv hi hh.1 hb)

theorem genesis_hinv {me : Addr} {s : Sys} (h : Spec.Genesis me s) : HInv (fun _ => 0) s.st := by
  obtain ⟨h1, _, _⟩ := h
  rw [h1]
  exact ⟨fun _ => le_refl _, fun _ _ => rfl, fun cfg h0 => by simp [fresh] at h0, fun cfg h0 => by simp [fresh] at h0⟩

end Phoenix.Rewards
