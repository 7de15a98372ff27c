import Verif.Props.Rewards
import Mathlib.Tactic.FieldSimp
import Mathlib.Tactic.Linarith
/-!
C169: in the reward contract a distribution is divided by the points of the total stake, while every user has only the points of
their own stake: parts of a thousand tokens, and stakes below the minimum bond, count in the total but for nobody.  What falls
to them stays in the contract for ever.
-/
namespace Phoenix.Props.Lost
open Phoenix Rewards Rewards.Spec
open Phoenix.Stake (Info Entry)

/-- what all users together may claim, and `l` points that are nobody's, are covered -/
structure LInv (l : Int) (cfg : Config) (b : Book) (s : State) : Prop where
  base : HInv b s
  conf : s.cfg = some cfg
  sum : ∀ U : Finset Addr, ∑ u ∈ U, due s cfg b u + s.dist.leftover + l ≤ 4294967296 * s.dist.withdrawable

theorem linv_restake {l : Int} {s : State} {b : Book} {u : Addr} {n : Int} {cfg : Config} (hn : 0 ≤ n) (h : LInv l cfg b s) :
    LInv l cfg (upd b u n) { s with adj := upd s.adj u { s.adj u with
            corr := (s.adj u).corr - s.dist.spp * (weight cfg.minBond n - weight cfg.minBond (b u)) } } := by
  refine ⟨hinv_restake h.conf hn h.base, h.conf, fun U => ?_⟩
  simp only [due_restake]; exact h.sum U

theorem linv_paid {l : Int} {s : State} {cfg : Config} {b : Book} {u : Addr} {x : Int} (hx : 0 ≤ x)
    (hd : 4294967296 * x ≤ due s cfg b u) (hw : x ≤ s.dist.withdrawable) (h : LInv l cfg b s) :
    LInv l cfg b (paidState s u x) := by
  refine ⟨hinv_paid h.conf hx hd hw h.base, h.conf, fun U => ?_⟩
  have e1 : ((paidState s u x).dist.withdrawable : Int) = s.dist.withdrawable - x := by
    simp only [paidState]; omega
  have e2 : (paidState s u x).dist.leftover = s.dist.leftover := rfl
  simp only [due_paid hx, Finset.sum_sub_distrib, Finset.sum_ite_eq']
  rw [e1, e2]
  by_cases hu : u ∈ U
  · rw [if_pos hu]
    have := h.sum U
    omega
  · rw [if_neg hu]
    have := h.sum (insert u U)
    rw [Finset.sum_insert hu] at this
    omega

/-- a distribution: the points nobody has are added to the ones that are nobody's -/
theorem linv_handOut {l : Int} {s : State} {cfg : Config} {b : Book} {x : Nat} {d : Dist} {T w : Int}
    (hT : ∀ U : Finset Addr, ∑ u ∈ U, b u ≤ T) (hp : 0 < weight cfg.minBond T)
    (hd : handOut s.dist x (weight cfg.minBond T).toNat = .ok d) (h : LInv l cfg b s)
    (hw : ∀ U : Finset Addr, ∑ u ∈ U, weight cfg.minBond (b u) ≤ w) :
    LInv (l + (d.spp - s.dist.spp) * (weight cfg.minBond T - w)) cfg b { s with dist := d } := by
  refine ⟨hinv_handOut h.conf hT hp hd h.base, h.conf, fun U => ?_⟩
  obtain ⟨h1, h2, h3, h4, h5⟩ := handOut_inv hd
  obtain ⟨P, hP⟩ : ∃ P : Nat, (P : Int) = weight cfg.minBond T := ⟨(weight cfg.minBond T).toNat, by omega⟩
  have hPn : (weight cfg.minBond T).toNat = P := by omega
  rw [hPn] at h1 h2 h3
  generalize hq : x * 4294967296 % U128_LIM + s.dist.leftover = q at *
  have hdue : ∀ u, due { s with dist := d } cfg b u = due s cfg b u + (q / P : Nat) * weight cfg.minBond (b u) := by
    intro u
    unfold due pts
    simp only [h2]; push_cast; ring
  simp only [hdue, Finset.sum_add_distrib, ← Finset.mul_sum]
  have e1 := h.sum U
  have e2 := hw U
  have e3 : ((q / P : Nat) : Int) * ∑ u ∈ U, weight cfg.minBond (b u) ≤ ((q / P : Nat) : Int) * w :=
    mul_le_mul_of_nonneg_left e2 (Int.natCast_nonneg _)
  have e4 : (q / P) * P + q % P = q := Nat.div_add_mod' q P
  have e5 : q % P % U64_LIM ≤ q % P := Nat.mod_le _ _
  have e6 : x * 4294967296 % U128_LIM ≤ x * 4294967296 := Nat.mod_le _ _
  simp only [h2, h3, h5, ← hP]
  have e7 : ((q / P : Nat) : Int) * P + ((q % P : Nat) : Int) = q := by exact_mod_cast e4
  rw [show ((s.dist.spp + q / P : Nat) : Int) - s.dist.spp = ((q / P : Nat) : Int) by push_cast; ring, mul_sub]
  generalize ((q / P : Nat) : Int) * ∑ u ∈ U, weight cfg.minBond (b u) = A at *
  generalize ((q / P : Nat) : Int) * P = B at *
  generalize ((q / P : Nat) : Int) * w = B' at *
  generalize q % P % U64_LIM = C at *
  generalize q % P = D at *
  push_cast
  omega

theorem step_linv {me : Addr} {l : Int} {cfg : Config} {s s' : Sys} {t : Tx} {b : Book} (h : Rewards.step me s t = .ok s')
    (hh : Honest b t) (hb : LInv l cfg b s.st) : LInv l cfg (book me b s t) s'.st := by
  have hsucc := succeeds_of h
  unfold book
  rw [hsucc]
  simp only [if_true]
  have hc := hb.conf
  cases t with
  | token c tok op =>
    simp only [Rewards.step, bind_ok, ok_inj] at h
    obtain ⟨L, hL, rfl⟩ := h
    exact hb
  | rewards c k =>
    cases k with
    | init a st tok mc mr mb =>
      simp only [Rewards.step, Rewards.init, bind_ok, req_ok, hc] at h
      obtain ⟨_, ⟨_, e, -⟩, -⟩ := h
      cases e
    | addUser u i =>
      simp only [Rewards.step, bind_ok, ok_inj] at h
      obtain ⟨v, hv, rfl⟩ := h
      obtain ⟨cfg', h1, _, rfl⟩ := addUser_inv hv
      rw [hc] at h1; cases h1
      obtain ⟨g1, g2⟩ := hh
      have := linv_restake (u := u) (n := i.total) g2 hb
      rw [g1, Rewards.weight_zero] at this
      exact this
    | calcBond u i =>
      simp only [Rewards.step, bind_ok, ok_inj] at h
      obtain ⟨v, hv, rfl⟩ := h
      obtain ⟨cfg', e, h1, _, h2, rfl⟩ := calcBond_inv hv
      rw [hc] at h1; cases h1
      obtain ⟨g1, g2⟩ := hh
      have := linv_restake (u := u) (n := b u + e.amount) (add_nonneg (hb.base.nonneg u) (g2 e h2)) hb
      simp only [h2, Option.map_some, Option.getD_some]
      rw [g1]
      exact this
    | calcUnbond u i y =>
      simp only [Rewards.step, bind_ok, ok_inj] at h
      obtain ⟨⟨v, L⟩, hv, rfl⟩ := h
      obtain ⟨cfg', x, e1, e2, e3, e4, e5, e6, rfl, e7, e8, e9⟩ := calcUnbond_inv hv
      rw [hc] at e1; cases e1
      obtain ⟨g1, g2, g3⟩ := hh
      obtain ⟨r, r1, -, -, -, r2⟩ := payable_inv e4
      rw [g1] at r1
      have hp := linv_paid (u := u) (b := b) e5 (by have := (claim_due r1).2; omega) e6 hb
      have := linv_restake (u := u) (n := b u - y) (s := paidState s.st u x) (by omega) hp
      simp only
      rw [g1]
      simp only [paidState, upd_same] at this ⊢
      exact this
    | distribute T =>
      simp only [Rewards.step, bind_ok, ok_inj] at h
      obtain ⟨v, hv, rfl⟩ := h
      obtain ⟨cfg', h1, _, _, ⟨rfl, -⟩ | ⟨x, d, h2, h3, h4, h5, rfl⟩⟩ := distribute_inv hv
      · exact hb
      · rw [hc] at h1; cases h1
        have := linv_handOut (w := weight cfg.minBond T) hh h3 h5 hb (fun U => weight_sum hb.base.nonneg U (hh U))
        simpa using this
    | withdraw u i =>
      simp only [Rewards.step, bind_ok, ok_inj] at h
      obtain ⟨⟨v, L⟩, hv, rfl⟩ := h
      obtain ⟨cfg', x, e1, e2, e3, e4, e5, rfl, e7, e8, e9⟩ := withdraw_inv hv
      rw [hc] at e1; cases e1
      obtain ⟨r, r1, -, -, -, r2⟩ := payable_inv e3
      have g1 : i.total = b u := hh
      rw [g1] at r1
      exact linv_paid (u := u) (b := b) e4 (by have := (claim_due r1).2; omega) e5 hb
    | fund a d x =>
      simp only [Rewards.step, bind_ok, ok_inj] at h
      obtain ⟨⟨v, L⟩, hv, rfl⟩ := h
      obtain ⟨cfg', k, e1, e2, e3, e4, e5, e6, e7, e8, e9, rfl, e10, e11⟩ := fund_inv hv
      exact ⟨⟨hb.base.nonneg, hb.base.empty, hb.base.own, hb.base.sum⟩, hc, hb.sum⟩

theorem run_linv {me : Addr} {l : Int} {cfg : Config} : ∀ (ts : List Tx) {s : Sys} {b : Book}, HonestRun me b s ts →
    LInv l cfg b s.st → LInv l cfg (bookAfter me b s ts) (Rewards.run me s ts).st := by
  intro ts
  induction ts with
  | nil => intro s b _ h; exact h
  | cons t ts ih =>
    intro s b hh hb
    refine ih hh.2 ?_
    unfold exec
    cases h : Rewards.step me s t with
    | ok s' => exact step_linv h hh.1 hb
    | error e => unfold book; rw [fails_of h]; exact hb

theorem honest_append {me : Addr} : ∀ (ts us : List Tx) {b : Book} {s : Sys}, HonestRun me b s (ts ++ us) →
    HonestRun me b s ts ∧ HonestRun me (bookAfter me b s ts) (Rewards.run me s ts) us := by
  intro ts
  induction ts with
  | nil => intro us b s h; exact ⟨trivial, h⟩
  | cons t ts ih => intro us b s h; exact ⟨⟨h.1, (ih us h.2).1⟩, (ih us h.2).2⟩

theorem book_append {me : Addr} : ∀ (ts us : List Tx) {b : Book} {s : Sys},
    bookAfter me b s (ts ++ us) = bookAfter me (bookAfter me b s ts) (Rewards.run me s ts) us := by
  intro ts
  induction ts with
  | nil => intro us b s; rfl
  | cons t ts ih => intro us b s; exact ih us

/-- the share price grows by the amount over the points, rounded down -/
theorem price_growth {d d' : Dist} {y P : Nat} (h : handOut d y P = .ok d') (hy : y < 2 ^ 96) :
    P ≠ 0 ∧ (y : Int) * 4294967296 - P < P * ((d'.spp : Int) - d.spp) := by
  obtain ⟨k0, k1, -, -, -⟩ := handOut_inv h
  have hlim : y * 4294967296 < U128_LIM := by
    have : U128_LIM = 2 ^ 96 * 4294967296 := by decide
    rw [this]; exact Nat.mul_lt_mul_of_pos_right hy (by decide)
  rw [Nat.mod_eq_of_lt hlim] at k1
  have hdm := Nat.div_add_mod (y * 4294967296 + d.leftover) P
  have hml := Nat.mod_lt (y * 4294967296 + d.leftover) (Nat.pos_of_ne_zero k0)
  refine ⟨k0, ?_⟩
  generalize (y * 4294967296 + d.leftover) / P = q at *
  generalize (y * 4294967296 + d.leftover) % P = m at *
  have e : (d'.spp : Int) - d.spp = q := by rw [k1]; push_cast; ring
  rw [e]
  have h1 : (P : Int) * q + m = y * 4294967296 + d.leftover := by exact_mod_cast hdm
  have h2 : (m : Int) < P := by exact_mod_cast hml
  have h3 := Int.natCast_nonneg d.leftover
  linarith

/-- the part of an amount that falls to points nobody has -/
theorem lost_part (K y P V : Nat) (w G X : Int) (hK : 0 < K) (hP : P ≠ 0) (hw : w ≤ P) (hg : (y : Int) * K - P ≤ P * G)
    (hm : K * X + G * (P - w) ≤ K * V) : (X : ℚ) + (y - P / K) * (1 - w / P) ≤ V := by
  have hK' : (0 : ℚ) < K := by exact_mod_cast hK
  have hP' : (0 : ℚ) < P := by exact_mod_cast Nat.pos_of_ne_zero hP
  have hw' : (w : ℚ) ≤ P := by exact_mod_cast hw
  have hg' : (y : ℚ) * K - P ≤ P * G := by exact_mod_cast hg
  have hm' : (K : ℚ) * X + G * (P - w) ≤ K * V := by exact_mod_cast hm
  have e : ((y : ℚ) - P / K) * (1 - w / P) * K = (y * K - P) / P * (P - w) := by
    field_simp
  have h1 : ((y : ℚ) * K - P) / P * (P - w) ≤ G * (P - w) := by
    refine mul_le_mul_of_nonneg_right ?_ (by linarith)
    rw [div_le_iff₀ hP']; linarith
  have h2 : (K : ℚ) * (X + (y - P / K) * (1 - w / P)) ≤ K * V := by
    rw [mul_add, mul_comm (K : ℚ) ((y - P / K) * (1 - w / P)), e]; linarith
  exact le_of_mul_le_mul_left h2 hK'

theorem two32 : ((4294967296 : ℕ) : ℚ) = 2 ^ 32 := by norm_num

/-- **C169** Some time in a history with truthful reports a distribution hands out `A` over a total stake of `T`, worth `W`
points; the users (all those with a stake are in `S`) have together `w` points.  Then for ever after, the contract holds, beyond
the undistributed rewards and everything that any users can claim, the part `1 - w / W` of `A` (less `W / 2^32` units of
rounding): nobody ever gets it. -/
theorem C169_unassigned_stays {me : Addr} {s : Sys} (h0 : Rewards.Spec.Genesis me s) (ts us : List Tx) {c0 : Ctx} {T : Int}
    (ht : ∀ t ∈ ts ++ .rewards c0 (.distribute T) :: us, Rewards.Spec.Possible me t)
    (hh : HonestRun me (fun _ => 0) s (ts ++ .rewards c0 (.distribute T) :: us)) {cfg : Config}
    (hc : queryConfig (Rewards.run me s ts).st = .ok cfg) {D A : Nat}
    (hD : queryDistributed (Rewards.run me s ts).st cfg.token = .ok D)
    (hA : queryDistributed (Rewards.run me s (ts ++ [.rewards c0 (.distribute T)])).st cfg.token = .ok (D + A))
    (hA0 : 0 < A) (hAs : A < 2 ^ 96) {S : Finset Addr} (hS : ∀ u, u ∉ S → bookAfter me (fun _ => 0) s ts u = 0)
    {W w : Int} (hW : W = weight cfg.minBond T) (hw : w = ∑ u ∈ S, weight cfg.minBond (bookAfter me (fun _ => 0) s ts u))
    (U : Finset Addr) (c : Addr → Ctx) (i : Addr → Info) (r : Addr → Nat)
    (hi : ∀ u ∈ U, (i u).total = bookAfter me (fun _ => 0) s (ts ++ .rewards c0 (.distribute T) :: us) u)
    (hr : ∀ u ∈ U, queryWithdrawable (c u) (Rewards.run me s (ts ++ .rewards c0 (.distribute T) :: us)).st u (i u) = .ok (r u))
    {x : Nat} (hx : queryUndistributed me (Rewards.run me s (ts ++ .rewards c0 (.distribute T) :: us)).st
      (Rewards.run me s (ts ++ .rewards c0 (.distribute T) :: us)).led cfg.token = .ok x) :
    ∑ u ∈ U, (r u : ℚ) + x + (A - W / 2 ^ 32) * (1 - w / W) ≤
      (Rewards.run me s (ts ++ .rewards c0 (.distribute T) :: us)).led.bal cfg.token me := by
  have hc' : (Rewards.run me s ts).st.cfg = some cfg := getConfig_ok.mp hc
  obtain ⟨hh1, hh2, hh3⟩ := honest_append ts _ hh
  have hv := run_hinv ts (fun t h => ht t (by simp [h])) (Rewards.genesis_inv h0) hh1 (genesis_hinv h0)
  have hrun : Rewards.run me s (ts ++ .rewards c0 (.distribute T) :: us) =
      Rewards.run me (exec me (Rewards.run me s ts) (.rewards c0 (.distribute T))) us := by simp [Rewards.run]
  have hrun1 : Rewards.run me s (ts ++ [.rewards c0 (.distribute T)]) =
      exec me (Rewards.run me s ts) (.rewards c0 (.distribute T)) := by simp [Rewards.run]
  rw [hrun1] at hA
  rw [hrun] at hr hx ⊢
  rw [book_append] at hi
  simp only [bookAfter] at hi
  generalize Rewards.run me s ts = z at *
  generalize bookAfter me (fun _ => 0) s ts = b at *
  have hwU : ∀ U : Finset Addr, ∑ u ∈ U, weight cfg.minBond (b u) ≤ w := by
    intro U
    have n0 : ∀ u, 0 ≤ weight cfg.minBond (b u) := fun u => weight_nonneg (hv.nonneg u)
    calc ∑ u ∈ U, weight cfg.minBond (b u) ≤ ∑ u ∈ U ∪ S, weight cfg.minBond (b u) :=
          Finset.sum_le_sum_of_subset_of_nonneg Finset.subset_union_left (fun u _ _ => n0 u)
      _ = w := by
          rw [hw]
          symm
          refine Finset.sum_subset Finset.subset_union_right (fun u _ hu => ?_)
          rw [hS u hu, Rewards.weight_zero]
  cases hstep : Rewards.step me z (.rewards c0 (.distribute T)) with
  | error e =>
    exfalso
    simp only [exec, hstep] at hA
    rw [hD, ok_inj] at hA
    omega
  | ok z1 =>
    have hex : exec me z (.rewards c0 (.distribute T)) = z1 := by simp only [exec, hstep]
    have hbk : book me b z (.rewards c0 (.distribute T)) = b := by unfold book; split <;> rfl
    rw [hex] at hA hr hx hi hh3 ⊢
    rw [hbk] at hi hh3
    simp only [Rewards.step, bind_ok, ok_inj] at hstep
    obtain ⟨v, hv1, rfl⟩ := hstep
    unfold queryDistributed at hD hA
    simp only [bind_ok, getConfig_ok, req_ok, ok_inj] at hD hA
    obtain ⟨_, -, _, -, hD⟩ := hD
    obtain ⟨_, -, _, -, hA⟩ := hA
    obtain ⟨cfg', h1, _, _, ⟨rfl, -⟩ | ⟨y, d, h2, h3, h4, h5, rfl⟩⟩ := distribute_inv hv1
    · omega
    rw [hc'] at h1; cases h1
    have k3 := (handOut_inv h5).2.2.2.1
    have hy : y = A := by simp only at hA; omega
    subst hy
    have hl : LInv 0 cfg b z.st := ⟨hv, hc', fun U => by have := hv.sum cfg hc' U; omega⟩
    have hl1 := linv_handOut (T := T) hh2 h3 h5 hl hwU
    have hl2 := run_linv us hh3 hl1
    have hsum := hl2.sum U
    have hcf := hl2.conf
    generalize (Rewards.run me ⟨{ z.st with dist := d }, z.led⟩ us) = f at *
    generalize bookAfter me b ⟨{ z.st with dist := d }, z.led⟩ us = bf at *
    have q1 : ∀ u ∈ U, 4294967296 * (r u : Int) ≤ due f.st cfg bf u := by
      intro u hu
      obtain ⟨cfg', m1, m2⟩ := queryWithdrawable_inv (hr u hu)
      rw [hcf] at m1; cases m1
      obtain ⟨g, m3, -, -, -, m4⟩ := payable_inv m2
      rw [hi u hu] at m3
      have := (claim_due m3).2
      omega
    have q2 := Finset.sum_le_sum q1
    rw [← Finset.mul_sum] at q2
    unfold queryUndistributed at hx
    simp only [bind_ok, getConfig_ok, req_ok, toU128_ok, subU_ok] at hx
    obtain ⟨_, -, _, _, B, hB, hle, rfl⟩ := hx
    obtain ⟨P, hP⟩ : ∃ P : Nat, (P : Int) = weight cfg.minBond T := ⟨(weight cfg.minBond T).toNat, by omega⟩
    rw [show (weight cfg.minBond T).toNat = P by omega] at h5
    obtain ⟨k0, hgrow⟩ := price_growth h5 hAs
    have hwW : w ≤ P := by rw [hw, hP]; exact weight_sum hv.nonneg S (hh2 S)
    rw [← hP] at hW hsum
    subst hW
    have h9 := Int.natCast_nonneg f.st.dist.leftover
    generalize (d.spp : Int) - z.st.dist.spp = G at *
    have main : 4294967296 * ∑ u ∈ U, (r u : Int) + G * (P - w) ≤ 4294967296 * (f.st.dist.withdrawable : Int) := by
      rw [zero_add] at hsum
      linarith
    have fin := lost_part 4294967296 y P f.st.dist.withdrawable w G (∑ u ∈ U, (r u : Int)) (by decide) k0 hwW hgrow.le main
    rw [two32, Int.cast_sum] at fin
    simp only [Int.cast_natCast] at fin ⊢
    have hbal : (f.led.bal cfg.token me : ℚ) = B := by rw [← hB]; exact Int.cast_natCast B
    rw [hbal, Nat.cast_sub hle]
    linarith

/-! Users 1 and 2 stake 1500 each, 3000 in total: three points, of which the two users have one each.  A third of the 300000
handed out on day 30 is nobody's. -/
def loHist : List Tx :=
  [ .rewards (rBy 9 0) (.init 9 50 40 10 1000 1000),
    .rewards (rBy 1 0) (.calcBond 1 ⟨[⟨1500, 0⟩], 0, 0⟩),
    .rewards (rBy 2 0) (.calcBond 2 ⟨[⟨1500, 0⟩], 0, 0⟩),
    .rewards (rBy 9 0) (.fund 0 8640000 1000000) ]
def loRest : List Tx := [ .rewards (rBy 1 61) (.withdraw 1 (rInfo 1500 0)), .rewards (rBy 2 61) (.withdraw 2 (rInfo 1500 0)) ]
def loAll : List Tx := loHist ++ .rewards (rBy 3 30) (.distribute 3000) :: loRest

theorem loAll_honest : HonestRun 100 (fun _ => 0) rExStart loAll ∧ bookAfter 100 (fun _ => 0) rExStart loAll = rBook 1500 1500 := by
  rw [rBook_zero]
  have key : ∀ (b b' : Book) (s : Sys) (t : Tx) (ts : List Tx) (B : Book), Honest b t → book 100 b s t = b' →
      (HonestRun 100 b' (Rewards.exec 100 s t) ts ∧ bookAfter 100 b' (Rewards.exec 100 s t) ts = B) →
      HonestRun 100 b s (t :: ts) ∧ bookAfter 100 b s (t :: ts) = B := by
    intro b b' s t ts B h1 h2 h3
    exact ⟨⟨h1, by rw [h2]; exact h3.1⟩, by show bookAfter 100 (book 100 b s t) _ ts = B; rw [h2]; exact h3.2⟩
  unfold loAll loHist loRest
  refine key _ (rBook 0 0) _ _ _ _ ?_ ?_ ?_
  · exact trivial
  · unfold book; split <;> rfl
  refine key _ (rBook 1500 0) _ _ _ _ ?_ ?_ ?_
  · exact ⟨rfl, by intro e he; cases he; decide⟩
  · unfold book; rw [if_pos (by decide +kernel)]; exact rBook_upd1 _ _ _
  refine key _ (rBook 1500 1500) _ _ _ _ ?_ ?_ ?_
  · exact ⟨rfl, by intro e he; cases he; decide⟩
  · unfold book; rw [if_pos (by decide +kernel)]; exact rBook_upd2 _ _ _
  refine key _ (rBook 1500 1500) _ _ _ _ ?_ ?_ ?_
  · exact trivial
  · unfold book; split <;> rfl
  refine key _ (rBook 1500 1500) _ _ _ _ ?_ ?_ ?_
  · exact rBook_sum (by decide) (by decide) (by decide)
  · unfold book; split <;> rfl
  refine key _ (rBook 1500 1500) _ _ _ _ ?_ ?_ ?_
  · exact rfl
  · unfold book; split <;> rfl
  refine key _ (rBook 1500 1500) _ _ _ _ ?_ ?_ ?_
  · exact rfl
  · unfold book; split <;> rfl
  exact ⟨trivial, rfl⟩

/-- 300000 are handed out, 200000 are paid, nothing more is shown to anybody, and 100000 stay besides the undistributed 700000 -/
example : queryDistributed (Rewards.run 100 rExStart loHist).st 40 = .ok 0 ∧
    queryDistributed (Rewards.run 100 rExStart (loHist ++ [.rewards (rBy 3 30) (.distribute 3000)])).st 40 = .ok (0 + 300000) ∧
    weight 1000 3000 = 3 ∧ weight 1000 1500 = 1 ∧
    (Rewards.run 100 rExStart loAll).led.bal 40 1 = 100000 ∧ (Rewards.run 100 rExStart loAll).led.bal 40 2 = 100000 ∧
    queryWithdrawable (rBy 1 90) (Rewards.run 100 rExStart loAll).st 1 (rInfo 1500 0) = .ok 0 ∧
    queryWithdrawable (rBy 2 90) (Rewards.run 100 rExStart loAll).st 2 (rInfo 1500 0) = .ok 0 ∧
    queryUndistributed 100 (Rewards.run 100 rExStart loAll).st (Rewards.run 100 rExStart loAll).led 40 = .ok 700000 ∧
    (Rewards.run 100 rExStart loAll).led.bal 40 100 = 800000 := by
  refine ⟨?_, ?_, ?_, ?_, ?_, ?_, ?_, ?_, ?_, ?_⟩ <;> decide +kernel
example : ∀ t ∈ loAll, Rewards.Spec.Possible 100 t := by
  intro t ht
  simp only [loAll, loHist, loRest, List.mem_append, List.mem_cons, List.not_mem_nil, or_false] at ht
  rcases ht with (rfl | rfl | rfl | rfl) | rfl | rfl | rfl <;> rfl

end Phoenix.Props.Lost
