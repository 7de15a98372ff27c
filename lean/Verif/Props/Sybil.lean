import Verif.Props.Rewards
import Verif.Spec.EventsRewards
/-!
C168: in the reward contract an account with at least the stake of several others together earns at least what they earn
together, but for rounding of one unit per account: spreading a stake over many accounts does not pay.
-/
namespace Phoenix.Props.Sybil
open Phoenix Rewards Rewards.Spec
open Phoenix.Stake (Info Entry)
open Phoenix.Spec (Settles)

/-- No change of the stake of `u` is reported.  Withdrawals, for `u` as for others, may happen. -/
def Unchanged (u : Addr) : Tx → Prop
  | .rewards _ (.addUser v _) => v ≠ u
  | .rewards _ (.calcBond v _) => v ≠ u
  | .rewards _ (.calcUnbond v _ _) => v ≠ u
  | _ => True

/-- What `u` earned in the history `ts`: what they were paid, and the change of the full reward shown (that is, the one
shown for stakes `j` at a time `d` at which the 60-day rule no longer reduces it). -/
def Earned (me : Addr) (s : Sys) (ts : List Tx) (tok u : Addr) (d : Ctx) (j : Info) (E : Int) : Prop :=
  ∃ F G : Nat, multiplier d.now j.stakes = 10 ^ 18 ∧ queryWithdrawable d s.st u j = .ok F ∧
    queryWithdrawable d (Rewards.run me s ts).st u j = .ok G ∧ E = rewarded me tok u s ts + G - F

/-- parts of a stake are worth at most as many points as the whole -/
theorem weight_parts {mb X : Int} (U : Finset Addr) (x : Addr → Int) (h0 : ∀ u ∈ U, 0 ≤ x u) (hX : ∑ u ∈ U, x u ≤ X) :
    ∑ u ∈ U, weight mb (x u) ≤ weight mb X := by
  have hle : ∀ u ∈ U, x u ≤ X := fun u hu => (Finset.single_le_sum h0 hu).trans hX
  have hpos : 0 ≤ ∑ u ∈ U, x u := Finset.sum_nonneg h0
  by_cases hb : X < mb
  · have : ∀ u ∈ U, weight mb (x u) = 0 := fun u hu => by
      have := hle u hu
      unfold weight; rw [if_pos (by omega)]
    rw [Finset.sum_eq_zero this]
    exact weight_nonneg (by omega)
  · have e : weight mb X = X / 1000 := by unfold weight; rw [if_neg hb, Int.tdiv_eq_ediv_of_nonneg (by omega)]
    rw [e]
    have p : ∀ u ∈ U, weight mb (x u) * 1000 ≤ x u := fun u hu => by
      have := h0 u hu
      unfold weight; split
      · omega
      · rw [Int.tdiv_eq_ediv_of_nonneg this]; omega
    have q := (Finset.sum_le_sum p).trans hX
    rw [← Finset.sum_mul] at q
    omega

theorem step_still {me : Addr} {s s' : Sys} {t : Tx} {u : Addr} (hu : u ≠ me) (ht : Unchanged u t)
    (h : Rewards.step me s t = .ok s') {cfg : Config} (hc : s.st.cfg = some cfg) :
    (s'.st.adj u).corr = (s.st.adj u).corr ∧ s.st.dist.spp ≤ s'.st.dist.spp ∧
    ((s'.st.adj u).withdrawn : Int) = (s.st.adj u).withdrawn +
      (if payee t = none then 0 else s'.led.bal cfg.token u - s.led.bal cfg.token u) := by
  cases t with
  | token c tok op =>
    simp only [Rewards.step, bind_ok, ok_inj] at h
    obtain ⟨L, hL, rfl⟩ := h
    simp [payee]
  | rewards c k =>
    cases k with
    | init a st tok mc mr mb =>
      simp only [Rewards.step, Rewards.init, bind_ok, req_ok, hc] at h
      obtain ⟨_, ⟨_, e, -⟩, -⟩ := h
      cases e
    | distribute T =>
      simp only [Rewards.step, bind_ok, ok_inj] at h
      obtain ⟨w, hi, rfl⟩ := h
      obtain ⟨_, -, -, -, h | ⟨_, _, -, -, -, hh, rfl⟩⟩ := distribute_inv hi
      · rw [h.1]; simp [payee]
      · have := (handOut_inv hh).2.1
        refine ⟨rfl, ?_, by simp [payee]⟩
        show s.st.dist.spp ≤ _
        rw [this]; exact Nat.le_add_right _ _
    | addUser v j =>
      simp only [Rewards.step, bind_ok, ok_inj] at h
      obtain ⟨w, hi', rfl⟩ := h
      obtain ⟨_, _, _, rfl⟩ := addUser_inv hi'
      simp [payee, upd_ne _ _ (Ne.symm ht)]
    | calcBond v j =>
      simp only [Rewards.step, bind_ok, ok_inj] at h
      obtain ⟨w, hi', rfl⟩ := h
      obtain ⟨_, _, _, _, _, rfl⟩ := calcBond_inv hi'
      simp [payee, upd_ne _ _ (Ne.symm ht)]
    | calcUnbond v j y =>
      simp only [Rewards.step, bind_ok, ok_inj] at h
      obtain ⟨⟨w, L⟩, hi', rfl⟩ := h
      obtain ⟨cfg', x, h1, _, _, _, _, _, rfl, -, hs, -⟩ := calcUnbond_inv hi'
      rw [hc] at h1; cases h1
      have hne : u ≠ v := Ne.symm ht
      have hb := Stake.settles_me (me := u) hs cfg.token
      rw [if_neg (by rintro ⟨-, e⟩; exact hne e.symm), if_neg (by rintro ⟨-, e⟩; exact hu e.symm)] at hb
      simp only [paidState, upd_ne _ _ hne, payee]
      simp [hb]
    | withdraw v j =>
      simp only [Rewards.step, bind_ok, ok_inj] at h
      obtain ⟨⟨w, L⟩, hi', rfl⟩ := h
      obtain ⟨cfg', x, h1, _, _, hx, _, rfl, -, hs, -⟩ := withdraw_inv hi'
      rw [hc] at h1; cases h1
      have hb := Stake.settles_me (me := u) hs cfg.token
      rw [if_neg (c := cfg.token = cfg.token ∧ me = u) (by rintro ⟨-, e⟩; exact hu e.symm)] at hb
      by_cases hv : v = u
      · subst hv
        simp only [paidState, upd_same, payee]
        simp only [true_and, if_true] at hb
        refine ⟨trivial, le_refl _, ?_⟩
        simp only [reduceCtorEq, if_false, hb]
        push_cast; omega
      · have hne : u ≠ v := Ne.symm hv
        rw [if_neg (by rintro ⟨-, e⟩; exact hv e)] at hb
        simp only [paidState, upd_ne _ _ hne, payee]
        simp [hb]
    | fund a d x =>
      simp only [Rewards.step, bind_ok, ok_inj] at h
      obtain ⟨⟨w, L⟩, hi', rfl⟩ := h
      obtain ⟨cfg, kv, _, _, _, _, _, _, _, _, _, rfl, -⟩ := fund_inv hi'
      simp [payee]

theorem run_still {me u : Addr} (hu : u ≠ me) {cfg : Config} : ∀ (ts : List Tx) {s : Sys}, (∀ t ∈ ts, Unchanged u t) →
    s.st.cfg = some cfg → (Rewards.run me s ts).st.cfg = some cfg ∧
    ((Rewards.run me s ts).st.adj u).corr = (s.st.adj u).corr ∧ s.st.dist.spp ≤ (Rewards.run me s ts).st.dist.spp ∧
    (((Rewards.run me s ts).st.adj u).withdrawn : Int) = (s.st.adj u).withdrawn + rewarded me cfg.token u s ts := by
  intro ts
  induction ts with
  | nil => intro s _ hc; exact ⟨hc, rfl, le_refl _, by simp [rewarded, Rewards.run]⟩
  | cons t ts ih =>
    intro s ha hc
    have key : (exec me s t).st.cfg = some cfg ∧ ((exec me s t).st.adj u).corr = (s.st.adj u).corr ∧
        s.st.dist.spp ≤ (exec me s t).st.dist.spp ∧ (((exec me s t).st.adj u).withdrawn : Int) = (s.st.adj u).withdrawn +
        (if payee t = none then 0 else (exec me s t).led.bal cfg.token u - s.led.bal cfg.token u) := by
      unfold exec
      cases h : Rewards.step me s t with
      | error e => exact ⟨hc, rfl, le_refl _, by simp⟩
      | ok s' => exact ⟨(step_cfg h hc).1, step_still hu (ha t (by simp)) h hc⟩
    obtain ⟨h1, h2, h3, h4⟩ := ih (s := exec me s t) (fun t h => ha t (by simp [h])) key.1
    refine ⟨h1, h2.trans key.2.1, key.2.2.1.trans h3, ?_⟩
    have e := key.2.2.2
    simp only [rewarded]
    change (((Rewards.run me (exec me s t) ts).st.adj u).withdrawn : Int) = _
    omega

/-- what is earned, up to one unit, is the growth of the share price times the points of the stake -/
theorem earned_bounds {me : Addr} {s : Sys} {ts : List Tx} {u : Addr} {d : Ctx} {j : Info} {E : Int} {cfg : Config} (hu : u ≠ me)
    (hc : s.st.cfg = some cfg) (ht : ∀ t ∈ ts, Unchanged u t) (h : Earned me s ts cfg.token u d j E) :
    let D : Int := (Rewards.run me s ts).st.dist.spp - s.st.dist.spp
    0 ≤ D ∧ 4294967296 * (E - 1) < D * weight cfg.minBond j.total ∧ D * weight cfg.minBond j.total < 4294967296 * (E + 1) := by
  obtain ⟨F, G, hm, hF, hG, rfl⟩ := h
  obtain ⟨r1, r2, r3, r4⟩ := run_still hu ts ht hc
  obtain ⟨cfg1, j1, j2⟩ := queryWithdrawable_inv hF
  rw [hc] at j1; cases j1
  obtain ⟨cfg1, j1, j3⟩ := queryWithdrawable_inv hG
  rw [r1] at j1; cases j1
  obtain ⟨f, k1, -, k2, -⟩ := payable_inv j2
  obtain ⟨g, l1, -, l2, -⟩ := payable_inv j3
  have a := (claim_inv k1).2
  have b := (claim_inv l1).2
  rw [hm] at k2 l2
  have e1 : (F : Int) = f := by rw [k2]; exact Int.mul_ediv_cancel _ (by decide)
  have e2 : (G : Int) = g := by rw [l2]; exact Int.mul_ediv_cancel _ (by decide)
  rw [r2] at b
  simp only [sub_mul]
  generalize (s.st.dist.spp : Int) * weight cfg.minBond j.total = A at *
  generalize ((Rewards.run me s ts).st.dist.spp : Int) * weight cfg.minBond j.total = B at *
  refine ⟨by omega, by omega, by omega⟩

/-- **C168** In any stretch of a history in which none of the accounts concerned changes its stake: accounts `U` whose stakes
together are at most the stake of another account `v` earn together at most what `v` earns, but for one unit each.  Nothing
is assumed about the reports or about when who withdraws. -/
theorem C168_splitting_never_pays {me : Addr} {s : Sys} {cfg : Config} (hc : queryConfig s.st = .ok cfg) (ts : List Tx)
    (U : Finset Addr) (v : Addr) (hv : v ≠ me) (hU : ∀ u ∈ U, u ≠ me) (d : Addr → Ctx) (j : Addr → Info) (E : Addr → Int)
    (hts : ∀ t ∈ ts, Unchanged v t ∧ ∀ u ∈ U, Unchanged u t)
    (h0 : ∀ u ∈ U, 0 ≤ (j u).total) (hsum : ∑ u ∈ U, (j u).total ≤ (j v).total)
    (hE : ∀ u ∈ insert v U, Earned me s ts cfg.token u (d u) (j u) (E u)) :
    ∑ u ∈ U, E u ≤ E v + U.card := by
  have hc' : s.st.cfg = some cfg := getConfig_ok.mp hc
  obtain ⟨hD, -, hv2⟩ := earned_bounds hv hc' (fun t h => (hts t h).1) (hE v (by simp))
  have hw := weight_parts (mb := cfg.minBond) U (fun u => (j u).total) h0 hsum
  have hu : ∀ u ∈ U, 4294967296 * (E u - 1) ≤
      (((Rewards.run me s ts).st.dist.spp : Int) - s.st.dist.spp) * weight cfg.minBond (j u).total := fun u h =>
    (earned_bounds (hU u h) hc' (fun t ht => (hts t ht).2 u h) (hE u (by simp [h]))).2.1.le
  have hs := Finset.sum_le_sum hu
  rw [← Finset.mul_sum, ← Finset.mul_sum, Finset.sum_sub_distrib] at hs
  simp only [Finset.sum_const, nsmul_eq_mul, mul_one] at hs
  have := mul_le_mul_of_nonneg_left hw hD
  omega

/-- **C168** Two accounts with equal stakes earn the same, but for one unit. -/
theorem C168_equal_stakes {me : Addr} {s : Sys} {cfg : Config} (hc : queryConfig s.st = .ok cfg) (ts : List Tx)
    {u v : Addr} (hu : u ≠ me) (hv : v ≠ me) {d d' : Ctx} {i j : Info} {E E' : Int}
    (hts : ∀ t ∈ ts, Unchanged u t ∧ Unchanged v t) (hij : i.total = j.total)
    (hE : Earned me s ts cfg.token u d i E) (hE' : Earned me s ts cfg.token v d' j E') : E ≤ E' + 1 ∧ E' ≤ E + 1 := by
  have hc' : s.st.cfg = some cfg := getConfig_ok.mp hc
  obtain ⟨-, a1, a2⟩ := earned_bounds hu hc' (fun t h => (hts t h).1) hE
  obtain ⟨-, b1, b2⟩ := earned_bounds hv hc' (fun t h => (hts t h).2) hE'
  rw [hij] at a1 a2
  constructor <;> omega

/-! User 1 stakes 3000, users 2 and 3 stake 1500 each.  One point is a thousand tokens: the two together have two points, user
1 has three.  Of a distribution of 300000 user 1 earns 180000, of which half is withdrawn on the way, the others 60000 each. -/
def syStart : Sys := Rewards.run 100 rExStart
  [ .rewards (rBy 9 0) (.init 9 50 40 10 1000 1000),
    .rewards (rBy 1 0) (.calcBond 1 ⟨[⟨3000, 0⟩], 0, 0⟩),
    .rewards (rBy 2 0) (.calcBond 2 ⟨[⟨1500, 0⟩], 0, 0⟩),
    .rewards (rBy 3 0) (.calcBond 3 ⟨[⟨1500, 0⟩], 0, 0⟩),
    .rewards (rBy 9 0) (.fund 0 8640000 1000000) ]
def syHist : List Tx := [ .rewards (rBy 4 30) (.distribute 5000), .rewards (rBy 1 30) (.withdraw 1 (rInfo 3000 0)) ]

theorem sy_earned : Earned 100 syStart syHist 40 1 (rBy 1 61) (rInfo 3000 0) 180000 ∧
    Earned 100 syStart syHist 40 2 (rBy 2 61) (rInfo 1500 0) 60000 ∧
    Earned 100 syStart syHist 40 3 (rBy 3 61) (rInfo 1500 0) 60000 := by
  refine ⟨⟨0, 90000, ?_, ?_, ?_, ?_⟩, ⟨0, 60000, ?_, ?_, ?_, ?_⟩, ⟨0, 60000, ?_, ?_, ?_, ?_⟩⟩ <;> decide +kernel

example : queryConfig syStart.st = .ok ⟨50, 40, 10, 1000, 1000⟩ ∧ (∀ t ∈ syHist, Unchanged 1 t ∧ ∀ u ∈ ({2, 3} : Finset Addr), Unchanged u t) := by
  refine ⟨by decide +kernel, ?_⟩
  intro t ht
  simp only [syHist, List.mem_cons, List.not_mem_nil, or_false] at ht
  rcases ht with rfl | rfl <;> exact ⟨trivial, fun _ _ => trivial⟩

end Phoenix.Props.Sybil
