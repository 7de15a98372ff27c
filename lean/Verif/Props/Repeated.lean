import Verif.Props.Rewards
import Mathlib.Data.Rat.Floor
import Mathlib.Tactic.FieldSimp
/-!
C165: the reduction of rewards for stakes younger than 60 days (C86) is one of each withdrawal, not of the reward: what a
withdrawal leaves can be withdrawn again in the same second, reduced again, and so on, until all but a few units are paid.
-/
namespace Phoenix.Props.Repeated
open Phoenix Rewards Rewards.Spec
open Phoenix.Stake (Info Entry)
open Phoenix.Spec (Settles SameRights Flow NoAllowance)

/-- the history, and then `n` times the same withdrawal -/
def again (ts : List Tx) (c : Ctx) (u : Addr) (i : Info) (n : Nat) : List Tx := ts ++ List.replicate n (.rewards c (.withdraw u i))

theorem again_succ (ts : List Tx) (c : Ctx) (u : Addr) (i : Info) (n : Nat) :
    again ts c u i (n + 1) = again ts c u i n ++ [.rewards c (.withdraw u i)] := by
  simp [again, List.replicate_succ']

theorem run_snoc (me : Addr) (s : Sys) (ts : List Tx) (t : Tx) :
    Rewards.run me s (ts ++ [t]) = exec me (Rewards.run me s ts) t := by simp [Rewards.run]

theorem honest_snoc {me : Addr} {t : Tx} : ∀ (ts : List Tx) {b : Book} {s : Sys}, HonestRun me b s ts →
    Honest (bookAfter me b s ts) t → HonestRun me b s (ts ++ [t]) := by
  intro ts
  induction ts with
  | nil => intro b s _ h; exact ⟨h, trivial⟩
  | cons a ts ih => intro b s h h2; exact ⟨h.1, ih h.2 h2⟩

theorem bookAfter_withdraw {me : Addr} {c : Ctx} {u : Addr} {i : Info} : ∀ (ts : List Tx) {b : Book} {s : Sys},
    bookAfter me b s (ts ++ [.rewards c (.withdraw u i)]) = bookAfter me b s ts := by
  intro ts
  induction ts with
  | nil => intro b s; simp only [List.nil_append, bookAfter, book]; split <;> rfl
  | cons a ts ih => intro b s; exact ih

theorem mulInt_mono {x x' y m : Int} (h : Dec.mulInt x m = .ok y) (h0 : 0 ≤ x') (h1 : x' ≤ x) (hm : 0 ≤ m) :
    ∃ y', Dec.mulInt x' m = .ok y' ∧ 0 ≤ y' ∧ y' ≤ y := by
  have key : ∀ {y'}, Dec.mulInt x' m = .ok y' → 0 ≤ y' ∧ y' ≤ y := by
    intro y' h'
    rw [Dec.mulInt_val h', Dec.mulInt_val h]
    have p1 : 0 ≤ x' * m := mul_nonneg h0 hm
    have p2 : x' * m ≤ x * m := mul_le_mul_of_nonneg_right h1 hm
    rw [Int.tdiv_eq_ediv_of_nonneg p1, Int.tdiv_eq_ediv_of_nonneg (p1.trans p2)]
    exact ⟨Int.ediv_nonneg p1 (by decide), Int.ediv_le_ediv (by decide) p2⟩
  suffices ∃ y', Dec.mulInt x' m = .ok y' by obtain ⟨y', h'⟩ := this; exact ⟨y', h', key h'⟩
  unfold Dec.mulInt at h ⊢
  by_cases hz : x' = 0 ∨ m = 0
  · rw [if_pos hz]; exact ⟨_, rfl⟩
  · rw [if_neg hz]
    rw [if_neg (by omega)] at h
    simp only [bind_ok, mulI_ok, divI_ok] at h ⊢
    obtain ⟨_, ⟨hr, rfl⟩, hd, hr2, -⟩ := h
    have p1 : 0 ≤ x' * m := mul_nonneg h0 hm
    have p2 : x' * m ≤ x * m := mul_le_mul_of_nonneg_right h1 hm
    refine ⟨(x' * m).tdiv Dec.ONE, _, ⟨?_, rfl⟩, hd, ?_, rfl⟩
    · simp only [InI128, I128_MIN] at hr ⊢; omega
    · rw [Int.tdiv_eq_ediv_of_nonneg p1]
      rw [Int.tdiv_eq_ediv_of_nonneg (p1.trans p2)] at hr2
      have q1 : 0 ≤ x' * m / Dec.ONE := Int.ediv_nonneg p1 (by decide)
      have q2 : x' * m / Dec.ONE ≤ x * m / Dec.ONE := Int.ediv_le_ediv (by decide) p2
      simp only [InI128, I128_MIN] at hr2 ⊢; omega

/-- a reward that can be queried can still be queried when less is left -/
theorem query_less {c c' : Ctx} {st st' : State} {u : Addr} {i j : Info} {r F' : Nat} (hq : queryWithdrawable c st u i = .ok r)
    (hcfg : st'.cfg = st.cfg) (hij : i.total = j.total) (hm : multiplier c'.now j.stakes = 10 ^ 18)
    (hF' : queryWithdrawable c' st' u j = .ok F') {F : Nat} (hF : queryWithdrawable c' st u j = .ok F) (hle : F' ≤ F) :
    ∃ r', queryWithdrawable c st' u i = .ok r' := by
  obtain ⟨cfg, j1, j2⟩ := queryWithdrawable_inv hq
  obtain ⟨cfg1, k1, k2⟩ := queryWithdrawable_inv hF
  obtain ⟨cfg2, l1, l2⟩ := queryWithdrawable_inv hF'
  rw [hcfg, j1] at l1; cases l1
  rw [j1] at k1; cases k1
  obtain ⟨f, b1, -, b2, -⟩ := payable_inv k2
  obtain ⟨f', d1, -, d2, -⟩ := payable_inv l2
  rw [hm] at b2 d2
  have e1 : f = F := by omega
  have e2 : f' = F' := by omega
  subst e1 e2
  unfold payable at j2
  simp only [bind_ok, toI128_ok] at j2
  obtain ⟨f1, a1, m, a2, _, ⟨a3, rfl⟩, a4⟩ := j2
  rw [hij, b1, ok_inj] at a1
  subst a1
  have hm0 := (withdrawPower_inv a2).2.1
  obtain ⟨y', y1, y2, y3⟩ := mulInt_mono (x' := (f' : Int)) a4 (by omega) (by omega) hm0
  refine ⟨y'.toNat, ?_⟩
  unfold queryWithdrawable payable
  simp only [bind_ok, getConfig_ok, toI128_ok, toU128_ok]
  exact ⟨cfg, hcfg.trans j1, y', ⟨f', by rw [hij]; exact d1, m, a2, _, ⟨by omega, rfl⟩, y1⟩, by omega⟩

/-- the state after `n` withdrawals in a row -/
theorem chain {me : Addr} {s : Sys} (h0 : Rewards.Spec.Genesis me s) (ts : List Tx)
    (ht : ∀ t ∈ ts, Rewards.Spec.Possible me t) (hh : HonestRun me (fun _ => 0) s ts) {c c' : Ctx} {u : Addr} {i j : Info}
    {r F : Nat} (hme : c.auth me = false) (hu : u ≠ me) (hi : i.total = bookAfter me (fun _ => 0) s ts u) (hij : i.total = j.total)
    {cfg : Config} (hc : queryConfig (Rewards.run me s ts).st = .ok cfg) (ha : c.auth cfg.staking = true)
    (hr : queryWithdrawable c (Rewards.run me s ts).st u i = .ok r) (hm : multiplier c'.now j.stakes = 10 ^ 18)
    (hF : queryWithdrawable c' (Rewards.run me s ts).st u j = .ok F)
    (hb : (Rewards.run me s ts).led.bal cfg.token me ≤ I128_MAX)
    (hb' : (Rewards.run me s ts).led.bal cfg.token u + F ≤ I128_MAX) (n : Nat) :
    (∀ t ∈ again ts c u i n, Rewards.Spec.Possible me t) ∧ HonestRun me (fun _ => 0) s (again ts c u i n) ∧
    bookAfter me (fun _ => 0) s (again ts c u i n) = bookAfter me (fun _ => 0) s ts ∧
    queryConfig (Rewards.run me s (again ts c u i n)).st = .ok cfg ∧
    ∃ R G, queryWithdrawable c' (Rewards.run me s (again ts c u i n)).st u j = .ok R ∧ R ≤ F ∧
      queryWithdrawable c (Rewards.run me s (again ts c u i n)).st u i = .ok G ∧
      (Rewards.run me s (again ts c u i n)).led.bal cfg.token u = (Rewards.run me s ts).led.bal cfg.token u + (F - R) ∧
      (Rewards.run me s (again ts c u i n)).led.bal cfg.token me = (Rewards.run me s ts).led.bal cfg.token me - (F - R) ∧
      (R * multiplier c.now i.stakes < 10 ^ 18 ∨ R + n ≤ F) ∧
      (0 < multiplier c.now i.stakes →
        (R : ℚ) ≤ F * (1 - multiplier c.now i.stakes / 10 ^ 18) ^ n + 10 ^ 18 / multiplier c.now i.stakes) := by
  induction n with
  | zero =>
    simp only [again, List.replicate_zero, List.append_nil]
    refine ⟨ht, hh, trivial, hc, F, r, hF, le_refl _, hr, by omega, by omega, .inr (by omega), fun hM => ?_⟩
    have : (0 : ℚ) < multiplier c.now i.stakes := by exact_mod_cast hM
    have : (0 : ℚ) ≤ 10 ^ 18 / multiplier c.now i.stakes := by positivity
    simpa using this
  | succ n ih =>
    obtain ⟨i1, i2, i3, i4, R, G, i5, i6, i7, i8, i9, i10, i11⟩ := ih
    rw [again_succ]
    generalize again ts c u i n = us at *
    have hG := (C86_reduced_by_multiplier hij hm i7 i5).2
    obtain ⟨s', k1, -⟩ := C85_query_then_withdraw h0 us i1 i2 hu (by rw [i3]; exact hi) i4 ha i7 (by omega) (by omega)
    obtain ⟨cfg2, G', l1, l2, l3, l4, l5⟩ := C86_rest_stays k1 hij hm i5
    rw [i4, ok_inj] at l1; subst l1
    rw [i7, ok_inj] at l2; subst l2
    have hrun : Rewards.run me s (us ++ [.rewards c (.withdraw u i)]) = s' := by rw [run_snoc]; simp [exec, k1]
    have hcfg := (step_cfg k1 (getConfig_ok.mp i4)).1
    obtain ⟨G2, hG2⟩ := query_less i7 (hcfg.trans (getConfig_ok.mp i4).symm) hij hm l4 i5 (Nat.sub_le _ _)
    have b1 := l3 cfg.token u
    have b2 := l3 cfg.token me
    simp [Flow.delta, hu, hu.symm] at b1 b2
    refine ⟨?_, honest_snoc us i2 (by simp only [Honest]; rw [i3]; exact hi), by rw [bookAfter_withdraw, i3], ?_, ?_⟩
    · intro t h
      rcases List.mem_append.mp h with h | h
      · exact i1 t h
      · simp only [List.mem_singleton] at h; subst h; exact hme
    · rw [hrun]; exact getConfig_ok.mpr hcfg
    · rw [hrun]
      have hGv := (C86_reduced_by_multiplier hij hm i7 i5).1
      obtain ⟨cfgx, -, hpay⟩ := queryWithdrawable_inv i7
      obtain ⟨-, -, hwp, -⟩ := payable_inv hpay
      obtain ⟨-, m0, m1, -⟩ := withdrawPower_inv hwp
      have m1' : multiplier c.now i.stakes ≤ 10 ^ 18 := m1
      generalize multiplier c.now i.stakes = M at *
      have hdm := Int.mul_ediv_add_emod ((R : Int) * M) (10 ^ 18)
      have hmod := Int.emod_lt_of_pos ((R : Int) * M) (show (0 : Int) < 10 ^ 18 by norm_num)
      have hmod0 := Int.emod_nonneg ((R : Int) * M) (show (10 : Int) ^ 18 ≠ 0 by norm_num)
      rw [← hGv] at hdm
      refine ⟨R - G, G2, l4, by omega, hG2, by omega, by omega, ?_, fun hM => ?_⟩
      · by_cases hz : (R : Int) * M < 10 ^ 18
        · left
          refine lt_of_le_of_lt (mul_le_mul_of_nonneg_right ?_ m0) hz
          exact_mod_cast Nat.sub_le R G
        · rcases i10 with i10 | i10
          · exact absurd i10 hz
          · right
            have : 1 ≤ G := by
              by_contra hG0
              have : G = 0 := by omega
              subst this
              push_cast at hdm
              omega
            omega
      · have hMq : (0 : ℚ) < M := by exact_mod_cast hM
        have hM1 : (M : ℚ) ≤ 10 ^ 18 := by exact_mod_cast m1'
        have hlow : (R : ℚ) * M < 10 ^ 18 * (G + 1) := by
          have : (R : Int) * M < 10 ^ 18 * (G + 1) := by linarith
          exact_mod_cast this
        have h11 := i11 hM
        rw [Nat.cast_sub hG]
        set q : ℚ := (M : ℚ) / 10 ^ 18 with hq
        have hq0 : 0 < q := by positivity
        have hq1 : q ≤ 1 := by rw [hq, div_le_one (by positivity)]; exact hM1
        have hinv : (10 ^ 18 : ℚ) / M = 1 / q := by rw [hq]; field_simp
        rw [hinv] at h11 ⊢
        have hlow' : (R : ℚ) * q < G + 1 := by
          rw [hq, ← mul_div_assoc, div_lt_iff₀ (by positivity)]
          linarith
        have hstep : (R : ℚ) * (1 - q) ≤ (F * (1 - q) ^ n + 1 / q) * (1 - q) :=
          mul_le_mul_of_nonneg_right h11 (by linarith)
        have hid : (1 / q) * (1 - q) = 1 / q - 1 := by field_simp
        have : (F * (1 - q) ^ n + 1 / q) * (1 - q) = F * (1 - q) ^ (n + 1) + (1 / q - 1) := by
          rw [add_mul, hid, pow_succ]; ring
        linarith

/-- **C165** The reduction for young stakes applies to each withdrawal of what is left, not to the reward.  Let `F` be the
full reward of a user (shown for the same total with stakes that are all old enough) and `q` the multiplier of their stakes
now, above 0.  Withdrawing `n` times in the same second always succeeds and leaves of `F` at most `F (1 - q)^n + 1 / q`; the rest
is paid to the user. -/
theorem C165_repeated {me : Addr} {s : Sys} (h0 : Rewards.Spec.Genesis me s) (ts : List Tx)
    (ht : ∀ t ∈ ts, Rewards.Spec.Possible me t) (hh : HonestRun me (fun _ => 0) s ts) {c c' : Ctx} {u : Addr} {i j : Info}
    {r F : Nat} (hme : c.auth me = false) (hu : u ≠ me) (hi : i.total = bookAfter me (fun _ => 0) s ts u) (hij : i.total = j.total)
    {cfg : Config} (hc : queryConfig (Rewards.run me s ts).st = .ok cfg) (ha : c.auth cfg.staking = true)
    (hr : queryWithdrawable c (Rewards.run me s ts).st u i = .ok r) (hm : multiplier c'.now j.stakes = 10 ^ 18)
    (hF : queryWithdrawable c' (Rewards.run me s ts).st u j = .ok F)
    (hb : (Rewards.run me s ts).led.bal cfg.token me ≤ I128_MAX)
    (hb' : (Rewards.run me s ts).led.bal cfg.token u + F ≤ I128_MAX)
    {q : ℚ} (hq : q = multiplier c.now i.stakes / 10 ^ 18) (hq0 : 0 < q) (n : Nat) :
    ∃ R : Nat, R ≤ F ∧ (R : ℚ) ≤ F * (1 - q) ^ n + 1 / q ∧
      (Rewards.run me s (again ts c u i n)).led.bal cfg.token u = (Rewards.run me s ts).led.bal cfg.token u + (F - R) := by
  obtain ⟨-, -, -, -, R, G, -, k0, -, k1, -, -, k2⟩ := chain h0 ts ht hh hme hu hi hij hc ha hr hm hF hb hb' n
  have hM : 0 < multiplier c.now i.stakes := by
    by_contra hle
    have : (multiplier c.now i.stakes : ℚ) ≤ 0 := by exact_mod_cast not_lt.mp hle
    have : q ≤ 0 := by rw [hq]; exact div_nonpos_of_nonpos_of_nonneg this (by positivity)
    linarith
  refine ⟨R, k0, ?_, k1⟩
  have h := k2 hM
  have hinv : (10 ^ 18 : ℚ) / multiplier c.now i.stakes = 1 / q := by rw [hq]; simp
  rw [hinv, ← hq] at h
  exact h

/-- **C165** So a user whose multiplier `q` is not 0 can take out, in one second, all of the full reward but less than `1 / q` units, by withdrawing sufficiently often (as often as the reward has units is enough; by C165_repeated far fewer are). -/
theorem C165_all_in_one_second {me : Addr} {s : Sys} (h0 : Rewards.Spec.Genesis me s) (ts : List Tx)
    (ht : ∀ t ∈ ts, Rewards.Spec.Possible me t) (hh : HonestRun me (fun _ => 0) s ts) {c c' : Ctx} {u : Addr} {i j : Info}
    {r F : Nat} (hme : c.auth me = false) (hu : u ≠ me) (hi : i.total = bookAfter me (fun _ => 0) s ts u) (hij : i.total = j.total)
    {cfg : Config} (hc : queryConfig (Rewards.run me s ts).st = .ok cfg) (ha : c.auth cfg.staking = true)
    (hr : queryWithdrawable c (Rewards.run me s ts).st u i = .ok r) (hm : multiplier c'.now j.stakes = 10 ^ 18)
    (hF : queryWithdrawable c' (Rewards.run me s ts).st u j = .ok F)
    (hb : (Rewards.run me s ts).led.bal cfg.token me ≤ I128_MAX)
    (hb' : (Rewards.run me s ts).led.bal cfg.token u + F ≤ I128_MAX) (n : Nat) (hn : F ≤ n) :
    ∃ R : Nat, R ≤ F ∧ (R : ℚ) * (multiplier c.now i.stakes / 10 ^ 18) < 1 ∧
      (Rewards.run me s (again ts c u i n)).led.bal cfg.token u = (Rewards.run me s ts).led.bal cfg.token u + (F - R) := by
  obtain ⟨-, -, -, -, R, G, -, k0, -, k1, -, k2, -⟩ := chain h0 ts ht hh hme hu hi hij hc ha hr hm hF hb hb' n
  refine ⟨R, k0, ?_, k1⟩
  have h : (R : Int) * multiplier c.now i.stakes < 10 ^ 18 := by
    rcases k2 with h | h
    · exact h
    · have : R = 0 := by omega
      subst this; norm_num
  rw [← mul_div_assoc, div_lt_one (by positivity)]
  exact_mod_cast h

/-! The example of C86: on day 30 user 2, whose stake is 30 days old, has a full reward of 100000, of which the query shows half. -/
theorem honest_take {me : Addr} : ∀ (ts : List Tx) (n : Nat) {b : Book} {s : Sys}, HonestRun me b s ts → HonestRun me b s (ts.take n) := by
  intro ts
  induction ts with
  | nil => intro n b s h; simpa using h
  | cons t ts ih =>
    intro n b s h
    cases n with
    | zero => trivial
    | succ n => exact ⟨h.1, ih n h.2⟩

/-- Ten withdrawals in one second leave less than 100 units, and a hundred thousand leave at most one. -/
example : (∃ R : Nat, R < 100 ∧ (Rewards.run 100 rExStart (again (rExHist.take 5) (rBy 2 30) 2 (rInfo 5000 0) 10)).led.bal 40 2 =
      (Rewards.run 100 rExStart (rExHist.take 5)).led.bal 40 2 + ((100000 : Nat) - R)) ∧
    (∃ R : Nat, R ≤ 1 ∧ (Rewards.run 100 rExStart (again (rExHist.take 5) (rBy 2 30) 2 (rInfo 5000 0) 100000)).led.bal 40 2 =
      (Rewards.run 100 rExStart (rExHist.take 5)).led.bal 40 2 + ((100000 : Nat) - R)) := by
  have hp : ∀ t ∈ rExHist.take 5, Rewards.Spec.Possible 100 t := fun t h => rExHist_possible t (List.mem_of_mem_take h)
  have hm : multiplier (rBy 2 30).now (rInfo 5000 0).stakes = 5 * 10 ^ 17 := by decide +kernel
  have hc : queryConfig (Rewards.run 100 rExStart (rExHist.take 5)).st = .ok ⟨50, 40, 10, 1000, 1000⟩ := by decide +kernel
  have hi : (rInfo 5000 0).total = bookAfter 100 (fun _ => 0) rExStart (rExHist.take 5) 2 := by decide +kernel
  have hr : queryWithdrawable (rBy 2 30) (Rewards.run 100 rExStart (rExHist.take 5)).st 2 (rInfo 5000 0) = .ok 50000 := by
    decide +kernel
  have hF : queryWithdrawable (rBy 2 61) (Rewards.run 100 rExStart (rExHist.take 5)).st 2 (rInfo 5000 0) = .ok 100000 := by
    decide +kernel
  have hM : multiplier (rBy 2 61).now (rInfo 5000 0).stakes = 10 ^ 18 := by decide +kernel
  have hb : (Rewards.run 100 rExStart (rExHist.take 5)).led.bal 40 100 ≤ I128_MAX := by decide +kernel
  have hb' : (Rewards.run 100 rExStart (rExHist.take 5)).led.bal 40 2 + (100000 : Nat) ≤ I128_MAX := by decide +kernel
  constructor
  · obtain ⟨R, -, h1, h2⟩ := C165_repeated rExStart_genesis _ hp (honest_take _ 5 rExHist_honest.1) (by decide) (by decide) hi rfl hc
      (by decide) hr hM hF hb hb' (q := 1 / 2) (by rw [hm]; norm_num) (by norm_num) 10
    refine ⟨R, ?_, h2⟩
    have : (R : ℚ) < 100 := lt_of_le_of_lt h1 (by norm_num)
    exact_mod_cast this
  · obtain ⟨R, -, h1, h2⟩ := C165_all_in_one_second rExStart_genesis _ hp (honest_take _ 5 rExHist_honest.1) (by decide) (by decide) hi rfl hc
      (by decide) hr hM hF hb hb' 100000 (le_refl _)
    refine ⟨R, ?_, h2⟩
    rw [hm] at h1
    have : (R : ℚ) < 2 := by norm_num at h1; linarith
    have : R < 2 := by exact_mod_cast this
    omega

end Phoenix.Props.Repeated
