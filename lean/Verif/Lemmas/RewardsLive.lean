import Verif.Spec.AvailRewards
import Verif.Lemmas.RewardsSys
/-! The reward distribution contract: when its calls go through (helpers only). -/
namespace Phoenix.Rewards
open Phoenix Phoenix.Spec Stake Rewards.Spec

/-- Size invariant of all histories. -/
structure SInv (s : State) : Prop where
  spp : s.dist.spp + s.dist.leftover ≤ 1 + 4294967296 * s.dist.distributed
  paid : ∀ u, (s.adj u).withdrawn + s.dist.withdrawable ≤ s.dist.distributed

theorem genesis_sinv {me : Addr} {s : Sys} (h : Spec.Genesis me s) : SInv s.st := by
  rw [h.1]; exact ⟨by simp [fresh], fun u => by simp [fresh]⟩

theorem sinv_handOut {d d' : Dist} {x P : Nat} (h : handOut d x P = .ok d')
    (hs : d.spp + d.leftover ≤ 1 + 4294967296 * d.distributed) :
    d'.spp + d'.leftover ≤ 1 + 4294967296 * d'.distributed := by
  obtain ⟨h1, h2, h3, h4, -⟩ := handOut_inv h
  rw [h2, h3, h4]
  have e6 : x * 4294967296 % U128_LIM ≤ x * 4294967296 := Nat.mod_le _ _
  generalize x * 4294967296 % U128_LIM = y at *
  generalize hq : y + d.leftover = q at *
  have e4 : P * (q / P) + q % P = q := Nat.div_add_mod q P
  have e5 : q % P % U64_LIM ≤ q % P := Nat.mod_le _ _
  have e7 : 1 * (q / P) ≤ P * (q / P) := Nat.mul_le_mul_right _ (by omega)
  generalize P * (q / P) = A at *
  generalize q % P % U64_LIM = B at *
  generalize q % P = C at *
  generalize q / P = E at *
  omega

theorem step_sinv {me : Addr} {s s' : Sys} {t : Tx} (h : step me s t = .ok s') (hi : Inv me s) (hs : SInv s.st) :
    SInv s'.st := by
  cases t with
  | token c tok op =>
    simp only [step, bind_ok, ok_inj] at h
    obtain ⟨L, hL, rfl⟩ := h
    exact hs
  | rewards c k =>
    rcases step_kinds h with ⟨hled, hp, hf⟩ | ⟨cfg, u, i, x, e1, e2, e3, e4, e5, e6, e7, ⟨e8, e9, e10, e11, e12⟩, e13, e14, e15⟩ |
        ⟨cfg, a, d, x, kv, e1, rfl, e2, e3, e4, e5, e6, e7, e8, e9, e10, e11⟩
    · cases k with
      | init a st tok mc mr mb =>
        simp only [step, bind_ok, ok_inj] at h
        obtain ⟨v, hv, rfl⟩ := h
        obtain ⟨h1, rfl⟩ := init_inv hv
        obtain ⟨f1, f2⟩ := hi.fresh h1
        exact ⟨by simp, fun u => by simp [f2]⟩
      | addUser u i =>
        simp only [step, bind_ok, ok_inj] at h
        obtain ⟨v, hv, rfl⟩ := h
        obtain ⟨_, _, _, rfl⟩ := addUser_inv hv
        refine ⟨hs.spp, fun w => ?_⟩
        simp only [upd_apply]
        split
        · rename_i e; subst e; exact hs.paid _
        · exact hs.paid _
      | calcBond u i =>
        simp only [step, bind_ok, ok_inj] at h
        obtain ⟨v, hv, rfl⟩ := h
        obtain ⟨_, _, _, _, _, rfl⟩ := calcBond_inv hv
        refine ⟨hs.spp, fun w => ?_⟩
        simp only [upd_apply]
        split
        · rename_i e; subst e; exact hs.paid _
        · exact hs.paid _
      | distribute T =>
        simp only [step, bind_ok, ok_inj] at h
        obtain ⟨v, hv, rfl⟩ := h
        obtain ⟨cfg', h1, _, _, ⟨rfl, -⟩ | ⟨x, d, h2, h3, h4, h5, rfl⟩⟩ := distribute_inv hv
        · exact hs
        · refine ⟨sinv_handOut h5 hs.spp, fun u => ?_⟩
          obtain ⟨_, _, _, k4, k5⟩ := handOut_inv h5
          have := hs.paid u
          simp only [k4, k5]
          omega
      | calcUnbond u i y => simp [payee] at hp
      | withdraw u i => simp [payee] at hp
      | fund a d x => exact absurd rfl (hf a d x)
    · refine ⟨by rw [e8]; exact hs.spp, fun v => ?_⟩
      rw [e8, e9]
      have h1 := hs.paid v
      simp only [paidState, upd_apply]
      split
      · rename_i e; subst e; simp only; omega
      · omega
    · rw [e9]; exact ⟨hs.spp, hs.paid⟩

theorem run_sinv {me : Addr} {s : Sys} (ts : List Tx) (ht : ∀ t ∈ ts, Spec.Possible me t) (hi : Inv me s)
    (hs : SInv s.st) : SInv (run me s ts).st := by
  induction ts generalizing s with
  | nil => exact hs
  | cons t ts ih =>
    refine ih (fun t' h' => ht t' (List.mem_cons_of_mem _ h')) (exec_inv (ht t (List.mem_cons_self ..)) hi) ?_
    unfold exec
    cases h : step me s t with
    | ok s' => exact step_sinv h hi hs
    | error e => exact hs

theorem mulInt_works {x d : Int} (h : InI128 (x * d)) (h' : InI128 ((x * d).tdiv Dec.ONE)) :
    Dec.mulInt x d = .ok ((x * d).tdiv Dec.ONE) := by
  unfold Dec.mulInt
  split
  · rename_i e; rcases e with e | e <;> simp [e]
  · simp only [bind_ok, mulI_ok, divI_ok]
    exact ⟨_, ⟨h, rfl⟩, by decide, h', rfl⟩

theorem power_works {cfg : Config} {x : Int} (h0 : 0 ≤ x) (h1 : x ≤ 10 ^ 18) :
    power cfg x = .ok (weight cfg.minBond x) := by
  unfold power weight
  split
  · rfl
  · have hx : (x * Dec.ONE).tdiv Dec.ONE = x := Int.mul_tdiv_cancel _ (by decide)
    have hone : (Dec.ONE : Int) = 10 ^ 18 := rfl
    simp only [bind_ok, divI_ok]
    refine ⟨x, ?_, by decide, ?_, rfl⟩
    · rw [mulInt_works, hx]
      · rw [hone]; simp only [InI128, I128_MIN, I128_MAX]; omega
      · rw [hx]; simp only [InI128, I128_MIN, I128_MAX]; omega
    · rw [Int.tdiv_eq_ediv_of_nonneg h0]; simp only [InI128, I128_MIN, I128_MAX]; omega

theorem weight_le {mb x : Int} (h : 0 ≤ x) : 1000 * weight mb x ≤ x := by
  unfold weight
  split
  · omega
  · rw [Int.tdiv_eq_ediv_of_nonneg h]; omega

/-- the product of points and points per share is far from the edge -/
theorem spp_small {s : State} (hs : SInv s) {S x mb : Int} (hm : Moderate s.dist.distributed S) (h0 : 0 ≤ x) (h1 : x ≤ S) :
    0 ≤ s.dist.spp * weight mb x ∧ s.dist.spp * weight mb x ≤ 4294967296 * 10 ^ 28 := by
  obtain ⟨m1, m2, m3⟩ := hm
  have w0 := weight_nonneg (mb := mb) h0
  have w1 := weight_le (mb := mb) h0
  refine ⟨by positivity, ?_⟩
  have h2 : (s.dist.spp : Int) ≤ 4294967296 * (s.dist.distributed + 1) := by have := hs.spp; omega
  have h3 : (s.dist.spp : Int) * weight mb x ≤ 4294967296 * (s.dist.distributed + 1) * weight mb x :=
    mul_le_mul_of_nonneg_right h2 w0
  have h4 : ((s.dist.distributed : Int) + 1) * (1000 * weight mb x) ≤ (s.dist.distributed + 1) * S :=
    mul_le_mul_of_nonneg_left (by omega) (by omega)
  have h5 : 4294967296 * ((s.dist.distributed : Int) + 1) * weight mb x * 1000 =
    4294967296 * (((s.dist.distributed : Int) + 1) * (1000 * weight mb x)) := by ring
  generalize ((s.dist.distributed : Int) + 1) * (1000 * weight mb x) = A at *
  generalize 4294967296 * ((s.dist.distributed : Int) + 1) * weight mb x = B at *
  omega

theorem pts_small {s : State} {b : Book} {cfg : Config} (hs : SInv s) (hb : HInv b s) (hc : s.cfg = some cfg) (u : Addr) :
    4294967296 * ((s.adj u).withdrawn : Int) ≤ pts s cfg b u ∧ pts s cfg b u ≤ 4294967296 * s.dist.distributed := by
  have h1 := hb.own cfg hc u
  have h2 := hb.sum cfg hc {u}
  rw [Finset.sum_singleton] at h2
  have h3 := hs.paid u
  unfold due at h1 h2
  omega

theorem updateRewards_works {s : State} {u : Addr} {w1 w2 P : Int} (hspp : (s.dist.spp : Int) ≤ 4294967296 * (10 ^ 20 + 1))
    (hP : 0 ≤ P) (hP' : P ≤ 4294967296 * 10 ^ 20)
    (hpt : s.dist.spp * w1 + (s.adj u).corr = P) (h10 : 0 ≤ w1) (h11 : w1 ≤ 10 ^ 18) (h20 : 0 ≤ w2) (h21 : w2 ≤ 10 ^ 18)
    (h1 : 0 ≤ s.dist.spp * w1 ∧ s.dist.spp * w1 ≤ 4294967296 * 10 ^ 28)
    (h2 : 0 ≤ s.dist.spp * w2 ∧ s.dist.spp * w2 ≤ 4294967296 * 10 ^ 28) : ∃ v, updateRewards s u w1 w2 = .ok v := by
  unfold updateRewards
  split
  · exact ⟨_, rfl⟩
  · simp only [bind_ok, subI_ok, mulI_ok, toI128_ok]
    have e : (s.dist.spp : Int) * (w2 - w1) = s.dist.spp * w2 - s.dist.spp * w1 := by ring
    refine ⟨_, _, ⟨?_, rfl⟩, _, ⟨?_, rfl⟩, _, ⟨?_, rfl⟩, _, ⟨?_, rfl⟩, rfl⟩
    · simp only [InI128, I128_MIN, I128_MAX]; omega
    · simp only [I128_MAX]; omega
    · rw [e]; simp only [InI128, I128_MIN, I128_MAX]; omega
    · rw [e]; simp only [InI128, I128_MIN, I128_MAX]; omega

theorem restake_works {s : State} {b : Book} {cfg : Config} {u : Addr} {S n : Int} (hs : SInv s) (hb : HInv b s)
    (hc : s.cfg = some cfg) (hm : Moderate s.dist.distributed S) (hbu : b u ≤ S) (hn : 0 ≤ n) (hn' : n ≤ S) :
    power cfg (b u) = .ok (weight cfg.minBond (b u)) ∧ power cfg n = .ok (weight cfg.minBond n) ∧
    ∃ v, updateRewards s u (weight cfg.minBond (b u)) (weight cfg.minBond n) = .ok v := by
  have h0 := hb.nonneg u
  have hm' := hm
  obtain ⟨m1, m2, m3⟩ := hm'
  refine ⟨power_works h0 (by omega), power_works hn (by omega), ?_⟩
  obtain ⟨p1, p2⟩ := pts_small hs hb hc u
  have := hs.spp
  have w1 := weight_le (mb := cfg.minBond) h0
  have w2 := weight_le (mb := cfg.minBond) hn
  have w3 := weight_nonneg (mb := cfg.minBond) h0
  have w4 := weight_nonneg (mb := cfg.minBond) hn
  exact updateRewards_works (by omega) (by omega) (P := pts s cfg b u) (by omega) rfl w3 (by omega) w4 (by omega)
    (spp_small hs hm h0 hbu) (spp_small hs hm hn hn')

theorem claim_works {s : State} {b : Book} {cfg : Config} {u : Addr} {S : Int} (hs : SInv s) (hb : HInv b s)
    (hc : s.cfg = some cfg) (hm : Moderate s.dist.distributed S) (hbu : b u ≤ S) :
    ∃ r, claim cfg s u (b u) = .ok r ∧ r ≤ s.dist.distributed := by
  have h0 := hb.nonneg u
  have hm' := hm
  obtain ⟨m1, m2, m3⟩ := hm'
  obtain ⟨p1, p2⟩ := pts_small hs hb hc u
  obtain ⟨q1, q2⟩ := spp_small (mb := cfg.minBond) hs hm h0 hbu
  have hsp := hs.spp
  unfold pts at p1 p2
  have h : ∃ r, claim cfg s u (b u) = .ok r := by
    unfold claim
    rw [power_works h0 (by omega)]
    simp only [bind_ok, toI128_ok, mulI_ok, addI_ok, toU128_ok, subU_ok]
    generalize hA : (s.dist.spp : Int) * weight cfg.minBond (b u) = A at *
    refine ⟨_, _, rfl, _, ⟨?_, rfl⟩, A, ⟨?_, hA⟩, _, ⟨?_, rfl⟩, ((A + (s.adj u).corr) / 4294967296).toNat, ?_, ?_, rfl⟩
    · simp only [I128_MAX]; omega
    · rw [hA]; simp only [InI128, I128_MIN, I128_MAX]; omega
    · simp only [InI128, I128_MIN, I128_MAX]; omega
    · omega
    · omega
  obtain ⟨r, hr⟩ := h
  refine ⟨r, hr, ?_⟩
  have := (claim_inv hr).2
  omega

theorem weigh_works {now : Nat} {l : List Entry} {acc : Nat × Nat} (h : ∀ e ∈ l, e.ts ≤ now ∧ 0 ≤ e.amount)
    (h1 : (acc.1 : Int) + asum l < U128_LIM) (h2 : (acc.2 : Int) + asum l < U128_LIM) : ∃ w, weigh now l acc = .ok w := by
  induction l generalizing acc with
  | nil => exact ⟨acc, rfl⟩
  | cons e l ih =>
    obtain ⟨g1, g2⟩ := h e (List.mem_cons_self ..)
    have g := (wsum_le (now := now) (l := l) (fun e' h' => (h e' (List.mem_cons_of_mem _ h')).2))
    have ge : 0 ≤ asum l := by omega
    have ea : asum (e :: l) = 60 * e.amount + asum l := by simp [asum]
    obtain ⟨x, hx⟩ : ∃ x : Nat, (x : Int) = e.amount := ⟨e.amount.toNat, by omega⟩
    rw [ea] at h1 h2
    simp only [weigh, bind_ok, daysCounted_ok, toU128_ok, mul128_ok, add128_ok]
    obtain ⟨dd, hdd⟩ : ∃ dd, dd = min ((now - e.ts) / 86400) 60 := ⟨_, rfl⟩
    have hd : dd ≤ 60 := by omega
    have hdx : dd * x ≤ 60 * x := Nat.mul_le_mul_right _ hd
    obtain ⟨w, hw⟩ := ih (acc := (acc.1 + dd * x, acc.2 + 60 * x))
      (fun e' h' => h e' (List.mem_cons_of_mem _ h')) (by simp only; omega) (by simp only; omega)
    exact ⟨w, dd, ⟨g1, hdd⟩, x, hx, _, ⟨by omega, rfl⟩, _, ⟨by omega, rfl⟩, _, ⟨by omega, rfl⟩, _, ⟨by omega, rfl⟩, hw⟩

theorem asum_eq (l : List Entry) : asum l = 60 * (l.map Entry.amount).sum := by
  induction l with
  | nil => rfl
  | cons e l ih => simp only [asum, List.map_cons, List.sum_cons] at *; omega

theorem withdrawPower_works {now : Nat} {i : Info} (h : WellFormed now i) (hS : i.total ≤ 10 ^ 18) :
    ∃ m, withdrawPower now i.stakes = .ok m := by
  obtain ⟨h1, h2⟩ := h
  have ha := asum_eq i.stakes
  rw [h2] at ha
  obtain ⟨w, hw⟩ := weigh_works (now := now) (l := i.stakes) (acc := (0, 0)) h1
    (by simp only [U128_LIM]; push_cast; omega) (by simp only [U128_LIM]; push_cast; omega)
  obtain ⟨-, k2, k3⟩ := weigh_inv hw
  have k4 := wsum_le (now := now) (fun e he => (h1 e he).2)
  unfold withdrawPower
  simp only [bind_ok]
  simp only [Nat.cast_zero, zero_add] at k2 k3
  by_cases hp : 0 < w.2
  · have e1 : Dec.ONE = (10 ^ 18 : Int) := rfl
    refine ⟨((w.1 : Int) * Dec.ONE).tdiv w.2, w, hw, ?_⟩
    rw [if_pos hp]
    simp only [bind_ok, toI128_ok, Dec.fromRatio_ok]
    refine ⟨_, ⟨by simp only [I128_MAX]; omega, rfl⟩, _, ⟨by simp only [I128_MAX]; omega, rfl⟩, by omega, ?_, ?_, rfl⟩
    · rw [e1]; simp only [InI128, I128_MIN, I128_MAX]; omega
    · have p0 : 0 ≤ (w.1 : Int) * Dec.ONE := by rw [e1]; omega
      have q0 : 0 ≤ (w.1 : Int) * Dec.ONE / w.2 := Int.ediv_nonneg p0 (by omega)
      have q1 : (w.1 : Int) * Dec.ONE / w.2 ≤ w.1 * Dec.ONE := Int.ediv_le_self _ p0
      rw [Int.tdiv_eq_ediv_of_nonneg p0]
      generalize (w.1 : Int) * Dec.ONE / w.2 = q at *
      rw [e1] at q1
      simp only [InI128, I128_MIN, I128_MAX]; omega
  · exact ⟨0, w, hw, by rw [if_neg hp]⟩

theorem query_works {s : State} {b : Book} {cfg : Config} {u : Addr} {i : Info} {S : Int} {c : Ctx} (hs : SInv s) (hb : HInv b s)
    (hc : s.cfg = some cfg) (hm : Moderate s.dist.distributed S) (hbu : b u ≤ S) (hi : i.total = b u) (hw : WellFormed c.now i) :
    ∃ r, queryWithdrawable c s u i = .ok r := by
  have hm' := hm
  obtain ⟨m1, m2, m3⟩ := hm'
  obtain ⟨r, r1, r2⟩ := claim_works hs hb hc hm hbu
  rw [← hi] at r1
  obtain ⟨m, hmm⟩ := withdrawPower_works hw (by omega)
  obtain ⟨-, k1, k2, -⟩ := withdrawPower_inv hmm
  have e1 : Dec.ONE = (10 ^ 18 : Int) := rfl
  have p0 : 0 ≤ (r : Int) * m := mul_nonneg (by omega) k1
  have p1 : (r : Int) * m ≤ 10 ^ 20 * 10 ^ 18 := mul_le_mul (by omega) (by omega) k1 (by norm_num)
  have q0 : 0 ≤ (r : Int) * m / 10 ^ 18 := Int.ediv_nonneg p0 (by norm_num)
  have hx : Dec.mulInt r m = .ok ((r * m : Int) / 10 ^ 18) := by
    rw [mulInt_works]
    · rw [Int.tdiv_eq_ediv_of_nonneg p0, e1]
    · simp only [InI128, I128_MIN, I128_MAX]; omega
    · rw [Int.tdiv_eq_ediv_of_nonneg p0, e1]
      simp only [InI128, I128_MIN, I128_MAX]; omega
  refine ⟨((r * m : Int) / 10 ^ 18).toNat, ?_⟩
  unfold queryWithdrawable payable
  simp only [bind_ok, getConfig_ok, toU128_ok, toI128_ok]
  exact ⟨cfg, hc, _, ⟨r, r1, m, hmm, _, ⟨by simp only [I128_MAX]; omega, rfl⟩, hx⟩, by omega⟩

end Phoenix.Rewards
