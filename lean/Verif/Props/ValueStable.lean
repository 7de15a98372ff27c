import Verif.Props.StableSys
/-!
C109: how much of the value behind a share whole histories of swaps, deposits and withdrawals by
anybody can take away from the liquidity providers of a stable pool.
-/
namespace Phoenix.Props.Stable
open Phoenix Phoenix.Stable Phoenix.Stable.Spec
open Phoenix.Spec (Settles SameRights Flow Issues NoAllowance)

theorem unit_large {d : Nat} (h : d ≤ 13) : 100000 ≤ unitOf d := by
  unfold unitOf
  calc 100000 = 10 ^ 5 := by norm_num
    _ ≤ 10 ^ (18 - d) := Nat.pow_le_pow_right (by norm_num) (by omega)

/-- A swap on a reachable pool in fair condition lowers the total of the reserves by at most one unit. -/
theorem swap_sum {me : Addr} {p : State} {L : Ledger} (hP : PoolInv me p L)
    {m : Int} (hF : Fair m p)
    {c : Ctx} {p' : State} {L' : Ledger} {sender offer : Addr}
    {amount ret : Int} {mo ms : Option Int} {dl : Option Nat} {mf : Option Int} (hself : c.auth me = false)
    (h : swap me c p L sender offer amount mo ms dl mf = .ok (p', L', ret)) :
    p.resA + p.resB - 1 ≤ p'.resA + p'.resB ∧ p'.total = p.total := by
  obtain ⟨f1, f2, -, f4, f5⟩ := hF
  have h1 := one_to_one_of_poolInv hP hself h f1 f2 f4 f5
  obtain ⟨lim, r, -, -, -, -, h5, -, -, -, -, -, -, -, -, -, h15, h16, h17⟩ := swap_inv h hself hP.distinct.1
  have e : p'.cfg = p.cfg := by rw [h15]
  have hne := hP.distinct.1
  refine ⟨?_, by rw [h15]⟩
  rcases h5 with rfl | rfl
  · simp only [reserve, other, e, if_true, Ne.symm hne, if_false] at h1 h16
    omega
  · simp only [reserve, other, e, if_true, Ne.symm hne, if_false] at h1 h16
    omega

theorem deposit_arith {S S1 U lev D0 D1 T sh : Int} (hU : 100000 ≤ U) (hL : 1 ≤ lev) (k1 : S * U ≤ D0 + 1505)
    (k1' : D0 ≤ S * U) (hlt : S * U < lev - 1) (k2 : D1 * (lev - 1) ≤ lev * (S1 * U)) (hsh : sh * D0 ≤ T * (D1 - D0))
    (t0 : 0 ≤ T) (s0 : 0 ≤ sh) : (S - 1) * (T + sh) ≤ S1 * T := by
  have low : (S - 1) * U * lev ≤ D0 * (lev - 1) := by
    have e : (S - 1) * U = S * U - U := by ring
    have h1 : (S - 1) * U ≤ D0 - 1 := by omega
    have h2 := mul_le_mul_of_nonneg_right h1 (show 0 ≤ lev by omega)
    have e1 : (D0 - 1) * lev = D0 * lev - lev := by ring
    have e2 : D0 * (lev - 1) = D0 * lev - D0 := by ring
    omega
  have hshare : (T + sh) * D0 ≤ T * D1 := by
    have e1 : (T + sh) * D0 = T * D0 + sh * D0 := by ring
    have e2 : T * (D1 - D0) = T * D1 - T * D0 := by ring
    omega
  have r1 := mul_le_mul_of_nonneg_right low (show 0 ≤ T + sh by omega)
  have r2 := mul_le_mul_of_nonneg_right hshare (show (0 : Int) ≤ lev - 1 by omega)
  have r3 := mul_le_mul_of_nonneg_left k2 t0
  have r4 : U * lev * ((S - 1) * (T + sh)) ≤ U * lev * (S1 * T) := by
    have e1 : U * lev * ((S - 1) * (T + sh)) = (S - 1) * U * lev * (T + sh) := by ring
    have e2 : D0 * (lev - 1) * (T + sh) = (T + sh) * D0 * (lev - 1) := by ring
    have e3 : T * D1 * (lev - 1) = T * (D1 * (lev - 1)) := by ring
    have e4 : T * (lev * (S1 * U)) = U * lev * (S1 * T) := by ring
    omega
  exact le_of_mul_le_mul_left r4 (by positivity)

/-- A deposit on a reachable pool in fair condition: the total of the reserves per share falls at most as if one
unit were lost. -/
theorem deposit_sum {me : Addr} {p : State} {L : Ledger} (hP : PoolInv me p L)
    {m : Int} (hm : 1 ≤ m) (hF : Fair m p)
    {c : Ctx} {p' : State} {L' : Ledger} {sender : Addr} {a b : Int} {cu : Option Int} {dl ms : Option Nat}
    (hself : c.auth me = false)
    (h : provide me c p L sender a b cu dl ms = .ok (p', L')) :
    (p.resA + p.resB - 1) * p'.total ≤ (p'.resA + p'.resB) * p.total := by
  obtain ⟨f1, f2, f3, f4, f5⟩ := hF
  obtain ⟨sh, D1, ⟨-, ha, hb, hau, -, -⟩, hbal, -, e, hD1, -, hD0⟩ := deposit_of_poolInv hP hself h
  have hT : p.total ≠ 0 := by
    intro hz
    have := hP.empty hz
    omega
  obtain ⟨D0, hD0, d0, -, hsh, -⟩ := hD0 hT
  obtain ⟨hAB, hSA, hSB⟩ := hP.distinct
  have hns := auth_ne hself hau
  have bA : L'.bal p.cfg.tokenA me = L.bal p.cfg.tokenA me + a := by
    rw [hbal]; simp [Flow.delta, hSA, Ne.symm hAB, hns]
  have bB : L'.bal p.cfg.tokenB me = L.bal p.cfg.tokenB me + b := by
    rw [hbal]; simp [Flow.delta, hSB, hAB, hns]
  have a0 := hP.a0
  have b0 := hP.b0
  have aB := hP.aB
  have bB' := hP.bB
  have t0 := hP.t0
  rw [e]
  simp only
  rw [bA, bB]
  rw [← f1] at hD0 hD1
  have hu := unit_large f2
  generalize unitOf p.precA = U at *
  have k1 := gap_le hD0 (by
      have e1 : ((p.resA.toNat * U + p.resB.toNat * U : Nat) : Int) = (p.resA + p.resB) * U := by
        push_cast; rw [Int.toNat_of_nonneg a0, Int.toNat_of_nonneg b0]; ring
      omega) (by
      have q : p.resA.toNat ≤ 1000 * p.resB.toNat ∧ p.resB.toNat ≤ 1000 * p.resA.toNat := by omega
      constructor <;> nlinarith [q.1, q.2])
  have k2 := computeD_le hD1
  have hlt : (p.resA + p.resB) * (U : Int) < (p.amp.nextAmp / 100 * 2000000000000000000 : Nat) - 1 := by push_cast; exact f5
  generalize p.amp.nextAmp / 100 * 2000000000000000000 = lev at *
  have k1' : (p.resA + p.resB) * (U : Int) ≤ D0 + 1505 ∧ (D0 : Int) ≤ (p.resA + p.resB) * U := by
    have e1 : ((p.resA.toNat * U + p.resB.toNat * U : Nat) : Int) = (p.resA + p.resB) * U := by
      push_cast; rw [Int.toNat_of_nonneg a0, Int.toNat_of_nonneg b0]; ring
    omega
  have hlev : 1 ≤ lev := by
    have : 0 ≤ (p.resA + p.resB) * (U : Int) := by positivity
    omega
  have k2' : (D1 : Int) * (lev - 1) ≤ lev * ((p.resA + a + (p.resB + b)) * U) := by
    have e1 : ((p.resA + a).toNat * U + (p.resB + b).toNat * U : Nat) = (p.resA + a + (p.resB + b)) * (U : Int) := by
      push_cast; rw [Int.toNat_of_nonneg (by omega), Int.toNat_of_nonneg (by omega)]; ring
    rw [← e1]
    have e2 : ((lev - 1 : Nat) : Int) = lev - 1 := by omega
    rw [← e2]
    exact_mod_cast k2
  have hU : (100000 : Int) ≤ U := by exact_mod_cast hu
  have hL : (1 : Int) ≤ lev := by exact_mod_cast hlev
  obtain ⟨S, hS⟩ : ∃ S, S = p.resA + p.resB := ⟨_, rfl⟩
  obtain ⟨S1, hS1⟩ : ∃ S1, S1 = p.resA + a + (p.resB + b) := ⟨_, rfl⟩
  rw [← hS] at k1' hlt f3
  rw [← hS1] at k2'
  have r5 := deposit_arith hU hL k1'.1 k1'.2 hlt k2' hsh t0 (by positivity)
  rw [← hS]
  have : S1 * p.total ≤ (Ledger.bal L p.cfg.tokenA me + a + (Ledger.bal L p.cfg.tokenB me + b)) * p.total :=
    mul_le_mul_of_nonneg_right (by omega) t0
  omega

/-- What one transaction does to the total of the reserves and to the shares. -/
theorem value_step {me : Addr} {s : Sys} (hinv : SysInv me s)
    {t : Tx} (hpt : Possible me t) {p p' : State} {m : Int} (hm : 1 ≤ m)
    (hp : s.pool = some p) (hp' : (exec me s t).pool = some p')
    (hF : isSwap t = true ∨ isDeposit t = true → Fair m p) :
    (p.resA + p.resB - (if isSwap t || isDeposit t then 1 else 0)) * p'.total ≤ (p'.resA + p'.resB) * p.total ∧
    (isDeposit t = false → isWithdrawal t = false → p.resA + p.resB - (if isSwap t then 1 else 0) ≤ p'.resA + p'.resB) ∧
    (p.total = 0 → p'.total = 0) := by
  have hP := hinv.pool p hp
  have same : p' = p → (p.resA + p.resB - (if isSwap t || isDeposit t then 1 else 0)) * p'.total ≤ (p'.resA + p'.resB) * p.total ∧
      (isDeposit t = false → isWithdrawal t = false → p.resA + p.resB - (if isSwap t then 1 else 0) ≤ p'.resA + p'.resB) ∧
      (p.total = 0 → p'.total = 0) := by
    rintro rfl
    have := hP.t0
    refine ⟨?_, fun _ _ => (by split <;> omega), id⟩
    split <;> nlinarith
  unfold exec at hp'
  cases hst : step me s t with
  | error e =>
    simp only [hst] at hp'
    rw [hp] at hp'; cases hp'
    exact same rfl
  | ok s' =>
    simp only [hst] at hp'
    have hself := hpt.1
    cases t with
    | token c tok op =>
      simp only [step, bind_ok, ok_inj] at hst
      obtain ⟨L', hc, rfl⟩ := hst
      rw [hp] at hp'; cases hp'
      exact same rfl
    | pool c k =>
      simp only [Tx.ctx] at hself
      cases k with
      | init i =>
        simp only [step, bind_ok, ok_inj] at hst
        obtain ⟨⟨q, L'⟩, hi, rfl⟩ := hst
        have := (init_inv hi).1
        rw [hp] at this; simp at this
      | provide sd a b cu dl ms =>
        simp only [step, bind_ok, hp, loaded, ok_inj] at hst
        obtain ⟨_, rfl, ⟨q, L'⟩, hk, rfl⟩ := hst
        simp only [Option.some.injEq] at hp'
        subst hp'
        have hF := hF (.inr rfl)
        have := deposit_sum hP hm hF hself hk
        refine ⟨by simpa [isSwap, isDeposit] using this, fun h => by simp [isDeposit] at h, fun hz => ?_⟩
        have := hP.empty hz
        have := hF.2.2.1
        omega
      | swap sd o a mo ms dl mf =>
        simp only [step, bind_ok, hp, loaded, ok_inj] at hst
        obtain ⟨_, rfl, ⟨q, L', r⟩, hk, rfl⟩ := hst
        simp only [Option.some.injEq] at hp'
        subst hp'
        obtain ⟨k1, k2⟩ := swap_sum hP (hF (.inl rfl)) hself hk
        refine ⟨?_, fun _ _ => (by simpa [isSwap] using k1), fun h => by omega⟩
        rw [k2]
        simpa [isSwap, isDeposit] using mul_le_mul_of_nonneg_right k1 hP.t0
      | withdraw sd sh mA mB dl =>
        simp only [step, bind_ok, hp, loaded, ok_inj] at hst
        obtain ⟨_, rfl, ⟨q, L', ra, rb⟩, hk, rfl⟩ := hst
        simp only [Option.some.injEq] at hp'
        subst hp'
        obtain ⟨⟨k1, k2⟩, -, -, ⟨-, -, -, -, k3, -, -, k4⟩, -, -, rfl⟩ := withdraw_of_poolInv hP hself hk
        refine ⟨?_, fun _ h => by simp [isWithdrawal] at h, fun h => ?_⟩
        · simp only [isSwap, isDeposit]
          norm_num
          nlinarith
        · have := hP.cover {sd}
          simp only [Finset.sum_singleton] at this
          omega
      | updateConfig sd u =>
        simp only [step, bind_ok, hp, loaded, ok_inj] at hst
        obtain ⟨_, rfl, q, hk, rfl⟩ := hst
        simp only [Option.some.injEq] at hp'
        subst hp'
        obtain ⟨-, rfl, -⟩ := updateConfig_inv hk
        have := hP.t0
        refine ⟨?_, fun _ _ => ?_, id⟩
        · simp [isSwap, isDeposit]
        · simp [isSwap]

/-- **C109** Take any reachable state of a stable pool and any further history, by anybody, with `k` swaps and
deposits, each tried on a pool in fair condition holding `m` or more units of the two tokens together.  The total of
the reserves per share falls at most by `k` parts in `m`. -/
theorem C109_value_per_share {me : Addr} {s : Sys} (h0 : Genesis me s) (ts us : List Tx)
    (ht : ∀ t ∈ ts, Possible me t) (hu : ∀ t ∈ us, Possible me t) {m : Int} (hm : 1 ≤ m)
    (hF : FairBefore me m (run me s ts) us)
    {p p' : State} (hp : (run me s ts).pool = some p) (hp' : (run me s (ts ++ us)).pool = some p') :
    (p.resA + p.resB) * p'.total * (m - us.countP (fun t => isSwap t || isDeposit t)) ≤ (p'.resA + p'.resB) * p.total * m := by
  induction us using List.reverseRecOn generalizing p' with
  | nil =>
    simp only [List.append_nil] at hp'
    rw [hp] at hp'; cases hp'
    simp
  | append_singleton us t ih =>
    have hu' : ∀ t ∈ us, Possible me t := fun t' h' => hu t' (by simp [h'])
    have htu : ∀ t ∈ ts ++ us, Possible me t := fun t h => by rcases List.mem_append.1 h with h | h; exacts [ht t h, hu' t h]
    have hinv := run_keeps ts ht (genesis_inv h0)
    obtain ⟨q, hq, -⟩ := run_pool us hinv hu' hp
    rw [← run_append] at hq
    have hF' : FairBefore me m (run me s ts) us := fun as t' bs e => hF as t' (bs ++ [t]) (by simp [e])
    have ih := ih hu' hF' hq
    have hp2 : (exec me (run me s (ts ++ us)) t).pool = some p' := by
      rw [← List.append_assoc, run_append] at hp'
      exact hp'
    have hlast : isSwap t = true ∨ isDeposit t = true → Fair m q := fun h =>
      hF us t [] rfl h q (by rw [← run_append]; exact hq)
    obtain ⟨v1, -, v3⟩ := value_step (run_keeps (ts ++ us) htu (genesis_inv h0)) (hu t (by simp)) hm hq hp2 hlast
    have hP := hinv.pool p hp
    have hQ := (run_keeps (ts ++ us) htu (genesis_inv h0)).pool q hq
    have hP' := (exec_keeps (hu t (by simp)) (run_keeps (ts ++ us) htu (genesis_inv h0))).pool p' hp2
    have a0 := hP.a0
    have b0 := hP.b0
    have t0 := hP.t0
    have qa := hQ.a0
    have qb := hQ.b0
    have qt := hQ.t0
    have pa := hP'.a0
    have pb := hP'.b0
    have pt := hP'.t0
    rw [List.countP_append]
    push_cast
    generalize hk : (us.countP (fun t => isSwap t || isDeposit t) : Int) = k at *
    have hk0 : 0 ≤ k := by rw [← hk]; exact Int.natCast_nonneg _
    obtain ⟨S0, hS0⟩ : ∃ S, S = p.resA + p.resB := ⟨_, rfl⟩
    obtain ⟨S1, hS1⟩ : ∃ S, S = q.resA + q.resB := ⟨_, rfl⟩
    obtain ⟨S2, hS2⟩ : ∃ S, S = p'.resA + p'.resB := ⟨_, rfl⟩
    rw [← hS1, ← hS2] at v1
    rw [← hS0, ← hS1] at ih
    rw [← hS0, ← hS2]
    have s0 : 0 ≤ S0 := by omega
    have s1 : 0 ≤ S1 := by omega
    have s2 : 0 ≤ S2 := by omega
    by_cases hz : q.total = 0
    · rw [v3 hz]
      simp only [mul_zero, zero_mul]
      positivity
    · have qp : 0 < q.total := by omega
      cases hl : (isSwap t || isDeposit t) with
      | false =>
        rw [hl] at v1
        have e0 : ([t].countP (fun t => isSwap t || isDeposit t) : Int) = 0 := by
          simp only [List.countP_cons, List.countP_nil, hl]; simp
        rw [e0]
        simp only [Bool.false_eq_true, if_false, sub_zero, add_zero] at v1 ⊢
        by_cases hc : m - k ≤ 0
        · have : S0 * p'.total * (m - k) ≤ 0 := mul_nonpos_of_nonneg_of_nonpos (by positivity) hc
          have : 0 ≤ S2 * p.total * m := by positivity
          omega
        · have w1 := mul_le_mul_of_nonneg_left ih pt
          have w2 := mul_le_mul_of_nonneg_right v1 (show 0 ≤ p.total * m by positivity)
          have : q.total * (S0 * p'.total * (m - k)) ≤ q.total * (S2 * p.total * m) := by nlinarith
          exact le_of_mul_le_mul_left this qp
      | true =>
        rw [hl] at v1
        have e0 : ([t].countP (fun t => isSwap t || isDeposit t) : Int) = 1 := by
          simp only [List.countP_cons, List.countP_nil, hl]; simp
        rw [e0]
        simp only [if_true] at v1
        have hmS : m ≤ S1 := by
          have := (hlast (by simpa using hl)).2.2.1
          omega
        by_cases hc : m - (k + 1) ≤ 0
        · have : S0 * p'.total * (m - (k + 1)) ≤ 0 := mul_nonpos_of_nonneg_of_nonpos (by positivity) hc
          have : 0 ≤ S2 * p.total * m := by positivity
          omega
        · -- (S1 - 1)·(m - k) ≥ S1·(m - k - 1)
          have c1 : S1 * (m - (k + 1)) ≤ (S1 - 1) * (m - k) := by nlinarith
          have c2 : S0 * q.total * (m - (k + 1)) * (m - k) ≤ S1 * p.total * m * (m - (k + 1)) := by
            have := mul_le_mul_of_nonneg_right ih (show 0 ≤ m - (k + 1) by omega)
            nlinarith
          have c3 : S1 * (m - (k + 1)) * (p.total * m) ≤ (S1 - 1) * (m - k) * (p.total * m) :=
            mul_le_mul_of_nonneg_right c1 (by positivity)
          have c4 : S0 * q.total * (m - (k + 1)) ≤ (S1 - 1) * (p.total * m) := by
            have : (m - k) * (S0 * q.total * (m - (k + 1))) ≤ (m - k) * ((S1 - 1) * (p.total * m)) := by nlinarith
            exact le_of_mul_le_mul_left this (by omega)
          have c5 := mul_le_mul_of_nonneg_left c4 pt
          have c6 := mul_le_mul_of_nonneg_right v1 (show 0 ≤ p.total * m by positivity)
          have : q.total * (S0 * p'.total * (m - (k + 1))) ≤ q.total * (S2 * p.total * m) := by nlinarith
          exact le_of_mul_le_mul_left this qp

/-- **C109** When nobody deposits or withdraws, swaps take at most one unit each out of the total of the reserves. -/
theorem C109_swaps_only {me : Addr} {s : Sys} (h0 : Genesis me s) (ts us : List Tx)
    (ht : ∀ t ∈ ts, Possible me t) (hu : ∀ t ∈ us, Possible me t)
    (hF : FairBefore me 1 (run me s ts) us) (hn : ∀ t ∈ us, isDeposit t = false ∧ isWithdrawal t = false)
    {p p' : State} (hp : (run me s ts).pool = some p) (hp' : (run me s (ts ++ us)).pool = some p') :
    p.resA + p.resB - us.countP isSwap ≤ p'.resA + p'.resB := by
  induction us using List.reverseRecOn generalizing p' with
  | nil =>
    simp only [List.append_nil] at hp'
    rw [hp] at hp'; cases hp'
    simp
  | append_singleton us t ih =>
    have hu' : ∀ t ∈ us, Possible me t := fun t' h' => hu t' (by simp [h'])
    have htu : ∀ t ∈ ts ++ us, Possible me t := fun t h => by rcases List.mem_append.1 h with h | h; exacts [ht t h, hu' t h]
    obtain ⟨q, hq, -⟩ := run_pool us (run_keeps ts ht (genesis_inv h0)) hu' hp
    rw [← run_append] at hq
    have ih := ih hu' (fun as t' bs e => hF as t' (bs ++ [t]) (by simp [e])) (fun t' h' => hn t' (by simp [h'])) hq
    have hp2 : (exec me (run me s (ts ++ us)) t).pool = some p' := by
      rw [← List.append_assoc, run_append] at hp'
      exact hp'
    obtain ⟨-, v2, -⟩ := value_step (run_keeps (ts ++ us) htu (genesis_inv h0)) (hu t (by simp)) (le_refl 1) hq hp2
      (fun h => hF us t [] rfl h q (by rw [← run_append]; exact hq))
    have v2 := v2 (hn t (by simp)).1 (hn t (by simp)).2
    rw [List.countP_append]
    simp only [List.countP_cons, List.countP_nil, zero_add]
    push_cast
    omega

/-- **C109** Whatever a group of traders and providers does, if in the end as many shares exist as before, the pool
holds at least `m - k` parts in `m` of what it held. -/
theorem C109_no_free_cycle {me : Addr} {s : Sys} (h0 : Genesis me s) (ts us : List Tx)
    (ht : ∀ t ∈ ts, Possible me t) (hu : ∀ t ∈ us, Possible me t) {m : Int} (hm : 1 ≤ m)
    (hF : FairBefore me m (run me s ts) us)
    {p p' : State} (hp : (run me s ts).pool = some p) (hp' : (run me s (ts ++ us)).pool = some p')
    (hT : p'.total = p.total) (hpos : 0 < p.total) :
    (p.resA + p.resB) * (m - us.countP (fun t => isSwap t || isDeposit t)) ≤ (p'.resA + p'.resB) * m := by
  have h := C109_value_per_share h0 ts us ht hu hm hF hp hp'
  rw [hT] at h
  refine le_of_mul_le_mul_right ?_ hpos
  nlinarith

/-- a swap, the way back, a deposit and its withdrawal -/
def exCycle : List Tx := [exSwap 10 1000000, exSwap 11 996506,
  .pool (by' 2) (.provide 2 5000000 3000000 none none none), .pool (by' 2) (.withdraw 2 7999700 1 1 none)]

/-- `Fair` can be evaluated. -/
instance (m : Int) (p : State) : Decidable (Fair m p) := by unfold Fair; infer_instance

/-- `FairBefore` follows from a check of every step. -/
theorem fairBefore_of {me : Addr} {m : Int} : ∀ {us : List Tx} {s : Sys},
    (match us with
      | [] => True
      | t :: us => (∀ p, s.pool = some p → Fair m p) ∧ FairBefore me m (exec me s t) us) → FairBefore me m s us
  | [], _, _ => fun as t bs e => by simp at e
  | t :: us, s, h => by
    intro as t' bs e hl p hp
    cases as with
    | nil => exact h.1 p hp
    | cons a as =>
      simp only [List.cons_append, List.cons.injEq] at e
      obtain ⟨rfl, e⟩ := e
      exact h.2 as t' bs e hl p hp

theorem fair_of {m : Int} {o : Option State} (h : (match o with | none => true | some p => decide (Fair m p)) = true) :
    ∀ p, o = some p → Fair m p := by
  rintro p rfl
  exact of_decide_eq_true h

/-- the hypotheses of C109 hold for it -/
example : view (run 100 (exStart 7 7) (exHist 100 20000000 20000000)) = some (39999000, 20000000, 20000000) ∧
    view (run 100 (exStart 7 7) (exHist 100 20000000 20000000 ++ exCycle.take 2)) = some (39999000, 20003494, 19997002) ∧
    view (run 100 (exStart 7 7) (exHist 100 20000000 20000000 ++ exCycle)) = some (39999000, 20836289, 19164209) ∧
    (∀ t ∈ exCycle, Possible 100 t) ∧
    FairBefore 100 39000000 (run 100 (exStart 7 7) (exHist 100 20000000 20000000)) exCycle ∧
    exCycle.countP (fun t => isSwap t || isDeposit t) = 3 := by
  refine ⟨by decide +kernel, by decide +kernel, by decide +kernel, ?_, ?_, by decide⟩
  · intro t ht
    simp only [exCycle, exSwap, List.mem_cons, List.not_mem_nil, or_false] at ht
    rcases ht with rfl | rfl | rfl | rfl <;> exact ⟨rfl, trivial⟩
  · refine fairBefore_of ⟨fair_of (by decide +kernel), fairBefore_of ⟨fair_of (by decide +kernel),
      fairBefore_of ⟨fair_of (by decide +kernel), fairBefore_of ⟨fair_of (by decide +kernel), fairBefore_of trivial⟩⟩⟩⟩

end Phoenix.Props.Stable
