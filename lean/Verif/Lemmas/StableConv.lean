import Verif.Lemmas.StableMath
/-! Convergence of the two Newton loops of the stable pool (helpers). -/
namespace Phoenix.Stable
open Phoenix

/-- Where one Newton step for `y` lands: `u` is the first number above the root. -/
theorem yStep_bounds {b c d u y : Nat} (hu : (c : Int) < (u : Int) ^ 2 + ((b : Int) - d) * u)
    (hmin : ∀ n : Nat, (c : Int) < (n : Int) ^ 2 + ((b : Int) - d) * n → u ≤ n) (hy : u ≤ y + 1) (hden : d < 2 * y + b) :
    u ≤ (y ^ 2 + c) / (2 * y + b - d) + 1 ∧ (u ≤ y → 2 * ((y ^ 2 + c) / (2 * y + b - d)) ≤ u + y) ∧
      (y < u → (y ^ 2 + c) / (2 * y + b - d) ≤ u) := by
  have hab := newton_above (c := c) hden rfl
  have hle : (y ^ 2 + c) / (2 * y + b - d) * (2 * y + b - d) ≤ y ^ 2 + c := Nat.div_mul_le_self _ _
  generalize (y ^ 2 + c) / (2 * y + b - d) = z at *
  have h2 : (z : Int) * (2 * y + b - d) ≤ y ^ 2 + c := by
    have : ((2 * y + b - d : Nat) : Int) = 2 * y + b - d := by omega
    rw [← this]; exact_mod_cast hle
  have hdI : (d : Int) < 2 * y + b := by exact_mod_cast hden
  have hu0 : 0 < u := by
    rcases Nat.eq_zero_or_pos u with rfl | h
    · simp at hu; omega
    · exact h
  have hs : (d : Int) < u + b := by
    by_contra hn
    have : (u : Int) * (u + b - d) ≤ 0 := mul_nonpos_of_nonneg_of_nonpos (by positivity) (by omega)
    have : (0 : Int) ≤ c := by positivity
    nlinarith
  have key : ((z : Int) - u) * (2 * y + b - d) < (y - u) ^ 2 := by nlinarith
  refine ⟨hmin (z + 1) (by push_cast; exact hab), fun h => ?_, fun h => ?_⟩
  · by_contra hn
    have h3 : (y : Int) - u + 1 ≤ 2 * (z - u) := by omega
    have h4 : ((y : Int) - u) * (2 * (y - u)) ≤ (y - u) * (2 * y + b - d) :=
      mul_le_mul_of_nonneg_left (by omega) (by omega)
    have h5 : ((y : Int) - u + 1) * (2 * y + b - d) ≤ 2 * (z - u) * (2 * y + b - d) :=
      mul_le_mul_of_nonneg_right h3 (by omega)
    nlinarith
  · by_contra hn
    have e : y + 1 = u := by omega
    have h3 : (1 : Int) ≤ z - u := by omega
    have h4 : (1 : Int) * 1 ≤ (z - u) * (2 * y + b - d) := mul_le_mul h3 (by omega) (by norm_num) (by omega)
    have h5 : ((y : Int) - u) ^ 2 = 1 := by
      have : (y : Int) - u = -1 := by omega
      rw [this]; norm_num
    omega

/-- The loop for `y` ends: every step halves the distance to the root. -/
theorem yLoop_conv {b c d u Y : Nat} (hu : (c : Int) < (u : Int) ^ 2 + ((b : Int) - d) * u)
    (hmin : ∀ n : Nat, (c : Int) < (n : Int) ^ 2 + ((b : Int) - d) * n → u ≤ n) (hc : 1 ≤ c ∨ d < b)
    (huY : u ≤ Y) (l1 : Y ^ 2 + c < U256_LIM) (l2 : 2 * Y + b < U256_LIM) (n : Nat) :
    ∀ y, u ≤ y + 1 → y ≤ Y → d < 2 * y + b → y ≤ u + 2 ^ n * (TOL - 2) → ∃ v, yLoop b c d (n + 1) y = .ok v ∧ v ≤ Y := by
  induction n with
  | zero =>
    intro y h1 h2 h3 h4
    rw [pow_zero, one_mul] at h4
    obtain ⟨k1, k2, k3⟩ := yStep_bounds hu hmin h1 h3
    have hy2 : y ^ 2 ≤ Y ^ 2 := Nat.pow_le_pow_left h2 2
    have tt : TOL = 1000000000000 := rfl
    refine ⟨(y ^ 2 + c) / (2 * y + b - d), ?_, ?_⟩
    · unfold yLoop
      simp only [bind_ok, pow256_ok, add256_ok, mul256_ok, subU_ok, divU_ok]
      refine ⟨_, ⟨by omega, rfl⟩, _, ⟨by omega, rfl⟩, _, ⟨by omega, rfl⟩, _, ⟨by omega, rfl⟩, _, ⟨by omega, rfl⟩, _, ⟨by omega, rfl⟩, ?_⟩
      rw [mul_comm y 2, if_pos]
      rw [absDiff_le]
      rcases Nat.lt_or_ge y u with h | h
      · have := k3 h; omega
      · have := k2 h; omega
    · rcases Nat.lt_or_ge y u with h | h
      · have := k3 h; omega
      · have := k2 h; omega
  | succ n ih =>
    intro y h1 h2 h3 h4
    obtain ⟨k1, k2, k3⟩ := yStep_bounds hu hmin h1 h3
    have hy2 : y ^ 2 ≤ Y ^ 2 := Nat.pow_le_pow_left h2 2
    have tt : TOL = 1000000000000 := rfl
    have hz : (y ^ 2 + c) / (2 * y + b - d) ≤ Y ∧ (y ^ 2 + c) / (2 * y + b - d) ≤ u + 2 ^ n * (TOL - 2) := by
      rw [pow_succ, mul_comm (2 ^ n) 2, mul_assoc] at h4
      generalize 2 ^ n * (TOL - 2) = T at *
      rcases Nat.lt_or_ge y u with h | h
      · have := k3 h; exact ⟨by omega, by omega⟩
      · have := k2 h; exact ⟨by omega, by omega⟩
    by_cases ha : absDiff ((y ^ 2 + c) / (2 * y + b - d)) y ≤ TOL
    · refine ⟨(y ^ 2 + c) / (2 * y + b - d), ?_, hz.1⟩
      unfold yLoop
      simp only [bind_ok, pow256_ok, add256_ok, mul256_ok, subU_ok, divU_ok]
      refine ⟨_, ⟨by omega, rfl⟩, _, ⟨by omega, rfl⟩, _, ⟨by omega, rfl⟩, _, ⟨by omega, rfl⟩, _, ⟨by omega, rfl⟩, _, ⟨by omega, rfl⟩, ?_⟩
      rw [mul_comm y 2, if_pos ha]
    · have hs : (d : Int) < u + b := by
        by_contra hn
        have : (u : Int) * (u + b - d) ≤ 0 := mul_nonpos_of_nonneg_of_nonpos (by positivity) (by omega)
        have : (0 : Int) ≤ c := by positivity
        nlinarith
      have hden : d < 2 * ((y ^ 2 + c) / (2 * y + b - d)) + b := by
        generalize (y ^ 2 + c) / (2 * y + b - d) = z at *
        by_cases hu2 : 2 ≤ u
        · omega
        · have hbd : d < b := by
            rcases hc with hc | hc
            · by_contra hn
              have : ((b : Int) - d) * u ≤ 0 := mul_nonpos_of_nonpos_of_nonneg (by omega) (by positivity)
              have : (u : Int) ^ 2 ≤ 1 := by
                have : u = 0 ∨ u = 1 := by omega
                rcases this with rfl | rfl <;> norm_num
              omega
            · exact hc
          omega
      obtain ⟨v, hv, hvY⟩ := ih _ k1 hz.1 hden hz.2
      refine ⟨v, ?_, hvY⟩
      rw [yLoop]
      simp only [bind_ok, pow256_ok, add256_ok, mul256_ok, subU_ok, divU_ok]
      refine ⟨_, ⟨by omega, rfl⟩, _, ⟨by omega, rfl⟩, _, ⟨by omega, rfl⟩, _, ⟨by omega, rfl⟩, _, ⟨by omega, rfl⟩, _, ⟨by omega, rfl⟩, ?_⟩
      rw [mul_comm y 2, if_neg ha]
      exact hv

open Spec

/-- `calc_y` answers when the cube of the invariant fits. -/
theorem calcY_works {amp x' x y target d : Nat} (hd : computeD amp x y = .ok d) (ha : 100 ≤ amp) (ha2 : amp ≤ 100000000)
    (hx : 0 < x') (hx2 : x' < U128_LIM) (hdx : d ≤ 2 ^ 20 * x') (hd0 : 20000 ≤ d) (hfit : d ^ 3 * 100000000000000000000 < U256_LIM)
    (ht : target ≤ 18) : ∃ r, calcY amp x' x y target = .ok r := by
  have hU1 : U128_LIM = 340282366920938463463374607431768211456 := rfl
  have hU2 : U256_LIM = 115792089237316195423570985008687907853269984665640564039457584007913129639936 := rfl
  have hdl : d < 2 ^ 64 := by
    by_contra hn
    have : (2 ^ 64) ^ 3 ≤ d ^ 3 := Nat.pow_le_pow_left (by omega) 3
    omega
  have hd3 : d ^ 3 < U256_LIM := by omega
  have f1 : amp * 1000000000000000000 < U128_LIM :=
    lt_of_le_of_lt (Nat.mul_le_mul_right _ ha2) (by norm_num [hU1])
  have f2 : amp * 1000000000000000000 * 2 < U128_LIM := by omega
  have f3 : x' * 4 < U256_LIM := by omega
  have f4 : d * 100000000000000000000 < U256_LIM :=
    lt_of_le_of_lt (Nat.mul_le_mul_right _ hdl.le) (by norm_num [hU2])
  have f5 : amp * 1000000000000000000 * 2 ≠ 0 := by omega
  have f6 : ∀ q, q ≤ d → x' + q < U256_LIM := fun q h => by omega
  have f7 : 10 ^ (18 - target) < U128_LIM := by
    have : 10 ^ (18 - target) ≤ 10 ^ 18 := Nat.pow_le_pow_right (by norm_num) (by omega)
    omega
  have f8 : ∀ v, v ≤ 2 ^ 82 + 1 → v < U128_LIM := fun v h => by omega
  have hm2 : x' * 4 * (amp * 1000000000000000000 * 2) < U256_LIM := by
    have : x' * 4 * (amp * 1000000000000000000 * 2) ≤ (2 ^ 128 * 4) * (100000000 * 1000000000000000000 * 2) :=
      Nat.mul_le_mul (by omega) (by omega)
    omega
  have hm0 : 0 < x' * 4 * (amp * 1000000000000000000 * 2) := by positivity
  obtain ⟨c, hcdef⟩ : ∃ c, c = d ^ 3 * 100000000000000000000 / (x' * 4 * (amp * 1000000000000000000 * 2)) := ⟨_, rfl⟩
  obtain ⟨q, hqdef⟩ : ∃ q, q = d * 100000000000000000000 / (amp * 1000000000000000000 * 2) := ⟨_, rfl⟩
  have hq : q ≤ d := by
    rw [hqdef]
    apply Nat.div_le_of_le_mul
    nlinarith
  -- the constant term is small against the invariant
  have hcx : c * (8 * x') ≤ d ^ 3 := by
    have h1 : c * (x' * 4 * (amp * 1000000000000000000 * 2)) ≤ d ^ 3 * 100000000000000000000 := by
      rw [hcdef]; exact Nat.div_mul_le_self _ _
    have h2 : c * (8 * x') * 100000000000000000000 ≤ c * (x' * 4 * (amp * 1000000000000000000 * 2)) := by
      have : c * x' * 100 ≤ c * x' * amp := Nat.mul_le_mul_left _ ha
      nlinarith
    nlinarith
  have hcd : c ≤ d * 2 ^ 81 := by
    have h1 : d ^ 3 ≤ d * (2 ^ 64 * (2 ^ 20 * x')) := by
      have : d ^ 3 = d * (d * d) := by ring
      rw [this]
      exact Nat.mul_le_mul_left _ (Nat.mul_le_mul hdl.le hdx)
    have h2 : c * (8 * x') ≤ d * 2 ^ 81 * (8 * x') := by
      calc c * (8 * x') ≤ d ^ 3 := hcx
        _ ≤ _ := h1
        _ = _ := by ring
    exact Nat.le_of_mul_le_mul_right h2 (by omega)
  have hor : 1 ≤ c ∨ d < x' + q := by
    by_cases hc : 1 ≤ c
    · exact .inl hc
    · refine .inr ?_
      have hlt : d ^ 3 * 100000000000000000000 < x' * 4 * (amp * 1000000000000000000 * 2) := by
        by_contra hn
        exact hc (by rw [hcdef]; exact Nat.div_pos (by omega) hm0)
      by_contra hn
      have h1 : x' * 4 * (amp * 1000000000000000000 * 2) ≤ d * 4 * (100000000 * 1000000000000000000 * 2) :=
        Nat.mul_le_mul (by omega) (by omega)
      have h2 : d * (20000 * 20000) ≤ d ^ 3 := by
        have : d ^ 3 = d * (d * d) := by ring
        rw [this]
        exact Nat.mul_le_mul_left _ (Nat.mul_le_mul hd0 hd0)
      nlinarith
  obtain ⟨u, hu, hmin⟩ : ∃ u : Nat, ((c : Int) < (u : Int) ^ 2 + (((x' + q : Nat) : Int) - d) * u) ∧
      ∀ n : Nat, (c : Int) < (n : Int) ^ 2 + (((x' + q : Nat) : Int) - d) * n → u ≤ n := by
    classical
    have hex : ∃ n : Nat, (c : Int) < (n : Int) ^ 2 + (((x' + q : Nat) : Int) - d) * n := by
      refine ⟨c + d + 1, ?_⟩
      push_cast
      have : (0 : Int) ≤ (x' + q) * (c + d + 1) := by positivity
      nlinarith
    exact ⟨Nat.find hex, Nat.find_spec hex, fun n hn => Nat.find_min' hex hn⟩
  have hden : d < 2 * d + (x' + q) := by omega
  have hab := newton_above (c := c) hden rfl
  have hu1 := hmin ((d ^ 2 + c) / (2 * d + (x' + q) - d) + 1) (by push_cast at hab ⊢; exact hab)
  have hy1 : (d ^ 2 + c) / (2 * d + (x' + q) - d) ≤ 2 ^ 82 := by
    apply Nat.div_le_of_le_mul
    have h1 : d ^ 2 + c ≤ d * 2 ^ 82 := by
      have : d ^ 2 ≤ d * 2 ^ 64 := by rw [pow_two]; exact Nat.mul_le_mul_left _ hdl.le
      omega
    calc d ^ 2 + c ≤ d * 2 ^ 82 := h1
      _ ≤ _ := Nat.mul_le_mul_right _ (by omega)
  have hcl : c ≤ 2 ^ 145 := by
    calc c ≤ d * 2 ^ 81 := hcd
      _ ≤ 2 ^ 64 * 2 ^ 81 := Nat.mul_le_mul_right _ hdl.le
      _ = 2 ^ 145 := by norm_num
  have hd2 : d ^ 2 ≤ (2 ^ 64) ^ 2 := Nat.pow_le_pow_left hdl.le 2
  obtain ⟨v, hv, hvl⟩ : ∃ v, yLoop (x' + q) c d ITERATIONS d = .ok v ∧ v ≤ 2 ^ 82 + 1 := by
    generalize hy : (d ^ 2 + c) / (2 * d + (x' + q) - d) = y1 at *
    by_cases hstop : absDiff y1 d ≤ TOL
    · refine ⟨y1, ?_, by omega⟩
      unfold ITERATIONS yLoop
      simp only [bind_ok, pow256_ok, add256_ok, mul256_ok, subU_ok, divU_ok]
      refine ⟨_, ⟨by omega, rfl⟩, _, ⟨by omega, rfl⟩, _, ⟨by omega, rfl⟩, _, ⟨by omega, rfl⟩, _, ⟨by omega, rfl⟩, _, ⟨by omega, rfl⟩, ?_⟩
      rw [mul_comm d 2, hy, if_pos hstop]
    · have hs : (d : Int) < u + (x' + q : Nat) := by
        by_contra hn
        have : (u : Int) * (u + (x' + q : Nat) - d) ≤ 0 := mul_nonpos_of_nonneg_of_nonpos (by positivity) (by omega)
        have : (0 : Int) ≤ c := by positivity
        nlinarith
      have hden2 : d < 2 * y1 + (x' + q) := by
        by_cases hu2 : 2 ≤ u
        · omega
        · have hbd : d < x' + q := by
            rcases hor with hc | hc
            · by_contra hn
              have : (((x' + q : Nat) : Int) - d) * u ≤ 0 := mul_nonpos_of_nonpos_of_nonneg (by omega) (by positivity)
              have : (u : Int) ^ 2 ≤ 1 := by
                have : u = 0 ∨ u = 1 := by omega
                rcases this with rfl | rfl <;> norm_num
              omega
            · exact hc
          omega
      have tt : TOL = 1000000000000 := rfl
      obtain ⟨Y, hY⟩ : ∃ Y : Nat, Y = 4835703278458516698824705 := ⟨_, rfl⟩
      have hY2 : Y ^ 2 ≤ 2 ^ 170 := by rw [hY]; norm_num
      have h62 : y1 ≤ u + 2 ^ 62 * (TOL - 2) := by rw [tt]; omega
      obtain ⟨v, hv, hvl⟩ := yLoop_conv hu hmin hor (show u ≤ Y by omega) (by omega) (by omega) 62 y1 hu1 (by omega) hden2 h62
      refine ⟨v, ?_, by omega⟩
      unfold ITERATIONS
      rw [yLoop]
      simp only [bind_ok, pow256_ok, add256_ok, mul256_ok, subU_ok, divU_ok]
      refine ⟨_, ⟨by omega, rfl⟩, _, ⟨by omega, rfl⟩, _, ⟨by omega, rfl⟩, _, ⟨by omega, rfl⟩, _, ⟨by omega, rfl⟩, _, ⟨by omega, rfl⟩, ?_⟩
      rw [mul_comm d 2, hy, if_neg hstop]
      exact hv
  refine ⟨v / unitOf target, ?_⟩
  unfold calcY
  simp only [bind_ok, mul128_ok, pow256_ok, mul256_ok, divU_ok, add256_ok, subU_ok, pow10_ok, u128_ok]
  exact ⟨d, hd, _, ⟨f1, rfl⟩, _, ⟨f2, rfl⟩, _, ⟨hd3, rfl⟩, _, ⟨hfit, rfl⟩, _, ⟨f3, rfl⟩, _, ⟨hm2, rfl⟩,
    c, ⟨hm0.ne', hcdef.symm⟩, _, ⟨f4, rfl⟩, q, ⟨f5, hqdef.symm⟩, _, ⟨f6 q hq, rfl⟩, v, hv, _, ⟨ht, rfl⟩, _, ⟨f7, rfl⟩,
    _, ⟨f8 v hvl, rfl⟩, (by positivity : 0 < 10 ^ (18 - target)).ne', rfl⟩

/-- The first Newton step for the invariant stays near the sum of the amounts. -/
theorem firstStep_low {w m S p z : Nat} (hw : 0 < w) (hS2 : 2 ≤ S) (hSm : S < m) (hpm : p * (4 * w) ≤ S ^ 3)
    (hbal : 6 * S ^ 2 ≤ w * m) (hq : 1000 * S ^ 2 ≤ 1002001 * w)
    (hlt : ((m + 1) * S + p * 2) * S < (S * m + p * 3) * (z + 1)) : S ≤ z + 2000 := by
  have core := (newtonD_core (w := w) (m := m) (S := S) (d := S) (p := p) (q := z) (by exact_mod_cast hw) (by omega) (by omega)
    (by omega) (by omega) le_rfl (by omega) (by exact_mod_cast hpm) (by exact_mod_cast hbal) (by exact_mod_cast hlt)).1
  by_contra hn
  have hg : (1505 : Int) ≤ (S : Int) - z - 1 := by omega
  have hq' : 1000 * (S : Int) ^ 2 ≤ 1002001 * w := by exact_mod_cast hq
  have hwI : (0 : Int) < w := by exact_mod_cast hw
  have hmI : (0 : Int) < m := by omega
  have t1 : 2 * (w : Int) * m * 1505 ≤ 2 * w * m * (S - z - 1) := mul_le_mul_of_nonneg_left hg (by positivity)
  have t2 : 3 * (S : Int) ^ 3 ≤ 3 * S ^ 2 * m := by
    have h1 : (0 : Int) ≤ (m : Int) - S := by omega
    have h2 := mul_nonneg (sq_nonneg (S : Int)) h1
    have e : 3 * (S : Int) ^ 2 * m - 3 * S ^ 3 = 3 * (S ^ 2 * (m - S)) := by ring
    omega
  have t3 : 3 * (S : Int) ^ 2 * m * 1000 ≤ 3 * (1002001 * w) * m := by
    have := mul_le_mul_of_nonneg_right hq' (show (0 : Int) ≤ 3 * m by omega)
    have e1 : 1000 * (S : Int) ^ 2 * (3 * m) = 3 * S ^ 2 * m * 1000 := by ring
    have e2 : 1002001 * (w : Int) * (3 * m) = 3 * (1002001 * w) * m := by ring
    omega
  have h0 := mul_pos hwI hmI
  have e3 : 3 * (1002001 * (w : Int)) * m = 3006003 * (w * m) := by ring
  have e4 : 2 * (w : Int) * m * 1505 = 3010 * (w * m) := by ring
  have e5 : 3 * (S : Int) ^ 2 * m * 1000 = 1000 * (3 * S ^ 2 * m) := by ring
  omega

/-- `compute_d` answers after one step when the amounts are not too unbalanced. -/
theorem computeD_works {amp x y : Nat} (hx : 0 < x) (hy : 0 < y) (hr : x ≤ 1000 * y ∧ y ≤ 1000 * x)
    (hS : x + y < amp / 100 * 2000000000000000000 - 1) (ha : amp ≤ 100000000)
    (hlim : x * 2 * (y * 2) < U128_LIM) : ∃ d, computeD amp x y = .ok d := by
  have hU1 : U128_LIM = 340282366920938463463374607431768211456 := rfl
  have hU2 : U256_LIM = 115792089237316195423570985008687907853269984665640564039457584007913129639936 := rfl
  have hxl : x ≤ 2 ^ 69 := by
    by_contra hn
    have : 2 ^ 69 * 2 ^ 69 ≤ x * (1000 * y) := Nat.mul_le_mul (by omega) (by omega)
    nlinarith
  have hyl : y ≤ 2 ^ 69 := by
    by_contra hn
    have : 2 ^ 69 * 2 ^ 69 ≤ y * (1000 * x) := Nat.mul_le_mul (by omega) (by omega)
    nlinarith
  have hlev0 : 1 ≤ amp / 100 := by
    rcases Nat.eq_zero_or_pos (amp / 100) with h | h
    · rw [h] at hS; omega
    · exact h
  have hlev : amp / 100 * 2000000000000000000 ≤ 2 ^ 81 := by omega
  have hlev2 : 6013 ≤ amp / 100 * 2000000000000000000 - 1 := by omega
  have hq : 1000 * (x + y) ^ 2 ≤ 1002001 * (x * y) := by nlinarith
  have hab0 : 0 < x * 2 * (y * 2) := by positivity
  generalize hSdef : x + y = S at *
  generalize hlevdef : amp / 100 * 2000000000000000000 = lev at *
  have hSl : S ≤ 2 ^ 70 := by omega
  obtain ⟨p, hpdef⟩ : ∃ p, p = S ^ 3 / (x * 2 * (y * 2)) := ⟨_, rfl⟩
  have hpm : p * (x * 2 * (y * 2)) ≤ S ^ 3 := by rw [hpdef]; exact Nat.div_mul_le_self _ _
  have hp : p ≤ 2 ^ 210 := by
    have : p ≤ S ^ 3 := by rw [hpdef]; exact Nat.div_le_self _ _
    have : S ^ 3 ≤ (2 ^ 70) ^ 3 := Nat.pow_le_pow_left hSl 3
    omega
  have hps : p ≤ 251 * S := by
    have h1 : S ^ 3 ≤ 251 * S * (x * 2 * (y * 2)) := by
      have : 1000 * (S * S ^ 2) ≤ 1002001 * (S * (x * y)) := by nlinarith
      nlinarith
    have h2 := le_trans hpm h1
    exact Nat.le_of_mul_le_mul_right h2 hab0
  have hd3 : S ^ 3 < U256_LIM := by
    have : S ^ 3 ≤ (2 ^ 70) ^ 3 := Nat.pow_le_pow_left hSl 3
    omega
  have hl : lev * S ≤ 2 ^ 81 * 2 ^ 70 := Nat.mul_le_mul hlev hSl
  have hl2 : (lev * S + p * 2) * S ≤ 2 ^ 152 * 2 ^ 70 := Nat.mul_le_mul (by omega) hSl
  have hl3 : S * (lev - 1) ≤ 2 ^ 70 * 2 ^ 81 := Nat.mul_le_mul hSl (by omega)
  have hpos : 0 < S * (lev - 1) + p * 3 := by
    have : 0 < S * (lev - 1) := Nat.mul_pos (by omega) (by omega)
    omega
  have hstep : calcStep S lev S p = .ok (stepD lev S p S) := by
    unfold calcStep stepD
    simp only [bind_ok, mul256_ok, add256_ok, subU_ok, divU_ok]
    exact ⟨_, ⟨by omega, rfl⟩, _, ⟨by omega, rfl⟩, _, ⟨by omega, rfl⟩, _, ⟨by omega, rfl⟩, _, ⟨by omega, rfl⟩, _, ⟨by omega, rfl⟩,
      _, ⟨by omega, rfl⟩, _, ⟨by omega, rfl⟩, by omega, rfl⟩
  have hup : stepD lev S p S ≤ S + 1000 := by
    unfold stepD
    apply Nat.div_le_of_le_mul
    have : (S * (lev - 1) + p * 3) * (S + 1000) = S * (S * (lev - 1)) + S * (p * 3) + 1000 * (S * (lev - 1) + p * 3) := by ring
    have e : S * (lev - 1) + S = lev * S := by
      obtain ⟨m, rfl⟩ : ∃ m, lev = m + 1 := ⟨lev - 1, by omega⟩
      simp; ring
    have : S ≤ lev - 1 := by omega
    have : S * S ≤ S * (lev - 1) := Nat.mul_le_mul_left _ this
    nlinarith
  have hlow : S ≤ stepD lev S p S + 2000 := by
    have hlt : (lev * S + p * 2) * S < (S * (lev - 1) + p * 3) * (stepD lev S p S + 1) := by
      unfold stepD; exact Nat.lt_mul_div_succ _ hpos
    generalize stepD lev S p S = z at *
    obtain ⟨m, hm⟩ : ∃ m, lev = m + 1 := ⟨lev - 1, by omega⟩
    have hS2 : 2 ≤ S := by omega
    have hSm : S < m := by omega
    rw [hm] at hlt
    simp only [Nat.add_sub_cancel] at hlt
    have hbal : 6 * S ^ 2 ≤ (x * y) * m := by
      have h1 : 6013 ≤ m := by omega
      have h2 : x * y * 6013 ≤ x * y * m := Nat.mul_le_mul_left _ h1
      have h3 : 6 * S ^ 2 ≤ x * y * 6013 := by omega
      omega
    have hpm' : p * (4 * (x * y)) ≤ S ^ 3 := by
      have : p * (4 * (x * y)) = p * (x * 2 * (y * 2)) := by ring
      omega
    have hw : 0 < x * y := by positivity
    exact firstStep_low hw hS2 hSm hpm' hbal hq hlt
  refine ⟨stepD lev S p S, ?_⟩
  unfold computeD
  simp only [bind_ok, mul128_ok, add128_ok]
  rw [hlevdef, hSdef]
  refine ⟨_, ⟨by omega, rfl⟩, _, ⟨by omega, rfl⟩, _, ⟨by omega, rfl⟩, _, ⟨by omega, rfl⟩, ?_⟩
  rw [if_neg (by omega)]
  unfold ITERATIONS
  rw [dLoop]
  simp only [bind_ok, pow256_ok, mul128_ok, divU_ok]
  refine ⟨_, ⟨hd3, rfl⟩, _, ⟨hlim, rfl⟩, p, ⟨by omega, hpdef.symm⟩, _, hstep, ?_⟩
  rw [if_pos]
  rw [absDiff_le]
  have tt : TOL = 1000000000000 := rfl
  omega

end Phoenix.Stable
