import Verif.Spec.Parts
import Verif.Lemmas.Accept
import Verif.Props.PoolLp
import Verif.Props.StableSys
import Verif.Props.Share
import Verif.Props.Stake
/-!
Property C143: giving back shares in several parts, and staking in several parts or with several accounts.
-/
namespace Phoenix.Props.Parts
open Phoenix Phoenix.Parts

/-- One step of the pro-rata rule, from above. -/
theorem step_le {A T x X r t : Int} (hT : 0 < T - x) (T0 : 0 ≤ T) (h : r * T ≤ A * x)
    (hX : X ≤ T - x) (ht : t * (T - x) ≤ (A - r) * X) : (r + t) * T ≤ A * (x + X) := by
  by_contra hn
  have h1 : 0 < (r + t) * T - A * (x + X) := by omega
  have h2 := mul_pos h1 hT
  have h3 := mul_nonneg T0 (show 0 ≤ (A - r) * X - t * (T - x) by omega)
  have h4 := mul_nonneg (show 0 ≤ A * x - r * T by omega) (show 0 ≤ T - x - X by omega)
  nlinarith

/-- One step of the pro-rata rule, from below. -/
theorem step_ge {A T x X r t e n : Int} (hT : 0 < T - x) (T0 : 0 ≤ T) (h : r * T ≤ A * x) (X0 : 0 ≤ X) (r0 : 0 ≤ r) (n0 : 0 ≤ n)
    (e0 : 0 < e) (hl : A * x * e < r * T * e + T * e + T * A)
    (ht : (A - r) * X * e ≤ t * (T - x) * e + n * (T - x) * (e + (A - r))) :
    A * (x + X) * e ≤ (r + t) * T * e + (n + 1) * T * (e + A) := by
  by_contra hn
  have h1 : 0 < A * (x + X) * e - ((r + t) * T * e + (n + 1) * T * (e + A)) := by omega
  have h2 := mul_pos h1 hT
  have h3 := mul_nonneg T0 (show 0 ≤ t * (T - x) * e + n * (T - x) * (e + (A - r)) - (A - r) * X * e by omega)
  have h4 := mul_nonneg (mul_nonneg e0.le X0) (show 0 ≤ A * x - r * T by omega)
  have h5 := mul_nonneg (show 0 ≤ r * T * e + T * e + T * A - A * x * e by omega) hT.le
  have h6 := mul_nonneg (mul_nonneg n0 (mul_nonneg T0 hT.le)) r0
  nlinarith

/-- Comparing with one payment. -/
theorem compare {A T X t q e n : Int} (T0 : 0 < T) (e0 : 0 < e)
    (t1 : t * T ≤ A * X) (t2 : A * X * e ≤ t * T * e + n * T * (e + A))
    (q1 : q * T ≤ A * X) (q2 : A * X * e < q * T * e + T * e + T * A) :
    (t - q) * e < e + A ∧ (q - t) * e ≤ n * (e + A) := by
  have a1 := mul_le_mul_of_nonneg_right t1 e0.le
  have a2 := mul_le_mul_of_nonneg_right q1 e0.le
  constructor
  · by_contra hn
    have := mul_le_mul_of_nonneg_left (show e + A ≤ (t - q) * e by omega) T0.le
    nlinarith
  · by_contra hn
    have := mul_lt_mul_of_pos_left (show n * (e + A) < (q - t) * e by omega) T0
    nlinarith

/-- What withdrawals in sequence pay, for one token: between the pro-rata part and that less the roundings. -/
def Within (A T X t : Int) (n : Nat) : Prop :=
  t * T ≤ A * X ∧ A * X * 10 ^ 18 ≤ t * T * 10 ^ 18 + n * T * (10 ^ 18 + A)

theorem within_nil {A T : Int} : Within A T 0 0 0 := by simp [Within]

theorem within_cons {A T x X r t : Int} {n : Nat} (hT : 0 < T - x) (T0 : 0 ≤ T) (h : r * T ≤ A * x) (X0 : 0 ≤ X) (hX : X ≤ T - x)
    (r0 : 0 ≤ r) (hl : A * x * 10 ^ 18 < r * T * 10 ^ 18 + T * 10 ^ 18 + T * A) (ht : Within (A - r) (T - x) X t n) :
    Within A T (x + X) (r + t) (n + 1) := by
  refine ⟨step_le hT T0 h hX ht.1, ?_⟩
  have := step_ge (n := n) hT T0 h X0 r0 (by omega) (by norm_num) hl ht.2
  push_cast
  exact this

theorem within_one {A T x r : Int} (h : r * T ≤ A * x) (hl : A * x * 10 ^ 18 < r * T * 10 ^ 18 + T * 10 ^ 18 + T * A) :
    Within A T (x + 0) (r + 0) (0 + 1) := by
  refine ⟨by simpa using h, ?_⟩
  simp only [add_zero, zero_add, Nat.cast_one, one_mul]
  nlinarith

theorem sum_pos_or {l : List Int} (h : ∀ x ∈ l, 0 < x) : 0 ≤ l.sum ∧ (l.sum = 0 → l = []) := by
  induction l with
  | nil => simp
  | cons a l ih =>
    have := ih (fun x hx => h x (by simp [hx]))
    have := h a (by simp)
    simp only [List.sum_cons]
    exact ⟨by omega, by omega⟩

theorem redeemed_pos {me : Addr} {p p' : Pool.State} {shares : List Int} {ta tb : Int}
    (h : Redeemed me p shares ta tb p') (hd : Spec.DistinctTokens p) : ∀ x ∈ shares, 0 < x := by
  induction h with
  | nil => simp
  | cons hc h rest ih =>
    obtain ⟨-, -, h3, -, -, -, -, -, -, -, -, -, -, -, -, e⟩ := Pool.withdraw_inv h hc hd
    intro x hx
    rcases List.mem_cons.1 hx with rfl | hx
    · exact h3
    · exact ih (by rw [e]; exact hd) x hx

theorem redeemed_core {me : Addr} {p p' : Pool.State} {shares : List Int} {ta tb : Int}
    (h : Redeemed me p shares ta tb p') (hd : Spec.DistinctTokens p)
    (hA : 0 ≤ p.resA) (hB : 0 ≤ p.resB) (hT : 0 ≤ p.total) (hs : shares.sum ≤ p.total) :
    Within p.resA p.total shares.sum ta shares.length ∧ Within p.resB p.total shares.sum tb shares.length ∧
    p' = { p with total := p.total - shares.sum, resA := p.resA - ta, resB := p.resB - tb } := by
  induction h with
  | nil p => exact ⟨within_nil, within_nil, by simp⟩
  | @cons c p p1 p2 L L1 sender sh mA mB ra rb ta tb shares dl hc h rest ih =>
    obtain ⟨⟨u1, u2⟩, ⟨v1, v2⟩, ⟨w1, w2, -⟩, -, -, e⟩ := C07_withdraw_pro_rata h hc hd hA hB hT
    obtain ⟨-, -, h3, h4, h5, -, -, -, hT0, -⟩ := Pool.withdraw_inv h hc hd
    have hpos := redeemed_pos rest (by rw [e]; exact hd)
    obtain ⟨s0, s1⟩ := sum_pos_or hpos
    simp only [List.sum_cons] at hs
    have lA : ra ≤ p.resA := by
      by_contra hn
      have k1 := mul_lt_mul_of_pos_right (show p.resA < ra by omega) (show 0 < p.total by omega)
      have k2 := mul_le_mul_of_nonneg_left (show sh ≤ p.total by omega) hA
      omega
    have lB : rb ≤ p.resB := by
      by_contra hn
      have k1 := mul_lt_mul_of_pos_right (show p.resB < rb by omega) (show 0 < p.total by omega)
      have k2 := mul_le_mul_of_nonneg_left (show sh ≤ p.total by omega) hB
      omega
    by_cases hz : p.total - sh = 0
    · have hnil := s1 (by omega)
      subst hnil
      cases rest
      simp only [List.sum_cons, List.sum_nil, List.length_cons, List.length_nil]
      exact ⟨within_one u1 v1, within_one u2 v2, by rw [e]; simp⟩
    · obtain ⟨i1, i2, i3⟩ := ih (by rw [e]; exact hd) (by rw [e]; simp only; omega) (by rw [e]; simp only; omega)
        (by rw [e]; simp only; omega) (by rw [e]; simp only; omega)
      rw [e] at i1 i2
      simp only at i1 i2
      simp only [List.sum_cons, List.length_cons]
      refine ⟨within_cons (by omega) hT u1 s0 (by omega) (by omega) v1 i1,
        within_cons (by omega) hT u2 s0 (by omega) (by omega) v2 i2, ?_⟩
      rw [i3, e]
      simp only [Pool.State.mk.injEq, true_and, and_true]
      omega

theorem redeemedStable_pos {me : Addr} {p p' : Stable.State} {shares : List Int} {ta tb : Int}
    (h : RedeemedStable me p shares ta tb p') (hd : Stable.Spec.DistinctTokens p) : ∀ x ∈ shares, 0 < x := by
  induction h with
  | nil => simp
  | cons hc h rest ih =>
    obtain ⟨-, -, h3, -, -, -, -, -, -, -, -, -, -, -, -, e⟩ := Stable.withdraw_inv h hc hd
    intro x hx
    rcases List.mem_cons.1 hx with rfl | hx
    · exact h3
    · exact ih (by rw [e]; exact hd) x hx

theorem redeemedStable_core {me : Addr} {p p' : Stable.State} {shares : List Int} {ta tb : Int}
    (h : RedeemedStable me p shares ta tb p') (hd : Stable.Spec.DistinctTokens p)
    (hA : 0 ≤ p.resA) (hB : 0 ≤ p.resB) (hT : 0 ≤ p.total) (hs : shares.sum ≤ p.total) :
    Within p.resA p.total shares.sum ta shares.length ∧ Within p.resB p.total shares.sum tb shares.length ∧
    p' = { p with total := p.total - shares.sum, resA := p.resA - ta, resB := p.resB - tb } := by
  induction h with
  | nil p => exact ⟨within_nil, within_nil, by simp⟩
  | @cons c p p1 p2 L L1 sender sh mA mB ra rb ta tb shares dl hc h rest ih =>
    obtain ⟨-, -, h3, h4, h5, w1, w2, -, hT0, -, -, h12, h13, -, -, e⟩ := Stable.withdraw_inv h hc hd
    have sA := share_bounds (res := p.resA) (s := sh) (T := p.total) hA h3.le (by omega)
    have sB := share_bounds (res := p.resB) (s := sh) (T := p.total) hB h3.le (by omega)
    rw [← h12] at sA
    rw [← h13] at sB
    obtain ⟨-, u1, v1⟩ := sA
    obtain ⟨-, u2, v2⟩ := sB
    have hpos := redeemedStable_pos rest (by rw [e]; exact hd)
    obtain ⟨s0, s1⟩ := sum_pos_or hpos
    simp only [List.sum_cons] at hs
    have lA : ra ≤ p.resA := by
      by_contra hn
      have k1 := mul_lt_mul_of_pos_right (show p.resA < ra by omega) (show 0 < p.total by omega)
      have k2 := mul_le_mul_of_nonneg_left (show sh ≤ p.total by omega) hA
      omega
    have lB : rb ≤ p.resB := by
      by_contra hn
      have k1 := mul_lt_mul_of_pos_right (show p.resB < rb by omega) (show 0 < p.total by omega)
      have k2 := mul_le_mul_of_nonneg_left (show sh ≤ p.total by omega) hB
      omega
    by_cases hz : p.total - sh = 0
    · have hnil := s1 (by omega)
      subst hnil
      cases rest
      simp only [List.sum_cons, List.sum_nil, List.length_cons, List.length_nil]
      exact ⟨within_one u1 v1, within_one u2 v2, by rw [e]; simp⟩
    · obtain ⟨i1, i2, i3⟩ := ih (by rw [e]; exact hd) (by rw [e]; simp only; omega) (by rw [e]; simp only; omega)
        (by rw [e]; simp only; omega) (by rw [e]; simp only; omega)
      rw [e] at i1 i2
      simp only at i1 i2
      simp only [List.sum_cons, List.length_cons]
      refine ⟨within_cons (by omega) hT u1 s0 (by omega) (by omega) v1 i1,
        within_cons (by omega) hT u2 s0 (by omega) (by omega) v2 i2, ?_⟩
      rw [i3, e]
      simp only [Stable.State.mk.injEq, true_and, and_true]
      omega

/-- The quote for a number of shares, for one token. -/
theorem quote_token {A T x q ratio : Int} (hA : 0 ≤ A) (hx : 0 ≤ x)
    (hr : (if T ≠ 0 then Dec.fromRatio x T else .ok 0) = .ok ratio) (hq : Dec.mulInt A ratio = .ok q) :
    (T = 0 → q = 0) ∧
    (0 < T → q * T ≤ A * x ∧ A * x * 10 ^ 18 < q * T * 10 ^ 18 + T * 10 ^ 18 + T * A) := by
  have hq := Dec.mulInt_val hq
  constructor
  · intro hz
    rw [if_neg (by simpa using hz), ok_inj] at hr
    rw [hq, ← hr]; simp
  · intro hp
    rw [if_pos (by omega), Dec.fromRatio_ok] at hr
    obtain ⟨-, -, -, rfl⟩ := hr
    have := share_bounds (res := A) (s := x) (T := T) hA hx hp
    simp only at this
    rw [← hq] at this
    exact this.2

theorem parts_token {A T X t q ratio : Int} {n : Nat} (hA : 0 ≤ A) (hT : 0 ≤ T) (hx : 0 ≤ X)
    (ht : Within A T X t n) (hz : T = 0 → t = 0)
    (hr : (if T ≠ 0 then Dec.fromRatio X T else .ok 0) = .ok ratio) (hq : Dec.mulInt A ratio = .ok q) :
    (t - q) * 10 ^ 18 < 10 ^ 18 + A ∧ (q - t) * 10 ^ 18 ≤ n * (10 ^ 18 + A) := by
  obtain ⟨q1, q2⟩ := quote_token hA hx hr hq
  by_cases h : T = 0
  · rw [hz h, q1 h]
    have : (0 : Int) ≤ n * (10 ^ 18 + A) := mul_nonneg (by omega) (by omega)
    exact ⟨by omega, by omega⟩
  · exact compare (by omega) (by norm_num) ht.1 ht.2 (q2 (by omega)).1 (q2 (by omega)).2

/-- **C143** Shares given back in several withdrawals, directly one after the other, by one holder or by
several: compared with what `query_share` announces for all of them at once (which is what one withdrawal
pays, C75), the withdrawals together pay at most a rounding more, and at most one rounding for each of them
less; a rounding is one unit and, for reserves above 10^18 units, one more unit for every 10^18 units of the
reserve.  The pool loses exactly what was paid and the shares given back. -/
theorem C143_withdrawals_in_parts {me : Addr} {s : Pool.Sys} (h0 : Spec.Genesis me s) {ts : List Pool.Tx}
    (ht : ∀ t ∈ ts, Spec.Possible me t) {p p' : Pool.State} (hp : (Pool.run me s ts).pool = some p)
    {shares : List Int} {ta tb qa qb : Int} (h : Redeemed me p shares ta tb p') (hs : shares.sum ≤ p.total)
    (hq : Pool.queryShare p shares.sum = .ok (qa, qb)) :
    ((ta - qa) * 10 ^ 18 < 10 ^ 18 + p.resA ∧ (tb - qb) * 10 ^ 18 < 10 ^ 18 + p.resB) ∧
    ((qa - ta) * 10 ^ 18 ≤ shares.length * (10 ^ 18 + p.resA) ∧
      (qb - tb) * 10 ^ 18 ≤ shares.length * (10 ^ 18 + p.resB)) ∧
    p' = { p with total := p.total - shares.sum, resA := p.resA - ta, resB := p.resB - tb } := by
  have hP := (Pool.run_keeps ts ht (genesis_inv h0)).pool p hp
  have hT := hP.total_nonneg
  obtain ⟨c1, c2, c3⟩ := redeemed_core h hP.distinct hP.a0 hP.b0 hT hs
  obtain ⟨s0, s1⟩ := sum_pos_or (redeemed_pos h hP.distinct)
  unfold Pool.queryShare Pool.shareRatio at hq
  simp only [bind_ok, ok_inj, Prod.mk.injEq] at hq
  obtain ⟨ratio, hr, a, ha, b, hb, rfl, rfl⟩ := hq
  have hz : p.total = 0 → ta = 0 ∧ tb = 0 := by
    intro hz
    have := s1 (by omega)
    subst this
    cases h
    exact ⟨rfl, rfl⟩
  have r1 := parts_token hP.a0 hT s0 c1 (fun k => (hz k).1) hr ha
  have r2 := parts_token hP.b0 hT s0 c2 (fun k => (hz k).2) hr hb
  exact ⟨⟨r1.1, r2.1⟩, ⟨r1.2, r2.2⟩, c3⟩

/-- three withdrawals of 707 shares each from the pool of 1000000 : 2000000 with 1414213 shares bring
1497 : 2997, one withdrawal of all of them brings 1499 : 2999 -/
example : ∃ p', Redeemed 100 exPool [707, 707, 707] 1497 2997 p' ∧ Pool.queryShare exPool 2121 = .ok (1499, 2999) :=
  ⟨_, .cons (c := exSign) (L := exLed) (sender := 1) (mA := 1) (mB := 1) (dl := none) (ra := 499) (rb := 999)
    (ta := 998) (tb := 1998) rfl rfl
    (.cons (c := exSign) (L := exLed) (sender := 1) (mA := 1) (mB := 1) (dl := none) (ra := 499) (rb := 999)
      (ta := 499) (tb := 999) rfl rfl
      (.cons (c := exSign) (L := exLed) (sender := 1) (mA := 1) (mB := 1) (dl := none) (ra := 499) (rb := 999)
        (ta := 0) (tb := 0) rfl rfl (.nil _))), by decide +kernel⟩

/-- **C143** The same for a stable pool. -/
theorem C143_stable_withdrawals_in_parts {me : Addr} {s : Stable.Sys} (h0 : Stable.Spec.Genesis me s) {ts : List Stable.Tx}
    (ht : ∀ t ∈ ts, Stable.Spec.Possible me t) {p p' : Stable.State} (hp : (Stable.run me s ts).pool = some p)
    {shares : List Int} {ta tb qa qb : Int} (h : RedeemedStable me p shares ta tb p') (hs : shares.sum ≤ p.total)
    (hq : Stable.queryShare p shares.sum = .ok (qa, qb)) :
    ((ta - qa) * 10 ^ 18 < 10 ^ 18 + p.resA ∧ (tb - qb) * 10 ^ 18 < 10 ^ 18 + p.resB) ∧
    ((qa - ta) * 10 ^ 18 ≤ shares.length * (10 ^ 18 + p.resA) ∧
      (qb - tb) * 10 ^ 18 ≤ shares.length * (10 ^ 18 + p.resB)) ∧
    p' = { p with total := p.total - shares.sum, resA := p.resA - ta, resB := p.resB - tb } := by
  have hP := Props.Stable.reach_swap h0 ht hp
  have hT := hP.t0
  obtain ⟨c1, c2, c3⟩ := redeemedStable_core h hP.distinct hP.a0 hP.b0 hT hs
  obtain ⟨s0, s1⟩ := sum_pos_or (redeemedStable_pos h hP.distinct)
  unfold Stable.queryShare Stable.shareRatio at hq
  simp only [bind_ok, ok_inj, Prod.mk.injEq] at hq
  obtain ⟨ratio, hr, a, ha, b, hb, rfl, rfl⟩ := hq
  have hz : p.total = 0 → ta = 0 ∧ tb = 0 := by
    intro hz
    have := s1 (by omega)
    subst this
    cases h
    exact ⟨rfl, rfl⟩
  have r1 := parts_token hP.a0 hT s0 c1 (fun k => (hz k).1) hr ha
  have r2 := parts_token hP.b0 hT s0 c2 (fun k => (hz k).2) hr hb
  exact ⟨⟨r1.1, r2.1⟩, ⟨r1.2, r2.2⟩, c3⟩

/-- two withdrawals of 1000001 shares from the stable pool of 2 : 2 tokens after a swap, and what one of both
would bring -/
example : ∃ p p', (Stable.run 100 (Props.Stable.exStart 7 7) (Props.Stable.exHist 100 20000000 20000000 ++
      [Props.Stable.exSwap 10 1000000])).pool = some p ∧
    RedeemedStable 100 p [1000001, 1000001] 1050026 950048 p' ∧ Stable.queryShare p 2000002 = .ok (1050027, 950049) := by
  have h : okAnd (Stable.loaded (Stable.run 100 (Props.Stable.exStart 7 7) (Props.Stable.exHist 100 20000000 20000000 ++
      [Props.Stable.exSwap 10 1000000])).pool) (fun p =>
    okAnd (Stable.withdraw 100 (Props.Stable.by' 1) p (Stable.run 100 (Props.Stable.exStart 7 7) (Props.Stable.exHist 100 20000000 20000000 ++
      [Props.Stable.exSwap 10 1000000])).led 1 1000001 1 1 none) (fun r =>
    okAnd (Stable.withdraw 100 (Props.Stable.by' 1) r.1 r.2.1 1 1000001 1 1 none) (fun q =>
    okAnd (Stable.queryShare p 2000002) (fun w =>
    decide (r.2.2.1 + (q.2.2.1 + 0) = 1050026 ∧ r.2.2.2 + (q.2.2.2 + 0) = 950048 ∧ w = (1050027, 950049)))))) = true := by
    decide +kernel
  obtain ⟨p, h1, h⟩ := exists_of_okAnd h
  obtain ⟨⟨p1, L1, ra, rb⟩, h2, h⟩ := exists_of_okAnd h
  obtain ⟨⟨p2, L2, sa, sb⟩, h3, h⟩ := exists_of_okAnd h
  obtain ⟨w, h4, h⟩ := exists_of_okAnd h
  obtain ⟨e1, e2, rfl⟩ := of_decide_eq_true h
  refine ⟨p, p2, Stable.loaded_some h1, ?_, h4⟩
  rw [← e1, ← e2]
  exact .cons rfl h2 (.cons rfl h3 (.nil _))

/-! ### stakes -/

theorem reward_two {x y R T : Int} (hT : 0 < T) (day ts : Nat) :
    Stake.Spec.reward x R T day ts + Stake.Spec.reward y R T day ts ≤ Stake.Spec.reward (x + y) R T day ts ∧
    Stake.Spec.reward (x + y) R T day ts ≤ Stake.Spec.reward x R T day ts + Stake.Spec.reward y R T day ts + 2 := by
  unfold Stake.Spec.reward
  have hf : (min ((day - ts) / 86400) 60 : Nat) ≤ 60 := Nat.min_le_right _ _
  generalize (min ((day - ts) / 86400) 60 : Nat) = k at *
  have f0 : 0 ≤ ((k : Int) * 10 ^ 18 / 60) := Int.ediv_nonneg (by positivity) (by norm_num)
  have f1 : ((k : Int) * 10 ^ 18 / 60) ≤ 10 ^ 18 := by omega
  generalize ((k : Int) * 10 ^ 18 / 60) = f at *
  have a := ediv_bounds (a := x * R) (b := T) hT
  have b := ediv_bounds (a := y * R) (b := T) hT
  have c := ediv_bounds (a := (x + y) * R) (b := T) hT
  have e : (x + y) * R = x * R + y * R := by ring
  rw [e] at c ⊢
  generalize x * R / T = u at *
  generalize y * R / T = v at *
  generalize (x * R + y * R) / T = w at *
  have w1 : u + v ≤ w := by
    by_contra hn
    have := mul_le_mul_of_nonneg_left (show w + 1 ≤ u + v by omega) hT.le
    nlinarith
  have w2 : w ≤ u + v + 1 := by
    by_contra hn
    have := mul_le_mul_of_nonneg_left (show u + v + 2 ≤ w by omega) hT.le
    nlinarith
  have k1 := mul_le_mul_of_nonneg_right w1 f0
  have k2 := mul_le_mul_of_nonneg_right w2 f0
  rw [add_mul] at k1
  rw [add_mul, add_mul, one_mul] at k2
  generalize u * f = uf at *
  generalize v * f = vf at *
  generalize w * f = wf at *
  omega

theorem reward_zero (R T : Int) (day ts : Nat) : Stake.Spec.reward 0 R T day ts = 0 := by
  simp [Stake.Spec.reward]

theorem reward_parts {R T : Int} (hT : 0 < T) (day ts : Nat) (l : List Stake.Entry) (hl : ∀ e ∈ l, e.ts = ts) :
    (l.map (fun e => Stake.Spec.reward e.amount R T day e.ts)).sum ≤ Stake.Spec.reward (l.map (·.amount)).sum R T day ts ∧
    Stake.Spec.reward (l.map (·.amount)).sum R T day ts ≤
      (l.map (fun e => Stake.Spec.reward e.amount R T day e.ts)).sum + (2 * (l.length - 1) : Nat) := by
  induction l with
  | nil => simp [reward_zero]
  | cons e l ih =>
    obtain ⟨i1, i2⟩ := ih (fun x hx => hl x (by simp [hx]))
    have he := hl e (by simp)
    simp only [List.map_cons, List.sum_cons, List.length_cons, he]
    obtain ⟨r1, r2⟩ := reward_two (x := e.amount) (y := (l.map (·.amount)).sum) (R := R) hT day ts
    rcases l with _ | ⟨e', l⟩
    · simp
    · simp only [List.length_cons] at *
      omega

theorem earned_parts {d : Stake.Spec.Dist} (h0 : 0 ≤ d.staked) (ts : Nat) (x : Int) (l : List Stake.Entry)
    (hl : ∀ e ∈ l, e.ts = ts) (hx : (l.map (·.amount)).sum = x) :
    Stake.Spec.earnedFor l d ≤ Stake.Spec.earnedFor [⟨x, ts⟩] d ∧
    Stake.Spec.earnedFor [⟨x, ts⟩] d ≤ Stake.Spec.earnedFor l d + (2 * (l.length - 1) : Nat) := by
  unfold Stake.Spec.earnedFor
  split
  · exact ⟨le_refl _, by omega⟩
  · have := reward_parts (R := d.amount) (T := d.staked) (by omega) d.time ts l hl
    rw [hx] at this
    simpa using this

theorem query_val {c : Ctx} {s : Stake.State} {a : Addr} {l : List Addr} {r : List (Addr × Nat)}
    (h : Stake.queryLoop c s a l = .ok r) {tok : Addr} {v : Nat} (hv : (tok, v) ∈ r) :
    ∃ p, Stake.pending c s tok (s.info a) = .ok p ∧ v = asU128 p := by
  induction l generalizing r with
  | nil => simp only [Stake.queryLoop, ok_inj] at h; subst h; simp at hv
  | cons t l ih =>
    simp only [Stake.queryLoop, bind_ok, ok_inj] at h
    obtain ⟨p, hp, r', hr, rfl⟩ := h
    rcases List.mem_cons.1 hv with e | hv
    · cases e; exact ⟨p, hp, rfl⟩
    · exact ih hr hv

/-- What is reported is the formula. -/
theorem reports_due {me : Addr} {s : Stake.Sys} (h0 : Stake.Spec.Genesis me s) {ts : List Stake.Tx}
    (ht : ∀ t ∈ ts, Stake.Spec.Possible me t) (hw : Stake.Spec.WellTimed me s ts) {c : Ctx} {tok a : Addr} {v : Nat}
    (h : Reports c (Stake.run me s ts).st tok a v) :
    (v : Int) = Stake.Spec.due (Stake.Spec.dists me s tok ts) (Stake.queryStaked (Stake.run me s ts).st a) c.now := by
  obtain ⟨r, h1, h2⟩ := h
  obtain ⟨p, hp, rfl⟩ := query_val h1 h2
  obtain ⟨e, p0⟩ := C39_pending_formula h0 ts ht hw hp
  rw [← e]
  have := World.pending_range hp
  unfold asU128
  simp only [InI128, I128_MAX, U128_LIM] at *
  omega

theorem sum_due {log : List Stake.Spec.Dist} {now last : Nat} (s : Stake.State) :
    ∀ (as : List Addr), (∀ a ∈ as, (Stake.queryStaked s a).last = last) →
    (as.map (fun a => Stake.Spec.due log (Stake.queryStaked s a) now)).sum =
      Stake.Spec.due log { stakes := stakesOf s as, last := last, total := 0 } now
  | [], _ => by
    have : Stake.Spec.earnedFor [] = fun _ => 0 := by funext d; simp [Stake.Spec.earnedFor]
    simp [Stake.Spec.due, stakesOf, this]
  | a :: as, h => by
    have ih := sum_due (log := log) (now := now) s as (fun b hb => h b (by simp [hb]))
    simp only [List.map_cons, List.sum_cons, ih]
    have ha := h a (by simp)
    unfold Stake.Spec.due
    simp only [ha]
    rw [← List.sum_map_add]
    congr 1
    apply List.map_congr_left
    intro d _
    unfold Stake.Spec.earnedFor stakesOf
    split <;> simp

/-- **C143** Stakes made at the same moment and last claimed at the same moment, whether of one account or
spread over several: all together they can claim at most what one stake of their sum can claim, and less than
that by at most two units for each part but the first and each distribution.  So neither splitting a stake nor
using several accounts gains anything. -/
theorem C143_stakes_in_parts {me : Addr} {s : Stake.Sys} (h0 : Stake.Spec.Genesis me s) {ts : List Stake.Tx}
    (ht : ∀ t ∈ ts, Stake.Spec.Possible me t) (hw : Stake.Spec.WellTimed me s ts) {c : Ctx} {tok b : Addr}
    {as : List Addr} {v : Addr → Nat} {vb : Nat} {x : Int} {time : Nat}
    (hone : (Stake.queryStaked (Stake.run me s ts).st b).stakes = [⟨x, time⟩])
    (hsum : ((stakesOf (Stake.run me s ts).st as).map (·.amount)).sum = x)
    (htime : ∀ e ∈ stakesOf (Stake.run me s ts).st as, e.ts = time)
    (hlast : ∀ a ∈ as, (Stake.queryStaked (Stake.run me s ts).st a).last = (Stake.queryStaked (Stake.run me s ts).st b).last)
    (hb : Reports c (Stake.run me s ts).st tok b vb) (has : ∀ a ∈ as, Reports c (Stake.run me s ts).st tok a (v a)) :
    (as.map v).sum ≤ vb ∧
    vb ≤ (as.map v).sum + 2 * ((stakesOf (Stake.run me s ts).st as).length - 1) * (Stake.Spec.dists me s tok ts).length := by
  have e1 := reports_due h0 ht hw hb
  have e2 : (((as.map v).sum : Nat) : Int) =
      (as.map (fun a => Stake.Spec.due (Stake.Spec.dists me s tok ts) (Stake.queryStaked (Stake.run me s ts).st a) c.now)).sum := by
    clear hlast htime hsum
    induction as with
    | nil => simp
    | cons a as ih =>
      simp only [List.map_cons, List.sum_cons]
      rw [← ih (fun x hx => has x (by simp [hx])), ← reports_due h0 ht hw (has a (by simp))]
      push_cast; rfl
  rw [sum_due _ as hlast] at e2
  obtain ⟨-, -, l3⟩ := Stake.run_log ts ht (Stake.genesis_invA h0) (Stake.genesis_B h0) hw.ordered hw.distinct
  have l3 := l3 tok
  have key : Stake.Spec.due (Stake.Spec.dists me s tok ts) { stakes := stakesOf (Stake.run me s ts).st as, last := (Stake.queryStaked (Stake.run me s ts).st b).last, total := 0 } c.now ≤
      Stake.Spec.due (Stake.Spec.dists me s tok ts) (Stake.queryStaked (Stake.run me s ts).st b) c.now ∧
      Stake.Spec.due (Stake.Spec.dists me s tok ts) (Stake.queryStaked (Stake.run me s ts).st b) c.now ≤
      Stake.Spec.due (Stake.Spec.dists me s tok ts) { stakes := stakesOf (Stake.run me s ts).st as, last := (Stake.queryStaked (Stake.run me s ts).st b).last, total := 0 } c.now +
        (2 * ((stakesOf (Stake.run me s ts).st as).length - 1) * (Stake.Spec.dists me s tok ts).length : Nat) := by
    unfold Stake.Spec.due
    rw [hone]
    simp only
    generalize Stake.Spec.dists me s tok ts = log at *
    generalize (Stake.queryStaked (Stake.run me s ts).st b).last = last
    clear e1 e2 hb has hlast hone
    induction log with
    | nil => simp
    | cons d log ih =>
      have ih := ih (fun d hd => l3 d (by simp [hd]))
      have hd := earned_parts (l3 d (by simp)).2.2 time x _ htime hsum
      rw [List.filter_cons, List.length_cons, Nat.mul_add, Nat.mul_one]
      split
      · simp only [List.map_cons, List.sum_cons]
        push_cast at *
        omega
      · push_cast at *
        omega
  rw [← e1, ← e2] at key
  constructor
  · exact_mod_cast key.1
  · exact_mod_cast key.2

/-- accounts 1 and 2 stake 100 each at the moment when account 7 stakes 200 -/
def exHist : List Stake.Tx :=
  [ .stake (sBy 9 0) (.init 9 30 10 1 7 9 5),
    .stake (sBy 7 1) (.createFlow 7 40),
    .stake (sBy 1 (sDay 10)) (.bond 1 100),
    .stake (sBy 2 (sDay 10)) (.bond 2 100),
    .stake (sBy 7 (sDay 10)) (.bond 7 200),
    .stake (sBy 7 (sDay 39)) (.distribute 7 1003 40),
    .stake (sBy 7 (sDay 40)) (.distribute 7 1001 40) ]

/-- the hypotheses hold after that history: the two parts can claim 245 + 245, the whole stake 492 -/
example : Stake.Spec.Genesis 100 sExStart ∧ (∀ t ∈ exHist, Stake.Spec.Possible 100 t) ∧ Stake.Spec.WellTimed 100 sExStart exHist ∧
    (Stake.queryStaked (Stake.run 100 sExStart exHist).st 7).stakes = [⟨200, sDay 10⟩] ∧
    stakesOf (Stake.run 100 sExStart exHist).st [1, 2] = [⟨100, sDay 10⟩, ⟨100, sDay 10⟩] ∧
    Reports (sBy 3 (sDay 50)) (Stake.run 100 sExStart exHist).st 40 7 492 ∧
    (∀ a ∈ [1, 2], Reports (sBy 3 (sDay 50)) (Stake.run 100 sExStart exHist).st 40 a 245) := by
  refine ⟨sExStart_genesis, ?_, ⟨?_, ?_⟩, by decide +kernel, by decide +kernel, ⟨[(40, 492)], by decide +kernel, by simp⟩, ?_⟩
  · intro t ht
    simp only [exHist, List.mem_cons, List.not_mem_nil, or_false] at ht
    rcases ht with rfl | rfl | rfl | rfl | rfl | rfl | rfl <;> rfl
  · simp [Stake.Spec.TimeOrdered, exHist, Stake.Tx.ctx, sBy, sDay]
  · refine ⟨?_, ?_, ?_, ?_, ?_, ?_, ?_, trivial⟩ <;> decide +kernel
  · intro a ha
    refine ⟨[(40, 245)], ?_, by simp⟩
    simp only [List.mem_cons, List.not_mem_nil, or_false] at ha
    rcases ha with rfl | rfl <;> decide +kernel

end Phoenix.Props.Parts
