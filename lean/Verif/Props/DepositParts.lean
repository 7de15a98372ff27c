import Verif.Props.Depth
/-!
C150: depositing into a constant product pool in parts.
-/
namespace Phoenix.Props.DepositParts
open Phoenix Pool Spec

/-- What a deposit into a pool with reserves does, in terms of the balances of the depositor (helper). -/
theorem deposit_effect {me : Addr} {c : Ctx} {p p' : State} {L L' : Ledger} {sender : Addr} {dA mA dB mB cu : Option Int} {dl : Option Nat}
    (hc : c.auth me = false) (hd : DistinctTokens p) (hA : 0 < p.resA) (hB : 0 < p.resB) (hT : 0 ≤ p.total)
    (bA : p.resA ≤ L.bal p.cfg.tokenA me) (bB : p.resB ≤ L.bal p.cfg.tokenB me)
    (h : provide me c p L sender dA mA dB mB cu dl = .ok (p', L')) {a b m : Int}
    (ha : L.bal p.cfg.tokenA sender - L'.bal p.cfg.tokenA sender = a)
    (hb : L.bal p.cfg.tokenB sender - L'.bal p.cfg.tokenB sender = b)
    (hm : L'.bal p.cfg.shareToken sender - L.bal p.cfg.shareToken sender = m) :
    0 ≤ a ∧ 0 ≤ b ∧ 0 ≤ m ∧ p'.cfg = p.cfg ∧ p'.total = p.total + m ∧
    p'.resA = L.bal p.cfg.tokenA me + a ∧ p'.resB = L.bal p.cfg.tokenB me + b ∧
    L'.bal p.cfg.tokenA me = p'.resA ∧ L'.bal p.cfg.tokenB me = p'.resB ∧
    a * p.resB < (b + 1) * p.resA ∧ b * p.resA < (a + 1) * p.resB ∧
    p.total + m = min ((L.bal p.cfg.tokenA me + a) * p.total / p.resA) ((L.bal p.cfg.tokenB me + b) * p.total / p.resB) := by
  obtain ⟨a', b', m', lock, e1, e2, e3, e4, e5, e6, e7, e8, e9, e10, e11, e12, rfl, e14⟩ := provide_inv h hc hd
  obtain ⟨hAB, hSA, hSB⟩ := hd
  have hns := auth_ne hc e2
  have hm' : L'.bal p.cfg.shareToken sender - L.bal p.cfg.shareToken sender = m' := by
    rw [e11]; simp [Flow.delta, hSA.symm, hSB.symm, hns.symm]
  have ha' : L.bal p.cfg.tokenA sender - L'.bal p.cfg.tokenA sender = a' := by
    rw [e11]; simp [Flow.delta, hSA, hAB.symm, hns.symm]
  have hb' : L.bal p.cfg.tokenB sender - L'.bal p.cfg.tokenB sender = b' := by
    rw [e11]; simp [Flow.delta, hSB, hAB, hns.symm]
  obtain rfl : a' = a := ha'.symm.trans ha
  obtain rfl : b' = b := hb'.symm.trans hb
  obtain rfl : m' = m := hm'.symm.trans hm
  rcases e14 with ⟨-, -, rfl, e⟩ | ⟨hn, -⟩
  swap; · exact absurd ⟨hA, hB⟩ hn
  rw [tdiv_nonneg_eq (mul_nonneg (by omega) (by omega)), tdiv_nonneg_eq (mul_nonneg (by omega) (by omega))] at e
  obtain ⟨q1, q2⟩ := Depth.amounts_ratio hA hB e4
  refine ⟨e5, e7, e9, rfl, by simp, rfl, rfl, ?_, ?_, q1, q2, e⟩
  · rw [e11]; simp [Flow.delta, hSA, hAB.symm, hns]
  · rw [e11]; simp [Flow.delta, hSB, hAB, hns]

/-- Shares of two deposits in a row (helper). -/
theorem two_steps {R X T T1 T2 a1 a2 : Int} (hR : 0 < R) (hX : 0 < X + a1) (h2 : 0 ≤ X + a1 + a2) (k1 : T1 ≤ (X + a1) * T / R)
    (k2 : T2 ≤ (X + a1 + a2) * T1 / (X + a1)) : T2 ≤ (X + (a1 + a2)) * T / R := by
  rw [Int.le_ediv_iff_mul_le hR] at k1 ⊢
  rw [Int.le_ediv_iff_mul_le hX] at k2
  have m1 : (X + a1 + a2) * (T1 * R) ≤ (X + a1 + a2) * ((X + a1) * T) := mul_le_mul_of_nonneg_left k1 h2
  have m2 : T2 * (X + a1) * R ≤ (X + a1 + a2) * T1 * R := mul_le_mul_of_nonneg_right k2 hR.le
  have m3 : T2 * R * (X + a1) ≤ (X + (a1 + a2)) * T * (X + a1) := by nlinarith
  exact le_of_mul_le_mul_right m3 hX

variable {me : Addr} {s : Sys} {p p1 p2 q : State} {c1 c2 c3 : Ctx} {L1 L2 L3 : Ledger} {sender : Addr}
  {dA1 mA1 dB1 mB1 cu1 dA2 mA2 dB2 mB2 cu2 dA3 mA3 dB3 mB3 cu3 : Option Int} {dl1 dl2 dl3 : Option Nat}

/-- **C150** Nobody gains LP shares by depositing in two parts, whatever else was sent to the pool: the two deposits together bring
at most the shares which one deposit of the same amounts of both tokens would bring. -/
theorem C150_parts_gain_nothing (h0 : Genesis me s) (ts : List Tx) (ht : ∀ t ∈ ts, Possible me t)
    (hp : (run me s ts).pool = some p) (hA : 0 < p.resA) (hB : 0 < p.resB) {L : Ledger} (hL : L = (run me s ts).led)
    (hc1 : c1.auth me = false) (hc2 : c2.auth me = false) (hc3 : c3.auth me = false)
    (h1 : provide me c1 p L sender dA1 mA1 dB1 mB1 cu1 dl1 = .ok (p1, L1))
    (h2 : provide me c2 p1 L1 sender dA2 mA2 dB2 mB2 cu2 dl2 = .ok (p2, L2))
    (h3 : provide me c3 p L sender dA3 mA3 dB3 mB3 cu3 dl3 = .ok (q, L3))
    (sameA : L3.bal p.cfg.tokenA sender = L2.bal p.cfg.tokenA sender)
    (sameB : L3.bal p.cfg.tokenB sender = L2.bal p.cfg.tokenB sender) :
    L2.bal p.cfg.shareToken sender ≤ L3.bal p.cfg.shareToken sender := by
  have hP := (run_keeps ts ht (genesis_inv h0)).pool p hp
  rw [← hL] at hP
  have hT : 0 ≤ p.total := by
    rcases hP.phase with q | q
    · have := q.2.1; omega
    · have := q.1; omega
  obtain ⟨x1, x2, x3, x4, x5, x6, x7, x8, x9, x10, x11, x12⟩ := deposit_effect hc1 hP.distinct hA hB hT hP.aB hP.bB h1 rfl rfl rfl
  obtain ⟨y1, y2, y3, y4, y5, y6, y7, y8, y9, y10, y11, y12⟩ := deposit_effect hc2 (by unfold DistinctTokens; rw [x4]; exact hP.distinct)
    (by have := hP.aB; omega) (by have := hP.bB; omega) (by omega) (by rw [x4, x8]) (by rw [x4, x9]) h2 rfl rfl rfl
  obtain ⟨z1, z2, z3, z4, z5, z6, z7, z8, z9, z10, z11, z12⟩ := deposit_effect hc3 hP.distinct hA hB hT hP.aB hP.bB h3 rfl rfl rfl
  rw [x4] at y1 y2 y3 y12
  rw [x8, x9, x5] at y12
  rw [x6, x7] at y12
  have hXA := hP.aB
  have hXB := hP.bB
  have e1 : L.bal p.cfg.tokenA sender - L3.bal p.cfg.tokenA sender =
    (L.bal p.cfg.tokenA sender - L1.bal p.cfg.tokenA sender) + (L1.bal p.cfg.tokenA sender - L2.bal p.cfg.tokenA sender) := by omega
  have e2 : L.bal p.cfg.tokenB sender - L3.bal p.cfg.tokenB sender =
    (L.bal p.cfg.tokenB sender - L1.bal p.cfg.tokenB sender) + (L1.bal p.cfg.tokenB sender - L2.bal p.cfg.tokenB sender) := by omega
  rw [e1, e2] at z12
  have kA := two_steps (T2 := p.total + (L1.bal p.cfg.shareToken sender - L.bal p.cfg.shareToken sender) + (L2.bal p.cfg.shareToken sender - L1.bal p.cfg.shareToken sender))
    hA (by omega) (by omega) (x12 ▸ min_le_left _ _) (y12 ▸ min_le_left _ _)
  have kB := two_steps (T2 := p.total + (L1.bal p.cfg.shareToken sender - L.bal p.cfg.shareToken sender) + (L2.bal p.cfg.shareToken sender - L1.bal p.cfg.shareToken sender))
    hB (by omega) (by omega) (x12 ▸ min_le_right _ _) (y12 ▸ min_le_right _ _)
  have := le_min kA kB
  rw [← z12] at this
  omega

/-- The first of two deposits brings almost the full share of either token (helper). -/
theorem first_step {R S T T1 a b : Int} (hR : 0 < R) (hS : 0 < S) (hT : 0 ≤ T) (r1 : a * S < (b + 1) * R)
    (e : T1 = min ((R + a) * T / R) ((S + b) * T / S)) : ((R + a : Int) : ℚ) * T / R - T / S - 1 < T1 := by
  have hR' : (0:ℚ) < R := by exact_mod_cast hR
  have hS' : (0:ℚ) < S := by exact_mod_cast hS
  have hT' : (0:ℚ) ≤ T := by exact_mod_cast hT
  have r1' : (a:ℚ) * S < (b + 1) * R := by exact_mod_cast r1
  have hq : (0:ℚ) ≤ T / S := div_nonneg hT' hS'.le
  rcases min_choice ((R + a) * T / R) ((S + b) * T / S) with k | k <;> rw [k] at e
  · have u := Int.lt_ediv_add_one_mul_self ((R + a) * T) hR
    rw [← e] at u
    have u' : ((R + a : Int) : ℚ) * T < (T1 + 1) * R := by exact_mod_cast u
    rw [← div_lt_iff₀ hR'] at u'
    linarith
  · have u := Int.lt_ediv_add_one_mul_self ((S + b) * T) hS
    rw [← e] at u
    have u' : ((S + b : Int) : ℚ) * T < (T1 + 1) * S := by exact_mod_cast u
    rw [← div_lt_iff₀ hS'] at u'
    have v : ((R + a : Int) : ℚ) * T / R - T / S ≤ ((S + b : Int) : ℚ) * T / S := by
      rw [← sub_nonneg]
      have : ((S + b : Int) : ℚ) * T / S - (((R + a : Int) : ℚ) * T / R - T / S) = T * ((b + 1) * R - a * S) / (R * S) := by
        push_cast; field_simp; ring
      rw [this]
      exact div_nonneg (mul_nonneg hT' (by linarith)) (by positivity)
    linarith

/-- The second deposit keeps what the first one brought (helper). -/
theorem second_step {R1 R2 T1 T2 T M : Int} {d : ℚ} {R : Int} (hR : 0 < R) (h1 : 0 < R1) (h2 : 0 ≤ R2)
    (f : (R1 : ℚ) * T / R - d < T1) (u : R2 * T1 < (T2 + 1) * R1) (hM : M ≤ R2 * T / R) : (M : ℚ) - T2 ≤ 1 + d * R2 / R1 := by
  have hR' : (0:ℚ) < R := by exact_mod_cast hR
  have h1' : (0:ℚ) < R1 := by exact_mod_cast h1
  have h2' : (0:ℚ) ≤ R2 := by exact_mod_cast h2
  rw [Int.le_ediv_iff_mul_le hR] at hM
  have hM' : (M:ℚ) ≤ R2 * T / R := by rw [le_div_iff₀ hR']; exact_mod_cast hM
  have u' : (R2:ℚ) * T1 / R1 < T2 + 1 := by rw [div_lt_iff₀ h1']; exact_mod_cast u
  have w : (R2:ℚ) * ((R1 : ℚ) * T / R - d) / R1 ≤ R2 * T1 / R1 :=
    div_le_div_of_nonneg_right (mul_le_mul_of_nonneg_left f.le h2') h1'.le
  have e : (R2:ℚ) * ((R1 : ℚ) * T / R - d) / R1 = R2 * T / R - d * R2 / R1 := by field_simp
  linarith

/-- **C150** Nor does it cost more than the rounding: when the pool holds just its reserves, the one deposit brings at most
`1 + (1 + T/S) · R2/R1` shares more than the two, or the same bound with the sides exchanged, where `T` is the supply of shares
before, `R` and `S` are the reserves before, and `R1`, `R2` those after the first and the second deposit. -/
theorem C150_parts_cost_rounding (h0 : Genesis me s) (ts : List Tx) (ht : ∀ t ∈ ts, Possible me t)
    (hp : (run me s ts).pool = some p) (hA : 0 < p.resA) (hB : 0 < p.resB) {L : Ledger} (hL : L = (run me s ts).led)
    (exA : L.bal p.cfg.tokenA me = p.resA) (exB : L.bal p.cfg.tokenB me = p.resB)
    (hc1 : c1.auth me = false) (hc2 : c2.auth me = false) (hc3 : c3.auth me = false)
    (h1 : provide me c1 p L sender dA1 mA1 dB1 mB1 cu1 dl1 = .ok (p1, L1))
    (h2 : provide me c2 p1 L1 sender dA2 mA2 dB2 mB2 cu2 dl2 = .ok (p2, L2))
    (h3 : provide me c3 p L sender dA3 mA3 dB3 mB3 cu3 dl3 = .ok (q, L3))
    (sameA : L3.bal p.cfg.tokenA sender = L2.bal p.cfg.tokenA sender)
    (sameB : L3.bal p.cfg.tokenB sender = L2.bal p.cfg.tokenB sender) :
    ((L3.bal p.cfg.shareToken sender : ℚ) - L2.bal p.cfg.shareToken sender) ≤
      1 + max ((1 + p.total / p.resB) * p2.resA / p1.resA : ℚ) ((1 + p.total / p.resA) * p2.resB / p1.resB) := by
  have hP := (run_keeps ts ht (genesis_inv h0)).pool p hp
  rw [← hL] at hP
  have hT : 0 ≤ p.total := by
    rcases hP.phase with q | q
    · have := q.2.1; omega
    · have := q.1; omega
  obtain ⟨x1, x2, x3, x4, x5, x6, x7, x8, x9, x10, x11, x12⟩ := deposit_effect hc1 hP.distinct hA hB hT hP.aB hP.bB h1 rfl rfl rfl
  obtain ⟨y1, y2, y3, y4, y5, y6, y7, y8, y9, y10, y11, y12⟩ := deposit_effect hc2 (by unfold DistinctTokens; rw [x4]; exact hP.distinct)
    (by have := hP.aB; omega) (by have := hP.bB; omega) (by omega) (by rw [x4, x8]) (by rw [x4, x9]) h2 rfl rfl rfl
  obtain ⟨z1, z2, z3, z4, z5, z6, z7, z8, z9, z10, z11, z12⟩ := deposit_effect hc3 hP.distinct hA hB hT hP.aB hP.bB h3 rfl rfl rfl
  rw [x4] at y1 y2 y3 y6 y7 y12
  rw [x8] at y6 y12
  rw [x9] at y7 y12
  rw [exA] at x6 x12 z12
  rw [exB] at x7 x12 z12
  rw [← y6, ← y7] at y12
  have e1 : p.resA + (L.bal p.cfg.tokenA sender - L3.bal p.cfg.tokenA sender) = p2.resA := by omega
  have e2 : p.resB + (L.bal p.cfg.tokenB sender - L3.bal p.cfg.tokenB sender) = p2.resB := by omega
  rw [e1, e2] at z12
  have fA := first_step hA hB hT x10 x12
  have fB := first_step hB hA hT x11 (x12.trans (min_comm _ _))
  rw [← x6, ← x5] at fA
  rw [← x7, ← x5] at fB
  rw [sub_sub] at fA fB
  have hsh : (L3.bal p.cfg.shareToken sender : ℚ) - L2.bal p.cfg.shareToken sender =
      ((p.total + (L3.bal p.cfg.shareToken sender - L.bal p.cfg.shareToken sender) : Int) : ℚ) -
      ((p1.total + (L2.bal p.cfg.shareToken sender - L1.bal p.cfg.shareToken sender) : Int) : ℚ) := by
    rw [x5]; push_cast; ring
  rw [hsh]
  rcases min_choice (p2.resA * p1.total / p1.resA) (p2.resB * p1.total / p1.resB) with k | k
  · have u := Int.lt_ediv_add_one_mul_self (p2.resA * p1.total) (show 0 < p1.resA by omega)
    rw [k] at y12
    rw [← y12] at u
    refine (second_step hA (by omega) (by omega) fA u (z12 ▸ min_le_left _ _)).trans ?_
    rw [add_comm ((p.total : ℚ) / p.resB) 1]
    exact add_le_add_right (le_max_left _ _) _
  · have u := Int.lt_ediv_add_one_mul_self (p2.resB * p1.total) (show 0 < p1.resB by omega)
    rw [k] at y12
    rw [← y12] at u
    refine (second_step hB (by omega) (by omega) fB u (z12 ▸ min_le_right _ _)).trans ?_
    rw [add_comm ((p.total : ℚ) / p.resA) 1]
    exact add_le_add_right (le_max_right _ _) _

/-- Account 2 deposits 501 and 1002 units, then 333 and 666, into a pool which holds 1000000 and 2000000 units: it gets 1178 shares.
With one deposit of 834 and 1668 units it would have got 1179. -/
example :
    okAnd (step 100 (run 100 exStart Deposit.exTwo) (.pool (by' 2) (.provide 2 (some 501) none (some 1002) none none none)))
      (fun s => okAnd (step 100 s (.pool (by' 2) (.provide 2 (some 333) none (some 666) none none none)))
        (fun s => decide (s.led.bal 10 2 = 4999166 ∧ s.led.bal 11 2 = 4998332 ∧ s.led.bal 12 2 = 1178))) = true ∧
    okAnd (step 100 (run 100 exStart Deposit.exTwo) (.pool (by' 2) (.provide 2 (some 834) none (some 1668) none none none)))
      (fun s => decide (s.led.bal 10 2 = 4999166 ∧ s.led.bal 11 2 = 4998332 ∧ s.led.bal 12 2 = 1179)) = true := by
  decide +kernel
/-- The pool of the example has reserves and holds just these. -/
example : (run 100 exStart Deposit.exTwo).pool.map (fun p => (p.resA, p.resB)) = some (1000000, 2000000) ∧
    (run 100 exStart Deposit.exTwo).led.bal 10 100 = 1000000 ∧ (run 100 exStart Deposit.exTwo).led.bal 11 100 = 2000000 := by
  decide +kernel

end Phoenix.Props.DepositParts
