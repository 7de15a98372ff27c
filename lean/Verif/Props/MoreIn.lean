import Verif.Props.DepositParts
import Verif.Props.StableTrade
/-!
C157: offering more brings at least as many LP shares, burning more pays at least as much.
-/
namespace Phoenix.Props.MoreIn
open Phoenix

/-- Quotients by a non-negative number keep the order (helper). -/
theorem tdiv_mono {x y d : Int} (hx : 0 ≤ x) (h : x ≤ y) (hd : 0 ≤ d) : x.tdiv d ≤ y.tdiv d := by
  rw [tdiv_nonneg_eq hx, tdiv_nonneg_eq (hx.trans h)]
  rcases hd.eq_or_lt with rfl | hd
  · simp
  · exact Int.ediv_le_ediv hd h

/-- What a withdrawal pays grows with the shares (helper). -/
theorem payout_mono {R T x y : Int} (hR : 0 ≤ R) (hT : 0 ≤ T) (hx : 0 ≤ x) (h : x ≤ y) :
    (R * (x * Dec.ONE).tdiv T).tdiv Dec.ONE ≤ (R * (y * Dec.ONE).tdiv T).tdiv Dec.ONE := by
  have o : (0 : Int) ≤ Dec.ONE := by norm_num [Dec.ONE]
  have k := tdiv_mono (mul_nonneg hx o) (mul_le_mul_of_nonneg_right h o) hT
  have k0 : 0 ≤ (x * Dec.ONE).tdiv T := by
    rw [tdiv_nonneg_eq (mul_nonneg hx o)]; exact Int.ediv_nonneg (mul_nonneg hx o) hT
  exact tdiv_mono (mul_nonneg hR k0) (mul_le_mul_of_nonneg_left k hR) o

end Phoenix.Props.MoreIn

namespace Phoenix.Props.MoreIn.Xyk
open Phoenix Pool Spec

variable {me : Addr} {s : Sys} {p p1 p2 : State} {c1 c2 : Ctx} {L1 L2 : Ledger} {sender : Addr}
  {A B A' B' : Int} {mA1 mB1 cu1 mA2 mB2 cu2 : Option Int} {dl1 dl2 : Option Nat}

/-- The amounts a deposit takes grow with the amounts offered (helper). -/
theorem amounts_mono {a b a' b' : Int} (hA0 : 0 ≤ p.resA) (hB0 : 0 ≤ p.resB) (hA : A ≤ A') (hB : B ≤ B')
    (h1 : chooseAmounts p (some A) mA1 (some B) mB1 cu1 = .ok (a, b))
    (h2 : chooseAmounts p (some A') mA2 (some B') mB2 cu2 = .ok (a', b')) : 0 ≤ a ∧ 0 ≤ b ∧ a ≤ a' ∧ b ≤ b' := by
  obtain ⟨_, _, e1, e2, pA, pB, h1⟩ := chooseAmounts_inv h1
  obtain ⟨_, _, e3, e4, -, -, h2⟩ := chooseAmounts_inv h2
  cases e1; cases e2; cases e3; cases e4
  rcases h1 with ⟨z1, z2, rfl, rfl⟩ | ⟨z1, z2, rfl, rfl, -⟩ <;> rcases h2 with ⟨y1, y2, rfl, rfl⟩ | ⟨y1, y2, rfl, rfl, -⟩
  · exact ⟨pA.le, pB.le, hA, hB⟩
  · exact absurd z1 y1
  · exact absurd y1 z1
  · have q1 : 0 ≤ B * p.resA := mul_nonneg pB.le hA0
    have q2 : 0 ≤ A * p.resB := mul_nonneg pA.le hB0
    refine ⟨le_min pA.le ?_, le_min pB.le ?_, min_le_min hA (tdiv_mono q1 (mul_le_mul_of_nonneg_right hB hA0) hB0),
      min_le_min hB (tdiv_mono q2 (mul_le_mul_of_nonneg_right hA hB0) hA0)⟩
    · rw [tdiv_nonneg_eq q1]; exact Int.ediv_nonneg q1 hB0
    · rw [tdiv_nonneg_eq q2]; exact Int.ediv_nonneg q2 hA0

/-- The shares of a deposit grow with the amounts taken (helper). -/
theorem shares_mono {a b a' b' m m' X Y T : Int} (hA0 : 0 ≤ p.resA) (hB0 : 0 ≤ p.resB) (hX : 0 ≤ X) (hY : 0 ≤ Y) (hT : 0 ≤ T)
    (ha : 0 ≤ a) (hb : 0 ≤ b) (hA : a ≤ a') (hB : b ≤ b')
    (h1 : T + m = min (((X + a) * T).tdiv p.resA) (((Y + b) * T).tdiv p.resB))
    (h2 : T + m' = min (((X + a') * T).tdiv p.resA) (((Y + b') * T).tdiv p.resB)) : m ≤ m' := by
  have k1 := tdiv_mono (mul_nonneg (by omega) hT) (mul_le_mul_of_nonneg_right (show X + a ≤ X + a' by omega) hT) hA0
  have k2 := tdiv_mono (mul_nonneg (by omega) hT) (mul_le_mul_of_nonneg_right (show Y + b ≤ Y + b' by omega) hT) hB0
  have := min_le_min k1 k2
  omega

/-- The rounded root grows (helper). -/
theorem root_mono {x y r q : Int} (h : x ≤ y) (h1 : isqrt x = .ok r) (h2 : isqrt y = .ok q) : r ≤ q := by
  obtain ⟨-, r0, r1, -⟩ := isqrt_ok h1
  obtain ⟨-, q0, -, q2⟩ := isqrt_ok h2
  by_contra hn
  have : (q + 1) * (q + 1) ≤ r * r := mul_self_le_mul_self (by omega) (by omega)
  omega

/-- **C157** Of two deposits which a constant-product pool would accept from an account in the same state, the one that offers at
least as much of both tokens takes at least as much of each and brings at least as many LP shares, whatever the other settings. -/
theorem C157_more_in_more_shares (h0 : Genesis me s) (ts : List Tx) (ht : ∀ t ∈ ts, Possible me t)
    (hp : (run me s ts).pool = some p) (hc1 : c1.auth me = false) (hc2 : c2.auth me = false)
    (h1 : provide me c1 p (run me s ts).led sender (some A) mA1 (some B) mB1 cu1 dl1 = .ok (p1, L1))
    (h2 : provide me c2 p (run me s ts).led sender (some A') mA2 (some B') mB2 cu2 dl2 = .ok (p2, L2))
    (hA : A ≤ A') (hB : B ≤ B') :
    L1.bal p.cfg.shareToken sender ≤ L2.bal p.cfg.shareToken sender ∧
    L2.bal p.cfg.tokenA sender ≤ L1.bal p.cfg.tokenA sender ∧ L2.bal p.cfg.tokenB sender ≤ L1.bal p.cfg.tokenB sender := by
  have hP := (run_keeps ts ht (genesis_inv h0)).pool p hp
  have hT := hP.total_nonneg
  obtain ⟨a, b, m, lock, -, x2, -, x4, -, -, -, -, -, -, x11, -, -, x14⟩ := provide_inv h1 hc1 hP.distinct
  obtain ⟨a', b', m', lock', -, y2, -, y4, -, -, -, -, -, -, y11, -, -, y14⟩ := provide_inv h2 hc2 hP.distinct
  obtain ⟨z1, z2, z3, z4⟩ := amounts_mono hP.a0 hP.b0 hA hB x4 y4
  obtain ⟨hAB, hSA, hSB⟩ := hP.distinct
  have hns := auth_ne hc1 x2
  have hm : m ≤ m' := by
    rcases x14 with ⟨u1, u2, -, e⟩ | ⟨u, -, r, e, -, rfl⟩ <;> rcases y14 with ⟨v1, v2, -, e'⟩ | ⟨v, -, r', e', -, rfl⟩
    · exact shares_mono hP.a0 hP.b0 (hP.a0.trans hP.aB) (hP.b0.trans hP.bB) hT z1 z2 z3 z4 e e'
    · exact absurd ⟨u1, u2⟩ v
    · exact absurd ⟨v1, v2⟩ u
    · have := root_mono (mul_le_mul z3 z4 z2 (z1.trans z3)) e e'
      omega
  refine ⟨?_, ?_, ?_⟩
  · rw [x11, y11]; simp [Flow.delta, hSA.symm, hSB.symm, hns.symm]; omega
  · rw [x11, y11]; simp [Flow.delta, hSA, hAB.symm, hns.symm]; omega
  · rw [x11, y11]; simp [Flow.delta, hSB, hAB, hns.symm]; omega

/-- **C157** What is offered beyond the ratio of the reserves is not touched: if already `A` is worth at least `B`, offering still
more of the first token changes nothing. -/
theorem C157_surplus_stays (h0 : Genesis me s) (ts : List Tx) (ht : ∀ t ∈ ts, Possible me t)
    (hp : (run me s ts).pool = some p) (hrA : 0 < p.resA) (hrB : 0 < p.resB) (hc1 : c1.auth me = false) (hc2 : c2.auth me = false)
    (h1 : provide me c1 p (run me s ts).led sender (some A) mA1 (some B) mB1 cu1 dl1 = .ok (p1, L1))
    (h2 : provide me c2 p (run me s ts).led sender (some A') mA2 (some B) mB2 cu2 dl2 = .ok (p2, L2))
    (hA : A ≤ A') (worth : B * p.resA ≤ A * p.resB) :
    p2 = p1 ∧ ∀ t u, L2.bal t u = L1.bal t u := by
  have hP := (run_keeps ts ht (genesis_inv h0)).pool p hp
  obtain ⟨a, b, m, lock, -, x2, -, x4, -, -, -, -, -, -, x11, -, rfl, x14⟩ := provide_inv h1 hc1 hP.distinct
  obtain ⟨a', b', m', lock', -, y2, -, y4, -, -, -, -, -, -, y11, -, rfl, y14⟩ := provide_inv h2 hc2 hP.distinct
  obtain ⟨_, _, e1, e2, pA, pB, x4⟩ := chooseAmounts_inv x4
  obtain ⟨_, _, e3, e4, -, -, y4⟩ := chooseAmounts_inv y4
  cases e1; cases e2; cases e3; cases e4
  rcases x4 with ⟨z, -⟩ | ⟨-, -, ea, eb, -⟩
  · omega
  rcases y4 with ⟨z, -⟩ | ⟨-, -, ea', eb', -⟩
  · omega
  have worth' : B * p.resA ≤ A' * p.resB := worth.trans (mul_le_mul_of_nonneg_right hA hrB.le)
  have q1 : (B * p.resA).tdiv p.resB ≤ A := by
    rw [tdiv_nonneg_eq (mul_nonneg pB.le hrA.le)]; exact Int.ediv_le_of_le_mul hrB worth
  have q2 : B ≤ (A * p.resB).tdiv p.resA := by
    rw [tdiv_nonneg_eq (mul_nonneg pA.le hrB.le), Int.le_ediv_iff_mul_le hrA]; exact worth
  have q3 : B ≤ (A' * p.resB).tdiv p.resA := by
    rw [tdiv_nonneg_eq (mul_nonneg (by omega) hrB.le), Int.le_ediv_iff_mul_le hrA]; exact worth'
  rw [min_eq_right q1] at ea
  rw [min_eq_left q2] at eb
  rw [min_eq_right (q1.trans hA)] at ea'
  rw [min_eq_left q3] at eb'
  obtain rfl : a' = a := ea'.trans ea.symm
  obtain rfl : b' = b := eb'.trans eb.symm
  rcases x14 with ⟨-, -, rfl, e⟩ | ⟨u, -⟩
  swap; · exact absurd ⟨hrA, hrB⟩ u
  rcases y14 with ⟨-, -, rfl, e'⟩ | ⟨u, -⟩
  swap; · exact absurd ⟨hrA, hrB⟩ u
  obtain rfl : m' = m := by omega
  exact ⟨rfl, fun t u => by rw [x11, y11]⟩

/-- **C157** Of two withdrawals from a constant-product pool in the same state, the one that burns at least as many shares pays at
least as much of both tokens. -/
theorem C157_more_burnt_more_paid (h0 : Genesis me s) (ts : List Tx) (ht : ∀ t ∈ ts, Possible me t)
    (hp : (run me s ts).pool = some p) (hc1 : c1.auth me = false) (hc2 : c2.auth me = false)
    {x y mA mB mA' mB' a b a' b' : Int}
    (h1 : withdraw me c1 p (run me s ts).led sender x mA mB dl1 = .ok (p1, L1, a, b))
    (h2 : withdraw me c2 p (run me s ts).led sender y mA' mB' dl2 = .ok (p2, L2, a', b')) (h : x ≤ y) :
    a ≤ a' ∧ b ≤ b' ∧
    L1.bal p.cfg.tokenA sender ≤ L2.bal p.cfg.tokenA sender ∧ L1.bal p.cfg.tokenB sender ≤ L2.bal p.cfg.tokenB sender := by
  have hP := (run_keeps ts ht (genesis_inv h0)).pool p hp
  have hT := hP.total_nonneg
  obtain ⟨-, u2, u3, -, -, -, -, -, -, -, -, u12, u13, u14, -⟩ := withdraw_inv h1 hc1 hP.distinct
  obtain ⟨-, -, -, -, -, -, -, -, -, -, -, v12, v13, v14, -⟩ := withdraw_inv h2 hc2 hP.distinct
  have hns := auth_ne hc1 u2
  have ka : a ≤ a' := by rw [u12, v12]; exact payout_mono hP.a0 hT u3.le h
  have kb : b ≤ b' := by rw [u13, v13]; exact payout_mono hP.b0 hT u3.le h
  obtain ⟨hAB, hSA, hSB⟩ := hP.distinct
  refine ⟨ka, kb, ?_, ?_⟩
  · rw [u14, v14]; simp [Flow.delta, hSA, hAB.symm, hns.symm]; omega
  · rw [u14, v14]; simp [Flow.delta, hSB, hAB, hns.symm]; omega

/-- Into a pool of 1000000 and 2000000 units account 2 offers 500 and 1000 units, or 653 and 1300, or 656 and 1300 units: the last
two offers take 650 and 1300 units and bring 919 shares, the first one 707. -/
example :
    okAnd (step 100 (run 100 exStart Deposit.exTwo) (.pool (by' 2) (.provide 2 (some 500) none (some 1000) none none none)))
      (fun s => decide (s.led.bal 10 2 = 5000000 - 500 ∧ s.led.bal 11 2 = 5000000 - 1000 ∧ s.led.bal 12 2 = 707)) = true ∧
    okAnd (step 100 (run 100 exStart Deposit.exTwo) (.pool (by' 2) (.provide 2 (some 653) none (some 1300) none none none)))
      (fun s => decide (s.led.bal 10 2 = 5000000 - 650 ∧ s.led.bal 11 2 = 5000000 - 1300 ∧ s.led.bal 12 2 = 919)) = true ∧
    okAnd (step 100 (run 100 exStart Deposit.exTwo) (.pool (by' 2) (.provide 2 (some 656) none (some 1300) none none none)))
      (fun s => decide (s.led.bal 10 2 = 5000000 - 650 ∧ s.led.bal 11 2 = 5000000 - 1300 ∧ s.led.bal 12 2 = 919)) = true := by
  decide +kernel
/-- Account 1 burns 1000 shares, or 1001. -/
example :
    okAnd (step 100 (run 100 exStart Deposit.exTwo) (.pool (by' 1) (.withdraw 1 1000 1 1 none)))
      (fun s => decide (s.led.bal 10 1 = 4000707 ∧ s.led.bal 11 1 = 3001414)) = true ∧
    okAnd (step 100 (run 100 exStart Deposit.exTwo) (.pool (by' 1) (.withdraw 1 1001 1 1 none)))
      (fun s => decide (s.led.bal 10 1 = 4000707 ∧ s.led.bal 11 1 = 3001415)) = true := by
  decide +kernel

end Phoenix.Props.MoreIn.Xyk

namespace Phoenix.Props.MoreIn.StablePool
open Phoenix Stable Stable.Spec Phoenix.Props.Stable

variable {me : Addr} {s : Sys} {p p1 p2 : State} {c1 c2 : Ctx} {L1 L2 : Ledger} {sender : Addr}
  {a b a' b' : Int} {cu1 cu2 : Option Int} {dl1 dl2 ms1 ms2 : Option Nat}

/-- The new shares grow with the invariant (helper). -/
theorem newShares_mono {amp decA decB d d' m m' : Nat} (hT : 0 ≤ p.total) (h : d ≤ d')
    (h1 : newShares p amp decA decB d = .ok m) (h2 : newShares p amp decA decB d' = .ok m') : m ≤ m' := by
  rcases newShares_inv h1 with ⟨z, -, -, e⟩ | ⟨z, oa, ob, d0, x1, x2, x3, x4, x5, e⟩ <;>
    rcases newShares_inv h2 with ⟨y, -, -, e'⟩ | ⟨y, oa', ob', d0', y1, y2, y3, y4, y5, e'⟩
  · have := Nat.div_le_div_right (c := unitOf p.maxPrec) h
    omega
  · exact absurd z y
  · exact absurd y z
  · obtain rfl : oa' = oa := by omega
    obtain rfl : ob' = ob := by omega
    obtain rfl : d0' = d0 := by rw [x3, ok_inj] at y3; exact y3.symm
    have := payout_mono (R := p.total) (T := (d0' : Int)) (x := (d : Int) - d0') (y := (d' : Int) - d0') hT
      (by omega) (by omega) (by omega)
    rw [← e, ← e'] at this
    exact_mod_cast this

/-- **C157** Of two deposits which a stable pool would accept from an account in the same state, the one that brings at least as much
of both tokens earns at least as many LP shares, if either leaves the pool in fair condition: two tokens with the same number (at most
13) of decimals, neither reserve more than 1000 times the other, the total below the amplification bound. -/
theorem C157_stable_more_in_more_shares (h0 : Genesis me s) (ts : List Tx) (ht : ∀ t ∈ ts, Possible me t)
    (hp : (run me s ts).pool = some p) (hc1 : c1.auth me = false) (hc2 : c2.auth me = false)
    (h1 : provide me c1 p (run me s ts).led sender a b cu1 dl1 ms1 = .ok (p1, L1))
    (h2 : provide me c2 p (run me s ts).led sender a' b' cu2 dl2 ms2 = .ok (p2, L2))
    (hA : a ≤ a') (hB : b ≤ b')
    (f1 : Fair 1 { p with resA := p.resA + a, resB := p.resB + b })
    (f2 : Fair 1 { p with resA := p.resA + a', resB := p.resB + b' }) :
    L1.bal p.cfg.shareToken sender ≤ L2.bal p.cfg.shareToken sender := by
  have hP := reach_swap h0 ht hp
  obtain ⟨amp, ua, ub, d, m, x1, x2, x3, x4, x5, x6, x7, x8, x9, x10, x11, x12, x13, x14, -⟩ := provide_inv h1 hc1 hP.distinct
  obtain ⟨amp', ua', ub', d', m', y1, y2, y3, y4, y5, y6, y7, y8, y9, y10, y11, y12, y13, y14, -⟩ := provide_inv h2 hc2 hP.distinct
  obtain rfl := currentAmp_const x8 hP.amp
  obtain rfl := currentAmp_const y8 hP.amp
  obtain ⟨hAB, hSA, hSB⟩ := hP.distinct
  obtain ⟨g1, g2, -, g4, g5⟩ := f1
  obtain ⟨-, -, -, k4, k5⟩ := f2
  simp only at g1 g2 g4 g5 k4 k5
  have l2 := hP.dec.le
  have hD : d ≤ d' := by
    by_cases e : a = a' ∧ b = b'
    · obtain ⟨rfl, rfl⟩ := e
      obtain rfl : ua' = ua := by omega
      obtain rfl : ub' = ub := by omega
      rw [x11, ok_inj] at y11
      exact y11.le
    have hinv : ∀ {u v d : Nat}, invariantOf p.amp.nextAmp u v ((run me s ts).led p.cfg.tokenA).decimals
        ((run me s ts).led p.cfg.tokenB).decimals = .ok d →
        computeD p.amp.nextAmp (u * unitOf p.precA) (v * unitOf p.precA) = .ok d := by
      intro u v d hd
      unfold invariantOf at hd
      simp only [bind_ok] at hd
      obtain ⟨x, hx, y, hy, hD⟩ := hd
      rw [← hP.dec.a] at hx
      rw [← hP.dec.b, ← g1] at hy
      rw [scaleValue_le hx (by omega), scaleValue_le hy (by omega)] at hD
      exact hD
    have hu := unit_large g2
    have hx := hinv x11
    have hy := hinv y11
    generalize unitOf p.precA = U at *
    have k0 := (gap_le hx (by
        have e1 : ((ua * U + ub * U : Nat) : Int) = (p.resA + a + (p.resB + b)) * U := by push_cast; rw [x9, x10]; ring
        omega) (by
        have q : ua ≤ 1000 * ub ∧ ub ≤ 1000 * ua := by omega
        constructor <;> nlinarith [q.1, q.2])).1
    have k1 := (gap_le hy (by
        have e1 : ((ua' * U + ub' * U : Nat) : Int) = (p.resA + a' + (p.resB + b')) * U := by push_cast; rw [y9, y10]; ring
        omega) (by
        have q : ua' ≤ 1000 * ub' ∧ ub' ≤ 1000 * ua' := by omega
        constructor <;> nlinarith [q.1, q.2])).2
    have q : ua + ub + 1 ≤ ua' + ub' := by omega
    have := Nat.mul_le_mul_right U q
    have e1 : (ua + ub + 1) * U = ua * U + ub * U + U := by ring
    have e2 : (ua' + ub') * U = ua' * U + ub' * U := by ring
    omega
  have hm := newShares_mono hP.t0 hD x12 y12
  rw [x14, y14]
  simp [Phoenix.Spec.Flow.delta, hSA.symm, hSB.symm]
  exact_mod_cast hm

/-- **C157** Of two withdrawals from a stable pool in the same state, the one that burns at least as many shares pays at least as
much of both tokens. -/
theorem C157_stable_more_burnt_more_paid (h0 : Genesis me s) (ts : List Tx) (ht : ∀ t ∈ ts, Possible me t)
    (hp : (run me s ts).pool = some p) (hc1 : c1.auth me = false) (hc2 : c2.auth me = false)
    {x y mA mB mA' mB' a b a' b' : Int}
    (h1 : withdraw me c1 p (run me s ts).led sender x mA mB dl1 = .ok (p1, L1, a, b))
    (h2 : withdraw me c2 p (run me s ts).led sender y mA' mB' dl2 = .ok (p2, L2, a', b')) (h : x ≤ y) :
    a ≤ a' ∧ b ≤ b' ∧
    L1.bal p.cfg.tokenA sender ≤ L2.bal p.cfg.tokenA sender ∧ L1.bal p.cfg.tokenB sender ≤ L2.bal p.cfg.tokenB sender := by
  have hP := reach_swap h0 ht hp
  obtain ⟨-, u2, u3, -, -, -, -, -, -, -, -, u12, u13, u14, -⟩ := withdraw_inv h1 hc1 hP.distinct
  obtain ⟨-, -, -, -, -, -, -, -, -, -, -, v12, v13, v14, -⟩ := withdraw_inv h2 hc2 hP.distinct
  have hns := auth_ne hc1 u2
  have ka : a ≤ a' := by rw [u12, v12]; exact payout_mono hP.a0 hP.t0 u3.le h
  have kb : b ≤ b' := by rw [u13, v13]; exact payout_mono hP.b0 hP.t0 u3.le h
  obtain ⟨hAB, hSA, hSB⟩ := hP.distinct
  refine ⟨ka, kb, ?_, ?_⟩
  · rw [u14, v14]; simp [Phoenix.Spec.Flow.delta, hSA, hAB.symm, hns.symm]; omega
  · rw [u14, v14]; simp [Phoenix.Spec.Flow.delta, hSB, hAB, hns.symm]; omega

/-- Into a pool of 2 : 2 tokens account 2 deposits 0.5 and 0.3 tokens, or one unit of the second token more. -/
example :
    Props.Stable.view (run 100 (Props.Stable.exStart 7 7) (Props.Stable.exHist 100 20000000 20000000 ++
      [.pool (Props.Stable.by' 2) (.provide 2 5000000 3000000 none none none)])) = some (39999000 + 7999799, 25000000, 23000000) ∧
    Props.Stable.view (run 100 (Props.Stable.exStart 7 7) (Props.Stable.exHist 100 20000000 20000000 ++
      [.pool (Props.Stable.by' 2) (.provide 2 5000000 3000001 none none none)])) = some (39999000 + 7999800, 25000000, 23000001) ∧
    (∀ p, (run 100 (Props.Stable.exStart 7 7) (Props.Stable.exHist 100 20000000 20000000)).pool = some p →
      Fair 1 { p with resA := p.resA + 5000000, resB := p.resB + 3000000 } ∧
      Fair 1 { p with resA := p.resA + 5000000, resB := p.resB + 3000001 }) := by
  refine ⟨by decide +kernel, by decide +kernel, ?_⟩
  have hd : (match (run 100 (Props.Stable.exStart 7 7) (Props.Stable.exHist 100 20000000 20000000)).pool with
    | none => true
    | some p => decide (Fair 1 { p with resA := p.resA + 5000000, resB := p.resB + 3000000 } ∧
        Fair 1 { p with resA := p.resA + 5000000, resB := p.resB + 3000001 })) = true := by
    decide +kernel
  intro p hp
  rw [hp] at hd
  exact of_decide_eq_true hd

end Phoenix.Props.MoreIn.StablePool
