import Verif.Props.PoolSys
import Mathlib.Tactic.FieldSimp
import Mathlib.Data.Rat.Cast.Order
/-
C135: what depositing into an XYK pool can cost.  C08 and C14 bound from above what a deposit is worth; this bounds it from below,
and shows what the locked minimum liquidity is good for.
-/
namespace Phoenix.Props.Deposit
open Phoenix Pool Spec Ledger Phoenix.Props

/-- `a` is the amount of a token with reserve `A` that a deposit takes, `b` that of the other one, `T1 = T + m` the new number of
shares and `R` the new reserve. -/
theorem worth {A B T X Y a b m : Int} (hA : 0 < A) (hB : 0 < B) (hT : 0 < T) (hX : A ≤ X) (hY : B ≤ Y) (hm : 0 ≤ m)
    (hab : a * B < (b + 1) * A) (e : T + m = min ((X + a) * T / A) ((Y + b) * T / B)) :
    (T + m) * (a * T * B - A * T - A * B) < (X + a) * m * T * B := by
  have b1 := Int.ediv_mul_le ((X + a) * T) hA.ne'
  have l1 : (T + m) * A ≤ (X + a) * T := by
    have : T + m ≤ (X + a) * T / A := e ▸ min_le_left _ _
    nlinarith
  have key : T * (a * B - A) < (m + 1) * A * B := by
    rcases le_total ((X + a) * T / A) ((Y + b) * T / B) with k | k
    · rw [min_eq_left k] at e
      have := Int.lt_ediv_add_one_mul_self ((X + a) * T) hA
      rw [← e] at this
      have u : a * T < (m + 1) * A := by nlinarith
      have := mul_lt_mul_of_pos_right u hB
      nlinarith [mul_pos hT hA]
    · rw [min_eq_right k] at e
      have := Int.lt_ediv_add_one_mul_self ((Y + b) * T) hB
      rw [← e] at this
      have u : b * T < (m + 1) * B := by nlinarith
      have u1 := mul_lt_mul_of_pos_right u hA
      have u2 := mul_lt_mul_of_pos_left hab hT
      nlinarith
  have h1 := mul_le_mul_of_nonneg_right l1 (mul_nonneg hm hB.le)
  have h2 := mul_lt_mul_of_pos_left key (show 0 < T + m by omega)
  nlinarith

theorem worth_rat {A B T X a m : Int} (hB : 0 < B) (hT : 0 < T) (hm : 0 ≤ m)
    (k : (T + m) * (a * T * B - A * T - A * B) < (X + a) * m * T * B) :
    (a : ℚ) - A / T - A / B < (X + a : Int) * m / (T + m : Int) := by
  have hTm : (0 : ℚ) < (T + m : Int) := by exact_mod_cast (show 0 < T + m by omega)
  have hT' : (0 : ℚ) < T := by exact_mod_cast hT
  have hB' : (0 : ℚ) < B := by exact_mod_cast hB
  have k' : (((T + m) * (a * T * B - A * T - A * B) : Int) : ℚ) < (((X + a) * m * T * B : Int) : ℚ) := by exact_mod_cast k
  rw [lt_div_iff₀ hTm]
  have e : (a : ℚ) - A / T - A / B = (a * T * B - A * B - A * T) / (T * B) := by field_simp
  rw [e, div_mul_eq_mul_div, div_lt_iff₀ (by positivity)]
  push_cast at k' ⊢
  nlinarith

/-- **C135** In every reachable state, a deposit into a pool with reserves `A` and `B` and `T` shares earns its sender `m` new shares
whose part of the new reserves, `reserve * m / total`, falls short of what the sender paid by less than the worth of one share and of
one unit of the other token: `A/T + A/B` for the first token, `B/T + B/A` for the second.  As a thousand shares are locked for ever,
the worth of a share is at most a thousandth of the reserve. -/
theorem C135_deposit_worth {me : Addr} {s : Sys} (h0 : Genesis me s) (ts : List Tx) (ht : ∀ t ∈ ts, Possible me t) {p p' : State}
    (hp : (run me s ts).pool = some p) (hA : 0 < p.resA) (hB : 0 < p.resB) {c : Ctx} (hc : c.auth me = false) {L' : Ledger}
    {sender : Addr} {dA mA dB mB cu : Option Int} {dl : Option Nat}
    (h : provide me c p (run me s ts).led sender dA mA dB mB cu dl = .ok (p', L')) :
    let L := (run me s ts).led
    let m := L'.bal p.cfg.shareToken sender - L.bal p.cfg.shareToken sender
    let a := L.bal p.cfg.tokenA sender - L'.bal p.cfg.tokenA sender
    let b := L.bal p.cfg.tokenB sender - L'.bal p.cfg.tokenB sender
    0 ≤ m ∧ p'.total = p.total + m ∧ 1000 ≤ p.total ∧
    (a : ℚ) - p.resA / p.total - p.resA / p.resB < p'.resA * m / p'.total ∧
    (b : ℚ) - p.resB / p.total - p.resB / p.resA < p'.resB * m / p'.total := by
  have hP := (run_keeps ts ht (genesis_inv h0)).pool p hp
  generalize (run me s ts).led = L at *
  have hT : 1000 ≤ p.total := by
    rcases hP.phase with q | q
    · have := q.2.1; omega
    · exact q.1
  obtain ⟨a, b, m, lock, e1, e2, e3, e4, e5, e6, e7, e8, e9, e10, e11, e12, rfl, e14⟩ := provide_inv h hc hP.distinct
  obtain ⟨hAB, hSA, hSB⟩ := hP.distinct
  have hns := auth_ne hc e2
  have hm : L'.bal p.cfg.shareToken sender - L.bal p.cfg.shareToken sender = m := by
    rw [e11]; simp [Flow.delta, hSA.symm, hSB.symm, hns.symm]
  have ha : L.bal p.cfg.tokenA sender - L'.bal p.cfg.tokenA sender = a := by
    rw [e11]; simp [Flow.delta, hSA, hAB.symm, hns.symm]
  have hb : L.bal p.cfg.tokenB sender - L'.bal p.cfg.tokenB sender = b := by
    rw [e11]; simp [Flow.delta, hSB, hAB, hns.symm]
  rcases e14 with ⟨-, -, rfl, e⟩ | ⟨hn, -⟩
  swap; · exact absurd ⟨hA, hB⟩ hn
  simp only [hm, ha, hb, add_zero]
  have hX := hP.aB
  have hY := hP.bB
  rw [tdiv_nonneg_eq (mul_nonneg (by omega) (by omega)), tdiv_nonneg_eq (mul_nonneg (by omega) (by omega))] at e
  obtain ⟨A', B', -, -, hA0, hB0, hch⟩ := chooseAmounts_inv e4
  rcases hch with ⟨q, -⟩ | ⟨-, -, qa, qb, -⟩
  · omega
  rw [tdiv_nonneg_eq (by positivity)] at qa qb
  have qab : a * p.resB < (b + 1) * p.resA ∧ b * p.resA < (a + 1) * p.resB := by
    have u1 := Int.lt_ediv_add_one_mul_self (B' * p.resA) hB
    have u2 := Int.lt_ediv_add_one_mul_self (A' * p.resB) hA
    have u3 := Int.ediv_mul_le (B' * p.resA) hB.ne'
    have u4 := Int.ediv_mul_le (A' * p.resB) hA.ne'
    have v1 : a ≤ A' := qa ▸ min_le_left _ _
    have v2 : a ≤ B' * p.resA / p.resB := qa ▸ min_le_right _ _
    have v3 : b ≤ B' := qb ▸ min_le_left _ _
    have v4 : b ≤ A' * p.resB / p.resA := qb ▸ min_le_right _ _
    constructor
    · rcases min_choice B' (A' * p.resB / p.resA) with k | k <;> rw [k] at qb
      · subst qb; nlinarith
      · rw [← qb] at u2; nlinarith
    · rcases min_choice A' (B' * p.resA / p.resB) with k | k <;> rw [k] at qa
      · subst qa; nlinarith
      · rw [← qa] at u1; nlinarith
  refine ⟨e9, trivial, hT, ?_, ?_⟩
  · exact worth_rat hB (by omega) e9 (worth hA hB (by omega) hX hY e9 qab.1 e)
  · exact worth_rat hA (by omega) e9 (worth hB hA (by omega) hY hX e9 qab.2 (e.trans (min_comm _ _)))

/-- **C135** Whoever deposits and takes the new shares out again before anything else happens gets back what was paid up to the worth
of one share, of one unit of the other token, one unit and one part in `10^18` of the reserve. -/
theorem C135_deposit_and_leave {me : Addr} {s : Sys} (h0 : Genesis me s) (ts : List Tx) (ht : ∀ t ∈ ts, Possible me t)
    {p p1 p2 : State} (hp : (run me s ts).pool = some p) (hA : 0 < p.resA) (hB : 0 < p.resB) {c c' : Ctx} (hc : c.auth me = false)
    (hc' : c'.auth me = false) {L1 L2 : Ledger} {sender s2 : Addr} {dA mA dB mB cu : Option Int} {dl dl' : Option Nat}
    {mA' mB' ra rb : Int} (h1 : provide me c p (run me s ts).led sender dA mA dB mB cu dl = .ok (p1, L1))
    (h2 : withdraw me c' p1 L1 s2 (L1.bal p.cfg.shareToken sender - (run me s ts).led.bal p.cfg.shareToken sender) mA' mB' dl'
      = .ok (p2, L2, ra, rb)) :
    let a := (run me s ts).led.bal p.cfg.tokenA sender - L1.bal p.cfg.tokenA sender
    let b := (run me s ts).led.bal p.cfg.tokenB sender - L1.bal p.cfg.tokenB sender
    (a : ℚ) - p.resA / p.total - p.resA / p.resB - 1 - p1.resA / 10 ^ 18 < ra ∧
    (b : ℚ) - p.resB / p.total - p.resB / p.resA - 1 - p1.resB / 10 ^ 18 < rb := by
  obtain ⟨k1, k2, k3, k4, k5⟩ := C135_deposit_worth h0 ts ht hp hA hB hc h1
  have hs : SysInv me ⟨some p1, L1⟩ := by
    have hs := run_keeps ts ht (genesis_inv h0)
    refine step_keeps (t := .pool c (.provide sender dA mA dB mB cu dl)) (s := run me s ts) ?_ ⟨hc, trivial⟩ hs
    simp only [step, bind_ok, ok_inj, Prod.exists]
    exact ⟨p, by rw [hp]; rfl, p1, L1, h1, rfl⟩
  have hP1 := hs.pool p1 rfl
  obtain ⟨-, ⟨q1, q2⟩, -⟩ := C07_withdraw_pro_rata h2 hc' hP1.distinct hP1.a0 hP1.b0 hP1.total_nonneg
  generalize L1.bal p.cfg.shareToken sender - (run me s ts).led.bal p.cfg.shareToken sender = m at *
  have hT : (0 : ℚ) < p1.total := by exact_mod_cast (show 0 < p1.total by omega)
  have low : ∀ {R r : Int}, R * m * 10 ^ 18 < r * p1.total * 10 ^ 18 + p1.total * 10 ^ 18 + p1.total * R →
      (R : ℚ) * m / p1.total < r + 1 + R / 10 ^ 18 := by
    intro R r q
    have q' : ((R * m * 10 ^ 18 : Int) : ℚ) < ((r * p1.total * 10 ^ 18 + p1.total * 10 ^ 18 + p1.total * R : Int) : ℚ) := by
      exact_mod_cast q
    push_cast at q'
    rw [div_lt_iff₀ hT]
    nlinarith
  have := low q1
  have := low q2
  constructor <;> linarith

/-- a pool with reserves 1000000 and 2000000 -/
def exTwo : List Tx := exHist.take 2

/-- Account 2 deposits and leaves: of 100000 and 200000 it gets back all but 1 and 1. -/
example : okAnd (step 100 (run 100 exStart exTwo) (.pool (by' 2) (.provide 2 (some 100000) none (some 200000) none none none)))
    (fun s => decide (s.led.bal 12 2 = 141421 ∧ s.led.bal 10 2 = 4900000 ∧ s.led.bal 11 2 = 4800000) &&
      okAnd (step 100 s (.pool (by' 2) (.withdraw 2 141421 1 1 none)))
        (fun s => decide (s.led.bal 10 2 = 4999999 ∧ s.led.bal 11 2 = 4999999))) = true := by decide +kernel

/-- account 1 sends 500000 and 1000000 units to the pool, account 2 deposits 100000 and 200000 and leaves -/
def exCapture : List Tx := exTwo ++
  [ .token (by' 1) 10 (.transfer 1 100 500000), .token (by' 1) 11 (.transfer 1 100 1000000),
    .pool (by' 2) (.provide 2 (some 100000) none (some 200000) none none none),
    .pool (by' 2) (.withdraw 2 848527 1 1 none) ]

theorem exCapture_possible : ∀ t ∈ exCapture, Possible 100 t := by
  intro t ht
  simp [exCapture, exTwo, exHist] at ht
  rcases ht with rfl | rfl | rfl | rfl | rfl | rfl <;> simp [Possible, Tx.ctx, Ctx.auth, by', exInit]

/-- **C135** Tokens sent to a pool do not belong to its providers: the next depositor is credited with them and can leave with them. -/
theorem C135_donation_captured : ∃ (s : Sys) (ts : List Tx), Genesis 100 s ∧ (∀ t ∈ ts, Possible 100 t) ∧
    (run 100 s ts).led.bal 10 2 - s.led.bal 10 2 = 499999 ∧ (run 100 s ts).led.bal 11 2 - s.led.bal 11 2 = 999999 :=
  ⟨exStart, exCapture, exStart_genesis, exCapture_possible, by decide +kernel, by decide +kernel⟩

/-- a pool with 1001 shares whose reserves have been raised to about a million by sending tokens to it -/
def exInflated : List Tx :=
  [ .pool (by' 8) (.init exInit),
    .pool (by' 1) (.provide 1 (some 1001) none (some 1001) none none none),
    .token (by' 1) 10 (.transfer 1 100 1000000),
    .pool (by' 1) (.provide 1 (some 1) none (some 1) none none none),
    .token (by' 1) 11 (.transfer 1 100 1000000),
    .pool (by' 1) (.provide 1 (some 1000) none (some 1) none none none),
    .pool (by' 2) (.provide 2 (some 900) none (some 900) none none none) ]

theorem exInflated_possible : ∀ t ∈ exInflated, Possible 100 t := by
  intro t ht
  simp [exInflated] at ht
  rcases ht with rfl | rfl | rfl | rfl | rfl | rfl | rfl <;> simp [Possible, Tx.ctx, Ctx.auth, by', exInit]

/-- **C135** The bound is needed: in a pool whose shares are worth a thousand units each, account 2 pays 900 and 899 units and gets no
share at all, and `provide_liquidity` of this pool has no parameter to refuse that.  (Raising the worth of a share cost account 1 two
million units, nearly all of them now behind the locked shares.) -/
theorem C135_small_deposit_earns_nothing : ∃ (s : Sys) (ts : List Tx), Genesis 100 s ∧ (∀ t ∈ ts, Possible 100 t) ∧
    s.led.bal 10 2 - (run 100 s ts).led.bal 10 2 = 900 ∧ s.led.bal 11 2 - (run 100 s ts).led.bal 11 2 = 899 ∧
    (run 100 s ts).led.bal 12 2 = 0 :=
  ⟨exStart, exInflated, exStart_genesis, exInflated_possible, by decide +kernel, by decide +kernel, by decide +kernel⟩

end Phoenix.Props.Deposit
