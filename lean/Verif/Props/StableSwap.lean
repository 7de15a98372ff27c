import Verif.Lemmas.StableSys
/-!
Property theorems about `swap` of the stable pool and its arithmetic:
C50, C52, C54, C55, C68, C69.
-/
namespace Phoenix.Props.Stable
open Phoenix Phoenix.Stable Phoenix.Stable.Spec
open Phoenix.Spec (Settles SameRights Flow Issues NoAllowance)

/-! A concrete pool: 7-decimals tokens 10 and 11, 2 whole tokens each, A = 100, fee 0.3 %. -/

/-- arguments of `initialize` -/
def exInit (amp : Nat) : InitArgs :=
  { admin := 8, swapFeeBps := 30, feeRecipient := 7, maxSlippageBps := 100, defaultSlippageBps := 100,
    maxSpreadBps := 5000, tokenA := 10, tokenB := 11, minBond := 1, minReward := 1, maxComplexity := 7,
    amp := amp, maxAllowedFeeBps := 1000, shareToken := 12, stakeContract := 13 }
/-- accounts 1 and 2 hold 10^9 units of each token; the tokens have `da` and `db` decimals -/
def exStart (da db : Nat) : Sys :=
  { pool := none
    led := fun t =>
      { admin := 9, decimals := if t = 11 then db else da,
        bal := fun a => if a = 1 ∨ a = 2 then 1000000000 else 0, allow := fun _ _ => ⟨0, 0⟩ } }
/-- account `a` signs -/
def by' (a : Addr) : Ctx := { now := 10, seq := 20, signed := fun x => x == a }
/-- initialisation and a first deposit by account 1 -/
def exHist (amp : Nat) (x y : Int) : List Tx :=
  [ .pool (by' 8) (.init (exInit amp)), .pool (by' 1) (.provide 1 x y none none none) ]
/-- a swap by account 2 -/
def exSwap (offer : Addr) (a : Int) : Tx := .pool (by' 2) (.swap 2 offer a none none none none)
/-- total supply and reserves after a history -/
def view (s : Sys) : Option (Int × Int × Int) := s.pool.map (fun p => (p.total, p.resA, p.resB))

theorem exStart_genesis (da db : Nat) : Genesis 100 (exStart da db) := by
  refine ⟨rfl, fun t a => ?_, fun t sp => le_refl _⟩
  simp only [exStart, Ledger.bal]
  split <;> decide

/-- A swap on a reachable state, inverted (helper). -/
theorem reach_swap {me : Addr} {s : Sys} (h0 : Genesis me s) {ts : List Tx}
    (ht : ∀ t ∈ ts, Possible me t) {p : State} (hp : (run me s ts).pool = some p) :
    PoolInv me p (run me s ts).led := (run_keeps ts ht (genesis_inv h0)).pool p hp

theorem precOf_le {p : State} {L : Ledger} (h : DecOK p L) (t : Addr) : precOf p t ≤ p.maxPrec ∧ precOf p t ≤ 18 := by
  have h1 := h.m
  have h2 := h.le
  unfold precOf; split <;> omega

theorem reserve_nonneg {me : Addr} {p : State} {L : Ledger} (h : PoolInv me p L) (t : Addr) : 0 ≤ reserve p t := by
  unfold reserve
  have := h.a0
  have := h.b0
  split
  · omega
  · split <;> omega

/-- The facts about the curve contained in a successful swap (helper).  `x`, `y` are the
reserves of the sold and the bought token, `y'` is what is left of the bought one; amounts
are scaled by the pool's greatest precision. -/
theorem swap_curve {me : Addr} {c : Ctx} {p p' : State} {L L' : Ledger} {sender offer : Addr}
    {amount ret : Int} {mo ms : Option Int} {dl : Option Nat} {mf : Option Int}
    (h : swap me c p L sender offer amount mo ms dl mf = .ok (p', L', ret))
    (hself : c.auth me = false) (hp : PoolInv me p L) :
    ∃ (x y a y' D v : Nat), (x : Int) = reserve p offer ∧ (y : Int) = reserve p (other p offer) ∧
      (a : Int) = amount ∧ (y' : Int) = reserve p' (other p offer) ∧ y' < y ∧ 0 < a ∧ 0 < x + a ∧
      computeD p.amp.nextAmp (x * unitOf (precOf p offer)) (y * unitOf (precOf p (other p offer))) = .ok D ∧
      y' = v / unitOf p.maxPrec ∧
      Above p.amp.nextAmp D ((x + a) * unitOf p.maxPrec) (v + 1) ∧
      (2 * (TOL : Int) + 1 ≤ v → OnOrBelow p.amp.nextAmp D ((x + a) * unitOf p.maxPrec) (v - TOL - 1)) := by
  obtain ⟨lim, r, h1, h2, h3, h4, h5, h6, h7, h8, rfl, h10, h11, h12, h13, h14, h15, h16, h17⟩ :=
    swap_inv h hself hp.distinct.1
  obtain ⟨s0, hr0, hc0, g0, gy⟩ := swap_sizes h8 h11 hp.cfg.fee
  obtain ⟨amp, x, y, a, na, nx, sx, sy, rate, hx, hy, ha, hrate, hamp, hnx, hsx, hsy, hna, hle, hg, hs, hcom⟩ := quote_inv h8
  have e := currentAmp_const hamp hp.amp
  subst e
  obtain ⟨d, v, b, cc, hD, x0, a0, hc, hb, ⟨u, u1, u2, u3⟩, -, hr⟩ := calcY_inv hna
  simp only at hx hy
  have e1 := scaleValue_le hnx hp.dec.le
  have e2 := scaleValue_le hsx (precOf_le hp.dec offer).2
  have e3 := scaleValue_le hsy (precOf_le hp.dec (other p offer)).2
  rw [e2, e3] at hD
  have hab := above_of_iterate x0 a0 hc hb (newton_above u1 u2)
  refine ⟨x, y, a, na, d, v, hx, hy, ha, by rw [h17]; omega, by omega, by omega, by omega, hD, hr, ?_, ?_⟩
  · rw [e1] at hab; exact_mod_cast hab
  · intro hbig
    have hs := above_sum (by positivity) (by positivity) (by positivity) (by positivity) hab
    have hb' : (nx : Int) ≤ b := by
      rw [hb]; push_cast
      have : (0:Int) ≤ 100 * (d:Int) / (2 * (p.amp.nextAmp : Int)) := by positivity
      omega
    have hbel := newton_below u1 u2 u3 (by omega)
    have := below_of_iterate (z := (v : Int) - TOL - 1) x0 a0 (by omega) hc hb
      (by have e : (v : Int) - TOL - 1 + 1 = v - TOL := by ring
          rw [e]; exact hbel)
    rw [e1] at this
    exact_mod_cast this

theorem unitOf_pos (n : Nat) : 0 < unitOf n := by unfold unitOf; positivity

/-- **C50** A successful swap in a reachable pool whose tokens have the same number of
decimals.  Let `D` be the invariant the contract computes from the reserves before the
swap, `u` one unit of the tokens.  The pool's position after the swap, one unit of the
bought token added, lies strictly above the curve for `D`: the gross payout exceeds the
exact solution of the curve equation by less than one unit. -/
theorem C50_payout_within_curve {me : Addr} {s : Sys} (h0 : Genesis me s) {ts : List Tx}
    (ht : ∀ t ∈ ts, Possible me t) {p : State} (hp : (run me s ts).pool = some p)
    {c : Ctx} {p' : State} {L' : Ledger} {sender offer : Addr}
    {amount ret : Int} {mo ms : Option Int} {dl : Option Nat} {mf : Option Int} (hself : c.auth me = false)
    (h : swap me c p (run me s ts).led sender offer amount mo ms dl mf = .ok (p', L', ret))
    (hdec : p.precA = p.precB) :
    ∃ D : Nat,
      computeD p.amp.nextAmp ((reserve p offer).toNat * unitOf p.precA)
        ((reserve p (other p offer)).toNat * unitOf p.precA) = .ok D ∧
      Above p.amp.nextAmp D (reserve p' offer * unitOf p.precA)
        ((reserve p' (other p offer) + 1) * unitOf p.precA) := by
  have hP := reach_swap h0 ht hp
  obtain ⟨x, y, a, y', D, v, hx, hy, ha, hy', hlt, -, -, hD, hv, hab, -⟩ := swap_curve h hself hP
  have em : p.maxPrec = p.precA := by rw [hP.dec.m]; omega
  have e1 : ∀ t, precOf p t = p.precA := fun t => by unfold precOf; split <;> omega
  rw [e1, e1] at hD
  rw [em] at hab hv
  have ho : reserve p' offer = x + a := by
    obtain ⟨_, _, -, -, -, -, -, -, -, -, -, -, -, -, -, -, -, h16, -⟩ := swap_inv h hself hP.distinct.1
    omega
  refine ⟨D, ?_, ?_⟩
  · rw [← hx, ← hy]; exact hD
  · rw [ho, ← hy']
    refine above_mono (by positivity) (by positivity) (by positivity) (by positivity) hab ?_
    have := Nat.lt_succ_iff.mp (Nat.lt_succ_of_lt (Nat.lt_mul_div_succ v (unitOf_pos p.precA)))
    have h2 := Nat.lt_mul_div_succ v (unitOf_pos p.precA)
    rw [← hv] at h2
    have h3 : (v : Int) + 1 ≤ unitOf p.precA * ((y' : Int) + 1) := by exact_mod_cast h2
    linarith [mul_comm (unitOf p.precA : Int) ((y' : Int) + 1)]

/-- **C50** The solver itself, for all arguments: whatever iterate it stops at, its answer is never below the exact solution.  Every
amount `z` that lies on or below the curve for the invariant `D` of the reserves `x`, `y` and the new reserve `x'` is less than the
answer plus one unit of the precision asked for. -/
theorem C50_solver_never_below {amp x' x y target r : Nat} (h : calcY amp x' x y target = .ok r) :
    ∃ D : Nat, computeD amp x y = .ok D ∧ Above amp D x' ((r + 1) * unitOf target) ∧
      ∀ z : Nat, OnOrBelow amp D x' z → z < (r + 1) * unitOf target := by
  obtain ⟨d, v, b, cc, hD, x0, a0, hc, hb, ⟨u, u1, u2, u3⟩, -, hr⟩ := calcY_inv h
  have hab := above_of_iterate x0 a0 hc hb (newton_above u1 u2)
  have h2 := Nat.lt_mul_div_succ v (unitOf_pos target)
  rw [← hr] at h2
  have h3 : (v : Int) + 1 ≤ unitOf target * ((r : Int) + 1) := by exact_mod_cast h2
  have h4 : Above amp d x' (((r : Int) + 1) * unitOf target) := by
    refine above_mono (by positivity) (by positivity) (by positivity) (by positivity) hab ?_
    linarith [mul_comm (unitOf target : Int) ((r : Int) + 1)]
  refine ⟨d, hD, by exact_mod_cast h4, fun z hz => ?_⟩
  by_contra hn
  have h5 : ((r : Int) + 1) * unitOf target ≤ z := by exact_mod_cast not_lt.mp hn
  have h6 := above_mono (by positivity) (by positivity) (by positivity) (by positivity) h4 h5
  unfold Above at h6
  unfold OnOrBelow at hz
  omega

/-- The solver answers for two tokens of each kind, of which 0.1 more comes in. -/
example : calcY 10000 2100000000000000000 2000000000000000000 2000000000000000000 7 = .ok 19000496 := by decide +kernel

/-- **C50** A successful swap in any reachable pool, whatever the decimals of its tokens.  After scaling the reserves afterwards by the
greater of the two precisions, as the contract does, the position with one unit of the bought token added lies strictly above the curve
for the invariant `D` of the reserves before. -/
theorem C50_payout_any_decimals {me : Addr} {s : Sys} (h0 : Genesis me s) {ts : List Tx}
    (ht : ∀ t ∈ ts, Possible me t) {p : State} (hp : (run me s ts).pool = some p)
    {c : Ctx} {p' : State} {L' : Ledger} {sender offer : Addr}
    {amount ret : Int} {mo ms : Option Int} {dl : Option Nat} {mf : Option Int} (hself : c.auth me = false)
    (h : swap me c p (run me s ts).led sender offer amount mo ms dl mf = .ok (p', L', ret)) :
    ∃ D : Nat,
      computeD p.amp.nextAmp ((reserve p offer).toNat * unitOf ((run me s ts).led offer).decimals)
        ((reserve p (other p offer)).toNat * unitOf ((run me s ts).led (other p offer)).decimals) = .ok D ∧
      Above p.amp.nextAmp D (reserve p' offer * unitOf (max p.precA p.precB))
        ((reserve p' (other p offer) + 1) * unitOf (max p.precA p.precB)) := by
  have hP := reach_swap h0 ht hp
  obtain ⟨x, y, a, y', D, v, hx, hy, ha, hy', hlt, -, -, hD, hv, hab, -⟩ := swap_curve h hself hP
  have em : p.maxPrec = max p.precA p.precB := by rw [hP.dec.m]
  rw [em] at hab hv
  obtain ⟨_, _, -, -, -, -, hpt, -, -, -, -, -, -, -, -, -, -, h16, -⟩ := swap_inv h hself hP.distinct.1
  have ho : reserve p' offer = x + a := by omega
  have hprec : ∀ t, IsPoolToken p t → precOf p t = ((run me s ts).led t).decimals := by
    rintro t (rfl | rfl)
    · simp only [precOf, if_true]; exact hP.dec.a
    · simp only [precOf, if_neg hP.distinct.1.symm]; exact hP.dec.b
  have e1 := hprec offer (by assumption)
  have e2 := hprec (other p offer) (by
    unfold other IsPoolToken
    split
    · exact .inr rfl
    · exact .inl rfl)
  refine ⟨D, ?_, ?_⟩
  · rw [← hx, ← hy, ← e1, ← e2]; exact hD
  · rw [ho, ← hy']
    refine above_mono (by positivity) (by positivity) (by positivity) (by positivity) hab ?_
    have h2 := Nat.lt_mul_div_succ v (unitOf_pos (max p.precA p.precB))
    rw [← hv] at h2
    have h3 : (v : Int) + 1 ≤ unitOf (max p.precA p.precB) * ((y' : Int) + 1) := by exact_mod_cast h2
    linarith [mul_comm (unitOf (max p.precA p.precB) : Int) ((y' : Int) + 1)]

/-- **C50** And it does not fall short of the curve by more than the solver's tolerance:
while at least `2·10⁻⁶` of a token remains, the position after the swap minus `10⁻⁶` of a
token (and one `10⁻¹⁸`) lies on or below the curve. -/
theorem C50_payout_not_far_below {me : Addr} {s : Sys} (h0 : Genesis me s) {ts : List Tx}
    (ht : ∀ t ∈ ts, Possible me t) {p : State} (hp : (run me s ts).pool = some p)
    {c : Ctx} {p' : State} {L' : Ledger} {sender offer : Addr}
    {amount ret : Int} {mo ms : Option Int} {dl : Option Nat} {mf : Option Int} (hself : c.auth me = false)
    (h : swap me c p (run me s ts).led sender offer amount mo ms dl mf = .ok (p', L', ret))
    (hdec : p.precA = p.precB)
    (hrest : 2 * 10 ^ 12 + 1 ≤ reserve p' (other p offer) * unitOf p.precA) :
    ∃ D : Nat,
      computeD p.amp.nextAmp ((reserve p offer).toNat * unitOf p.precA)
        ((reserve p (other p offer)).toNat * unitOf p.precA) = .ok D ∧
      OnOrBelow p.amp.nextAmp D (reserve p' offer * unitOf p.precA)
        (reserve p' (other p offer) * unitOf p.precA - 10 ^ 12 - 1) := by
  have hP := reach_swap h0 ht hp
  obtain ⟨x, y, a, y', D, v, hx, hy, ha, hy', hlt, -, -, hD, hv, -, hbe⟩ := swap_curve h hself hP
  have em : p.maxPrec = p.precA := by rw [hP.dec.m]; omega
  have e1 : ∀ t, precOf p t = p.precA := fun t => by unfold precOf; split <;> omega
  rw [e1, e1] at hD
  rw [em] at hbe hv
  have ho : reserve p' offer = x + a := by
    obtain ⟨_, _, -, -, -, -, -, -, -, -, -, -, -, -, -, -, -, h16, -⟩ := swap_inv h hself hP.distinct.1
    omega
  have hle : (y' : Int) * unitOf p.precA ≤ v := by
    have := Nat.div_mul_le_self v (unitOf p.precA)
    rw [← hv] at this
    exact_mod_cast this
  have hT : (TOL : Int) = 10 ^ 12 := by decide
  refine ⟨D, ?_, ?_⟩
  · rw [← hx, ← hy]; exact hD
  · rw [ho, ← hy']
    rw [← hy'] at hrest
    have hb := hbe (by rw [hT]; omega)
    rw [hT] at hb
    unfold OnOrBelow at *
    by_contra hn
    have : Above p.amp.nextAmp D ((x + a) * unitOf p.precA) ((y' : Int) * unitOf p.precA - 10 ^ 12 - 1) := by
      unfold Above; omega
    have := above_mono (y' := (v : Int) - 10 ^ 12 - 1) (by positivity) (by positivity) (by positivity) (by omega) this (by omega)
    unfold Above at this
    omega

/-- How far the computed invariant can stay below the sum of the amounts when neither is
more than 1000 times the other (helper). -/
theorem gap_le {amp x y D : Nat} (h : computeD amp x y = .ok D)
    (hS : x + y < amp / 100 * 2000000000000000000 - 1) (hr : x ≤ 1000 * y ∧ y ≤ 1000 * x) :
    D ≤ x + y ∧ x + y ≤ D + 1505 := by
  rcases Nat.eq_zero_or_pos x with rfl | hx
  · have : y = 0 := by omega
    subst this
    exact ⟨by rcases computeD_cases h with ⟨-, -, rfl⟩ | ⟨h, -⟩ <;> omega, by omega⟩
  have hy : 0 < y := by omega
  have hq : 1000 * (x + y) ^ 2 ≤ 1002001 * (x * y) := by nlinarith
  have hlev : 6013 ≤ amp / 100 * 2000000000000000000 - 1 := by
    rcases Nat.eq_zero_or_pos (amp / 100) with h0 | h0 <;> omega
  obtain ⟨k1, k2⟩ := computeD_near_sum h hS (by nlinarith)
  refine ⟨k1, ?_⟩
  have hlt : (x + y : Int) < (amp / 100 * 2000000000000000000 : Nat) - 1 := by omega
  generalize ((amp / 100 * 2000000000000000000 : Nat) : Int) - 1 = m at *
  by_contra hgap
  have hg : (1505 : Int) ≤ x + y - D - 1 := by omega
  have hxy : (0 : Int) < x * y := by positivity
  have hq' : 1000 * ((x : Int) + y) ^ 2 ≤ 1002001 * (x * y) := by exact_mod_cast hq
  have hSp : (0 : Int) < x + y := by positivity
  generalize (x : Int) * y = w at *
  have hm : 0 < m := by omega
  have t1 : 2 * w * m * 1505 ≤ 2 * w * m * (x + y - D - 1) := mul_le_mul_of_nonneg_left hg (by positivity)
  generalize (x : Int) + y = S at *
  have t2 : 3 * S ^ 3 ≤ 3 * S ^ 2 * m := by nlinarith [sq_nonneg S, mul_nonneg (sq_nonneg S) (show 0 ≤ m - S by omega)]
  have t3 : 3 * S ^ 2 * m * 1000 ≤ 3 * (1002001 * w) * m := by
    have := mul_le_mul_of_nonneg_right hq' (show 0 ≤ 3 * m by omega)
    nlinarith
  nlinarith [mul_pos hxy hm]

/-- From the invariant alone. -/
theorem one_to_one_of_poolInv {me : Addr} {p : State} {L : Ledger} (hP : PoolInv me p L)
    {c : Ctx} {p' : State} {L' : Ledger} {sender offer : Addr}
    {amount ret : Int} {mo ms : Option Int} {dl : Option Nat} {mf : Option Int} (hself : c.auth me = false)
    (h : swap me c p L sender offer amount mo ms dl mf = .ok (p', L', ret))
    (hdec : p.precA = p.precB) (hd13 : p.precA ≤ 13)
    (hr : p.resA ≤ 1000 * p.resB ∧ p.resB ≤ 1000 * p.resA)
    (hS : (p.resA + p.resB) * unitOf p.precA < (p.amp.nextAmp / 100 : Nat) * 2000000000000000000 - 1) :
    reserve p (other p offer) - reserve p' (other p offer) ≤ amount + 1 := by
  obtain ⟨x, y, a, y', D, v, hx, hy, ha, hy', hlt, -, -, hD, hv, hab, -⟩ := swap_curve h hself hP
  have em : p.maxPrec = p.precA := by rw [hP.dec.m]; omega
  have e1 : ∀ t, precOf p t = p.precA := fun t => by unfold precOf; split <;> omega
  have hpt : IsPoolToken p offer := by
    obtain ⟨_, _, -, -, -, -, h5, -⟩ := swap_inv h hself hP.distinct.1
    exact h5
  rw [e1, e1] at hD
  rw [em] at hab hv
  have hxy : ((x : Int) = p.resA ∧ (y : Int) = p.resB) ∨ ((x : Int) = p.resB ∧ (y : Int) = p.resA) := by
    rw [hx, hy]
    rcases hpt with rfl | rfl
    · left; simp [reserve, other, Ne.symm hP.distinct.1]
    · right; simp [reserve, other, Ne.symm hP.distinct.1]
  have hu := unitOf_pos p.precA
  have hu5 : 100000 ≤ unitOf p.precA := by
    unfold unitOf
    calc 100000 = 10 ^ 5 := by norm_num
      _ ≤ 10 ^ (18 - p.precA) := Nat.pow_le_pow_right (by norm_num) (by omega)
  generalize unitOf p.precA = U at *
  have hg := gap_le hD
    (by
      have : (x * U + y * U : Int) < (p.amp.nextAmp / 100 : Nat) * 2000000000000000000 - 1 := by
        rcases hxy with ⟨e, f⟩ | ⟨e, f⟩ <;> rw [e, f] <;> nlinarith
      omega)
    (by
      have q : x ≤ 1000 * y ∧ y ≤ 1000 * x := by omega
      constructor <;> nlinarith [q.1, q.2])
  have hsum := above_sum (by positivity) (by positivity) (by positivity) (by positivity) hab
  have h2 := Nat.lt_mul_div_succ v hu
  rw [← hv] at h2
  have h3 : (v : Int) + 1 ≤ U * ((y' : Int) + 1) := by exact_mod_cast h2
  have h4 : (x * U + y * U : Int) ≤ D + 1505 := by exact_mod_cast hg.2
  rw [← hy, ← hy', ← ha]
  by_contra hn
  have h5 : (2 : Int) ≤ y - y' - a := by omega
  have hU5 : (100000 : Int) ≤ U := by exact_mod_cast hu5
  nlinarith


/-- **C50** Consequence that needs no curve: in a pool of two tokens with the same number
(at most 13) of decimals, neither reserve more than 1000 times the other and the
total below `2·A - 1` tokens, a swap pays - commission included - at
most the amount sold plus one unit. -/
theorem C50_at_most_one_to_one {me : Addr} {s : Sys} (h0 : Genesis me s) {ts : List Tx}
    (ht : ∀ t ∈ ts, Possible me t) {p : State} (hp : (run me s ts).pool = some p)
    {c : Ctx} {p' : State} {L' : Ledger} {sender offer : Addr}
    {amount ret : Int} {mo ms : Option Int} {dl : Option Nat} {mf : Option Int} (hself : c.auth me = false)
    (h : swap me c p (run me s ts).led sender offer amount mo ms dl mf = .ok (p', L', ret))
    (hdec : p.precA = p.precB) (hd13 : p.precA ≤ 13)
    (hr : p.resA ≤ 1000 * p.resB ∧ p.resB ≤ 1000 * p.resA)
    (hS : (p.resA + p.resB) * unitOf p.precA < (p.amp.nextAmp / 100 : Nat) * 2000000000000000000 - 1) :
    reserve p (other p offer) - reserve p' (other p offer) ≤ amount + 1 :=
  one_to_one_of_poolInv (reach_swap h0 ht hp) hself h hdec hd13 hr hS
/-- the hypotheses hold for a real swap: 0.1 token of a 2 : 2 pool with A = 100 -/
theorem exSwap_view : view (run 100 (exStart 7 7) (exHist 100 20000000 20000000)) = some (39999000, 20000000, 20000000) ∧
    view (run 100 (exStart 7 7) (exHist 100 20000000 20000000 ++ [exSwap 10 1000000]))
      = some (39999000, 21000000, 19000496) := by
  constructor <;> decide +kernel

/-- the hypotheses of C50 hold for that swap -/
example : ∃ p p' L', (run 100 (exStart 7 7) (exHist 100 20000000 20000000)).pool = some p ∧
    swap 100 (by' 2) p (run 100 (exStart 7 7) (exHist 100 20000000 20000000)).led 2 10 1000000 none none none none
      = .ok (p', L', 996506) ∧ p.precA = p.precB ∧ p.precA ≤ 13 ∧ p.resA ≤ 1000 * p.resB ∧ p.resB ≤ 1000 * p.resA ∧
    (p.resA + p.resB) * unitOf p.precA < (p.amp.nextAmp / 100 : Nat) * 2000000000000000000 - 1 ∧
    2 * 10 ^ 12 + 1 ≤ reserve p' 11 * unitOf p.precA := by
  obtain ⟨⟨p', L', r⟩, h, hP⟩ := exists_of_okAnd
    (x := do
      let p ← loaded (run 100 (exStart 7 7) (exHist 100 20000000 20000000)).pool
      swap 100 (by' 2) p (run 100 (exStart 7 7) (exHist 100 20000000 20000000)).led 2 10 1000000 none none none none)
    (P := fun q => q.2.2 = 996506 ∧ 2 * 10 ^ 12 + 1 ≤ reserve q.1 11 * unitOf 7) (by decide +kernel)
  simp only [bind_ok] at h
  obtain ⟨p, hp, h⟩ := h
  have hp' := loaded_some hp
  have hq : (run 100 (exStart 7 7) (exHist 100 20000000 20000000)).pool.map
      (fun p => (p.precA, p.precB, p.resA, p.resB, p.amp.nextAmp)) = some (7, 7, 20000000, 20000000, 10000) := by
    decide +kernel
  rw [hp'] at hq
  simp only [Option.map_some, Option.some.injEq, Prod.mk.injEq] at hq
  obtain ⟨e1, e2, e3, e4, e5⟩ := hq
  simp only [decide_eq_true_eq] at hP
  obtain ⟨rfl, hP⟩ := hP
  refine ⟨p, p', L', hp', h, by omega, by omega, by omega, by omega, ?_, by rw [e1]; exact hP⟩
  rw [e1, e3, e4, e5]; decide

theorem swapLimits_inv {p : State} {o : Addr} {ms mf : Option Int} {lim : Int} (h : swapLimits p o ms mf = .ok lim) :
    (∀ f, mf = some f → p.cfg.totalFeeBps ≤ f) ∧ (∀ s, ms = some s → 0 ≤ s ∧ s ≤ p.cfg.maxSpreadBps) ∧
    lim = (ms.getD p.cfg.maxSpreadBps) * 10 ^ 14 := by
  unfold swapLimits at h
  simp only [bind_ok, whenSome_ok, req_ok, Dec.bps_ok] at h
  obtain ⟨_, hf, _, -, _, hs, -, rfl⟩ := h
  exact ⟨hf, hs, by norm_num⟩

theorem simulation_core {me : Addr} {p : State} {L : Ledger} (hP : PoolInv me p L)
    {c : Ctx} {p' : State} {L' : Ledger} {sender offer : Addr}
    {amount ret : Int} {mo ms : Option Int} {dl : Option Nat} {mf : Option Int} (hself : c.auth me = false)
    (hty : amount ≤ I128_MAX)
    (h : swap me c p L sender offer amount mo ms dl mf = .ok (p', L', ret)) :
    ∃ commission spread,
      simulateSwap c.now p offer amount = .ok (ret, spread, commission, ret + commission + spread) ∧
      commission = (ret + commission) * p.cfg.totalFeeBps / 10000 ∧ 0 ≤ commission ∧ 0 ≤ ret ∧
      Settles L L' [⟨offer, sender, me, amount⟩, ⟨other p offer, me, sender, ret⟩,
        ⟨other p offer, me, p.cfg.feeRecipient, commission⟩] ∧
      SameRights L L' ∧
      reserve p' offer = reserve p offer + amount ∧
      reserve p' (other p offer) = reserve p (other p offer) - (ret + commission) ∧
      0 ≤ reserve p' (other p offer) ∧
      p' = { p with resA := p'.resA, resB := p'.resB } := by
  have hg : ∃ r, quote c.now p ⟨offer, reserve p offer, precOf p offer⟩
      ⟨other p offer, reserve p (other p offer), precOf p (other p offer)⟩ amount = .ok r ∧ InI128 (r.ret + r.commission) := by
    have h' := h
    unfold swap doSwap at h'
    simp only [bind_ok, addI_ok] at h'
    obtain ⟨_, -, _, -, _, -, lim, -, ⟨sd, b⟩, hs, r, hr, _, -, g, ⟨hin, -⟩, -⟩ := h'
    obtain ⟨-, rfl, rfl, -⟩ := sides_inv hs hP.distinct.1
    exact ⟨r, hr, hin⟩
  obtain ⟨lim, r, h1, h2, h3, h4, h5, h6, h7, h8, rfl, h10, h11, h12, h13, h14, h15, h16, h17⟩ :=
    swap_inv h hself hP.distinct.1
  obtain ⟨s0, hr0, hc0, g0, gy⟩ := swap_sizes h8 h11 hP.cfg.fee
  obtain ⟨r', hr', hin⟩ := hg
  rw [h8] at hr'; cases hr'
  obtain ⟨amp, x, y, a, na, nx, sx, sy, rate, hx, hy, ha, hrate, hamp, hnx, hsx, hsy, hna, hle, hg, hs, hcom⟩ := quote_inv h8
  obtain ⟨er, r0, r1⟩ := bps_rate hrate hP.cfg.fee
  obtain ⟨c1, -, -⟩ := commission_bounds hcom (by omega) r0 r1
  refine ⟨r.commission, r.spread, ?_, ?_, hc0, hr0, h13, h14, h16, h17, by rw [h17]; simp only at gy; omega, h15⟩
  · unfold simulateSwap
    simp only [bind_ok, h7]
    refine ⟨_, rfl, r, h8, _, addI_ok.mpr ⟨hin, rfl⟩, _, addI_ok.mpr ⟨?_, rfl⟩, rfl⟩
    unfold InI128 at *
    constructor <;> omega
  · rw [← hg] at c1
    rw [er] at c1
    have e : (r.ret + r.commission) * (p.cfg.totalFeeBps * 10 ^ 14) = ((r.ret + r.commission) * p.cfg.totalFeeBps) * 10 ^ 14 := by ring
    have e2 : Dec.ONE = 10000 * 10 ^ 14 := by decide
    rw [e, e2, Int.mul_ediv_mul_of_pos_left _ _ (by positivity)] at c1
    exact c1

/-- **C52** When a swap succeeds, `simulate_swap` at the same time and state reports
exactly the amount received, the spread and the commission; the swap moves exactly the
sold amount to the pool, the reported amount to the sender and the commission to the fee
recipient, and nothing else; the commission is the fee rate of the gross payout rounded
down; the reserves change by exactly that. -/
theorem C52_simulation_exact {me : Addr} {s : Sys} (h0 : Genesis me s) {ts : List Tx}
    (ht : ∀ t ∈ ts, Possible me t) {p : State} (hp : (run me s ts).pool = some p)
    {c : Ctx} {p' : State} {L' : Ledger} {sender offer : Addr}
    {amount ret : Int} {mo ms : Option Int} {dl : Option Nat} {mf : Option Int} (hself : c.auth me = false)
    (hty : amount ≤ I128_MAX)
    (h : swap me c p (run me s ts).led sender offer amount mo ms dl mf = .ok (p', L', ret)) :
    ∃ commission spread,
      simulateSwap c.now p offer amount = .ok (ret, spread, commission, ret + commission + spread) ∧
      commission = (ret + commission) * p.cfg.totalFeeBps / 10000 ∧ 0 ≤ commission ∧ 0 ≤ ret ∧
      Settles (run me s ts).led L' [⟨offer, sender, me, amount⟩, ⟨other p offer, me, sender, ret⟩,
        ⟨other p offer, me, p.cfg.feeRecipient, commission⟩] ∧
      SameRights (run me s ts).led L' ∧
      reserve p' offer = reserve p offer + amount ∧
      reserve p' (other p offer) = reserve p (other p offer) - (ret + commission) ∧
      0 ≤ reserve p' (other p offer) ∧
      p' = { p with resA := p'.resA, resB := p'.resB } :=
  simulation_core (reach_swap h0 ht hp) hself hty h

/-- **C52** A swap that succeeds respects every limit of the caller and of the pool:
deadline, positive amount, minimum received, fee cap, the requested spread limit is within
the pool's, and the spread `simulate_swap` reports is within the effective limit; the
sender authorised it and owned the amount. -/
theorem C52_protections {me : Addr} {s : Sys} (h0 : Genesis me s) {ts : List Tx}
    (ht : ∀ t ∈ ts, Possible me t) {p : State} (hp : (run me s ts).pool = some p)
    {c : Ctx} {p' : State} {L' : Ledger} {sender offer : Addr}
    {amount ret : Int} {mo ms : Option Int} {dl : Option Nat} {mf : Option Int} (hself : c.auth me = false)
    (hty : amount ≤ I128_MAX)
    (h : swap me c p (run me s ts).led sender offer amount mo ms dl mf = .ok (p', L', ret)) :
    (∀ d, dl = some d → c.now ≤ d) ∧ 0 < amount ∧ (∀ m, mo = some m → m ≤ ret) ∧
    (∀ f, mf = some f → p.cfg.totalFeeBps ≤ f) ∧
    (∀ s, ms = some s → 0 ≤ s ∧ s ≤ p.cfg.maxSpreadBps) ∧
    c.auth sender = true ∧ amount ≤ (run me s ts).led.bal offer sender ∧ IsPoolToken p offer ∧
    ∃ commission spread tot, simulateSwap c.now p offer amount = .ok (ret, spread, commission, tot) ∧
      0 < ret + commission ∧ spread = max (amount - (ret + commission)) 0 ∧
      spread * 10^18 / (ret + commission) ≤ (ms.getD p.cfg.maxSpreadBps) * 10^14 := by
  obtain ⟨com, sp, hsim, -⟩ := C52_simulation_exact h0 ht hp hself hty h
  have hP := reach_swap h0 ht hp
  obtain ⟨lim, r, h1, h2, h3, h4, h5, h6, h7, h8, rfl, h10, h11, h12, h13, h14, h15, h16, h17⟩ :=
    swap_inv h hself hP.distinct.1
  obtain ⟨s0, hr0, hc0, g0, gy⟩ := swap_sizes h8 h11 hP.cfg.fee
  obtain ⟨amp, x, y, a, na, nx, sx, sy, rate, hx, hy, ha, hrate, hamp, hnx, hsx, hsy, hna, hle, hg, hs, hcom⟩ := quote_inv h8
  obtain ⟨hf, hms, hlim⟩ := swapLimits_inv h4
  have hcs : com = r.commission ∧ sp = r.spread := by
    unfold simulateSwap at hsim
    simp only [bind_ok, h7, ok_inj] at hsim
    obtain ⟨_, rfl, r', h9', _, -, _, -, he⟩ := hsim
    simp only at h9'
    rw [h8] at h9'; cases h9'
    simp only [Prod.mk.injEq] at he
    exact ⟨he.2.2.1.symm, he.2.1.symm⟩
  obtain ⟨rfl, rfl⟩ := hcs
  refine ⟨h1, h2, h10, hf, hms, h3, h12, h5, r.commission, r.spread, _, hsim, g0, by rw [hs, hg, ← ha], ?_⟩
  unfold assertMaxSpread at h11
  simp only [bind_ok, Dec.fromRatio_ok, req_ok] at h11
  obtain ⟨q, ⟨hnz, -, -, rfl⟩, hle'⟩ := h11
  rw [tdiv_nonneg_eq (by rw [hs]; unfold Dec.ONE; positivity), hlim] at hle'
  exact hle'

/-- whether a swap of the example pool succeeds -/
def tries (mo ms : Option Int) (dl : Option Nat) (mf : Option Int) : Res Int := do
  let p ← loaded (run 100 (exStart 7 7) (exHist 100 20000000 20000000)).pool
  let q ← swap 100 (by' 2) p (run 100 (exStart 7 7) (exHist 100 20000000 20000000)).led 2 10 1000000 mo ms dl mf
  .ok q.2.2

/-- The limits are all in force: one unit beyond any of them and the swap fails. -/
example : tries (some 996506) (some 5000) (some 10) (some 30) = .ok 996506 ∧
    tries (some 996507) (some 5000) (some 10) (some 30) = .error (.code 15) ∧
    tries (some 996506) (some 5001) (some 10) (some 30) = .error (.code 9) ∧
    tries (some 996506) (some 4) (some 10) (some 30) = .error (.code 1) ∧
    tries (some 996506) (some 5000) (some 9) (some 30) = .error (.code 19) ∧
    tries (some 996506) (some 5000) (some 10) (some 29) = .error (.code 23) := by
  refine ⟨?_, ?_, ?_, ?_, ?_, ?_⟩ <;> decide +kernel

/-- **C54** Whenever four times the product of the two reserves, each in units of 10⁻¹⁸
token, reaches `2^128`, every swap fails - with any sender, amount, limits and time.
(For equal reserves that is 9.3 whole tokens of each.) -/
theorem C54_swap_always_fails {me : Addr} {s : Sys} (h0 : Genesis me s) {ts : List Tx}
    (ht : ∀ t ∈ ts, Possible me t) {p : State} (hp : (run me s ts).pool = some p)
    (hbig : 2 ^ 128 ≤ 4 * (p.resA * unitOf p.precA) * (p.resB * unitOf p.precB))
    {c : Ctx} {sender offer : Addr} {amount : Int} {mo ms : Option Int} {dl : Option Nat} {mf : Option Int}
    (hself : c.auth me = false) (r : State × Ledger × Int) :
    swap me c p (run me s ts).led sender offer amount mo ms dl mf ≠ .ok r := by
  intro h
  obtain ⟨p', L', ret⟩ := r
  have hP := reach_swap h0 ht hp
  obtain ⟨x, y, a, y', D, v, hx, hy, ha, hy', hlt, -, -, hD, -⟩ := swap_curve h hself hP
  have hpt : IsPoolToken p offer := by
    obtain ⟨_, _, -, -, -, -, h5, -⟩ := swap_inv h hself hP.distinct.1
    exact h5
  have hlim : (U128_LIM : Int) = 2 ^ 128 := by decide
  rcases computeD_prod hD with ⟨hz, hz'⟩ | ⟨-, -, hz⟩
  · have := unitOf_pos (precOf p (other p offer))
    rcases Nat.mul_eq_zero.mp hz' with h | h <;> omega
  · have hz' : (4 * ((x : Int) * unitOf (precOf p offer)) * (y * unitOf (precOf p (other p offer)))) < U128_LIM := by
      exact_mod_cast hz
    rw [hx, hy, hlim] at hz'
    rcases hpt with rfl | rfl
    · simp only [reserve, other, precOf, Ne.symm hP.distinct.1, if_true, if_false] at hz'
      linarith
    · simp only [reserve, other, precOf, Ne.symm hP.distinct.1, if_true, if_false] at hz'
      have e : 4 * (p.resB * (unitOf p.precB : Int)) * (p.resA * unitOf p.precA) =
        4 * (p.resA * unitOf p.precA) * (p.resB * unitOf p.precB) := by ring
      linarith

/-- **C54** Every deposit that would bring the pool to that size fails. -/
theorem C54_deposit_always_fails {me : Addr} {s : Sys} (h0 : Genesis me s) {ts : List Tx}
    (ht : ∀ t ∈ ts, Possible me t) {p : State} (hp : (run me s ts).pool = some p)
    {c : Ctx} {sender : Addr} {a b : Int} {cu : Option Int} {dl ms : Option Nat}
    (hbig : 2 ^ 128 ≤ 4 * ((p.resA + a) * unitOf p.precA) * ((p.resB + b) * unitOf p.precB))
    (hself : c.auth me = false) (r : State × Ledger) :
    provide me c p (run me s ts).led sender a b cu dl ms ≠ .ok r := by
  intro h
  obtain ⟨p', L'⟩ := r
  have hP := reach_swap h0 ht hp
  obtain ⟨amp, ua, ub, d, m, h1, h2, h3, h4, h5, h6, h7, h8, h9, h10, h11, -⟩ := provide_inv h hself hP.distinct
  unfold invariantOf at h11
  simp only [bind_ok] at h11
  obtain ⟨x, hx, y, hy, hD⟩ := h11
  have l1 := hP.dec.m
  have l2 := hP.dec.le
  have l3 := hP.dec.a
  have l4 := hP.dec.b
  rw [← l3] at hx
  rw [← l4] at hy
  have ex := scaleValue_le hx (by omega)
  have ey := scaleValue_le hy (by omega)
  have hlim : (U128_LIM : Int) = 2 ^ 128 := by decide
  have a0 := hP.a0
  rcases computeD_prod hD with ⟨hz, -⟩ | ⟨-, -, hz⟩
  · have := unitOf_pos p.precA
    rw [ex] at hz
    rcases Nat.mul_eq_zero.mp hz with h | h <;> omega
  · have hz' : (4 * (x : Int) * y) < U128_LIM := by exact_mod_cast hz
    rw [ex, ey, hlim] at hz'
    push_cast at hz'
    rw [h9, h10] at hz'
    have e : 4 * ((a + p.resA) * (unitOf p.precA : Int)) * ((b + p.resB) * unitOf p.precB) =
      4 * ((p.resA + a) * unitOf p.precA) * ((p.resB + b) * unitOf p.precB) := by ring
    rw [e] at hz'
    exact absurd hbig (not_le.mpr hz')

/-- Deposits of 9.2 tokens a side work, of 9.3 do not.  Donating tokens and depositing a
little is no way around: the next deposit is over the limit. -/
example : view (run 100 (exStart 7 7) (exHist 100 92000000 92000000)) = some (183999000, 92000000, 92000000) ∧
    view (run 100 (exStart 7 7) (exHist 100 93000000 93000000)) = some (0, 0, 0) ∧
    2 ^ 128 ≤ 4 * ((0 + 93000000 : Int) * unitOf 7) * ((0 + 93000000) * unitOf 7) := by
  refine ⟨?_, ?_, ?_⟩ <;> decide +kernel

/-- a reachable pool beyond the limit: deposit, donation of 10 tokens each, deposit of one
unit; it holds 12 tokens of each kind and cannot trade -/
def exBig : List Tx := exHist 100 20000000 20000000 ++
  [.token (by' 1) 10 (.transfer 1 100 100000000), .token (by' 1) 11 (.transfer 1 100 100000000),
   .pool (by' 1) (.provide 1 1 1 none none none)]
example : view (run 100 (exStart 7 7) exBig) = some (39999001, 120000001, 120000001) ∧
    2 ^ 128 ≤ 4 * ((120000001 : Int) * unitOf 7) * (120000001 * unitOf 7) := by
  constructor <;> decide +kernel

/-- **C55** `compute_current_amp` stays between its two end points, for all parameters and
times. -/
theorem C55_amp_between {now r : Nat} {a : AmpParams} (h : currentAmp now a = .ok r)
    (h1 : a.initAmp < U64_LIM) (h2 : a.nextAmp < U64_LIM) :
    min a.initAmp a.nextAmp ≤ r ∧ r ≤ max a.initAmp a.nextAmp := by
  unfold currentAmp at h
  split at h
  · rename_i hn
    have key : ∀ Δ : Nat, a.nextTime - a.initTime ≠ 0 → Δ * (now - a.initTime) / (a.nextTime - a.initTime) ≤ Δ := by
      intro Δ h0
      apply Nat.div_le_of_le_mul
      rw [mul_comm]
      exact Nat.mul_le_mul_right _ (by omega)
    split at h
    · simp only [bind_ok, mul128_ok, divU_ok, add128_ok, ok_inj] at h
      obtain ⟨_, ⟨-, rfl⟩, _, ⟨hne, rfl⟩, _, ⟨-, rfl⟩, rfl⟩ := h
      have := key (a.nextAmp - a.initAmp) hne
      generalize (a.nextAmp - a.initAmp) * (now - a.initTime) / (a.nextTime - a.initTime) = q at *
      rw [Nat.mod_eq_of_lt (by omega)]
      omega
    · simp only [bind_ok, mul128_ok, divU_ok, subU_ok, ok_inj] at h
      obtain ⟨_, ⟨-, rfl⟩, _, ⟨hne, rfl⟩, _, ⟨hq, rfl⟩, rfl⟩ := h
      have := key (a.initAmp - a.nextAmp) hne
      generalize (a.initAmp - a.nextAmp) * (now - a.initTime) / (a.nextTime - a.initTime) = q at *
      rw [Nat.mod_eq_of_lt (by omega)]
      omega
  · rw [ok_inj] at h; omega

/-- half way of a ramp -/
example : currentAmp 150 ⟨1000, 100, 3000, 200⟩ = .ok 2000 ∧ currentAmp 175 ⟨3000, 100, 1000, 200⟩ = .ok 1500 := by
  constructor <;> rfl

/-- **C68** A swap in a reachable pool (equal decimals, neither reserve more than 1000
times the other, total below `2·A - 1` tokens) that is too small for the pool's
imbalance always fails.  `x`, `y` are the reserves of the sold and bought token and `a` the
amount, all in units of 10⁻¹⁸ token.  To first order the condition is
`2·A·a ≤ S·(S²/(4·x·y) - 1)` with `S = x + y`. -/
theorem C68_small_swaps_fail {me : Addr} {s : Sys} (h0 : Genesis me s) {ts : List Tx}
    (ht : ∀ t ∈ ts, Possible me t) {p : State} (hp : (run me s ts).pool = some p)
    {c : Ctx} {sender offer : Addr} {amount : Int} {mo ms : Option Int} {dl : Option Nat} {mf : Option Int}
    (hself : c.auth me = false) (hdec : p.precA = p.precB)
    (hr : p.resA ≤ 1000 * p.resB ∧ p.resB ≤ 1000 * p.resA) {x y a : Int}
    (ex : x = reserve p offer * unitOf p.precA) (ey : y = reserve p (other p offer) * unitOf p.precA)
    (ea : a = amount * unitOf p.precA)
    (hS : x + y < (p.amp.nextAmp / 100 : Nat) * 2000000000000000000 - 1) (hS0 : 1505 ≤ x + y)
    (hsmall : 4 * (x + a) * y * (2 * p.amp.nextAmp * (a + 1505) + 100 * (x + y)) ≤ 100 * (x + y - 1505) ^ 3)
    (r : State × Ledger × Int) :
    swap me c p (run me s ts).led sender offer amount mo ms dl mf ≠ .ok r := by
  intro h
  obtain ⟨p', L', ret⟩ := r
  have hP := reach_swap h0 ht hp
  obtain ⟨x1, y1, a1, y', D, v, hx, hy, ha, hy', hlt, -, -, hD, hv, hab, -⟩ := swap_curve h hself hP
  have hpt : IsPoolToken p offer := by
    obtain ⟨_, _, -, -, -, -, h5, -⟩ := swap_inv h hself hP.distinct.1
    exact h5
  have em : p.maxPrec = p.precA := by rw [hP.dec.m]; omega
  have e1 : ∀ t, precOf p t = p.precA := fun t => by unfold precOf; split <;> omega
  rw [e1, e1] at hD
  rw [em] at hab hv
  have hxy : ((x1 : Int) = p.resA ∧ (y1 : Int) = p.resB) ∨ ((x1 : Int) = p.resB ∧ (y1 : Int) = p.resA) := by
    rw [hx, hy]
    rcases hpt with rfl | rfl
    · left; simp [reserve, other, Ne.symm hP.distinct.1]
    · right; simp [reserve, other, Ne.symm hP.distinct.1]
  have hu := unitOf_pos p.precA
  generalize unitOf p.precA = U at *
  rw [← hx] at ex
  rw [← hy] at ey
  rw [← ha] at ea
  have hg := gap_le hD
    (by
      have : ((x1 * U + y1 * U : Nat) : Int) < (p.amp.nextAmp / 100 : Nat) * 2000000000000000000 - 1 := by
        push_cast; rw [← ex, ← ey]; exact hS
      omega)
    (by
      have q : x1 ≤ 1000 * y1 ∧ y1 ≤ 1000 * x1 := by omega
      constructor <;> nlinarith [q.1, q.2])
  have hv1 : (v : Int) + 1 ≤ y := by
    rw [ey]
    have h2 := Nat.lt_mul_div_succ v hu
    rw [← hv] at h2
    have : U * (y' + 1) ≤ y1 * U := by rw [mul_comm]; exact Nat.mul_le_mul_right _ hlt
    exact_mod_cast (lt_of_lt_of_le h2 this)
  have hab2 := above_mono (by positivity) (by positivity) (by positivity) (by positivity) hab hv1
  have ea' : ((x1 : Int) + a1) * U = x + a := by rw [ex, ea]; ring
  rw [ea'] at hab2
  unfold Above curve at hab2
  have hDu : (D : Int) ≤ x + y := by rw [ex, ey]; exact_mod_cast hg.1
  have hDl : x + y - 1505 ≤ D := by
    have : ((x1 * U + y1 * U : Nat) : Int) ≤ D + 1505 := by exact_mod_cast hg.2
    push_cast at this; rw [ex, ey]; omega
  have hx0 : 0 ≤ x := by rw [ex]; positivity
  have hy0 : 0 ≤ y := by rw [ey]; positivity
  have ha0 : 0 ≤ a := by rw [ea]; positivity
  have m0 : (0 : Int) ≤ p.amp.nextAmp := by positivity
  have t1 : 4 * (x + a) * y * (2 * p.amp.nextAmp * (x + a + y - D) + 100 * D) ≤
      4 * (x + a) * y * (2 * p.amp.nextAmp * (a + 1505) + 100 * (x + y)) := by
    apply mul_le_mul_of_nonneg_left _ (by positivity)
    have : 2 * (p.amp.nextAmp : Int) * (x + a + y - D) ≤ 2 * p.amp.nextAmp * (a + 1505) :=
      mul_le_mul_of_nonneg_left (by omega) (by positivity)
    omega
  have t2 : (x + y - 1505) ^ 3 ≤ (D : Int) ^ 3 := pow_le_pow_left₀ (by omega) hDl 3
  linarith

/-- A 1 : 3 pool with A = 1: selling 0.2 tokens (a fifth of the reserve) of the scarce
token fails, and so does selling 0.3 of the abundant one; in a 1 : 3 pool with A = 100
selling 0.002 tokens fails. -/
example : view (run 100 (exStart 7 7) (exHist 1 10000000 30000000)) = some (39998999, 10000000, 30000000) ∧
    (let u : Int := unitOf 7
     4 * (10000000 * u + 2000000 * u) * (30000000 * u) * (2 * 100 * (2000000 * u + 1505) + 100 * (40000000 * u))
      ≤ 100 * (40000000 * u - 1505) ^ 3) ∧
    (let u : Int := unitOf 7
     4 * (30000000 * u + 3000000 * u) * (10000000 * u) * (2 * 100 * (3000000 * u + 1505) + 100 * (40000000 * u))
      ≤ 100 * (40000000 * u - 1505) ^ 3) ∧
    (let u : Int := unitOf 7
     4 * (10000000 * u + 20000 * u) * (30000000 * u) * (2 * 10000 * (20000 * u + 1505) + 100 * (40000000 * u))
      ≤ 100 * (40000000 * u - 1505) ^ 3) := by
  refine ⟨?_, ?_, ?_, ?_⟩ <;> decide +kernel

/-- **C69** When the two tokens have different decimals, a swap succeeds only for an
absurdly large amount: nine times as many units as the pool holds of the token with fewer
decimals (up to 1505 units).  `t` is that token, whichever of the two is sold. -/
theorem C69_different_decimals {me : Addr} {s : Sys} (h0 : Genesis me s) {ts : List Tx}
    (ht : ∀ t ∈ ts, Possible me t) {p : State} (hp : (run me s ts).pool = some p)
    {c : Ctx} {p' : State} {L' : Ledger} {sender offer : Addr}
    {amount ret : Int} {mo ms : Option Int} {dl : Option Nat} {mf : Option Int} (hself : c.auth me = false)
    (h : swap me c p (run me s ts).led sender offer amount mo ms dl mf = .ok (p', L', ret))
    (hr : p.resA * unitOf p.precA ≤ 1000 * (p.resB * unitOf p.precB) ∧
      p.resB * unitOf p.precB ≤ 1000 * (p.resA * unitOf p.precA))
    (hS : p.resA * unitOf p.precA + p.resB * unitOf p.precB < (p.amp.nextAmp / 100 : Nat) * 2000000000000000000 - 1)
    {t : Addr} (hpt : IsPoolToken p t)
    (hdec : ((run me s ts).led t).decimals < ((run me s ts).led (other p t)).decimals) :
    9 * reserve p t ≤ amount + 1505 := by
  have hP := reach_swap h0 ht hp
  obtain ⟨x1, y1, a1, y', D, v, hx, hy, ha, hy', hlt, -, -, hD, hv, hab, -⟩ := swap_curve h hself hP
  have hpo : IsPoolToken p offer := by
    obtain ⟨_, _, -, -, -, -, h5, -⟩ := swap_inv h hself hP.distinct.1
    exact h5
  have hne := Ne.symm hP.distinct.1
  have a0 := hP.a0
  have b0 := hP.b0
  have l1 := hP.dec.m
  have l2 := hP.dec.le
  have l3 := hP.dec.a
  have l4 := hP.dec.b
  -- the sum of the scaled reserves, and the gap
  have hsum : (x1 : Int) * unitOf (precOf p offer) + y1 * unitOf (precOf p (other p offer)) =
      p.resA * unitOf p.precA + p.resB * unitOf p.precB := by
    rw [hx, hy]
    rcases hpo with rfl | rfl
    · simp [reserve, other, precOf, hne]
    · simp [reserve, other, precOf, hne]; ring
  have hrat : (x1 * unitOf (precOf p offer) : Int) ≤ 1000 * (y1 * unitOf (precOf p (other p offer))) ∧
      (y1 * unitOf (precOf p (other p offer)) : Int) ≤ 1000 * (x1 * unitOf (precOf p offer)) := by
    rw [hx, hy]
    rcases hpo with rfl | rfl
    · simpa [reserve, other, precOf, hne] using hr
    · simpa [reserve, other, precOf, hne] using hr.symm
  have hg := gap_le hD (by zify at *; rw [hsum]; omega) (by exact_mod_cast hrat)
  have hu := unitOf_pos p.maxPrec
  have hv1 : (v : Int) + 1 ≤ y1 * unitOf p.maxPrec := by
    have h2 := Nat.lt_mul_div_succ v hu
    rw [← hv] at h2
    have : unitOf p.maxPrec * (y' + 1) ≤ y1 * unitOf p.maxPrec := by
      rw [mul_comm]; exact Nat.mul_le_mul_right _ hlt
    exact_mod_cast (lt_of_lt_of_le h2 this)
  have hs := above_sum (by positivity) (by positivity) (by positivity) (by positivity) hab
  have hgap : (p.resA * unitOf p.precA + p.resB * unitOf p.precB : Int) ≤ D + 1505 := by
    rw [← hsum]; exact_mod_cast hg.2
  have hxy : (x1 : Int) + y1 = p.resA + p.resB := by
    rw [hx, hy]
    rcases hpo with rfl | rfl
    · simp [reserve, other, hne]
    · simp [reserve, other, hne]; ring
  have key : p.resA * (unitOf p.precA - unitOf p.maxPrec : Int) + p.resB * (unitOf p.precB - unitOf p.maxPrec : Int) ≤
      a1 * unitOf p.maxPrec + 1505 := by
    have e := congrArg (fun z : Int => z * unitOf p.maxPrec) hxy
    simp only [add_mul] at e hs
    simp only [mul_sub]
    linarith
  have mono : ∀ {a b : Nat}, a ≤ b → unitOf b ≤ unitOf a := fun {a b} hab =>
    Nat.pow_le_pow_right (by norm_num) (by omega)
  have mono10 : ∀ {a b : Nat}, a < b → b ≤ 18 → 10 * unitOf b ≤ unitOf a := fun {a b} hab hb => by
    unfold unitOf
    calc 10 * 10 ^ (18 - b) = 10 ^ (18 - b + 1) := by ring
      _ ≤ 10 ^ (18 - a) := Nat.pow_le_pow_right (by norm_num) (by omega)
  have fin : ∀ {res : Int}, 0 ≤ res → 9 * res * unitOf p.maxPrec ≤ a1 * unitOf p.maxPrec + 1505 → 9 * res ≤ a1 + 1505 := by
    intro res h0 h1
    have hu' : (1 : Int) ≤ unitOf p.maxPrec := by exact_mod_cast hu
    by_contra hn
    have : (a1 : Int) + 1506 ≤ 9 * res := by omega
    nlinarith
  rcases hpt with rfl | rfl
  · simp only [other, if_true] at hdec
    rw [← l3, ← l4] at hdec
    have em : p.maxPrec = p.precB := by omega
    have k1 : (10 * unitOf p.maxPrec : Int) ≤ unitOf p.precA := by rw [em]; exact_mod_cast mono10 hdec (by omega)
    have k2 : p.resA * (9 * unitOf p.maxPrec) ≤ p.resA * (unitOf p.precA - unitOf p.maxPrec) :=
      mul_le_mul_of_nonneg_left (by omega) a0
    rw [em] at key k2 fin
    simp only [sub_self, mul_zero, add_zero] at key
    simp only [reserve, if_true, ← ha]
    refine fin a0 (le_trans (le_of_eq ?_) (k2.trans key)); ring
  · simp only [other, hne, if_false] at hdec
    rw [← l3, ← l4] at hdec
    have em : p.maxPrec = p.precA := by omega
    have k1 : (10 * unitOf p.maxPrec : Int) ≤ unitOf p.precB := by rw [em]; exact_mod_cast mono10 hdec (by omega)
    have k2 : p.resB * (9 * unitOf p.maxPrec) ≤ p.resB * (unitOf p.precB - unitOf p.maxPrec) :=
      mul_le_mul_of_nonneg_left (by omega) b0
    rw [em] at key k2 fin
    simp only [sub_self, mul_zero, zero_add] at key
    simp only [reserve, hne, if_true, if_false, ← ha]
    refine fin b0 (le_trans (le_of_eq ?_) (k2.trans key)); ring

/-- **C69** And selling the token with more decimals never succeeds (once the pool holds
216 units of the other): the spread would exceed 100 %. -/
theorem C69_selling_finer_token_fails {me : Addr} {s : Sys} (h0 : Genesis me s) {ts : List Tx}
    (ht : ∀ t ∈ ts, Possible me t) {p : State} (hp : (run me s ts).pool = some p)
    {c : Ctx} {sender offer : Addr}
    {amount : Int} {mo ms : Option Int} {dl : Option Nat} {mf : Option Int} (hself : c.auth me = false)
    (hty : amount ≤ I128_MAX)
    (hr : p.resA * unitOf p.precA ≤ 1000 * (p.resB * unitOf p.precB) ∧
      p.resB * unitOf p.precB ≤ 1000 * (p.resA * unitOf p.precA))
    (hS : p.resA * unitOf p.precA + p.resB * unitOf p.precB < (p.amp.nextAmp / 100 : Nat) * 2000000000000000000 - 1)
    (hpt : IsPoolToken p offer)
    (hdec : ((run me s ts).led (other p offer)).decimals < ((run me s ts).led offer).decimals)
    (hbig : 216 ≤ reserve p (other p offer)) (r : State × Ledger × Int) :
    swap me c p (run me s ts).led sender offer amount mo ms dl mf ≠ .ok r := by
  intro h
  obtain ⟨p', L', ret⟩ := r
  have hP := reach_swap h0 ht hp
  have hne := Ne.symm hP.distinct.1
  have hpt' : IsPoolToken p (other p offer) := by
    rcases hpt with rfl | rfl <;> simp [IsPoolToken, other, hne]
  have hoo : other p (other p offer) = offer := by
    rcases hpt with rfl | rfl <;> simp [other, hne]
  have h9 := C69_different_decimals h0 ht hp hself h hr hS hpt' (by rw [hoo]; exact hdec)
  obtain ⟨com, sp, hsim, -, -, -, -, -, -, hres, hres0, -⟩ := C52_simulation_exact h0 ht hp hself hty h
  obtain ⟨-, -, -, -, hmsl, -, -, -, com', sp', tot, hsim', g0, hsp, hle⟩ := C52_protections h0 ht hp hself hty h
  rw [hsim] at hsim'
  simp only [Except.ok.injEq, Prod.mk.injEq, true_and] at hsim'
  obtain ⟨rfl, rfl, -⟩ := hsim'
  have hlim : ms.getD p.cfg.maxSpreadBps ≤ 10000 := by
    have := hP.cfg.spread
    cases ms with
    | none => exact this.2
    | some v => have := hmsl v rfl; simp only [Option.getD_some]; omega
  have h1 : sp * 10 ^ 18 / (ret + com) ≤ 10 ^ 18 := le_trans hle (by
    have : ms.getD p.cfg.maxSpreadBps * 10 ^ 14 ≤ 10000 * 10 ^ 14 := by omega
    exact this.trans (by norm_num))
  have h2 := (ediv_bounds (a := sp * 10 ^ 18) (b := ret + com) g0).2
  generalize sp * 10 ^ 18 / (ret + com) = q at *
  have h3 : (ret + com) * q ≤ (ret + com) * 10 ^ 18 := mul_le_mul_of_nonneg_left h1 g0.le
  omega

/-- One token of a 6-decimals and of a 7-decimals token (hypotheses of C69 met): selling a
tenth of a token fails either way; selling 18.5 of the 6-decimals tokens is accepted and
pays 0.947 of the other plus commission. -/
def exMixed : List Tx := [ .pool (by' 8) (.init { exInit 1000000 with maxSpreadBps := 10000 }),
  .pool (by' 1) (.provide 1 1000000 10000000 none none none) ]
example : view (run 100 (exStart 6 7) exMixed) = some (19999000, 1000000, 10000000) ∧
    (1000000 : Int) * unitOf 6 = 10000000 * unitOf 7 ∧
    view (run 100 (exStart 6 7) (exMixed ++ [exSwap 10 100000])) = some (19999000, 1000000, 10000000) ∧
    view (run 100 (exStart 6 7) (exMixed ++ [exSwap 11 1000000])) = some (19999000, 1000000, 10000000) ∧
    view (run 100 (exStart 6 7) (exMixed ++ [exSwap 10 18500000])) = some (19999000, 19500000, 500092) ∧
    (run 100 (exStart 6 7) (exMixed ++ [exSwap 10 18500000])).led.bal 11 2 = 1000000000 + 9471409 := by
  refine ⟨?_, ?_, ?_, ?_, ?_, ?_⟩ <;> decide +kernel

end Phoenix.Props.Stable
