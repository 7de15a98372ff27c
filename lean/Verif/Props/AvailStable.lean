import Verif.Lemmas.StableConv
import Verif.Props.AvailLp
import Verif.Props.StableSwap
/-!
Property C108: which swaps and deposits the stable pool accepts.
-/
namespace Phoenix.Props.Stable
open Phoenix Phoenix.Stable Phoenix.Stable.Spec
open Phoenix.Spec (Settles SameRights Flow Issues NoAllowance)
open Phoenix.Props.Avail (send_works bps_works mint_works)

/-- A pool of two tokens with `dec` decimals each in ordinary condition: both reserves positive, neither more
than 1000 times the other, and the total (in units of 10⁻¹⁸ token) at least 21505 and below `2·10¹⁸·A − 1`. -/
structure Ordinary (p : State) : Prop where
  same : p.precA = p.precB
  posA : 0 < p.resA
  posB : 0 < p.resB
  ratio : p.resA ≤ 1000 * p.resB ∧ p.resB ≤ 1000 * p.resA
  low : 21505 ≤ (p.resA + p.resB) * unitOf p.precA
  high : (p.resA + p.resB) * unitOf p.precA < (p.amp.nextAmp / 100 : Nat) * 2000000000000000000 - 1

/-- A pool's position `(x, y)` is above the curve for the larger invariant only if it is for the smaller. -/
theorem above_anti {amp D S x y : Int} (ha : 50 ≤ amp) (hD : 0 ≤ D) (hDS : D ≤ S) (hx : 0 ≤ x) (hy : 0 ≤ y)
    (h : Above amp S x y) : Above amp D x y := by
  unfold Above curve at *
  have h1 : D ^ 3 ≤ S ^ 3 := pow_le_pow_left₀ hD hDS 3
  have h2 : 2 * amp * (x + y - S) + 100 * S ≤ 2 * amp * (x + y - D) + 100 * D := by nlinarith
  have h3 := mul_le_mul_of_nonneg_left h2 (show 0 ≤ 4 * x * y by positivity)
  omega

theorem amp_range {a : AmpParams} (h : AmpOK a) : 100 ≤ a.nextAmp ∧ a.nextAmp ≤ 100000000 := by
  obtain ⟨k, h1, h2, h3⟩ := h.range
  omega

theorem currentAmp_works {now : Nat} {a : AmpParams} (h : a.nextTime ≤ now) : currentAmp now a = .ok a.nextAmp := by
  unfold currentAmp
  rw [if_neg (by omega)]

theorem scale_works {a dec : Nat} (hd : dec ≤ 18) (h : a * unitOf dec < U128_LIM) :
    scaleValue a dec 18 = .ok (a * unitOf dec) := by
  unfold scaleValue
  split
  · simp only [bind_ok, pow10_ok, mul128_ok]
    have : 10 ^ (18 - dec) ≤ 10 ^ 18 := Nat.pow_le_pow_right (by norm_num) (by omega)
    have e : U128_LIM = 340282366920938463463374607431768211456 := rfl
    exact ⟨_, ⟨by omega, rfl⟩, h, rfl⟩
  · have e : dec = 18 := by omega
    subst e
    simp only [bind_ok, pow10_ok, divU_ok]
    exact ⟨_, ⟨by decide, rfl⟩, by norm_num, by simp [unitOf]⟩

theorem mulInt_works {g rate : Int} (hg : 0 ≤ g) (hg2 : g ≤ 10 ^ 20) (h0 : 0 ≤ rate) (h1 : rate ≤ Dec.ONE) :
    ∃ com, Dec.mulInt g rate = .ok com := by
  have hone : Dec.ONE = 10 ^ 18 := by decide
  unfold Dec.mulInt
  split
  · exact ⟨0, rfl⟩
  · have p0 : 0 ≤ g * rate := by positivity
    have p1 : g * rate ≤ 10 ^ 20 * 10 ^ 18 := mul_le_mul hg2 (by omega) h0 (by norm_num)
    have d0 : 0 ≤ g * rate / Dec.ONE := Int.ediv_nonneg p0 (by decide)
    have d1 : g * rate / Dec.ONE ≤ g * rate := Int.ediv_le_self _ p0
    simp only [bind_ok, mulI_ok, divI_ok]
    refine ⟨_, _, ⟨⟨?_, ?_⟩, rfl⟩, by decide, ⟨?_, ?_⟩, rfl⟩
    · simp only [I128_MIN]; omega
    · simp only [I128_MAX]; omega
    · rw [tdiv_nonneg_eq p0]; simp only [I128_MIN]; omega
    · rw [tdiv_nonneg_eq p0]; simp only [I128_MAX]; omega

theorem prod_small {a b : Nat} (h : a + b < 2 ^ 64) : a * 2 * (b * 2) < U128_LIM := by
  have hU1 : U128_LIM = 340282366920938463463374607431768211456 := rfl
  have h1 : a * 2 * (b * 2) ≤ (a + b) * (a + b) := by
    zify
    nlinarith [sq_nonneg ((a : Int) - b)]
  have h2 : (a + b) * (a + b) ≤ (2 ^ 64 - 1) * (2 ^ 64 - 1) := Nat.mul_le_mul (by omega) (by omega)
  omega

/-- the sides of an ordinary pool -/
theorem ordinary_sides {p : State} (h : Ordinary p) (hne : p.cfg.tokenA ≠ p.cfg.tokenB) {offer : Addr} (ho : IsPoolToken p offer) :
    sides p offer = .ok (⟨offer, reserve p offer, p.precA⟩, ⟨other p offer, reserve p (other p offer), p.precA⟩) ∧
    0 < reserve p offer ∧ 0 < reserve p (other p offer) ∧
    reserve p offer ≤ 1000 * reserve p (other p offer) ∧ reserve p (other p offer) ≤ 1000 * reserve p offer ∧
    reserve p offer + reserve p (other p offer) = p.resA + p.resB := by
  have := h.posA
  have := h.posB
  have := h.ratio
  have hs := h.same
  unfold sides
  rcases ho with rfl | rfl
  · simp only [reserve, other, Ne.symm hne, if_true, if_false]
    rw [hs]; exact ⟨rfl, by omega, by omega, by omega, by omega, by first | trivial | omega⟩
  · simp only [reserve, other, Ne.symm hne, if_true, if_false]
    rw [hs]; exact ⟨rfl, by omega, by omega, by omega, by omega, by omega⟩

/-- The quote of an ordinary pool (helper of C108). -/
theorem quote_works {me : Addr} {p : State} {L : Ledger} (hP : PoolInv me p L) (hO : Ordinary p) {now : Nat}
    (hnow : p.amp.nextTime ≤ now) {offer : Addr} (ho : IsPoolToken p offer) {amount : Int} (ha : 0 < amount)
    (hmax : (reserve p offer + amount) * unitOf p.precA < 2 ^ 127)
    (hfit : ((p.resA + p.resB) * unitOf p.precA) ^ 3 * 10 ^ 20 < 2 ^ 256) {g : Int} (hg : 0 ≤ g)
    (hrest : 2 * 10 ^ 12 + 2 ≤ (reserve p (other p offer) - g + 1) * unitOf p.precA)
    (hcurve : Above p.amp.nextAmp ((p.resA + p.resB) * unitOf p.precA) ((reserve p offer + amount) * unitOf p.precA)
      ((reserve p (other p offer) - g + 1) * unitOf p.precA - 10 ^ 12 - 2)) :
    ∃ r, quote now p ⟨offer, reserve p offer, p.precA⟩ ⟨other p offer, reserve p (other p offer), p.precA⟩ amount = .ok r ∧
      g ≤ r.ret + r.commission := by
  obtain ⟨-, hx, hy, r1, r2, hsum⟩ := ordinary_sides hO hP.distinct.1 ho
  have em : p.maxPrec = p.precA := by rw [hP.dec.m]; have := hO.same; omega
  have hd18 : p.precA ≤ 18 := by have := hP.dec.le; omega
  have hlow := hO.low
  have hhigh := hO.high
  rw [← hsum] at hfit hcurve hlow hhigh
  obtain ⟨ha1, ha2⟩ := amp_range hP.amp
  have hu := unitOf_pos p.precA
  have hU1 : U128_LIM = 340282366920938463463374607431768211456 := rfl
  have hU2 : U256_LIM = 115792089237316195423570985008687907853269984665640564039457584007913129639936 := rfl
  unfold quote
  generalize reserve p offer = x at *
  generalize reserve p (other p offer) = y at *
  lift x to Nat using hx.le
  lift y to Nat using hy.le
  lift amount to Nat using ha.le
  obtain ⟨U, hUe⟩ : ∃ U, U = unitOf p.precA := ⟨_, rfl⟩
  rw [← hUe] at hmax hfit hrest hcurve hlow hhigh hu
  have hU18 : U ≤ 10 ^ 18 := by rw [hUe]; unfold unitOf; exact Nat.pow_le_pow_right (by norm_num) (by omega)
  have hxU : 0 < x * U := Nat.mul_pos (by omega) hu
  have hyU : 0 < y * U := Nat.mul_pos (by omega) hu
  have hS : ((x : Int) + y) * U = ((x * U + y * U : Nat) : Int) := by push_cast; ring
  rw [hS] at hfit hcurve hlow hhigh
  have hSl : x * U + y * U < 2 ^ 64 := by
    by_contra hn
    have : ((2 : Int) ^ 64) ^ 3 ≤ ((x * U + y * U : Nat) : Int) ^ 3 := pow_le_pow_left₀ (by norm_num) (by omega) 3
    omega
  have hrU : x * U ≤ 1000 * (y * U) ∧ y * U ≤ 1000 * (x * U) := by
    constructor
    · calc x * U ≤ 1000 * y * U := Nat.mul_le_mul_right _ (by omega)
        _ = _ := by ring
    · calc y * U ≤ 1000 * x * U := Nat.mul_le_mul_right _ (by omega)
        _ = _ := by ring
  have hSn : x * U + y * U < p.amp.nextAmp / 100 * 2000000000000000000 - 1 := by omega
  obtain ⟨D, hD⟩ := computeD_works hxU hyU hrU hSn ha2 (prod_small hSl)
  obtain ⟨hDS, hSD⟩ := gap_le hD hSn hrU
  have hxa : (x + amount) * U < U128_LIM := by
    have : (((x + amount) * U : Nat) : Int) < 2 ^ 127 := by push_cast; exact hmax
    omega
  have hxle : x * U ≤ (x + amount) * U := Nat.mul_le_mul_right _ (by omega)
  have hD3 : D ^ 3 * 100000000000000000000 < U256_LIM := by
    have h1 : D ^ 3 ≤ (x * U + y * U) ^ 3 := Nat.pow_le_pow_left hDS 3
    have h2 : (x * U + y * U) ^ 3 * 10 ^ 20 < 2 ^ 256 := by exact_mod_cast hfit
    calc D ^ 3 * 100000000000000000000 ≤ (x * U + y * U) ^ 3 * 10 ^ 20 := Nat.mul_le_mul h1 (by norm_num)
      _ < 2 ^ 256 := h2
      _ = U256_LIM := by decide
  obtain ⟨na, hna⟩ := calcY_works (target := p.maxPrec) hD ha1 ha2 (show 0 < (x + amount) * U by omega) hxa (by omega) (by omega) hD3
    (by omega)
  -- the new reserve is small enough for the payout `g`
  have hnag : (na : Int) ≤ y - g := by
    obtain ⟨d, v, b, cc, hD', x0, a0, hc, hb, ⟨u, u1, u2, u3⟩, -, hr⟩ := calcY_inv hna
    rw [hD] at hD'; cases hD'
    rw [em, ← hUe] at hr
    by_contra hn
    have h1 : ((y : Int) - g + 1) * U ≤ v := by
      have h2 : (y : Int) - g + 1 ≤ (na : Int) := by omega
      have h3 : na * U ≤ v := by rw [hr]; exact Nat.div_mul_le_self _ _
      calc ((y : Int) - g + 1) * U ≤ (na : Int) * U := mul_le_mul_of_nonneg_right h2 (by positivity)
        _ ≤ v := by exact_mod_cast h3
    have hT : (TOL : Int) = 10 ^ 12 := by decide
    have hab := above_of_iterate x0 a0 hc hb (newton_above u1 u2)
    have hs := above_sum (by positivity) (by positivity) (by positivity) (by positivity) hab
    have hb' : (((x + amount) * U : Nat) : Int) ≤ b := by
      rw [hb]; push_cast
      have : (0:Int) ≤ 100 * (D:Int) / (2 * (p.amp.nextAmp : Int)) := by positivity
      omega
    have hbel := newton_below u1 u2 u3 (by omega)
    have hbe := below_of_iterate (z := (v : Int) - TOL - 1) x0 a0 (by omega) hc hb
      (by have e : (v : Int) - TOL - 1 + 1 = v - TOL := by ring
          rw [e]; exact hbel)
    rw [hT] at hbe
    have hc1 := above_anti (D := D) (by omega) (by positivity) (by omega) (by positivity) (by omega) hcurve
    have hc2 := above_mono (y' := (v : Int) - 10 ^ 12 - 1) (by positivity) (by positivity) (by positivity) (by omega) hc1 (by omega)
    unfold Above at hc2
    unfold OnOrBelow at hbe
    push_cast at hbe hc2
    linarith
  have hg0 : 0 ≤ (y : Int) - na := by
    omega
  have hy64 : y < 2 ^ 64 := by
    have : y ≤ y * U := Nat.le_mul_of_pos_right _ hu
    omega
  have hfee := bps_works hP.cfg.fee
  have hfl := hP.cfg.fee
  obtain ⟨com, hcom⟩ := mulInt_works (g := (y : Int) - na) (rate := p.cfg.totalFeeBps * 100000000000000) hg0 (by omega) (by omega)
    (by rw [show Dec.ONE = 1000000000000000000 from rfl]; omega)
  obtain ⟨er, r0, r1⟩ := bps_rate hfee hP.cfg.fee
  obtain ⟨-, c0, c1⟩ := commission_bounds hcom hg0 (by omega) (by omega)
  have eU : ((y - na : Nat) : Int) = y - na := by omega
  refine ⟨⟨(y : Int) - na - com, max ((amount : Int) - (y - na)) 0, com⟩, ?_, by simp only; omega⟩
  unfold computeSwap
  simp only [bind_ok, toU128_ok, add128_ok, subU_ok, subI_ok, ok_inj, toI128_ok]
  have haU : amount ≤ (x + amount) * U := by
    calc amount ≤ x + amount := by omega
      _ ≤ _ := Nat.le_mul_of_pos_right _ hu
  have hxaU : x + amount ≤ (x + amount) * U := Nat.le_mul_of_pos_right _ hu
  refine ⟨x, rfl, y, rfl, amount, rfl, _, hfee, _, currentAmp_works hnow, _, ⟨by omega, rfl⟩, _,
    scale_works (by omega) (by rw [em, ← hUe]; exact hxa), _, scale_works hd18 (by rw [← hUe]; omega), _,
    scale_works hd18 (by rw [← hUe]; omega), na, by rw [em, ← hUe]; rw [em] at hna; exact hna, _, ⟨by omega, rfl⟩,
    max ((amount : Int) - (y - na)) 0, ?_, (y : Int) - na, ⟨by rw [eU]; simp only [I128_MAX]; omega, eU⟩,
    com, hcom, (y : Int) - na - com, ⟨⟨by simp only [I128_MIN]; omega, by simp only [I128_MAX]; omega⟩, rfl⟩, rfl⟩
  unfold spreadOf
  split
  · rw [toI128_ok]
    refine ⟨?_, ?_⟩
    · have : (((x + amount) * U : Nat) : Int) < 2 ^ 127 := by push_cast; exact hmax
      simp only [I128_MAX]; omega
    · omega
  · rw [ok_inj]; omega

/-- **C108** When `simulate_swap` answers.  In a reachable pool in ordinary condition whose total reserve `S` (in
10⁻¹⁸ token) satisfies `S³·10²⁰ < 2²⁵⁶` - up to about 10.5 tokens in all -, let the amount `a` be sold and let `g`
be a payout that keeps the pool above the StableSwap curve for the invariant `S`, even when the solver's
tolerance of 10⁻⁶ token is taken off the reserve.  Then `simulate_swap` answers, and it announces at least `g` (commission
included). -/
theorem C108_quoted {me : Addr} {s : Sys} (h0 : Genesis me s) {ts : List Tx}
    (ht : ∀ t ∈ ts, Possible me t) {p : State} (hp : (run me s ts).pool = some p) (hO : Ordinary p) {now : Nat}
    (hnow : p.amp.nextTime ≤ now) {offer : Addr} (ho : IsPoolToken p offer) {amount : Int} (ha : 0 < amount)
    (hmax : (reserve p offer + amount) * unitOf p.precA ≤ 2 ^ 126)
    (hfit : ((p.resA + p.resB) * unitOf p.precA) ^ 3 * 10 ^ 20 < 2 ^ 256) {g : Int} (hg : 0 ≤ g)
    (hrest : 2 * 10 ^ 12 + 2 ≤ (reserve p (other p offer) - g + 1) * unitOf p.precA)
    (hcurve : Above p.amp.nextAmp ((p.resA + p.resB) * unitOf p.precA) ((reserve p offer + amount) * unitOf p.precA)
      ((reserve p (other p offer) - g + 1) * unitOf p.precA - 10 ^ 12 - 2)) :
    ∃ ret spread com total, simulateSwap now p offer amount = .ok (ret, spread, com, total) ∧
      0 ≤ ret ∧ 0 ≤ com ∧ g ≤ ret + com ∧ spread = max (amount - (ret + com)) 0 ∧ ret + com ≤ reserve p (other p offer) := by
  have hP := reach_swap h0 ht hp
  obtain ⟨hs, hx, hy, -, -, hsum⟩ := ordinary_sides hO hP.distinct.1 ho
  obtain ⟨r, hr, hgr⟩ := quote_works hP hO hnow ho ha (by omega) hfit hg hrest hcurve
  obtain ⟨amp, x, y, a, na, nx, sx, sy, rate, ex, ey, ea, hrate, hamp, hnx, hsx, hsy, hna, hle, hgr', hsp, hcom⟩ := quote_inv hr
  simp only at ex ey
  obtain ⟨-, r0, r1⟩ := bps_rate hrate hP.cfg.fee
  obtain ⟨-, c0, c1⟩ := commission_bounds hcom (by omega) r0 r1
  have hu : (1 : Int) ≤ unitOf p.precA := by exact_mod_cast unitOf_pos p.precA
  have hb1 : reserve p offer + amount ≤ 2 ^ 126 := by nlinarith
  have hb2 : reserve p offer + reserve p (other p offer) < 2 ^ 64 := by
    by_contra hn
    have h1 : (2 : Int) ^ 64 ≤ (p.resA + p.resB) * unitOf p.precA := by nlinarith
    have : ((2 : Int) ^ 64) ^ 3 ≤ ((p.resA + p.resB) * unitOf p.precA) ^ 3 := pow_le_pow_left₀ (by norm_num) h1 3
    omega
  refine ⟨r.ret, r.spread, r.commission, r.ret + r.commission + r.spread, ?_, by omega, c0, hgr, by rw [hsp, hgr', ea], by omega⟩
  unfold simulateSwap
  simp only [bind_ok, hs]
  refine ⟨_, rfl, r, hr, _, addI_ok.mpr ⟨?_, rfl⟩, _, addI_ok.mpr ⟨?_, rfl⟩, rfl⟩
  · simp only [InI128, I128_MIN, I128_MAX]; omega
  · simp only [InI128, I128_MIN, I128_MAX]; omega

/-- **C108** What is needed for a swap to go through, in any reachable state: it is signed by a trader who
holds the amount, keeps its deadline and limits, `simulate_swap` answers, pays something, reaches the minimum and
keeps the spread limit.  (The last two conditions say that the amounts fit the integers of the ledger and of the
spread check.)  The trader gets what `simulate_swap` announced. -/
theorem C108_swap_works {me : Addr} {s : Sys} (h0 : Genesis me s) {ts : List Tx}
    (ht : ∀ t ∈ ts, Possible me t) {p : State} (hp : (run me s ts).pool = some p)
    {c : Ctx} {sender offer : Addr} {amount : Int} {mo ms : Option Int} {dl : Option Nat} {mf : Option Int}
    {ret com spread total : Int} (hself : c.auth me = false) (hau : c.signed sender = true)
    (hdl : ∀ d, dl = some d → c.now ≤ d) (ha : 0 < amount)
    (hbal : amount ≤ (run me s ts).led.bal offer sender)
    (hq : simulateSwap c.now p offer amount = .ok (ret, spread, com, total)) (hpos : 0 < ret + com)
    (hmo : ∀ m, mo = some m → m ≤ ret) (hmf : ∀ f, mf = some f → p.cfg.totalFeeBps ≤ f)
    (hms : ∀ b, ms = some b → 0 ≤ b ∧ b ≤ p.cfg.maxSpreadBps)
    (hspread : spread * 10000 ≤ (ret + com) * ms.getD p.cfg.maxSpreadBps)
    (hfit : ∀ t a, (run me s ts).led.bal t a + amount ≤ I128_MAX ∧ (run me s ts).led.bal t a + ret + com ≤ I128_MAX)
    (hsmall : spread * 10 ^ 18 ≤ I128_MAX) :
    ∃ p' L', swap me c p (run me s ts).led sender offer amount mo ms dl mf = .ok (p', L', ret) := by
  have hI := Phoenix.Stable.run_keeps ts ht (Phoenix.Stable.genesis_inv h0)
  have hP := hI.pool p hp
  have hn := hI.led.nonneg
  generalize (run me s ts).led = L at *
  have hne : sender ≠ me := fun e => by have := auth_of_signed hau; rw [e, hself] at this; simp at this
  have hmsb : 0 ≤ ms.getD p.cfg.maxSpreadBps ∧ ms.getD p.cfg.maxSpreadBps ≤ 10000 := by
    have := hP.cfg.spread
    cases ms with
    | none => exact this
    | some b => have := hms b rfl; simp; omega
  unfold simulateSwap at hq
  simp only [bind_ok, ok_inj, addI_ok, Prod.mk.injEq] at hq
  obtain ⟨⟨sd, bd⟩, hs, r, hr, _, ⟨hg1, rfl⟩, _, ⟨ht2, rfl⟩, rfl, rfl, rfl, -⟩ := hq
  obtain ⟨ho, rfl, rfl, hoo⟩ := sides_inv hs hP.distinct.1
  simp only at hr
  obtain ⟨amp, x, y, a, na, nx, sx, sy, rate, ex, ey, ea, hrate, hamp, hnx, hsx, hsy, hna, hle, hgr', hsp, hcom⟩ := quote_inv hr
  simp only at ex ey
  obtain ⟨-, r0, r1⟩ := bps_rate hrate hP.cfg.fee
  obtain ⟨-, h5, c1⟩ := commission_bounds hcom (by omega) r0 r1
  have h6 : 0 ≤ r.ret := by omega
  have hs0 : 0 ≤ r.spread := by rw [hsp]; exact le_max_right _ _
  have hgy : r.ret + r.commission ≤ reserve p (other p offer) := by omega
  have hback : reserve p (other p offer) ≤ L.bal (other p offer) me := by
    rcases ho with e | e
    · simp only [e, other, if_true, reserve, Ne.symm hP.distinct.1, if_false]; exact hP.bB
    · simp only [e, other, Ne.symm hP.distinct.1, if_false, reserve, if_true]; exact hP.aB
  have hbo : reserve p offer ≤ L.bal offer me := by
    rcases ho with e | e
    · simp only [e, if_true, reserve]; exact hP.aB
    · simp only [e, Ne.symm hP.distinct.1, if_false, reserve, if_true]; exact hP.bB
  have n1 := hn offer me
  have n2 := hn (other p offer) me
  have n3 := hn (other p offer) sender
  have n4 := hn (other p offer) p.cfg.feeRecipient
  have n5 := hn offer sender
  obtain ⟨L1, e1⟩ := send_works (c := c.as me) (L := L) (t := offer) (src := sender) (d := me) (x := amount)
    (as_auth.mpr (.inl hau)) ha.le hbal (by have := (hfit offer sender).1; omega) n1 (hfit _ _).1
  have t1 := (Ledger.transfer_inv e1).2.2.2.1
  have k1 : ∀ a, L1.bal (other p offer) a = L.bal (other p offer) a := by
    intro a; rw [t1]; simp [Flow.delta, Ne.symm hoo]
  have k1' : L1.bal offer me = L.bal offer me + amount := by
    rw [t1]; simp [Flow.delta, hne]
  obtain ⟨L2, e2⟩ := send_works (c := c.as me) (L := L1) (t := other p offer) (src := me) (d := sender) (x := r.ret)
    (as_auth_self c me) h6 (by rw [k1]; omega) (by rw [k1]; have := (hfit (other p offer) me).1; omega)
    (by rw [k1]; exact n3) (by rw [k1]; have := (hfit (other p offer) sender).2; omega)
  have t2 := (Ledger.transfer_inv e2).2.2.2.1
  have k2 : ∀ a, L2.bal (other p offer) a = L.bal (other p offer) a + Flow.delta ⟨other p offer, me, sender, r.ret⟩ (other p offer) a := by
    intro a; rw [t2, k1]; simp
  have k2me : L2.bal (other p offer) me = L.bal (other p offer) me - r.ret := by
    rw [k2]; simp [Flow.delta, hne]; omega
  have k2b : ∀ a, L2.bal (other p offer) a ≤ L.bal (other p offer) a + r.ret ∧ 0 ≤ L2.bal (other p offer) a := by
    intro a
    have := hn (other p offer) a
    by_cases e : a = me
    · rw [e, k2me]; rw [e] at this; omega
    · rw [k2]; simp only [Flow.delta]; simp only [Ne.symm e, and_false, if_false]; split <;> omega
  obtain ⟨L3, e3⟩ := send_works (c := c.as me) (L := L2) (t := other p offer) (src := me) (d := p.cfg.feeRecipient)
    (x := r.commission) (as_auth_self c me) h5 (by rw [k2me]; omega)
    (by rw [k2me]; have := (hfit (other p offer) me).1; omega) (k2b _).2
    (by have := (k2b p.cfg.feeRecipient).1; have := (hfit (other p offer) p.cfg.feeRecipient).2; omega)
  have f1 := (hfit offer me).1
  have f2 := (hfit (other p offer) me).1
  have mI : I128_MIN = -170141183460469231731687303715884105728 := by decide
  have mM : I128_MAX = 170141183460469231731687303715884105727 := by decide
  have hD : Dec.ONE = 10 ^ 18 := by decide
  obtain ⟨p', hp'⟩ : ∃ p', swapReserves p offer (L1.bal offer me - L.bal offer me) r = .ok p' := by
    rw [k1', add_sub_cancel_left]
    unfold swapReserves
    split
    · rename_i e
      simp only [reserve, e, other, if_true, Ne.symm hP.distinct.1, if_false] at *
      simp only [bind_ok, addI_ok, subI_ok, ok_inj]
      refine ⟨_, _, ⟨⟨?_, ?_⟩, rfl⟩, _, ⟨⟨?_, ?_⟩, rfl⟩, _, ⟨⟨?_, ?_⟩, rfl⟩, rfl⟩ <;> omega
    · rename_i e
      have e' : offer = p.cfg.tokenB := by rcases ho with h | h; exact absurd h e; exact h
      simp only [reserve, e', other, if_true, Ne.symm hP.distinct.1, if_false] at *
      simp only [bind_ok, addI_ok, subI_ok, ok_inj]
      refine ⟨_, _, ⟨⟨?_, ?_⟩, rfl⟩, _, ⟨⟨?_, ?_⟩, rfl⟩, _, ⟨⟨?_, ?_⟩, rfl⟩, rfl⟩ <;> omega
  refine ⟨p', L3, ?_⟩
  have hlim : swapLimits p offer ms mf = .ok (ms.getD p.cfg.maxSpreadBps * 100000000000000) := by
    unfold swapLimits
    simp only [bind_ok, whenSome_ok, req_ok]
    exact ⟨(), hmf, (), ho, (), hms, bps_works hmsb⟩
  have hspr : assertMaxSpread (ms.getD p.cfg.maxSpreadBps * 100000000000000) (r.ret + r.commission) r.spread = .ok () := by
    unfold assertMaxSpread
    simp only [bind_ok, req_ok, Dec.fromRatio_ok]
    have e : (r.spread * Dec.ONE).tdiv (r.ret + r.commission) = r.spread * Dec.ONE / (r.ret + r.commission) :=
      tdiv_nonneg_eq (by rw [hD]; positivity)
    have d0 : 0 ≤ r.spread * Dec.ONE / (r.ret + r.commission) := Int.ediv_nonneg (by rw [hD]; positivity) hpos.le
    have d1 : r.spread * Dec.ONE / (r.ret + r.commission) ≤ ms.getD p.cfg.maxSpreadBps * 100000000000000 := by
      apply Int.ediv_le_of_le_mul hpos
      rw [hD]
      nlinarith
    refine ⟨_, ⟨by omega, ⟨?_, ?_⟩, ⟨?_, ?_⟩, rfl⟩, by rw [e]; exact d1⟩
    · rw [hD]; omega
    · rw [hD]; exact hsmall
    · rw [e]; omega
    · rw [e]; omega
  unfold swap doSwap checkDeadline
  simp only [bind_ok, whenSome_ok, validatePos_some, requireAuth_ok, ok_inj, addI_ok, subI_ok, hs, hlim, req_ok]
  refine ⟨(), hdl, (), ha, (), auth_of_signed hau, _, rfl, _, rfl, r, hr, (), hmo, _, ⟨hg1, rfl⟩, (), hspr,
    L1, e1, _, ⟨?_, rfl⟩, L2, e2, L3, e3, p', hp', rfl⟩
  simp only
  rw [k1', add_sub_cancel_left]; constructor <;> omega

/-- **C108** Which amounts can be sold.  In a reachable pool in ordinary condition with about 10.5 tokens in all at most, every
signed swap of an amount the trader holds goes through, without limits of their own, and pays at least `g` (before the
commission), for every `g` that keeps the pool above the curve (as in `C108_quoted`) and is within the spread limit. -/
theorem C108_swap_available {me : Addr} {s : Sys} (h0 : Genesis me s) {ts : List Tx}
    (ht : ∀ t ∈ ts, Possible me t) {p : State} (hp : (run me s ts).pool = some p) (hO : Ordinary p)
    {c : Ctx} (hnow : p.amp.nextTime ≤ c.now) {sender offer : Addr} {amount : Int} (hself : c.auth me = false)
    (hau : c.signed sender = true) (ho : IsPoolToken p offer) (hbal : amount ≤ (run me s ts).led.bal offer sender) (ha : 0 < amount)
    (hfit : ((p.resA + p.resB) * unitOf p.precA) ^ 3 * 10 ^ 20 < 2 ^ 256) {g : Int} (hg : 0 < g)
    (hrest : 2 * 10 ^ 12 + 2 ≤ (reserve p (other p offer) - g + 1) * unitOf p.precA)
    (hcurve : Above p.amp.nextAmp ((p.resA + p.resB) * unitOf p.precA) ((reserve p offer + amount) * unitOf p.precA)
      ((reserve p (other p offer) - g + 1) * unitOf p.precA - 10 ^ 12 - 2))
    (hspread : (amount - g) * 10000 ≤ g * p.cfg.maxSpreadBps)
    (hled : ∀ t a, (run me s ts).led.bal t a ≤ 10 ^ 37) :
    ∃ p' L' ret, swap me c p (run me s ts).led sender offer amount none none none none = .ok (p', L', ret) ∧
      g ≤ reserve p (other p offer) - reserve p' (other p offer) := by
  have hP := reach_swap h0 ht hp
  obtain ⟨hs, hx, hy, -, -, hsum⟩ := ordinary_sides hO hP.distinct.1 ho
  have hu0 := unitOf_pos p.precA
  have hu : (1 : Int) ≤ unitOf p.precA := by exact_mod_cast hu0
  have hSl : (p.resA + p.resB) * unitOf p.precA < 2 ^ 64 := by
    by_contra hn
    have : ((2 : Int) ^ 64) ^ 3 ≤ ((p.resA + p.resB) * unitOf p.precA) ^ 3 := pow_le_pow_left₀ (by norm_num) (by omega) 3
    omega
  rw [← hsum] at hSl
  have hgy : g ≤ reserve p (other p offer) := by
    by_contra hn
    have : (reserve p (other p offer) - g + 1) * unitOf p.precA ≤ 0 := mul_nonpos_of_nonpos_of_nonneg (by omega) (by omega)
    omega
  have hcs := hP.cfg.spread
  have ha2 : amount ≤ 2 * g := by nlinarith
  have hsc : (reserve p offer + amount) * unitOf p.precA ≤ 2 ^ 126 := by
    have h1 : (reserve p offer + amount) ≤ 2 * (reserve p offer + reserve p (other p offer)) := by omega
    have h2 := mul_le_mul_of_nonneg_right h1 (show (0 : Int) ≤ unitOf p.precA by omega)
    nlinarith
  obtain ⟨ret, spread, com, total, hq, hr0, hc0, hgr, hspd, hry⟩ := C108_quoted h0 ht hp hO hnow ho ha hsc hfit hg.le hrest hcurve
  have hy64 : reserve p (other p offer) < 2 ^ 64 := by nlinarith
  have mM : I128_MAX = 170141183460469231731687303715884105727 := by decide
  obtain ⟨p', L', hsw⟩ := C108_swap_works h0 ht hp (c := c) (sender := sender) (mo := none) (ms := none) (dl := none) (mf := none)
    hself hau (by simp) ha hbal hq (by omega) (by simp) (by simp) (by simp)
    (by
      simp only [Option.getD_none]
      rw [hspd]
      rcases max_cases (amount - (ret + com)) 0 with ⟨e, -⟩ | ⟨e, -⟩
      · rw [e]; nlinarith
      · rw [e]; have : 0 ≤ (ret + com) * p.cfg.maxSpreadBps := mul_nonneg (by omega) hcs.1
        omega)
    (fun t a => by have := hled t a; constructor <;> omega) (by rw [hspd]; omega)
  refine ⟨p', L', ret, hsw, ?_⟩
  obtain ⟨com', spread', hsim, -, -, -, -, -, -, hres, -⟩ := simulation_core hP hself (by omega) hsw
  rw [hq, ok_inj] at hsim
  simp only [Prod.mk.injEq] at hsim
  obtain ⟨-, -, rfl, -⟩ := hsim
  omega

/-- `calc_y` cubes the invariant times 10²⁰ in a `U256`. -/
theorem calcY_fits {amp x' x y target r : Nat} (h : calcY amp x' x y target = .ok r) :
    ∃ d, computeD amp x y = .ok d ∧ d ^ 3 * 100000000000000000000 < U256_LIM := by
  unfold calcY at h
  simp only [bind_ok, mul128_ok, pow256_ok, mul256_ok] at h
  obtain ⟨d, hd, _, -, _, -, _, ⟨-, rfl⟩, _, ⟨hn, rfl⟩, -⟩ := h
  exact ⟨d, hd, hn⟩

theorem quote_fits {me : Addr} {p : State} {L : Ledger} (hP : PoolInv me p L) (hO : Ordinary p)
    (hbig : 2 ^ 256 ≤ ((p.resA + p.resB) * unitOf p.precA - 1505) ^ 3 * 10 ^ 20) {now : Nat} {offer : Addr} (ho : IsPoolToken p offer)
    {amount : Int} (r : Quote) :
    quote now p ⟨offer, reserve p offer, p.precA⟩ ⟨other p offer, reserve p (other p offer), p.precA⟩ amount ≠ .ok r := by
  intro hq
  obtain ⟨-, hx, hy, r1, r2, hsum⟩ := ordinary_sides hO hP.distinct.1 ho
  have hd18 : p.precA ≤ 18 := by have := hP.dec.le; have := hP.dec.m; omega
  obtain ⟨amp, x, y, a, na, nx, sx, sy, rate, ex, ey, ea, hrate, hamp, hnx, hsx, hsy, hna, hle, hgr', hsp, hcom⟩ := quote_inv hq
  simp only at ex ey hsx hsy
  have e := currentAmp_const hamp hP.amp
  subst e
  obtain ⟨D, hD, hfit⟩ := calcY_fits hna
  have e2 := scaleValue_le hsx hd18
  have e3 := scaleValue_le hsy hd18
  rw [e2, e3] at hD
  have hhigh := hO.high
  have hlow := hO.low
  rw [← hsum] at hhigh hbig hlow
  rw [← ex, ← ey] at hhigh hbig r1 r2 hlow
  generalize unitOf p.precA = U at *
  have hS : ((x : Int) + y) * U = ((x * U + y * U : Nat) : Int) := by push_cast; ring
  rw [hS] at hbig hhigh hlow
  have hrU : x * U ≤ 1000 * (y * U) ∧ y * U ≤ 1000 * (x * U) := by
    constructor
    · calc x * U ≤ 1000 * y * U := Nat.mul_le_mul_right _ (by omega)
        _ = _ := by ring
    · calc y * U ≤ 1000 * x * U := Nat.mul_le_mul_right _ (by omega)
        _ = _ := by ring
  obtain ⟨-, hSD⟩ := gap_le hD (by omega) hrU
  have h1 : (((x * U + y * U : Nat) : Int) - 1505) ^ 3 ≤ (D : Int) ^ 3 := pow_le_pow_left₀ (by omega) (by omega) 3
  have h2 : ((D ^ 3 * 100000000000000000000 : Nat) : Int) < 2 ^ 256 := by
    have e : (2 : Int) ^ 256 = (U256_LIM : Nat) := by decide
    rw [e]; exact_mod_cast hfit
  push_cast at h2
  linarith

/-- **C108** The size limit is sharp: in a pool in ordinary condition whose total reserve `S` (in 10⁻¹⁸ token) satisfies
`(S − 1505)³·10²⁰ ≥ 2²⁵⁶` - above about 10.5 tokens in all - no swap whatsoever goes through and `simulate_swap`
never answers: the cube of the invariant does not fit the 256-bit integer of the contract. -/
theorem C108_large_pool_refuses {me : Addr} {s : Sys} (h0 : Genesis me s) {ts : List Tx}
    (ht : ∀ t ∈ ts, Possible me t) {p : State} (hp : (run me s ts).pool = some p) (hO : Ordinary p)
    (hbig : 2 ^ 256 ≤ ((p.resA + p.resB) * unitOf p.precA - 1505) ^ 3 * 10 ^ 20) :
    (∀ now offer amount r, simulateSwap now p offer amount ≠ .ok r) ∧
    ∀ c sender offer amount mo ms dl mf r, c.auth me = false →
      swap me c p (run me s ts).led sender offer amount mo ms dl mf ≠ .ok r := by
  have hP := reach_swap h0 ht hp
  have key : ∀ offer sd bd, sides p offer = .ok (sd, bd) → ∀ now amount r, quote now p sd bd amount ≠ .ok r := by
    intro offer sd bd hs now amount r hq
    obtain ⟨ho, -, -, -⟩ := sides_inv hs hP.distinct.1
    rw [(ordinary_sides hO hP.distinct.1 ho).1, ok_inj, Prod.mk.injEq] at hs
    obtain ⟨rfl, rfl⟩ := hs
    exact quote_fits hP hO hbig ho r hq
  refine ⟨fun now offer amount r h => ?_, fun c sender offer amount mo ms dl mf r hself h => ?_⟩
  · unfold simulateSwap at h
    simp only [bind_ok] at h
    obtain ⟨⟨sd, bd⟩, hs, q, hq, -⟩ := h
    exact key _ _ _ hs _ _ _ hq
  · unfold swap doSwap at h
    simp only [bind_ok] at h
    obtain ⟨_, -, _, -, _, -, _, -, ⟨sd, bd⟩, hs, q, hq, -⟩ := h
    exact key _ _ _ hs _ _ _ hq

/-- **C108** A simple way to meet the curve condition of `C108_quoted`: if the seller gives up `e ≥ 0` (in 10⁻¹⁸ token, the
tolerance included) against an exchange one to one, and `8·amp·e·x·z > 100·S·(x−z)²` for the new amounts `x`, `z`, the
position is above the curve.  The bound is the price of the imbalance: nothing when the amounts are equal. -/
theorem C108_curve_of_loss {amp S x z e : Int} (hS : 0 ≤ S) (he : 0 ≤ e) (hsum : x + z = S + e)
    (h : 100 * S * (x - z) ^ 2 < 8 * amp * e * x * z) : Above amp S x z := by
  unfold Above curve
  have e1 : x + z - S = e := by omega
  rw [e1]
  have e2 : 4 * x * z = (S + e) ^ 2 - (x - z) ^ 2 := by rw [← hsum]; ring
  have h1 : S ^ 2 ≤ (S + e) ^ 2 := pow_le_pow_left₀ hS (by omega) 2
  have h2 : 100 * S * S ^ 2 ≤ 100 * S * (S + e) ^ 2 := mul_le_mul_of_nonneg_left h1 (by positivity)
  have h3 : 4 * x * z * (2 * amp * e + 100 * S) = 8 * amp * e * x * z + 100 * S * (4 * x * z) := by ring
  rw [h3, e2]
  nlinarith

/-- The invariant of two unequal scaled amounts (helper). -/
theorem invariantOf_works {me : Addr} {p : State} {L : Ledger} (hP : PoolInv me p L) {x y : Nat} (hx : 0 < x) (hy : 0 < y)
    (hr : x * unitOf p.precA ≤ 1000 * (y * unitOf p.precB) ∧ y * unitOf p.precB ≤ 1000 * (x * unitOf p.precA))
    (hS : x * unitOf p.precA + y * unitOf p.precB < p.amp.nextAmp / 100 * 2000000000000000000 - 1)
    (hlim : 4 * (x * unitOf p.precA) * (y * unitOf p.precB) < 2 ^ 128) :
    ∃ D, invariantOf p.amp.nextAmp x y (L p.cfg.tokenA).decimals (L p.cfg.tokenB).decimals = .ok D ∧
      D ≤ x * unitOf p.precA + y * unitOf p.precB ∧ x * unitOf p.precA + y * unitOf p.precB ≤ D + 1505 := by
  have hm := hP.dec.m
  have hle := hP.dec.le
  have hxU : 0 < x * unitOf p.precA := Nat.mul_pos hx (unitOf_pos _)
  have hyU : 0 < y * unitOf p.precB := Nat.mul_pos hy (unitOf_pos _)
  have hU : U128_LIM = 2 ^ 128 := by decide
  have l1 : x * unitOf p.precA < U128_LIM := by rw [hU]; nlinarith
  have l2 : y * unitOf p.precB < U128_LIM := by rw [hU]; nlinarith
  have s1 := scale_works (a := x) (dec := p.precA) (by omega) l1
  have s2 := scale_works (a := y) (dec := p.precB) (by omega) l2
  obtain ⟨D, hD⟩ := computeD_works hxU hyU hr hS (amp_range hP.amp).2 (by rw [hU]; nlinarith)
  obtain ⟨g1, g2⟩ := gap_le hD hS hr
  refine ⟨D, ?_, g1, g2⟩
  unfold invariantOf
  simp only [bind_ok]
  rw [← hP.dec.a, ← hP.dec.b]
  exact ⟨_, s1, _, s2, hD⟩

/-- The number of new shares (helper). -/
theorem newShares_works {me : Addr} {p : State} {L : Ledger} (hP : PoolInv me p L) {a b x y X Y : Int} {D : Nat} (ha : 0 < a) (hb : 0 < b)
    (ex : x = p.resA * unitOf p.precA) (ey : y = p.resB * unitOf p.precB)
    (eX : X = (p.resA + a) * unitOf p.precA) (eY : Y = (p.resB + b) * unitOf p.precB)
    (hS : X + Y < (p.amp.nextAmp / 100 : Nat) * 2000000000000000000 - 1) (hlim : 4 * X * Y < 2 ^ 128)
    (hfirst : p.total = 0 → 1001 * unitOf p.maxPrec + 1505 ≤ X + Y)
    (hlater : p.total ≠ 0 → 0 < x ∧ 0 < y ∧ x ≤ 1000 * y ∧ y ≤ 1000 * x ∧ 1505 < x + y ∧ 1505 ≤ X + Y - (x + y))
    (hfit : (X + Y - (x + y) + 1505) * 10 ^ 18 ≤ 10 ^ 38 ∧ p.total * ((X + Y - (x + y) + 1505) * 10 ^ 18) ≤ 10 ^ 38 * (x + y - 1505) ∨ p.total = 0)
    (d1 : D ≤ X + Y) (d2 : X + Y ≤ D + 1505) (hXl : X < 2 ^ 80) (hYl : Y < 2 ^ 80) :
    ∃ sh, newShares p p.amp.nextAmp (L p.cfg.tokenA).decimals (L p.cfg.tokenB).decimals D = .ok sh ∧ (sh : Int) ≤ 2 ^ 81 := by
  have mI : I128_MIN = -170141183460469231731687303715884105728 := by decide
  have mM : I128_MAX = 170141183460469231731687303715884105727 := by decide
  have hU : U128_LIM = 2 ^ 128 := by decide
  have a0 := hP.a0
  have b0 := hP.b0
  unfold newShares
  by_cases hz : p.total = 0
  · have hf := hfirst hz
    have hmp := hP.dec.le
    have hp10 : 10 ^ (18 - p.maxPrec) ≤ 10 ^ 18 := Nat.pow_le_pow_right (by norm_num) (by omega)
    have hq : 1001 ≤ D / unitOf p.maxPrec := by
      rw [Nat.le_div_iff_mul_le (unitOf_pos _)]
      omega
    have hq2 : D / unitOf p.maxPrec ≤ D := Nat.div_le_self _ _
    have eM : MINIMUM_LIQUIDITY = 1000 := rfl
    rw [if_pos hz]
    simp only [bind_ok, subU_ok, pow10_ok, u128_ok, divU_ok, req_ok, ok_inj]
    refine ⟨D / unitOf p.maxPrec - 1000, ⟨_, ⟨hmp, rfl⟩, _, ⟨by rw [hU]; omega, rfl⟩, _, ⟨by rw [hU]; omega, rfl⟩, _,
      ⟨(by positivity : 0 < 10 ^ (18 - p.maxPrec)).ne', rfl⟩, _, ⟨by rw [eM]; exact le_trans (by norm_num) hq, rfl⟩, (), ?_, ?_⟩, by omega⟩
    · rw [eM]; show D / unitOf p.maxPrec - 1000 ≠ 0; omega
    · rw [eM]; rfl
  · obtain ⟨x0, y0, r1, r2, s0, s1⟩ := hlater hz
    rcases hfit with ⟨f1, f2⟩ | h; swap
    · exact absurd h hz
    have hrA : 0 < p.resA := by
      by_contra hc
      have : p.resA * unitOf p.precA ≤ 0 := mul_nonpos_of_nonpos_of_nonneg (by omega) (by positivity)
      omega
    have hrB : 0 < p.resB := by
      by_contra hc
      have : p.resB * unitOf p.precB ≤ 0 := mul_nonpos_of_nonpos_of_nonneg (by omega) (by positivity)
      omega
    obtain ⟨oa, hoa⟩ : ∃ oa : Nat, (oa : Int) = p.resA := ⟨p.resA.toNat, by omega⟩
    obtain ⟨ob, hob⟩ : ∃ ob : Nat, (ob : Int) = p.resB := ⟨p.resB.toNat, by omega⟩
    have ex' : x = ((oa * unitOf p.precA : Nat) : Int) := by rw [ex, ← hoa]; push_cast; ring
    have ey' : y = ((ob * unitOf p.precB : Nat) : Int) := by rw [ey, ← hob]; push_cast; ring
    have hxX : x ≤ X := by rw [ex, eX]; exact mul_le_mul_of_nonneg_right (by omega) (by positivity)
    have hyY : y ≤ Y := by rw [ey, eY]; exact mul_le_mul_of_nonneg_right (by omega) (by positivity)
    have hxy : 4 * x * y ≤ 4 * X * Y := mul_le_mul (by omega) hyY y0.le (by omega)
    obtain ⟨D0, hD0, z1, z2⟩ := invariantOf_works hP (x := oa) (y := ob) (by omega) (by omega)
      (by constructor <;> omega) (by omega) (by zify; push_cast at ex' ey'; rw [← ex', ← ey']; omega)
    have hT0 := hP.t0
    have c1 : ((D - D0 : Nat) : Int) = D - D0 := by omega
    have hD0p : (0 : Int) < D0 := by omega
    have hdel : (D : Int) - D0 ≤ X + Y - (x + y) + 1505 := by omega
    have hdel0 : (0 : Int) ≤ (D : Int) - D0 := by omega
    have hone : Dec.ONE = 10 ^ 18 := by decide
    have et : (((D : Int) - D0) * Dec.ONE).tdiv D0 = ((D : Int) - D0) * Dec.ONE / D0 :=
      tdiv_nonneg_eq (by rw [hone]; positivity)
    have q0 : 0 ≤ ((D : Int) - D0) * Dec.ONE / D0 := Int.ediv_nonneg (by rw [hone]; positivity) hD0p.le
    have q1 : ((D : Int) - D0) * Dec.ONE / D0 ≤ ((D : Int) - D0) * Dec.ONE := Int.ediv_le_self _ (by rw [hone]; positivity)
    have q2 : ((D : Int) - D0) * Dec.ONE / D0 * D0 ≤ ((D : Int) - D0) * Dec.ONE := Int.ediv_mul_le _ (by omega)
    have q3 : ((D : Int) - D0) * Dec.ONE ≤ 10 ^ 38 := by
      rw [hone]; refine le_trans (mul_le_mul_of_nonneg_right hdel (by norm_num)) f1
    have q4 : p.total * (((D : Int) - D0) * Dec.ONE / D0) ≤ 10 ^ 38 := by
      have h1 : p.total * (((D : Int) - D0) * Dec.ONE / D0) * D0 ≤ 10 ^ 38 * D0 := by
        calc p.total * (((D : Int) - D0) * Dec.ONE / D0) * D0 = p.total * (((D : Int) - D0) * Dec.ONE / D0 * D0) := by ring
          _ ≤ p.total * (((D : Int) - D0) * Dec.ONE) := mul_le_mul_of_nonneg_left q2 hT0
          _ ≤ p.total * ((X + Y - (x + y) + 1505) * 10 ^ 18) :=
            mul_le_mul_of_nonneg_left (by rw [hone]; exact mul_le_mul_of_nonneg_right hdel (by norm_num)) hT0
          _ ≤ 10 ^ 38 * (x + y - 1505) := f2
          _ ≤ 10 ^ 38 * D0 := by omega
      exact le_of_mul_le_mul_right h1 hD0p
    generalize hR : ((D : Int) - D0) * Dec.ONE / D0 = R at *
    have m0 : 0 ≤ p.total * R := by positivity
    have m1 : 0 ≤ p.total * R / Dec.ONE := Int.ediv_nonneg m0 (by decide)
    have m2 : p.total * R / Dec.ONE * Dec.ONE ≤ p.total * R := Int.ediv_mul_le _ (by decide)
    have m3 : p.total * R / Dec.ONE ≤ 10 ^ 20 := by
      rw [hone] at m2 ⊢
      omega
    have hmi : Dec.mulInt p.total R = .ok (p.total * R / Dec.ONE) := by
      unfold Dec.mulInt
      split
      · rename_i h
        rcases h with h | h
        · exact absurd h hz
        · rw [h]; simp
      · simp only [bind_ok, mulI_ok, divI_ok]
        rw [← tdiv_nonneg_eq m0]
        refine ⟨_, ⟨⟨by omega, by omega⟩, rfl⟩, by decide, ⟨?_, ?_⟩, rfl⟩
        · rw [tdiv_nonneg_eq m0]; omega
        · rw [tdiv_nonneg_eq m0]; omega
    rw [if_neg hz]
    simp only [bind_ok, toU128_ok, u128_ok, subU_ok, toI128_ok, Dec.div, Dec.fromRatio_ok]
    refine ⟨(p.total * R / Dec.ONE).toNat, ⟨oa, hoa, ob, hob, D0, hD0, _, ⟨by rw [hU]; omega, rfl⟩, _, ⟨by rw [hU]; omega, rfl⟩, _,
      ⟨by omega, rfl⟩, (D : Int) - D0, ⟨by omega, c1⟩, (D0 : Int), ⟨by omega, rfl⟩, R,
      ⟨by omega, ⟨?_, ?_⟩, ⟨?_, ?_⟩, by rw [et]⟩, _, hmi, by omega⟩, by omega⟩
    · rw [hone] at q3 ⊢; omega
    · omega
    · rw [et]; omega
    · rw [et]; omega

/-- **C108** Which deposits are accepted.  In a reachable pool, a signed deposit of amounts the account holds, within deadline
and slippage setting, is accepted when afterwards neither reserve is more than 1000 times the other, the total stays
below `2·10¹⁸·A − 1` and four times the product below `2¹²⁸` (about 9.2 tokens a side), and: the first deposit is worth more than
1001 units; a later one finds a pool in the same condition and brings at least 1505·10⁻¹⁸ token (one unit of a token with up
to 14 decimals suffices).  The last two conditions say that the amounts fit the integers.  The number of new shares does not depend on the minimum
asked for; the deposit is accepted for every minimum up to that number. -/
theorem C108_deposit_works {me : Addr} {s : Sys} (h0 : Genesis me s) {ts : List Tx}
    (ht : ∀ t ∈ ts, Possible me t) {p : State} (hp : (run me s ts).pool = some p)
    {c : Ctx} {sender : Addr} {a b x y X Y : Int} {cu : Option Int} {dl : Option Nat} (hself : c.auth me = false)
    (hau : c.signed sender = true) (hdl : ∀ d, dl = some d → c.now ≤ d) (hnow : p.amp.nextTime ≤ c.now) (ha : 0 < a) (hb : 0 < b)
    (hba : a ≤ (run me s ts).led.bal p.cfg.tokenA sender) (hbb : b ≤ (run me s ts).led.bal p.cfg.tokenB sender)
    (hcu : cu.getD p.cfg.defaultSlippageBps ≤ p.cfg.maxSlippageBps)
    (ex : x = p.resA * unitOf p.precA) (ey : y = p.resB * unitOf p.precB)
    (eX : X = (p.resA + a) * unitOf p.precA) (eY : Y = (p.resB + b) * unitOf p.precB)
    (hr : X ≤ 1000 * Y ∧ Y ≤ 1000 * X) (hS : X + Y < (p.amp.nextAmp / 100 : Nat) * 2000000000000000000 - 1) (hlim : 4 * X * Y < 2 ^ 128)
    (hfirst : p.total = 0 → 1001 * unitOf p.maxPrec + 1505 ≤ X + Y)
    (hlater : p.total ≠ 0 → 0 < x ∧ 0 < y ∧ x ≤ 1000 * y ∧ y ≤ 1000 * x ∧ 1505 < x + y ∧ 1505 ≤ X + Y - (x + y))
    (hfit : (X + Y - (x + y) + 1505) * 10 ^ 18 ≤ 10 ^ 38 ∧ p.total * ((X + Y - (x + y) + 1505) * 10 ^ 18) ≤ 10 ^ 38 * (x + y - 1505) ∨ p.total = 0)
    (hled : p.total ≤ 10 ^ 37 ∧ ∀ t a, (run me s ts).led.bal t a ≤ 10 ^ 37) :
    ∃ sh : Nat, ∀ ms : Option Nat, (∀ m, ms = some m → m ≤ sh) →
      ∃ p' L', provide me c p (run me s ts).led sender a b cu dl ms = .ok (p', L') ∧ p'.total = p.total + sh := by
  have hI := Phoenix.Stable.run_keeps ts ht (Phoenix.Stable.genesis_inv h0)
  have hP := hI.pool p hp
  have hn := hI.led.nonneg
  generalize (run me s ts).led = L at *
  obtain ⟨hAB, hSA, hSB⟩ := hP.distinct
  have hne : sender ≠ me := fun e => by have := auth_of_signed hau; rw [e, hself] at this; simp at this
  have mI : I128_MIN = -170141183460469231731687303715884105728 := by decide
  have mM : I128_MAX = 170141183460469231731687303715884105727 := by decide
  obtain ⟨hT37, hled⟩ := hled
  -- the two transfers
  have n1 := hn p.cfg.tokenA me
  have n2 := hn p.cfg.tokenB me
  obtain ⟨L1, e1⟩ := send_works (c := c.as me) (L := L) (t := p.cfg.tokenA) (src := sender) (d := me) (x := a)
    (as_auth.mpr (.inl hau)) ha.le hba (by have := hled p.cfg.tokenA sender; omega) n1
    (by have := hled p.cfg.tokenA sender; have := hled p.cfg.tokenA me; omega)
  have t1 := (Ledger.transfer_inv e1).2.2.2.1
  have g1 := (Ledger.transfer_inv e1).2.2.2.2
  have k1 : ∀ u, L1.bal p.cfg.tokenB u = L.bal p.cfg.tokenB u := by
    intro u; rw [t1]; simp [Flow.delta, hAB]
  obtain ⟨L2, e2⟩ := send_works (c := c.as me) (L := L1) (t := p.cfg.tokenB) (src := sender) (d := me) (x := b)
    (as_auth.mpr (.inl hau)) hb.le (by rw [k1]; exact hbb) (by rw [k1]; have := hled p.cfg.tokenB sender; omega)
    (by rw [k1]; exact n2) (by rw [k1]; have := hled p.cfg.tokenB sender; have := hled p.cfg.tokenB me; omega)
  have t2 := (Ledger.transfer_inv e2).2.2.2.1
  have g2 := (Ledger.transfer_inv e2).2.2.2.2
  have bA : L2.bal p.cfg.tokenA me = L.bal p.cfg.tokenA me + a := by
    rw [t2, t1]; simp [Flow.delta, hne, Ne.symm hAB]
  have bB : L2.bal p.cfg.tokenB me = L.bal p.cfg.tokenB me + b := by
    rw [t2, k1]; simp [Flow.delta, hne]
  have bS : L2.bal p.cfg.shareToken sender = L.bal p.cfg.shareToken sender := by
    rw [t2, t1]; simp [Flow.delta, Ne.symm hSA, Ne.symm hSB]
  have hadm : (L2 p.cfg.shareToken).admin = me := by
    rw [(g2 _).1, (g1 _).1]; exact hP.admin
  -- the invariant after the deposit
  have a0 := hP.a0
  have b0 := hP.b0
  have lA := hP.aB
  have lB := hP.bB
  have qA := hled p.cfg.tokenA me
  have qB := hled p.cfg.tokenB me
  have qa := hled p.cfg.tokenA sender
  have qb := hled p.cfg.tokenB sender
  obtain ⟨ua, hua⟩ : ∃ ua : Nat, (ua : Int) = a + p.resA := ⟨(a + p.resA).toNat, by omega⟩
  obtain ⟨ub, hub⟩ : ∃ ub : Nat, (ub : Int) = b + p.resB := ⟨(b + p.resB).toNat, by omega⟩
  have eX' : X = ((ua * unitOf p.precA : Nat) : Int) := by rw [eX]; push_cast; rw [hua]; ring
  have eY' : Y = ((ub * unitOf p.precB : Nat) : Int) := by rw [eY]; push_cast; rw [hub]; ring
  obtain ⟨D, hD, d1, d2⟩ := invariantOf_works hP (x := ua) (y := ub) (by omega) (by omega)
    (by constructor <;> omega) (by omega) (by zify; push_cast at eX' eY'; rw [← eX', ← eY']; exact hlim)
  have hX0 : 0 < X := by rw [eX]; exact mul_pos (by omega) (by exact_mod_cast unitOf_pos _)
  have hY0 : 0 < Y := by rw [eY]; exact mul_pos (by omega) (by exact_mod_cast unitOf_pos _)
  have hXl : X < 2 ^ 80 := by
    by_contra hc
    have : (2 : Int) ^ 80 * 2 ^ 80 ≤ X * (1000 * Y) := mul_le_mul (by omega) (by omega) (by norm_num) (by omega)
    nlinarith
  have hYl : Y < 2 ^ 80 := by
    by_contra hc
    have : (2 : Int) ^ 80 * 2 ^ 80 ≤ Y * (1000 * X) := mul_le_mul (by omega) (by omega) (by norm_num) (by omega)
    nlinarith
  have hU : U128_LIM = 2 ^ 128 := by decide
  -- the number of shares
  obtain ⟨sh, hsh, hshl⟩ : ∃ sh, newShares p p.amp.nextAmp (L p.cfg.tokenA).decimals (L p.cfg.tokenB).decimals D = .ok sh ∧
      (sh : Int) ≤ 2 ^ 81 := by
    exact newShares_works hP ha hb ex ey eX eY hS hlim hfirst hlater hfit (by omega) (by omega) hXl hYl
  refine ⟨sh, fun ms hms => ?_⟩
  obtain ⟨L3, e3⟩ := mint_works (c := c.as me) (L := L2) (t := p.cfg.shareToken) (d := sender) (x := sh)
    (by rw [hadm]; exact as_auth_self c me) (by omega) (by rw [bS]; exact hn _ _) (by rw [bS]; have := hled p.cfg.shareToken sender; omega)
  refine ⟨{ p with total := p.total + sh, resA := L2.bal p.cfg.tokenA me, resB := L2.bal p.cfg.tokenB me }, L3, ?_, rfl⟩
  unfold provide checkDeadline mintShares
  simp only [bind_ok, whenSome_ok, validatePos_some, requireAuth_ok, req_ok, subI_ok, addI_ok, toU128_ok, toI128_ok, ok_inj]
  have hT0 := hP.t0
  refine ⟨(), hdl, (), ha, (), hb, (), auth_of_signed hau, (), hcu, _, currentAmp_works hnow, L1, e1, L2, e2, a, ⟨?_, by rw [bA]; ring⟩,
    b, ⟨?_, by rw [bB]; ring⟩, a + p.resA, ⟨?_, rfl⟩, b + p.resB, ⟨?_, rfl⟩, ua, hua, ub, hub, D, hD, sh, hsh, (), hms,
    (sh : Int), ⟨by omega, rfl⟩, (_, L3), ⟨L3, e3, _, ⟨?_, rfl⟩, rfl⟩, rfl⟩
  · rw [bA, add_sub_cancel_left]; constructor <;> omega
  · rw [bB, add_sub_cancel_left]; constructor <;> omega
  · constructor <;> omega
  · constructor <;> omega
  · constructor <;> omega

/-! Concrete cases. -/

/-- the pool after a first deposit of `x` and `y` units of two tokens with 7 decimals, `A = 100` -/
theorem exPool_is {x y : Int} {t : Int}
    (h : (run 100 (exStart 7 7) (exHist 100 x y)).pool.map
      (fun p => (p.precA, p.precB, p.resA, p.resB, p.amp.nextAmp))
      = some (7, 7, x, y, 10000))
    (h' : (run 100 (exStart 7 7) (exHist 100 x y)).pool.map
      (fun p => (p.cfg.tokenA, p.cfg.tokenB, p.amp.nextTime, p.total, p.maxPrec, p.cfg.maxSpreadBps))
      = some (10, 11, 10, t, 7, 5000)) :
    ∃ p, (run 100 (exStart 7 7) (exHist 100 x y)).pool = some p ∧ p.precA = 7 ∧ p.precB = 7 ∧ p.resA = x ∧ p.resB = y ∧
      p.amp.nextAmp = 10000 ∧ p.cfg.tokenA = 10 ∧ p.cfg.tokenB = 11 ∧ p.amp.nextTime = 10 ∧ p.total = t ∧ p.maxPrec = 7 ∧ p.cfg.maxSpreadBps = 5000 := by
  cases hp : (run 100 (exStart 7 7) (exHist 100 x y)).pool with
  | none => rw [hp] at h; simp at h
  | some p =>
    rw [hp] at h h'
    simp only [Option.map_some, Option.some.injEq, Prod.mk.injEq] at h h'
    obtain ⟨h1, h2, h3, h4, h5⟩ := h
    exact ⟨p, rfl, h1, h2, h3, h4, h5, h'⟩

/-- the hypotheses of `C108_swap_available` hold for the sale of 0.1 token in a 2 : 2 pool for at least 0.0999 -/
example : ∃ p, (run 100 (exStart 7 7) (exHist 100 20000000 20000000)).pool = some p ∧ Ordinary p ∧ p.amp.nextTime ≤ (by' 2).now ∧
    IsPoolToken p 10 ∧ ((p.resA + p.resB) * unitOf p.precA) ^ 3 * 10 ^ 20 < 2 ^ 256 ∧
    2 * 10 ^ 12 + 2 ≤ (reserve p (other p 10) - 999000 + 1) * unitOf p.precA ∧
    Above p.amp.nextAmp ((p.resA + p.resB) * unitOf p.precA) ((reserve p 10 + 1000000) * unitOf p.precA)
      ((reserve p (other p 10) - 999000 + 1) * unitOf p.precA - 10 ^ 12 - 2) ∧
    (1000000 - 999000 : Int) * 10000 ≤ 999000 * p.cfg.maxSpreadBps := by
  obtain ⟨p, hp, e1, e2, e3, e4, e5, e6, e7, e8, -, -, e9⟩ := exPool_is (x := 20000000) (y := 20000000) (t := 39999000) (by decide +kernel) (by decide +kernel)
  refine ⟨p, hp, ⟨by omega, by omega, by omega, by omega, ?_, ?_⟩, ?_, ?_, ?_, ?_, ?_, ?_⟩
  · rw [e1, e3, e4]; decide
  · rw [e1, e3, e4, e5]; decide
  · rw [e8]; decide
  · exact .inl e6.symm
  · rw [e1, e3, e4]; decide
  · simp only [reserve, other, e6, e7, e1, e3, e4]; decide
  · simp only [reserve, other, e6, e7, e1, e3, e4, e5, Above, curve]; decide
  · rw [e9]; decide

/-- **C108** A trap: a first deposit of 6 : 6 tokens is accepted by a pool with `A = 100` - and from then on not a single swap goes
through, in either direction, for any amount. -/
theorem C108_accepted_but_unswappable : ∃ p, (run 100 (exStart 7 7) (exHist 100 60000000 60000000)).pool = some p ∧
    (p.resA, p.resB) = (60000000, 60000000) ∧
    ∀ c sender offer amount mo ms dl mf r, c.auth 100 = false →
      swap 100 c p (run 100 (exStart 7 7) (exHist 100 60000000 60000000)).led sender offer amount mo ms dl mf ≠ .ok r := by
  obtain ⟨p, hp, e1, e2, e3, e4, e5, e6, e7, e8, -, -, e9⟩ := exPool_is (x := 60000000) (y := 60000000) (t := 119999000) (by decide +kernel) (by decide +kernel)
  refine ⟨p, hp, by rw [e3, e4], (C108_large_pool_refuses (exStart_genesis 7 7) ?_ hp ⟨by omega, by omega, by omega, by omega, ?_, ?_⟩ ?_).2⟩
  · intro t ht
    simp only [exHist, List.mem_cons, List.not_mem_nil, or_false] at ht
    rcases ht with rfl | rfl <;> simp [Possible, Tx.ctx, Ctx.auth, by', exInit]
  · rw [e1, e3, e4]; decide
  · rw [e1, e3, e4, e5]; decide
  · rw [e1, e3, e4]; decide

/-- the hypotheses of `C108_deposit_works` hold for a second deposit of 0.3 : 0.1 token in a 2 : 2 pool -/
example : ∃ p, (run 100 (exStart 7 7) (exHist 100 20000000 20000000)).pool = some p ∧
    ∃ x y X Y : Int, x = p.resA * unitOf p.precA ∧ y = p.resB * unitOf p.precB ∧
      X = (p.resA + 3000000) * unitOf p.precA ∧ Y = (p.resB + 1000000) * unitOf p.precB ∧
      (X ≤ 1000 * Y ∧ Y ≤ 1000 * X) ∧ X + Y < (p.amp.nextAmp / 100 : Nat) * 2000000000000000000 - 1 ∧ 4 * X * Y < 2 ^ 128 ∧
      p.total ≠ 0 ∧ (0 < x ∧ 0 < y ∧ x ≤ 1000 * y ∧ y ≤ 1000 * x ∧ 1505 < x + y ∧ 1505 ≤ X + Y - (x + y)) ∧
      (X + Y - (x + y) + 1505) * 10 ^ 18 ≤ 10 ^ 38 ∧ p.total * ((X + Y - (x + y) + 1505) * 10 ^ 18) ≤ 10 ^ 38 * (x + y - 1505) := by
  obtain ⟨p, hp, e1, e2, e3, e4, e5, e6, e7, e8, e10, -, e9⟩ := exPool_is (x := 20000000) (y := 20000000) (t := 39999000) (by decide +kernel) (by decide +kernel)
  refine ⟨p, hp, _, _, _, _, rfl, rfl, rfl, rfl, ?_⟩
  rw [e1, e2, e3, e4, e5, e10]
  decide

end Phoenix.Props.Stable
