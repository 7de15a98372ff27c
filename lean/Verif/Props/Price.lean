import Verif.Props.PoolSwap
/-!
C147: how far one swap can move the price of a constant product pool.  The price of the bought token is the reserve of the
sold token divided by the reserve of the bought one.
-/
namespace Phoenix.Props.Price
open Phoenix Pool Spec

variable {self : Addr} {c : Ctx} {p p' : State} {L L' : Ledger} {sender offer : Addr}
  {amount ret : Int} {mo ms : Option Int} {dl : Option Nat} {mf : Option Int}

/-- **C147** With a spread limit of `s` basis points (the trader's, or the pool's if the trader gives none), a swap that goes through
makes the reserve of the sold token grow by a fraction of at most about `s/10000`: with `g` the units that leave the other reserve,
the fraction is below `(s/10000 * g + 2) / (g - 1)`, up to `10^-18`. -/
theorem C147_sold_at_most
    (h : swap self c p L sender offer amount mo ms dl mf = .ok (p', L', ret))
    (hself : c.auth self = false) (hne : p.cfg.tokenA ≠ p.cfg.tokenB)
    {g : Int} (hg : g = reserve p (other p offer) - reserve p' (other p offer)) :
    (g - 1) * (reserve p' offer - reserve p offer) * 10^18 <
      reserve p offer * (g * (ms.getD p.cfg.maxSpreadBps * 10^14 + 1) + 2 * 10^18) := by
  obtain ⟨rate, lim, r, h1, h2, h3, h4, h5, h6, h7, h8, h9, rfl, h11, h12, h13, h14, h15, h16, h17, h18, h19, h20, h21⟩ :=
    swap_inv h hself hne
  obtain ⟨hf, hs, hlim, -⟩ := swapLimits_inv h4
  obtain ⟨hx, hy, ha, hr, hr0, hc0, hs0, q1, q2, i1, i2, c1, c2, g0, gy⟩ := quote_core h9
  have hgr : g = grossOf r := by rw [hg, h21]; unfold grossOf; ring
  unfold assertMaxSpread at h12
  simp only [bind_ok, Dec.fromRatio_ok, req_ok] at h12
  obtain ⟨q, ⟨hnz, -, -, rfl⟩, hle⟩ := h12
  rw [tdiv_nonneg_eq (by unfold Dec.ONE; positivity), hlim] at hle
  have e : r.ret + r.commission = g := by rw [hgr]; rfl
  rw [← hgr] at q1 q2 i1 i2
  rw [h20]
  set R := reserve p offer
  set S := reserve p (other p offer)
  set l := ms.getD p.cfg.maxSpreadBps
  have hgp : 0 < r.ret + r.commission := by omega
  have hk := (ediv_bounds (a := r.spread * Dec.ONE) (b := r.ret + r.commission) hgp).2
  rw [e] at hk hle hgp
  unfold Dec.ONE at hk hle
  have k1 : r.spread * 1000000000000000000 < (l * 100000000000000 + 1) * g := by nlinarith
  have e2 : R + amount - R = amount := by ring
  rw [e2]
  have k2 : (g - 1) * (R + amount) < S * amount := by nlinarith
  have k3 : amount * S < R * (g + r.spread + 1) := by nlinarith
  have k4 : (g - 1) * (R + amount) < R * (g + r.spread + 1) := by linarith
  have k5 : (g - 1) * amount < R * (r.spread + 2) := by nlinarith
  nlinarith

/-- **C147** In readable numbers: once at least a million units leave the reserve, the reserve of the sold token grows by at most
`s/10000 + 0.000004` of itself, the other reserve keeps the reciprocal of that, and so the price of the bought token rises at most
by the square. -/
theorem C147_price_moves_at_most
    (h : swap self c p L sender offer amount mo ms dl mf = .ok (p', L', ret))
    (hself : c.auth self = false) (hne : p.cfg.tokenA ≠ p.cfg.tokenB) (hms : p.cfg.maxSpreadBps ≤ 10000)
    (big : 10^6 ≤ reserve p (other p offer) - reserve p' (other p offer))
    {k : Int} (hk : k = 10^6 + 100 * ms.getD p.cfg.maxSpreadBps + 4) :
    10^6 * reserve p' offer ≤ k * reserve p offer ∧
    10^6 * reserve p (other p offer) ≤ k * (reserve p' (other p offer) + 1) ∧
    10^12 * (reserve p' offer * reserve p (other p offer)) ≤
      k^2 * (reserve p offer * (reserve p' (other p offer) + 1)) := by
  have b := C147_sold_at_most h hself hne rfl
  obtain ⟨rate, lim, r, h1, h2, h3, h4, h5, h6, h7, h8, h9, rfl, h11, h12, h13, h14, h15, h16, h17, h18, h19, h20, h21⟩ :=
    swap_inv h hself hne
  obtain ⟨hf, hs, hlim, -⟩ := swapLimits_inv h4
  obtain ⟨hx, hy, ha, hr, hr0, hc0, hs0, q1, q2, i1, i2, c1, c2, g0, gy⟩ := quote_core h9
  have hl0 : 0 ≤ ms.getD p.cfg.maxSpreadBps := by
    by_contra hneg
    unfold assertMaxSpread at h12
    simp only [bind_ok, Dec.fromRatio_ok, req_ok] at h12
    obtain ⟨q, ⟨hnz, -, -, rfl⟩, hle⟩ := h12
    rw [tdiv_nonneg_eq (by unfold Dec.ONE; positivity), hlim] at hle
    have : 0 ≤ r.spread * Dec.ONE / (r.ret + r.commission) := Int.ediv_nonneg (by unfold Dec.ONE; positivity) (by omega)
    omega
  have hl1 : ms.getD p.cfg.maxSpreadBps ≤ 10000 := by
    cases ms with
    | none => simpa using hms
    | some v => have := (hs v rfl).2; simp only [Option.getD_some]; omega
  have q2' : reserve p offer * reserve p (other p offer) < (reserve p' offer) * (reserve p' (other p offer) + 1) := by
    rw [h20, h21]; unfold grossOf at q2; nlinarith
  have hR' : reserve p offer ≤ reserve p' offer := by rw [h20]; omega
  have hS' : 0 ≤ reserve p' (other p offer) := by rw [h21]; unfold grossOf at gy; omega
  generalize ms.getD p.cfg.maxSpreadBps = l at *
  generalize reserve p offer = R at *
  generalize reserve p (other p offer) = S at *
  generalize reserve p' offer = R' at *
  generalize reserve p' (other p offer) = S' at *
  obtain ⟨g, hg⟩ : ∃ g, g = S - S' := ⟨_, rfl⟩
  rw [← hg] at b big
  have first : 10^6 * R' ≤ k * R := by
    by_contra hn
    have hn : k * R < 10^6 * R' := not_le.mp hn
    have n1 : (100 * l + 4) * R < 10^6 * (R' - R) := by rw [hk] at hn; linarith
    have n2 : (g - 1) * ((100 * l + 4) * R) < (g - 1) * (10^6 * (R' - R)) := by
      apply mul_lt_mul_of_pos_left n1; linarith
    have n3 : (g - 1) * ((100 * l + 4) * R) * 10^12 < R * (g * (l * 10^14 + 1) + 2 * 10^18) := by nlinarith
    have n4 : (g - 1) * (100 * l + 4) * 10^12 < g * (l * 10^14 + 1) + 2 * 10^18 := by
      by_contra hc
      have := mul_le_mul_of_nonneg_left (not_lt.mp hc) hx.le
      nlinarith
    nlinarith
  have hRk : 0 < R' := by omega
  have second : 10^6 * S ≤ k * (S' + 1) := by
    have m1 : 10^6 * R' * (S' + 1) ≤ k * R * (S' + 1) := mul_le_mul_of_nonneg_right first (by omega)
    have m2 : 10^6 * (R * S) < 10^6 * (R' * (S' + 1)) := by linarith
    have m3 : R * (10^6 * S) ≤ R * (k * (S' + 1)) := by nlinarith
    exact le_of_mul_le_mul_left m3 hx
  refine ⟨first, second, ?_⟩
  have := mul_le_mul first second (by positivity) (by rw [hk]; positivity)
  nlinarith

/-- a swap of half a million units with a limit of 50%: 666667 units leave the reserve -/
theorem exHalf : ∃ p' L', swap 100 exSign exPool (fun t => { exLed t with bal := upd (exLed t).bal 1 500000 }) 1 10 500000 none none none none
    = .ok (p', L', 664667) ∧ reserve p' 10 = 1500000 ∧ reserve p' 11 = 1333333 := ⟨_, _, rfl, rfl, rfl⟩

/-- a pool a hundred times as large, of which more than a million units are bought -/
def exBig : State := { exPool with resA := 100000000, resB := 200000000 }

/-- the tokens of that pool -/
def exBigLed : Ledger := fun t => { exLed t with bal := upd (upd (exLed t).bal 1 1000000) 100 200000000 }

/-- one per cent of the reserve is sold with a limit of one per cent -/
theorem exOne : ∃ p' L', swap 100 exSign exBig exBigLed 1 10 1000000 none (some 100) none none = .ok (p', L', 1974259) ∧
    reserve p' 10 = 101000000 ∧ reserve p' 11 = 198019801 := ⟨_, _, rfl, rfl, rfl⟩

example : ∃ p' L', swap 100 exSign exBig exBigLed 1 10 1000000 none (some 100) none none = .ok (p', L', 1974259) ∧
    exSign.auth 100 = false ∧ exBig.cfg.tokenA ≠ exBig.cfg.tokenB ∧ exBig.cfg.maxSpreadBps ≤ 10000 ∧
    10^6 ≤ reserve exBig (other exBig 10) - reserve p' (other exBig 10) := by
  obtain ⟨p', L', h, -, e⟩ := exOne
  refine ⟨p', L', h, by decide, by decide, by decide, ?_⟩
  have e1 : other exBig 10 = 11 := rfl
  have e2 : reserve exBig 11 = 200000000 := rfl
  rw [e1, e, e2]; decide

/-- The bound is met to the unit that rounding allows: one more unit of the reserve per thousand and the swap fails. -/
example : swap 100 exSign exBig (fun t => { exBigLed t with bal := upd (exBigLed t).bal 1 1001000 }) 1 10 1001000 none (some 100) none none =
    .error (.code 1) := rfl

/-- **C147** The limit is one per swap, not one per trader or per ledger: what one swap may not do, two swaps in the same ledger
may.  Selling 20000 units with a limit of 1% fails; selling 10000 twice with the same limit goes through. -/
theorem C147_limit_is_per_swap : ∃ (self : Addr) (c : Ctx) (p p1 p2 : State) (L L1 L2 : Ledger) (sender offer : Addr) (r1 r2 : Int),
    c.auth self = false ∧ p.cfg.tokenA ≠ p.cfg.tokenB ∧
    swap self c p L sender offer 20000 none (some 100) none none = .error (.code 1) ∧
    swap self c p L sender offer 10000 none (some 100) none none = .ok (p1, L1, r1) ∧
    swap self c p1 L1 sender offer 10000 none (some 100) none none = .ok (p2, L2, r2) ∧
    reserve p2 offer = reserve p offer + 20000 :=
  ⟨100, exSign, exPool, _, _, exLed, _, _, 1, 10, _, _, by decide, by decide, rfl, rfl, rfl, rfl⟩

end Phoenix.Props.Price
