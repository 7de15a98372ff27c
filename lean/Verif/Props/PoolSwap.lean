import Verif.Lemmas.Pool
import Verif.Props.PoolMath
/-!
Property theorems about `swap` and its simulations, at the level of the contract
(reserves, tokens, signers): C01, C03, C04, C05, C06, C15, C18.
-/
namespace Phoenix.Props
open Phoenix Pool Spec

/-! A concrete pool used for the non-vacuity examples: tokens 10 and 11, share token
12, pool address 100, reserves one and two million, 30 bps fee to account 7. -/

/-- example configuration -/
def exCfg : Config :=
  { tokenA := 10, tokenB := 11, shareToken := 12, stakeContract := 13,
    totalFeeBps := 30, feeRecipient := 7, maxSlippageBps := 100, maxSpreadBps := 5000, maxReferralBps := 500 }
/-- example pool -/
def exPool : State :=
  { cfg := exCfg, admin := 8, total := 1414213, resA := 1000000, resB := 2000000,
    defaultSlippageBps := 100 }
/-- example ledger: the pool holds its reserves and 1000 shares, account 1 holds the
other shares and 50000 of both tokens -/
def exLed : Ledger := fun t =>
  { admin := if t = 12 then 100 else 9, decimals := 7,
    bal := fun a =>
      if t = 10 then (if a = 100 then 1000000 else if a = 1 then 50000 else 0)
      else if t = 11 then (if a = 100 then 2000000 else if a = 1 then 50000 else 0)
      else if t = 12 then (if a = 100 then 1000 else if a = 1 then 1413213 else 0)
      else 0,
    allow := fun _ _ => ⟨0, 0⟩ }
/-- account 1 signs -/
def exSign : Ctx := { now := 10, seq := 20, signed := fun a => a == 1 }

theorem exPool_distinct : DistinctTokens exPool := by unfold DistinctTokens exPool exCfg; decide

/-- a successful swap of 1000 units, net return 1994 -/
theorem exSwap : ∃ p' L', swap 100 exSign exPool exLed 1 10 1000 (some 1990) (some 5000) (some 10) (some 30)
    = .ok (p', L', 1994) := ⟨_, _, rfl⟩

/-- **C01** A successful swap moves exactly: `amount` of the offered token from the
sender to the pool, the returned `ret` of the other token from the pool to the
sender, and the commission from the pool to the fee recipient.  No other balance of
any token, no admin right and no allowance changes.  The reported reserves move by
exactly `amount` and `ret + commission`, the LP supply and the configuration not at
all; `commission` is the configured fraction of what leaves the reserve. -/
theorem C01_swap_exact {self : Addr} {c : Ctx} {p p' : State} {L L' : Ledger} {sender offer : Addr}
    {amount ret : Int} {mo ms : Option Int} {dl : Option Nat} {mf : Option Int}
    (h : swap self c p L sender offer amount mo ms dl mf = .ok (p', L', ret))
    (hself : c.auth self = false) (hne : p.cfg.tokenA ≠ p.cfg.tokenB) :
    ∃ commission : Int,
      commission = (ret + commission) * p.cfg.totalFeeBps / 10000 ∧ 0 ≤ commission ∧ 0 ≤ ret ∧
      IsPoolToken p offer ∧ c.auth sender = true ∧ amount ≤ L.bal offer sender ∧
      Settles L L' [⟨offer, sender, self, amount⟩, ⟨other p offer, self, sender, ret⟩,
        ⟨other p offer, self, p.cfg.feeRecipient, commission⟩] ∧
      SameRights L L' ∧
      reserve p' offer = reserve p offer + amount ∧
      reserve p' (other p offer) = reserve p (other p offer) - (ret + commission) ∧
      p'.total = p.total ∧ p'.cfg = p.cfg ∧ p'.admin = p.admin ∧
      p'.defaultSlippageBps = p.defaultSlippageBps := by
  obtain ⟨rate, lim, r, h1, h2, h3, h4, h5, h6, h7, h8, h9, rfl, h11, h12, h13, h14, h15, h16, h17, h18, h19, h20, h21⟩ :=
    swap_inv h hself hne
  have hc := C20_commission h7 h9
  have hq := quote_core h9
  exact ⟨r.commission, hc.1, hq.2.2.2.2.2.1, hq.2.2.2.2.1, h5, h3, h13, h14, h15, h20, h21, h18, h16, h17, h19⟩

example := exSwap

/-- The spread limit that applies to a swap (helper). -/
theorem swapLimits_inv {p : State} {ms mf : Option Int} {lim : Int} (h : swapLimits p ms mf = .ok lim) :
    (∀ f, mf = some f → p.cfg.totalFeeBps ≤ f) ∧
    (∀ s, ms = some s → 0 ≤ s ∧ s ≤ p.cfg.maxSpreadBps) ∧
    lim = (ms.getD p.cfg.maxSpreadBps) * 100000000000000 ∧
    (p.cfg.maxSpreadBps ≤ 10000 → lim ≤ Dec.ONE) := by
  unfold swapLimits at h
  simp only [bind_ok, whenSome_ok, req_ok, Dec.bps_ok] at h
  obtain ⟨_, hf, _, hs, -, hlim⟩ := h
  refine ⟨hf, hs, hlim.symm, fun hm => ?_⟩
  have : ms.getD p.cfg.maxSpreadBps ≤ 10000 := by
    cases ms with
    | none => exact hm
    | some v => have := hs v rfl; simp; omega
  unfold Dec.ONE; omega

/-- Reserves are `i128` values and the pool's spread limit is at most 100%
(`C17_config_in_range` proves the latter for every reachable state). -/
def PoolTyped (p : State) : Prop :=
  p.resA ≤ I128_MAX ∧ p.resB ≤ I128_MAX ∧ p.cfg.maxSpreadBps ≤ 10000

theorem reserve_le {p : State} (h : PoolTyped p) (t : Addr) : reserve p t ≤ I128_MAX := by
  unfold reserve; split
  · exact h.1
  · split
    · exact h.2.1
    · exact I128_MAX_nonneg

/-- **C05** If `swap` succeeds, `simulate_swap` on the same state and arguments
succeeds as well; its ask amount is what `swap` returns, and its commission is what
the swap sends to the fee recipient. -/
theorem C05_simulation_exact {self : Addr} {c : Ctx} {p p' : State} {L L' : Ledger} {sender offer : Addr}
    {amount ret : Int} {mo ms : Option Int} {dl : Option Nat} {mf : Option Int}
    (h : swap self c p L sender offer amount mo ms dl mf = .ok (p', L', ret))
    (hself : c.auth self = false) (hne : p.cfg.tokenA ≠ p.cfg.tokenB) (hty : PoolTyped p) :
    ∃ commission spread,
      simulateSwap p offer amount = .ok (ret, commission, spread, ret + commission + spread) ∧
      Settles L L' [⟨offer, sender, self, amount⟩, ⟨other p offer, self, sender, ret⟩,
        ⟨other p offer, self, p.cfg.feeRecipient, commission⟩] ∧
      reserve p' (other p offer) = reserve p (other p offer) - (ret + commission) := by
  obtain ⟨rate, lim, r, h1, h2, h3, h4, h5, h6, h7, h8, h9, rfl, h11, h12, h13, h14, h15, h16, h17, h18, h19, h20, h21⟩ :=
    swap_inv h hself hne
  refine ⟨r.commission, r.spread, ?_, h14, h21⟩
  have hlim := (swapLimits_inv h4).2.2.2 hty.2.2
  have hhalf := (C18_half_remains h9 hlim h12).1
  obtain ⟨hx, hy, ha, hr, hr0, hc0, hs0, q1, q2, i1, i2, c1, c2, g0, gy⟩ := quote_core h9
  have hyle := reserve_le hty (other p offer)
  have hsp : r.spread ≤ 170141183460469231732 := by
    unfold assertMaxSpread at h12
    simp only [bind_ok, Dec.fromRatio_ok] at h12
    obtain ⟨_, ⟨-, ⟨-, hb⟩, -⟩, -⟩ := h12
    unfold Dec.ONE I128_MAX at hb
    omega
  have e : grossOf r = r.ret + r.commission := rfl
  unfold simulateSwap
  simp only [bind_ok, h8, h7, addI_ok, ok_inj, Prod.mk.injEq]
  unfold Dec.ONE at hhalf
  unfold InI128 I128_MIN I128_MAX at *
  refine ⟨_, rfl, _, rfl, r, h9, _, ⟨?_, rfl⟩, _, ⟨?_, rfl⟩, rfl, rfl, rfl, rfl⟩
  all_goals constructor <;> omega

example : simulateSwap exPool 10 1000 = .ok (1994, 5, 1, 2000) := rfl
example : PoolTyped exPool := by unfold PoolTyped; decide

/-- **C04** A successful swap respects every protection: deadline, minimum return,
fee cap, and the spread limit (the trader's if given, which must lie within the
pool's, otherwise the pool's), where spread and return are what `simulate_swap`
reports. -/
theorem C04_protections {self : Addr} {c : Ctx} {p p' : State} {L L' : Ledger} {sender offer : Addr}
    {amount ret : Int} {mo ms : Option Int} {dl : Option Nat} {mf : Option Int}
    (h : swap self c p L sender offer amount mo ms dl mf = .ok (p', L', ret))
    (hself : c.auth self = false) (hne : p.cfg.tokenA ≠ p.cfg.tokenB) (hty : PoolTyped p) :
    (∀ d, dl = some d → c.now ≤ d) ∧ 0 < amount ∧
    (∀ m, mo = some m → m ≤ ret) ∧
    (∀ f, mf = some f → p.cfg.totalFeeBps ≤ f) ∧
    (∀ s, ms = some s → 0 ≤ s ∧ s ≤ p.cfg.maxSpreadBps) ∧
    ∃ commission spread tot, simulateSwap p offer amount = .ok (ret, commission, spread, tot) ∧
      0 < ret + commission ∧
      spread * 10^18 / (ret + commission) ≤ (ms.getD p.cfg.maxSpreadBps) * 10^14 := by
  obtain ⟨com, sp, hsim, -⟩ := C05_simulation_exact h hself hne hty
  obtain ⟨rate, lim, r, h1, h2, h3, h4, h5, h6, h7, h8, h9, rfl, h11, h12, h13, h14, h15, h16, h17, h18, h19, h20, h21⟩ :=
    swap_inv h hself hne
  obtain ⟨hf, hs, hlim, -⟩ := swapLimits_inv h4
  have hq := quote_core h9
  unfold assertMaxSpread at h12
  simp only [bind_ok, Dec.fromRatio_ok, req_ok] at h12
  obtain ⟨q, ⟨hnz, -, -, rfl⟩, hle⟩ := h12
  have hpos : 0 < r.ret + r.commission := by
    have := hq.2.2.2.2.1; have := hq.2.2.2.2.2.1; omega
  rw [tdiv_nonneg_eq (by have := hq.2.2.2.2.2.2.1; unfold Dec.ONE; positivity)] at hle
  have hcs : com = r.commission ∧ sp = r.spread := by
    unfold simulateSwap at hsim
    simp only [bind_ok, h8, h7, ok_inj] at hsim
    obtain ⟨_, rfl, _, rfl, r', h9', _, -, _, -, he⟩ := hsim
    rw [h9] at h9'; cases h9'
    simp only [Prod.mk.injEq] at he
    exact ⟨he.2.1.symm, he.2.2.1.symm⟩
  obtain ⟨rfl, rfl⟩ := hcs
  refine ⟨h1, h2, h11, hf, hs, r.commission, r.spread, _, hsim, hpos, ?_⟩
  rw [hlim] at hle
  exact hle

/-- The limits of `exSwap` are all in force: one unit beyond any of them and the
swap fails. -/
example : swap 100 exSign exPool exLed 1 10 1000 (some 1995) (some 5000) (some 10) (some 30) = .error (.code 21) ∧
    swap 100 exSign exPool exLed 1 10 1000 (some 1990) (some 5001) (some 10) (some 30) = .error (.code 19) ∧
    swap 100 exSign exPool exLed 1 10 1000 (some 1990) (some 4) (some 10) (some 30) = .error (.code 1) ∧
    swap 100 exSign exPool exLed 1 10 1000 (some 1990) (some 5000) (some 9) (some 30) = .error (.code 22) ∧
    swap 100 exSign exPool exLed 1 10 1000 (some 1990) (some 5000) (some 10) (some 29) = .error (.code 24) :=
  ⟨rfl, rfl, rfl, rfl, rfl⟩

/-- **C03** (contract level) Across a successful swap the product of the two reported
reserves does not grow and drops by less than the new reserve of the offered token. -/
theorem C03_swap_product {self : Addr} {c : Ctx} {p p' : State} {L L' : Ledger} {sender offer : Addr}
    {amount ret : Int} {mo ms : Option Int} {dl : Option Nat} {mf : Option Int}
    (h : swap self c p L sender offer amount mo ms dl mf = .ok (p', L', ret))
    (hself : c.auth self = false) (hne : p.cfg.tokenA ≠ p.cfg.tokenB) :
    p'.resA * p'.resB ≤ p.resA * p.resB ∧
    p.resA * p.resB - p'.resA * p'.resB < reserve p' offer := by
  obtain ⟨rate, lim, r, h1, h2, h3, h4, h5, h6, h7, h8, h9, rfl, h11, h12, h13, h14, h15, h16, h17, h18, h19, h20, h21⟩ :=
    swap_inv h hself hne
  have hp := C03_product_bounds h9
  have prod : ∀ q : State, q.cfg = p.cfg → q.resA * q.resB = reserve q offer * reserve q (other p offer) := by
    intro q hq
    rcases h5 with rfl | rfl
    · simp [reserve, other, hq, Ne.symm hne]
    · simp [reserve, other, hq, Ne.symm hne]; ring
  rw [prod p' h16, prod p rfl, h20, h21]
  exact hp

/-- **C18** (contract level) One swap leaves at least half of the ask reserve, up to two
units and a relative error of 10^-18; a reserve of at least 6 is never emptied. -/
theorem C18_swap_leaves_half {self : Addr} {c : Ctx} {p p' : State} {L L' : Ledger} {sender offer : Addr}
    {amount ret : Int} {mo ms : Option Int} {dl : Option Nat} {mf : Option Int}
    (h : swap self c p L sender offer amount mo ms dl mf = .ok (p', L', ret))
    (hself : c.auth self = false) (hne : p.cfg.tokenA ≠ p.cfg.tokenB) (hms : p.cfg.maxSpreadBps ≤ 10000) :
    reserve p (other p offer) ≤ 2 * reserve p' (other p offer) + 4 + reserve p (other p offer) / 10^18 ∧
    (6 ≤ reserve p (other p offer) → 0 < reserve p' (other p offer)) := by
  obtain ⟨rate, lim, r, h1, h2, h3, h4, h5, h6, h7, h8, h9, rfl, h11, h12, h13, h14, h15, h16, h17, h18, h19, h20, h21⟩ :=
    swap_inv h hself hne
  have hlim := (swapLimits_inv h4).2.2.2 hms
  rw [h21]
  exact ⟨(C18_half_remains h9 hlim h12).1, C18_not_drained h9 hlim h12⟩

/-- **C15** (contract level) Swap `amount` of a token and swap the whole return back,
the second call acting on the state the first one left: the second return
exceeds `amount` by less than `1 + (reserve + amount)/other reserve`; it does not exceed
it at all if the first commission is large enough to cover the rounding. -/
theorem C15_swap_round_trip {self : Addr} {c1 c2 : Ctx} {p p1 p2 : State} {L L1 L2 : Ledger} {s1 s2 offer : Addr}
    {amount ret back : Int} {mo1 ms1 mo2 ms2 : Option Int} {dl1 dl2 : Option Nat} {mf1 mf2 : Option Int}
    (h1 : swap self c1 p L s1 offer amount mo1 ms1 dl1 mf1 = .ok (p1, L1, ret))
    (h2 : swap self c2 p1 L1 s2 (other p offer) ret mo2 ms2 dl2 mf2 = .ok (p2, L2, back))
    (hc1 : c1.auth self = false) (hc2 : c2.auth self = false) (hne : p.cfg.tokenA ≠ p.cfg.tokenB) :
    reserve p (other p offer) * (back - amount - 1) < reserve p offer + amount ∧
    (reserve p offer + amount - 1 ≤ (reserve p (other p offer) - reserve p1 (other p offer) - ret) * reserve p offer →
      back ≤ amount) := by
  obtain ⟨rate, lim, r, -, -, -, -, hpt, hoth, -, -, h9, rfl, -, -, -, -, -, h16, -, -, -, h20, h21⟩ := swap_inv h1 hc1 hne
  obtain ⟨rate', lim', r', -, -, -, -, hpt', hoth', -, -, h9', rfl, -⟩ := swap_inv h2 hc2 (by rw [h16]; exact hne)
  have e : other p1 (other p offer) = offer := by
    unfold other; rw [h16]
    rcases hpt with rfl | rfl
    · simp [Ne.symm hne]
    · simp [Ne.symm hne]
  rw [e, h20, h21] at h9'
  have := C15_round_trip h9 h9'
  refine ⟨this.1, fun hc => this.2 ?_⟩
  rw [h21] at hc
  have e2 : reserve p (other p offer) - (reserve p (other p offer) - (r.ret + r.commission)) - r.ret = r.commission := by ring
  rw [e2] at hc; exact hc

/-- a round trip on the example pool: 1000 of token 10 come back as 996 -/
example : ∃ p1 L1 p2 L2, swap 100 exSign exPool exLed 1 10 1000 none none none none = .ok (p1, L1, 1994) ∧
    swap 100 exSign p1 L1 1 (other exPool 10) 1994 none none none none = .ok (p2, L2, 996) ∧
    reserve exPool 10 + 1000 - 1 ≤ (reserve exPool (other exPool 10) - reserve p1 (other exPool 10) - 1994) * reserve exPool 10 :=
  ⟨_, _, _, _, rfl, rfl, by decide +kernel⟩

/-- **C06** (contract level) Let `q` be the (non-negative) offer amount quoted by
`simulate_reverse_swap` for `ask` units of `tok`.  Then `simulate_swap` of `q` units of
the other token never promises more than `ask`, and `simulate_swap` of `q+1` units
promises at least `ask - floor(ask/10^18)`. -/
theorem C06_reverse_then_swap {p : State} {tok : Addr} {ask q sp com : Int}
    (hne : p.cfg.tokenA ≠ p.cfg.tokenB) (hA : 0 ≤ p.resA) (hB : 0 ≤ p.resB)
    (hfee : 0 ≤ p.cfg.totalFeeBps ∧ p.cfg.totalFeeBps ≤ 10000) (hask : 0 ≤ ask)
    (h : simulateReverseSwap p tok ask = .ok (q, sp, com)) (hq : 0 ≤ q) :
    (∀ ret c s t, simulateSwap p (other p tok) q = .ok (ret, c, s, t) → ret ≤ ask) ∧
    (∀ ret c s t, simulateSwap p (other p tok) (q + 1) = .ok (ret, c, s, t) → ask ≤ ret + ask / 10^18) := by
  unfold simulateReverseSwap reverseSides at h
  simp only [bind_ok, Dec.bps_ok] at h
  obtain ⟨⟨x, y⟩, hxy, rate, ⟨-, rfl⟩, hof⟩ := h
  have hD : p.cfg.totalFeeBps * 100000000000000 ≤ Dec.ONE := by unfold Dec.ONE; omega
  have hs : sides p (other p tok) = .ok (x, y) ∧ 0 ≤ x ∧ 0 ≤ y := by
    split at hxy
    · rename_i e
      rw [ok_inj, Prod.mk.injEq] at hxy
      refine ⟨?_, by omega, by omega⟩
      unfold other sides; rw [e]; simp [Ne.symm hne, hxy]
    · split at hxy
      · rename_i e
        rw [ok_inj, Prod.mk.injEq] at hxy
        refine ⟨?_, by omega, by omega⟩
        unfold other sides; rw [e]; simp [Ne.symm hne, hxy]
      · simp at hxy
  have key := C06_reverse_quote hs.2.1 hs.2.2 hask (by omega) hD hof hq
  constructor
  · intro ret c s t hsim
    unfold simulateSwap at hsim
    simp only [bind_ok, hs.1, Dec.bps_ok, ok_inj] at hsim
    obtain ⟨_, rfl, _, ⟨-, rfl⟩, r, hr, _, -, _, -, he⟩ := hsim
    simp only [Prod.mk.injEq] at he
    rw [← he.1]; exact key.1 r hr
  · intro ret c s t hsim
    unfold simulateSwap at hsim
    simp only [bind_ok, hs.1, Dec.bps_ok, ok_inj] at hsim
    obtain ⟨_, rfl, _, ⟨-, rfl⟩, r, hr, _, -, _, -, he⟩ := hsim
    simp only [Prod.mk.injEq] at he
    rw [← he.1]; exact key.2 r hr

/-- the expectation "the quoted amount is enough" is false: asking 1999 quotes 1003,
which returns only 1998 -/
theorem C06_quote_not_enough : ∃ q sp com ret c s t, simulateReverseSwap exPool 11 1999 = .ok (q, sp, com) ∧
    0 ≤ q ∧ simulateSwap exPool 10 q = .ok (ret, c, s, t) ∧ ret < 1999 :=
  ⟨1003, 1, 6, 1998, 6, 2, 2006, rfl, by decide, rfl, by decide⟩

/-- The hypotheses of C06 are met: the quote for 1994 units of token 11, and what selling that amount or one unit more brings. -/
example : (∃ sp com, simulateReverseSwap exPool 11 1994 = .ok (1000, sp, com)) ∧
    simulateSwap exPool 10 1000 = .ok (1994, 5, 1, 2000) ∧ simulateSwap exPool 10 1001 = .ok (1994, 6, 2, 2002) :=
  ⟨⟨_, _, rfl⟩, rfl, rfl⟩

end Phoenix.Props
