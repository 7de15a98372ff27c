import Verif.Lemmas.Payout
import Verif.Props.PoolSys
/-!
Property C95: which swaps of the constant product pool go through.
-/
namespace Phoenix.Props.Avail
open Phoenix Phoenix.Pool Phoenix.Spec

/-- Some whole number of units lies between what the pool pays out before the fee when price
impact is counted, `a*y/(x+a)`, and what it would pay at the current price, `a*y/x`. -/
def Payable (x y a : Int) : Prop := ∃ n : Int, a * y ≤ n * (x + a) ∧ n * x ≤ a * y

/-- the amount the pool takes out of its reserve: `a*y/(x+a)` rounded up -/
theorem gross_up {x y a : Int} (hx : 0 < x) (ha : 0 ≤ a) :
    a * y ≤ (y - x * y / (x + a)) * (x + a) ∧ ∀ n : Int, a * y ≤ n * (x + a) → y - x * y / (x + a) ≤ n := by
  have h := ediv_bounds (a := x * y) (b := x + a) (by omega)
  generalize x * y / (x + a) = q at h ⊢
  refine ⟨by nlinarith, fun n hn => ?_⟩
  by_contra hlt
  have : n + q + 1 ≤ y := by omega
  have : (n + q + 1) * (x + a) ≤ y * (x + a) := mul_le_mul_of_nonneg_right this (by omega)
  nlinarith

theorem payable_iff {x y a : Int} (hx : 0 < x) (ha : 0 ≤ a) :
    Payable x y a ↔ y - x * y / (x + a) ≤ a * y / x := by
  obtain ⟨h1, h2⟩ := gross_up (y := y) hx ha
  constructor
  · rintro ⟨n, k1, k2⟩
    exact (h2 n k1).trans ((Int.le_ediv_iff_mul_le hx).mpr k2)
  · intro h
    exact ⟨a * y / x, h1.trans (mul_le_mul_of_nonneg_right h (by omega)), Int.ediv_mul_le _ (by omega)⟩

theorem computeSwap_iff {x y a rate : Int} (hx : 0 < x) (hy : 0 ≤ y) (ha : 0 ≤ a) (bx : x ≤ I128_MAX) (by' : y ≤ I128_MAX)
    (ba : a ≤ I128_MAX) (hr : 0 ≤ rate) (hr1 : rate ≤ Dec.ONE) :
    (∃ r, computeSwap x y a rate 0 = .ok r) ↔
      y - x * y / (x + a) ≤ a * y / x ∧ a * y / x - (y - x * y / (x + a)) ≤ I128_MAX := by
  constructor
  · rintro ⟨r, h⟩
    obtain ⟨-, -, -, -, -, -, h1, h2, -, -, -, -, -, -, h3⟩ := computeSwap_inv h
    omega
  · rintro ⟨h1, h2⟩
    lift x to Nat using hx.le with X
    lift y to Nat using hy with Y
    lift a to Nat using ha with A
    lift rate to Nat using hr with R
    have hX : 0 < X := by omega
    have mM : I128_MAX = 170141183460469231731687303715884105727 := by decide
    have m1 : X ≤ 170141183460469231731687303715884105727 := by omega
    have m2 : Y ≤ 170141183460469231731687303715884105727 := by omega
    have m3 : A ≤ 170141183460469231731687303715884105727 := by omega
    have m4 : R ≤ 1000000000000000000 := by unfold Dec.ONE at hr1; omega
    have hq : X * Y / (X + A) ≤ Y := Nat.div_le_of_le_mul (Nat.mul_le_mul_right _ (by omega))
    have c1 : ((Y - X * Y / (X + A) : Nat) : Int) = (Y : Int) - X * Y / (X + A) := by push_cast [Nat.cast_sub hq]; ring
    have c2 : ((A * Y / X : Nat) : Int) = (A : Int) * Y / X := by push_cast; ring
    rw [← c1, ← c2] at h1 h2
    have p1 : X * Y < U256_LIM := lt_of_le_of_lt (Nat.mul_le_mul m1 m2) (by decide)
    have p2 : X + A < U256_LIM := lt_of_le_of_lt (Nat.add_le_add m1 m3) (by decide)
    have p3 : A * Y < U256_LIM := lt_of_le_of_lt (Nat.mul_le_mul m3 m2) (by decide)
    have hle : Y - X * Y / (X + A) ≤ A * Y / X := by exact_mod_cast h1
    have hgY : Y - X * Y / (X + A) ≤ Y := Nat.sub_le _ _
    have p4 : (Y - X * Y / (X + A)) * R < U256_LIM := lt_of_le_of_lt (Nat.mul_le_mul (hgY.trans m2) m4) (by decide)
    have p5 : (Y - X * Y / (X + A)) * R / 1000000000000000000 ≤ Y - X * Y / (X + A) :=
      Nat.div_le_of_le_mul (by rw [Nat.mul_comm]; exact Nat.mul_le_mul_right _ m4)
    unfold computeSwap
    simp only [bind_ok, toU128_ok, mul256_ok, add256_ok, divU_ok, subU_ok, Dec.bps_ok, u256ToI128_ok, ok_inj]
    refine ⟨_, X, rfl, Y, rfl, A, rfl, R, rfl, _, ⟨p1, rfl⟩, _, ⟨p2, rfl⟩, _, ⟨by omega, rfl⟩, _, ⟨hq, rfl⟩,
      _, ⟨p3, rfl⟩, _, ⟨by omega, rfl⟩, _, ⟨hle, rfl⟩, _, ⟨p4, rfl⟩, _, ⟨by omega, rfl⟩, _, ⟨p5, rfl⟩,
      0, ⟨by decide, by decide⟩, 0, by decide, _, ⟨by rw [Nat.mul_zero]; decide, rfl⟩, _, ⟨by decide, rfl⟩, _,
      ⟨by simp, rfl⟩, _, ⟨?_, rfl⟩, _, ⟨?_, rfl⟩, _, ⟨?_, rfl⟩, _, ⟨?_, rfl⟩, rfl⟩
    · simp only [Nat.mul_zero, Nat.zero_div, Nat.sub_zero]
      generalize (Y - X * Y / (X + A)) * R / 1000000000000000000 = k at *
      generalize Y - X * Y / (X + A) = g at *
      omega
    · rw [Nat.cast_sub hle]; exact h2
    · generalize (Y - X * Y / (X + A)) * R / 1000000000000000000 = k at *
      generalize Y - X * Y / (X + A) = g at *
      omega
    · simp only [Nat.mul_zero, Nat.zero_div]; decide

theorem sides_of {p : State} {o : Addr} (hne : p.cfg.tokenA ≠ p.cfg.tokenB) (h : IsPoolToken p o) :
    sides p o = .ok (reserve p o, reserve p (other p o)) := by
  unfold sides
  rcases h with rfl | rfl
  · simp [reserve, other, Ne.symm hne]
  · simp [reserve, other, Ne.symm hne]

theorem bps_works {b : Int} (h : 0 ≤ b ∧ b ≤ 10000) : Dec.bps b = .ok (b * 100000000000000) := by
  rw [Dec.bps_ok]
  refine ⟨?_, rfl⟩
  unfold InI128 I128_MIN I128_MAX
  omega

/-- **C95** In a pool with two reserves, for a token of the pool and a positive amount,
`simulate_swap` answers exactly when a whole number of units lies between what the pool pays with
and without price impact, and the value of the amount at the current price fits an `i128`. -/
theorem C95_quoted_iff {p : State} {offer : Addr} {amount : Int} (hne : p.cfg.tokenA ≠ p.cfg.tokenB) (hty : PoolTyped p)
    (hfee : 0 ≤ p.cfg.totalFeeBps ∧ p.cfg.totalFeeBps ≤ 10000) (ho : IsPoolToken p offer)
    (hx : 0 < reserve p offer) (hy : 0 < reserve p (other p offer)) (ha : 0 < amount) (ba : amount ≤ I128_MAX) :
    (∃ q, simulateSwap p offer amount = .ok q) ↔
      Payable (reserve p offer) (reserve p (other p offer)) amount ∧
        amount * reserve p (other p offer) / reserve p offer ≤ I128_MAX := by
  have kx := reserve_le hty offer
  have ky := reserve_le hty (other p offer)
  have hs := sides_of hne ho
  have hb := bps_works hfee
  generalize reserve p offer = x at *
  generalize reserve p (other p offer) = y at *
  rw [payable_iff hx ha.le]
  have hi := computeSwap_iff (rate := p.cfg.totalFeeBps * 100000000000000) hx hy.le ha.le kx ky ba (by omega)
    (by unfold Dec.ONE; omega)
  unfold simulateSwap
  simp only [bind_ok, hs, hb, ok_inj, addI_ok]
  constructor
  · rintro ⟨q, _, rfl, _, rfl, r, hr, _, ⟨-, rfl⟩, _, ⟨ht, rfl⟩, -⟩
    have hr : computeSwap x y amount (p.cfg.totalFeeBps * 100000000000000) 0 = .ok r := hr
    obtain ⟨-, -, -, -, -, -, h1, h2, h3, h4, -⟩ := computeSwap_inv hr
    refine ⟨by omega, ?_⟩
    have := ht.2
    omega
  · rintro ⟨h1, h2⟩
    have hg : 0 ≤ y - x * y / (x + amount) := by
      have : x * y / (x + amount) ≤ y := Int.ediv_le_of_le_mul (by omega) (by nlinarith)
      omega
    obtain ⟨r, hr⟩ := hi.mpr ⟨h1, by omega⟩
    obtain ⟨-, -, -, -, -, -, k1, k2, k3, k4, k5, k6, -⟩ := computeSwap_inv hr
    refine ⟨_, _, rfl, _, rfl, r, hr, _, ⟨?_, rfl⟩, _, ⟨?_, rfl⟩, rfl⟩
    · unfold InI128 I128_MIN; omega
    · unfold InI128 I128_MIN; omega

/-- **C95** A trade is payable when the amount is not too small for the pool: `x*(x+a) ≤ a²*y`,
that is, roughly, when its price impact is worth at least one unit of the asked token. -/
theorem C95_large_enough {x y a : Int} (hx : 0 < x) (ha : 0 ≤ a) (h : x * (x + a) ≤ a * a * y) : Payable x y a := by
  refine ⟨a * y / x, ?_, Int.ediv_mul_le _ (by omega)⟩
  have hb := ediv_bounds (a := a * y) (b := x) hx
  generalize a * y / x = n at hb ⊢
  have h1 : (a * y - x) * (x + a) ≤ x * n * (x + a) := mul_le_mul_of_nonneg_right (by linarith) (by omega)
  have h2 : (a * y) * x ≤ (n * (x + a)) * x := by nlinarith
  exact le_of_mul_le_mul_right h2 hx

/-- **C95** It is also payable, however small, when the amount is worth a whole number of units at the
current price - in particular always when the two reserves are equal. -/
theorem C95_even_price {x y a : Int} (hx : 0 < x) (hy : 0 ≤ y) (ha : 0 ≤ a) (h : x ∣ a * y) : Payable x y a := by
  obtain ⟨n, hn⟩ := h
  have hn0 : 0 ≤ n := by
    by_contra hc
    have : x * n < 0 := mul_neg_of_pos_of_neg hx (by omega)
    have : 0 ≤ a * y := by positivity
    omega
  refine ⟨n, ?_, by rw [hn]; nlinarith⟩
  rw [hn]
  nlinarith [mul_nonneg hn0 ha]

theorem send_works {c : Ctx} {L : Ledger} {t src d : Addr} {x : Int} (h1 : c.auth src = true) (h2 : 0 ≤ x)
    (h3 : x ≤ L.bal t src) (hs : L.bal t src ≤ I128_MAX) (h4 : 0 ≤ L.bal t d)
    (h5 : L.bal t d + x ≤ I128_MAX) : ∃ L', L.transfer c t src d x = .ok L' := by
  refine ⟨_, Ledger.call_ok.mpr ⟨_, Token.transfer_ok.mpr ⟨h1, h2, h3, ?_, ?_, rfl⟩, rfl⟩⟩
  · simp only [InI128, I128_MIN]; simp only [Ledger.bal] at *; omega
  · rw [upd_apply]
    simp only [InI128, I128_MIN]; simp only [Ledger.bal] at *
    split <;> omega

/-- **C95** What is needed for a swap to go through, in any reachable state: it is signed by a trader who
holds the amount, keeps its deadline and limits, `simulate_swap` answers, the announced return reaches the
minimum, and the amount is not too large for the spread limit.  (The last two conditions say that the
amounts fit the integers of the ledger and of the spread check.)  The trader gets what
`simulate_swap` announced. -/
theorem C95_swap_works {me : Addr} {s : Sys} (h0 : Genesis me s) {ts : List Tx}
    (ht : ∀ t ∈ ts, Possible me t) {p : State} (hp : (run me s ts).pool = some p)
    {c : Ctx} {sender offer : Addr} {amount : Int} {mo ms : Option Int} {dl : Option Nat} {mf : Option Int}
    {ret com spread total : Int} (hself : c.auth me = false) (hau : c.signed sender = true)
    (hdl : ∀ d, dl = some d → c.now ≤ d) (ha : 0 < amount) (ho : IsPoolToken p offer)
    (hbal : amount ≤ (run me s ts).led.bal offer sender)
    (hq : simulateSwap p offer amount = .ok (ret, com, spread, total))
    (hmo : ∀ m, mo = some m → m ≤ ret) (hmf : ∀ f, mf = some f → p.cfg.totalFeeBps ≤ f)
    (hms : ∀ b, ms = some b → 0 ≤ b ∧ b ≤ p.cfg.maxSpreadBps)
    (hspread : spread * 10000 ≤ (ret + com) * ms.getD p.cfg.maxSpreadBps)
    (hy : 0 < reserve p (other p offer))
    (hfit : ∀ t a, (run me s ts).led.bal t a + amount ≤ I128_MAX ∧ (run me s ts).led.bal t a + ret + com ≤ I128_MAX)
    (hsmall : spread * 10 ^ 18 ≤ I128_MAX) :
    ∃ p' L', swap me c p (run me s ts).led sender offer amount mo ms dl mf = .ok (p', L', ret) := by
  have hI := run_keeps ts ht (genesis_inv h0)
  have hP := hI.pool p hp
  have hn := hI.led.nonneg
  generalize (run me s ts).led = L at *
  have hne : sender ≠ me := fun e => by have := auth_of_signed hau; rw [e, hself] at this; simp at this
  have hs := sides_of hP.distinct.1 ho
  obtain ⟨-, -, -, htk, hoo⟩ := sides_inv hs hP.distinct.1
  have hfee := bps_works hP.cfg.fee
  have hmsb : 0 ≤ ms.getD p.cfg.maxSpreadBps ∧ ms.getD p.cfg.maxSpreadBps ≤ 10000 := by
    have := hP.cfg.spread
    cases ms with
    | none => exact this
    | some b => have := hms b rfl; simp; omega
  unfold simulateSwap at hq
  simp only [bind_ok, hs, hfee, ok_inj, addI_ok, Prod.mk.injEq] at hq
  obtain ⟨_, rfl, _, rfl, r, hr, _, ⟨hg1, rfl⟩, _, ⟨ht2, rfl⟩, rfl, rfl, rfl, -⟩ := hq
  have hr : computeSwap (reserve p offer) (reserve p (other p offer)) amount (p.cfg.totalFeeBps * 100000000000000) 0 = .ok r := hr
  obtain ⟨hx, -, -, -, hr0, hg0, h1, h2, h3, h4, h5, h6, -⟩ := computeSwap_inv hr
  have hgp := (gross_up (y := reserve p (other p offer)) hx ha.le).1
  have hgy : reserve p (other p offer) - reserve p offer * reserve p (other p offer) / (reserve p offer + amount) ≤ reserve p (other p offer) := by
    have := Int.ediv_nonneg (a := reserve p offer * reserve p (other p offer)) (b := reserve p offer + amount) (by positivity) (by omega)
    omega
  have eg : r.ret + r.commission = reserve p (other p offer) - reserve p offer * reserve p (other p offer) / (reserve p offer + amount) := by omega
  rw [← eg] at hgp hgy
  have hgpos : 0 < r.ret + r.commission := by
    by_contra hc
    have : (r.ret + r.commission) * (reserve p offer + amount) ≤ 0 := mul_nonpos_of_nonpos_of_nonneg (by omega) (by omega)
    have : 0 < amount * reserve p (other p offer) := by positivity
    omega
  have hback : reserve p (other p offer) ≤ L.bal (other p offer) me := by
    rcases ho with e | e
    · simp only [e, other, if_true, reserve, Ne.symm hP.distinct.1, if_false]; exact hP.bB
    · simp only [e, other, Ne.symm hP.distinct.1, if_false, reserve, if_true]; exact hP.aB
  have hbo : reserve p offer ≤ L.bal offer me := by
    rcases ho with e | e
    · simp only [e, if_true, reserve]; exact hP.aB
    · simp only [e, Ne.symm hP.distinct.1, if_false, reserve, if_true]; exact hP.bB
  have n1 := hn offer me
  have n2 := hn (other p offer) me
  have n3 := hn (other p offer) sender
  have n4 := hn (other p offer) p.cfg.feeRecipient
  have n5 := hn offer sender
  obtain ⟨L1, e1⟩ := send_works (c := c.as me) (L := L) (t := offer) (src := sender) (d := me) (x := amount)
    (as_auth.mpr (.inl hau)) ha.le hbal (by have := (hfit offer sender).1; omega) n1 (hfit _ _).1
  have t1 := (Ledger.transfer_inv e1).2.2.2.1
  have k1 : ∀ a, L1.bal (other p offer) a = L.bal (other p offer) a := by
    intro a; rw [t1]; simp [Flow.delta, Ne.symm hoo]
  have k1' : L1.bal offer me = L.bal offer me + amount := by
    rw [t1]; simp [Flow.delta, hne]
  obtain ⟨L2, e2⟩ := send_works (c := c.as me) (L := L1) (t := other p offer) (src := me) (d := sender) (x := r.ret)
    (as_auth_self c me) h6 (by rw [k1]; omega) (by rw [k1]; have := (hfit (other p offer) me).1; omega)
    (by rw [k1]; exact n3) (by rw [k1]; have := (hfit (other p offer) sender).2; omega)
  have t2 := (Ledger.transfer_inv e2).2.2.2.1
  have k2 : ∀ a, L2.bal (other p offer) a = L.bal (other p offer) a + Flow.delta ⟨other p offer, me, sender, r.ret⟩ (other p offer) a := by
    intro a; rw [t2, k1]; simp
  have k2me : L2.bal (other p offer) me = L.bal (other p offer) me - r.ret := by
    rw [k2]; simp [Flow.delta, hne]; omega
  have k2b : ∀ a, L2.bal (other p offer) a ≤ L.bal (other p offer) a + r.ret ∧ 0 ≤ L2.bal (other p offer) a := by
    intro a
    have := hn (other p offer) a
    by_cases e : a = me
    · rw [e, k2me]; rw [e] at this; omega
    · rw [k2]; simp only [Flow.delta]; simp only [Ne.symm e, and_false, if_false]; split <;> omega
  obtain ⟨L3, e3⟩ := send_works (c := c.as me) (L := L2) (t := other p offer) (src := me) (d := p.cfg.feeRecipient)
    (x := r.commission) (as_auth_self c me) h5 (by rw [k2me]; omega)
    (by rw [k2me]; have := (hfit (other p offer) me).1; omega) (k2b _).2
    (by have := (k2b p.cfg.feeRecipient).1; have := (hfit (other p offer) p.cfg.feeRecipient).2; omega)
  have f1 := (hfit offer me).1
  have f2 := (hfit (other p offer) me).1
  have mI : I128_MIN = -170141183460469231731687303715884105728 := by decide
  have mM : I128_MAX = 170141183460469231731687303715884105727 := by decide
  have hD : Dec.ONE = 10 ^ 18 := by decide
  obtain ⟨p', hp'⟩ : ∃ p', swapReserves p offer (L1.bal offer me - L.bal offer me) r = .ok p' := by
    rw [k1', add_sub_cancel_left]
    unfold swapReserves
    split
    · rename_i e
      simp only [reserve, e, other, if_true, Ne.symm hP.distinct.1, if_false] at *
      simp only [bind_ok, addI_ok, subI_ok, ok_inj]
      refine ⟨_, _, ⟨⟨?_, ?_⟩, rfl⟩, _, ⟨⟨?_, ?_⟩, rfl⟩, _, ⟨⟨?_, ?_⟩, rfl⟩, _, ⟨⟨?_, ?_⟩, rfl⟩, rfl⟩ <;> omega
    · rename_i e
      have e' : offer = p.cfg.tokenB := by rcases ho with h | h; exact absurd h e; exact h
      simp only [reserve, e', other, if_true, Ne.symm hP.distinct.1, if_false] at *
      simp only [bind_ok, addI_ok, subI_ok, ok_inj]
      refine ⟨_, _, ⟨⟨?_, ?_⟩, rfl⟩, _, ⟨⟨?_, ?_⟩, rfl⟩, _, ⟨⟨?_, ?_⟩, rfl⟩, _, ⟨⟨?_, ?_⟩, rfl⟩, rfl⟩ <;> omega
  refine ⟨p', L3, ?_⟩
  have hlim : swapLimits p ms mf = .ok (ms.getD p.cfg.maxSpreadBps * 100000000000000) := by
    unfold swapLimits
    simp only [bind_ok, whenSome_ok, req_ok]
    exact ⟨(), hmf, (), hms, bps_works hmsb⟩
  have hsp : assertMaxSpread (ms.getD p.cfg.maxSpreadBps * 100000000000000) (r.ret + r.commission) r.spread = .ok () := by
    unfold assertMaxSpread
    simp only [bind_ok, req_ok, Dec.fromRatio_ok]
    have e : (r.spread * Dec.ONE).tdiv (r.ret + r.commission) = r.spread * Dec.ONE / (r.ret + r.commission) :=
      tdiv_nonneg_eq (by rw [hD]; positivity)
    have d0 : 0 ≤ r.spread * Dec.ONE / (r.ret + r.commission) := Int.ediv_nonneg (by rw [hD]; positivity) hgpos.le
    have d1 : r.spread * Dec.ONE / (r.ret + r.commission) ≤ ms.getD p.cfg.maxSpreadBps * 100000000000000 := by
      apply Int.ediv_le_of_le_mul hgpos
      rw [hD]
      nlinarith
    refine ⟨_, ⟨by omega, ⟨?_, ?_⟩, ⟨?_, ?_⟩, rfl⟩, by rw [e]; exact d1⟩
    · rw [hD]; omega
    · rw [hD]; exact hsmall
    · rw [e]; omega
    · rw [e]; omega
  unfold swap doSwap
  simp only [bind_ok, checkDeadline_ok, validatePos_some, requireAuth_ok, ok_inj, addI_ok, subI_ok, hs, hfee, hlim, htk]
  refine ⟨(), hdl, (), ha, (), auth_of_signed hau, _, rfl, _, rfl, _, rfl, r, hr, (), ?_, _, ⟨hg1, rfl⟩, _, ⟨?_, rfl⟩, (), ?_,
    L1, e1, _, ⟨?_, rfl⟩, L2, e2, L3, e3, p', hp', rfl⟩
  · rw [whenSome_ok]; intro m hm; exact req_ok.mpr (hmo m hm)
  · rw [hr0, add_zero]; exact hg1
  · rw [hr0, add_zero]; exact hsp
  · rw [k1', add_sub_cancel_left]; constructor <;> omega

/-- **C95** The claim "every signed swap of an amount the trader holds goes through, as long as its
price impact is within the pool's limit" holds for amounts `a` with `x*(x+a) ≤ a²*y` (`x`, `y` the reserves of the sold
and the bought token), in every reachable state and for reserves and amounts up to 10^20 units: without limits
of their own, all amounts up to the fraction `max_allowed_spread` of the reserve are sold.
What is missing is small amounts: see `C95_small_swap_refused`. -/
theorem C95_swap_available {me : Addr} {s : Sys} (h0 : Genesis me s) {ts : List Tx}
    (ht : ∀ t ∈ ts, Possible me t) {p : State} (hp : (run me s ts).pool = some p)
    {c : Ctx} {sender offer : Addr} {amount : Int} (hself : c.auth me = false) (hau : c.signed sender = true)
    (ho : IsPoolToken p offer) (hbal : amount ≤ (run me s ts).led.bal offer sender) (ha : 0 < amount)
    (hx : 0 < reserve p offer) (hbig : reserve p offer * (reserve p offer + amount) ≤ amount * amount * reserve p (other p offer))
    (himp : amount * 10000 ≤ reserve p offer * p.cfg.maxSpreadBps)
    (hr : p.resA ≤ 10 ^ 20 ∧ p.resB ≤ 10 ^ 20)
    (hfit : ∀ t a, (run me s ts).led.bal t a ≤ 10 ^ 37) :
    ∃ p' L' ret, swap me c p (run me s ts).led sender offer amount none none none none = .ok (p', L', ret) := by
  have hP := (run_keeps ts ht (genesis_inv h0)).pool p hp
  have hy : 0 < reserve p (other p offer) := by
    by_contra hc
    have : amount * amount * reserve p (other p offer) ≤ 0 := mul_nonpos_of_nonneg_of_nonpos (by positivity) (by omega)
    have : 0 < reserve p offer * (reserve p offer + amount) := by positivity
    omega
  have mM : I128_MAX = 170141183460469231731687303715884105727 := by decide
  have hty : PoolTyped p := ⟨by omega, by omega, hP.cfg.spread.2⟩
  have hrl : ∀ t, reserve p t ≤ 10 ^ 20 := by
    intro t; unfold reserve; split
    · exact hr.1
    · split
      · exact hr.2
      · norm_num
  have hax : amount ≤ reserve p offer := by
    have := hP.cfg.spread.2
    nlinarith
  have l1 := hrl offer
  have l2 := hrl (other p offer)
  have hpay := C95_large_enough hx ha.le hbig
  have hid : amount * reserve p (other p offer) / reserve p offer ≤ reserve p (other p offer) :=
    Int.ediv_le_of_le_mul hx (by nlinarith)
  obtain ⟨⟨ret, com, spread, total⟩, hq⟩ :=
    (C95_quoted_iff hP.distinct.1 hty hP.cfg.fee ho hx hy ha (by omega)).mpr ⟨hpay, by omega⟩
  have hs := sides_of hP.distinct.1 ho
  have hfee := bps_works hP.cfg.fee
  have hq' := hq
  unfold simulateSwap at hq'
  simp only [bind_ok, hs, hfee, ok_inj, addI_ok, Prod.mk.injEq] at hq'
  obtain ⟨_, rfl, _, rfl, r, hr, _, ⟨hg1, rfl⟩, _, ⟨ht2, rfl⟩, rfl, rfl, rfl, -⟩ := hq'
  have hr : computeSwap (reserve p offer) (reserve p (other p offer)) amount (p.cfg.totalFeeBps * 100000000000000) 0 = .ok r := hr
  obtain ⟨-, -, -, -, hr0, hg0, k1, k2, k3, k4, k5, k6, -⟩ := computeSwap_inv hr
  have hgp := (gross_up (y := reserve p (other p offer)) hx ha.le).1
  have eg : r.ret + r.commission = reserve p (other p offer) - reserve p offer * reserve p (other p offer) / (reserve p offer + amount) := by omega
  rw [← eg] at hgp k1 hg0
  have hmul := Int.ediv_mul_le (amount * reserve p (other p offer)) (b := reserve p offer) (by omega)
  have himpact : r.spread * reserve p offer ≤ (r.ret + r.commission) * amount := by
    rw [k1]; nlinarith
  obtain ⟨p', L', hsw⟩ := C95_swap_works h0 ht hp (c := c) (sender := sender) (mo := none) (ms := none) (dl := none) (mf := none)
    hself hau (by simp) ha ho hbal hq (by simp) (by simp) (by simp)
    (by
      simp only [Option.getD_none]
      have : (r.spread * 10000) * reserve p offer ≤ ((r.ret + r.commission) * p.cfg.maxSpreadBps) * reserve p offer := by
        have := mul_le_mul_of_nonneg_left himp hg0
        nlinarith
      exact le_of_mul_le_mul_right this hx)
    hy (fun t a => by have := hfit t a; constructor <;> omega) (by omega)
  exact ⟨p', L', r.ret, hsw⟩

/-- **C95** The full claim is false: when no whole number lies between the payment with and without price
impact, the pool refuses the swap, whoever asks, with whatever limits and in whatever state of the ledger. -/
theorem C95_unpayable_refused {me : Addr} {c : Ctx} {p : State} {L : Ledger} {sender offer : Addr} {amount : Int}
    {mo ms : Option Int} {dl : Option Nat} {mf : Option Int} (hself : c.auth me = false)
    (hne : p.cfg.tokenA ≠ p.cfg.tokenB) (h : ¬ Payable (reserve p offer) (reserve p (other p offer)) amount)
    (r : State × Ledger × Int) : swap me c p L sender offer amount mo ms dl mf ≠ .ok r := by
  intro hc
  obtain ⟨p', L', ret⟩ := r
  obtain ⟨rate, lim, r, h1, h2, h3, h4, h5, h6, h7, h8, h9, -⟩ := swap_inv hc hself hne
  obtain ⟨hx, -, -, -, -, -, k1, k2, -⟩ := computeSwap_inv h9
  exact h ((payable_iff hx h2.le).mpr (by omega))

/-- a pool with 10^6 and 3·10^5 whole tokens of seven decimals, set up by account 1 -/
def bigHist : List Tx :=
  [ .pool (by' 8) (.init exInit),
    .pool (by' 1) (.provide 1 (some 10000000000000) none (some 3000000000000) none none none) ]
/-- account 1 and 2 own enough -/
def bigStart : Sys :=
  { pool := none
    led := fun _ => { admin := 9, decimals := 7, bal := fun a => if a = 1 ∨ a = 2 then 50000000000000 else 0, allow := fun _ _ => ⟨0, 0⟩ } }
theorem bigStart_genesis : Genesis 100 bigStart := by
  refine ⟨rfl, fun t a => ?_, fun t sp => le_refl _⟩
  show 0 ≤ if a = 1 ∨ a = 2 then (50000000000000 : Int) else 0
  split <;> decide
theorem bigHist_possible : ∀ t ∈ bigHist, Possible 100 t := by
  intro t ht
  simp [bigHist] at ht
  rcases ht with rfl | rfl <;> simp [Possible, Tx.ctx, Ctx.auth, by', exInit]

/-- the pool after `bigHist` -/
def bigPool : State := ((run 100 bigStart bigHist).pool).getD exPool

/-- **C95** A reachable pool of ordinary size in which a swap of 0.5000003 tokens is refused although everything is
in order, while 10 tokens are sold. -/
theorem C95_small_swap_refused : (run 100 bigStart bigHist).pool = some bigPool ∧
    (bigPool.resA, bigPool.resB) = (10000000000000, 3000000000000) ∧
    swap 100 (by' 2) bigPool (run 100 bigStart bigHist).led 2 10 5000003 none none none none = .error .overflow ∧
    ∃ r, swap 100 (by' 2) bigPool (run 100 bigStart bigHist).led 2 10 100000000 none none none none = .ok r ∧ r.2.2 = 29909702 := by
  refine ⟨by decide +kernel, by decide +kernel, eq_of_failsWith (by decide +kernel), ?_⟩
  obtain ⟨r, h, h2⟩ := exists_of_okAnd
    (x := swap 100 (by' 2) bigPool (run 100 bigStart bigHist).led 2 10 100000000 none none none none)
    (P := fun r => r.2.2 == 29909702) (by decide +kernel)
  exact ⟨r, h, by simpa using h2⟩

/-- the hypotheses of `C95_swap_available` hold for that sale of 10 tokens -/
example : IsPoolToken bigPool 10 ∧ reserve bigPool 10 * (reserve bigPool 10 + 100000000) ≤ 100000000 * 100000000 * reserve bigPool (other bigPool 10) ∧
    (100000000 : Int) * 10000 ≤ reserve bigPool 10 * bigPool.cfg.maxSpreadBps ∧ bigPool.resA ≤ 10 ^ 20 ∧ bigPool.resB ≤ 10 ^ 20 := by
  unfold IsPoolToken; decide +kernel
/-- and `0.5000003` tokens are not payable: 1500000.9 at the current price, 1500000.825 with price impact -/
example : ¬ Payable 10000000000000 3000000000000 5000003 := by
  rintro ⟨n, h1, h2⟩
  omega

end Phoenix.Props.Avail
