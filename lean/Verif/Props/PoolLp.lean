import Verif.Props.PoolSwap
/-!
Property theorems about `provide_liquidity` and `withdraw_liquidity`:
C07, C08, C09, C14.
-/
namespace Phoenix.Props
open Phoenix Pool Spec

/-- `floor(res * floor(s*10^18/T) / 10^18)` against the exact share (helper). -/
theorem share_bounds {res s T : Int} (hr : 0 ≤ res) (hs : 0 ≤ s) (hT : 0 < T) :
    let x := (res * (s * Dec.ONE).tdiv T).tdiv Dec.ONE
    0 ≤ x ∧ x * T ≤ res * s ∧ res * s * Dec.ONE < x * T * Dec.ONE + T * Dec.ONE + T * res := by
  have hD : (0:Int) < Dec.ONE := by decide
  have h1 := ediv_bounds (a := s * Dec.ONE) (b := T) hT
  have hq0 : 0 ≤ s * Dec.ONE / T := Int.ediv_nonneg (by positivity) hT.le
  have h2 := ediv_bounds (a := res * (s * Dec.ONE / T)) (b := Dec.ONE) hD
  have hx0 : 0 ≤ res * (s * Dec.ONE / T) / Dec.ONE := Int.ediv_nonneg (by positivity) hD.le
  rw [tdiv_nonneg_eq (show 0 ≤ s * Dec.ONE by positivity),
    tdiv_nonneg_eq (show 0 ≤ res * (s * Dec.ONE / T) by positivity)]
  generalize s * Dec.ONE / T = q at *
  generalize res * q / Dec.ONE = x at *
  refine ⟨hx0, ?_, ?_⟩
  · have t1 : Dec.ONE * x * T ≤ res * q * T := mul_le_mul_of_nonneg_right h2.1 hT.le
    have t2 : res * (T * q) ≤ res * (s * Dec.ONE) := mul_le_mul_of_nonneg_left h1.1 hr
    have t3 : (x * T) * Dec.ONE ≤ (res * s) * Dec.ONE := by nlinarith
    exact le_of_mul_le_mul_right t3 hD
  · have t1 : res * q * T < (Dec.ONE * x + Dec.ONE) * T := mul_lt_mul_of_pos_right h2.2 hT
    have t2 : res * (s * Dec.ONE) ≤ res * (T * q + T) := mul_le_mul_of_nonneg_left h1.2.le hr
    nlinarith

/-- **C07** When `withdraw_liquidity` of `sh` out of `T` shares succeeds with `(ra, rb)`:
* neither amount exceeds the pro-rata share (`r*T ≤ reserve*sh`), and the shortfall
  against it is less than `1 + reserve/10^18`;
* the minimums and the deadline hold and the owner of the shares authorised the call;
* exactly the shares are destroyed and exactly `ra`, `rb` move from pool to sender, no
  other balance or right changes, the reserves and the supply drop by exactly that. -/
theorem C07_withdraw_pro_rata {self : Addr} {c : Ctx} {p p' : State} {L L' : Ledger} {sender : Addr}
    {sh mA mB ra rb : Int} {dl : Option Nat}
    (h : withdraw self c p L sender sh mA mB dl = .ok (p', L', ra, rb))
    (hself : c.auth self = false) (hd : DistinctTokens p)
    (hA : 0 ≤ p.resA) (hB : 0 ≤ p.resB) (hT : 0 ≤ p.total) :
    (ra * p.total ≤ p.resA * sh ∧ rb * p.total ≤ p.resB * sh) ∧
    (p.resA * sh * 10^18 < ra * p.total * 10^18 + p.total * 10^18 + p.total * p.resA ∧
     p.resB * sh * 10^18 < rb * p.total * 10^18 + p.total * 10^18 + p.total * p.resB) ∧
    (mA ≤ ra ∧ mB ≤ rb ∧ (∀ d, dl = some d → c.now ≤ d) ∧ c.auth sender = true ∧
      sh ≤ L.bal p.cfg.shareToken sender) ∧
    (∀ t u, L'.bal t u = L.bal t u + (Flow.delta ⟨p.cfg.tokenA, self, sender, ra⟩ t u) +
      (Flow.delta ⟨p.cfg.tokenB, self, sender, rb⟩ t u) -
      (if p.cfg.shareToken = t ∧ sender = u then sh else 0)) ∧
    SameRights L L' ∧
    p' = { p with total := p.total - sh, resA := p.resA - ra, resB := p.resB - rb } := by
  obtain ⟨h1, h2, h3, h4, h5, h6, h7, h8, h9, h10, h11, h12, h13, h14, h15, h16⟩ := withdraw_inv h hself hd
  have hTp : 0 < p.total := by omega
  have sA := share_bounds (res := p.resA) (s := sh) hA h3.le hTp
  have sB := share_bounds (res := p.resB) (s := sh) hB h3.le hTp
  rw [← h12] at sA
  rw [← h13] at sB
  exact ⟨⟨sA.2.1, sB.2.1⟩, ⟨sA.2.2, sB.2.2⟩, ⟨h6, h7, h1, h2, h8⟩, h14, h15, h16⟩

/-- withdrawing 141421 of 1414213 shares -/
example : ∃ p' L', withdraw 100 exSign exPool exLed 1 141421 90000 190000 (some 10) =
    .ok (p', L', 99999, 199999) := ⟨_, _, rfl⟩

/-- **C08** A deposit into a non-empty pool mints at most the pro-rata number of
shares for either token (`m * reserve ≤ T * growth of the reserve`), and the supply
grows by exactly what the sender receives. -/
theorem C08_mint_at_most_pro_rata {self : Addr} {c : Ctx} {p p' : State} {L L' : Ledger} {sender : Addr}
    {dA mA dB mB cu : Option Int} {dl : Option Nat}
    (h : provide self c p L sender dA mA dB mB cu dl = .ok (p', L'))
    (hself : c.auth self = false) (hd : DistinctTokens p) (hA : 0 < p.resA) (hB : 0 < p.resB)
    (hT : 0 ≤ p.total) :
    let m := p'.total - p.total
    0 ≤ m ∧ L'.bal p.cfg.shareToken sender = L.bal p.cfg.shareToken sender + m ∧
    (∀ u, u ≠ sender → L'.bal p.cfg.shareToken u = L.bal p.cfg.shareToken u) ∧
    m * p.resA ≤ p.total * (p'.resA - p.resA) ∧ m * p.resB ≤ p.total * (p'.resB - p.resB) := by
  obtain ⟨a, b, m, lock, h1, h2, h3, h4, h5, h6, h7, h8, h9, h10, h11, h12, rfl, h14⟩ := provide_inv h hself hd
  obtain ⟨hAB, hSA, hSB⟩ := hd
  rcases h14 with ⟨-, -, rfl, hm⟩ | ⟨hn, -⟩
  swap; · exact absurd ⟨hA, hB⟩ hn
  have em : p.total + 0 + m - p.total = m := by ring
  simp only [em]
  refine ⟨h9, ?_, ?_, ?_, ?_⟩
  · rw [h11]; simp [Flow.delta, Ne.symm hSA, Ne.symm hSB]
  · intro u hu
    rw [h11]; simp [Flow.delta, Ne.symm hSA, Ne.symm hSB, Ne.symm hu]
  · have hle : p.total + m ≤ ((L.bal p.cfg.tokenA self + a) * p.total).tdiv p.resA := by omega
    have hnn : 0 ≤ (L.bal p.cfg.tokenA self + a) * p.total := by
      by_contra hneg
      have : ((L.bal p.cfg.tokenA self + a) * p.total).tdiv p.resA ≤ 0 :=
        tdiv_nonpos' (by omega) hA.le
      have hT0 : p.total = 0 := by omega
      simp [hT0] at hneg
    rw [tdiv_nonneg_eq hnn, Int.le_ediv_iff_mul_le hA] at hle
    nlinarith
  · have hle : p.total + m ≤ ((L.bal p.cfg.tokenB self + b) * p.total).tdiv p.resB := by omega
    have hnn : 0 ≤ (L.bal p.cfg.tokenB self + b) * p.total := by
      by_contra hneg
      have : ((L.bal p.cfg.tokenB self + b) * p.total).tdiv p.resB ≤ 0 :=
        tdiv_nonpos' (by omega) hB.le
      have hT0 : p.total = 0 := by omega
      simp [hT0] at hneg
    rw [tdiv_nonneg_eq hnn, Int.le_ediv_iff_mul_le hB] at hle
    nlinarith

/-- **C08** The rounding is by less than one share: minting one share more would
exceed the pro-rata share of one of the two tokens. -/
theorem C08_mint_is_maximal {self : Addr} {c : Ctx} {p p' : State} {L L' : Ledger} {sender : Addr}
    {dA mA dB mB cu : Option Int} {dl : Option Nat}
    (h : provide self c p L sender dA mA dB mB cu dl = .ok (p', L'))
    (hself : c.auth self = false) (hd : DistinctTokens p) (hA : 0 < p.resA) (hB : 0 < p.resB)
    (hT : 0 ≤ p.total) (hbA : 0 ≤ L.bal p.cfg.tokenA self) (hbB : 0 ≤ L.bal p.cfg.tokenB self) :
    p.total * p'.resA < (p'.total + 1) * p.resA ∨ p.total * p'.resB < (p'.total + 1) * p.resB := by
  obtain ⟨a, b, m, lock, h1, h2, h3, h4, h5, h6, h7, h8, h9, h10, h11, h12, rfl, h14⟩ := provide_inv h hself hd
  rcases h14 with ⟨-, -, rfl, hm⟩ | ⟨hn, -⟩
  swap; · exact absurd ⟨hA, hB⟩ hn
  simp only [add_zero]
  rw [tdiv_nonneg_eq (by positivity), tdiv_nonneg_eq (by positivity)] at hm
  have b1 := ediv_bounds (a := (L.bal p.cfg.tokenA self + a) * p.total) (b := p.resA) hA
  have b2 := ediv_bounds (a := (L.bal p.cfg.tokenB self + b) * p.total) (b := p.resB) hB
  rcases le_total ((L.bal p.cfg.tokenA self + a) * p.total / p.resA)
      ((L.bal p.cfg.tokenB self + b) * p.total / p.resB) with hle | hle
  · left; rw [min_eq_left hle] at hm; rw [hm]; nlinarith
  · right; rw [min_eq_right hle] at hm; rw [hm]; nlinarith

/-- **C08** The first deposit (no reserve, no shares yet): the new supply `S` is the
integer square root of the product of the amounts, above 1000; exactly 1000 of it
goes to the pool itself and the rest to the sender. -/
theorem C08_first_deposit {self : Addr} {c : Ctx} {p p' : State} {L L' : Ledger} {sender : Addr}
    {A B : Int} {mA mB cu : Option Int} {dl : Option Nat}
    (h : provide self c p L sender (some A) mA (some B) mB cu dl = .ok (p', L'))
    (hself : c.auth self = false) (hd : DistinctTokens p)
    (hA : p.resA = 0) (hT : p.total = 0) :
    1000 < p'.total ∧ p'.total * p'.total ≤ A * B ∧ A * B < (p'.total + 1) * (p'.total + 1) ∧
    L'.bal p.cfg.shareToken sender = L.bal p.cfg.shareToken sender + (p'.total - 1000) ∧
    L'.bal p.cfg.shareToken self = L.bal p.cfg.shareToken self + 1000 ∧
    L'.bal p.cfg.tokenA sender = L.bal p.cfg.tokenA sender - A ∧
    L'.bal p.cfg.tokenB sender = L.bal p.cfg.tokenB sender - B := by
  obtain ⟨a, b, m, lock, h1, h2, h3, h4, h5, h6, h7, h8, h9, h10, h11, h12, rfl, h14⟩ := provide_inv h hself hd
  obtain ⟨hAB, hSA, hSB⟩ := hd
  have hns := auth_ne hself h2
  obtain ⟨A', B', eA, eB, -, -, hch⟩ := chooseAmounts_inv h4
  cases eA; cases eB
  have hab : a = A ∧ b = B := by
    rcases hch with ⟨-, -, h, h'⟩ | ⟨h, -⟩
    · exact ⟨h, h'⟩
    · exact absurd hA h
  obtain ⟨rfl, rfl⟩ := hab
  rcases h14 with ⟨hpos, -⟩ | ⟨-, rfl, s, hs, hs1, rfl⟩
  · omega
  obtain ⟨-, -, hlo, hhi⟩ := isqrt_ok hs
  have e : p.total + 1000 + (s - 1000 - p.total) = s := by ring
  simp only [e]
  refine ⟨hs1, hlo, hhi, ?_, ?_, ?_, ?_⟩
  · rw [h11]; simp [Flow.delta, Ne.symm hSA, Ne.symm hSB, Ne.symm hns, hT]
  · rw [h11]; simp [Flow.delta, Ne.symm hSA, Ne.symm hSB, hns]
  · rw [h11]; simp [Flow.delta, Ne.symm hAB, hSA, Ne.symm hns]; ring
  · rw [h11]; simp [Flow.delta, hAB, hSB, Ne.symm hns]; ring

/-- an empty pool with the same configuration -/
def exEmpty : State := { exPool with total := 0, resA := 0, resB := 0 }
/-- ledger of the empty pool -/
def exLed0 : Ledger := fun t =>
  { admin := if t = 12 then 100 else 9, decimals := 7,
    bal := fun a => if t ≠ 12 ∧ a = 1 then 5000000 else 0,
    allow := fun _ _ => ⟨0, 0⟩ }
theorem exDeposit1 : ∃ p' L', provide 100 exSign exEmpty exLed0 1 (some 1000000) none (some 2000000) none none none
    = .ok (p', L') ∧ p'.total = 1414213 ∧ L'.bal 12 1 = 1413213 := by
  obtain ⟨⟨p', L'⟩, h, hP⟩ := exists_of_okAnd
    (x := provide 100 exSign exEmpty exLed0 1 (some 1000000) none (some 2000000) none none none)
    (P := fun r => r.1.total == 1414213 && r.2.bal 12 1 == 1413213) (by decide +kernel)
  simp at hP
  exact ⟨p', L', h, hP⟩
theorem exDeposit2 : ∃ p' L', provide 100 exSign exPool exLed 1 (some 10000) (some 9900) (some 20000) (some 19900) (some 50) none
    = .ok (p', L') ∧ p'.total = 1428355 ∧ L'.bal 12 1 = 1427355 := ⟨_, _, rfl, rfl, rfl⟩

/-- **C09** What a successful deposit takes: exactly `a` and `b` from the sender to
the pool, each at most the desired amount; unless both reserves are zero, each at
least the given minimum; and nothing else moves except the minted shares.  On an
empty pool exactly the desired amounts are taken. -/
theorem C09_deposit_amounts {self : Addr} {c : Ctx} {p p' : State} {L L' : Ledger} {sender : Addr}
    {dA mA dB mB cu : Option Int} {dl : Option Nat}
    (h : provide self c p L sender dA mA dB mB cu dl = .ok (p', L'))
    (hself : c.auth self = false) (hd : DistinctTokens p) :
    ∃ A B a b, dA = some A ∧ dB = some B ∧ 0 ≤ a ∧ a ≤ A ∧ 0 ≤ b ∧ b ≤ B ∧
      (∀ d, dl = some d → c.now ≤ d) ∧ c.auth sender = true ∧
      (∀ s, cu = some s → s ≤ p.cfg.maxSlippageBps) ∧
      (p.resA = 0 ∧ p.resB = 0 → a = A ∧ b = B) ∧
      (¬ (p.resA = 0 ∧ p.resB = 0) → (∀ m, mA = some m → m ≤ a) ∧ (∀ m, mB = some m → m ≤ b)) ∧
      (∀ t u, t ≠ p.cfg.shareToken → L'.bal t u = L.bal t u +
        Flow.delta ⟨p.cfg.tokenA, sender, self, a⟩ t u + Flow.delta ⟨p.cfg.tokenB, sender, self, b⟩ t u) ∧
      SameRights L L' ∧
      p'.resA = L'.bal p.cfg.tokenA self ∧ p'.resB = L'.bal p.cfg.tokenB self ∧
      p'.cfg = p.cfg ∧ p'.admin = p.admin := by
  obtain ⟨a, b, m, lock, h1, h2, h3, h4, h5, h6, h7, h8, h9, h10, h11, h12, rfl, h14⟩ := provide_inv h hself hd
  obtain ⟨hAB, hSA, hSB⟩ := hd
  have hns := auth_ne hself h2
  obtain ⟨A, B, eA, eB, hA, hB, hch⟩ := chooseAmounts_inv h4
  refine ⟨A, B, a, b, eA, eB, h5, ?_, h7, ?_, h1, h2, h3, ?_, ?_, ?_, h12, ?_, ?_, rfl, rfl⟩
  · rcases hch with ⟨-, -, h, -⟩ | ⟨-, -, h, -⟩ <;> omega
  · rcases hch with ⟨-, -, -, h⟩ | ⟨-, -, -, h, -⟩ <;> omega
  · intro hz
    rcases hch with ⟨-, -, h, h'⟩ | ⟨h, -⟩
    · exact ⟨h, h'⟩
    · exact absurd hz.1 h
  · intro hz
    rcases hch with ⟨h, h', -⟩ | ⟨-, -, -, -, h⟩
    · exact absurd ⟨h, h'⟩ hz
    · exact h
  · intro t u ht
    rw [h11]; simp [Ne.symm ht]
  · rw [h11]; simp [Flow.delta, hSA, Ne.symm hAB, hns]
  · rw [h11]; simp [Flow.delta, hSB, hAB, hns]

/-- **C09** The amounts are the pool's ratio applied to the desired amounts: each is
the smaller of what the sender desires and what the other desired amount is worth at
the current ratio (rounded down). -/
theorem C09_deposit_follows_ratio {self : Addr} {c : Ctx} {p p' : State} {L L' : Ledger} {sender : Addr}
    {A B : Int} {mA mB cu : Option Int} {dl : Option Nat}
    (h : provide self c p L sender (some A) mA (some B) mB cu dl = .ok (p', L'))
    (hself : c.auth self = false) (hd : DistinctTokens p) (hA : 0 < p.resA) (hB : 0 < p.resB) :
    L.bal p.cfg.tokenA sender - L'.bal p.cfg.tokenA sender = min A (B * p.resA / p.resB) ∧
    L.bal p.cfg.tokenB sender - L'.bal p.cfg.tokenB sender = min B (A * p.resB / p.resA) := by
  obtain ⟨a, b, m, lock, h1, h2, h3, h4, h5, h6, h7, h8, h9, h10, h11, h12, rfl, h14⟩ := provide_inv h hself hd
  obtain ⟨hAB, hSA, hSB⟩ := hd
  have hns := auth_ne hself h2
  obtain ⟨A', B', eA, eB, hA0, hB0, hch⟩ := chooseAmounts_inv h4
  cases eA; cases eB
  rcases hch with ⟨h, -⟩ | ⟨-, -, ha, hb, -⟩
  · omega
  rw [tdiv_nonneg_eq (by positivity)] at ha hb
  constructor
  · rw [h11, ← ha]; simp [Flow.delta, Ne.symm hAB, hSA, Ne.symm hns]
  · rw [h11, ← hb]; simp [Flow.delta, hAB, hSB, Ne.symm hns]

/-- **C09** The minimums are not enforced for the first deposit: one that asks for at
least 5 000 000 of each token is satisfied with fewer. -/
theorem C09_first_deposit_ignores_minimums :
    ∃ p' L', provide 100 exSign exEmpty exLed0 1 (some 1000000) (some 5000000) (some 2000000) (some 5000000) none none
      = .ok (p', L') := by
  obtain ⟨⟨p', L'⟩, h, -⟩ := exists_of_okAnd
    (x := provide 100 exSign exEmpty exLed0 1 (some 1000000) (some 5000000) (some 2000000) (some 5000000) none none)
    (P := fun _ => true) (by decide +kernel)
  exact ⟨p', L', h⟩

/-- **C14** Deposit into a pool whose actual balances equal its reported reserves, then
withdraw exactly the minted shares: of neither token does one get back more than was
put in. -/
theorem C14_deposit_withdraw_no_profit {self : Addr} {c c' : Ctx} {p p1 p2 : State} {L L1 L2 : Ledger}
    {sender s2 : Addr} {dA mA dB mB cu : Option Int} {dl dl' : Option Nat} {mA' mB' ra rb : Int}
    (h1 : provide self c p L sender dA mA dB mB cu dl = .ok (p1, L1))
    (h2 : withdraw self c' p1 L1 s2 (L1.bal p.cfg.shareToken sender - L.bal p.cfg.shareToken sender) mA' mB' dl'
      = .ok (p2, L2, ra, rb))
    (hc : c.auth self = false) (hc' : c'.auth self = false) (hd : DistinctTokens p)
    (hbA : L.bal p.cfg.tokenA self = p.resA) (hbB : L.bal p.cfg.tokenB self = p.resB)
    (hA : 0 ≤ p.resA) (hB : 0 ≤ p.resB) (hT : 0 ≤ p.total) :
    ra ≤ L.bal p.cfg.tokenA sender - L1.bal p.cfg.tokenA sender ∧
    rb ≤ L.bal p.cfg.tokenB sender - L1.bal p.cfg.tokenB sender := by
  obtain ⟨a, b, m, lock, e1, e2, e3, e4, e5, e6, e7, e8, e9, e10, e11, e12, rfl, e14⟩ := provide_inv h1 hc hd
  have hd' := hd
  obtain ⟨hAB, hSA, hSB⟩ := hd
  have hns := auth_ne hc e2
  have hm : L1.bal p.cfg.shareToken sender - L.bal p.cfg.shareToken sender = m := by
    rw [e11]; simp [Flow.delta, Ne.symm hSA, Ne.symm hSB, Ne.symm hns]
  have ha : L.bal p.cfg.tokenA sender - L1.bal p.cfg.tokenA sender = a := by
    rw [e11]; simp [Flow.delta, Ne.symm hAB, hSA, Ne.symm hns]
  have hb : L.bal p.cfg.tokenB sender - L1.bal p.cfg.tokenB sender = b := by
    rw [e11]; simp [Flow.delta, hAB, hSB, Ne.symm hns]
  rw [hm] at h2
  rw [ha, hb]
  have hw := C07_withdraw_pro_rata h2 hc' hd' (by simp only; omega) (by simp only; omega) (by simp only; omega)
  have hmpos := (withdraw_inv h2 hc' hd').2.2.1
  have w1 := hw.1.1
  have w2 := hw.1.2
  simp only at w1 w2
  rw [hbA] at w1
  rw [hbB] at w2
  rcases e14 with ⟨hpA, hpB, rfl, hmin⟩ | ⟨hn, rfl, s, hs, hs1, rfl⟩
  · have hp := C08_mint_at_most_pro_rata h1 hc hd' hpA hpB hT
    simp only [hbA, hbB] at hp
    have k1 : m * p.resA ≤ p.total * a := by have := hp.2.2.2.1; nlinarith
    have k2 : m * p.resB ≤ p.total * b := by have := hp.2.2.2.2; nlinarith
    have hpos : 0 < p.total + 0 + m := by omega
    constructor
    · have : ra * (p.total + 0 + m) ≤ a * (p.total + 0 + m) := by nlinarith
      exact le_of_mul_le_mul_right this hpos
    · have : rb * (p.total + 0 + m) ≤ b * (p.total + 0 + m) := by nlinarith
      exact le_of_mul_le_mul_right this hpos
  · have hz : p.resA = 0 ∧ p.resB = 0 := by
      obtain ⟨A, B, -, -, -, -, hch⟩ := chooseAmounts_inv e4
      rcases hch with ⟨h, h', -⟩ | ⟨h, h', -⟩
      · exact ⟨h, h'⟩
      · exfalso; apply hn; omega
    rw [hz.1] at w1
    rw [hz.2] at w2
    have e : p.total + 1000 + (s - 1000 - p.total) = s := by ring
    rw [e] at w1 w2
    have hspos : (0:Int) < s := by omega
    constructor
    · have : ra * s ≤ a * s := by nlinarith
      exact le_of_mul_le_mul_right this hspos
    · have : rb * s ≤ b * s := by nlinarith
      exact le_of_mul_le_mul_right this hspos

/-- deposit of 10000/20000 and withdrawal of the 14142 minted shares: 9999/19999 -/
example : ∃ p1 L1 p2 L2, provide 100 exSign exPool exLed 1 (some 10000) none (some 20000) none none none = .ok (p1, L1) ∧
    withdraw 100 exSign p1 L1 1 (L1.bal 12 1 - exLed.bal 12 1) 1 1 none = .ok (p2, L2, 9999, 19999) :=
  ⟨_, _, _, _, rfl, rfl⟩

end Phoenix.Props
