import Verif.Props.Avail
/-!
Property C96: which deposits the constant product pool accepts.
-/
namespace Phoenix.Props.Avail
open Phoenix Phoenix.Pool Phoenix.Spec

/-- What a desired amount is worth at the pool's ratio, `worth`, exceeds the other desired amount by no more
than the slippage tolerance (a whole number of basis points; the quotient is cut to 18 decimals). -/
def Tolerated (desired worth bps : Int) : Prop :=
  worth ≤ desired ∨ worth * 10 ^ 18 / desired ≤ 10 ^ 18 + bps * 10 ^ 14

theorem depositSide_iff {desired oth pool othPool slip v : Int} {mn : Option Int} {e1 e2 : Nat}
    (hd : 0 < desired) (ho : 0 ≤ oth) (hp : 0 ≤ pool) (hop : 0 < othPool) (kd : desired ≤ 10 ^ 18) (ko : oth ≤ 10 ^ 18)
    (kp : pool ≤ 10 ^ 18) (ks : -10000 ≤ slip ∧ slip ≤ 10000) :
    depositSide desired oth pool othPool mn (slip * 100000000000000) e1 e2 = .ok v ↔
      Tolerated desired (oth * pool / othPool) slip ∧ v = min desired (oth * pool / othPool) ∧ ∀ m, mn = some m → m ≤ v := by
  have mI : I128_MIN = -170141183460469231731687303715884105728 := by decide
  have mM : I128_MAX = 170141183460469231731687303715884105727 := by decide
  have hD : Dec.ONE = 10 ^ 18 := by decide
  have p0 : 0 ≤ oth * pool := by positivity
  have p1 : oth * pool ≤ 10 ^ 18 * 10 ^ 18 := mul_le_mul ko kp hp (by norm_num)
  have q0 : 0 ≤ oth * pool / othPool := Int.ediv_nonneg p0 hop.le
  have q1 : oth * pool / othPool ≤ oth * pool := Int.ediv_le_self _ p0
  unfold depositSide
  simp only [bind_ok, mulI_ok, divI_ok, whenSome_ok, req_ok, ok_inj]
  have et : (oth * pool).tdiv othPool = oth * pool / othPool := tdiv_nonneg_eq p0
  have i1 : InI128 (oth * pool) := by constructor <;> omega
  generalize oth * pool / othPool = raw at *
  have cap : ∀ w, capAmount desired raw (slip * 100000000000000) e1 = .ok w ↔ Tolerated desired raw slip ∧ w = min desired raw := by
    intro w
    unfold capAmount Tolerated
    split
    · rename_i hlt
      simp only [bind_ok, Dec.fromRatio_ok, req_ok, ok_inj, Dec.sub]
      have e : (raw * Dec.ONE).tdiv desired = raw * 10 ^ 18 / desired := by rw [hD]; exact tdiv_nonneg_eq (by positivity)
      rw [e]
      have d0 : 0 ≤ raw * 10 ^ 18 / desired := Int.ediv_nonneg (by positivity) hd.le
      constructor
      · rintro ⟨r, ⟨-, -, -, rfl⟩, d, hsub, _, hle, rfl⟩
        rw [subI_ok] at hsub
        obtain ⟨-, rfl⟩ := hsub
        rw [hD] at hle
        exact ⟨.inr (by omega), by omega⟩
      · rintro ⟨h, rfl⟩
        have h : raw * 10 ^ 18 / desired ≤ 10 ^ 18 + slip * 10 ^ 14 := by rcases h with h | h; omega; exact h
        have hb := ediv_bounds (a := raw * 10 ^ 18) (b := desired) hd
        have hup : raw * 10 ^ 18 ≤ 10 ^ 18 * (3 * 10 ^ 18) := by
          have : desired * (raw * 10 ^ 18 / desired) ≤ desired * (2 * 10 ^ 18) := mul_le_mul_of_nonneg_left (by omega) hd.le
          nlinarith
        refine ⟨_, ⟨by omega, ?_, ?_, rfl⟩, _, subI_ok.mpr ⟨?_, rfl⟩, (), ?_, by omega⟩
        · rw [hD]; constructor <;> omega
        · constructor <;> omega
        · rw [hD]; constructor <;> omega
        · rw [hD]; omega
    · rename_i hlt
      rw [ok_inj]
      constructor
      · rintro rfl; exact ⟨.inl (by omega), by omega⟩
      · rintro ⟨-, rfl⟩; omega
  constructor
  · rintro ⟨_, ⟨-, rfl⟩, _, ⟨-, -, rfl⟩, w, hw, _, hm, rfl⟩
    obtain ⟨h1, h2⟩ := (cap w).mp (by rw [← et]; exact hw)
    exact ⟨h1, h2, hm⟩
  · rintro ⟨h1, h2, h3⟩
    exact ⟨_, ⟨i1, rfl⟩, _, ⟨by omega, by rw [et]; constructor <;> omega, rfl⟩, v, by rw [et]; exact (cap v).mpr ⟨h1, h2⟩, (), h3, rfl⟩

theorem mint_works {c : Ctx} {L : Ledger} {t d : Addr} {x : Int} (h1 : c.auth (L t).admin = true) (h2 : 0 ≤ x)
    (h4 : 0 ≤ L.bal t d) (h5 : L.bal t d + x ≤ I128_MAX) : ∃ L', L.mint c t d x = .ok L' := by
  refine ⟨_, Ledger.call_ok.mpr ⟨_, Token.mint_ok.mpr ⟨h2, h1, ?_, rfl⟩, rfl⟩⟩
  simp only [InI128, I128_MIN]; simp only [Ledger.bal] at *; omega

/-- the amounts a pool with two reserves accepts -/
theorem chooseAmounts_iff {p : State} {A B a b : Int} {mA mB cu : Option Int} (hA : 0 < p.resA) (hB : 0 < p.resB)
    (kA : A ≤ 10 ^ 18) (kB : B ≤ 10 ^ 18) (kpA : p.resA ≤ 10 ^ 18) (kpB : p.resB ≤ 10 ^ 18)
    (ks : -10000 ≤ cu.getD p.defaultSlippageBps ∧ cu.getD p.defaultSlippageBps ≤ 10000)
    (pA : ∀ m, mA = some m → 0 < m) (pB : ∀ m, mB = some m → 0 < m) (h0 : 0 < A) (h1 : 0 < B) :
    chooseAmounts p (some A) mA (some B) mB cu = .ok (a, b) ↔
      (a = min A (B * p.resA / p.resB) ∧ b = min B (A * p.resB / p.resA) ∧
       Tolerated A (B * p.resA / p.resB) (cu.getD p.defaultSlippageBps) ∧
       Tolerated B (A * p.resB / p.resA) (cu.getD p.defaultSlippageBps) ∧
       (∀ m, mA = some m → m ≤ a) ∧ (∀ m, mB = some m → m ≤ b)) := by
  have hs : Dec.bps (cu.getD p.defaultSlippageBps) = .ok (cu.getD p.defaultSlippageBps * 100000000000000) := by
    rw [Dec.bps_ok]; refine ⟨?_, rfl⟩; unfold InI128 I128_MIN I128_MAX; omega
  unfold chooseAmounts
  simp only
  rw [if_pos ⟨h0, h1⟩]
  simp only [bind_ok, hs, ok_inj]
  have hz : ¬ (p.resA = 0 ∧ p.resB = 0) := by omega
  unfold depositAmounts minLeDesired
  simp only [bind_ok, req_ok, if_neg hz, whenSome_ok, ok_inj, Prod.mk.injEq]
  constructor
  · rintro ⟨_, rfl, _, -, _, -, _, -, _, -, a', ha, b', hb, rfl, rfl⟩
    obtain ⟨t1, e1, m1⟩ := (depositSide_iff h0 h1.le hA.le hB kA kB kpA ks).mp ha
    obtain ⟨t2, e2, m2⟩ := (depositSide_iff h1 h0.le hB.le hA kB kA kpB ks).mp hb
    exact ⟨e1, e2, t1, t2, m1, m2⟩
  · rintro ⟨e1, e2, t1, t2, m1, m2⟩
    refine ⟨_, rfl, (), by omega, (), ?_, (), ?_, (), ?_, a, ?_, b, ?_, rfl, rfl⟩
    · intro m hm n hn
      have := pA m hm
      have := pB n hn
      omega
    · intro m hm; have := m1 m hm; omega
    · intro m hm; have := m2 m hm; omega
    · exact (depositSide_iff h0 h1.le hA.le hB kA kB kpA ks).mpr ⟨t1, e1, m1⟩
    · exact (depositSide_iff h1 h0.le hB.le hA kB kA kpB ks).mpr ⟨t2, e2, m2⟩

/-- **C96** Exactly which deposits a reachable pool with two reserves accepts from an account that signs (for
amounts, reserves, supply and pool balances of at most 10^18 units and a slippage setting of at most 100%).  Let `a`, `b` be
the amounts taken: each the smaller of the desired amount and the worth of the other one.  The deposit is accepted iff the desired
amounts and the given minimums are positive, the deadline is kept, the custom slippage is at most the pool's limit,
neither desired amount is exceeded by the worth of the other by more than the tolerance, the minimums are
reached, and the account holds `a` and `b`. -/
theorem C96_deposit_iff {me : Addr} {s : Sys} (h0 : Genesis me s) {ts : List Tx}
    (ht : ∀ t ∈ ts, Possible me t) {p : State} (hp : (run me s ts).pool = some p) (hA : 0 < p.resA) (hB : 0 < p.resB)
    {c : Ctx} {sender : Addr} {A B a b tol : Int} {mA mB cu : Option Int} {dl : Option Nat}
    (hself : c.auth me = false) (hau : c.signed sender = true)
    (ea : a = min A (B * p.resA / p.resB)) (eb : b = min B (A * p.resB / p.resA)) (et : tol = cu.getD p.defaultSlippageBps)
    (kA : A ≤ 10 ^ 18) (kB : B ≤ 10 ^ 18) (kT : p.total ≤ 10 ^ 18) (ks : -10000 ≤ tol ∧ tol ≤ 10000)
    (kpA : (run me s ts).led.bal p.cfg.tokenA me ≤ 10 ^ 18) (kpB : (run me s ts).led.bal p.cfg.tokenB me ≤ 10 ^ 18)
    (hfit : ∀ t a, (run me s ts).led.bal t a ≤ 10 ^ 37) :
    (∃ r, provide me c p (run me s ts).led sender (some A) mA (some B) mB cu dl = .ok r) ↔
      0 < A ∧ 0 < B ∧ (∀ m, mA = some m → 0 < m) ∧ (∀ m, mB = some m → 0 < m) ∧ (∀ d, dl = some d → c.now ≤ d) ∧
      (∀ x, cu = some x → x ≤ p.cfg.maxSlippageBps) ∧
      Tolerated A (B * p.resA / p.resB) tol ∧ Tolerated B (A * p.resB / p.resA) tol ∧
      (∀ m, mA = some m → m ≤ a) ∧ (∀ m, mB = some m → m ≤ b) ∧
      a ≤ (run me s ts).led.bal p.cfg.tokenA sender ∧ b ≤ (run me s ts).led.bal p.cfg.tokenB sender := by
  have hI := run_keeps ts ht (genesis_inv h0)
  have hP := hI.pool p hp
  have hn := hI.led.nonneg
  generalize (run me s ts).led = L at *
  subst et
  have lA := hP.aB.trans kpA
  have lB := hP.bB.trans kpB
  have hne : sender ≠ me := fun e => by have := auth_of_signed hau; rw [e, hself] at this; simp at this
  constructor
  · rintro ⟨⟨p', L'⟩, h⟩
    have hv : (∀ m, mA = some m → 0 < m) ∧ (∀ m, mB = some m → 0 < m) := by
      unfold provide at h
      simp only [bind_ok, validatePos_ok] at h
      obtain ⟨_, -, _, -, _, h1, _, -, _, h2, -⟩ := h
      exact ⟨h1, h2⟩
    obtain ⟨a', b', m, lock, h1, h2, h3, h4, h5, h6, h7, h8, -⟩ := provide_inv h hself hP.distinct
    obtain ⟨A', B', eA, eB, pA, pB, -⟩ := chooseAmounts_inv h4
    cases eA; cases eB
    obtain ⟨k1, k2, k3, k4, k5, k6⟩ := (chooseAmounts_iff hA hB kA kB lA lB ks hv.1 hv.2 pA pB).mp h4
    rw [← ea] at k1
    rw [← eb] at k2
    rw [k1] at k5 h6
    rw [k2] at k6 h8
    exact ⟨pA, pB, hv.1, hv.2, h1, h3, k3, k4, k5, k6, h6, h8⟩
  · rintro ⟨pA, pB, vA, vB, h1, h3, k3, k4, k5, k6, h6, h8⟩
    have hch := (chooseAmounts_iff hA hB kA kB lA lB ks vA vB pA pB).mpr ⟨ea, eb, k3, k4, k5, k6⟩
    obtain ⟨hAB, hSA, hSB⟩ := hP.distinct
    have a0 : 0 ≤ a := by
      have : 0 ≤ B * p.resA / p.resB := Int.ediv_nonneg (by positivity) hB.le
      omega
    have b0 : 0 ≤ b := by
      have : 0 ≤ A * p.resB / p.resA := Int.ediv_nonneg (by positivity) hA.le
      omega
    have aA : a ≤ 10 ^ 18 := by omega
    have bB : b ≤ 10 ^ 18 := by omega
    have mI : I128_MIN = -170141183460469231731687303715884105728 := by decide
    have mM : I128_MAX = 170141183460469231731687303715884105727 := by decide
    obtain ⟨L1, e1⟩ := send_works (c := c.as me) (L := L) (t := p.cfg.tokenA) (src := sender) (d := me) (x := a)
      (as_auth.mpr (.inl hau)) a0 h6 (by have := hfit p.cfg.tokenA sender; omega) (hn _ _) (by omega)
    have t1 := (Ledger.transfer_inv e1).2.2.2
    have kk1 : ∀ t u, t ≠ p.cfg.tokenA → L1.bal t u = L.bal t u := by
      intro t u htt; rw [t1.1]; simp [Flow.delta, Ne.symm htt]
    have kA1 : L1.bal p.cfg.tokenA me = L.bal p.cfg.tokenA me + a := by rw [t1.1]; simp [Flow.delta, hne]
    obtain ⟨L2, e2⟩ := send_works (c := c.as me) (L := L1) (t := p.cfg.tokenB) (src := sender) (d := me) (x := b)
      (as_auth.mpr (.inl hau)) b0 (by rw [kk1 _ _ (Ne.symm hAB)]; exact h8)
      (by rw [kk1 _ _ (Ne.symm hAB)]; have := hfit p.cfg.tokenB sender; omega)
      (by rw [kk1 _ _ (Ne.symm hAB)]; exact hn _ _) (by rw [kk1 _ _ (Ne.symm hAB)]; omega)
    have t2 := (Ledger.transfer_inv e2).2.2.2
    have kA2 : L2.bal p.cfg.tokenA me = L.bal p.cfg.tokenA me + a := by rw [t2.1, kA1]; simp [Flow.delta, Ne.symm hAB]
    have kB2 : L2.bal p.cfg.tokenB me = L.bal p.cfg.tokenB me + b := by
      rw [t2.1, kk1 _ _ (Ne.symm hAB)]; simp [Flow.delta, hne]
    have kS2 : ∀ u, L2.bal p.cfg.shareToken u = L.bal p.cfg.shareToken u := by
      intro u; rw [t2.1, kk1 _ _ hSA]; simp [Flow.delta, Ne.symm hSB]
    have hadm : (L2 p.cfg.shareToken).admin = me := by rw [(t2.2 _).1, (t1.2 _).1]; exact hP.admin
    have T0 := hP.total_nonneg
    have nA := hn p.cfg.tokenA me
    have nB := hn p.cfg.tokenB me
    have rA := hP.aB
    have rB := hP.bB
    obtain ⟨xA, hxA⟩ : ∃ x, x = L.bal p.cfg.tokenA me + a := ⟨_, rfl⟩
    obtain ⟨xB, hxB⟩ : ∃ x, x = L.bal p.cfg.tokenB me + b := ⟨_, rfl⟩
    have uA : xA ≤ 2 * 10 ^ 18 := by omega
    have uB : xB ≤ 2 * 10 ^ 18 := by omega
    have vA0 : 0 ≤ xA := by omega
    have vB0 : 0 ≤ xB := by omega
    have mA0 : 0 ≤ xA * p.total := by positivity
    have mB0 : 0 ≤ xB * p.total := by positivity
    have mA1 : xA * p.total ≤ 2 * 10 ^ 18 * 10 ^ 18 := mul_le_mul uA kT T0 (by norm_num)
    have mB1 : xB * p.total ≤ 2 * 10 ^ 18 * 10 ^ 18 := mul_le_mul uB kT T0 (by norm_num)
    have sA1 : xA * p.total / p.resA ≤ xA * p.total := Int.ediv_le_self _ mA0
    have sB1 : xB * p.total / p.resB ≤ xB * p.total := Int.ediv_le_self _ mB0
    have sA0 : p.total ≤ xA * p.total / p.resA := (Int.le_ediv_iff_mul_le hA).mpr (by nlinarith)
    have sB0 : p.total ≤ xB * p.total / p.resB := (Int.le_ediv_iff_mul_le hB).mpr (by nlinarith)
    have tA : (xA * p.total).tdiv p.resA = xA * p.total / p.resA := tdiv_nonneg_eq mA0
    have tB : (xB * p.total).tdiv p.resB = xB * p.total / p.resB := tdiv_nonneg_eq mB0
    have hns : newShares me c p L2 a b xA xB = .ok (min (xA * p.total / p.resA) (xB * p.total / p.resB), p, L2) := by
      unfold newShares
      rw [if_pos ⟨hA, hB⟩]
      simp only [bind_ok, mulI_ok, divI_ok, ok_inj]
      refine ⟨_, ⟨⟨?_, ?_⟩, rfl⟩, _, ⟨by omega, ⟨?_, ?_⟩, rfl⟩, _, ⟨⟨?_, ?_⟩, rfl⟩, _, ⟨by omega, ⟨?_, ?_⟩, rfl⟩, ?_⟩
      all_goals first | rw [tA, tB] | skip
      all_goals first | rw [tA] | rw [tB] | skip
      all_goals omega
    obtain ⟨n, hn'⟩ : ∃ n, n = min (xA * p.total / p.resA) (xB * p.total / p.resB) := ⟨_, rfl⟩
    rw [← hn'] at hns
    have n0 : p.total ≤ n := by omega
    have n1 : n ≤ 2 * 10 ^ 18 * 10 ^ 18 := by omega
    obtain ⟨L3, e3⟩ := mint_works (c := c.as me) (L := L2) (t := p.cfg.shareToken) (d := sender) (x := n - p.total)
      (by rw [hadm]; exact as_auth_self c me) (by omega) (by rw [kS2]; exact hn _ _)
      (by rw [kS2]; have := hfit p.cfg.shareToken sender; omega)
    refine ⟨({ p with total := p.total + (n - p.total), resA := xA, resB := xB }, L3), ?_⟩
    unfold provide checkSlippage mintShares
    simp only [bind_ok, checkDeadline_ok, requireAuth_ok, ok_inj, subI_ok, addI_ok, whenSome_ok, req_ok, validatePos_ok]
    refine ⟨(), h1, (), ?_, (), vA, (), ?_, (), vB, (), auth_of_signed hau, (), h3, (a, b), hch, L1, e1, L2, e2, _, ⟨?_, rfl⟩,
      _, ⟨?_, rfl⟩, (n, p, L2), ?_, n - p.total, ⟨?_, rfl⟩, _, ⟨L3, e3, p.total + (n - p.total), ⟨?_, rfl⟩, rfl⟩, ?_⟩
    · intro x hx; cases hx; exact pA
    · intro x hx; cases hx; exact pB
    · rw [kA2]; constructor <;> omega
    · rw [kB2]; constructor <;> omega
    · rw [kA2, kB2, ← hxA, ← hxB]; exact hns
    · constructor <;> omega
    · show InI128 (p.total + (n - p.total)); constructor <;> omega
    · rw [kA2, kB2, ← hxA, ← hxB]

/-- **C96** In particular a deposit in the ratio of the reserves, of amounts the account holds, is always accepted. -/
theorem C96_balanced_deposit_accepted {me : Addr} {s : Sys} (h0 : Genesis me s) {ts : List Tx}
    (ht : ∀ t ∈ ts, Possible me t) {p : State} (hp : (run me s ts).pool = some p) (hA : 0 < p.resA) (hB : 0 < p.resB)
    {c : Ctx} {sender : Addr} {A B : Int} (hself : c.auth me = false) (hau : c.signed sender = true)
    (pA : 0 < A) (pB : 0 < B) (hratio : A * p.resB = B * p.resA)
    (bA : A ≤ (run me s ts).led.bal p.cfg.tokenA sender) (bB : B ≤ (run me s ts).led.bal p.cfg.tokenB sender)
    (kA : A ≤ 10 ^ 18) (kB : B ≤ 10 ^ 18) (kT : p.total ≤ 10 ^ 18)
    (ks : 0 ≤ p.defaultSlippageBps ∧ p.defaultSlippageBps ≤ 10000)
    (kpA : (run me s ts).led.bal p.cfg.tokenA me ≤ 10 ^ 18) (kpB : (run me s ts).led.bal p.cfg.tokenB me ≤ 10 ^ 18)
    (hfit : ∀ t a, (run me s ts).led.bal t a ≤ 10 ^ 37) :
    ∃ r, provide me c p (run me s ts).led sender (some A) (some A) (some B) (some B) none none = .ok r := by
  have e1 : B * p.resA / p.resB = A := by rw [← hratio]; exact Int.mul_ediv_cancel _ (by omega)
  have e2 : A * p.resB / p.resA = B := by rw [hratio]; exact Int.mul_ediv_cancel _ (by omega)
  refine (C96_deposit_iff h0 ht hp hA hB hself hau (a := A) (b := B) (by rw [e1]; omega) (by rw [e2]; omega) rfl kA kB kT
    (by simp only [Option.getD_none]; omega) kpA kpB hfit).mpr
    ⟨pA, pB, ?_, ?_, by simp, by simp, ?_, ?_, ?_, ?_, bA, bB⟩
  · intro m hm; cases hm; exact pA
  · intro m hm; cases hm; exact pB
  · left; rw [e1]
  · left; rw [e2]
  · intro m hm; cases hm; exact le_refl _
  · intro m hm; cases hm; exact le_refl _

/-- **C96** The first deposit (for amounts of at most 10^18 units): accepted iff the desired amounts and the given
minimums are positive, the deadline is kept, the custom slippage is at most the pool's limit, the account holds the
amounts and their product is at least 1001². -/
theorem C96_first_deposit_iff {me : Addr} {s : Sys} (h0 : Genesis me s) {ts : List Tx}
    (ht : ∀ t ∈ ts, Possible me t) {p : State} (hp : (run me s ts).pool = some p) (hT : p.total = 0)
    {c : Ctx} {sender : Addr} {A B : Int} {mA mB cu : Option Int} {dl : Option Nat}
    (hself : c.auth me = false) (hau : c.signed sender = true)
    (kA : A ≤ 10 ^ 18) (kB : B ≤ 10 ^ 18)
    (ks : -10000 ≤ cu.getD p.defaultSlippageBps ∧ cu.getD p.defaultSlippageBps ≤ 10000)
    (hfit : ∀ t a, (run me s ts).led.bal t a ≤ 10 ^ 37) :
    (∃ r, provide me c p (run me s ts).led sender (some A) mA (some B) mB cu dl = .ok r) ↔
      0 < A ∧ 0 < B ∧ (∀ m, mA = some m → 0 < m) ∧ (∀ m, mB = some m → 0 < m) ∧ (∀ d, dl = some d → c.now ≤ d) ∧
      (∀ x, cu = some x → x ≤ p.cfg.maxSlippageBps) ∧ 1001 * 1001 ≤ A * B ∧
      A ≤ (run me s ts).led.bal p.cfg.tokenA sender ∧ B ≤ (run me s ts).led.bal p.cfg.tokenB sender := by
  have hI := run_keeps ts ht (genesis_inv h0)
  have hP := hI.pool p hp
  have hn := hI.led.nonneg
  generalize (run me s ts).led = L at *
  have hne : sender ≠ me := fun e => by have := auth_of_signed hau; rw [e, hself] at this; simp at this
  obtain ⟨-, zA, zB⟩ : Empty p := by
    rcases hP.phase with h | h
    · exact h
    · have := h.1; omega
  obtain ⟨hAB, hSA, hSB⟩ := hP.distinct
  constructor
  · rintro ⟨⟨p', L'⟩, h⟩
    have hv : (∀ m, mA = some m → 0 < m) ∧ (∀ m, mB = some m → 0 < m) := by
      unfold provide at h
      simp only [bind_ok, validatePos_ok] at h
      obtain ⟨_, -, _, -, _, h1, _, -, _, h2, -⟩ := h
      exact ⟨h1, h2⟩
    obtain ⟨a', b', m, lock, h1, h2, h3, h4, h5, h6, h7, h8, -, -, -, -, -, h14⟩ := provide_inv h hself hP.distinct
    obtain ⟨A', B', eA, eB, pA, pB, hch⟩ := chooseAmounts_inv h4
    cases eA; cases eB
    rcases hch with ⟨-, -, rfl, rfl⟩ | ⟨h, -⟩
    · rcases h14 with ⟨h, -⟩ | ⟨-, -, r, hr, hr1, -⟩
      · omega
      · have := (isqrt_ok hr).2.2.1
        exact ⟨pA, pB, hv.1, hv.2, h1, h3, by nlinarith, h6, h8⟩
    · exact absurd zA h
  · rintro ⟨pA, pB, vA, vB, h1, h3, hprod, h6, h8⟩
    have mI : I128_MIN = -170141183460469231731687303715884105728 := by decide
    have mM : I128_MAX = 170141183460469231731687303715884105727 := by decide
    have hch : chooseAmounts p (some A) mA (some B) mB cu = .ok (A, B) := by
      unfold chooseAmounts depositAmounts
      simp only
      rw [if_pos ⟨pA, pB⟩]
      simp only [bind_ok, Dec.bps_ok, req_ok, whenSome_ok, if_pos (show p.resA = 0 ∧ p.resB = 0 from ⟨zA, zB⟩)]
      refine ⟨_, ⟨⟨?_, ?_⟩, rfl⟩, (), by omega, (), ?_, trivial⟩
      · omega
      · omega
      · intro m hm n hn
        have := vA m hm
        have := vB n hn
        omega
    have fA := hfit p.cfg.tokenA me
    have fB := hfit p.cfg.tokenB me
    have nA := hn p.cfg.tokenA me
    have nB := hn p.cfg.tokenB me
    obtain ⟨L1, e1⟩ := send_works (c := c.as me) (L := L) (t := p.cfg.tokenA) (src := sender) (d := me) (x := A)
      (as_auth.mpr (.inl hau)) pA.le h6 (by have := hfit p.cfg.tokenA sender; omega) (hn _ _) (by omega)
    have t1 := (Ledger.transfer_inv e1).2.2.2
    have kk1 : ∀ t u, t ≠ p.cfg.tokenA → L1.bal t u = L.bal t u := by
      intro t u htt; rw [t1.1]; simp [Flow.delta, Ne.symm htt]
    have kA1 : L1.bal p.cfg.tokenA me = L.bal p.cfg.tokenA me + A := by rw [t1.1]; simp [Flow.delta, hne]
    obtain ⟨L2, e2⟩ := send_works (c := c.as me) (L := L1) (t := p.cfg.tokenB) (src := sender) (d := me) (x := B)
      (as_auth.mpr (.inl hau)) pB.le (by rw [kk1 _ _ (Ne.symm hAB)]; exact h8)
      (by rw [kk1 _ _ (Ne.symm hAB)]; have := hfit p.cfg.tokenB sender; omega)
      (by rw [kk1 _ _ (Ne.symm hAB)]; exact hn _ _) (by rw [kk1 _ _ (Ne.symm hAB)]; omega)
    have t2 := (Ledger.transfer_inv e2).2.2.2
    have kA2 : L2.bal p.cfg.tokenA me = L.bal p.cfg.tokenA me + A := by rw [t2.1, kA1]; simp [Flow.delta, Ne.symm hAB]
    have kB2 : L2.bal p.cfg.tokenB me = L.bal p.cfg.tokenB me + B := by
      rw [t2.1, kk1 _ _ (Ne.symm hAB)]; simp [Flow.delta, hne]
    have kS2 : ∀ u, L2.bal p.cfg.shareToken u = L.bal p.cfg.shareToken u := by
      intro u; rw [t2.1, kk1 _ _ hSA]; simp [Flow.delta, Ne.symm hSB]
    have hadm : (L2 p.cfg.shareToken).admin = me := by rw [(t2.2 _).1, (t1.2 _).1]; exact hP.admin
    have prod1 : A * B ≤ 10 ^ 18 * 10 ^ 18 := mul_le_mul kA kB pB.le (by norm_num)
    obtain ⟨r, hr⟩ : ∃ r, isqrt (A * B) = .ok r := by unfold isqrt; rw [if_neg (by nlinarith)]; exact ⟨_, rfl⟩
    obtain ⟨-, r0, r1, r2⟩ := isqrt_ok hr
    have r3 : 1000 < r := by
      by_contra hc
      nlinarith
    have r4 : r ≤ 10 ^ 18 := by
      by_contra hc
      nlinarith
    obtain ⟨L3, e3⟩ := mint_works (c := c.as me) (L := L2) (t := p.cfg.shareToken) (d := me) (x := 1000)
      (by rw [hadm]; exact as_auth_self c me) (by omega) (by rw [kS2]; exact hn _ _)
      (by rw [kS2]; have := hfit p.cfg.shareToken me; omega)
    have t3 := (Ledger.mint_inv e3).2.2
    have hadm3 : (L3 p.cfg.shareToken).admin = me := by rw [(t3.2 _).1]; exact hadm
    have kS3 : L3.bal p.cfg.shareToken sender = L.bal p.cfg.shareToken sender := by
      rw [t3.1, kS2]; simp [Ne.symm hne]
    obtain ⟨L4, e4⟩ := mint_works (c := c.as me) (L := L3) (t := p.cfg.shareToken) (d := sender) (x := r - 1000 - p.total)
      (by rw [hadm3]; exact as_auth_self c me) (by omega) (by rw [kS3]; exact hn _ _)
      (by rw [kS3]; have := hfit p.cfg.shareToken sender; omega)
    have hns : newShares me c p L2 A B (L.bal p.cfg.tokenA me + A) (L.bal p.cfg.tokenB me + B)
        = .ok (r - 1000, { p with total := p.total + 1000 }, L3) := by
      unfold newShares mintShares
      rw [if_neg (by omega)]
      simp only [bind_ok, mulI_ok, ok_inj, addI_ok, subI_ok, MINIMUM_LIQUIDITY]
      refine ⟨_, ⟨⟨?_, ?_⟩, rfl⟩, r, hr, (), req_ok.mpr (by omega), _, ⟨L3, e3, _, ⟨⟨?_, ?_⟩, rfl⟩, rfl⟩, _, ⟨⟨?_, ?_⟩, rfl⟩, rfl⟩
      all_goals first | omega | nlinarith
    refine ⟨({ p with total := p.total + 1000 + (r - 1000 - p.total), resA := L.bal p.cfg.tokenA me + A, resB := L.bal p.cfg.tokenB me + B }, L4), ?_⟩
    unfold provide checkSlippage
    simp only [bind_ok, checkDeadline_ok, requireAuth_ok, ok_inj, subI_ok, addI_ok, whenSome_ok, req_ok, validatePos_ok]
    refine ⟨(), h1, (), ?_, (), vA, (), ?_, (), vB, (), auth_of_signed hau, (), h3, (A, B), hch, L1, e1, L2, e2, _, ⟨?_, rfl⟩,
      _, ⟨?_, rfl⟩, _, by rw [kA2, kB2]; exact hns, r - 1000 - p.total, ⟨?_, rfl⟩,
      ({ p with total := p.total + 1000 + (r - 1000 - p.total) }, L4), ?_, ?_⟩
    · intro x hx; cases hx; exact pA
    · intro x hx; cases hx; exact pB
    · rw [kA2]; constructor <;> omega
    · rw [kB2]; constructor <;> omega
    · constructor <;> omega
    · unfold mintShares
      simp only [bind_ok, addI_ok, ok_inj]
      refine ⟨L4, e4, p.total + 1000 + (r - 1000 - p.total), ⟨?_, rfl⟩, rfl⟩
      show InI128 (p.total + 1000 + (r - 1000 - p.total))
      constructor <;> omega
    · rw [kA2, kB2]

/-- a balanced and an unbalanced deposit into the pool of `bigHist`: 10 and 3 tokens go in; 10 and 4 do not, with a
tolerance of one per cent -/
example : (∃ r, provide 100 (by' 2) bigPool (run 100 bigStart bigHist).led 2 (some 100000000) none (some 30000000) none none none = .ok r) ∧
    provide 100 (by' 2) bigPool (run 100 bigStart bigHist).led 2 (some 100000000) none (some 40000000) none none none = .error (.code 9) ∧
    ¬ Tolerated 100000000 (40000000 * 10000000000000 / 3000000000000) 100 := by
  refine ⟨?_, eq_of_failsWith (by decide +kernel), ?_⟩
  · obtain ⟨r, h, -⟩ := exists_of_okAnd
      (x := provide 100 (by' 2) bigPool (run 100 bigStart bigHist).led 2 (some 100000000) none (some 30000000) none none none)
      (P := fun _ => true) (by decide +kernel)
    exact ⟨r, h⟩
  · unfold Tolerated; decide

end Phoenix.Props.Avail
