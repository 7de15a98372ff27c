import Verif.Lemmas.PoolSys
/-!
Property theorems about whole histories of the XYK pool: C10 - C13, C16, C17.
A history is any list of transactions by anybody: calls of the pool (failed ones
leave no trace) interleaved with calls of any token contract.
-/
namespace Phoenix.Props
open Phoenix Pool Spec Ledger

theorem genesis_inv {me : Addr} {s : Sys} (h : Genesis me s) : SysInv me s :=
  ⟨⟨h.2.1, h.2.2⟩, fun p hp => by rw [h.1] at hp; simp at hp⟩

theorem run_append (me : Addr) (s : Sys) (ts us : List Tx) : run me s (ts ++ us) = run me (run me s ts) us := by
  simp [run]

/-! A concrete history: initialisation, a first deposit by account 1, a donation, a
swap by account 2, a direct burn of LP tokens, an unauthorised call, a withdrawal. -/

/-- arguments of `initialize` -/
def exInit : InitArgs :=
  { admin := 8, swapFeeBps := 30, feeRecipient := 7, maxSlippageBps := 100, maxSpreadBps := 5000,
    maxReferralBps := 500, tokenA := 10, tokenB := 11, minBond := 1, minReward := 1, maxComplexity := 7,
    shareDecimals := 7, defaultSlippageBps := 100, maxAllowedFeeBps := 1000, shareToken := 12, stakeContract := 13 }
/-- accounts 1 and 2 hold five million of each token -/
def exStart : Sys :=
  { pool := none
    led := fun _ =>
      { admin := 9, decimals := 7, bal := fun a => if a = 1 ∨ a = 2 then 5000000 else 0,
        allow := fun _ _ => ⟨0, 0⟩ } }
/-- account `a` signs -/
def by' (a : Addr) : Ctx := { now := 10, seq := 20, signed := fun x => x == a }
/-- the history -/
def exHist : List Tx :=
  [ .pool (by' 8) (.init exInit),
    .pool (by' 1) (.provide 1 (some 1000000) none (some 2000000) none none none),
    .token (by' 2) 10 (.transfer 2 100 777),
    .pool (by' 2) (.swap 2 10 1000 none none none none),
    .token (by' 1) 12 (.burn 1 5000),
    .pool (by' 2) (.withdraw 1 1000 1 1 none),
    .pool (by' 1) (.withdraw 1 500000 1 1 none) ]

theorem exStart_genesis : Genesis 100 exStart := by
  refine ⟨rfl, fun t a => ?_, fun t sp => le_refl _⟩
  show (0:Int) ≤ if a = 1 ∨ a = 2 then 5000000 else 0
  split <;> decide
theorem exHist_possible : ∀ t ∈ exHist, Possible 100 t := by
  intro t ht
  simp [exHist] at ht
  rcases ht with rfl | rfl | rfl | rfl | rfl | rfl | rfl <;> simp [Possible, Tx.ctx, Ctx.auth, by', exInit]
/-- all but the unauthorised withdrawal succeed -/
theorem exHist_result : (run 100 exStart exHist).pool.map (fun p => (p.total, p.resA, p.resB))
    = some (914213, 647093, 1291601) := by decide +kernel

/-- **C10** In every reachable state both reported reserves are non-negative and not
larger than the pool's actual balances. -/
theorem C10_reserves_backed {me : Addr} {s : Sys} (h0 : Genesis me s) (ts : List Tx)
    (ht : ∀ t ∈ ts, Possible me t) {p : State} (hp : (run me s ts).pool = some p) :
    (0 ≤ p.resA ∧ p.resA ≤ (run me s ts).led.bal p.cfg.tokenA me) ∧
    (0 ≤ p.resB ∧ p.resB ≤ (run me s ts).led.bal p.cfg.tokenB me) := by
  have h := (run_keeps ts ht (genesis_inv h0)).pool p hp
  exact ⟨⟨h.a0, h.aB⟩, ⟨h.b0, h.bB⟩⟩

/-- **C11** In every reachable state the reported LP supply is at least the sum of the
LP balances of any set of accounts. -/
theorem C11_supply_covers {me : Addr} {s : Sys} (h0 : Genesis me s) (ts : List Tx)
    (ht : ∀ t ∈ ts, Possible me t) {p : State} (hp : (run me s ts).pool = some p) (S : Finset Addr) :
    lpHeld (run me s ts) p S ≤ p.total :=
  ((run_keeps ts ht (genesis_inv h0)).pool p hp).cover S

/-- One transaction without a direct burn moves LP balances and LP supply by the same
amount, over any set of accounts containing its parties (helper). -/
theorem step_lp_exact {me : Addr} {s s' : Sys} {t : Tx} {p p' : State} (h : step me s t = .ok s')
    (ht : Possible me t) (hs : SysInv me s) (hp : s.pool = some p) (hp' : s'.pool = some p')
    (S : Finset Addr) (hme : me ∈ S) (hS : ∀ a ∈ lpParties t, a ∈ S)
    (hb : burnsDirectly p.cfg.shareToken t = false) :
    lpHeld s' p' S - p'.total = lpHeld s p S - p.total := by
  have hP := hs.pool p hp
  have hself := ht.1
  unfold lpHeld
  cases t with
  | token c tok op =>
    simp only [step, bind_ok, ok_inj] at h
    obtain ⟨L', hc, rfl⟩ := h
    simp only at hp'
    rw [hp] at hp'; cases hp'
    rw [call_ok] at hc
    obtain ⟨t1, h1, rfl⟩ := hc
    by_cases e : p.cfg.shareToken = tok
    · subst e
      have hsup := C21_supply h1 S hS
      have hch : supplyChange op = 0 := by
        cases op with
        | mint d x =>
          simp only [Token.call, Token.mint_ok] at h1
          rw [hP.admin] at h1
          simp only [Tx.ctx] at hself
          rw [hself] at h1; simp at h1
        | burn a x => simp [burnsDirectly] at hb
        | burnFrom a b x => simp [burnsDirectly] at hb
        | setAdmin a => rfl
        | approve a b x y => rfl
        | transfer a b x => rfl
        | transferFrom a b d x => rfl
      unfold supply at hsup
      simp only [bal, upd_same]
      omega
    · simp only [bal, upd_ne _ _ e]
  | pool c k =>
    simp only [Tx.ctx] at hself
    cases k with
    | init i =>
      simp only [step, bind_ok, ok_inj] at h
      obtain ⟨⟨q, L'⟩, hi, rfl⟩ := h
      have := (init_inv hi).1
      rw [hp] at this; simp at this
    | provide sd dA mA dB mB cu dl =>
      simp only [step, bind_ok, hp, loaded, ok_inj] at h
      obtain ⟨_, rfl, ⟨q, L'⟩, hk, rfl⟩ := h
      cases hp'
      obtain ⟨a, b, m, lock, h1, h2, h3, h4, h5, h6, h7, h8, h9, h10, h11, h12, rfl, h14⟩ :=
        provide_inv hk hself hP.distinct
      obtain ⟨hAB, hSA, hSB⟩ := hP.distinct
      have bS : ∀ u, L'.bal p.cfg.shareToken u =
          s.led.bal p.cfg.shareToken u + (if sd = u then m else 0) + (if me = u then lock else 0) := by
        intro u; rw [h11]; simp [Flow.delta, Ne.symm hSA, Ne.symm hSB]
      simp only [bS, Finset.sum_add_distrib]
      rw [sum_indicator S sd m (hS sd (by simp [lpParties])), sum_indicator S me lock hme]
      ring
    | swap sd o a mo ms dl mf =>
      simp only [step, bind_ok, hp, loaded, ok_inj] at h
      obtain ⟨_, rfl, ⟨q, L', r⟩, hk, rfl⟩ := h
      cases hp'
      obtain ⟨hAB, hSA, hSB⟩ := hP.distinct
      obtain ⟨rate, lim, r, h1, h2, h3, h4, h5, h6, h7, h8, h9, rfl, h11, h12, h13, h14, h15, h16, h17, h18, h19, h20, h21⟩ :=
        swap_inv hk hself hAB
      have hshare : ∀ a, L'.bal p.cfg.shareToken a = s.led.bal p.cfg.shareToken a := by
        intro a
        have hot : o ≠ p.cfg.shareToken ∧ other p o ≠ p.cfg.shareToken := by
          rcases h5 with rfl | rfl
          · simp [other, Ne.symm hSA, Ne.symm hSB]
          · simp [other, Ne.symm hSA, Ne.symm hSB, Ne.symm hAB]
        rw [h14]; simp [Flow.delta, hot.1, hot.2]
      simp only [h16, hshare, h18]
    | withdraw sd sh mA mB dl =>
      simp only [step, bind_ok, hp, loaded, ok_inj] at h
      obtain ⟨_, rfl, ⟨q, L', ra, rb⟩, hk, rfl⟩ := h
      cases hp'
      obtain ⟨h1, h2, h3, h4, h5, h6, h7, h8, h9, h10, h11, h12, h13, h14, h15, rfl⟩ := withdraw_inv hk hself hP.distinct
      obtain ⟨hAB, hSA, hSB⟩ := hP.distinct
      have bS : ∀ u, L'.bal p.cfg.shareToken u = s.led.bal p.cfg.shareToken u - (if sd = u then sh else 0) := by
        intro u; rw [h14]; simp [Flow.delta, Ne.symm hSA, Ne.symm hSB]
      simp only [bS, Finset.sum_sub_distrib]
      rw [sum_indicator S sd sh (hS sd (by simp [lpParties]))]
      ring
    | updateConfig u =>
      simp only [step, bind_ok, hp, loaded, ok_inj] at h
      obtain ⟨_, rfl, q, hk, rfl⟩ := h
      cases hp'
      unfold updateConfig at hk
      simp only [bind_ok, ok_inj] at hk
      obtain ⟨_, -, _, -, _, -, _, -, _, -, rfl⟩ := hk
      rfl
    | upgrade sl =>
      simp only [step, bind_ok, hp, loaded, ok_inj] at h
      obtain ⟨_, rfl, q, hk, rfl⟩ := h
      cases hp'
      unfold upgrade at hk
      simp only [bind_ok, ok_inj] at hk
      obtain ⟨_, -, rfl⟩ := hk
      rfl

/-- **C11** If nobody burned LP tokens directly on the token contract, the reported
supply is exactly the sum of the LP balances of the pool and all accounts that took
part. -/
theorem C11_supply_exact {me : Addr} {s : Sys} (h0 : Genesis me s) (ts : List Tx)
    (ht : ∀ t ∈ ts, Possible me t) {p : State} (hp : (run me s ts).pool = some p) (S : Finset Addr)
    (hme : me ∈ S) (hS : ∀ t ∈ ts, ∀ a ∈ lpParties t, a ∈ S)
    (hb : ∀ t ∈ ts, burnsDirectly p.cfg.shareToken t = false) :
    lpHeld (run me s ts) p S = p.total := by
  induction ts using List.reverseRecOn generalizing p with
  | nil => simp only [run, List.foldl_nil] at hp; rw [h0.1] at hp; simp at hp
  | append_singleton ts t ih =>
    have hinv := run_keeps ts (fun t' h' => ht t' (by simp [h'])) (genesis_inv h0)
    have e : run me s (ts ++ [t]) = exec me (run me s ts) t := by simp [run]
    rw [e] at hp ⊢
    unfold exec at hp ⊢
    have ih' : ∀ {q : State}, (run me s ts).pool = some q → q.cfg.shareToken = p.cfg.shareToken →
        lpHeld (run me s ts) q S = q.total := fun {q} hq hsh =>
      ih (fun t' h' => ht t' (by simp [h'])) hq (fun t' h' => hS t' (by simp [h']))
        (fun t' h' => by rw [hsh]; exact hb t' (by simp [h']))
    cases hst : step me (run me s ts) t with
    | error er =>
      rw [hst] at hp
      exact ih' hp rfl
    | ok s' =>
      rw [hst] at hp
      simp only at hp ⊢
      cases hq : (run me s ts).pool with
      | some q =>
        obtain ⟨q', hq', -, -, hsh, -⟩ := step_pool hst (ht t (by simp)) hinv hq
        rw [hp] at hq'; cases hq'
        have k := step_lp_exact hst (ht t (by simp)) hinv hq hp S hme (hS t (by simp))
          (by rw [← hsh]; exact hb t (by simp))
        have := ih' hq hsh.symm
        omega
      | none =>
        cases t with
        | token c tok op =>
          simp only [step, bind_ok, ok_inj] at hst
          obtain ⟨L', hc, rfl⟩ := hst
          simp only at hp; rw [hq] at hp; simp at hp
        | pool c k =>
          cases k with
          | init i =>
            simp only [step, bind_ok, ok_inj] at hst
            obtain ⟨⟨q, L'⟩, hi, rfl⟩ := hst
            cases hp
            obtain ⟨-, -, hE, -, -, -, eS, -, t, -, tb, -, rfl⟩ := init_inv hi
            unfold lpHeld
            rw [hE.1, eS]; simp only [bal, upd_same, tb]; simp
          | provide sd dA mA dB mB cu dl =>
            simp only [step, hq, loaded, bind_ok, error_ne_ok, false_and, exists_false] at hst
          | swap sd o a mo ms dl mf =>
            simp only [step, hq, loaded, bind_ok, error_ne_ok, false_and, exists_false] at hst
          | withdraw sd sh mA mB dl =>
            simp only [step, hq, loaded, bind_ok, error_ne_ok, false_and, exists_false] at hst
          | updateConfig u =>
            simp only [step, hq, loaded, bind_ok, error_ne_ok, false_and, exists_false] at hst
          | upgrade sl =>
            simp only [step, hq, loaded, bind_ok, error_ne_ok, false_and, exists_false] at hst

/-- the history without the direct burn meets the hypotheses -/
example : (∀ t ∈ exHist.eraseIdx 4, burnsDirectly 12 t = false) ∧
    (∀ t ∈ exHist.eraseIdx 4, ∀ a ∈ lpParties t, a ∈ ({1, 2, 100} : Finset Addr)) ∧
    (run 100 exStart (exHist.eraseIdx 4)).pool.map (fun p => (p.total, p.cfg.shareToken)) = some (914213, 12) := by
  refine ⟨by decide, by decide, by decide +kernel⟩

/-- with the direct burn of 5000 the supply exceeds the balances by exactly 5000 -/
example : ((run 100 exStart exHist).led.bal 12 1 + (run 100 exStart exHist).led.bal 12 2 +
    (run 100 exStart exHist).led.bal 12 100) = 914213 - 5000 := by decide +kernel

/-- **C12** In every reachable state either no deposit has succeeded yet and supply and
reserves are all zero, or the pool itself holds at least 1000 LP tokens, the supply is
at least 1000 and the reserves are not both zero. -/
theorem C12_minimum_liquidity {me : Addr} {s : Sys} (h0 : Genesis me s) (ts : List Tx)
    (ht : ∀ t ∈ ts, Possible me t) {p : State} (hp : (run me s ts).pool = some p) :
    (p.total = 0 ∧ p.resA = 0 ∧ p.resB = 0) ∨
    (1000 ≤ p.total ∧ 1000 ≤ (run me s ts).led.bal p.cfg.shareToken me ∧ ¬ (p.resA = 0 ∧ p.resB = 0)) :=
  ((run_keeps ts ht (genesis_inv h0)).pool p hp).phase

/-- From a locked state on (helper for C12, C13, C17). -/
theorem run_pool {me : Addr} {s : Sys} (us : List Tx) (hs : SysInv me s) (hu : ∀ t ∈ us, Possible me t)
    {p : State} (hp : s.pool = some p) :
    ∃ p', (run me s us).pool = some p' ∧ p'.cfg.tokenA = p.cfg.tokenA ∧ p'.cfg.tokenB = p.cfg.tokenB ∧
      p'.cfg.shareToken = p.cfg.shareToken ∧ p'.cfg.stakeContract = p.cfg.stakeContract ∧
      (Locked me p s.led → Locked me p' (run me s us).led) ∧
      ((∀ t ∈ us, isSwap t = false) →
        p.resA * p'.total ≤ p'.resA * p.total ∧ p.resB * p'.total ≤ p'.resB * p.total) ∧
      ((∀ t ∈ us, t.ctx.auth p.admin = false) →
        p'.cfg = p.cfg ∧ p'.admin = p.admin ∧ p'.defaultSlippageBps = p.defaultSlippageBps) := by
  induction us generalizing s p with
  | nil => exact ⟨p, hp, rfl, rfl, rfl, rfl, fun h => h, fun _ => ⟨le_refl _, le_refl _⟩, fun _ => ⟨rfl, rfl, rfl⟩⟩
  | cons t us ih =>
    have ht := hu t (by simp)
    -- one step
    obtain ⟨p1, h1, a1, b1, c1, d1, e1, f1, g1⟩ : ∃ p1, (exec me s t).pool = some p1 ∧
        p1.cfg.tokenA = p.cfg.tokenA ∧ p1.cfg.tokenB = p.cfg.tokenB ∧ p1.cfg.shareToken = p.cfg.shareToken ∧
        p1.cfg.stakeContract = p.cfg.stakeContract ∧
        (Locked me p s.led → Locked me p1 (exec me s t).led) ∧
        (isSwap t = false → p.resA * p1.total ≤ p1.resA * p.total ∧ p.resB * p1.total ≤ p1.resB * p.total) ∧
        ((p1.cfg ≠ p.cfg ∨ p1.admin ≠ p.admin ∨ p1.defaultSlippageBps ≠ p.defaultSlippageBps) →
          t.ctx.auth p.admin = true) := by
      unfold exec
      cases hst : step me s t with
      | ok s' => exact step_pool hst ht hs hp
      | error e =>
        exact ⟨p, hp, rfl, rfl, rfl, rfl, fun h => h, fun _ => ⟨le_refl _, le_refl _⟩, by simp⟩
    have hs1 := exec_keeps ht hs
    obtain ⟨p2, h2, a2, b2, c2, d2, e2, f2, g2⟩ := ih hs1 (fun t' h' => hu t' (by simp [h'])) h1
    refine ⟨p2, h2, a2.trans a1, b2.trans b1, c2.trans c1, d2.trans d1, fun h => e2 (e1 h), fun hn => ?_, fun hn => ?_⟩
    · obtain ⟨x1, y1⟩ := f1 (hn t (by simp))
      obtain ⟨x2, y2⟩ := f2 (fun t' h' => hn t' (by simp [h']))
      have hP := hs.pool p hp
      have hP1 := hs1.pool p1 h1
      have hP2 := (run_keeps us (fun t' h' => hu t' (by simp [h'])) hs1).pool p2 h2
      have t0 := hP.total_nonneg
      have t1 := hP1.total_nonneg
      have t2 := hP2.total_nonneg
      rcases hP.phase with hE | hE
      · rw [hE.1, hE.2.1, hE.2.2]; simp
      · have l1 : 0 < p1.total := by have := (e1 hE).1; omega
        constructor
        · have k1 : p.resA * p1.total * p2.total ≤ p1.resA * p.total * p2.total :=
            mul_le_mul_of_nonneg_right x1 t2
          have k2 : p1.resA * p2.total * p.total ≤ p2.resA * p1.total * p.total :=
            mul_le_mul_of_nonneg_right x2 t0
          have : (p.resA * p2.total) * p1.total ≤ (p2.resA * p.total) * p1.total := by nlinarith
          exact le_of_mul_le_mul_right this l1
        · have k1 : p.resB * p1.total * p2.total ≤ p1.resB * p.total * p2.total :=
            mul_le_mul_of_nonneg_right y1 t2
          have k2 : p1.resB * p2.total * p.total ≤ p2.resB * p1.total * p.total :=
            mul_le_mul_of_nonneg_right y2 t0
          have : (p.resB * p2.total) * p1.total ≤ (p2.resB * p.total) * p1.total := by nlinarith
          exact le_of_mul_le_mul_right this l1
    · have hn1 := hn t (by simp)
      have e : p1.cfg = p.cfg ∧ p1.admin = p.admin ∧ p1.defaultSlippageBps = p.defaultSlippageBps := by
        by_contra hne
        have : t.ctx.auth p.admin = true := g1 (by tauto)
        rw [hn1] at this; simp at this
      obtain ⟨q1, q2, q3⟩ := g2 (fun t' h' => by rw [e.2.1]; exact hn t' (by simp [h']))
      exact ⟨q1.trans e.1, q2.trans e.2.1, q3.trans e.2.2⟩

/-- **C12** The lock is for ever: once the supply is positive, after any further
history the pool holds at least 1000 LP tokens, the supply is at least 1000 and the
reserves are not both zero. -/
theorem C12_locked_for_ever {me : Addr} {s : Sys} (h0 : Genesis me s) (ts us : List Tx)
    (ht : ∀ t ∈ ts, Possible me t) (hu : ∀ t ∈ us, Possible me t) {p : State}
    (hp : (run me s ts).pool = some p) (hpos : 0 < p.total) :
    ∃ p', (run me s (ts ++ us)).pool = some p' ∧ 1000 ≤ p'.total ∧
      1000 ≤ (run me s (ts ++ us)).led.bal p'.cfg.shareToken me ∧ ¬ (p'.resA = 0 ∧ p'.resB = 0) := by
  have hinv := run_keeps ts ht (genesis_inv h0)
  obtain ⟨p', h', -, -, -, -, hl, -⟩ := run_pool us hinv hu hp
  rw [run_append]
  refine ⟨p', h', hl ?_⟩
  rcases (hinv.pool p hp).phase with hE | hE
  · rw [hE.1] at hpos; simp at hpos
  · exact hE

/-- **C13** Over any history without swaps, starting from any reachable state, the
backing per LP share does not fall for either token: `reserve/supply` before is at most
`reserve/supply` after (cross-multiplied). -/
theorem C13_backing_per_share {me : Addr} {s : Sys} (h0 : Genesis me s) (ts us : List Tx)
    (ht : ∀ t ∈ ts, Possible me t) (hu : ∀ t ∈ us, Possible me t) (hns : ∀ t ∈ us, isSwap t = false)
    {p p' : State} (hp : (run me s ts).pool = some p) (hp' : (run me s (ts ++ us)).pool = some p') :
    p.resA * p'.total ≤ p'.resA * p.total ∧ p.resB * p'.total ≤ p'.resB * p.total := by
  have hinv := run_keeps ts ht (genesis_inv h0)
  obtain ⟨q, hq, -, -, -, -, -, hb, -⟩ := run_pool us hinv hu hp
  rw [run_append, hq] at hp'
  cases hp'
  exact hb hns

/-- deposits and withdrawals after the first four transactions of the example -/
example : (∀ t ∈ exHist.drop 4, isSwap t = false) ∧
    ((run 100 exStart (exHist.take 4)).pool.map (fun p => (p.total, p.resA))) = some (1414213, 1001000) := by
  constructor
  · decide
  · decide +kernel

/-- **C16** In any successful transaction on a reachable state, an account other than
the pool that did not authorise the transaction loses no units of any token, except
when a spender it approved uses the allowance, and then at most the amount used, which
is within the allowance.  (When the transaction deploys the share token, the address of
the new token had no balances.) -/
theorem C16_no_unauthorised_movement {me : Addr} {s0 : Sys} (h0 : Genesis me s0) (ts : List Tx)
    (hts : ∀ t ∈ ts, Possible me t) {t : Tx} {s' : Sys} (h : step me (run me s0 ts) t = .ok s')
    (ht : Possible me t)
    (hfresh : ∀ c i, t = .pool c (.init i) → ∀ a, (run me s0 ts).led.bal i.shareToken a = 0)
    {a : Addr} (ha : a ≠ me) (hna : t.ctx.auth a = false) (tok : Addr)
    (hloss : s'.led.bal tok a < (run me s0 ts).led.bal tok a) :
    ∃ x, UsesAllowance (run me s0 ts).led tok a x t ∧
      (run me s0 ts).led.bal tok a - s'.led.bal tok a ≤ x := by
  have hs := run_keeps ts hts (genesis_inv h0)
  generalize run me s0 ts = s at *
  have hself := ht.1
  cases t with
  | token c tk op =>
    simp only [step, bind_ok, ok_inj] at h
    obtain ⟨L', hc, rfl⟩ := h
    rw [call_ok] at hc
    obtain ⟨t1, h1, rfl⟩ := hc
    simp only [bal, upd_apply] at hloss ⊢
    by_cases e : tok = tk
    swap
    · simp [e] at hloss
    subst e
    simp only [if_true] at hloss ⊢
    have heff := C21_exact_effect h1 a
    simp only [Tx.ctx] at hna
    cases op with
    | mint d x =>
      simp only [Token.call, Token.mint_ok] at h1
      simp only [effect] at heff
      split at heff <;> omega
    | setAdmin n => simp only [effect] at heff; omega
    | approve o sp x e => simp only [effect] at heff; omega
    | transfer sr d x =>
      simp only [Token.call, Token.transfer_ok] at h1
      have hne : sr ≠ a := by rintro rfl; rw [hna] at h1; simp at h1
      simp only [effect, hne, if_false] at heff
      split at heff <;> omega
    | burn sr x =>
      simp only [Token.call, Token.burn_ok] at h1
      have hne : sr ≠ a := by rintro rfl; rw [hna] at h1; simp at h1
      simp only [effect, hne, if_false] at heff
      omega
    | transferFrom sp sr d x =>
      simp only [Token.call, Token.transferFrom, Token.checkNonneg, bind_ok, requireAuth_ok, req_ok] at h1
      obtain ⟨_, hau, _, hx, t2, h2, -⟩ := h1
      have hle := (Token.spendAllowance_ok h2).1
      by_cases hne : sr = a
      · subst hne
        refine ⟨x, ⟨c, sp, hau, hle, .inl ⟨d, rfl⟩⟩, ?_⟩
        simp only [effect] at heff
        split at heff <;> simp at heff <;> omega
      · simp only [effect, hne, if_false] at heff
        split at heff <;> omega
    | burnFrom sp sr x =>
      simp only [Token.call, Token.burnFrom, Token.checkNonneg, bind_ok, requireAuth_ok, req_ok] at h1
      obtain ⟨_, hau, _, hx, t2, h2, -⟩ := h1
      have hle := (Token.spendAllowance_ok h2).1
      by_cases hne : sr = a
      · subst hne
        refine ⟨x, ⟨c, sp, hau, hle, .inr rfl⟩, ?_⟩
        simp only [effect] at heff
        simp at heff; omega
      · simp only [effect, hne, if_false] at heff
        omega
  | pool c k =>
    exfalso
    simp only [Tx.ctx] at hself hna
    have hl : ∀ {p : State}, loaded s.pool = .ok p → s.pool = some p := by
      intro p hp
      unfold loaded at hp; split at hp
      · rename_i q hq; rw [ok_inj] at hp; rw [hq, hp]
      · simp at hp
    cases k with
    | init i =>
      simp only [step, bind_ok, ok_inj] at h
      obtain ⟨⟨p', L'⟩, hi, rfl⟩ := h
      obtain ⟨-, -, -, -, -, -, -, -, t, -, tb, -, rfl⟩ := init_inv hi
      have := hfresh c i rfl a
      simp only [bal, upd_apply] at hloss this
      split at hloss
      · rename_i e; subst e; rw [tb] at hloss; omega
      · omega
    | provide sd dA mA dB mB cu dl =>
      simp only [step, bind_ok, ok_inj] at h
      obtain ⟨p, hp, ⟨p', L'⟩, hk, rfl⟩ := h
      obtain ⟨x, b, m, lock, h1, h2, h3, h4, h5, h6, h7, h8, h9, h10, h11, h12, rfl, h14⟩ :=
        provide_inv hk hself (hs.pool p (hl hp)).distinct
      have hne : sd ≠ a := by rintro rfl; rw [hna] at h2; simp at h2
      simp only at hloss
      rw [h11] at hloss
      simp only [Flow.delta, hne, Ne.symm ha, and_false, if_false] at hloss
      omega
    | swap sd o am mo ms dl mf =>
      simp only [step, bind_ok, ok_inj] at h
      obtain ⟨p, hp, ⟨p', L', r⟩, hk, rfl⟩ := h
      obtain ⟨rate, lim, r, h1, h2, h3, h4, h5, h6, h7, h8, h9, rfl, h11, h12, h13, h14, -⟩ :=
        swap_inv hk hself (hs.pool p (hl hp)).distinct.1
      have hq := quote_core h9
      have hr0 := hq.2.2.2.2.1
      have hc0 := hq.2.2.2.2.2.1
      have hne : sd ≠ a := by rintro rfl; rw [hna] at h3; simp at h3
      simp only at hloss
      rw [h14] at hloss
      simp only [Flow.delta, List.map_cons, List.map_nil, List.sum_cons, List.sum_nil, hne, Ne.symm ha, and_false,
        if_false] at hloss
      split at hloss <;> omega
    | withdraw sd sh mA mB dl =>
      simp only [step, bind_ok, ok_inj] at h
      obtain ⟨p, hp, ⟨p', L', ra, rb⟩, hk, rfl⟩ := h
      obtain ⟨h1, h2, h3, h4, h5, h6, h7, h8, h9, h10, h11, h12, h13, h14, h15, rfl⟩ :=
        withdraw_inv hk hself (hs.pool p (hl hp)).distinct
      have hne : sd ≠ a := by rintro rfl; rw [hna] at h2; simp at h2
      simp only at hloss
      rw [h14] at hloss
      simp only [Flow.delta, hne, Ne.symm ha, and_false, if_false] at hloss
      omega
    | updateConfig u =>
      simp only [step, bind_ok, ok_inj] at h
      obtain ⟨p, hp, p', hk, rfl⟩ := h
      simp at hloss
    | upgrade sl =>
      simp only [step, bind_ok, ok_inj] at h
      obtain ⟨p, hp, p', hk, rfl⟩ := h
      simp at hloss

/-- a case with a loss: spender 5 uses an allowance of account 1 -/
example : ∃ s', step 100 (run 100 exStart (exHist.take 2 ++ [.token (by' 1) 10 (.approve 1 5 30 50)]))
    (.token (by' 5) 10 (.transferFrom 5 1 2 30)) = .ok s' := by
  obtain ⟨s', h, -⟩ := exists_of_okAnd
    (x := step 100 (run 100 exStart (exHist.take 2 ++ [.token (by' 1) 10 (.approve 1 5 30 50)]))
      (.token (by' 5) 10 (.transferFrom 5 1 2 30))) (P := fun _ => true) (by decide +kernel)
  exact ⟨s', h⟩

/-- **C17** A second `initialize` always fails. -/
theorem C17_init_once {me : Addr} {s : Sys} {p : State} (hp : s.pool = some p) (c : Ctx) (i : InitArgs) :
    step me s (.pool c (.init i)) = .error (.code 17) := by
  simp only [step, init, hp]
  rfl

/-- **C17** After any further history the pool is still initialised, with the same two
tokens, share token and stake contract. -/
theorem C17_addresses_fixed {me : Addr} {s : Sys} (h0 : Genesis me s) (ts us : List Tx)
    (ht : ∀ t ∈ ts, Possible me t) (hu : ∀ t ∈ us, Possible me t) {p : State}
    (hp : (run me s ts).pool = some p) :
    ∃ p', (run me s (ts ++ us)).pool = some p' ∧ p'.cfg.tokenA = p.cfg.tokenA ∧ p'.cfg.tokenB = p.cfg.tokenB ∧
      p'.cfg.shareToken = p.cfg.shareToken ∧ p'.cfg.stakeContract = p.cfg.stakeContract := by
  obtain ⟨p', h', a, b, c, d, -⟩ := run_pool us (run_keeps ts ht (genesis_inv h0)) hu hp
  rw [run_append]
  exact ⟨p', h', a, b, c, d⟩

/-- **C17** In every reachable state fee, slippage, spread and referral limits are
between 0 and 10000 basis points, and the two tokens and the share token differ. -/
theorem C17_config_in_range {me : Addr} {s : Sys} (h0 : Genesis me s) (ts : List Tx)
    (ht : ∀ t ∈ ts, Possible me t) {p : State} (hp : (run me s ts).pool = some p) :
    (0 ≤ p.cfg.totalFeeBps ∧ p.cfg.totalFeeBps ≤ 10000) ∧
    (0 ≤ p.cfg.maxSlippageBps ∧ p.cfg.maxSlippageBps ≤ 10000) ∧
    (0 ≤ p.cfg.maxSpreadBps ∧ p.cfg.maxSpreadBps ≤ 10000) ∧
    (0 ≤ p.cfg.maxReferralBps ∧ p.cfg.maxReferralBps ≤ 10000) ∧ DistinctTokens p := by
  have h := (run_keeps ts ht (genesis_inv h0)).pool p hp
  exact ⟨h.cfg.fee, h.cfg.slip, h.cfg.spread, h.cfg.ref, h.distinct⟩

/-- **C17** A history in which the current admin signs nothing leaves admin, all of the
configuration and the default slippage as they were. -/
theorem C17_only_admin_changes {me : Addr} {s : Sys} (h0 : Genesis me s) (ts us : List Tx)
    (ht : ∀ t ∈ ts, Possible me t) (hu : ∀ t ∈ us, Possible me t) {p p' : State}
    (hp : (run me s ts).pool = some p) (hp' : (run me s (ts ++ us)).pool = some p')
    (hno : ∀ t ∈ us, t.ctx.auth p.admin = false) :
    p'.cfg = p.cfg ∧ p'.admin = p.admin ∧ p'.defaultSlippageBps = p.defaultSlippageBps := by
  obtain ⟨q, hq, -, -, -, -, -, -, hc⟩ := run_pool us (run_keeps ts ht (genesis_inv h0)) hu hp
  rw [run_append, hq] at hp'
  cases hp'
  exact hc hno

/-- the admin of the example pool changes the fee; account 1 cannot -/
example : (run 100 exStart (exHist ++ [.pool (by' 8) (.updateConfig { totalFeeBps := some 9000 })])).pool.map
      (fun p => p.cfg.totalFeeBps) = some 9000 ∧
    (run 100 exStart (exHist ++ [.pool (by' 1) (.updateConfig { totalFeeBps := some 9000 })])).pool.map
      (fun p => p.cfg.totalFeeBps) = some 30 := by
  constructor <;> decide +kernel

/-- **C17** The cap on the fee that `initialize` checks (10% in the example) does not
bind later: the admin can set any fee up to 100%. -/
theorem C17_fee_cap_not_kept : ∃ u : ConfigUpdate, exInit.maxAllowedFeeBps = 1000 ∧
    (run 100 exStart (exHist ++ [.pool (by' 8) (.updateConfig u)])).pool.map (fun p => p.cfg.totalFeeBps)
      = some 10000 :=
  ⟨{ totalFeeBps := some 10000 }, rfl, by decide +kernel⟩

end Phoenix.Props
