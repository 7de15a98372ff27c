import Verif.Props.StableSwap
/-!
Property theorems about deposits, withdrawals and whole histories of the stable pool:
C51, C53, C55, C56, C70 - C74.
-/
namespace Phoenix.Props.Stable
open Phoenix Ledger Phoenix.Stable Phoenix.Stable.Spec
open Phoenix.Spec (Settles SameRights Flow Issues NoAllowance supply effect supplyChange)

/-- **C51** In every reachable state both reported reserves are non-negative and not
larger than the pool's actual balances, and the LP supply is not negative. -/
theorem C51_reserves_backed {me : Addr} {s : Sys} (h0 : Genesis me s) (ts : List Tx)
    (ht : ∀ t ∈ ts, Possible me t) {p : State} (hp : (run me s ts).pool = some p) :
    (0 ≤ p.resA ∧ p.resA ≤ (run me s ts).led.bal p.cfg.tokenA me) ∧
    (0 ≤ p.resB ∧ p.resB ≤ (run me s ts).led.bal p.cfg.tokenB me) ∧ 0 ≤ p.total := by
  have h := reach_swap h0 ht hp
  exact ⟨⟨h.a0, h.aB⟩, ⟨h.b0, h.bB⟩, h.t0⟩

/-- **C51** In every reachable state the reported LP supply is at least the sum of the
LP balances of any set of accounts. -/
theorem C51_supply_covers {me : Addr} {s : Sys} (h0 : Genesis me s) (ts : List Tx)
    (ht : ∀ t ∈ ts, Possible me t) {p : State} (hp : (run me s ts).pool = some p) (S : Finset Addr) :
    lpHeld (run me s ts) p S ≤ p.total :=
  (reach_swap h0 ht hp).cover S

/-- **C51** When the supply is zero so are the reserves: the last shares take everything. -/
theorem C51_empty {me : Addr} {s : Sys} (h0 : Genesis me s) (ts : List Tx)
    (ht : ∀ t ∈ ts, Possible me t) {p : State} (hp : (run me s ts).pool = some p) (hz : p.total = 0) :
    p.resA = 0 ∧ p.resB = 0 :=
  (reach_swap h0 ht hp).empty hz

/-- a history with a donation, a swap, a direct burn of LP tokens, an unauthorised
withdrawal and a withdrawal -/
def exLong : List Tx := exHist 100 20000000 20000000 ++
  [ .token (by' 2) 10 (.transfer 2 100 777), exSwap 10 1000000, .token (by' 1) 12 (.burn 1 5000),
    .pool (by' 2) (.withdraw 1 1000 1 1 none), .pool (by' 1) (.withdraw 1 500000 1 1 none) ]
example : (∀ t ∈ exLong, Possible 100 t) ∧
    view (run 100 (exStart 7 7) exLong) = some (39499000, 20737494, 18762984) ∧
    (run 100 (exStart 7 7) exLong).led.bal 10 100 = 20737494 + 777 ∧
    (run 100 (exStart 7 7) exLong).led.bal 12 1 = 39499000 - 5000 := by
  refine ⟨?_, ?_, ?_, ?_⟩
  · intro t ht
    simp only [exLong, exHist, exSwap, List.cons_append, List.nil_append, List.mem_cons, List.not_mem_nil, or_false] at ht
    rcases ht with rfl | rfl | rfl | rfl | rfl | rfl | rfl <;> exact ⟨rfl, by simp [exInit]⟩
  all_goals decide +kernel

/-- A pool with shares outstanding and one reserve exhausted. -/
def Frozen (p : State) : Prop := p.total ≠ 0 ∧ (p.resA = 0 ∨ p.resB = 0)

/-- No swap succeeds with a zero reserve (helper). -/
theorem zero_no_swap {me : Addr} {c : Ctx} {p : State} {L : Ledger} {sender offer : Addr}
    {amount : Int} {mo ms : Option Int} {dl : Option Nat} {mf : Option Int} (hself : c.auth me = false)
    (hP : PoolInv me p L) (hz : p.resA = 0 ∨ p.resB = 0) (r : State × Ledger × Int) :
    swap me c p L sender offer amount mo ms dl mf ≠ .ok r := by
  intro h
  obtain ⟨p', L', ret⟩ := r
  obtain ⟨x, y, a, y', D, v, hx, hy, ha, hy', hlt, -, -, hD, -⟩ := swap_curve h hself hP
  have hpt : IsPoolToken p offer := by
    obtain ⟨_, _, -, -, -, -, h5, -⟩ := swap_inv h hself hP.distinct.1
    exact h5
  have hxy : x = 0 ∨ y = 0 := by
    rcases hpt with rfl | rfl
    · simp [reserve, other, Ne.symm hP.distinct.1] at hx hy; omega
    · simp [reserve, other, Ne.symm hP.distinct.1] at hx hy; omega
  have hu := unitOf_pos (precOf p (other p offer))
  rcases computeD_prod hD with ⟨-, h2⟩ | ⟨h1, h2, -⟩
  · rcases Nat.mul_eq_zero.mp h2 with h | h <;> omega
  · rcases hxy with rfl | rfl <;> simp at h1 h2

/-- No deposit succeeds with shares outstanding and a zero reserve (helper). -/
theorem frozen_no_provide {me : Addr} {c : Ctx} {p : State} {L : Ledger} {sender : Addr}
    {a b : Int} {cu : Option Int} {dl ms : Option Nat} (hself : c.auth me = false)
    (hP : PoolInv me p L) (hz : Frozen p) (r : State × Ledger) :
    provide me c p L sender a b cu dl ms ≠ .ok r := by
  intro h
  obtain ⟨p', L'⟩ := r
  obtain ⟨amp, ua, ub, d, m, h1, h2, h3, h4, h5, h6, h7, h8, h9, h10, h11, h12, -⟩ := provide_inv h hself hP.distinct
  rcases newShares_inv h12 with ⟨h0, -⟩ | ⟨-, oa, ob, d0, ha, hb, hd, hne, -⟩
  · exact hz.1 h0
  · unfold invariantOf at hd
    simp only [bind_ok] at hd
    obtain ⟨x, hx, y, hy, hD⟩ := hd
    have l1 := hP.dec.m
    have l2 := hP.dec.le
    have l3 := hP.dec.a
    have l4 := hP.dec.b
    rw [← l3] at hx
    rw [← l4] at hy
    have ex := scaleValue_le hx (by omega)
    have ey := scaleValue_le hy (by omega)
    rcases computeD_cases hD with ⟨-, -, h⟩ | ⟨hpos, -⟩
    · exact hne h
    · rcases computeD_prod hD with ⟨h1, h2⟩ | ⟨h1, h2, -⟩
      · omega
      · rcases hz.2 with h | h
        · have : oa = 0 := by omega
          subst this; simp [ex] at h1
        · have : ob = 0 := by omega
          subst this; simp [ey] at h2

/-- No withdrawal succeeds with a zero reserve (helper). -/
theorem zero_no_withdraw {me : Addr} {c : Ctx} {p : State} {L : Ledger} {sender : Addr}
    {sh mA mB : Int} {dl : Option Nat} (hself : c.auth me = false)
    (hP : PoolInv me p L) (hz : p.resA = 0 ∨ p.resB = 0) (r : State × Ledger × Int × Int) :
    withdraw me c p L sender sh mA mB dl ≠ .ok r := by
  intro h
  obtain ⟨p', L', ra, rb⟩ := r
  obtain ⟨h1, h2, h3, h4, h5, h6, h7, h8, h9, h10, h11, h12, h13, -⟩ := withdraw_inv h hself hP.distinct
  rcases hz with hz | hz
  · rw [hz] at h12; simp at h12; omega
  · rw [hz] at h13; simp at h13; omega

/-- What one successful transaction keeps of an initialised pool (helper). -/
theorem step_pool {me : Addr} {s s' : Sys} {t : Tx} {p : State} (h : step me s t = .ok s')
    (ht : Possible me t) (hs : SysInv me s) (hp : s.pool = some p) :
    ∃ p', s'.pool = some p' ∧ p'.cfg.tokenA = p.cfg.tokenA ∧ p'.cfg.tokenB = p.cfg.tokenB ∧
      p'.cfg.shareToken = p.cfg.shareToken ∧ p'.cfg.stakeContract = p.cfg.stakeContract ∧
      p'.amp = p.amp ∧ (p'.precA = p.precA ∧ p'.precB = p.precB ∧ p'.maxPrec = p.maxPrec) ∧
      (Frozen p → p'.total = p.total ∧ p'.resA = p.resA ∧ p'.resB = p.resB) := by
  have hP := hs.pool p hp
  have hself := ht.1
  cases t with
  | token c tok op =>
    simp only [step, bind_ok, ok_inj] at h
    obtain ⟨L', hc, rfl⟩ := h
    exact ⟨p, hp, rfl, rfl, rfl, rfl, rfl, ⟨rfl, rfl, rfl⟩, fun _ => ⟨rfl, rfl, rfl⟩⟩
  | pool c k =>
    simp only [Tx.ctx] at hself
    cases k with
    | init i =>
      simp only [step, bind_ok, ok_inj] at h
      obtain ⟨⟨q, L'⟩, hi, rfl⟩ := h
      have := (init_inv hi).1
      rw [hp] at this; simp at this
    | provide sd a b cu dl ms =>
      simp only [step, bind_ok, hp, loaded, ok_inj] at h
      obtain ⟨_, rfl, ⟨q, L'⟩, hk, rfl⟩ := h
      refine ⟨q, rfl, ?_⟩
      have hf : Frozen p → False := fun hz => frozen_no_provide hself hP hz _ hk
      obtain ⟨amp, ua, ub, d, m, h1, h2, h3, h4, h5, h6, h7, h8, h9, h10, h11, h12, h13, h14, h15, rfl⟩ :=
        provide_inv hk hself hP.distinct
      exact ⟨rfl, rfl, rfl, rfl, rfl, ⟨rfl, rfl, rfl⟩, fun hz => (hf hz).elim⟩
    | swap sd o a mo ms dl mf =>
      simp only [step, bind_ok, hp, loaded, ok_inj] at h
      obtain ⟨_, rfl, ⟨q, L', r⟩, hk, rfl⟩ := h
      refine ⟨q, rfl, ?_⟩
      have hf : Frozen p → False := fun hz => zero_no_swap hself hP hz.2 _ hk
      obtain ⟨lim, r, h1, h2, h3, h4, h5, h6, h7, h8, rfl, h10, h11, h12, h13, h14, h15, h16, h17⟩ :=
        swap_inv hk hself hP.distinct.1
      rw [h15]
      exact ⟨rfl, rfl, rfl, rfl, rfl, ⟨rfl, rfl, rfl⟩, fun hz => (hf hz).elim⟩
    | withdraw sd sh mA mB dl =>
      simp only [step, bind_ok, hp, loaded, ok_inj] at h
      obtain ⟨_, rfl, ⟨q, L', ra, rb⟩, hk, rfl⟩ := h
      refine ⟨q, rfl, ?_⟩
      have hf : Frozen p → False := fun hz => zero_no_withdraw hself hP hz.2 _ hk
      obtain ⟨h1, h2, h3, h4, h5, h6, h7, h8, h9, h10, h11, h12, h13, h14, h15, rfl⟩ := withdraw_inv hk hself hP.distinct
      exact ⟨rfl, rfl, rfl, rfl, rfl, ⟨rfl, rfl, rfl⟩, fun hz => (hf hz).elim⟩
    | updateConfig sd u =>
      simp only [step, bind_ok, hp, loaded, ok_inj] at h
      obtain ⟨_, rfl, q, hk, rfl⟩ := h
      refine ⟨q, rfl, ?_⟩
      obtain ⟨-, rfl, -⟩ := updateConfig_inv hk
      exact ⟨rfl, rfl, rfl, rfl, rfl, ⟨rfl, rfl, rfl⟩, fun _ => ⟨rfl, rfl, rfl⟩⟩

/-- The same for a whole history (helper). -/
theorem run_pool {me : Addr} {s : Sys} (us : List Tx) (hs : SysInv me s) (hu : ∀ t ∈ us, Possible me t)
    {p : State} (hp : s.pool = some p) :
    ∃ p', (run me s us).pool = some p' ∧ p'.cfg.tokenA = p.cfg.tokenA ∧ p'.cfg.tokenB = p.cfg.tokenB ∧
      p'.cfg.shareToken = p.cfg.shareToken ∧ p'.cfg.stakeContract = p.cfg.stakeContract ∧
      p'.amp = p.amp ∧ (p'.precA = p.precA ∧ p'.precB = p.precB ∧ p'.maxPrec = p.maxPrec) ∧
      (Frozen p → p'.total = p.total ∧ p'.resA = p.resA ∧ p'.resB = p.resB) := by
  induction us generalizing s p with
  | nil => exact ⟨p, hp, rfl, rfl, rfl, rfl, rfl, ⟨rfl, rfl, rfl⟩, fun _ => ⟨rfl, rfl, rfl⟩⟩
  | cons t us ih =>
    have ht := hu t (by simp)
    obtain ⟨p1, h1, a1, b1, c1, d1, e1, f1, g1⟩ : ∃ p1, (exec me s t).pool = some p1 ∧
        p1.cfg.tokenA = p.cfg.tokenA ∧ p1.cfg.tokenB = p.cfg.tokenB ∧ p1.cfg.shareToken = p.cfg.shareToken ∧
        p1.cfg.stakeContract = p.cfg.stakeContract ∧ p1.amp = p.amp ∧
        (p1.precA = p.precA ∧ p1.precB = p.precB ∧ p1.maxPrec = p.maxPrec) ∧
        (Frozen p → p1.total = p.total ∧ p1.resA = p.resA ∧ p1.resB = p.resB) := by
      unfold exec
      cases hst : step me s t with
      | ok s' => exact step_pool hst ht hs hp
      | error e => exact ⟨p, hp, rfl, rfl, rfl, rfl, rfl, ⟨rfl, rfl, rfl⟩, fun _ => ⟨rfl, rfl, rfl⟩⟩
    obtain ⟨p2, h2, a2, b2, c2, d2, e2, f2, g2⟩ := ih (exec_keeps ht hs) (fun t' h' => hu t' (by simp [h'])) h1
    refine ⟨p2, h2, a2.trans a1, b2.trans b1, c2.trans c1, d2.trans d1, e2.trans e1,
      ⟨f2.1.trans f1.1, f2.2.1.trans f1.2.1, f2.2.2.trans f1.2.2⟩, fun hz => ?_⟩
    obtain ⟨x1, x2, x3⟩ := g1 hz
    have hz1 : Frozen p1 := by unfold Frozen at *; rw [x1, x2, x3]; exact hz
    obtain ⟨y1, y2, y3⟩ := g2 hz1
    exact ⟨y1.trans x1, y2.trans x2, y3.trans x3⟩

/-- One transaction without a direct burn moves LP balances and LP supply by the same
amount, over any set of accounts containing its parties (helper). -/
theorem step_lp_exact {me : Addr} {s s' : Sys} {t : Tx} {p p' : State} (h : step me s t = .ok s')
    (ht : Possible me t) (hs : SysInv me s) (hp : s.pool = some p) (hp' : s'.pool = some p')
    (S : Finset Addr) (hS : ∀ a ∈ lpParties t, a ∈ S)
    (hb : burnsDirectly p.cfg.shareToken t = false) :
    lpHeld s' p' S - p'.total = lpHeld s p S - p.total := by
  have hP := hs.pool p hp
  have hself := ht.1
  unfold lpHeld
  cases t with
  | token c tok op =>
    simp only [step, bind_ok, ok_inj] at h
    obtain ⟨L', hc, rfl⟩ := h
    simp only at hp'
    rw [hp] at hp'; cases hp'
    rw [call_ok] at hc
    obtain ⟨t1, h1, rfl⟩ := hc
    by_cases e : p.cfg.shareToken = tok
    · subst e
      have hsup := C21_supply h1 S hS
      have hch : supplyChange op = 0 := by
        cases op with
        | mint d x =>
          simp only [Token.call, Token.mint_ok] at h1
          rw [hP.admin] at h1
          simp only [Tx.ctx] at hself
          rw [hself] at h1; simp at h1
        | burn a x => simp [burnsDirectly] at hb
        | burnFrom a b x => simp [burnsDirectly] at hb
        | setAdmin a => rfl
        | approve a b x y => rfl
        | transfer a b x => rfl
        | transferFrom a b d x => rfl
      unfold supply at hsup
      simp only [bal, upd_same]
      omega
    · simp only [bal, upd_ne _ _ e]
  | pool c k =>
    simp only [Tx.ctx] at hself
    cases k with
    | init i =>
      simp only [step, bind_ok, ok_inj] at h
      obtain ⟨⟨q, L'⟩, hi, rfl⟩ := h
      have := (init_inv hi).1
      rw [hp] at this; simp at this
    | provide sd a b cu dl ms =>
      simp only [step, bind_ok, hp, loaded, ok_inj] at h
      obtain ⟨_, rfl, ⟨q, L'⟩, hk, rfl⟩ := h
      cases hp'
      obtain ⟨amp, ua, ub, d, m, h1, h2, h3, h4, h5, h6, h7, h8, h9, h10, h11, h12, h13, h14, h15, rfl⟩ :=
        provide_inv hk hself hP.distinct
      obtain ⟨hAB, hSA, hSB⟩ := hP.distinct
      have bS : ∀ u, L'.bal p.cfg.shareToken u =
          s.led.bal p.cfg.shareToken u + (if sd = u then (m : Int) else 0) := by
        intro u; rw [h14]; simp [Flow.delta, Ne.symm hSA, Ne.symm hSB]
      simp only [bS, Finset.sum_add_distrib]
      rw [sum_indicator S sd m (hS sd (by simp [lpParties]))]
      ring
    | swap sd o a mo ms dl mf =>
      simp only [step, bind_ok, hp, loaded, ok_inj] at h
      obtain ⟨_, rfl, ⟨q, L', r⟩, hk, rfl⟩ := h
      cases hp'
      obtain ⟨hAB, hSA, hSB⟩ := hP.distinct
      obtain ⟨lim, r, h1, h2, h3, h4, h5, h6, h7, h8, rfl, h10, h11, h12, h13, h14, h15, h16, h17⟩ :=
        swap_inv hk hself hAB
      have hshare : ∀ a, L'.bal p.cfg.shareToken a = s.led.bal p.cfg.shareToken a := by
        intro a
        have hot : o ≠ p.cfg.shareToken ∧ other p o ≠ p.cfg.shareToken := by
          rcases h5 with rfl | rfl
          · simp [other, Ne.symm hSA, Ne.symm hSB]
          · simp [other, Ne.symm hSA, Ne.symm hSB, Ne.symm hAB]
        rw [h13]; simp [Flow.delta, hot.1, hot.2]
      rw [h15]
      simp only [hshare]
    | withdraw sd sh mA mB dl =>
      simp only [step, bind_ok, hp, loaded, ok_inj] at h
      obtain ⟨_, rfl, ⟨q, L', ra, rb⟩, hk, rfl⟩ := h
      cases hp'
      obtain ⟨h1, h2, h3, h4, h5, h6, h7, h8, h9, h10, h11, h12, h13, h14, h15, rfl⟩ := withdraw_inv hk hself hP.distinct
      obtain ⟨hAB, hSA, hSB⟩ := hP.distinct
      have bS : ∀ u, L'.bal p.cfg.shareToken u = s.led.bal p.cfg.shareToken u - (if sd = u then sh else 0) := by
        intro u; rw [h14]; simp [Flow.delta, Ne.symm hSA, Ne.symm hSB]
      simp only [bS, Finset.sum_sub_distrib]
      rw [sum_indicator S sd sh (hS sd (by simp [lpParties]))]
      ring
    | updateConfig sd u =>
      simp only [step, bind_ok, hp, loaded, ok_inj] at h
      obtain ⟨_, rfl, q, hk, rfl⟩ := h
      cases hp'
      obtain ⟨-, rfl, -⟩ := updateConfig_inv hk
      rfl

/-- **C51** If nobody burned LP tokens directly on the token contract, the reported
supply is exactly the sum of the LP balances of all accounts that took part. -/
theorem C51_supply_exact {me : Addr} {s : Sys} (h0 : Genesis me s) (ts : List Tx)
    (ht : ∀ t ∈ ts, Possible me t) {p : State} (hp : (run me s ts).pool = some p) (S : Finset Addr)
    (hS : ∀ t ∈ ts, ∀ a ∈ lpParties t, a ∈ S)
    (hb : ∀ t ∈ ts, burnsDirectly p.cfg.shareToken t = false) :
    lpHeld (run me s ts) p S = p.total := by
  induction ts using List.reverseRecOn generalizing p with
  | nil => simp only [run, List.foldl_nil] at hp; rw [h0.1] at hp; simp at hp
  | append_singleton ts t ih =>
    have hinv := run_keeps ts (fun t' h' => ht t' (by simp [h'])) (genesis_inv h0)
    have e : run me s (ts ++ [t]) = exec me (run me s ts) t := by simp [run]
    rw [e] at hp ⊢
    unfold exec at hp ⊢
    have ih' : ∀ {q : State}, (run me s ts).pool = some q → q.cfg.shareToken = p.cfg.shareToken →
        lpHeld (run me s ts) q S = q.total := fun {q} hq hsh =>
      ih (fun t' h' => ht t' (by simp [h'])) hq (fun t' h' => hS t' (by simp [h']))
        (fun t' h' => by rw [hsh]; exact hb t' (by simp [h']))
    cases hst : step me (run me s ts) t with
    | error er =>
      rw [hst] at hp
      exact ih' hp rfl
    | ok s' =>
      rw [hst] at hp
      simp only at hp ⊢
      cases hq : (run me s ts).pool with
      | some q =>
        obtain ⟨q', hq', -, -, hsh, -⟩ := step_pool hst (ht t (by simp)) hinv hq
        rw [hp] at hq'; cases hq'
        have k := step_lp_exact hst (ht t (by simp)) hinv hq hp S (hS t (by simp))
          (by rw [← hsh]; exact hb t (by simp))
        have := ih' hq hsh.symm
        omega
      | none =>
        cases t with
        | token c tok op =>
          simp only [step, bind_ok, ok_inj] at hst
          obtain ⟨L', hc, rfl⟩ := hst
          simp only at hp; rw [hq] at hp; simp at hp
        | pool c k =>
          cases k with
          | init i =>
            simp only [step, bind_ok, ok_inj] at hst
            obtain ⟨⟨q, L'⟩, hi, rfl⟩ := hst
            cases hp
            obtain ⟨hn, hlt, hE, hcfg, eA, eB, eS, -, hamp, hk, hdec, t, ta, tb, tal, rfl⟩ := init_inv hi
            unfold lpHeld
            rw [hE.1, eS]; simp only [bal, upd_same, tb]; simp
          | provide sd a b cu dl ms =>
            simp only [step, hq, loaded, bind_ok, error_ne_ok, false_and, exists_false] at hst
          | swap sd o a mo ms dl mf =>
            simp only [step, hq, loaded, bind_ok, error_ne_ok, false_and, exists_false] at hst
          | withdraw sd sh mA mB dl =>
            simp only [step, hq, loaded, bind_ok, error_ne_ok, false_and, exists_false] at hst
          | updateConfig sd u =>
            simp only [step, hq, loaded, bind_ok, error_ne_ok, false_and, exists_false] at hst

/-- the history without the direct burn meets the hypotheses -/
example : (∀ t ∈ exLong.eraseIdx 4, burnsDirectly 12 t = false) ∧
    (∀ t ∈ exLong.eraseIdx 4, ∀ a ∈ lpParties t, a ∈ ({1, 2, 100} : Finset Addr)) ∧
    (run 100 (exStart 7 7) (exLong.eraseIdx 4)).pool.map (fun p => (p.total, p.cfg.shareToken)) = some (39499000, 12) := by
  refine ⟨by decide, by decide, by decide +kernel⟩

/-- **C53** The code asks nobody to authorise `update_config`: in every state of an
initialised pool, with any signer set - also an empty one - anybody can name the stored
admin as sender and become admin and fee recipient with a fee of 100 %. -/
theorem C53_anyone_takes_over {me : Addr} {s : Sys} {p : State} (hp : s.pool = some p) (c : Ctx) (z : Addr) :
    ∃ p', step me s (.pool c (.updateConfig p.admin
        { newAdmin := some z, totalFeeBps := some 10000, feeRecipient := some z })) = .ok { s with pool := some p' } ∧
      p'.admin = z ∧ p'.cfg.totalFeeBps = 10000 ∧ p'.cfg.feeRecipient = z := by
  refine ⟨{ p with admin := z, cfg := { p.cfg with totalFeeBps := 10000, feeRecipient := z } }, ?_, rfl, rfl, rfl⟩
  simp only [step, hp, loaded, bind_ok]
  refine ⟨p, rfl, _, ?_, rfl⟩
  unfold updateConfig
  simp only [bind_ok, req_ok, validateBpsOpt_ok, ok_inj]
  refine ⟨(), trivial, (), ?_, (), ?_, (), ?_, rfl⟩ <;> simp

/-- After such a call, signed by nobody, a swap pays the trader nothing and the attacker
(account 66) everything. -/
example :
    let nobody : Ctx := { now := 10, seq := 20, signed := fun _ => false }
    let s := run 100 (exStart 7 7) (exHist 100 20000000 20000000 ++
      [.pool nobody (.updateConfig 8 { newAdmin := some 66, totalFeeBps := some 10000, feeRecipient := some 66 }),
       exSwap 10 1000000])
    s.led.bal 11 66 = 999504 ∧ s.led.bal 11 2 = 1000000000 ∧ s.led.bal 10 2 = 999000000 := by
  refine ⟨?_, ?_, ?_⟩ <;> decide +kernel

/-- **C53** What does hold (partial: authorisation is missing): a call that names any other sender than the
stored admin is refused, fee, slippage and spread stay between 0 and 10000 basis points,
and nothing but these and the admin and fee recipient changes. -/
theorem C53_sender_must_be_admin_partial {p p' : State} {sd : Addr} {u : ConfigUpdate}
    (h : updateConfig p sd u = .ok p') :
    sd = p.admin ∧ p'.total = p.total ∧ p'.resA = p.resA ∧ p'.resB = p.resB ∧ p'.amp = p.amp ∧
    p'.cfg.tokenA = p.cfg.tokenA ∧ p'.cfg.tokenB = p.cfg.tokenB ∧ p'.cfg.shareToken = p.cfg.shareToken ∧
    (u.newAdmin = none → p'.admin = p.admin) ∧ (u.totalFeeBps = none → p'.cfg.totalFeeBps = p.cfg.totalFeeBps) ∧
    (∀ f, u.totalFeeBps = some f → p'.cfg.totalFeeBps = f ∧ 0 ≤ f ∧ f ≤ 10000) ∧
    (∀ f, u.maxSpreadBps = some f → p'.cfg.maxSpreadBps = f ∧ 0 ≤ f ∧ f ≤ 10000) ∧
    (∀ f, u.maxSlippageBps = some f → p'.cfg.maxSlippageBps = f ∧ 0 ≤ f ∧ f ≤ 10000) := by
  have h' := h
  obtain ⟨h1, rfl, -⟩ := updateConfig_inv h
  unfold updateConfig at h'
  simp only [bind_ok, req_ok, validateBpsOpt_ok, ok_inj] at h'
  obtain ⟨_, -, _, b1, _, b2, _, b3, -⟩ := h'
  refine ⟨h1, rfl, rfl, rfl, rfl, rfl, rfl, rfl, ?_, ?_, ?_, ?_, ?_⟩
  · intro h; simp [h]
  · intro h; simp [h]
  · intro f h; exact ⟨by simp [h], b1 f h⟩
  · intro f h; exact ⟨by simp [h], b3 f h⟩
  · intro f h; exact ⟨by simp [h], b2 f h⟩

/-- **C55** After an `initialize` with amplification `A`, whatever happens later, every
computation at any time uses `100·A`; from the time of `initialize` on
`compute_current_amp` never fails. -/
theorem C55_amp_constant {me : Addr} {s : Sys} (h0 : Genesis me s) (ts us : List Tx)
    (ht : ∀ t ∈ ts, Possible me t) (hu : ∀ t ∈ us, Possible me t) {c : Ctx} {i : InitArgs}
    (hi : Possible me (.pool c (.init i))) {s1 : Sys}
    (hs : step me (run me s ts) (.pool c (.init i)) = .ok s1) :
    ∃ p', (run me s1 us).pool = some p' ∧
      (∀ now r, currentAmp now p'.amp = .ok r → r = 100 * i.amp) ∧
      (∀ now, c.now ≤ now → currentAmp now p'.amp = .ok (100 * i.amp)) := by
  have hinv := run_keeps ts ht (genesis_inv h0)
  have hinv1 := step_keeps hs hi hinv
  have hs' := hs
  simp only [step, bind_ok, ok_inj] at hs'
  obtain ⟨⟨p, L'⟩, hin, rfl⟩ := hs'
  obtain ⟨-, -, -, -, -, -, -, -, hamp, -⟩ := init_inv hin
  obtain ⟨p', h', -, -, -, -, e, -, -⟩ := run_pool us hinv1 hu rfl
  refine ⟨p', h', fun now r hr => ?_, fun now hn => ?_⟩
  · rw [e] at hr
    have := currentAmp_const hr (hinv1.pool p rfl).amp
    rw [this, hamp]
  · rw [e, hamp]
    unfold currentAmp
    simp only [if_neg (not_lt.mpr hn)]

/-- From the invariant alone. -/
theorem withdraw_of_poolInv {me : Addr} {p : State} {L : Ledger} (hP : PoolInv me p L)
    {c : Ctx} {p' : State} {L' : Ledger} {sender : Addr} {sh mA mB ra rb : Int} {dl : Option Nat}
    (hself : c.auth me = false)
    (h : withdraw me c p L sender sh mA mB dl = .ok (p', L', ra, rb)) :
    (ra * p.total ≤ p.resA * sh ∧ rb * p.total ≤ p.resB * sh) ∧
    (p.resA * sh * 10^18 < ra * p.total * 10^18 + p.total * 10^18 + p.total * p.resA ∧
     p.resB * sh * 10^18 < rb * p.total * 10^18 + p.total * 10^18 + p.total * p.resB) ∧
    (sh = p.total → ra = p.resA ∧ rb = p.resB) ∧
    (0 < mA ∧ mA ≤ ra ∧ 0 < mB ∧ mB ≤ rb ∧ 0 < sh ∧ (∀ d, dl = some d → c.now ≤ d) ∧ c.auth sender = true ∧
      sh ≤ L.bal p.cfg.shareToken sender) ∧
    (∀ t u, L'.bal t u = L.bal t u + (Flow.delta ⟨p.cfg.tokenA, me, sender, ra⟩ t u) +
      (Flow.delta ⟨p.cfg.tokenB, me, sender, rb⟩ t u) -
      (if p.cfg.shareToken = t ∧ sender = u then sh else 0)) ∧
    SameRights L L' ∧
    p' = { p with total := p.total - sh, resA := p.resA - ra, resB := p.resB - rb } := by
  obtain ⟨h1, h2, h3, h4, h5, h6, h7, h8, h9, h10, h11, h12, h13, h14, h15, h16⟩ := withdraw_inv h hself hP.distinct
  have hTp : 0 < p.total := by have := hP.t0; omega
  have sA := share_bounds (res := p.resA) (s := sh) hP.a0 h3.le hTp
  have sB := share_bounds (res := p.resB) (s := sh) hP.b0 h3.le hTp
  rw [← h12] at sA
  rw [← h13] at sB
  refine ⟨⟨sA.2.1, sB.2.1⟩, ⟨sA.2.2, sB.2.2⟩, ?_, ⟨h4, h6, h5, h7, h3, h1, h2, h8⟩, h14, h15, h16⟩
  intro e
  have q : (sh * Dec.ONE).tdiv p.total = Dec.ONE := by
    rw [e]; exact Int.mul_tdiv_cancel_left _ (by omega)
  rw [q, Int.mul_tdiv_cancel _ (by decide)] at h12 h13
  exact ⟨h12, h13⟩


/-- **C56** When `withdraw_liquidity` of `sh` out of `T` shares succeeds with `(ra, rb)`:
* neither amount exceeds the pro-rata share, and the shortfall is less than
  `1 + reserve/10^18`; withdrawing the whole supply pays out both reserves exactly;
* the minimums (which must be positive) and the deadline hold and the owner authorised it;
* exactly the shares are destroyed and exactly `ra`, `rb` move from pool to sender, no
  other balance or right changes, reserves and supply drop by exactly that. -/
theorem C56_withdraw_pro_rata {me : Addr} {s : Sys} (h0 : Genesis me s) {ts : List Tx}
    (ht : ∀ t ∈ ts, Possible me t) {p : State} (hp : (run me s ts).pool = some p)
    {c : Ctx} {p' : State} {L' : Ledger} {sender : Addr} {sh mA mB ra rb : Int} {dl : Option Nat}
    (hself : c.auth me = false)
    (h : withdraw me c p (run me s ts).led sender sh mA mB dl = .ok (p', L', ra, rb)) :
    (ra * p.total ≤ p.resA * sh ∧ rb * p.total ≤ p.resB * sh) ∧
    (p.resA * sh * 10^18 < ra * p.total * 10^18 + p.total * 10^18 + p.total * p.resA ∧
     p.resB * sh * 10^18 < rb * p.total * 10^18 + p.total * 10^18 + p.total * p.resB) ∧
    (sh = p.total → ra = p.resA ∧ rb = p.resB) ∧
    (0 < mA ∧ mA ≤ ra ∧ 0 < mB ∧ mB ≤ rb ∧ 0 < sh ∧ (∀ d, dl = some d → c.now ≤ d) ∧ c.auth sender = true ∧
      sh ≤ (run me s ts).led.bal p.cfg.shareToken sender) ∧
    (∀ t u, L'.bal t u = (run me s ts).led.bal t u + (Flow.delta ⟨p.cfg.tokenA, me, sender, ra⟩ t u) +
      (Flow.delta ⟨p.cfg.tokenB, me, sender, rb⟩ t u) -
      (if p.cfg.shareToken = t ∧ sender = u then sh else 0)) ∧
    SameRights (run me s ts).led L' ∧
    p' = { p with total := p.total - sh, resA := p.resA - ra, resB := p.resB - rb } :=
  withdraw_of_poolInv (reach_swap h0 ht hp) hself h
/-- From the invariant alone. -/
theorem deposit_of_poolInv {me : Addr} {p : State} {L : Ledger} (hP : PoolInv me p L)
    {c : Ctx} {p' : State} {L' : Ledger} {sender : Addr} {a b : Int} {cu : Option Int} {dl ms : Option Nat}
    (hself : c.auth me = false)
    (h : provide me c p L sender a b cu dl ms = .ok (p', L')) :
    ∃ m D1 : Nat,
      ((∀ d, dl = some d → c.now ≤ d) ∧ 0 < a ∧ 0 < b ∧ c.auth sender = true ∧
        cu.getD p.cfg.defaultSlippageBps ≤ p.cfg.maxSlippageBps ∧ (∀ k, ms = some k → k ≤ m)) ∧
      (∀ t u, L'.bal t u = L.bal t u + (Flow.delta ⟨p.cfg.tokenA, sender, me, a⟩ t u) +
        (Flow.delta ⟨p.cfg.tokenB, sender, me, b⟩ t u) +
        (if p.cfg.shareToken = t ∧ sender = u then (m : Int) else 0)) ∧
      SameRights L L' ∧
      p' = { p with total := p.total + m, resA := L'.bal p.cfg.tokenA me, resB := L'.bal p.cfg.tokenB me } ∧
      computeD p.amp.nextAmp ((p.resA + a).toNat * unitOf p.precA) ((p.resB + b).toNat * unitOf p.precB) = .ok D1 ∧
      (p.total = 0 → 0 < m ∧ m + 1000 = D1 / unitOf (max p.precA p.precB)) ∧
      (p.total ≠ 0 → ∃ D0 : Nat,
        computeD p.amp.nextAmp (p.resA.toNat * unitOf p.precA) (p.resB.toNat * unitOf p.precB) = .ok D0 ∧
        0 < D0 ∧ D0 ≤ D1 ∧ (m : Int) * D0 ≤ p.total * (D1 - D0) ∧
        p.total * (D1 - D0) * 10^18 < m * D0 * 10^18 + D0 * 10^18 + D0 * p.total) := by
  obtain ⟨amp, ua, ub, d, m, h1, h2, h3, h4, h5, h6, h7, h8, h9, h10, h11, h12, h13, h14, h15, h16⟩ :=
    provide_inv h hself hP.distinct
  obtain ⟨hAB, hSA, hSB⟩ := hP.distinct
  have hns := auth_ne hself h4
  have eamp := currentAmp_const h8 hP.amp
  subst eamp
  have l1 := hP.dec.m
  have l2 := hP.dec.le
  have l3 := hP.dec.a
  have l4 := hP.dec.b
  have hinv : ∀ {u v d : Nat}, invariantOf p.amp.nextAmp u v (L p.cfg.tokenA).decimals (L p.cfg.tokenB).decimals = .ok d →
      computeD p.amp.nextAmp (u * unitOf p.precA) (v * unitOf p.precB) = .ok d := by
    intro u v d hd
    unfold invariantOf at hd
    simp only [bind_ok] at hd
    obtain ⟨x, hx, y, hy, hD⟩ := hd
    rw [← l3] at hx
    rw [← l4] at hy
    rw [scaleValue_le hx (by omega), scaleValue_le hy (by omega)] at hD
    exact hD
  have bA : L'.bal p.cfg.tokenA me = L.bal p.cfg.tokenA me + a := by
    rw [h14]; simp [Flow.delta, hSA, Ne.symm hAB, hns]
  have bB : L'.bal p.cfg.tokenB me = L.bal p.cfg.tokenB me + b := by
    rw [h14]; simp [Flow.delta, hSB, hAB, hns]
  refine ⟨m, d, ⟨h1, h2, h3, h4, h5, h13⟩, h14, h15, by rw [bA, bB]; exact h16, ?_, ?_, ?_⟩
  · have e1 : (p.resA + a).toNat = ua := by omega
    have e2 : (p.resB + b).toNat = ub := by omega
    rw [e1, e2]; exact hinv h11
  · intro hz
    rcases newShares_inv h12 with ⟨-, hm, -, he⟩ | ⟨hne, -⟩
    · rw [← l1]; exact ⟨hm, he⟩
    · exact absurd hz hne
  · intro hz
    rcases newShares_inv h12 with ⟨h, -⟩ | ⟨-, oa, ob, d0, ha, hb, hd, hne, hle, hm⟩
    · exact absurd h hz
    · have e1 : p.resA.toNat = oa := by omega
      have e2 : p.resB.toNat = ob := by omega
      refine ⟨d0, by rw [e1, e2]; exact hinv hd, Nat.pos_of_ne_zero hne, hle, ?_⟩
      have sb := share_bounds (res := p.total) (s := (d : Int) - d0) (T := d0) hP.t0 (by omega)
        (by exact_mod_cast Nat.pos_of_ne_zero hne)
      rw [← hm] at sb
      exact ⟨sb.2.1, sb.2.2⟩


/-- **C56** A successful deposit of `(a, b)`.  It takes exactly `a` and `b` from the
sender and mints `m` shares to the sender only, at least `min_shares_to_receive`; the
deadline holds and the sender authorised it; the reserves become the pool's whole balances
(so donations are absorbed).  Let `D0`, `D1` be the contract's invariants of the old
reserves and of the old reserves plus the deposit:
* first deposit (no shares yet): `m + 1000` is `D1` in units of the finer token, rounded
  down, and `m > 0`;
* later deposits: `m ≤ T·(D1-D0)/D0`, short of it by less than `1 + T/10^18`. -/
theorem C56_deposit_mints {me : Addr} {s : Sys} (h0 : Genesis me s) {ts : List Tx}
    (ht : ∀ t ∈ ts, Possible me t) {p : State} (hp : (run me s ts).pool = some p)
    {c : Ctx} {p' : State} {L' : Ledger} {sender : Addr} {a b : Int} {cu : Option Int} {dl ms : Option Nat}
    (hself : c.auth me = false)
    (h : provide me c p (run me s ts).led sender a b cu dl ms = .ok (p', L')) :
    ∃ m D1 : Nat,
      ((∀ d, dl = some d → c.now ≤ d) ∧ 0 < a ∧ 0 < b ∧ c.auth sender = true ∧
        cu.getD p.cfg.defaultSlippageBps ≤ p.cfg.maxSlippageBps ∧ (∀ k, ms = some k → k ≤ m)) ∧
      (∀ t u, L'.bal t u = (run me s ts).led.bal t u + (Flow.delta ⟨p.cfg.tokenA, sender, me, a⟩ t u) +
        (Flow.delta ⟨p.cfg.tokenB, sender, me, b⟩ t u) +
        (if p.cfg.shareToken = t ∧ sender = u then (m : Int) else 0)) ∧
      SameRights (run me s ts).led L' ∧
      p' = { p with total := p.total + m, resA := L'.bal p.cfg.tokenA me, resB := L'.bal p.cfg.tokenB me } ∧
      computeD p.amp.nextAmp ((p.resA + a).toNat * unitOf p.precA) ((p.resB + b).toNat * unitOf p.precB) = .ok D1 ∧
      (p.total = 0 → 0 < m ∧ m + 1000 = D1 / unitOf (max p.precA p.precB)) ∧
      (p.total ≠ 0 → ∃ D0 : Nat,
        computeD p.amp.nextAmp (p.resA.toNat * unitOf p.precA) (p.resB.toNat * unitOf p.precB) = .ok D0 ∧
        0 < D0 ∧ D0 ≤ D1 ∧ (m : Int) * D0 ≤ p.total * (D1 - D0) ∧
        p.total * (D1 - D0) * 10^18 < m * D0 * 10^18 + D0 * 10^18 + D0 * p.total) :=
  deposit_of_poolInv (reach_swap h0 ht hp) hself h
/-- a first and a second deposit (with a minimum), a withdrawal of everything -/
example : view (run 100 (exStart 7 7) (exHist 100 20000000 20000000 ++
      [.pool (by' 2) (.provide 2 5000000 3000000 (some 100) (some 10) (some 7998000))])) =
      some (47998799, 25000000, 23000000) ∧
    view (run 100 (exStart 7 7) (exHist 100 20000000 20000000 ++
      [.pool (by' 1) (.withdraw 1 39999000 1 1 none)])) = some (0, 0, 0) := by
  constructor <;> decide +kernel

/-- **C70** Users expect a deposit to earn shares.  The code lets a later deposit mint
nothing: account 1 opens the pool with 501 units of each token (2 shares), donates two
tokens of each kind and deposits one unit; account 2 then deposits 0.9 tokens of each kind
and receives no share at all; account 1 withdraws its two shares and with them the whole
pool, including the deposit of account 2. -/
theorem C70_deposit_stolen : ∃ ts : List Tx, (∀ t ∈ ts, Possible 100 t) ∧
    let before := run 100 (exStart 7 7) ts
    let after := run 100 (exStart 7 7) (ts ++ [.pool (by' 2) (.provide 2 9000000 9000000 none none none)])
    let last := run 100 (exStart 7 7) (ts ++ [.pool (by' 2) (.provide 2 9000000 9000000 none none none),
      .pool (by' 1) (.withdraw 1 2 1 1 none)])
    view before = some (2, 20000502, 20000502) ∧
    view after = some (2, 29000502, 29000502) ∧
    after.led.bal 12 2 = 0 ∧ after.led.bal 10 2 = 1000000000 - 9000000 ∧ after.led.bal 11 2 = 1000000000 - 9000000 ∧
    view last = some (0, 0, 0) ∧
    last.led.bal 10 1 = 1000000000 + 9000000 ∧ last.led.bal 11 1 = 1000000000 + 9000000 := by
  refine ⟨exHist 100 501 501 ++
    [.token (by' 1) 10 (.transfer 1 100 20000000), .token (by' 1) 11 (.transfer 1 100 20000000),
     .pool (by' 1) (.provide 1 1 1 none none none)], ?_, ?_⟩
  · intro t ht
    simp only [exHist, List.cons_append, List.nil_append, List.mem_cons, List.not_mem_nil, or_false] at ht
    rcases ht with rfl | rfl | rfl | rfl | rfl <;> exact ⟨rfl, by simp [exInit]⟩
  · refine ⟨?_, ?_, ?_, ?_, ?_, ?_, ?_, ?_⟩ <;> decide +kernel

/-- **C70** What protects a depositor (partial): with `min_shares_to_receive = k` a
successful deposit credits at least `k` shares to the sender. -/
theorem C70_min_shares_partial {me : Addr} {s : Sys} (h0 : Genesis me s) {ts : List Tx}
    (ht : ∀ t ∈ ts, Possible me t) {p : State} (hp : (run me s ts).pool = some p)
    {c : Ctx} {p' : State} {L' : Ledger} {sender : Addr} {a b : Int} {cu : Option Int} {dl : Option Nat} {k : Nat}
    (hself : c.auth me = false)
    (h : provide me c p (run me s ts).led sender a b cu dl (some k) = .ok (p', L')) :
    (run me s ts).led.bal p.cfg.shareToken sender + k ≤ L'.bal p.cfg.shareToken sender := by
  have hP := reach_swap h0 ht hp
  obtain ⟨hAB, hSA, hSB⟩ := hP.distinct
  obtain ⟨m, D1, ⟨-, -, -, -, -, hk⟩, hb, -⟩ := C56_deposit_mints h0 ht hp hself h
  have := hk k rfl
  rw [hb]
  simp [Flow.delta, Ne.symm hSA, Ne.symm hSB]
  omega

/-- **C71** In any successful transaction on a reachable state, an account other than
the pool that did not authorise the transaction loses no units of any token, except
when a spender it approved uses the allowance, and then at most the amount used, which
is within the allowance.  (When the transaction deploys the share token, the address of
the new token had no balances.) -/
theorem C71_no_unauthorised_movement {me : Addr} {s0 : Sys} (h0 : Genesis me s0) (ts : List Tx)
    (hts : ∀ t ∈ ts, Possible me t) {t : Tx} {s' : Sys} (h : step me (run me s0 ts) t = .ok s')
    (ht : Possible me t)
    (hfresh : ∀ c i, t = .pool c (.init i) → ∀ a, (run me s0 ts).led.bal i.shareToken a = 0)
    {a : Addr} (ha : a ≠ me) (hna : t.ctx.auth a = false) (tok : Addr)
    (hloss : s'.led.bal tok a < (run me s0 ts).led.bal tok a) :
    ∃ x, UsesAllowance (run me s0 ts).led tok a x t ∧
      (run me s0 ts).led.bal tok a - s'.led.bal tok a ≤ x := by
  have hs := run_keeps ts hts (genesis_inv h0)
  generalize run me s0 ts = s at *
  have hself := ht.1
  cases t with
  | token c tk op =>
    simp only [step, bind_ok, ok_inj] at h
    obtain ⟨L', hc, rfl⟩ := h
    rw [call_ok] at hc
    obtain ⟨t1, h1, rfl⟩ := hc
    simp only [bal, upd_apply] at hloss ⊢
    by_cases e : tok = tk
    swap
    · simp [e] at hloss
    subst e
    simp only [if_true] at hloss ⊢
    have heff := C21_exact_effect h1 a
    simp only [Tx.ctx] at hna
    cases op with
    | mint d x =>
      simp only [Token.call, Token.mint_ok] at h1
      simp only [effect] at heff
      split at heff <;> omega
    | setAdmin n => simp only [effect] at heff; omega
    | approve o sp x e => simp only [effect] at heff; omega
    | transfer sr d x =>
      simp only [Token.call, Token.transfer_ok] at h1
      have hne : sr ≠ a := by rintro rfl; rw [hna] at h1; simp at h1
      simp only [effect, hne, if_false] at heff
      split at heff <;> omega
    | burn sr x =>
      simp only [Token.call, Token.burn_ok] at h1
      have hne : sr ≠ a := by rintro rfl; rw [hna] at h1; simp at h1
      simp only [effect, hne, if_false] at heff
      omega
    | transferFrom sp sr d x =>
      simp only [Token.call, Token.transferFrom, Token.checkNonneg, bind_ok, requireAuth_ok, req_ok] at h1
      obtain ⟨_, hau, _, hx, t2, h2, -⟩ := h1
      have hle := (Token.spendAllowance_ok h2).1
      by_cases hne : sr = a
      · subst hne
        refine ⟨x, ⟨c, sp, hau, hle, .inl ⟨d, rfl⟩⟩, ?_⟩
        simp only [effect] at heff
        split at heff <;> simp at heff <;> omega
      · simp only [effect, hne, if_false] at heff
        split at heff <;> omega
    | burnFrom sp sr x =>
      simp only [Token.call, Token.burnFrom, Token.checkNonneg, bind_ok, requireAuth_ok, req_ok] at h1
      obtain ⟨_, hau, _, hx, t2, h2, -⟩ := h1
      have hle := (Token.spendAllowance_ok h2).1
      by_cases hne : sr = a
      · subst hne
        refine ⟨x, ⟨c, sp, hau, hle, .inr rfl⟩, ?_⟩
        simp only [effect] at heff
        simp at heff; omega
      · simp only [effect, hne, if_false] at heff
        omega
  | pool c k =>
    exfalso
    simp only [Tx.ctx] at hself hna
    cases k with
    | init i =>
      simp only [step, bind_ok, ok_inj] at h
      obtain ⟨⟨p', L'⟩, hi, rfl⟩ := h
      obtain ⟨hn, hlt, hE, hcfg, eA, eB, eS, -, hamp, hk, hdec, t, ta, tb, tal, rfl⟩ := init_inv hi
      have := hfresh c i rfl a
      simp only [bal, upd_apply] at hloss this
      split at hloss
      · rename_i e; subst e; rw [tb] at hloss; omega
      · omega
    | provide sd x b cu dl ms =>
      simp only [step, bind_ok, ok_inj] at h
      obtain ⟨p, hp, ⟨p', L'⟩, hk, rfl⟩ := h
      obtain ⟨amp, ua, ub, d, m, h1, h2, h3, h4, h5, h6, h7, h8, h9, h10, h11, h12, h13, h14, h15, rfl⟩ :=
        provide_inv hk hself (hs.pool p (loaded_some hp)).distinct
      have hne : sd ≠ a := by rintro rfl; rw [hna] at h4; simp at h4
      simp only at hloss
      rw [h14] at hloss
      simp only [Flow.delta, hne, Ne.symm ha, and_false, if_false] at hloss
      omega
    | swap sd o am mo ms dl mf =>
      simp only [step, bind_ok, ok_inj] at h
      obtain ⟨p, hp, ⟨p', L', r⟩, hk, rfl⟩ := h
      have hP := hs.pool p (loaded_some hp)
      obtain ⟨lim, r, h1, h2, h3, h4, h5, h6, h7, h8, rfl, h10, h11, h12, h13, h14, h15, h16, h17⟩ :=
        swap_inv hk hself hP.distinct.1
      obtain ⟨s0, hr0, hc0, g0, gy⟩ := swap_sizes h8 h11 hP.cfg.fee
      have hne : sd ≠ a := by rintro rfl; rw [hna] at h3; simp at h3
      simp only at hloss
      rw [h13] at hloss
      simp only [Flow.delta, List.map_cons, List.map_nil, List.sum_cons, List.sum_nil, hne, Ne.symm ha, and_false,
        if_false] at hloss
      split at hloss <;> omega
    | withdraw sd sh mA mB dl =>
      simp only [step, bind_ok, ok_inj] at h
      obtain ⟨p, hp, ⟨p', L', ra, rb⟩, hk, rfl⟩ := h
      obtain ⟨h1, h2, h3, h4, h5, h6, h7, h8, h9, h10, h11, h12, h13, h14, h15, rfl⟩ :=
        withdraw_inv hk hself (hs.pool p (loaded_some hp)).distinct
      have hne : sd ≠ a := by rintro rfl; rw [hna] at h2; simp at h2
      simp only at hloss
      rw [h14] at hloss
      simp only [Flow.delta, hne, Ne.symm ha, and_false, if_false] at hloss
      omega
    | updateConfig sd u =>
      simp only [step, bind_ok, ok_inj] at h
      obtain ⟨p, hp, p', hk, rfl⟩ := h
      simp at hloss

/-- a case with a loss: spender 5 uses an allowance of account 1 -/
example : ∃ s', step 100 (run 100 (exStart 7 7) (exHist 100 20000000 20000000 ++ [.token (by' 1) 10 (.approve 1 5 30 50)]))
    (.token (by' 5) 10 (.transferFrom 5 1 2 30)) = .ok s' := by
  obtain ⟨s', h, -⟩ := exists_of_okAnd
    (x := step 100 (run 100 (exStart 7 7) (exHist 100 20000000 20000000 ++ [.token (by' 1) 10 (.approve 1 5 30 50)]))
      (.token (by' 5) 10 (.transferFrom 5 1 2 30))) (P := fun _ => true) (by decide +kernel)
  exact ⟨s', h⟩

/-- **C72** A second `initialize` always fails. -/
theorem C72_init_once {me : Addr} {s : Sys} {p : State} (hp : s.pool = some p) (c : Ctx) (i : InitArgs) :
    step me s (.pool c (.init i)) = .error (.code 7) := by
  simp only [step, init, hp]
  rfl

/-- **C72** After any further history the pool is still initialised, with the same two
tokens, share token, stake contract, amplification and precisions. -/
theorem C72_addresses_fixed {me : Addr} {s : Sys} (h0 : Genesis me s) (ts us : List Tx)
    (ht : ∀ t ∈ ts, Possible me t) (hu : ∀ t ∈ us, Possible me t) {p : State}
    (hp : (run me s ts).pool = some p) :
    ∃ p', (run me s (ts ++ us)).pool = some p' ∧ p'.cfg.tokenA = p.cfg.tokenA ∧ p'.cfg.tokenB = p.cfg.tokenB ∧
      p'.cfg.shareToken = p.cfg.shareToken ∧ p'.cfg.stakeContract = p.cfg.stakeContract ∧ p'.amp = p.amp ∧
      p'.precA = p.precA ∧ p'.precB = p.precB ∧ p'.maxPrec = p.maxPrec := by
  obtain ⟨p', h', a, b, c, d, e, f, -⟩ := run_pool us (run_keeps ts ht (genesis_inv h0)) hu hp
  rw [run_append]
  exact ⟨p', h', a, b, c, d, e, f⟩

/-- **C72** In every reachable state fee, slippage and spread limits are between 0 and
10000 basis points, the three tokens differ, the amplification is 100 times a number from 1
to 1000000, and the stored precisions are the live decimals of the tokens. -/
theorem C72_config_in_range {me : Addr} {s : Sys} (h0 : Genesis me s) (ts : List Tx)
    (ht : ∀ t ∈ ts, Possible me t) {p : State} (hp : (run me s ts).pool = some p) :
    (0 ≤ p.cfg.totalFeeBps ∧ p.cfg.totalFeeBps ≤ 10000) ∧
    (0 ≤ p.cfg.maxSlippageBps ∧ p.cfg.maxSlippageBps ≤ 10000) ∧
    (0 ≤ p.cfg.maxSpreadBps ∧ p.cfg.maxSpreadBps ≤ 10000) ∧ DistinctTokens p ∧
    (∃ k, 1 ≤ k ∧ k ≤ 1000000 ∧ p.amp.nextAmp = 100 * k) ∧
    p.precA = ((run me s ts).led p.cfg.tokenA).decimals ∧ p.precB = ((run me s ts).led p.cfg.tokenB).decimals ∧
    p.maxPrec = max p.precA p.precB ∧ p.maxPrec ≤ 18 := by
  have h := reach_swap h0 ht hp
  exact ⟨h.cfg.fee, h.cfg.slip, h.cfg.spread, h.distinct, h.amp.range, h.dec.a, h.dec.b, h.dec.m, h.dec.le⟩

/-- **C73** A pool with shares outstanding one of whose reserves is zero is frozen for
ever: whatever anybody does, supply and reserves never change again - no swap, deposit or
withdrawal succeeds. -/
theorem C73_frozen_for_ever {me : Addr} {s : Sys} (h0 : Genesis me s) (ts us : List Tx)
    (ht : ∀ t ∈ ts, Possible me t) (hu : ∀ t ∈ us, Possible me t) {p : State}
    (hp : (run me s ts).pool = some p) (ht0 : p.total ≠ 0) (hz : p.resA = 0 ∨ p.resB = 0) :
    ∃ p', (run me s (ts ++ us)).pool = some p' ∧ p'.total = p.total ∧ p'.resA = p.resA ∧ p'.resB = p.resB := by
  obtain ⟨p', h', -, -, -, -, -, -, hf⟩ := run_pool us (run_keeps ts ht (genesis_inv h0)) hu hp
  rw [run_append]
  exact ⟨p', h', hf ⟨ht0, hz⟩⟩

/-- **C73** Such a state is reachable: in a pool of two 4-decimals tokens with 501 units
each, a single swap takes the whole reserve of the bought token. -/
theorem C73_one_swap_freezes : ∃ ts : List Tx, (∀ t ∈ ts, Possible 100 t) ∧
    view (run 100 (exStart 4 4) ts) = some (2, 1003, 0) := by
  refine ⟨exHist 1000000 501 501 ++ [exSwap 10 502], ?_, ?_⟩
  · intro t ht
    simp only [exHist, exSwap, List.cons_append, List.nil_append, List.mem_cons, List.not_mem_nil, or_false] at ht
    rcases ht with rfl | rfl | rfl <;> exact ⟨rfl, by simp [exInit]⟩
  · decide +kernel

/-- **C74** Users (and liquidity providers) expect that exchanging one token for the other
costs the swap fee.  Depositing one-sidedly and withdrawing at once does the same without
any fee: in a pool of 2 + 2 tokens with a fee of 0.3 % account 2 deposits 0.2 tokens of
one kind and 1 unit of the other, withdraws its shares and has exchanged 952381 units for
952379; the same amount sold by `swap` returns 949077. -/
theorem C74_fee_avoided :
    let s := run 100 (exStart 7 7) (exHist 100 20000000 20000000 ++
      [.pool (by' 2) (.provide 2 2000000 1 none none none), .pool (by' 2) (.withdraw 2 1999950 1 1 none)])
    let w := run 100 (exStart 7 7) (exHist 100 20000000 20000000 ++ [exSwap 10 952381])
    1000000000 - s.led.bal 10 2 = 952381 ∧ s.led.bal 11 2 - 1000000000 = 952379 ∧ s.led.bal 12 2 = 0 ∧
    1000000000 - w.led.bal 10 2 = 952381 ∧ w.led.bal 11 2 - 1000000000 = 949077 := by
  refine ⟨?_, ?_, ?_, ?_, ?_⟩ <;> decide +kernel

private theorem map_bind' {α β γ : Type} (x : Res α) (f : α → Res β) (g : β → γ) :
    (x >>= f).map g = x >>= fun a => (f a).map g := by cases x <;> rfl

/-- **C74** In general: what a deposit does does not depend on the fee or on who receives it; the same
call in the same pool with another fee moves the same tokens and mints the same shares. -/
theorem C74_deposit_ignores_fee (self : Addr) (c : Ctx) (p : Stable.State) (L : Ledger) (sender : Addr)
    (a b : Int) (custom : Option Int) (deadline : Option Nat) (minShares : Option Nat) (fee : Int) (z : Addr) :
    Stable.provide self c (charging p fee z) L sender a b custom deadline minShares =
      (Stable.provide self c p L sender a b custom deadline minShares).map
        (fun r => (charging r.1 fee z, r.2)) := by
  have hn : ∀ amp d1 d2 d, newShares (charging p fee z) amp d1 d2 d = newShares p amp d1 d2 d := fun _ _ _ _ => rfl
  have h1 : ∀ {α β : Type} (x : Res α) (f g : α → Res β), (∀ a, f a = g a) → x >>= f = x >>= g := by
    intro α β x f g h; cases x <;> simp [bind, Except.bind, h]
  unfold Stable.provide mintShares
  simp only [hn, map_bind', bind_assoc]
  iterate 18 (apply h1; intro _)
  rfl

/-- **C74** In general: nor does what a withdrawal does.  So the whole exchange of `C74_fee_avoided` is the
same at every fee. -/
theorem C74_withdrawal_ignores_fee (self : Addr) (c : Ctx) (p : Stable.State) (L : Ledger) (sender : Addr)
    (shares minA minB : Int) (deadline : Option Nat) (fee : Int) (z : Addr) :
    Stable.withdraw self c (charging p fee z) L sender shares minA minB deadline =
      (Stable.withdraw self c p L sender shares minA minB deadline).map
        (fun r => (charging r.1 fee z, r.2)) := by
  have h1 : ∀ {α β : Type} (x : Res α) (f g : α → Res β), (∀ a, f a = g a) → x >>= f = x >>= g := by
    intro α β x f g h; cases x <;> simp [bind, Except.bind, h]
  unfold Stable.withdraw burnShares
  have hb : ∀ {α β : Type} (x : α) (f : α → Res β), (Except.ok x : Res α) >>= f = f x := fun _ _ => rfl
  simp only [map_bind', bind_assoc, hb]
  iterate 17 (apply h1; intro _)
  rfl
/-- The hypotheses of C72 and C73_frozen_for_ever are met: by the history of `exLong`, whose setup is the one of its beginning,
and by the history that takes a whole reserve. -/
example : (run 100 (exStart 7 7) (exHist 100 20000000 20000000)).pool.map
      (fun p => (p.cfg.tokenA, p.cfg.tokenB, p.cfg.shareToken, p.amp.nextAmp, p.precA, p.precB)) = some (10, 11, 12, 10000, 7, 7) ∧
    (run 100 (exStart 7 7) exLong).pool.map
      (fun p => (p.cfg.tokenA, p.cfg.tokenB, p.cfg.shareToken, p.amp.nextAmp, p.precA, p.precB)) = some (10, 11, 12, 10000, 7, 7) ∧
    view (run 100 (exStart 4 4) (exHist 1000000 501 501 ++ [exSwap 10 502])) = some (2, 1003, 0) ∧
    view (run 100 (exStart 4 4) (exHist 1000000 501 501 ++ [exSwap 10 502, exSwap 11 10000, .pool (by' 1) (.withdraw 1 1 0 0 none)])) =
      some (2, 1003, 0) := by
  refine ⟨?_, ?_, ?_, ?_⟩ <;> decide +kernel

end Phoenix.Props.Stable
