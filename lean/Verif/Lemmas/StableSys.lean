import Verif.Lemmas.LedgerInv
import Verif.Lemmas.Stable
import Verif.Props.PoolLp
import Verif.Props.Token
/-! The invariant of the stable pool and its preservation by every transaction (helpers). -/
namespace Phoenix.Stable
open Phoenix Ledger Phoenix.Stable.Spec
open Phoenix.Spec (Settles SameRights Flow Issues NoAllowance parties supply)

/-- Fee, slippage and spread limits are basis points. -/
structure CfgOK (p : State) : Prop where
  fee : 0 ≤ p.cfg.totalFeeBps ∧ p.cfg.totalFeeBps ≤ 10000
  slip : 0 ≤ p.cfg.maxSlippageBps ∧ p.cfg.maxSlippageBps ≤ 10000
  spread : 0 ≤ p.cfg.maxSpreadBps ∧ p.cfg.maxSpreadBps ≤ 10000

/-- The amplification never ramps. -/
structure AmpOK (a : AmpParams) : Prop where
  same : a.initAmp = a.nextAmp
  time : a.initTime = a.nextTime
  range : ∃ k, 1 ≤ k ∧ k ≤ 1000000 ∧ a.nextAmp = 100 * k

/-- The stored precisions are the tokens' decimals. -/
structure DecOK (p : State) (L : Ledger) : Prop where
  a : p.precA = (L p.cfg.tokenA).decimals
  b : p.precB = (L p.cfg.tokenB).decimals
  m : p.maxPrec = max p.precA p.precB
  le : p.maxPrec ≤ 18

/-- Invariant of an initialised pool at address `me` with the ledger `L`. -/
structure PoolInv (me : Addr) (p : State) (L : Ledger) : Prop where
  distinct : DistinctTokens p
  admin : (L p.cfg.shareToken).admin = me
  a0 : 0 ≤ p.resA
  aB : p.resA ≤ L.bal p.cfg.tokenA me
  b0 : 0 ≤ p.resB
  bB : p.resB ≤ L.bal p.cfg.tokenB me
  cover : ∀ S : Finset Addr, ∑ a ∈ S, L.bal p.cfg.shareToken a ≤ p.total
  t0 : 0 ≤ p.total
  empty : p.total = 0 → p.resA = 0 ∧ p.resB = 0
  cfg : CfgOK p
  amp : AmpOK p.amp
  dec : DecOK p L

theorem noAllow_same {me : Addr} {L L' : Ledger} (h : NoAllowance me L) (hs : SameRights L L') :
    NoAllowance me L' := fun t sp => by rw [(hs t).2.1]; exact h t sp

theorem bps_rate {f rate : Int} (h : Dec.bps f = .ok rate) (hf : 0 ≤ f ∧ f ≤ 10000) :
    rate = f * 10 ^ 14 ∧ 0 ≤ rate ∧ rate ≤ Dec.ONE := by
  rw [Dec.bps_ok] at h
  obtain ⟨-, rfl⟩ := h
  have e : Dec.ONE = 1000000000000000000 := rfl
  refine ⟨by norm_num, by omega, by rw [e]; omega⟩

/-- Sizes in a successful swap. -/
theorem swap_sizes {p : State} {now : Nat} {s b : Side} {amount lim : Int} {r : Quote}
    (hq : quote now p s b amount = .ok r) (hm : assertMaxSpread lim (r.ret + r.commission) r.spread = .ok ())
    (hf : 0 ≤ p.cfg.totalFeeBps ∧ p.cfg.totalFeeBps ≤ 10000) :
    0 ≤ s.res ∧ 0 ≤ r.ret ∧ 0 ≤ r.commission ∧ 0 < r.ret + r.commission ∧ r.ret + r.commission ≤ b.res := by
  obtain ⟨amp, x, y, a, na, nx, sx, sy, rate, hx, hy, ha, hrate, hamp, hnx, hsx, hsy, hna, hle, hg, hs, hcom⟩ := quote_inv hq
  obtain ⟨-, r0, r1⟩ := bps_rate hrate hf
  obtain ⟨-, c0, c1⟩ := commission_bounds hcom (by omega) r0 r1
  unfold assertMaxSpread at hm
  simp only [bind_ok, Dec.fromRatio_ok] at hm
  obtain ⟨_, ⟨hne, -⟩, -⟩ := hm
  exact ⟨by omega, by omega, by omega, by omega, by omega⟩

/-! Preservation, call by call. -/

theorem swap_keeps {me : Addr} {c : Ctx} {p p' : State} {L L' : Ledger} {sender offer : Addr}
    {amount ret : Int} {mo ms : Option Int} {dl : Option Nat} {mf : Option Int}
    (h : swap me c p L sender offer amount mo ms dl mf = .ok (p', L', ret))
    (hself : c.auth me = false) (hL : LedInv me L) (hp : PoolInv me p L) :
    LedInv me L' ∧ PoolInv me p' L' := by
  obtain ⟨hAB, hSA, hSB⟩ := hp.distinct
  obtain ⟨lim, r, h1, h2, h3, h4, h5, h6, h7, h8, rfl, h10, h11, h12, h13, h14, h15, h16, h17⟩ := swap_inv h hself hAB
  obtain ⟨s0, hr0, hc0, g0, gy⟩ := swap_sizes h8 h11 hp.cfg.fee
  simp only at s0 gy
  have hns := auth_ne hself h3
  have hcfg : p'.cfg = p.cfg := by rw [h15]
  have htot : p'.total = p.total := by rw [h15]
  have hpos : p.total ≠ 0 := by
    intro hz
    have := hp.empty hz
    have : reserve p (other p offer) = 0 := by
      unfold reserve; split
      · exact this.1
      · split
        · exact this.2
        · rfl
    omega
  have hshare : ∀ a, L'.bal p.cfg.shareToken a = L.bal p.cfg.shareToken a := by
    intro a
    have hot : offer ≠ p.cfg.shareToken ∧ other p offer ≠ p.cfg.shareToken := by
      rcases h5 with rfl | rfl
      · simp [other, Ne.symm hSA, Ne.symm hSB]
      · simp [other, Ne.symm hSA, Ne.symm hSB, Ne.symm hAB]
    rw [h13]; simp [Flow.delta, hot.1, hot.2]
  have hres : reserve p offer ≤ L.bal offer me ∧ reserve p (other p offer) ≤ L.bal (other p offer) me := by
    rcases h5 with rfl | rfl
    · simp only [reserve, other, Ne.symm hAB, if_true, if_false]; exact ⟨hp.aB, hp.bB⟩
    · simp only [reserve, other, Ne.symm hAB, if_true, if_false]; exact ⟨hp.bB, hp.aB⟩
  have bo : reserve p' offer ≤ L'.bal offer me := by
    rw [h16, h13]; simp [Flow.delta, h6, hns]; omega
  have ba : reserve p' (other p offer) ≤ L'.bal (other p offer) me := by
    rw [h17, h13]; simp [Flow.delta, Ne.symm h6, hns]; split <;> omega
  have r0 : 0 < reserve p' offer := by omega
  have r1 : 0 ≤ reserve p' (other p offer) := by omega
  have hall : 0 ≤ p'.resA ∧ 0 ≤ p'.resB ∧ p'.resA ≤ L'.bal p.cfg.tokenA me ∧ p'.resB ≤ L'.bal p.cfg.tokenB me := by
    rcases h5 with rfl | rfl
    · simp only [reserve, other, hcfg, Ne.symm hAB, if_true, if_false] at bo ba r0 r1
      exact ⟨by omega, by omega, bo, ba⟩
    · simp only [reserve, other, hcfg, Ne.symm hAB, if_true, if_false] at bo ba r0 r1
      exact ⟨by omega, by omega, ba, bo⟩
  refine ⟨⟨fun t a => ?_, noAllow_same hL.noAllow h14⟩, ?_⟩
  · have n := hL.nonneg t a
    rw [h13]
    simp only [Flow.delta, List.map_cons, List.map_nil, List.sum_cons, List.sum_nil]
    by_cases t1 : offer = t
    · subst t1
      by_cases a1 : sender = a
      · subst a1; simp [h6, Ne.symm hns]; omega
      · simp [h6, a1]; split <;> omega
    · by_cases t2 : other p offer = t
      · subst t2
        simp only [t1, false_and, true_and, if_false]
        by_cases a1 : me = a
        · subst a1; simp [hns]; split <;> omega
        · simp [a1]; split <;> split <;> omega
      · simp [t1, t2, n]
  · have dist : DistinctTokens p' := by unfold DistinctTokens; rw [hcfg]; exact hp.distinct
    refine ⟨dist, ?_, hall.1, by rw [hcfg]; exact hall.2.2.1, hall.2.1, by rw [hcfg]; exact hall.2.2.2, ?_,
      by rw [htot]; exact hp.t0, fun hz => absurd (htot ▸ hz) hpos, ?_, by rw [h15]; exact hp.amp, ?_⟩
    · rw [hcfg, (h14 _).1]; exact hp.admin
    · intro S
      rw [hcfg, htot]
      simp only [hshare]
      exact hp.cover S
    · obtain ⟨a, b, c⟩ := hp.cfg
      constructor <;> rw [hcfg] <;> assumption
    · obtain ⟨a, b, c, d⟩ := hp.dec
      refine ⟨?_, ?_, ?_, ?_⟩
      · rw [hcfg, (h14 _).2.2, h15]; exact a
      · rw [hcfg, (h14 _).2.2, h15]; exact b
      · rw [h15]; exact c
      · rw [h15]; exact d

theorem provide_keeps {me : Addr} {c : Ctx} {p p' : State} {L L' : Ledger} {sender : Addr}
    {a b : Int} {cu : Option Int} {dl : Option Nat} {ms : Option Nat}
    (h : provide me c p L sender a b cu dl ms = .ok (p', L'))
    (hself : c.auth me = false) (hL : LedInv me L) (hp : PoolInv me p L) :
    LedInv me L' ∧ PoolInv me p' L' ∧ 0 < p'.total := by
  obtain ⟨amp, ua, ub, d, m, h1, h2, h3, h4, h5, h6, h7, h8, h9, h10, h11, h12, h13, h14, h15, rfl⟩ :=
    provide_inv h hself hp.distinct
  obtain ⟨hAB, hSA, hSB⟩ := hp.distinct
  have hns := auth_ne hself h4
  have nA := hL.nonneg p.cfg.tokenA me
  have nB := hL.nonneg p.cfg.tokenB me
  have bA : L'.bal p.cfg.tokenA me = L.bal p.cfg.tokenA me + a := by
    rw [h14]; simp [Flow.delta, hSA, Ne.symm hAB, hns]
  have bB : L'.bal p.cfg.tokenB me = L.bal p.cfg.tokenB me + b := by
    rw [h14]; simp [Flow.delta, hSB, hAB, hns]
  have bS : ∀ u, L'.bal p.cfg.shareToken u =
      L.bal p.cfg.shareToken u + (if sender = u then (m : Int) else 0) := by
    intro u; rw [h14]; simp [Flow.delta, Ne.symm hSA, Ne.symm hSB]
  have hm0 : (0 : Int) ≤ m := by positivity
  have hpos : 0 < p.total + m := by
    have := hp.t0
    rcases newShares_inv h12 with ⟨-, hs, -⟩ | ⟨hne, -⟩
    · omega
    · omega
  refine ⟨⟨fun t u => ?_, noAllow_same hL.noAllow h15⟩, ⟨⟨hAB, hSA, hSB⟩, ?_, ?_, ?_, ?_, ?_, ?_, ?_, ?_, ?_, hp.amp, ?_⟩, hpos⟩
  · have n := hL.nonneg t u
    rw [h14]
    simp only [Flow.delta]
    by_cases t1 : p.cfg.tokenA = t
    · subst t1
      simp only [Ne.symm hAB, hSA, true_and, false_and, if_false]
      by_cases a1 : sender = u
      · subst a1; simp [Ne.symm hns]; omega
      · simp [a1]; split <;> omega
    · by_cases t2 : p.cfg.tokenB = t
      · subst t2
        simp only [hAB, hSB, true_and, false_and, if_false]
        by_cases a1 : sender = u
        · subst a1; simp [Ne.symm hns]; omega
        · simp [a1]; split <;> omega
      · simp only [t1, t2, false_and, if_false]
        split <;> omega
  · simp only; rw [(h15 _).1]; exact hp.admin
  · simp only; omega
  · simp only; rw [bA]
  · simp only; omega
  · simp only; rw [bB]
  · intro S
    simp only [bS, Finset.sum_add_distrib]
    have k1 := sum_ind_le S sender hm0
    have k3 := hp.cover S
    omega
  · simp only; omega
  · intro hz; simp only at hz; omega
  · obtain ⟨a, b, c⟩ := hp.cfg
    constructor <;> assumption
  · obtain ⟨a, b, c, d⟩ := hp.dec
    exact ⟨by rw [(h15 _).2.2]; exact a, by rw [(h15 _).2.2]; exact b, c, d⟩

theorem withdraw_keeps {me : Addr} {c : Ctx} {p p' : State} {L L' : Ledger} {sender : Addr}
    {sh mA mB ra rb : Int} {dl : Option Nat}
    (h : withdraw me c p L sender sh mA mB dl = .ok (p', L', ra, rb))
    (hself : c.auth me = false) (hL : LedInv me L) (hp : PoolInv me p L) :
    LedInv me L' ∧ PoolInv me p' L' := by
  obtain ⟨h1, h2, h3, h4, h5, h6, h7, h8, h9, h10, h11, h12, h13, h14, h15, rfl⟩ := withdraw_inv h hself hp.distinct
  obtain ⟨hAB, hSA, hSB⟩ := hp.distinct
  have hns := auth_ne hself h2
  have ht0 := hp.t0
  have hTp : 0 < p.total := by omega
  have sA := Props.share_bounds (res := p.resA) (s := sh) hp.a0 h3.le hTp
  have sB := Props.share_bounds (res := p.resB) (s := sh) hp.b0 h3.le hTp
  rw [← h12] at sA
  rw [← h13] at sB
  have hcov : sh ≤ p.total := by
    have := hp.cover {sender}
    rw [Finset.sum_singleton] at this
    omega
  have bA : L'.bal p.cfg.tokenA me = L.bal p.cfg.tokenA me - ra := by
    rw [h14]; simp [Flow.delta, hSA, Ne.symm hAB, hns]; ring
  have bB : L'.bal p.cfg.tokenB me = L.bal p.cfg.tokenB me - rb := by
    rw [h14]; simp [Flow.delta, hSB, hAB, hns]; ring
  have bS : ∀ u, L'.bal p.cfg.shareToken u = L.bal p.cfg.shareToken u - (if sender = u then sh else 0) := by
    intro u; rw [h14]; simp [Flow.delta, Ne.symm hSA, Ne.symm hSB]
  have lt : ∀ {x y : Int}, 0 ≤ y → x * p.total ≤ y * sh → x ≤ y := by
    intro x y hy hxy
    by_contra hlt
    have : y + 1 ≤ x := by omega
    nlinarith
  have la := lt hp.a0 sA.2.1
  have lb := lt hp.b0 sB.2.1
  have hall : p.total - sh = 0 → p.resA - ra = 0 ∧ p.resB - rb = 0 := by
    intro hz
    have e : sh = p.total := by omega
    have q : (sh * Dec.ONE).tdiv p.total = Dec.ONE := by
      rw [e]; exact Int.mul_tdiv_cancel_left _ (by omega)
    rw [q, Int.mul_tdiv_cancel _ (by decide)] at h12 h13
    omega
  refine ⟨⟨fun t u => ?_, noAllow_same hL.noAllow h15⟩, ⟨⟨hAB, hSA, hSB⟩, ?_, ?_, ?_, ?_, ?_, ?_, ?_, hall, ?_, hp.amp, ?_⟩⟩
  · have n := hL.nonneg t u
    rw [h14]
    simp only [Flow.delta]
    by_cases t1 : p.cfg.tokenA = t
    · subst t1
      simp only [Ne.symm hAB, hSA, true_and, false_and, if_false]
      by_cases a1 : me = u
      · subst a1; simp [hns]; omega
      · simp [a1]; split <;> omega
    · by_cases t2 : p.cfg.tokenB = t
      · subst t2
        simp only [hAB, hSB, true_and, false_and, if_false]
        by_cases a1 : me = u
        · subst a1; simp [hns]; omega
        · simp [a1]; split <;> omega
      · simp only [t1, t2, false_and, if_false]
        by_cases t3 : p.cfg.shareToken = t
        · subst t3
          by_cases a1 : sender = u
          · subst a1; simp; omega
          · simp [a1]; omega
        · simp [t3]; omega
  · simp only; rw [(h15 _).1]; exact hp.admin
  · simp only; omega
  · simp only; rw [bA]; have := hp.aB; omega
  · simp only; omega
  · simp only; rw [bB]; have := hp.bB; omega
  · intro S
    simp only [bS]
    rw [Finset.sum_sub_distrib, Finset.sum_ite_eq]
    by_cases hS : sender ∈ S
    · simp only [hS, if_true]
      have := hp.cover S; omega
    · simp only [hS, if_false]
      have k := hp.cover (insert sender S)
      rw [Finset.sum_insert hS] at k
      omega
  · simp only; omega
  · obtain ⟨a, b, c⟩ := hp.cfg
    constructor <;> assumption
  · obtain ⟨a, b, c, d⟩ := hp.dec
    exact ⟨by rw [(h15 _).2.2]; exact a, by rw [(h15 _).2.2]; exact b, c, d⟩

/-- Invariant of the system: a pool, once initialised, satisfies `PoolInv`. -/
structure SysInv (me : Addr) (s : Sys) : Prop where
  led : LedInv me s.led
  pool : ∀ p, s.pool = some p → PoolInv me p s.led

theorem init_inv {self : Addr} {c : Ctx} {p : Option State} {L L' : Ledger} {i : InitArgs} {p' : State}
    (h : init self c p L i = .ok (p', L')) :
    p = none ∧ i.tokenA < i.tokenB ∧ (p'.total = 0 ∧ p'.resA = 0 ∧ p'.resB = 0) ∧ CfgOK p' ∧
    p'.cfg.tokenA = i.tokenA ∧ p'.cfg.tokenB = i.tokenB ∧ p'.cfg.shareToken = i.shareToken ∧ p'.admin = i.admin ∧
    p'.amp = ⟨100 * i.amp, c.now, 100 * i.amp, c.now⟩ ∧ (1 ≤ i.amp ∧ i.amp ≤ 1000000) ∧
    DecOK p' L ∧
    ∃ t : Token, t.admin = self ∧ (∀ a, t.bal a = 0) ∧ (∀ a b, (t.allow a b).amount = 0) ∧
      L' = upd L i.shareToken t := by
  unfold init at h
  simp only [bind_ok, req_ok, validateBps_ok, ok_inj, Token.construct, Prod.mk.injEq, mul64_ok] at h
  obtain ⟨_, hp, _, b1, _, b2, _, b3, _, b4, _, b5, _, b6, _, hlt, t, ⟨_, hd, rfl⟩, _, -, _, -, _, -, _, ha, _, ⟨-, rfl⟩,
    rfl, rfl⟩ := h
  refine ⟨by simpa using hp, hlt, ⟨rfl, rfl, rfl⟩, ⟨b1, b2, b3⟩, rfl, rfl, rfl, rfl, ?_, ⟨by omega, ha.2⟩,
    ⟨rfl, rfl, rfl, hd⟩, _, rfl, fun _ => rfl, fun _ _ => rfl, rfl⟩
  simp only [mul_comm]

theorem loaded_some {p : Option State} {q : State} (h : loaded p = .ok q) : p = some q := by
  unfold loaded at h; split at h
  · rw [ok_inj] at h; rw [h]
  · simp at h

theorem updateConfig_inv {p p' : State} {sd : Addr} {u : ConfigUpdate} (h : updateConfig p sd u = .ok p') :
    sd = p.admin ∧ p' = { p with
      admin := u.newAdmin.getD p.admin
      cfg := { p.cfg with
        totalFeeBps := u.totalFeeBps.getD p.cfg.totalFeeBps
        feeRecipient := u.feeRecipient.getD p.cfg.feeRecipient
        maxSlippageBps := u.maxSlippageBps.getD p.cfg.maxSlippageBps
        maxSpreadBps := u.maxSpreadBps.getD p.cfg.maxSpreadBps } } ∧ (CfgOK p → CfgOK p') := by
  unfold updateConfig at h
  simp only [bind_ok, req_ok, validateBpsOpt_ok, ok_inj] at h
  obtain ⟨_, hs, _, b1, _, b2, _, b3, rfl⟩ := h
  have opt : ∀ {v : Option Int} {x : Int}, (∀ y, v = some y → 0 ≤ y ∧ y ≤ 10000) → (0 ≤ x ∧ x ≤ 10000) →
      0 ≤ v.getD x ∧ v.getD x ≤ 10000 := by
    intro v x h1 h2; cases v with
    | none => exact h2
    | some y => exact h1 y rfl
  exact ⟨hs, rfl, fun h => ⟨opt b1 h.fee, opt b2 h.slip, opt b3 h.spread⟩⟩

theorem call_decimals {c : Ctx} {L L' : Ledger} {tok : Addr} {op : TokenOp} (h : L.call c tok op = .ok L') (t : Addr) :
    (L' t).decimals = (L t).decimals := by
  rw [call_ok] at h
  obtain ⟨t1, h1, rfl⟩ := h
  simp only [upd_apply]; split
  · rename_i e; rw [e]; exact (Props.token_call_inv h1).2.2
  · rfl

theorem step_keeps {me : Addr} {s s' : Sys} {t : Tx} (h : step me s t = .ok s')
    (ht : Possible me t) (hs : SysInv me s) : SysInv me s' := by
  obtain ⟨hself, hposs⟩ := ht
  cases t with
  | token c tok op =>
    simp only [step, bind_ok, ok_inj] at h
    obtain ⟨L', hc, rfl⟩ := h
    obtain ⟨k1, k2, k3⟩ := ledger_call_others hc hself hs.led
    refine ⟨k1, fun p hp => ?_⟩
    have hP := hs.pool p hp
    refine ⟨hP.distinct, k3 _ hP.admin, hP.a0, hP.aB.trans (k2 _), hP.b0, hP.bB.trans (k2 _),
      fun S => ledger_call_cover hc hself hs.led _ hP.admin hP.cover S, hP.t0, hP.empty, hP.cfg, hP.amp, ?_⟩
    exact ⟨by rw [call_decimals hc]; exact hP.dec.a, by rw [call_decimals hc]; exact hP.dec.b, hP.dec.m, hP.dec.le⟩
  | pool c k =>
    simp only [Tx.ctx] at hself
    cases k with
    | init i =>
      simp only [step, bind_ok, ok_inj] at h
      obtain ⟨⟨p', L'⟩, hi, rfl⟩ := h
      obtain ⟨hn, hlt, hE, hcfg, eA, eB, eS, -, hamp, hk, hdec, t, ta, tb, tal, rfl⟩ := init_inv hi
      simp only at hposs
      refine ⟨⟨fun t' a => ?_, fun t' sp => ?_⟩, fun q hq => ?_⟩
      · simp only [bal, upd_apply]; split
        · rw [tb]
        · exact hs.led.nonneg t' a
      · simp only [upd_apply]; split
        · rw [tal]
        · exact hs.led.noAllow t' sp
      · cases hq
        refine ⟨⟨?_, ?_, ?_⟩, ?_, hE.2.1.ge, ?_, hE.2.2.ge, ?_, ?_, hE.1.ge, fun _ => hE.2, hcfg, ?_, ?_⟩
        · rw [eA, eB]; exact Nat.ne_of_lt hlt
        · rw [eS, eA]; exact hposs.1
        · rw [eS, eB]; exact hposs.2
        · simp only; rw [eS, upd_same]; exact ta
        · rw [hE.2.1, eA]; simp only [bal]; rw [upd_ne _ _ (Ne.symm hposs.1)]; exact hs.led.nonneg _ _
        · rw [hE.2.2, eB]; simp only [bal]; rw [upd_ne _ _ (Ne.symm hposs.2)]; exact hs.led.nonneg _ _
        · intro S; rw [hE.1, eS]; simp only [bal, upd_same, tb]; simp
        · rw [hamp]; exact ⟨rfl, rfl, i.amp, hk.1, hk.2, rfl⟩
        · refine ⟨?_, ?_, hdec.m, hdec.le⟩
          · rw [eA]; simp only; rw [upd_ne _ _ (Ne.symm hposs.1), ← eA]; exact hdec.a
          · rw [eB]; simp only; rw [upd_ne _ _ (Ne.symm hposs.2), ← eB]; exact hdec.b
    | provide sd a b cu dl ms =>
      simp only [step, bind_ok, ok_inj] at h
      obtain ⟨p, hp, ⟨p', L'⟩, hk, rfl⟩ := h
      have k := provide_keeps hk hself hs.led (hs.pool p (loaded_some hp))
      exact ⟨k.1, fun q hq => by cases hq; exact k.2.1⟩
    | swap sd o a mo ms dl mf =>
      simp only [step, bind_ok, ok_inj] at h
      obtain ⟨p, hp, ⟨p', L', r⟩, hk, rfl⟩ := h
      have k := swap_keeps hk hself hs.led (hs.pool p (loaded_some hp))
      exact ⟨k.1, fun q hq => by cases hq; exact k.2⟩
    | withdraw sd sh mA mB dl =>
      simp only [step, bind_ok, ok_inj] at h
      obtain ⟨p, hp, ⟨p', L', ra, rb⟩, hk, rfl⟩ := h
      have k := withdraw_keeps hk hself hs.led (hs.pool p (loaded_some hp))
      exact ⟨k.1, fun q hq => by cases hq; exact k.2⟩
    | updateConfig sd u =>
      simp only [step, bind_ok, ok_inj] at h
      obtain ⟨p, hp, p', hk, rfl⟩ := h
      refine ⟨hs.led, fun q hq => ?_⟩
      cases hq
      have hP := hs.pool p (loaded_some hp)
      obtain ⟨-, rfl, hc⟩ := updateConfig_inv hk
      exact ⟨hP.distinct, hP.admin, hP.a0, hP.aB, hP.b0, hP.bB, hP.cover, hP.t0, hP.empty, hc hP.cfg, hP.amp,
        ⟨hP.dec.a, hP.dec.b, hP.dec.m, hP.dec.le⟩⟩

theorem exec_keeps {me : Addr} {s : Sys} {t : Tx} (ht : Possible me t) (hs : SysInv me s) :
    SysInv me (exec me s t) := by
  unfold exec
  cases h : step me s t with
  | ok s' => exact step_keeps h ht hs
  | error e => exact hs

theorem run_keeps {me : Addr} {s : Sys} (ts : List Tx) (ht : ∀ t ∈ ts, Possible me t) (hs : SysInv me s) :
    SysInv me (run me s ts) := by
  induction ts generalizing s with
  | nil => exact hs
  | cons t ts ih =>
    exact ih (fun t' h' => ht t' (by simp [h'])) (exec_keeps (ht t (by simp)) hs)

theorem genesis_inv {me : Addr} {s : Sys} (h : Genesis me s) : SysInv me s :=
  ⟨⟨h.2.1, h.2.2⟩, fun p hp => by rw [h.1] at hp; simp at hp⟩

theorem run_append (me : Addr) (s : Sys) (ts us : List Tx) : run me s (ts ++ us) = run me (run me s ts) us := by
  simp [run]

/-- With the parameters `initialize` stores the amplification in force is constant. -/
theorem currentAmp_const {now amp : Nat} {a : AmpParams} (h : currentAmp now a = .ok amp) (ha : AmpOK a) :
    amp = a.nextAmp := by
  unfold currentAmp at h
  have h1 := ha.same
  have h2 := ha.time
  split at h
  · split at h
    · omega
    · simp only [bind_ok, divU_ok] at h
      obtain ⟨_, -, _, ⟨h3, -⟩, -⟩ := h
      omega
  · rw [ok_inj] at h; exact h.symm

end Phoenix.Stable
