import Verif.Lemmas.LedgerInv
import Verif.Props.PoolLp
/-! The invariant of the XYK pool and its preservation by every transaction (helpers). -/
namespace Phoenix.Pool
open Phoenix Spec Ledger Props

/-- Fee, slippage, spread and referral limits are basis points. -/
structure CfgOK (p : State) : Prop where
  fee : 0 ≤ p.cfg.totalFeeBps ∧ p.cfg.totalFeeBps ≤ 10000
  slip : 0 ≤ p.cfg.maxSlippageBps ∧ p.cfg.maxSlippageBps ≤ 10000
  spread : 0 ≤ p.cfg.maxSpreadBps ∧ p.cfg.maxSpreadBps ≤ 10000
  ref : 0 ≤ p.cfg.maxReferralBps ∧ p.cfg.maxReferralBps ≤ 10000

/-- The state after the first deposit. -/
def Locked (me : Addr) (p : State) (L : Ledger) : Prop :=
  1000 ≤ p.total ∧ 1000 ≤ L.bal p.cfg.shareToken me ∧ ¬ (p.resA = 0 ∧ p.resB = 0)

/-- The state before it. -/
def Empty (p : State) : Prop := p.total = 0 ∧ p.resA = 0 ∧ p.resB = 0

/-- Invariant of an initialised pool at address `me` with the ledger `L`. -/
structure PoolInv (me : Addr) (p : State) (L : Ledger) : Prop where
  distinct : DistinctTokens p
  admin : (L p.cfg.shareToken).admin = me
  a0 : 0 ≤ p.resA
  aB : p.resA ≤ L.bal p.cfg.tokenA me
  b0 : 0 ≤ p.resB
  bB : p.resB ≤ L.bal p.cfg.tokenB me
  cover : ∀ S : Finset Addr, ∑ a ∈ S, L.bal p.cfg.shareToken a ≤ p.total
  phase : Empty p ∨ Locked me p L
  cfg : CfgOK p

theorem PoolInv.total_nonneg {me : Addr} {p : State} {L : Ledger} (h : PoolInv me p L) : 0 ≤ p.total := by
  rcases h.phase with h | h
  · exact h.1.ge
  · have := h.1; omega

theorem noAllow_same {me : Addr} {L L' : Ledger} (h : NoAllowance me L) (hs : SameRights L L') :
    NoAllowance me L' := fun t sp => by rw [(hs t).2.1]; exact h t sp

/-! Preservation, call by call. -/

theorem swap_keeps {me : Addr} {c : Ctx} {p p' : State} {L L' : Ledger} {sender offer : Addr}
    {amount ret : Int} {mo ms : Option Int} {dl : Option Nat} {mf : Option Int}
    (h : swap me c p L sender offer amount mo ms dl mf = .ok (p', L', ret))
    (hself : c.auth me = false) (hL : LedInv me L) (hp : PoolInv me p L) :
    LedInv me L' ∧ PoolInv me p' L' ∧ Locked me p L ∧ Locked me p' L' := by
  obtain ⟨hAB, hSA, hSB⟩ := hp.distinct
  obtain ⟨rate, lim, r, h1, h2, h3, h4, h5, h6, h7, h8, h9, rfl, h11, h12, h13, h14, h15, h16, h17, h18, h19, h20, h21⟩ :=
    swap_inv h hself hAB
  obtain ⟨hx, hy, ha, hr, hr0, hc0, hs0, q1, q2, i1, i2, c1, c2, g0, gy⟩ := quote_core h9
  have hns := auth_ne hself h3
  have e : grossOf r = r.ret + r.commission := rfl
  -- the locked phase
  have hlock : Locked me p L := by
    rcases hp.phase with hE | hE
    · exfalso
      have : reserve p offer = 0 := by
        unfold reserve; split
        · exact hE.2.1
        · split
          · exact hE.2.2
          · rfl
      omega
    · exact hE
  -- share balances do not move
  have hshare : ∀ a, L'.bal p.cfg.shareToken a = L.bal p.cfg.shareToken a := by
    intro a
    have hot : offer ≠ p.cfg.shareToken ∧ other p offer ≠ p.cfg.shareToken := by
      rcases h5 with rfl | rfl
      · simp [other, Ne.symm hSA, Ne.symm hSB]
      · simp [other, Ne.symm hSA, Ne.symm hSB, Ne.symm hAB]
    rw [h14]; simp [Flow.delta, hot.1, hot.2]
  -- backing of the two reserves
  have hres : reserve p offer ≤ L.bal offer me ∧ reserve p (other p offer) ≤ L.bal (other p offer) me := by
    rcases h5 with rfl | rfl
    · simp only [reserve, other, Ne.symm hAB, if_true, if_false]; exact ⟨hp.aB, hp.bB⟩
    · simp only [reserve, other, Ne.symm hAB, if_true, if_false]; exact ⟨hp.bB, hp.aB⟩
  have bo : reserve p' offer ≤ L'.bal offer me := by
    rw [h20, h14]; simp [Flow.delta, h6, hns]; omega
  have ba : reserve p' (other p offer) ≤ L'.bal (other p offer) me := by
    rw [h21, h14]; simp [Flow.delta, Ne.symm h6, hns]; split <;> omega
  have r0 : 0 < reserve p' offer := by omega
  have r1 : 0 ≤ reserve p' (other p offer) := by omega
  have hall : 0 ≤ p'.resA ∧ 0 ≤ p'.resB ∧ p'.resA ≤ L'.bal p.cfg.tokenA me ∧ p'.resB ≤ L'.bal p.cfg.tokenB me ∧
      ¬ (p'.resA = 0 ∧ p'.resB = 0) := by
    rcases h5 with rfl | rfl
    · simp only [reserve, other, h16, Ne.symm hAB, if_true, if_false] at bo ba r0 r1
      exact ⟨by omega, by omega, bo, ba, by omega⟩
    · simp only [reserve, other, h16, Ne.symm hAB, if_true, if_false] at bo ba r0 r1
      exact ⟨by omega, by omega, ba, bo, by omega⟩
  have hlock' : Locked me p' L' := by
    refine ⟨by rw [h18]; exact hlock.1, by rw [h16, hshare]; exact hlock.2.1, hall.2.2.2.2⟩
  refine ⟨⟨fun t a => ?_, noAllow_same hL.noAllow h15⟩, ?_, hlock, hlock'⟩
  · have n := hL.nonneg t a
    rw [h14]
    simp only [Flow.delta, List.map_cons, List.map_nil, List.sum_cons, List.sum_nil]
    by_cases t1 : offer = t
    · subst t1
      by_cases a1 : sender = a
      · subst a1; simp [h6, Ne.symm hns]; omega
      · simp [h6, a1]; split <;> omega
    · by_cases t2 : other p offer = t
      · subst t2
        simp only [t1, false_and, true_and, if_false]
        by_cases a1 : me = a
        · subst a1; simp [hns]; split <;> omega
        · simp [a1]; split <;> split <;> omega
      · simp [t1, t2, n]
  · have dist : DistinctTokens p' := by unfold DistinctTokens; rw [h16]; exact hp.distinct
    refine ⟨dist, ?_, hall.1, by rw [h16]; exact hall.2.2.1, hall.2.1, by rw [h16]; exact hall.2.2.2.1, ?_,
      .inr hlock', ?_⟩
    · rw [h16, (h15 _).1]; exact hp.admin
    · intro S
      rw [h16, h18]
      simp only [hshare]
      exact hp.cover S
    · obtain ⟨a, b, c, d⟩ := hp.cfg
      constructor <;> rw [h16] <;> assumption

theorem provide_keeps {me : Addr} {c : Ctx} {p p' : State} {L L' : Ledger} {sender : Addr}
    {dA mA dB mB cu : Option Int} {dl : Option Nat}
    (h : provide me c p L sender dA mA dB mB cu dl = .ok (p', L'))
    (hself : c.auth me = false) (hL : LedInv me L) (hp : PoolInv me p L) :
    LedInv me L' ∧ PoolInv me p' L' ∧ Locked me p' L' := by
  obtain ⟨a, b, m, lock, h1, h2, h3, h4, h5, h6, h7, h8, h9, h10, h11, h12, rfl, h14⟩ :=
    provide_inv h hself hp.distinct
  obtain ⟨hAB, hSA, hSB⟩ := hp.distinct
  have hns := auth_ne hself h2
  have nA := hL.nonneg p.cfg.tokenA me
  have nB := hL.nonneg p.cfg.tokenB me
  have bA : L'.bal p.cfg.tokenA me = L.bal p.cfg.tokenA me + a := by
    rw [h11]; simp [Flow.delta, hSA, Ne.symm hAB, hns]
  have bB : L'.bal p.cfg.tokenB me = L.bal p.cfg.tokenB me + b := by
    rw [h11]; simp [Flow.delta, hSB, hAB, hns]
  have bS : ∀ u, L'.bal p.cfg.shareToken u =
      L.bal p.cfg.shareToken u + (if sender = u then m else 0) + (if me = u then lock else 0) := by
    intro u; rw [h11]; simp [Flow.delta, Ne.symm hSA, Ne.symm hSB]
  have nS := hL.nonneg p.cfg.shareToken me
  have hlock : Locked me (⟨p.cfg, p.admin, p.total + lock + m, L.bal p.cfg.tokenA me + a,
      L.bal p.cfg.tokenB me + b, p.defaultSlippageBps⟩ : State) L' := by
    have hb := bS me
    simp [hns] at hb
    have haA := hp.aB
    rcases h14 with ⟨hpA, hpB, rfl, -⟩ | ⟨hn, rfl, s, hs, hs1, rfl⟩
    · rcases hp.phase with hE | hE
      · have := hE.2.1; omega
      · refine ⟨?_, ?_, ?_⟩
        · have := hE.1; simp only; omega
        · simp only; rw [hb]; have := hE.2.1; omega
        · simp only; omega
    · have hT := hp.total_nonneg
      refine ⟨by simp only; omega, by simp only; rw [hb]; omega, ?_⟩
      simp only
      intro hz
      obtain ⟨hz1, hz2⟩ := hz
      have ha0 : a = 0 := by omega
      subst ha0
      obtain ⟨-, hs0, hss, -⟩ := isqrt_ok hs
      nlinarith
  refine ⟨⟨fun t u => ?_, noAllow_same hL.noAllow h12⟩, ⟨⟨hAB, hSA, hSB⟩, ?_, ?_, ?_, ?_, ?_, ?_, .inr hlock, ?_⟩, hlock⟩
  · have n := hL.nonneg t u
    rw [h11]
    simp only [Flow.delta]
    by_cases t1 : p.cfg.tokenA = t
    · subst t1
      simp only [Ne.symm hAB, hSA, true_and, false_and, if_false]
      by_cases a1 : sender = u
      · subst a1; simp [Ne.symm hns]; omega
      · simp [a1]; split <;> omega
    · by_cases t2 : p.cfg.tokenB = t
      · subst t2
        simp only [hAB, hSB, true_and, false_and, if_false]
        by_cases a1 : sender = u
        · subst a1; simp [Ne.symm hns]; omega
        · simp [a1]; split <;> omega
      · simp only [t1, t2, false_and, if_false]
        split <;> split <;> omega
  · simp only; rw [(h12 _).1]; exact hp.admin
  · simp only; omega
  · simp only; rw [bA]
  · simp only; omega
  · simp only; rw [bB]
  · intro S
    simp only [bS, Finset.sum_add_distrib]
    have k1 := sum_ind_le S sender h9
    have k2 := sum_ind_le S me h10
    have k3 := hp.cover S
    omega
  · obtain ⟨a, b, c, d⟩ := hp.cfg
    constructor <;> assumption

theorem withdraw_keeps {me : Addr} {c : Ctx} {p p' : State} {L L' : Ledger} {sender : Addr}
    {sh mA mB ra rb : Int} {dl : Option Nat}
    (h : withdraw me c p L sender sh mA mB dl = .ok (p', L', ra, rb))
    (hself : c.auth me = false) (hL : LedInv me L) (hp : PoolInv me p L) :
    LedInv me L' ∧ PoolInv me p' L' ∧ Locked me p L ∧ Locked me p' L' := by
  obtain ⟨w1, w2, w3, w4, w5, w6⟩ := C07_withdraw_pro_rata h hself hp.distinct hp.a0 hp.b0 hp.total_nonneg
  obtain ⟨h1, h2, h3, h4, h5, h6, h7, h8, h9, h10, h11, h12, h13, h14, h15, rfl⟩ := withdraw_inv h hself hp.distinct
  obtain ⟨hAB, hSA, hSB⟩ := hp.distinct
  have hns := auth_ne hself h2
  have hlock0 : Locked me p L := by
    rcases hp.phase with hE | hE
    · exact absurd hE.1 h9
    · exact hE
  -- the sender's shares and the locked ones are distinct
  have hcov : sh + 1000 ≤ p.total := by
    have := hp.cover {sender, me}
    rw [Finset.sum_pair hns] at this
    have := hlock0.2.1; omega
  have bA : L'.bal p.cfg.tokenA me = L.bal p.cfg.tokenA me - ra := by
    rw [h14]; simp [Flow.delta, hSA, Ne.symm hAB, hns]; ring
  have bB : L'.bal p.cfg.tokenB me = L.bal p.cfg.tokenB me - rb := by
    rw [h14]; simp [Flow.delta, hSB, hAB, hns]; ring
  have bS : ∀ u, L'.bal p.cfg.shareToken u = L.bal p.cfg.shareToken u - (if sender = u then sh else 0) := by
    intro u; rw [h14]; simp [Flow.delta, Ne.symm hSA, Ne.symm hSB]
  have lt : ∀ {x y : Int}, 0 ≤ y → x * p.total ≤ y * sh → x ≤ y ∧ (0 < y → x < y) := by
    intro x y hy hxy
    constructor
    · by_contra hlt
      have : y + 1 ≤ x := by omega
      nlinarith
    · intro hy'
      by_contra hlt
      have : y ≤ x := by omega
      nlinarith
  have la := lt hp.a0 w1.1
  have lb := lt hp.b0 w1.2
  have hlock : Locked me { p with total := p.total - sh, resA := p.resA - ra, resB := p.resB - rb } L' := by
    refine ⟨by simp only; omega, ?_, ?_⟩
    · simp only; rw [bS]; simp [hns]; exact hlock0.2.1
    · have := hlock0.2.2
      have := hp.a0
      have := hp.b0
      simp only
      rintro ⟨e1, e2⟩
      by_cases hA : 0 < p.resA
      · have := la.2 hA; omega
      · by_cases hB : 0 < p.resB
        · have := lb.2 hB; omega
        · omega
  refine ⟨⟨fun t u => ?_, noAllow_same hL.noAllow h15⟩, ⟨⟨hAB, hSA, hSB⟩, ?_, ?_, ?_, ?_, ?_, ?_, .inr hlock, ?_⟩, hlock0, hlock⟩
  · have n := hL.nonneg t u
    rw [h14]
    simp only [Flow.delta]
    by_cases t1 : p.cfg.tokenA = t
    · subst t1
      simp only [Ne.symm hAB, hSA, true_and, false_and, if_false]
      by_cases a1 : me = u
      · subst a1; simp [hns]; omega
      · simp [a1]; split <;> omega
    · by_cases t2 : p.cfg.tokenB = t
      · subst t2
        simp only [hAB, hSB, true_and, false_and, if_false]
        by_cases a1 : me = u
        · subst a1; simp [hns]; omega
        · simp [a1]; split <;> omega
      · simp only [t1, t2, false_and, if_false]
        by_cases t3 : p.cfg.shareToken = t
        · subst t3
          by_cases a1 : sender = u
          · subst a1; simp; omega
          · simp [a1]; omega
        · simp [t3]; omega
  · simp only; rw [(h15 _).1]; exact hp.admin
  · simp only; omega
  · simp only; rw [bA]; have := hp.aB; omega
  · simp only; omega
  · simp only; rw [bB]; have := hp.bB; omega
  · intro S
    simp only [bS]
    rw [Finset.sum_sub_distrib, Finset.sum_ite_eq]
    by_cases hS : sender ∈ S
    · simp only [hS, if_true]
      have := hp.cover S; omega
    · simp only [hS, if_false]
      have k := hp.cover (insert sender S)
      rw [Finset.sum_insert hS] at k
      omega
  · obtain ⟨a, b, c, d⟩ := hp.cfg
    constructor <;> assumption

/-- Invariant of the system: a pool, once initialised, satisfies `PoolInv`. -/
structure SysInv (me : Addr) (s : Sys) : Prop where
  led : LedInv me s.led
  pool : ∀ p, s.pool = some p → PoolInv me p s.led

theorem init_inv {self : Addr} {p : Option State} {L L' : Ledger} {i : InitArgs} {p' : State}
    (h : init self p L i = .ok (p', L')) :
    p = none ∧ i.tokenA < i.tokenB ∧ Empty p' ∧ CfgOK p' ∧
    p'.cfg.tokenA = i.tokenA ∧ p'.cfg.tokenB = i.tokenB ∧ p'.cfg.shareToken = i.shareToken ∧ p'.admin = i.admin ∧
    ∃ t : Token, t.admin = self ∧ (∀ a, t.bal a = 0) ∧ (∀ a b, (t.allow a b).amount = 0) ∧
      L' = upd L i.shareToken t := by
  unfold init at h
  simp only [bind_ok, req_ok, validateBps_ok, ok_inj, Token.construct, Prod.mk.injEq] at h
  obtain ⟨_, hp, _, b1, _, b2, _, b3, _, b4, _, b5, _, b6, _, -, _, hlt, t, ⟨_, -, rfl⟩, _, -, _, -, _, -, rfl, rfl⟩ := h
  refine ⟨by simpa using hp, hlt, ⟨rfl, rfl, rfl⟩, ⟨b1, b2, b3, b4⟩, rfl, rfl, rfl, rfl, _, rfl, fun _ => rfl,
    fun _ _ => rfl, rfl⟩

theorem step_keeps {me : Addr} {s s' : Sys} {t : Tx} (h : step me s t = .ok s')
    (ht : Possible me t) (hs : SysInv me s) : SysInv me s' := by
  obtain ⟨hself, hposs⟩ := ht
  cases t with
  | token c tok op =>
    simp only [step, bind_ok, ok_inj] at h
    obtain ⟨L', hc, rfl⟩ := h
    obtain ⟨k1, k2, k3⟩ := ledger_call_others hc hself hs.led
    refine ⟨k1, fun p hp => ?_⟩
    have hP := hs.pool p hp
    refine ⟨hP.distinct, k3 _ hP.admin, hP.a0, hP.aB.trans (k2 _), hP.b0, hP.bB.trans (k2 _),
      fun S => ledger_call_cover hc hself hs.led _ hP.admin hP.cover S, ?_, hP.cfg⟩
    rcases hP.phase with hE | hE
    · exact .inl hE
    · exact .inr ⟨hE.1, hE.2.1.trans (k2 _), hE.2.2⟩
  | pool c k =>
    simp only [Tx.ctx] at hself
    cases k with
    | init i =>
      simp only [step, bind_ok, ok_inj] at h
      obtain ⟨⟨p', L'⟩, hi, rfl⟩ := h
      obtain ⟨hn, hlt, hE, hcfg, eA, eB, eS, -, t, ta, tb, tal, rfl⟩ := init_inv hi
      simp only at hposs
      refine ⟨⟨fun t' a => ?_, fun t' sp => ?_⟩, fun q hq => ?_⟩
      · simp only [bal, upd_apply]; split
        · rw [tb]
        · exact hs.led.nonneg t' a
      · simp only [upd_apply]; split
        · rw [tal]
        · exact hs.led.noAllow t' sp
      · cases hq
        refine ⟨⟨?_, ?_, ?_⟩, ?_, hE.2.1.ge, ?_, hE.2.2.ge, ?_, ?_, .inl hE, hcfg⟩
        · rw [eA, eB]; exact Nat.ne_of_lt hlt
        · rw [eS, eA]; exact hposs.1
        · rw [eS, eB]; exact hposs.2
        · simp only; rw [eS, upd_same]; exact ta
        · rw [hE.2.1, eA]; simp only [bal]; rw [upd_ne _ _ (Ne.symm hposs.1)]; exact hs.led.nonneg _ _
        · rw [hE.2.2, eB]; simp only [bal]; rw [upd_ne _ _ (Ne.symm hposs.2)]; exact hs.led.nonneg _ _
        · intro S; rw [hE.1, eS]; simp only [bal, upd_same, tb]; simp
    | provide sd dA mA dB mB cu dl =>
      simp only [step, bind_ok, ok_inj] at h
      obtain ⟨p, hp, ⟨p', L'⟩, hk, rfl⟩ := h
      have hsome : s.pool = some p := by
        unfold loaded at hp; split at hp
        · rename_i q hq; rw [ok_inj] at hp; rw [hq, hp]
        · simp at hp
      have k := provide_keeps hk hself hs.led (hs.pool p hsome)
      exact ⟨k.1, fun q hq => by cases hq; exact k.2.1⟩
    | swap sd o a mo ms dl mf =>
      simp only [step, bind_ok, ok_inj] at h
      obtain ⟨p, hp, ⟨p', L', r⟩, hk, rfl⟩ := h
      have hsome : s.pool = some p := by
        unfold loaded at hp; split at hp
        · rename_i q hq; rw [ok_inj] at hp; rw [hq, hp]
        · simp at hp
      have k := swap_keeps hk hself hs.led (hs.pool p hsome)
      exact ⟨k.1, fun q hq => by cases hq; exact k.2.1⟩
    | withdraw sd sh mA mB dl =>
      simp only [step, bind_ok, ok_inj] at h
      obtain ⟨p, hp, ⟨p', L', ra, rb⟩, hk, rfl⟩ := h
      have hsome : s.pool = some p := by
        unfold loaded at hp; split at hp
        · rename_i q hq; rw [ok_inj] at hp; rw [hq, hp]
        · simp at hp
      have k := withdraw_keeps hk hself hs.led (hs.pool p hsome)
      exact ⟨k.1, fun q hq => by cases hq; exact k.2.1⟩
    | updateConfig u =>
      simp only [step, bind_ok, ok_inj] at h
      obtain ⟨p, hp, p', hk, rfl⟩ := h
      have hsome : s.pool = some p := by
        unfold loaded at hp; split at hp
        · rename_i q hq; rw [ok_inj] at hp; rw [hq, hp]
        · simp at hp
      refine ⟨hs.led, fun q hq => ?_⟩
      cases hq
      have hP := hs.pool p hsome
      unfold updateConfig at hk
      simp only [bind_ok, requireAuth_ok, validateBpsOpt_ok, ok_inj] at hk
      obtain ⟨_, -, _, b1, _, b2, _, b3, _, b4, rfl⟩ := hk
      have opt : ∀ {v : Option Int} {x : Int}, (∀ y, v = some y → 0 ≤ y ∧ y ≤ 10000) → (0 ≤ x ∧ x ≤ 10000) →
          0 ≤ v.getD x ∧ v.getD x ≤ 10000 := by
        intro v x h1 h2; cases v with
        | none => exact h2
        | some y => exact h1 y rfl
      exact ⟨hP.distinct, hP.admin, hP.a0, hP.aB, hP.b0, hP.bB, hP.cover, hP.phase,
        ⟨opt b1 hP.cfg.fee, opt b2 hP.cfg.slip, opt b3 hP.cfg.spread, opt b4 hP.cfg.ref⟩⟩
    | upgrade sl =>
      simp only [step, bind_ok, ok_inj] at h
      obtain ⟨p, hp, p', hk, rfl⟩ := h
      have hsome : s.pool = some p := by
        unfold loaded at hp; split at hp
        · rename_i q hq; rw [ok_inj] at hp; rw [hq, hp]
        · simp at hp
      refine ⟨hs.led, fun q hq => ?_⟩
      cases hq
      have hP := hs.pool p hsome
      unfold upgrade at hk
      simp only [bind_ok, requireAuth_ok, ok_inj] at hk
      obtain ⟨_, -, rfl⟩ := hk
      exact ⟨hP.distinct, hP.admin, hP.a0, hP.aB, hP.b0, hP.bB, hP.cover, hP.phase,
        ⟨hP.cfg.fee, hP.cfg.slip, hP.cfg.spread, hP.cfg.ref⟩⟩

theorem exec_keeps {me : Addr} {s : Sys} {t : Tx} (ht : Possible me t) (hs : SysInv me s) :
    SysInv me (exec me s t) := by
  unfold exec
  cases h : step me s t with
  | ok s' => exact step_keeps h ht hs
  | error e => exact hs

theorem run_keeps {me : Addr} {s : Sys} (ts : List Tx) (ht : ∀ t ∈ ts, Possible me t) (hs : SysInv me s) :
    SysInv me (run me s ts) := by
  induction ts generalizing s with
  | nil => exact hs
  | cons t ts ih =>
    exact ih (fun t' h' => ht t' (by simp [h'])) (exec_keeps (ht t (by simp)) hs)

/-- Every transaction keeps a pool initialised and its token addresses fixed; it
keeps the pool locked once it is; unless it is a swap, backing per share does not
fall. -/
theorem step_pool {me : Addr} {s s' : Sys} {t : Tx} {p : State} (h : step me s t = .ok s')
    (ht : Possible me t) (hs : SysInv me s) (hp : s.pool = some p) :
    ∃ p', s'.pool = some p' ∧ p'.cfg.tokenA = p.cfg.tokenA ∧ p'.cfg.tokenB = p.cfg.tokenB ∧
      p'.cfg.shareToken = p.cfg.shareToken ∧ p'.cfg.stakeContract = p.cfg.stakeContract ∧
      (Locked me p s.led → Locked me p' s'.led) ∧
      (isSwap t = false → p.resA * p'.total ≤ p'.resA * p.total ∧ p.resB * p'.total ≤ p'.resB * p.total) ∧
      ((p'.cfg ≠ p.cfg ∨ p'.admin ≠ p.admin ∨ p'.defaultSlippageBps ≠ p.defaultSlippageBps) →
        t.ctx.auth p.admin = true) := by
  have hP := hs.pool p hp
  have hself := ht.1
  cases t with
  | token c tok op =>
    simp only [step, bind_ok, ok_inj] at h
    obtain ⟨L', hc, rfl⟩ := h
    obtain ⟨k1, k2, k3⟩ := ledger_call_others hc hself hs.led
    exact ⟨p, hp, rfl, rfl, rfl, rfl, fun hE => ⟨hE.1, hE.2.1.trans (k2 _), hE.2.2⟩,
      fun _ => ⟨le_refl _, le_refl _⟩, by simp⟩
  | pool c k =>
    simp only [Tx.ctx] at hself ⊢
    cases k with
    | init i =>
      simp only [step, bind_ok, ok_inj] at h
      obtain ⟨⟨p', L'⟩, hi, rfl⟩ := h
      have := (init_inv hi).1
      rw [hp] at this; simp at this
    | provide sd dA mA dB mB cu dl =>
      simp only [step, bind_ok, hp, loaded, ok_inj] at h
      obtain ⟨_, rfl, ⟨p', L'⟩, hk, rfl⟩ := h
      have k := provide_keeps hk hself hs.led hP
      obtain ⟨a, b, m, lock, h1, h2, h3, h4, h5, h6, h7, h8, h9, h10, h11, h12, rfl, h14⟩ :=
        provide_inv hk hself hP.distinct
      refine ⟨_, rfl, rfl, rfl, rfl, rfl, fun _ => k.2.2, fun _ => ?_, by simp⟩
      rcases h14 with ⟨hA, hB, -⟩ | ⟨hn, -⟩
      · have c8 := C08_mint_at_most_pro_rata hk hself hP.distinct hA hB hP.total_nonneg
        simp only at c8 ⊢
        constructor
        · nlinarith [c8.2.2.2.1]
        · nlinarith [c8.2.2.2.2]
      · have hz : p.resA = 0 ∧ p.resB = 0 := by
          obtain ⟨A, B, -, -, -, -, hch⟩ := chooseAmounts_inv h4
          have := hP.a0
          have := hP.b0
          rcases hch with ⟨h, h', -⟩ | ⟨h, h', -⟩
          · exact ⟨h, h'⟩
          · exfalso; apply hn; omega
        rw [hz.1, hz.2]
        have := hP.aB
        have := hP.bB
        have := hP.total_nonneg
        rw [hz.1] at *
        constructor
        · simp only [zero_mul]; exact mul_nonneg (by omega) (by assumption)
        · simp only [zero_mul]; exact mul_nonneg (by omega) (by assumption)
    | swap sd o a mo ms dl mf =>
      simp only [step, bind_ok, hp, loaded, ok_inj] at h
      obtain ⟨_, rfl, ⟨p', L', r⟩, hk, rfl⟩ := h
      have k := swap_keeps hk hself hs.led hP
      obtain ⟨rate, lim, r, h1, h2, h3, h4, h5, h6, h7, h8, h9, rfl, h11, h12, h13, h14, h15, h16, h17, h18, h19, h20, h21⟩ :=
        swap_inv hk hself hP.distinct.1
      exact ⟨p', rfl, by rw [h16], by rw [h16], by rw [h16], by rw [h16], fun _ => k.2.2.2, by simp [isSwap],
        by simp [h16, h17, h19]⟩
    | withdraw sd sh mA mB dl =>
      simp only [step, bind_ok, hp, loaded, ok_inj] at h
      obtain ⟨_, rfl, ⟨p', L', ra, rb⟩, hk, rfl⟩ := h
      have k := withdraw_keeps hk hself hs.led hP
      obtain ⟨w1, w2, w3, w4, w5, rfl⟩ := C07_withdraw_pro_rata hk hself hP.distinct hP.a0 hP.b0 hP.total_nonneg
      refine ⟨_, rfl, rfl, rfl, rfl, rfl, fun _ => k.2.2.2, fun _ => ?_, by simp⟩
      simp only
      constructor
      · nlinarith [w1.1]
      · nlinarith [w1.2]
    | updateConfig u =>
      simp only [step, bind_ok, hp, loaded, ok_inj] at h
      obtain ⟨_, rfl, p', hk, rfl⟩ := h
      unfold updateConfig at hk
      simp only [bind_ok, requireAuth_ok, validateBpsOpt_ok, ok_inj] at hk
      obtain ⟨_, hau, _, b1, _, b2, _, b3, _, b4, rfl⟩ := hk
      exact ⟨_, rfl, rfl, rfl, rfl, rfl, fun h => h, fun _ => ⟨le_refl _, le_refl _⟩, fun _ => hau⟩
    | upgrade sl =>
      simp only [step, bind_ok, hp, loaded, ok_inj] at h
      obtain ⟨_, rfl, p', hk, rfl⟩ := h
      unfold upgrade at hk
      simp only [bind_ok, requireAuth_ok, ok_inj] at hk
      obtain ⟨_, hau, rfl⟩ := hk
      exact ⟨_, rfl, rfl, rfl, rfl, rfl, fun h => h, fun _ => ⟨le_refl _, le_refl _⟩, fun _ => hau⟩

end Phoenix.Pool
