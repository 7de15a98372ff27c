import Verif.Props.Dearer
import Verif.Props.StableSys
/-!
Property C156 for stable pools: a higher fee only moves tokens from those who trade to the fee recipient.
-/
namespace Phoenix.Props.DearerStable
open Phoenix Phoenix.DearerStable Phoenix.Stable Phoenix.Props.Dearer

/-! ### one transaction -/

/-- The states after corresponding parts of the two histories: the pools differ in the fee only. -/
structure Rel (me : Addr) (p p' : State) (L L' : Ledger) : Prop where
  pool : p' = { p with cfg := { p.cfg with totalFeeBps := p'.cfg.totalFeeBps } }
  fee : p.cfg.totalFeeBps ≤ p'.cfg.totalFeeBps
  rights : Spec.SameRights L L'
  own : ∀ t, L'.bal t me = L.bal t me
  lp : ∀ a, L'.bal p.cfg.shareToken a = L.bal p.cfg.shareToken a

/-- By how much the balances in the two histories differ. -/
def diff (s s' : Sys) (t a : Addr) : Int := s'.led.bal t a - s.led.bal t a

/-- A transaction takes `x ≥ 0` more units from its trader in the second history and gives them to the recipient. -/
def Costs (s s' r r' : Sys) (tx : Tx) : Prop :=
  (∀ t a, diff r r' t a = diff s s' t a) ∨
  ∃ sender R tok x, trader tx = some sender ∧ Stable.Spec.isSwap tx = true ∧ collector s = some R ∧ 0 ≤ x ∧
    ∀ t a, diff r r' t a = diff s s' t a + ((if tok = t ∧ R = a then x else 0) - (if tok = t ∧ sender = a then x else 0))

theorem swap_dearer {me : Addr} {c : Ctx} {p p' q q' : State} {L L' M M' : Ledger} {sender offer : Addr}
    {amount ret ret' : Int} {mo ms : Option Int} {dl : Option Nat} {mf : Option Int} (h : Rel me p p' L L')
    (hp : PoolInv me p L) (hp' : PoolInv me p' L') (hself : c.auth me = false) (hR : p.cfg.feeRecipient ≠ me)
    (h1 : swap me c p L sender offer amount mo ms dl mf = .ok (q, M, ret))
    (h2 : swap me c p' L' sender offer amount mo ms dl mf = .ok (q', M', ret')) :
    Rel me q q' M M' ∧ ∃ tok x, 0 ≤ x ∧ ∀ t a, M'.bal t a - M.bal t a = L'.bal t a - L.bal t a +
      ((if tok = t ∧ p.cfg.feeRecipient = a then x else 0) - (if tok = t ∧ sender = a then x else 0)) := by
  obtain ⟨lim, r, -, -, hau, -, hpt, hne, -, hr, -, -, -, -, fl, sr, e1, e5, e6⟩ := Stable.swap_inv h1 hself hp.distinct.1
  obtain ⟨lim', r', -, -, -, -, -, -, -, hr', -, -, -, -, fl', sr', d1, d5, d6⟩ := Stable.swap_inv h2 hself hp'.distinct.1
  obtain ⟨f, hf⟩ : ∃ f, f = p'.cfg.totalFeeBps := ⟨_, rfl⟩
  have hpool := h.pool
  have hfee := h.fee
  have hfp := hp.cfg.fee
  have hfp' := hp'.cfg.fee
  rw [← hf] at hpool hfee hfp'
  have eo : Stable.Spec.other p' offer = Stable.Spec.other p offer := by rw [hpool]; rfl
  have er : ∀ t, Stable.Spec.reserve p' t = Stable.Spec.reserve p t := fun t => by rw [hpool]; rfl
  have ep : ∀ t, precOf p' t = precOf p t := fun t => by rw [hpool]; rfl
  have eR : p'.cfg.feeRecipient = p.cfg.feeRecipient := by rw [hpool]
  rw [eo, er, er, ep, ep] at hr'
  rw [eo, er] at d6
  rw [er] at d5
  rw [eo, eR] at fl'
  obtain ⟨amp, x, y, z, na, nx, sx, sy, rate, hx, hy, hz, hrate, hamp, hnx, hsx, hsy, hna, hle0, hg, -, hcom⟩ := quote_inv hr
  obtain ⟨amp', x', y', z', na', nx', sx', sy', rate', hx', hy', hz', hrate', hamp', hnx', hsx', hsy', hna', hle0', hg', -, hcom'⟩ :=
    quote_inv hr'
  have eamp : p'.amp = p.amp := by rw [hpool]
  have emp : p'.maxPrec = p.maxPrec := by rw [hpool]
  simp only at hx hy hx' hy' hsx hsy hsx' hsy'
  obtain rfl : x' = x := by omega
  obtain rfl : y' = y := by omega
  obtain rfl : z' = z := by omega
  rw [eamp, hamp, ok_inj] at hamp'
  rw [emp, hnx, ok_inj] at hnx'
  rw [hsx, ok_inj] at hsx'
  rw [hsy, ok_inj] at hsy'
  subst hamp' hnx' hsx' hsy'
  rw [emp, hna, ok_inj] at hna'
  subst hna'
  obtain ⟨q1, q2, q3⟩ := bps_rate hrate hfp
  obtain ⟨q1', q2', q3'⟩ := bps_rate hrate' (by rw [← hf]; exact hfp')
  have hle : rate ≤ rate' := by rw [q1, q1', ← hf]; omega
  have g0 : (0 : Int) ≤ (y' : Int) - na := by omega
  have c1 := (commission_bounds hcom g0 q2 q3).1
  have c1' := (commission_bounds hcom' g0 q2' q3').1
  have c2 : r.ret = (y' : Int) - na - r.commission := by omega
  have c2' : r'.ret = (y' : Int) - na - r'.commission := by omega
  have hc : r.commission ≤ r'.commission := by
    rw [c1, c1']
    exact Int.ediv_le_ediv (by decide) (mul_le_mul_of_nonneg_left hle g0)
  have hns : sender ≠ me := fun e => by rw [e, hself] at hau; exact absurd hau (by simp)
  have key : ∀ t a, M'.bal t a - M.bal t a = L'.bal t a - L.bal t a +
      ((if Stable.Spec.other p offer = t ∧ p.cfg.feeRecipient = a then r'.commission - r.commission else 0) -
       (if Stable.Spec.other p offer = t ∧ sender = a then r'.commission - r.commission else 0)) := by
    intro t a
    have x1 := fl t a
    have x2 := fl' t a
    simp only [List.map_cons, List.map_nil, List.sum_cons, List.sum_nil, Spec.Flow.delta] at x1 x2
    rw [x1, x2, c2, c2']
    split_ifs <;> omega
  have hot : Stable.Spec.other p offer ≠ p.cfg.shareToken := by
    unfold Stable.Spec.other
    split
    · exact fun e => hp.distinct.2.2 e.symm
    · exact fun e => hp.distinct.2.1 e.symm
  have hsum : r'.ret + r'.commission = r.ret + r.commission := by omega
  rw [hsum] at d6
  refine ⟨⟨?_, ?_, alike_of h.rights sr sr', fun t => ?_, fun a => ?_⟩, _, _, by omega, key⟩
  · have hq : q.resA = q'.resA ∧ q.resB = q'.resB := by
      have y1 : Stable.Spec.reserve q' offer = Stable.Spec.reserve q offer := by rw [d5, e5]
      have y2 : Stable.Spec.reserve q' (Stable.Spec.other p offer) = Stable.Spec.reserve q (Stable.Spec.other p offer) := by rw [d6, e6]
      unfold Stable.Spec.reserve at y1 y2
      rw [e1, d1, show p'.cfg.tokenA = p.cfg.tokenA by rw [hpool], show p'.cfg.tokenB = p.cfg.tokenB by rw [hpool]] at y1 y2
      unfold Stable.Spec.other at y2
      have hAB := hp.distinct.1
      rcases hpt with rfl | rfl
      · simp [Ne.symm hAB] at y1 y2
        exact ⟨y1.symm, y2.symm⟩
      · simp [Ne.symm hAB] at y1 y2
        exact ⟨y2.symm, y1.symm⟩
    rw [e1, d1]
    generalize q.resA = ra at *
    generalize q.resB = rb at *
    rw [← hq.1, ← hq.2, hpool]
  · rw [e1, d1, ← hf]; exact hfee
  · have := key t me
    have o := h.own t
    rw [if_neg (fun k => hR k.2), if_neg (fun k => hns k.2)] at this
    omega
  · rw [e1]
    show M'.bal p.cfg.shareToken a = M.bal p.cfg.shareToken a
    have := key p.cfg.shareToken a
    have o := h.lp a
    rw [if_neg (fun k => hot k.1), if_neg (fun k => hot k.1)] at this
    omega

theorem provide_dearer {me : Addr} {c : Ctx} {p p' q q' : State} {L L' M M' : Ledger} {sender : Addr}
    {a b : Int} {cu : Option Int} {dl : Option Nat} {ms : Option Nat} (h : Rel me p p' L L')
    (hp : PoolInv me p L) (hp' : PoolInv me p' L') (hself : c.auth me = false)
    (h1 : provide me c p L sender a b cu dl ms = .ok (q, M))
    (h2 : provide me c p' L' sender a b cu dl ms = .ok (q', M')) :
    Rel me q q' M M' ∧ ∀ t a, M'.bal t a - M.bal t a = L'.bal t a - L.bal t a := by
  obtain ⟨amp, ua, ub, d, s, -, -, -, -, -, -, -, hamp, hua, hub, hd, hs, -, fl, sr, e1⟩ := Stable.provide_inv h1 hself hp.distinct
  obtain ⟨amp', ua', ub', d', s', -, -, -, -, -, -, -, hamp', hua', hub', hd', hs', -, fl', sr', d1⟩ :=
    Stable.provide_inv h2 hself hp'.distinct
  obtain ⟨f, hf⟩ : ∃ f, f = p'.cfg.totalFeeBps := ⟨_, rfl⟩
  have hpool := h.pool
  have hfee := h.fee
  rw [← hf] at hpool hfee
  subst hpool
  simp only at fl' d1 hamp' hua' hub' hd' hs'
  rw [hamp, ok_inj] at hamp'
  obtain rfl : ua' = ua := by omega
  obtain rfl : ub' = ub := by omega
  subst hamp'
  rw [(h.rights _).2.2, (h.rights _).2.2] at hd' hs'
  rw [hd, ok_inj] at hd'
  subst hd'
  have hs2 : newShares p amp (L p.cfg.tokenA).decimals (L p.cfg.tokenB).decimals d = .ok s' := hs'
  rw [hs, ok_inj] at hs2
  subst hs2
  rw [h.own p.cfg.tokenA, h.own p.cfg.tokenB] at d1
  have key : ∀ t a, M'.bal t a - M.bal t a = L'.bal t a - L.bal t a := by
    intro t a
    rw [fl, fl']; omega
  subst e1 d1
  refine ⟨⟨rfl, hfee, alike_of h.rights sr sr', fun t => ?_, fun a => ?_⟩, key⟩
  · have := key t me; have := h.own t; omega
  · have := key p.cfg.shareToken a; have := h.lp a; show _ = _; simp only; omega

theorem withdraw_dearer {me : Addr} {c : Ctx} {p p' q q' : State} {L L' M M' : Ledger} {sender : Addr}
    {sh mA mB ra rb ra' rb' : Int} {dl : Option Nat} (h : Rel me p p' L L')
    (hp : PoolInv me p L) (hp' : PoolInv me p' L') (hself : c.auth me = false)
    (h1 : withdraw me c p L sender sh mA mB dl = .ok (q, M, ra, rb))
    (h2 : withdraw me c p' L' sender sh mA mB dl = .ok (q', M', ra', rb')) :
    Rel me q q' M M' ∧ ∀ t a, M'.bal t a - M.bal t a = L'.bal t a - L.bal t a := by
  obtain ⟨-, -, -, -, -, -, -, -, -, -, -, e1, e2, fl, sr, e3⟩ := Stable.withdraw_inv h1 hself hp.distinct
  obtain ⟨-, -, -, -, -, -, -, -, -, -, -, d1, d2, fl', sr', d3⟩ := Stable.withdraw_inv h2 hself hp'.distinct
  obtain ⟨f, hf⟩ : ∃ f, f = p'.cfg.totalFeeBps := ⟨_, rfl⟩
  have hpool := h.pool
  have hfee := h.fee
  rw [← hf] at hpool hfee
  subst hpool
  simp only at fl' d1 d2
  rw [← e1] at d1
  rw [← e2] at d2
  subst d1 d2
  have key : ∀ t a, M'.bal t a - M.bal t a = L'.bal t a - L.bal t a := by
    intro t a
    rw [fl, fl']; omega
  subst e3 d3
  refine ⟨⟨rfl, hfee, alike_of h.rights sr sr', fun t => ?_, fun a => ?_⟩, key⟩
  · have := key t me; have := h.own t; omega
  · have := key p.cfg.shareToken a; have := h.lp a; show _ = _; simp only; omega

theorem step_dearer {me : Addr} {s s' r r' : Sys} {t : Tx} {p p' : State} (hs : SysInv me s) (hs' : SysInv me s')
    (ht : Stable.Spec.Possible me t) (e : s.pool = some p) (e' : s'.pool = some p') (h : Rel me p p' s.led s'.led)
    (hR : Stable.Spec.isSwap t = true → p.cfg.feeRecipient ≠ me) (h1 : step me s t = .ok r) (h2 : step me s' t = .ok r') :
    (∃ q q', r.pool = some q ∧ r'.pool = some q' ∧ Rel me q q' r.led r'.led) ∧ Costs s s' r r' t := by
  have hP := hs.pool p e
  have hP' := hs'.pool p' e'
  have hself := ht.1
  cases t with
  | token c tok op =>
    simp only [step, bind_ok, ok_inj] at h1 h2
    obtain ⟨L, h1, rfl⟩ := h1
    obtain ⟨L', h2, rfl⟩ := h2
    obtain ⟨k, d⟩ := ledger_call_alike h.rights h1 h2
    refine ⟨⟨p, p', e, e', h.pool, h.fee, k, fun t => ?_, fun a => ?_⟩, .inl d⟩
    · have := d t me; have := h.own t; simp only; omega
    · have := d p.cfg.shareToken a; have := h.lp a; simp only; omega
  | pool c k =>
    cases k with
    | init i =>
      simp only [step, bind_ok] at h1
      obtain ⟨⟨q, L⟩, h1, -⟩ := h1
      rw [(Stable.init_inv h1).1] at e
      exact absurd e (by simp)
    | provide sender a b cu dl ms =>
      simp only [step, bind_ok, e, e', loaded, ok_inj] at h1 h2
      obtain ⟨_, rfl, ⟨q, M⟩, h1, rfl⟩ := h1
      obtain ⟨_, rfl, ⟨q', M'⟩, h2, rfl⟩ := h2
      obtain ⟨k, d⟩ := provide_dearer h hP hP' hself h1 h2
      exact ⟨⟨q, q', rfl, rfl, k⟩, .inl d⟩
    | swap sender offer amount mo ms dl mf =>
      simp only [step, bind_ok, e, e', loaded, ok_inj] at h1 h2
      obtain ⟨_, rfl, ⟨q, M, ret⟩, h1, rfl⟩ := h1
      obtain ⟨_, rfl, ⟨q', M', ret'⟩, h2, rfl⟩ := h2
      obtain ⟨k, tok, x, x0, d⟩ := swap_dearer h hP hP' hself (hR rfl) h1 h2
      exact ⟨⟨q, q', rfl, rfl, k⟩, .inr ⟨sender, p.cfg.feeRecipient, tok, x, rfl, rfl, by simp [collector, e], x0, d⟩⟩
    | withdraw sender sh mA mB dl =>
      simp only [step, bind_ok, e, e', loaded, ok_inj] at h1 h2
      obtain ⟨_, rfl, ⟨q, M, _, _⟩, h1, rfl⟩ := h1
      obtain ⟨_, rfl, ⟨q', M', _, _⟩, h2, rfl⟩ := h2
      obtain ⟨k, d⟩ := withdraw_dearer h hP hP' hself h1 h2
      exact ⟨⟨q, q', rfl, rfl, k⟩, .inl d⟩
    | updateConfig sd u =>
      simp only [step, bind_ok, e, e', loaded, ok_inj] at h1 h2
      obtain ⟨_, rfl, _, h1, rfl⟩ := h1
      obtain ⟨_, rfl, _, h2, rfl⟩ := h2
      obtain ⟨-, rfl, -⟩ := updateConfig_inv h1
      obtain ⟨-, rfl, -⟩ := updateConfig_inv h2
      refine ⟨⟨_, _, rfl, rfl, ?_, ?_, h.rights, h.own, h.lp⟩, .inl fun _ _ => rfl⟩
      · have := h.pool
        generalize p'.cfg.totalFeeBps = f at this
        subst this
        rfl
      · have := h.fee
        simp only
        cases u.totalFeeBps with
        | none => simpa using this
        | some f => simp

theorem exec_dearer {me : Addr} {s s' : Sys} {t : Tx} {p p' : State} (hs : SysInv me s) (hs' : SysInv me s')
    (ht : Stable.Spec.Possible me t) (e : s.pool = some p) (e' : s'.pool = some p') (h : Rel me p p' s.led s'.led)
    (hR : Stable.Spec.isSwap t = true → p.cfg.feeRecipient ≠ me) (hf : accepted me s t = accepted me s' t) :
    (∃ q q', (exec me s t).pool = some q ∧ (exec me s' t).pool = some q' ∧ Rel me q q' (exec me s t).led (exec me s' t).led) ∧
      Costs s s' (exec me s t) (exec me s' t) t := by
  unfold exec
  unfold accepted at hf
  cases h1 : step me s t with
  | ok r =>
    cases h2 : step me s' t with
    | ok r' => exact step_dearer hs hs' ht e e' h hR h1 h2
    | error _ => rw [h1, h2] at hf; simp [Except.toOption] at hf
  | error _ =>
    cases h2 : step me s' t with
    | ok r' => rw [h1, h2] at hf; simp [Except.toOption] at hf
    | error _ => exact ⟨⟨p, p', e, e', h⟩, .inl fun _ _ => rfl⟩

/-! ### histories -/

theorem feesGo_and {me : Addr} {P Q : Addr → Prop} : ∀ {ts : List Tx} {s : Sys}, FeesGo me P s ts → FeesGo me Q s ts →
    FeesGo me (fun a => P a ∧ Q a) s ts
  | [], _, _, _ => trivial
  | _ :: _, _, h, k => ⟨fun e a c => ⟨h.1 e a c, k.1 e a c⟩, feesGo_and h.2 k.2⟩

theorem feesGo_true {me : Addr} : ∀ (ts : List Tx) (s : Sys), FeesGo me (fun _ => True) s ts
  | [], _ => trivial
  | _ :: ts, _ => ⟨fun _ _ _ => trivial, feesGo_true ts _⟩

/-- By induction, whatever `P` the recipients of the fees meet, `Q` the traders meet, and `I` is kept by what such a trade costs. -/
theorem hist {me : Addr} {P Q : Addr → Prop} (I : (Addr → Addr → Int) → Prop)
    (hI : ∀ d d' : Addr → Addr → Int, ∀ sender R tok x, 0 ≤ x → P R → Q sender → I d →
      (∀ t a, d' t a = d t a + ((if tok = t ∧ R = a then x else 0) - (if tok = t ∧ sender = a then x else 0))) → I d') :
    ∀ (us : List Tx) {s s' : Sys} {p p' : State}, SysInv me s → SysInv me s' → (∀ t ∈ us, Stable.Spec.Possible me t) →
      (∀ t ∈ us, ∀ a, trader t = some a → Q a) → s.pool = some p → s'.pool = some p' → Rel me p p' s.led s'.led →
      FeesGo me (fun a => a ≠ me ∧ P a) s us → SameFate me s s' us → I (diff s s') →
      (∃ q q', (run me s us).pool = some q ∧ (run me s' us).pool = some q' ∧ Rel me q q' (run me s us).led (run me s' us).led) ∧
        I (diff (run me s us) (run me s' us))
  | [], s, s', p, p', _, _, _, _, e, e', h, _, _, i => ⟨⟨p, p', e, e', h⟩, i⟩
  | t :: us, s, s', p, p', hs, hs', ht, hq, e, e', h, hg, hf, i => by
    have hg1 : Stable.Spec.isSwap t = true → p.cfg.feeRecipient ≠ me ∧ P p.cfg.feeRecipient :=
      fun k => hg.1 k _ (by simp [collector, e])
    obtain ⟨⟨q, q', k, k', r⟩, c⟩ := exec_dearer hs hs' (ht t (by simp)) e e' h (fun k => (hg1 k).1) hf.1
    have i' : I (diff (exec me s t) (exec me s' t)) := by
      rcases c with c | ⟨sender, R, tok, x, w, sw, co, x0, c⟩
      · have : diff (exec me s t) (exec me s' t) = diff s s' := funext fun t => funext fun a => c t a
        rw [this]; exact i
      · exact hI _ _ sender R tok x x0 ((hg.1 sw R co).2) (hq t (by simp) sender w) i c
    exact hist I hI us (exec_keeps (ht t (by simp)) hs) (exec_keeps (ht t (by simp)) hs') (fun t h => ht t (by simp [h]))
      (fun t h => hq t (by simp [h])) k k' r hg.2 hf.2 i'

theorem rel_of_update {me : Addr} {s r : Sys} {c : Ctx} {p : State} {sd : Addr} {f : Int} (e : s.pool = some p)
    (hf : p.cfg.totalFeeBps ≤ f) (h : step me s (.pool c (.updateConfig sd { totalFeeBps := some f })) = .ok r) :
    (∃ p', r.pool = some p' ∧ Rel me p p' s.led r.led) ∧ ∀ t a, diff s r t a = 0 := by
  simp only [step, bind_ok, e, loaded, ok_inj] at h
  obtain ⟨_, rfl, _, h, rfl⟩ := h
  obtain ⟨-, rfl, -⟩ := updateConfig_inv h
  exact ⟨⟨_, rfl, rfl, by simpa using hf, Ledger.sameRights_refl _, fun _ => rfl, fun _ => rfl⟩, fun _ _ => by simp [diff]⟩

section
variable {me sd : Addr} {s r : Sys} {c : Ctx} {p : State} {f : Int} (h0 : Stable.Spec.Genesis me s) (ts us : List Tx)
  (ht : ∀ t ∈ ts, Stable.Spec.Possible me t) (hu : ∀ t ∈ us, Stable.Spec.Possible me t) (hc : c.auth me = false)
  (e : (run me s ts).pool = some p) (hf : p.cfg.totalFeeBps ≤ f)
  (hb : step me (run me s ts) (.pool c (.updateConfig sd { totalFeeBps := some f })) = .ok r)
  (hfate : SameFate me (run me s ts) r us) (hme : FeesGo me (fun a => a ≠ me) (run me s ts) us)
include h0 ht hu hc e hf hb hfate hme

/-- **C156** (stable pool) Raise the fee of a pool and let the same transactions go through as without that. The pool ends up with the
same reserves, the same number of shares, the same holders of the shares and the same tokens in its account. -/
theorem C156_stable_pool_unchanged : ∃ q q', (run me (run me s ts) us).pool = some q ∧ (run me r us).pool = some q' ∧
    q'.resA = q.resA ∧ q'.resB = q.resB ∧ q'.total = q.total ∧ q'.cfg.shareToken = q.cfg.shareToken ∧
    (∀ a, (run me r us).led.bal q.cfg.shareToken a = (run me (run me s ts) us).led.bal q.cfg.shareToken a) ∧
    ∀ t, (run me r us).led.bal t me = (run me (run me s ts) us).led.bal t me := by
  have hs := run_keeps ts ht (Stable.genesis_inv h0)
  have hr := step_keeps hb ⟨hc, trivial⟩ hs
  obtain ⟨⟨p', e', k⟩, -⟩ := rel_of_update e hf hb
  obtain ⟨⟨q, q', k1, k2, R⟩, -⟩ := hist (P := fun _ => True) (Q := fun _ => True) (fun _ => True) (fun _ _ _ _ _ _ _ _ _ _ _ => trivial)
    us hs hr hu (fun _ _ _ _ => trivial) e e' k (feesGo_and hme (feesGo_true us _)) hfate trivial
  refine ⟨q, q', k1, k2, ?_, ?_, ?_, ?_, R.lp, R.own⟩ <;> rw [R.pool]

/-- **C156** (stable pool) Nobody but the recipients of the fees ends up with more of any token. -/
theorem C156_stable_nobody_else_gains {a : Addr} (ha : FeesGo me (fun R => R ≠ a) (run me s ts) us) (t : Addr) :
    (run me r us).led.bal t a ≤ (run me (run me s ts) us).led.bal t a := by
  have hs := run_keeps ts ht (Stable.genesis_inv h0)
  have hr := step_keeps hb ⟨hc, trivial⟩ hs
  obtain ⟨⟨p', e', k⟩, d⟩ := rel_of_update e hf hb
  have := (hist (P := fun R => R ≠ a) (Q := fun _ => True) (fun d => ∀ t, d t a ≤ 0)
    (fun d d' sender R tok x x0 hR _ i c t => by
      rw [c, if_neg (fun k => hR k.2)]
      have := i t
      split_ifs <;> omega)
    us hs hr hu (fun _ _ _ _ => trivial) e e' k (feesGo_and hme ha) hfate (fun t => by rw [d])).2 t
  unfold diff at this
  omega

/-- **C156** (stable pool) A recipient of all the fees does not end up with less of any token. -/
theorem C156_stable_recipient_gains {a : Addr} (ha : FeesGo me (fun R => R = a) (run me s ts) us) (t : Addr) :
    (run me (run me s ts) us).led.bal t a ≤ (run me r us).led.bal t a := by
  have hs := run_keeps ts ht (Stable.genesis_inv h0)
  have hr := step_keeps hb ⟨hc, trivial⟩ hs
  obtain ⟨⟨p', e', k⟩, d⟩ := rel_of_update e hf hb
  have := (hist (P := fun R => R = a) (Q := fun _ => True) (fun d => ∀ t, 0 ≤ d t a)
    (fun d d' sender R tok x x0 hR _ i c t => by
      rw [c]
      have := i t
      subst hR
      by_cases ht : tok = t
      · rw [if_pos ⟨ht, rfl⟩]; split_ifs <;> omega
      · rw [if_neg (fun k => ht k.1), if_neg (fun k => ht k.1)]; omega)
    us hs hr hu (fun _ _ _ _ => trivial) e e' k (feesGo_and hme ha) hfate (fun t => by rw [d])).2 t
  unfold diff at this
  omega

/-- **C156** (stable pool) Who does not trade and gets no fees ends up with exactly the same. -/
theorem C156_stable_others_unaffected {a : Addr} (ha : FeesGo me (fun R => R ≠ a) (run me s ts) us)
    (hq : ∀ t ∈ us, trader t ≠ some a) (t : Addr) :
    (run me r us).led.bal t a = (run me (run me s ts) us).led.bal t a := by
  have hs := run_keeps ts ht (Stable.genesis_inv h0)
  have hr := step_keeps hb ⟨hc, trivial⟩ hs
  obtain ⟨⟨p', e', k⟩, d⟩ := rel_of_update e hf hb
  have := (hist (P := fun R => R ≠ a) (Q := fun b => b ≠ a) (fun d => ∀ t, d t a = 0)
    (fun d d' sender R tok x x0 hR hS i c t => by
      rw [c, if_neg (fun k => hR k.2), if_neg (fun k => hS k.2)]
      have := i t
      omega)
    us hs hr hu (fun t h b w k => hq t h (by rw [w, k])) e e' k (feesGo_and hme ha) hfate (fun t => by rw [d])).2 t
  unfold diff at this
  omega

end

/-! ### a concrete history -/

/-- what happens after the fee is raised from 30 to 500 basis points, or is not -/
def more : List Tx :=
  [ Props.Stable.exSwap 10 1000000, Props.Stable.exSwap 11 300000, Props.Stable.exSwap 10 50000 ]

/-- the hypotheses of the theorems: account 7 collects the fees -/
example : let s := run 100 (Props.Stable.exStart 7 7) (Props.Stable.exHist 100 20000000 20000000)
    ∃ r, s.pool.map (fun p => p.cfg.totalFeeBps) = some 30 ∧
    step 100 s (.pool (Props.Stable.by' 8) (.updateConfig 8 { totalFeeBps := some 500 })) = .ok r ∧
    (∀ t ∈ more, Stable.Spec.Possible 100 t) ∧
    SameFate 100 s r more ∧ FeesGo 100 (fun a => a ≠ 100) s more ∧
    FeesGo 100 (fun a => a = 7) s more ∧ FeesGo 100 (fun a => a ≠ 2) s more ∧
    FeesGo 100 (fun a => a ≠ 1) s more ∧ (∀ t ∈ more, trader t ≠ some 1) ∧
    (run 100 s more).pool.map (fun q => (q.resA, q.resB)) = (run 100 r more).pool.map (fun q => (q.resA, q.resB)) ∧
    (run 100 r more).led.bal 11 7 - (run 100 s more).led.bal 11 7 = 49314 ∧
    (run 100 r more).led.bal 11 2 - (run 100 s more).led.bal 11 2 = -49314 := by
  intro s
  have go : ∀ (P : Addr → Prop), P 7 → FeesGo 100 P s more := by
    intro P h
    have c0 : collector s = some 7 := by decide +kernel
    have c1 : collector (exec 100 s (Props.Stable.exSwap 10 1000000)) = some 7 := by decide +kernel
    have c2 : collector (exec 100 (exec 100 s (Props.Stable.exSwap 10 1000000)) (Props.Stable.exSwap 11 300000)) = some 7 := by
      decide +kernel
    generalize s = s at c0 c1 c2 ⊢
    unfold more FeesGo FeesGo FeesGo FeesGo
    refine ⟨fun _ a k => ?_, fun _ a k => ?_, fun _ a k => ?_, trivial⟩
    · rw [c0, Option.some.injEq] at k; exact k ▸ h
    · rw [c1, Option.some.injEq] at k; exact k ▸ h
    · rw [c2, Option.some.injEq] at k; exact k ▸ h
  have ok : ∀ {s : Sys} {t : Tx}, accepted 100 s t = true → step 100 s t = .ok (exec 100 s t) := by
    intro s t h
    unfold accepted at h
    unfold exec
    cases k : step 100 s t with
    | ok _ => rfl
    | error _ => rw [k] at h; simp [Except.toOption] at h
  refine ⟨_, ?_, ok (by decide +kernel), ?_, ⟨?_, ?_, ?_, trivial⟩, go _ (by decide), go _ rfl, go _ (by decide), go _ (by decide), ?_, ?_, ?_, ?_⟩
  case refine_2 =>
    intro t ht
    simp only [more, List.mem_cons, List.not_mem_nil, or_false] at ht
    rcases ht with rfl | rfl | rfl <;> exact ⟨rfl, trivial⟩
  all_goals decide +kernel

end Phoenix.Props.DearerStable
