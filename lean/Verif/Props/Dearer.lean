import Verif.Spec.Dearer
import Verif.Props.PoolSwap
import Verif.Props.PoolSys
/-!
Property C156: a higher fee only moves tokens from those who trade to the fee recipient.
-/
namespace Phoenix.Props.Dearer
open Phoenix Phoenix.Dearer Phoenix.Pool

/-! ### the tokens -/

/-- Two states of a token that differ at most in the balances. -/
def Alike (t u : Token) : Prop := u.admin = t.admin ∧ u.allow = t.allow ∧ u.decimals = t.decimals

theorem upd_shift {f g : Addr → Int} {s : Addr} {x : Int} (a : Addr) :
    upd g s (g s + x) a - upd f s (f s + x) a = g a - f a := by
  by_cases e : a = s
  · subst e; rw [upd_same, upd_same]; omega
  · rw [upd_ne _ _ e, upd_ne _ _ e]

theorem spendAllowance_alike {t u t' u' : Token} {seq o sp : Nat} {x : Int} (h : Alike t u)
    (h1 : t.spendAllowance seq o sp x = .ok t') (h2 : u.spendAllowance seq o sp x = .ok u') :
    Alike t' u' ∧ ∀ a, u'.bal a - t'.bal a = u.bal a - t.bal a := by
  obtain ⟨-, b1, a1, d1, c1⟩ := Token.spendAllowance_ok h1
  obtain ⟨-, b2, a2, d2, c2⟩ := Token.spendAllowance_ok h2
  obtain ⟨k1, k2, k3⟩ := h
  refine ⟨⟨by rw [a2, a1, k1], ?_, by rw [d2, d1, k3]⟩, fun a => by rw [b1, b2]⟩
  have e : u.readAllowance seq o sp = t.readAllowance seq o sp := by unfold Token.readAllowance; rw [k2]
  rcases c1 with ⟨rfl, z1⟩ | ⟨z1, w1⟩ <;> rcases c2 with ⟨rfl, z2⟩ | ⟨z2, w2⟩
  · exact k2
  · omega
  · omega
  · rw [w1, w2, e, k2]

theorem receive_alike {t u t' u' : Token} {d : Addr} {x : Int} (h : Alike t u)
    (h1 : t.receive d x = .ok t') (h2 : u.receive d x = .ok u') :
    Alike t' u' ∧ ∀ a, u'.bal a - t'.bal a = u.bal a - t.bal a := by
  rw [Token.receive_ok] at h1 h2
  obtain ⟨-, rfl⟩ := h1
  obtain ⟨-, rfl⟩ := h2
  exact ⟨h, fun a => upd_shift a⟩

theorem spend_alike {t u t' u' : Token} {d : Addr} {x : Int} (h : Alike t u)
    (h1 : t.spend d x = .ok t') (h2 : u.spend d x = .ok u') :
    Alike t' u' ∧ ∀ a, u'.bal a - t'.bal a = u.bal a - t.bal a := by
  rw [Token.spend_ok] at h1 h2
  obtain ⟨-, -, rfl⟩ := h1
  obtain ⟨-, -, rfl⟩ := h2
  exact ⟨h, fun a => by simpa [sub_eq_add_neg] using upd_shift (f := t.bal) (g := u.bal) (s := d) (x := -x) a⟩

/-- A call of a token that goes through in both changes the balances equally. -/
theorem call_alike {c : Ctx} {t u t' u' : Token} {op : TokenOp} (h : Alike t u)
    (h1 : t.call c op = .ok t') (h2 : u.call c op = .ok u') :
    Alike t' u' ∧ ∀ a, u'.bal a - t'.bal a = u.bal a - t.bal a := by
  cases op with
  | mint d x =>
    simp only [Token.call, Token.mint, bind_ok] at h1 h2
    obtain ⟨_, -, _, -, h1⟩ := h1
    obtain ⟨_, -, _, -, h2⟩ := h2
    exact receive_alike h h1 h2
  | setAdmin n =>
    simp only [Token.call, Token.setAdmin, bind_ok, ok_inj] at h1 h2
    obtain ⟨_, -, rfl⟩ := h1
    obtain ⟨_, -, rfl⟩ := h2
    exact ⟨⟨rfl, h.2.1, h.2.2⟩, fun _ => rfl⟩
  | approve o sp x e =>
    simp only [Token.call, Token.approve, bind_ok, Token.writeAllowance_ok] at h1 h2
    obtain ⟨_, -, _, -, -, rfl⟩ := h1
    obtain ⟨_, -, _, -, -, rfl⟩ := h2
    exact ⟨⟨h.1, by simp only [h.2.1], h.2.2⟩, fun _ => rfl⟩
  | transfer s d x =>
    simp only [Token.call, Token.transfer, bind_ok] at h1 h2
    obtain ⟨_, -, _, -, t1, s1, r1⟩ := h1
    obtain ⟨_, -, _, -, t2, s2, r2⟩ := h2
    obtain ⟨k, e⟩ := spend_alike h s1 s2
    obtain ⟨k', e'⟩ := receive_alike k r1 r2
    exact ⟨k', fun a => (e' a).trans (e a)⟩
  | transferFrom sp s d x =>
    simp only [Token.call, Token.transferFrom, bind_ok] at h1 h2
    obtain ⟨_, -, _, -, _, w1, t1, s1, r1⟩ := h1
    obtain ⟨_, -, _, -, _, w2, t2, s2, r2⟩ := h2
    obtain ⟨k0, e0⟩ := spendAllowance_alike h w1 w2
    obtain ⟨k, e⟩ := spend_alike k0 s1 s2
    obtain ⟨k', e'⟩ := receive_alike k r1 r2
    exact ⟨k', fun a => (e' a).trans ((e a).trans (e0 a))⟩
  | burn s x =>
    simp only [Token.call, Token.burn, bind_ok] at h1 h2
    obtain ⟨_, -, _, -, s1⟩ := h1
    obtain ⟨_, -, _, -, s2⟩ := h2
    exact spend_alike h s1 s2
  | burnFrom sp s x =>
    simp only [Token.call, Token.burnFrom, bind_ok] at h1 h2
    obtain ⟨_, -, _, -, _, w1, s1⟩ := h1
    obtain ⟨_, -, _, -, _, w2, s2⟩ := h2
    obtain ⟨k0, e0⟩ := spendAllowance_alike h w1 w2
    obtain ⟨k, e⟩ := spend_alike k0 s1 s2
    exact ⟨k, fun a => (e a).trans (e0 a)⟩

theorem ledger_call_alike {c : Ctx} {L M L' M' : Ledger} {tok : Addr} {op : TokenOp} (h : Spec.SameRights L M)
    (h1 : L.call c tok op = .ok L') (h2 : M.call c tok op = .ok M') :
    Spec.SameRights L' M' ∧ ∀ t a, M'.bal t a - L'.bal t a = M.bal t a - L.bal t a := by
  rw [Ledger.call_ok] at h1 h2
  obtain ⟨t1, h1, rfl⟩ := h1
  obtain ⟨t2, h2, rfl⟩ := h2
  obtain ⟨k, e⟩ := call_alike (h tok) h1 h2
  refine ⟨fun t => ?_, fun t a => ?_⟩
  · by_cases ht : t = tok
    · subst ht; rw [upd_same, upd_same]; exact k
    · rw [upd_ne _ _ ht, upd_ne _ _ ht]; exact h t
  · unfold Ledger.bal
    by_cases ht : t = tok
    · subst ht; rw [upd_same, upd_same]; exact e a
    · rw [upd_ne _ _ ht, upd_ne _ _ ht]

theorem alike_of {L M L' M' : Ledger} (h : Spec.SameRights L M) (h1 : Spec.SameRights L L') (h2 : Spec.SameRights M M') :
    Spec.SameRights L' M' := fun t =>
  ⟨by rw [(h2 t).1, (h t).1, (h1 t).1], by rw [(h2 t).2.1, (h t).2.1, (h1 t).2.1], by rw [(h2 t).2.2, (h t).2.2, (h1 t).2.2]⟩

/-! ### one transaction -/

/-- The states after corresponding parts of the two histories: the pools differ in the fee only. -/
structure Rel (me : Addr) (p p' : State) (L L' : Ledger) : Prop where
  pool : p' = { p with cfg := { p.cfg with totalFeeBps := p'.cfg.totalFeeBps } }
  fee : p.cfg.totalFeeBps ≤ p'.cfg.totalFeeBps
  rights : Spec.SameRights L L'
  own : ∀ t, L'.bal t me = L.bal t me
  lp : ∀ a, L'.bal p.cfg.shareToken a = L.bal p.cfg.shareToken a

/-- By how much the balances in the two histories differ. -/
def diff (s s' : Sys) (t a : Addr) : Int := s'.led.bal t a - s.led.bal t a

/-- A transaction takes `x ≥ 0` more units from its trader in the second history and gives them to the recipient. -/
def Costs (s s' r r' : Sys) (tx : Tx) : Prop :=
  (∀ t a, diff r r' t a = diff s s' t a) ∨
  ∃ sender R tok x, trader tx = some sender ∧ Spec.isSwap tx = true ∧ collector s = some R ∧ 0 ≤ x ∧
    ∀ t a, diff r r' t a = diff s s' t a + ((if tok = t ∧ R = a then x else 0) - (if tok = t ∧ sender = a then x else 0))

theorem swap_dearer {me : Addr} {c : Ctx} {p p' q q' : State} {L L' M M' : Ledger} {sender offer : Addr}
    {amount ret ret' : Int} {mo ms : Option Int} {dl : Option Nat} {mf : Option Int} (h : Rel me p p' L L')
    (hp : PoolInv me p L) (hp' : PoolInv me p' L') (hself : c.auth me = false) (hR : p.cfg.feeRecipient ≠ me)
    (h1 : swap me c p L sender offer amount mo ms dl mf = .ok (q, M, ret))
    (h2 : swap me c p' L' sender offer amount mo ms dl mf = .ok (q', M', ret')) :
    Rel me q q' M M' ∧ ∃ tok x, 0 ≤ x ∧ ∀ t a, M'.bal t a - M.bal t a = L'.bal t a - L.bal t a +
      ((if tok = t ∧ p.cfg.feeRecipient = a then x else 0) - (if tok = t ∧ sender = a then x else 0)) := by
  obtain ⟨rate, lim, r, -, -, hau, -, hpt, hne, hrate, -, hr, -, -, -, -, fl, sr, e1, e2, e3, e4, e5, e6⟩ :=
    swap_inv h1 hself hp.distinct.1
  obtain ⟨rate', lim', r', -, -, -, -, -, -, hrate', -, hr', -, -, -, -, fl', sr', d1, d2, d3, d4, d5, d6⟩ :=
    swap_inv h2 hself hp'.distinct.1
  obtain ⟨f, hf⟩ : ∃ f, f = p'.cfg.totalFeeBps := ⟨_, rfl⟩
  have hpool := h.pool
  have hfee := h.fee
  rw [← hf] at hpool hfee
  have eo : Spec.other p' offer = Spec.other p offer := by rw [hpool]; rfl
  have er : ∀ t, Spec.reserve p' t = Spec.reserve p t := fun t => by rw [hpool]; rfl
  have eR : p'.cfg.feeRecipient = p.cfg.feeRecipient := by rw [hpool]
  have eS : p'.cfg.shareToken = p.cfg.shareToken := by rw [hpool]
  rw [eo, er, er] at hr'
  rw [eo, er] at d6
  rw [er] at d5
  rw [eo, eR] at fl'
  obtain ⟨-, -, -, r0, -, g0, -, -, c1, c2, -⟩ := computeSwap_inv hr
  obtain ⟨-, -, -, -, -, -, -, -, c1', c2', -⟩ := computeSwap_inv hr'
  rw [Dec.bps_ok] at hrate hrate'
  have hle : rate ≤ rate' := by
    have := hrate.2; have := hrate'.2; rw [← hf] at this; omega
  generalize (Spec.reserve p (Spec.other p offer) - Spec.reserve p offer * Spec.reserve p (Spec.other p offer) / (Spec.reserve p offer + amount)) = g at *
  have hc : r.commission ≤ r'.commission := by
    rw [c1, c1']
    exact Int.ediv_le_ediv (by decide) (mul_le_mul_of_nonneg_left hle g0)
  have hns : sender ≠ me := fun e => by rw [e, hself] at hau; exact absurd hau (by simp)
  have key : ∀ t a, M'.bal t a - M.bal t a = L'.bal t a - L.bal t a +
      ((if Spec.other p offer = t ∧ p.cfg.feeRecipient = a then r'.commission - r.commission else 0) -
       (if Spec.other p offer = t ∧ sender = a then r'.commission - r.commission else 0)) := by
    intro t a
    have x1 := fl t a
    have x2 := fl' t a
    simp only [List.map_cons, List.map_nil, List.sum_cons, List.sum_nil, Spec.Flow.delta] at x1 x2
    rw [x1, x2, c2, c2']
    split_ifs <;> omega
  have hot : Spec.other p offer ≠ p.cfg.shareToken := by
    unfold Spec.other
    split
    · exact fun e => hp.distinct.2.2 e.symm
    · exact fun e => hp.distinct.2.1 e.symm
  have hsum : r'.ret + r'.commission = r.ret + r.commission := by omega
  rw [hsum] at d6
  refine ⟨⟨?_, ?_, alike_of h.rights sr sr', fun t => ?_, fun a => ?_⟩, _, _, by omega, key⟩
  · have hq : q.resA = q'.resA ∧ q.resB = q'.resB := by
      have y1 : Spec.reserve q' offer = Spec.reserve q offer := by rw [d5, e5]
      have y2 : Spec.reserve q' (Spec.other p offer) = Spec.reserve q (Spec.other p offer) := by rw [d6, e6]
      unfold Spec.reserve at y1 y2
      rw [e1, d1, show p'.cfg.tokenA = p.cfg.tokenA by rw [hpool], show p'.cfg.tokenB = p.cfg.tokenB by rw [hpool]] at y1 y2
      unfold Spec.other at y2
      have hAB := hp.distinct.1
      rcases hpt with rfl | rfl
      · simp [Ne.symm hAB] at y1 y2
        exact ⟨y1.symm, y2.symm⟩
      · simp [Ne.symm hAB] at y1 y2
        exact ⟨y2.symm, y1.symm⟩
    cases q; cases q'
    simp only at e1 e2 e3 e4 d1 d2 d3 d4 hq ⊢
    rw [State.mk.injEq]
    refine ⟨?_, ?_, ?_, hq.1.symm, hq.2.symm, ?_⟩
    · rw [d1, e1, ← hf, hpool]
    · rw [d2, e2, hpool]
    · rw [d3, e3, hpool]
    · rw [d4, e4, hpool]
  · rw [e1, d1, ← hf]; exact hfee
  · have := key t me
    have o := h.own t
    rw [if_neg (fun k => hR k.2), if_neg (fun k => hns k.2)] at this
    omega
  · rw [e1]
    have := key p.cfg.shareToken a
    have o := h.lp a
    rw [if_neg (fun k => hot k.1), if_neg (fun k => hot k.1)] at this
    omega

theorem provide_dearer {me : Addr} {c : Ctx} {p p' q q' : State} {L L' M M' : Ledger} {sender : Addr}
    {dA mA dB mB cu : Option Int} {dl : Option Nat} (h : Rel me p p' L L')
    (hp : PoolInv me p L) (hp' : PoolInv me p' L') (hself : c.auth me = false)
    (h1 : provide me c p L sender dA mA dB mB cu dl = .ok (q, M))
    (h2 : provide me c p' L' sender dA mA dB mB cu dl = .ok (q', M')) :
    Rel me q q' M M' ∧ ∀ t a, M'.bal t a - M.bal t a = L'.bal t a - L.bal t a := by
  obtain ⟨a, b, m, lock, -, -, -, hch, -, -, -, -, -, -, fl, sr, e1, e2⟩ := provide_inv h1 hself hp.distinct
  obtain ⟨a', b', m', lock', -, -, -, hch', -, -, -, -, -, -, fl', sr', d1, d2⟩ := provide_inv h2 hself hp'.distinct
  obtain ⟨f, hf⟩ : ∃ f, f = p'.cfg.totalFeeBps := ⟨_, rfl⟩
  have hpool := h.pool
  have hfee := h.fee
  rw [← hf] at hpool hfee
  subst hpool
  have hc2 : chooseAmounts p dA mA dB mB cu = .ok (a', b') := hch'
  rw [hch, ok_inj, Prod.mk.injEq] at hc2
  obtain ⟨rfl, rfl⟩ := hc2
  simp only at fl' d1 d2
  have oA := h.own p.cfg.tokenA
  have oB := h.own p.cfg.tokenB
  rw [oA, oB] at d1 d2
  have hm : m' = m ∧ lock' = lock := by
    rcases e2 with ⟨k1, k2, k3, k4⟩ | ⟨k1, k2, s, k3, k4, k5⟩ <;> rcases d2 with ⟨j1, j2, j3, j4⟩ | ⟨j1, j2, s', j3, j4, j5⟩
    · rw [← k4] at j4; omega
    · exact absurd ⟨k1, k2⟩ j1
    · exact absurd ⟨j1, j2⟩ k1
    · rw [k3, ok_inj] at j3; omega
  obtain ⟨rfl, rfl⟩ := hm
  have key : ∀ t a, M'.bal t a - M.bal t a = L'.bal t a - L.bal t a := by
    intro t a
    rw [fl, fl']; omega
  subst e1 d1
  refine ⟨⟨rfl, hfee, alike_of h.rights sr sr', fun t => ?_, fun a => ?_⟩, key⟩
  · have := key t me; have := h.own t; omega
  · have := key p.cfg.shareToken a; have := h.lp a; show _ = _; simp only; omega

theorem withdraw_dearer {me : Addr} {c : Ctx} {p p' q q' : State} {L L' M M' : Ledger} {sender : Addr}
    {sh mA mB ra rb ra' rb' : Int} {dl : Option Nat} (h : Rel me p p' L L')
    (hp : PoolInv me p L) (hp' : PoolInv me p' L') (hself : c.auth me = false)
    (h1 : withdraw me c p L sender sh mA mB dl = .ok (q, M, ra, rb))
    (h2 : withdraw me c p' L' sender sh mA mB dl = .ok (q', M', ra', rb')) :
    Rel me q q' M M' ∧ ∀ t a, M'.bal t a - M.bal t a = L'.bal t a - L.bal t a := by
  obtain ⟨-, -, -, -, -, -, -, -, -, -, -, e1, e2, fl, sr, e3⟩ := withdraw_inv h1 hself hp.distinct
  obtain ⟨-, -, -, -, -, -, -, -, -, -, -, d1, d2, fl', sr', d3⟩ := withdraw_inv h2 hself hp'.distinct
  obtain ⟨f, hf⟩ : ∃ f, f = p'.cfg.totalFeeBps := ⟨_, rfl⟩
  have hpool := h.pool
  have hfee := h.fee
  rw [← hf] at hpool hfee
  subst hpool
  simp only at fl' d1 d2
  rw [← e1] at d1
  rw [← e2] at d2
  subst d1 d2
  have key : ∀ t a, M'.bal t a - M.bal t a = L'.bal t a - L.bal t a := by
    intro t a
    rw [fl, fl']; omega
  subst e3 d3
  refine ⟨⟨rfl, hfee, alike_of h.rights sr sr', fun t => ?_, fun a => ?_⟩, key⟩
  · have := key t me; have := h.own t; omega
  · have := key p.cfg.shareToken a; have := h.lp a; show _ = _; simp only; omega

theorem step_dearer {me : Addr} {s s' r r' : Sys} {t : Tx} {p p' : State} (hs : SysInv me s) (hs' : SysInv me s')
    (ht : Spec.Possible me t) (e : s.pool = some p) (e' : s'.pool = some p') (h : Rel me p p' s.led s'.led)
    (hR : Spec.isSwap t = true → p.cfg.feeRecipient ≠ me) (h1 : step me s t = .ok r) (h2 : step me s' t = .ok r') :
    (∃ q q', r.pool = some q ∧ r'.pool = some q' ∧ Rel me q q' r.led r'.led) ∧ Costs s s' r r' t := by
  have hP := hs.pool p e
  have hP' := hs'.pool p' e'
  have hself := ht.1
  cases t with
  | token c tok op =>
    simp only [step, bind_ok, ok_inj] at h1 h2
    obtain ⟨L, h1, rfl⟩ := h1
    obtain ⟨L', h2, rfl⟩ := h2
    obtain ⟨k, d⟩ := ledger_call_alike h.rights h1 h2
    refine ⟨⟨p, p', e, e', h.pool, h.fee, k, fun t => ?_, fun a => ?_⟩, .inl d⟩
    · have := d t me; have := h.own t; simp only; omega
    · have := d p.cfg.shareToken a; have := h.lp a; simp only; omega
  | pool c k =>
    cases k with
    | init i =>
      simp only [step, bind_ok] at h1
      obtain ⟨⟨q, L⟩, h1, -⟩ := h1
      rw [(init_inv h1).1] at e
      exact absurd e (by simp)
    | provide sender dA mA dB mB cu dl =>
      simp only [step, bind_ok, e, e', loaded, ok_inj] at h1 h2
      obtain ⟨_, rfl, ⟨q, M⟩, h1, rfl⟩ := h1
      obtain ⟨_, rfl, ⟨q', M'⟩, h2, rfl⟩ := h2
      obtain ⟨k, d⟩ := provide_dearer h hP hP' hself h1 h2
      exact ⟨⟨q, q', rfl, rfl, k⟩, .inl d⟩
    | swap sender offer amount mo ms dl mf =>
      simp only [step, bind_ok, e, e', loaded, ok_inj] at h1 h2
      obtain ⟨_, rfl, ⟨q, M, ret⟩, h1, rfl⟩ := h1
      obtain ⟨_, rfl, ⟨q', M', ret'⟩, h2, rfl⟩ := h2
      obtain ⟨k, tok, x, x0, d⟩ := swap_dearer h hP hP' hself (hR rfl) h1 h2
      exact ⟨⟨q, q', rfl, rfl, k⟩, .inr ⟨sender, p.cfg.feeRecipient, tok, x, rfl, rfl, by simp [collector, e], x0, d⟩⟩
    | withdraw sender sh mA mB dl =>
      simp only [step, bind_ok, e, e', loaded, ok_inj] at h1 h2
      obtain ⟨_, rfl, ⟨q, M, _, _⟩, h1, rfl⟩ := h1
      obtain ⟨_, rfl, ⟨q', M', _, _⟩, h2, rfl⟩ := h2
      obtain ⟨k, d⟩ := withdraw_dearer h hP hP' hself h1 h2
      exact ⟨⟨q, q', rfl, rfl, k⟩, .inl d⟩
    | updateConfig u =>
      simp only [step, bind_ok, e, e', loaded, ok_inj, updateConfig] at h1 h2
      obtain ⟨_, rfl, _, ⟨_, -, _, -, _, -, _, -, _, -, rfl⟩, rfl⟩ := h1
      obtain ⟨_, rfl, _, ⟨_, -, _, -, _, -, _, -, _, -, rfl⟩, rfl⟩ := h2
      refine ⟨⟨_, _, rfl, rfl, ?_, ?_, h.rights, h.own, h.lp⟩, .inl fun _ _ => rfl⟩
      · have := h.pool
        generalize p'.cfg.totalFeeBps = f at this
        subst this
        rfl
      · have := h.fee
        simp only
        cases u.totalFeeBps with
        | none => simpa using this
        | some f => simp
    | upgrade sl =>
      simp only [step, bind_ok, e, e', loaded, ok_inj, upgrade] at h1 h2
      obtain ⟨_, rfl, _, ⟨_, -, rfl⟩, rfl⟩ := h1
      obtain ⟨_, rfl, _, ⟨_, -, rfl⟩, rfl⟩ := h2
      refine ⟨⟨_, _, rfl, rfl, ?_, h.fee, h.rights, h.own, h.lp⟩, .inl fun _ _ => rfl⟩
      have := h.pool
      generalize p'.cfg.totalFeeBps = f at this
      subst this
      rfl

theorem exec_dearer {me : Addr} {s s' : Sys} {t : Tx} {p p' : State} (hs : SysInv me s) (hs' : SysInv me s')
    (ht : Spec.Possible me t) (e : s.pool = some p) (e' : s'.pool = some p') (h : Rel me p p' s.led s'.led)
    (hR : Spec.isSwap t = true → p.cfg.feeRecipient ≠ me) (hf : accepted me s t = accepted me s' t) :
    (∃ q q', (exec me s t).pool = some q ∧ (exec me s' t).pool = some q' ∧ Rel me q q' (exec me s t).led (exec me s' t).led) ∧
      Costs s s' (exec me s t) (exec me s' t) t := by
  unfold exec
  unfold accepted at hf
  cases h1 : step me s t with
  | ok r =>
    cases h2 : step me s' t with
    | ok r' => exact step_dearer hs hs' ht e e' h hR h1 h2
    | error _ => rw [h1, h2] at hf; simp [Except.toOption] at hf
  | error _ =>
    cases h2 : step me s' t with
    | ok r' => rw [h1, h2] at hf; simp [Except.toOption] at hf
    | error _ => exact ⟨⟨p, p', e, e', h⟩, .inl fun _ _ => rfl⟩

/-! ### histories -/

theorem feesGo_and {me : Addr} {P Q : Addr → Prop} : ∀ {ts : List Tx} {s : Sys}, FeesGo me P s ts → FeesGo me Q s ts →
    FeesGo me (fun a => P a ∧ Q a) s ts
  | [], _, _, _ => trivial
  | _ :: _, _, h, k => ⟨fun e a c => ⟨h.1 e a c, k.1 e a c⟩, feesGo_and h.2 k.2⟩

theorem feesGo_true {me : Addr} : ∀ (ts : List Tx) (s : Sys), FeesGo me (fun _ => True) s ts
  | [], _ => trivial
  | _ :: ts, _ => ⟨fun _ _ _ => trivial, feesGo_true ts _⟩

/-- By induction, whatever `P` the recipients of the fees meet, `Q` the traders meet, and `I` is kept by what such a trade costs. -/
theorem hist {me : Addr} {P Q : Addr → Prop} (I : (Addr → Addr → Int) → Prop)
    (hI : ∀ d d' : Addr → Addr → Int, ∀ sender R tok x, 0 ≤ x → P R → Q sender → I d →
      (∀ t a, d' t a = d t a + ((if tok = t ∧ R = a then x else 0) - (if tok = t ∧ sender = a then x else 0))) → I d') :
    ∀ (us : List Tx) {s s' : Sys} {p p' : State}, SysInv me s → SysInv me s' → (∀ t ∈ us, Spec.Possible me t) →
      (∀ t ∈ us, ∀ a, trader t = some a → Q a) → s.pool = some p → s'.pool = some p' → Rel me p p' s.led s'.led →
      FeesGo me (fun a => a ≠ me ∧ P a) s us → SameFate me s s' us → I (diff s s') →
      (∃ q q', (run me s us).pool = some q ∧ (run me s' us).pool = some q' ∧ Rel me q q' (run me s us).led (run me s' us).led) ∧
        I (diff (run me s us) (run me s' us))
  | [], s, s', p, p', _, _, _, _, e, e', h, _, _, i => ⟨⟨p, p', e, e', h⟩, i⟩
  | t :: us, s, s', p, p', hs, hs', ht, hq, e, e', h, hg, hf, i => by
    have hg1 : Spec.isSwap t = true → p.cfg.feeRecipient ≠ me ∧ P p.cfg.feeRecipient :=
      fun k => hg.1 k _ (by simp [collector, e])
    obtain ⟨⟨q, q', k, k', r⟩, c⟩ := exec_dearer hs hs' (ht t (by simp)) e e' h (fun k => (hg1 k).1) hf.1
    have i' : I (diff (exec me s t) (exec me s' t)) := by
      rcases c with c | ⟨sender, R, tok, x, w, sw, co, x0, c⟩
      · have : diff (exec me s t) (exec me s' t) = diff s s' := funext fun t => funext fun a => c t a
        rw [this]; exact i
      · exact hI _ _ sender R tok x x0 ((hg.1 sw R co).2) (hq t (by simp) sender w) i c
    exact hist I hI us (exec_keeps (ht t (by simp)) hs) (exec_keeps (ht t (by simp)) hs') (fun t h => ht t (by simp [h]))
      (fun t h => hq t (by simp [h])) k k' r hg.2 hf.2 i'

theorem rel_of_update {me : Addr} {s r : Sys} {c : Ctx} {p : State} {f : Int} (e : s.pool = some p) (hf : p.cfg.totalFeeBps ≤ f)
    (h : step me s (.pool c (.updateConfig { totalFeeBps := some f })) = .ok r) :
    (∃ p', r.pool = some p' ∧ Rel me p p' s.led r.led) ∧ ∀ t a, diff s r t a = 0 := by
  simp only [step, bind_ok, e, loaded, ok_inj, updateConfig] at h
  obtain ⟨_, rfl, _, ⟨_, -, _, -, _, -, _, -, _, -, rfl⟩, rfl⟩ := h
  exact ⟨⟨_, rfl, rfl, by simpa using hf, Ledger.sameRights_refl _, fun _ => rfl, fun _ => rfl⟩, fun _ _ => by simp [diff]⟩

section
variable {me : Addr} {s r : Sys} {c : Ctx} {p : State} {f : Int} (h0 : Spec.Genesis me s) (ts us : List Tx)
  (ht : ∀ t ∈ ts, Spec.Possible me t) (hu : ∀ t ∈ us, Spec.Possible me t) (hc : c.auth me = false)
  (e : (run me s ts).pool = some p) (hf : p.cfg.totalFeeBps ≤ f)
  (hb : step me (run me s ts) (.pool c (.updateConfig { totalFeeBps := some f })) = .ok r)
  (hfate : SameFate me (run me s ts) r us) (hme : FeesGo me (fun a => a ≠ me) (run me s ts) us)
include h0 ht hu hc e hf hb hfate hme

/-- **C156** Raise the fee of a pool and let the same transactions go through as without that. The pool ends up with the
same reserves, the same number of shares, the same holders of the shares and the same tokens in its account. -/
theorem C156_pool_unchanged : ∃ q q', (run me (run me s ts) us).pool = some q ∧ (run me r us).pool = some q' ∧
    q'.resA = q.resA ∧ q'.resB = q.resB ∧ q'.total = q.total ∧ q'.cfg.shareToken = q.cfg.shareToken ∧
    (∀ a, (run me r us).led.bal q.cfg.shareToken a = (run me (run me s ts) us).led.bal q.cfg.shareToken a) ∧
    ∀ t, (run me r us).led.bal t me = (run me (run me s ts) us).led.bal t me := by
  have hs := run_keeps ts ht (genesis_inv h0)
  have hr := step_keeps hb ⟨hc, trivial⟩ hs
  obtain ⟨⟨p', e', k⟩, -⟩ := rel_of_update e hf hb
  obtain ⟨⟨q, q', k1, k2, R⟩, -⟩ := hist (P := fun _ => True) (Q := fun _ => True) (fun _ => True) (fun _ _ _ _ _ _ _ _ _ _ _ => trivial)
    us hs hr hu (fun _ _ _ _ => trivial) e e' k (feesGo_and hme (feesGo_true us _)) hfate trivial
  refine ⟨q, q', k1, k2, ?_, ?_, ?_, ?_, R.lp, R.own⟩ <;> rw [R.pool]

/-- **C156** Nobody but the recipients of the fees ends up with more of any token. -/
theorem C156_nobody_else_gains {a : Addr} (ha : FeesGo me (fun R => R ≠ a) (run me s ts) us) (t : Addr) :
    (run me r us).led.bal t a ≤ (run me (run me s ts) us).led.bal t a := by
  have hs := run_keeps ts ht (genesis_inv h0)
  have hr := step_keeps hb ⟨hc, trivial⟩ hs
  obtain ⟨⟨p', e', k⟩, d⟩ := rel_of_update e hf hb
  have := (hist (P := fun R => R ≠ a) (Q := fun _ => True) (fun d => ∀ t, d t a ≤ 0)
    (fun d d' sender R tok x x0 hR _ i c t => by
      rw [c, if_neg (fun k => hR k.2)]
      have := i t
      split_ifs <;> omega)
    us hs hr hu (fun _ _ _ _ => trivial) e e' k (feesGo_and hme ha) hfate (fun t => by rw [d])).2 t
  unfold diff at this
  omega

/-- **C156** A recipient of all the fees does not end up with less of any token. -/
theorem C156_recipient_gains {a : Addr} (ha : FeesGo me (fun R => R = a) (run me s ts) us) (t : Addr) :
    (run me (run me s ts) us).led.bal t a ≤ (run me r us).led.bal t a := by
  have hs := run_keeps ts ht (genesis_inv h0)
  have hr := step_keeps hb ⟨hc, trivial⟩ hs
  obtain ⟨⟨p', e', k⟩, d⟩ := rel_of_update e hf hb
  have := (hist (P := fun R => R = a) (Q := fun _ => True) (fun d => ∀ t, 0 ≤ d t a)
    (fun d d' sender R tok x x0 hR _ i c t => by
      rw [c]
      have := i t
      subst hR
      by_cases ht : tok = t
      · rw [if_pos ⟨ht, rfl⟩]; split_ifs <;> omega
      · rw [if_neg (fun k => ht k.1), if_neg (fun k => ht k.1)]; omega)
    us hs hr hu (fun _ _ _ _ => trivial) e e' k (feesGo_and hme ha) hfate (fun t => by rw [d])).2 t
  unfold diff at this
  omega

/-- **C156** Who does not trade and gets no fees ends up with exactly the same. -/
theorem C156_others_unaffected {a : Addr} (ha : FeesGo me (fun R => R ≠ a) (run me s ts) us)
    (hq : ∀ t ∈ us, trader t ≠ some a) (t : Addr) :
    (run me r us).led.bal t a = (run me (run me s ts) us).led.bal t a := by
  have hs := run_keeps ts ht (genesis_inv h0)
  have hr := step_keeps hb ⟨hc, trivial⟩ hs
  obtain ⟨⟨p', e', k⟩, d⟩ := rel_of_update e hf hb
  have := (hist (P := fun R => R ≠ a) (Q := fun b => b ≠ a) (fun d => ∀ t, d t a = 0)
    (fun d d' sender R tok x x0 hR hS i c t => by
      rw [c, if_neg (fun k => hR k.2), if_neg (fun k => hS k.2)]
      have := i t
      omega)
    us hs hr hu (fun t h b w k => hq t h (by rw [w, k])) e e' k (feesGo_and hme ha) hfate (fun t => by rw [d])).2 t
  unfold diff at this
  omega

end

/-! ### a concrete history -/

/-- what happens after the fee is raised from 30 to 500 basis points, or is not -/
def more : List Tx :=
  [ .pool (by' 2) (.swap 2 10 90000 none none none none),
    .pool (by' 1) (.provide 1 (some 10000) none (some 15500) none none none),
    .token (by' 2) 11 (.transfer 2 3 500),
    .pool (by' 2) (.swap 2 11 5000 none none none none),
    .pool (by' 2) (.swap 2 10 7000 none none none none) ]

theorem more_possible : ∀ t ∈ more, Spec.Possible 100 t := by
  intro t ht
  simp [more] at ht
  rcases ht with rfl | rfl | rfl | rfl | rfl <;> simp [Spec.Possible, Tx.ctx, Ctx.auth, by']

/-- the hypotheses of the theorems: account 7 collects the fees, 2 trades, 1 provides liquidity and 3 is paid by 2 -/
example : ∃ r, (run 100 exStart exHist).pool.map (fun p => p.cfg.totalFeeBps) = some 30 ∧
    step 100 (run 100 exStart exHist) (.pool (by' 8) (.updateConfig { totalFeeBps := some 500 })) = .ok r ∧
    SameFate 100 (run 100 exStart exHist) r more ∧ FeesGo 100 (fun a => a ≠ 100) (run 100 exStart exHist) more ∧
    FeesGo 100 (fun a => a = 7) (run 100 exStart exHist) more ∧ FeesGo 100 (fun a => a ≠ 2) (run 100 exStart exHist) more ∧
    FeesGo 100 (fun a => a ≠ 1) (run 100 exStart exHist) more ∧ (∀ t ∈ more, trader t ≠ some 1) ∧
    (run 100 (run 100 exStart exHist) more).pool.map (fun q => (q.resA, q.resB)) = (run 100 r more).pool.map (fun q => (q.resA, q.resB)) ∧
    (run 100 r more).led.bal 11 7 - (run 100 (run 100 exStart exHist) more).led.bal 11 7 = 7917 ∧
    (run 100 r more).led.bal 11 2 - (run 100 (run 100 exStart exHist) more).led.bal 11 2 = -7917 := by
  have go : ∀ (P : Addr → Prop), P 7 → FeesGo 100 P (run 100 exStart exHist) more := by
    intro P h
    have c : ∀ n ≤ 5, collector (run 100 (run 100 exStart exHist) (more.take n)) = some 7 := by decide +kernel
    refine ⟨fun _ a k => ?_, fun _ a k => ?_, fun _ a k => ?_, fun _ a k => ?_, fun _ a k => ?_, trivial⟩
    · exact (Option.some.inj ((c 0 (by decide)).symm.trans k)) ▸ h
    · exact (Option.some.inj ((c 1 (by decide)).symm.trans k)) ▸ h
    · exact (Option.some.inj ((c 2 (by decide)).symm.trans k)) ▸ h
    · exact (Option.some.inj ((c 3 (by decide)).symm.trans k)) ▸ h
    · exact (Option.some.inj ((c 4 (by decide)).symm.trans k)) ▸ h
  have ok : ∀ {s : Sys} {t : Tx}, accepted 100 s t = true → step 100 s t = .ok (exec 100 s t) := by
    intro s t h
    unfold accepted at h
    unfold exec
    cases k : step 100 s t with
    | ok _ => rfl
    | error _ => rw [k] at h; simp [Except.toOption] at h
  refine ⟨_, ?_, ok (by decide +kernel), ⟨?_, ?_, ?_, ?_, ?_, trivial⟩, go _ (by decide), go _ rfl, go _ (by decide), go _ (by decide), ?_, ?_, ?_, ?_⟩
  all_goals decide +kernel

end Phoenix.Props.Dearer
