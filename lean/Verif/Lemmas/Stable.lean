import Verif.Lemmas.StableMath
import Verif.Lemmas.Token
/-! Inversion lemmas for the stable pool entry points (helpers only). -/
namespace Phoenix.Stable
open Phoenix Ledger Phoenix.Stable.Spec
open Phoenix.Spec (Settles SameRights Flow Issues)

theorem checkDeadline_ok {c : Ctx} {d : Option Nat} {u : Unit} :
    checkDeadline c d = .ok u ↔ ∀ x, d = some x → c.now ≤ x := by
  simp [checkDeadline, whenSome_ok, req_ok]

theorem auth_ne {c : Ctx} {self a : Addr} (hs : c.auth self = false) (ha : c.auth a = true) :
    a ≠ self := by rintro rfl; simp [hs] at ha

/-- stored precision of a pool token -/
def precOf (p : State) (tok : Addr) : Nat := if tok = p.cfg.tokenA then p.precA else p.precB

theorem sides_inv {p : State} {o : Addr} {s b : Side} (h : sides p o = .ok (s, b))
    (hne : p.cfg.tokenA ≠ p.cfg.tokenB) :
    IsPoolToken p o ∧ s = ⟨o, reserve p o, precOf p o⟩ ∧
      b = ⟨other p o, reserve p (other p o), precOf p (other p o)⟩ ∧ other p o ≠ o := by
  unfold sides at h
  split at h
  · rename_i ho; subst ho
    rw [ok_inj, Prod.mk.injEq] at h
    obtain ⟨rfl, rfl⟩ := h
    refine ⟨.inl rfl, ?_, ?_, ?_⟩
    · simp [reserve, precOf]
    · simp [reserve, other, Ne.symm hne, precOf]
    · simpa [other] using hne.symm
  · rename_i ho; split at h
    · rename_i ho2; subst ho2
      rw [ok_inj, Prod.mk.injEq] at h
      obtain ⟨rfl, rfl⟩ := h
      refine ⟨.inr rfl, ?_, ?_, ?_⟩
      · simp [reserve, ho, precOf]
      · simp [reserve, other, ho, precOf]
      · simpa [other, ho] using hne
    · simp at h

theorem spreadOf_ok {o g : Nat} {s : Int} (h : spreadOf o g = .ok s) : s = max ((o : Int) - g) 0 := by
  unfold spreadOf at h
  split at h
  · rw [toI128_ok] at h; omega
  · rw [ok_inj] at h; omega

/-- Commission and return of a gross payout, for a rate between 0 and 1. -/
theorem commission_bounds {g rate com : Int} (h : Dec.mulInt g rate = .ok com) (hg : 0 ≤ g)
    (h0 : 0 ≤ rate) (h1 : rate ≤ Dec.ONE) : com = g * rate / Dec.ONE ∧ 0 ≤ com ∧ com ≤ g := by
  have hv := Dec.mulInt_val h
  have hone : (0 : Int) < Dec.ONE := by decide
  rw [tdiv_nonneg_eq (by positivity)] at hv
  refine ⟨hv, ?_, ?_⟩
  · rw [hv]; exact Int.ediv_nonneg (by positivity) hone.le
  · rw [hv]
    apply Int.ediv_le_of_le_mul hone
    exact mul_le_mul_of_nonneg_left h1 hg

/-- What a quote is: the gross payout is what `calc_y` frees from the bought reserve. -/
theorem quote_inv {now : Nat} {p : State} {s b : Side} {amount : Int} {r : Quote}
    (h : quote now p s b amount = .ok r) :
    ∃ (amp x y a newAsk nx sx sy : Nat) (rate : Int), (x : Int) = s.res ∧ (y : Int) = b.res ∧ (a : Int) = amount ∧
      Dec.bps p.cfg.totalFeeBps = .ok rate ∧ currentAmp now p.amp = .ok amp ∧
      scaleValue (x + a) p.maxPrec 18 = .ok nx ∧ scaleValue x s.prec 18 = .ok sx ∧
      scaleValue y b.prec 18 = .ok sy ∧ calcY amp nx sx sy p.maxPrec = .ok newAsk ∧ newAsk ≤ y ∧
      r.ret + r.commission = (y : Int) - newAsk ∧ r.spread = max ((a : Int) - (y - newAsk)) 0 ∧
      Dec.mulInt ((y : Int) - newAsk) rate = .ok r.commission := by
  unfold quote computeSwap at h
  simp only [bind_ok, toU128_ok, add128_ok, subU_ok, subI_ok, ok_inj] at h
  obtain ⟨x, hx, y, hy, a, ha, rate, hrate, amp, hamp, _, ⟨-, rfl⟩, nx, hnx, sx, hsx, sy, hsy, na, hna, g, ⟨hle, rfl⟩,
    sp, hsp, gi, hgi, com, hcom, ret, ⟨-, rfl⟩, rfl⟩ := h
  rw [toI128_ok] at hgi
  have e : ((y - na : Nat) : Int) = y - na := by omega
  obtain ⟨-, rfl⟩ := hgi
  have hs := spreadOf_ok hsp
  rw [e] at hs hcom
  exact ⟨amp, x, y, a, na, nx, sx, sy, rate, hx, hy, ha, hrate, hamp, hnx, hsx, hsy, hna, hle, by simp only; omega, hs, hcom⟩

theorem swapReserves_inv {p p' : State} {o : Addr} {rec : Int} {r : Quote}
    (h : swapReserves p o rec r = .ok p') (hne : p.cfg.tokenA ≠ p.cfg.tokenB) (ho : IsPoolToken p o) :
    p' = { p with resA := p'.resA, resB := p'.resB } ∧
    reserve p' o = reserve p o + rec ∧
    reserve p' (other p o) = reserve p (other p o) - r.commission - r.ret := by
  unfold swapReserves at h
  split at h
  · rename_i e; subst e
    simp only [bind_ok, addI_ok, subI_ok, ok_inj] at h
    obtain ⟨_, ⟨-, rfl⟩, _, ⟨-, rfl⟩, _, ⟨-, rfl⟩, rfl⟩ := h
    simp [reserve, other, Ne.symm hne]
  · rename_i e
    simp only [bind_ok, addI_ok, subI_ok, ok_inj] at h
    obtain ⟨_, ⟨-, rfl⟩, _, ⟨-, rfl⟩, _, ⟨-, rfl⟩, rfl⟩ := h
    have hb : o = p.cfg.tokenB := by rcases ho with h | h; exact absurd h e; exact h
    subst hb
    simp [reserve, other, Ne.symm hne]

/-- Everything a successful swap tells us, given that the pool does not sign. -/
theorem swap_inv {self : Addr} {c : Ctx} {p p' : State} {L L' : Ledger} {sender offer : Addr}
    {amount ret : Int} {mo ms : Option Int} {dl : Option Nat} {mf : Option Int}
    (h : swap self c p L sender offer amount mo ms dl mf = .ok (p', L', ret))
    (hself : c.auth self = false) (hne : p.cfg.tokenA ≠ p.cfg.tokenB) :
    ∃ (lim : Int) (r : Quote),
      (∀ d, dl = some d → c.now ≤ d) ∧ 0 < amount ∧ c.auth sender = true ∧
      swapLimits p offer ms mf = .ok lim ∧ IsPoolToken p offer ∧ other p offer ≠ offer ∧
      sides p offer = .ok (⟨offer, reserve p offer, precOf p offer⟩,
        ⟨other p offer, reserve p (other p offer), precOf p (other p offer)⟩) ∧
      quote c.now p ⟨offer, reserve p offer, precOf p offer⟩
        ⟨other p offer, reserve p (other p offer), precOf p (other p offer)⟩ amount = .ok r ∧
      ret = r.ret ∧ (∀ m, mo = some m → m ≤ ret) ∧
      assertMaxSpread lim (r.ret + r.commission) r.spread = .ok () ∧
      amount ≤ L.bal offer sender ∧
      Settles L L' [⟨offer, sender, self, amount⟩, ⟨other p offer, self, sender, r.ret⟩,
        ⟨other p offer, self, p.cfg.feeRecipient, r.commission⟩] ∧
      SameRights L L' ∧
      p' = { p with resA := p'.resA, resB := p'.resB } ∧
      reserve p' offer = reserve p offer + amount ∧
      reserve p' (other p offer) = reserve p (other p offer) - (r.ret + r.commission) := by
  unfold swap doSwap at h
  simp only [bind_ok, checkDeadline_ok, validatePos_some, requireAuth_ok, ok_inj, addI_ok, subI_ok] at h
  obtain ⟨_, hd, _, hpos, _, hau, lim, hlim, ⟨s, b⟩, hs, r, hr, _, hmo, g, ⟨-, rfl⟩, _, hms, L1, hL1, rec, ⟨-, rfl⟩,
    L2, hL2, L3, hL3, q, hq, hout⟩ := h
  simp only [Prod.mk.injEq] at hout
  obtain ⟨rfl, rfl, rfl⟩ := hout
  have hs' := hs
  obtain ⟨hpt, rfl, rfl, hoth⟩ := sides_inv hs hne
  simp only at hL1 hL2 hL3 hq hr
  have t1 := transfer_inv hL1
  have t2 := transfer_inv hL2
  have t3 := transfer_inv hL3
  have hns := auth_ne hself hau
  have hrec : L1.bal offer self - L.bal offer self = amount := by
    rw [t1.2.2.2.1 offer self]
    simp [Flow.delta, hns]
  rw [hrec] at hq
  obtain ⟨q1, q2, q3⟩ := swapReserves_inv hq hne hpt
  refine ⟨lim, r, hd, hpos, hau, hlim, hpt, hoth, hs', hr, rfl, ?_, hms, t1.2.2.1, ?_, ?_, q1, q2, ?_⟩
  · rintro m rfl
    simpa [whenSome_ok, req_ok] using hmo
  · exact settles_trans (settles_trans t1.2.2.2.1 t2.2.2.2.1) t3.2.2.2.1
  · exact sameRights_trans (sameRights_trans t1.2.2.2.2 t2.2.2.2.2) t3.2.2.2.2
  · rw [q3]; ring

theorem mintShares_inv {self : Addr} {c : Ctx} {p p' : State} {L L' : Ledger} {d : Addr} {x : Int}
    (h : mintShares self c p L d x = .ok (p', L')) :
    0 ≤ x ∧ p' = { p with total := p.total + x } ∧ Issues L L' p.cfg.shareToken d x ∧
    SameRights L L' ∧ (c.as self).auth (L p.cfg.shareToken).admin = true := by
  unfold mintShares at h
  simp only [bind_ok, addI_ok, ok_inj, Prod.mk.injEq] at h
  obtain ⟨L1, h1, _, ⟨-, rfl⟩, rfl, rfl⟩ := h
  obtain ⟨a, b, c, d⟩ := mint_inv h1
  exact ⟨b, rfl, c, d, a⟩

theorem burnShares_inv {self : Addr} {c : Ctx} {p p' : State} {L L' : Ledger} {x : Int}
    (h : burnShares self c p L x = .ok (p', L')) :
    0 ≤ x ∧ x ≤ L.bal p.cfg.shareToken self ∧ p' = { p with total := p.total - x } ∧
    Issues L L' p.cfg.shareToken self (-x) ∧ SameRights L L' := by
  unfold burnShares at h
  simp only [bind_ok, subI_ok, ok_inj, Prod.mk.injEq] at h
  obtain ⟨L1, h1, _, ⟨-, rfl⟩, rfl, rfl⟩ := h
  obtain ⟨a, b, c, d, e⟩ := burn_inv h1
  exact ⟨b, c, rfl, d, e⟩

/-- The shares a deposit mints. -/
theorem newShares_inv {p : State} {amp decA decB d s : Nat} (h : newShares p amp decA decB d = .ok s) :
    (p.total = 0 ∧ 0 < s ∧ p.maxPrec ≤ 18 ∧ s + 1000 = d / unitOf p.maxPrec) ∨
    (p.total ≠ 0 ∧ ∃ (oa ob d0 : Nat), (oa : Int) = p.resA ∧ (ob : Int) = p.resB ∧
      invariantOf amp oa ob decA decB = .ok d0 ∧ d0 ≠ 0 ∧ d0 ≤ d ∧
      (s : Int) = (p.total * ((((d : Int) - d0) * Dec.ONE).tdiv d0)).tdiv Dec.ONE) := by
  unfold newShares at h
  split at h
  · rename_i h0
    simp only [bind_ok, subU_ok, pow10_ok, u128_ok, divU_ok, req_ok, ok_inj] at h
    obtain ⟨_, ⟨hk, rfl⟩, _, ⟨-, rfl⟩, _, ⟨-, rfl⟩, _, ⟨-, rfl⟩, _, ⟨hm, rfl⟩, _, hs, rfl⟩ := h
    refine .inl ⟨h0, by omega, hk, ?_⟩
    have e : d / unitOf p.maxPrec = d / 10 ^ (18 - p.maxPrec) := rfl
    rw [e]
    unfold MINIMUM_LIQUIDITY at *
    omega
  · rename_i h0
    simp only [bind_ok, toU128_ok, u128_ok, subU_ok, toI128_ok] at h
    obtain ⟨oa, hoa, ob, hob, d0, hd0, _, ⟨-, rfl⟩, _, ⟨-, rfl⟩, _, ⟨hle, rfl⟩, _, ⟨-, rfl⟩, _, ⟨-, rfl⟩, ratio, hr, s', hs, hs'⟩ := h
    unfold Dec.div at hr
    rw [Dec.fromRatio_ok] at hr
    obtain ⟨hne, -, -, rfl⟩ := hr
    have hv := Dec.mulInt_val hs
    refine .inr ⟨h0, oa, ob, d0, hoa, hob, hd0, by exact_mod_cast hne, hle, ?_⟩
    rw [hs', hv]
    have e : ((d - d0 : Nat) : Int) = d - d0 := by omega
    rw [e]

/-- Everything a successful deposit tells us, given that the pool does not sign. -/
theorem provide_inv {self : Addr} {c : Ctx} {p p' : State} {L L' : Ledger} {sender : Addr}
    {a b : Int} {cu : Option Int} {dl : Option Nat} {ms : Option Nat}
    (h : provide self c p L sender a b cu dl ms = .ok (p', L'))
    (hself : c.auth self = false) (hd : DistinctTokens p) :
    ∃ amp ua ub d s : Nat,
      (∀ d, dl = some d → c.now ≤ d) ∧ 0 < a ∧ 0 < b ∧ c.auth sender = true ∧
      cu.getD p.cfg.defaultSlippageBps ≤ p.cfg.maxSlippageBps ∧
      a ≤ L.bal p.cfg.tokenA sender ∧ b ≤ L.bal p.cfg.tokenB sender ∧
      currentAmp c.now p.amp = .ok amp ∧ (ua : Int) = a + p.resA ∧ (ub : Int) = b + p.resB ∧
      invariantOf amp ua ub (L p.cfg.tokenA).decimals (L p.cfg.tokenB).decimals = .ok d ∧
      newShares p amp (L p.cfg.tokenA).decimals (L p.cfg.tokenB).decimals d = .ok s ∧
      (∀ m, ms = some m → m ≤ s) ∧
      (∀ t u, L'.bal t u = L.bal t u + (Flow.delta ⟨p.cfg.tokenA, sender, self, a⟩ t u) +
        (Flow.delta ⟨p.cfg.tokenB, sender, self, b⟩ t u) +
        (if p.cfg.shareToken = t ∧ sender = u then (s : Int) else 0)) ∧
      SameRights L L' ∧
      p' = { p with total := p.total + s, resA := L.bal p.cfg.tokenA self + a,
                    resB := L.bal p.cfg.tokenB self + b } := by
  obtain ⟨hAB, hSA, hSB⟩ := hd
  unfold provide at h
  simp only [bind_ok, checkDeadline_ok, validatePos_some, requireAuth_ok, ok_inj, subI_ok, addI_ok, req_ok, whenSome_ok,
    toU128_ok, toI128_ok] at h
  obtain ⟨_, hdl, _, ha, _, hb, _, hau, _, hsl, amp, hamp, L1, hL1, L2, hL2, _, ⟨-, rfl⟩, _, ⟨-, rfl⟩, _, ⟨-, rfl⟩,
    _, ⟨-, rfl⟩, ua, hua, ub, hub, d, hD, s, hs, _, hms, _, ⟨-, rfl⟩, ⟨p1, L3⟩, hm, hout⟩ := h
  simp only [Prod.mk.injEq] at hout
  obtain ⟨rfl, rfl⟩ := hout
  have hns := auth_ne hself hau
  have t1 := transfer_inv hL1
  have t2 := transfer_inv hL2
  have eA : L2.bal p.cfg.tokenA self = L.bal p.cfg.tokenA self + a := by
    rw [t2.2.2.2.1, t1.2.2.2.1]; simp [Flow.delta, hns, Ne.symm hAB]
  have eB : L2.bal p.cfg.tokenB self = L.bal p.cfg.tokenB self + b := by
    rw [t2.2.2.2.1, t1.2.2.2.1]; simp [Flow.delta, hns, hAB]
  rw [eA] at hua
  rw [eB] at hub
  have hb1 : b ≤ L.bal p.cfg.tokenB sender := by
    have := t2.2.2.1
    rw [t1.2.2.2.1] at this; simpa [Flow.delta, hAB] using this
  simp only [eA, eB]
  obtain ⟨m0, rfl, hiss, hsr, -⟩ := mintShares_inv hm
  refine ⟨amp, ua, ub, d, s, hdl, ha, hb, hau, hsl, t1.2.2.1, hb1, hamp, by omega, by omega, hD, hs, hms, ?_, ?_, rfl⟩
  · intro t u
    rw [hiss t u, t2.2.2.2.1, t1.2.2.2.1]
    simp
  · exact sameRights_trans (sameRights_trans t1.2.2.2.2 t2.2.2.2.2) hsr

/-- Everything a successful withdrawal tells us, given that the pool does not sign. -/
theorem withdraw_inv {self : Addr} {c : Ctx} {p p' : State} {L L' : Ledger} {sender : Addr}
    {sh mA mB ra rb : Int} {dl : Option Nat}
    (h : withdraw self c p L sender sh mA mB dl = .ok (p', L', ra, rb))
    (hself : c.auth self = false) (hd : DistinctTokens p) :
    (∀ d, dl = some d → c.now ≤ d) ∧ c.auth sender = true ∧ 0 < sh ∧ 0 < mA ∧ 0 < mB ∧
    mA ≤ ra ∧ mB ≤ rb ∧ sh ≤ L.bal p.cfg.shareToken sender ∧ p.total ≠ 0 ∧
    ra ≤ L.bal p.cfg.tokenA self ∧ rb ≤ L.bal p.cfg.tokenB self ∧
    ra = (p.resA * (sh * Dec.ONE).tdiv p.total).tdiv Dec.ONE ∧
    rb = (p.resB * (sh * Dec.ONE).tdiv p.total).tdiv Dec.ONE ∧
    (∀ t u, L'.bal t u = L.bal t u + (Flow.delta ⟨p.cfg.tokenA, self, sender, ra⟩ t u) +
      (Flow.delta ⟨p.cfg.tokenB, self, sender, rb⟩ t u) -
      (if p.cfg.shareToken = t ∧ sender = u then sh else 0)) ∧
    SameRights L L' ∧
    p' = { p with total := p.total - sh, resA := p.resA - ra, resB := p.resB - rb } := by
  obtain ⟨hAB, hSA, hSB⟩ := hd
  unfold withdraw at h
  simp only [bind_ok, checkDeadline_ok, validatePos_some, requireAuth_ok, ok_inj, subI_ok, req_ok,
    Dec.fromRatio_ok] at h
  obtain ⟨_, hdl, _, hsh, _, hmA, _, hmB, _, hau, L1, hL1, _, hT, ratio, ⟨-, -, -, rfl⟩, ra', hra, rb', hrb,
    _, hmin, ⟨p1, L2⟩, hb, L3, hL3, L4, hL4, _, ⟨-, rfl⟩, _, ⟨-, rfl⟩, hout⟩ := h
  simp only [Prod.mk.injEq] at hout
  obtain ⟨rfl, rfl, rfl, rfl⟩ := hout
  obtain ⟨-, -, rfl, hiss, hsr⟩ := burnShares_inv hb
  have t1 := transfer_inv hL1
  have t3 := transfer_inv hL3
  have t4 := transfer_inv hL4
  have hns := auth_ne hself hau
  have q3 := t3.2.2.1
  have q4 := t4.2.2.1
  rw [hiss, t1.2.2.2.1] at q3
  rw [t3.2.2.2.1, hiss, t1.2.2.2.1] at q4
  simp [Flow.delta, hSA] at q3
  simp [Flow.delta, hSB, hAB] at q4
  refine ⟨hdl, hau, hsh, hmA, hmB, by omega, by omega, t1.2.2.1, hT, q3, q4, Dec.mulInt_val hra, Dec.mulInt_val hrb,
    ?_, ?_, rfl⟩
  · intro t u
    rw [t4.2.2.2.1, t3.2.2.2.1, hiss, t1.2.2.2.1]
    simp only [Flow.delta, List.map_cons, List.map_nil, List.sum_cons, List.sum_nil, add_zero]
    by_cases ht : p.cfg.shareToken = t
    · subst ht
      by_cases h1 : self = u <;> by_cases h2 : sender = u <;> simp [h1, h2] <;> ring
    · simp [ht]
  · exact sameRights_trans (sameRights_trans (sameRights_trans t1.2.2.2.2 hsr) t3.2.2.2.2) t4.2.2.2.2

end Phoenix.Stable
