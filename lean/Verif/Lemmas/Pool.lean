import Verif.Lemmas.Swap
import Verif.Lemmas.Token
import Verif.Spec.Pool
/-! Inversion lemmas for the pool entry points (helpers only). -/
namespace Phoenix.Pool
open Phoenix Spec Ledger

theorem checkDeadline_ok {c : Ctx} {d : Option Nat} {u : Unit} :
    checkDeadline c d = .ok u ↔ ∀ x, d = some x → c.now ≤ x := by
  simp [checkDeadline, whenSome_ok, req_ok]

theorem auth_ne {c : Ctx} {self a : Addr} (hs : c.auth self = false) (ha : c.auth a = true) :
    a ≠ self := by rintro rfl; simp [hs] at ha

/-- Both orderings of the reserves at once. -/
theorem sides_inv {p : State} {o : Addr} {x y : Int} (h : sides p o = .ok (x, y))
    (hne : p.cfg.tokenA ≠ p.cfg.tokenB) :
    IsPoolToken p o ∧ x = reserve p o ∧ y = reserve p (other p o) ∧
      tokensOf p o = (o, other p o) ∧ other p o ≠ o := by
  unfold sides at h
  split at h
  · rename_i ho; subst ho
    rw [ok_inj, Prod.mk.injEq] at h
    refine ⟨.inl rfl, ?_, ?_, ?_, ?_⟩
    · simp [reserve, h.1]
    · simp [reserve, other, Ne.symm hne, h.2]
    · simp [tokensOf, other]
    · simpa [other] using hne.symm
  · rename_i ho; split at h
    · rename_i ho2; subst ho2
      rw [ok_inj, Prod.mk.injEq] at h
      refine ⟨.inr rfl, ?_, ?_, ?_, ?_⟩
      · simp [reserve, ho, h.1]
      · simp [reserve, other, ho, h.2]
      · simp [tokensOf, other, ho]
      · simpa [other, ho] using hne
    · simp at h

theorem swapReserves_inv {p p' : State} {o : Addr} {rec : Int} {r : ComputeSwap}
    (h : swapReserves p o rec r = .ok p') (hne : p.cfg.tokenA ≠ p.cfg.tokenB)
    (ho : IsPoolToken p o) :
    p'.cfg = p.cfg ∧ p'.admin = p.admin ∧ p'.total = p.total ∧
    p'.defaultSlippageBps = p.defaultSlippageBps ∧
    reserve p' o = reserve p o + rec ∧
    reserve p' (other p o) = reserve p (other p o) - r.commission - r.referral - r.ret := by
  unfold swapReserves at h
  split at h
  · rename_i e; subst e
    simp only [bind_ok, addI_ok, subI_ok, ok_inj] at h
    obtain ⟨_, ⟨-, rfl⟩, _, ⟨-, rfl⟩, _, ⟨-, rfl⟩, _, ⟨-, rfl⟩, rfl⟩ := h
    simp [reserve, other, Ne.symm hne]
  · rename_i e
    simp only [bind_ok, addI_ok, subI_ok, ok_inj] at h
    obtain ⟨_, ⟨-, rfl⟩, _, ⟨-, rfl⟩, _, ⟨-, rfl⟩, _, ⟨-, rfl⟩, rfl⟩ := h
    have hb : o = p.cfg.tokenB := by rcases ho with h | h; exact absurd h e; exact h
    subst hb
    simp [reserve, other, Ne.symm hne]

/-- Everything a successful swap tells us, given that the pool does not sign. -/
theorem swap_inv {self : Addr} {c : Ctx} {p p' : State} {L L' : Ledger} {sender offer : Addr}
    {amount ret : Int} {mo ms : Option Int} {dl : Option Nat} {mf : Option Int}
    (h : swap self c p L sender offer amount mo ms dl mf = .ok (p', L', ret))
    (hself : c.auth self = false) (hne : p.cfg.tokenA ≠ p.cfg.tokenB) :
    ∃ (rate lim : Int) (r : ComputeSwap),
      (∀ d, dl = some d → c.now ≤ d) ∧ 0 < amount ∧ c.auth sender = true ∧
      swapLimits p ms mf = .ok lim ∧ IsPoolToken p offer ∧ other p offer ≠ offer ∧
      Dec.bps p.cfg.totalFeeBps = .ok rate ∧
      sides p offer = .ok (reserve p offer, reserve p (other p offer)) ∧
      computeSwap (reserve p offer) (reserve p (other p offer)) amount rate 0 = .ok r ∧
      ret = r.ret ∧ (∀ m, mo = some m → m ≤ ret) ∧
      assertMaxSpread lim (r.ret + r.commission) r.spread = .ok () ∧
      amount ≤ L.bal offer sender ∧
      Settles L L' [⟨offer, sender, self, amount⟩, ⟨other p offer, self, sender, r.ret⟩,
        ⟨other p offer, self, p.cfg.feeRecipient, r.commission⟩] ∧
      SameRights L L' ∧
      p'.cfg = p.cfg ∧ p'.admin = p.admin ∧ p'.total = p.total ∧
      p'.defaultSlippageBps = p.defaultSlippageBps ∧
      reserve p' offer = reserve p offer + amount ∧
      reserve p' (other p offer) = reserve p (other p offer) - (r.ret + r.commission) := by
  unfold swap doSwap at h
  simp only [bind_ok, checkDeadline_ok, validatePos_some, requireAuth_ok, ok_inj, addI_ok, subI_ok] at h
  obtain ⟨_, hd, _, hpos, _, hau, lim, hlim, ⟨x, y⟩, hs, rate, hrate, r, hr, _, hmo, g1, ⟨-, rfl⟩, g2,
    ⟨-, rfl⟩, _, hms, L1, hL1, rec, ⟨-, rfl⟩, L2, hL2, L3, hL3, q, hq, hout⟩ := h
  simp only [Prod.mk.injEq] at hout
  obtain ⟨rfl, rfl, rfl⟩ := hout
  have href : r.referral = 0 := (computeSwap_inv hr).2.2.2.2.1
  have hs' := hs
  obtain ⟨hpt, rfl, rfl, htok, hoth⟩ := sides_inv hs hne
  rw [htok] at hL1 hL2 hL3 hq
  have t1 := transfer_inv hL1
  have t2 := transfer_inv hL2
  have t3 := transfer_inv hL3
  have hns := auth_ne hself hau
  have hrec : L1.bal offer self - L.bal offer self = amount := by
    rw [t1.2.2.2.1 offer self]
    simp [Flow.delta, hns]
  simp only at hq
  rw [hrec] at hq
  obtain ⟨q1, q2, q3, q4, q5, q6⟩ := swapReserves_inv hq hne hpt
  refine ⟨rate, lim, r, hd, hpos, hau, hlim, hpt, hoth, hrate, hs', hr, rfl, ?_, ?_, t1.2.2.1, ?_, ?_,
    q1, q2, q3, q4, q5, ?_⟩
  · rintro m rfl
    simpa [whenSome_ok, req_ok] using hmo
  · rw [href, add_zero] at hms; exact hms
  · exact settles_trans (settles_trans t1.2.2.2.1 t2.2.2.2.1) t3.2.2.2.1
  · exact sameRights_trans (sameRights_trans t1.2.2.2.2 t2.2.2.2.2) t3.2.2.2.2
  · rw [q6, href]; ring

theorem mintShares_inv {self : Addr} {c : Ctx} {p p' : State} {L L' : Ledger} {d : Addr} {x : Int}
    (h : mintShares self c p L d x = .ok (p', L')) :
    0 ≤ x ∧ p' = { p with total := p.total + x } ∧ Issues L L' p.cfg.shareToken d x ∧
    SameRights L L' ∧ (c.as self).auth (L p.cfg.shareToken).admin = true := by
  unfold mintShares at h
  simp only [bind_ok, addI_ok, ok_inj, Prod.mk.injEq] at h
  obtain ⟨L1, h1, _, ⟨-, rfl⟩, rfl, rfl⟩ := h
  obtain ⟨a, b, c, d⟩ := mint_inv h1
  exact ⟨b, rfl, c, d, a⟩

theorem burnShares_inv {self : Addr} {c : Ctx} {p p' : State} {L L' : Ledger} {x : Int}
    (h : burnShares self c p L x = .ok (p', L')) :
    0 ≤ x ∧ x ≤ L.bal p.cfg.shareToken self ∧ p' = { p with total := p.total - x } ∧
    Issues L L' p.cfg.shareToken self (-x) ∧ SameRights L L' := by
  unfold burnShares at h
  simp only [bind_ok, subI_ok, ok_inj, Prod.mk.injEq] at h
  obtain ⟨L1, h1, _, ⟨-, rfl⟩, rfl, rfl⟩ := h
  obtain ⟨a, b, c, d, e⟩ := burn_inv h1
  exact ⟨b, c, rfl, d, e⟩

/-- One side of the deposit computation. -/
theorem depositSide_inv {desired oth pool othPool slip : Int} {mn : Option Int} {e1 e2 : Nat} {v : Int}
    (h : depositSide desired oth pool othPool mn slip e1 e2 = .ok v) :
    othPool ≠ 0 ∧ v ≤ desired ∧ v = min desired ((oth * pool).tdiv othPool) ∧
    (∀ m, mn = some m → m ≤ v) := by
  unfold depositSide at h
  simp only [bind_ok, mulI_ok, divI_ok, whenSome_ok, req_ok, ok_inj] at h
  obtain ⟨_, ⟨-, rfl⟩, _, ⟨hne, -, rfl⟩, a, ha, _, hm, rfl⟩ := h
  have : a ≤ desired ∧ a = min desired ((oth * pool).tdiv othPool) := by
    unfold capAmount at ha
    split at ha
    · simp only [bind_ok, ok_inj] at ha
      obtain ⟨_, -, _, -, _, -, rfl⟩ := ha
      omega
    · rw [ok_inj] at ha; omega
  exact ⟨hne, this.1, this.2, hm⟩

/-- Everything about the deposited amounts. -/
theorem chooseAmounts_inv {p : State} {dA mA dB mB cu : Option Int} {a b : Int}
    (h : chooseAmounts p dA mA dB mB cu = .ok (a, b)) :
    ∃ A B, dA = some A ∧ dB = some B ∧ 0 < A ∧ 0 < B ∧
      ((p.resA = 0 ∧ p.resB = 0 ∧ a = A ∧ b = B) ∨
       (p.resA ≠ 0 ∧ p.resB ≠ 0 ∧ a = min A ((B * p.resA).tdiv p.resB) ∧
        b = min B ((A * p.resB).tdiv p.resA) ∧
        (∀ m, mA = some m → m ≤ a) ∧ (∀ m, mB = some m → m ≤ b))) := by
  unfold chooseAmounts at h
  split at h
  · rename_i A B
    split at h
    · rename_i hAB
      simp only [bind_ok] at h
      obtain ⟨sl, -, h⟩ := h
      refine ⟨A, B, rfl, rfl, hAB.1, hAB.2, ?_⟩
      unfold depositAmounts at h
      simp only [bind_ok, req_ok] at h
      obtain ⟨_, -, _, -, h⟩ := h
      split at h
      · rename_i hz
        rw [ok_inj, Prod.mk.injEq] at h
        exact .inl ⟨hz.1, hz.2, h.1.symm, h.2.symm⟩
      · simp only [bind_ok, ok_inj, Prod.mk.injEq] at h
        obtain ⟨_, -, _, -, a', ha, b', hb, rfl, rfl⟩ := h
        obtain ⟨n1, -, v1, m1⟩ := depositSide_inv ha
        obtain ⟨n2, -, v2, m2⟩ := depositSide_inv hb
        exact .inr ⟨n2, n1, v1, v2, m1, m2⟩
    · simp at h
  · simp at h

theorem isqrt_ok {x y : Int} (h : isqrt x = .ok y) : 0 ≤ x ∧ 0 ≤ y ∧ y * y ≤ x ∧ x < (y + 1) * (y + 1) := by
  unfold isqrt at h
  split at h
  · simp at h
  · rw [ok_inj] at h
    subst h
    have hx : 0 ≤ x := by omega
    have e : ((x.toNat : Nat) : Int) = x := Int.toNat_of_nonneg hx
    have h1 := Nat.sqrt_le x.toNat
    have h3 := Nat.lt_succ_sqrt x.toNat
    refine ⟨hx, by positivity, ?_, ?_⟩
    · rw [← e]; exact_mod_cast h1
    · rw [← e]; push_cast; exact_mod_cast h3

/-- Everything a successful deposit tells us, given that the pool does not sign. -/
theorem provide_inv {self : Addr} {c : Ctx} {p p' : State} {L L' : Ledger} {sender : Addr}
    {dA mA dB mB cu : Option Int} {dl : Option Nat}
    (h : provide self c p L sender dA mA dB mB cu dl = .ok (p', L'))
    (hself : c.auth self = false) (hd : DistinctTokens p) :
    ∃ a b m lock : Int,
      (∀ d, dl = some d → c.now ≤ d) ∧ c.auth sender = true ∧
      (∀ s, cu = some s → s ≤ p.cfg.maxSlippageBps) ∧
      chooseAmounts p dA mA dB mB cu = .ok (a, b) ∧
      0 ≤ a ∧ a ≤ L.bal p.cfg.tokenA sender ∧ 0 ≤ b ∧ b ≤ L.bal p.cfg.tokenB sender ∧
      0 ≤ m ∧ 0 ≤ lock ∧
      (∀ t u, L'.bal t u = L.bal t u + (Flow.delta ⟨p.cfg.tokenA, sender, self, a⟩ t u) +
        (Flow.delta ⟨p.cfg.tokenB, sender, self, b⟩ t u) +
        (if p.cfg.shareToken = t ∧ sender = u then m else 0) +
        (if p.cfg.shareToken = t ∧ self = u then lock else 0)) ∧
      SameRights L L' ∧
      p' = { p with total := p.total + lock + m, resA := L.bal p.cfg.tokenA self + a,
                    resB := L.bal p.cfg.tokenB self + b } ∧
      ((0 < p.resA ∧ 0 < p.resB ∧ lock = 0 ∧
        p.total + m = min (((L.bal p.cfg.tokenA self + a) * p.total).tdiv p.resA)
          (((L.bal p.cfg.tokenB self + b) * p.total).tdiv p.resB)) ∨
       (¬ (0 < p.resA ∧ 0 < p.resB) ∧ lock = 1000 ∧
        ∃ s, isqrt (a * b) = .ok s ∧ 1000 < s ∧ m = s - 1000 - p.total)) := by
  obtain ⟨hAB, hSA, hSB⟩ := hd
  unfold provide checkSlippage at h
  simp only [bind_ok, checkDeadline_ok, requireAuth_ok, ok_inj, subI_ok, whenSome_ok, req_ok] at h
  obtain ⟨_, hdl, _, -, _, -, _, -, _, -, _, hau, _, hsl, ⟨a, b⟩, hch, L1, hL1, L2, hL2, _, -, _, -,
    ⟨n, p1, L3⟩, hn, m, ⟨-, rfl⟩, ⟨p2, L4⟩, hm, hout⟩ := h
  simp only [Prod.mk.injEq] at hout
  obtain ⟨rfl, rfl⟩ := hout
  have hns := auth_ne hself hau
  have t1 := transfer_inv hL1
  have t2 := transfer_inv hL2
  have eA : L2.bal p.cfg.tokenA self = L.bal p.cfg.tokenA self + a := by
    rw [t2.2.2.2.1, t1.2.2.2.1]; simp [Flow.delta, hns, Ne.symm hAB]
  have eB : L2.bal p.cfg.tokenB self = L.bal p.cfg.tokenB self + b := by
    rw [t2.2.2.2.1, t1.2.2.2.1]; simp [Flow.delta, hns, hAB]
  rw [eA, eB] at hn
  have hb1 : b ≤ L.bal p.cfg.tokenB sender := by
    have := t2.2.2.1
    rw [t1.2.2.2.1] at this; simpa [Flow.delta, hAB] using this
  simp only [eA, eB]
  unfold newShares at hn
  split at hn
  · rename_i hpos
    simp only [bind_ok, mulI_ok, divI_ok, ok_inj, Prod.mk.injEq] at hn
    obtain ⟨_, ⟨-, rfl⟩, _, ⟨-, -, rfl⟩, _, ⟨-, rfl⟩, _, ⟨-, -, rfl⟩, hnn, rfl, rfl⟩ := hn
    obtain ⟨m0, rfl, hiss, hsr, -⟩ := mintShares_inv hm
    refine ⟨a, b, n - p.total, 0, hdl, hau, hsl, hch, t1.2.1, t1.2.2.1, t2.2.1, hb1, m0, le_refl _, ?_, ?_, ?_,
      .inl ⟨hpos.1, hpos.2, rfl, ?_⟩⟩
    · intro t u
      rw [hiss t u, t2.2.2.2.1, t1.2.2.2.1]
      simp
    · exact sameRights_trans (sameRights_trans t1.2.2.2.2 t2.2.2.2.2) hsr
    · simp
    · rw [hnn]; ring
  · rename_i hpos
    simp only [bind_ok, mulI_ok, subI_ok, req_ok, ok_inj, Prod.mk.injEq] at hn
    obtain ⟨_, ⟨-, rfl⟩, s, hs, _, hmin, ⟨p3, L5⟩, hlock, _, ⟨-, rfl⟩, rfl, rfl, rfl⟩ := hn
    obtain ⟨-, rfl, hiss0, hsr0, -⟩ := mintShares_inv hlock
    obtain ⟨m0, rfl, hiss, hsr, -⟩ := mintShares_inv hm
    refine ⟨a, b, s - MINIMUM_LIQUIDITY - p.total, 1000, hdl, hau, hsl, hch, t1.2.1, t1.2.2.1, t2.2.1, hb1, m0,
      by norm_num, ?_, ?_, ?_, .inr ⟨hpos, rfl, s, hs, by unfold MINIMUM_LIQUIDITY at hmin; omega, rfl⟩⟩
    · intro t u
      rw [hiss t u, hiss0 t u, t2.2.2.2.1, t1.2.2.2.1]
      simp [MINIMUM_LIQUIDITY]; ring
    · exact sameRights_trans (sameRights_trans (sameRights_trans t1.2.2.2.2 t2.2.2.2.2) hsr0) hsr
    · simp [MINIMUM_LIQUIDITY]

/-- Everything a successful withdrawal tells us, given that the pool does not sign. -/
theorem withdraw_inv {self : Addr} {c : Ctx} {p p' : State} {L L' : Ledger} {sender : Addr}
    {sh mA mB ra rb : Int} {dl : Option Nat}
    (h : withdraw self c p L sender sh mA mB dl = .ok (p', L', ra, rb))
    (hself : c.auth self = false) (hd : DistinctTokens p) :
    (∀ d, dl = some d → c.now ≤ d) ∧ c.auth sender = true ∧ 0 < sh ∧ 0 < mA ∧ 0 < mB ∧
    mA ≤ ra ∧ mB ≤ rb ∧ sh ≤ L.bal p.cfg.shareToken sender ∧ p.total ≠ 0 ∧
    ra ≤ L.bal p.cfg.tokenA self ∧ rb ≤ L.bal p.cfg.tokenB self ∧
    ra = (p.resA * (sh * Dec.ONE).tdiv p.total).tdiv Dec.ONE ∧
    rb = (p.resB * (sh * Dec.ONE).tdiv p.total).tdiv Dec.ONE ∧
    (∀ t u, L'.bal t u = L.bal t u + (Flow.delta ⟨p.cfg.tokenA, self, sender, ra⟩ t u) +
      (Flow.delta ⟨p.cfg.tokenB, self, sender, rb⟩ t u) -
      (if p.cfg.shareToken = t ∧ sender = u then sh else 0)) ∧
    SameRights L L' ∧
    p' = { p with total := p.total - sh, resA := p.resA - ra, resB := p.resB - rb } := by
  obtain ⟨hAB, hSA, hSB⟩ := hd
  unfold withdraw at h
  simp only [bind_ok, checkDeadline_ok, validatePos_some, requireAuth_ok, ok_inj, subI_ok, req_ok,
    Dec.fromRatio_ok] at h
  obtain ⟨_, hdl, _, hsh, _, hmA, _, hmB, _, hau, L1, hL1, _, hT, ratio, ⟨-, -, -, rfl⟩, ra', hra, rb', hrb,
    _, hmin, ⟨p1, L2⟩, hb, L3, hL3, L4, hL4, _, ⟨-, rfl⟩, _, ⟨-, rfl⟩, hout⟩ := h
  simp only [Prod.mk.injEq] at hout
  obtain ⟨rfl, rfl, rfl, rfl⟩ := hout
  obtain ⟨-, -, rfl, hiss, hsr⟩ := burnShares_inv hb
  have t1 := transfer_inv hL1
  have t3 := transfer_inv hL3
  have t4 := transfer_inv hL4
  have hns := auth_ne hself hau
  have q3 := t3.2.2.1
  have q4 := t4.2.2.1
  rw [hiss, t1.2.2.2.1] at q3
  rw [t3.2.2.2.1, hiss, t1.2.2.2.1] at q4
  simp [Flow.delta, hSA] at q3
  simp [Flow.delta, hSB, hAB] at q4
  refine ⟨hdl, hau, hsh, hmA, hmB, by omega, by omega, t1.2.2.1, hT, q3, q4, Dec.mulInt_val hra, Dec.mulInt_val hrb,
    ?_, ?_, rfl⟩
  · intro t u
    rw [t4.2.2.2.1, t3.2.2.2.1, hiss, t1.2.2.2.1]
    simp only [Flow.delta, List.map_cons, List.map_nil, List.sum_cons, List.sum_nil, add_zero]
    by_cases ht : p.cfg.shareToken = t
    · subst ht
      by_cases h1 : self = u <;> by_cases h2 : sender = u <;> simp [h1, h2] <;> ring
    · simp [ht]
  · exact sameRights_trans (sameRights_trans (sameRights_trans t1.2.2.2.2 hsr) t3.2.2.2.2) t4.2.2.2.2

end Phoenix.Pool
