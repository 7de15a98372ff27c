import Verif.Model.Signed
import Verif.Spec.Signed
import Verif.Lemmas.Foreign
import Verif.Lemmas.Route
/-! Authorisation by signed trees (helpers only). -/
namespace Phoenix
open Phoenix.Spec

theorem ledger_transfer_auth {L : Ledger} {c c' : Ctx} {t src dst : Addr} {x : Int} (h : c.auth src = c'.auth src) :
    L.transfer c t src dst x = L.transfer c' t src dst x := by
  unfold Ledger.transfer Ledger.call Token.call Token.transfer requireAuth
  simp only [h]

theorem ledger_mint_auth {L : Ledger} {c c' : Ctx} {t dst : Addr} {x : Int} (h : c.auth (L t).admin = c'.auth (L t).admin) :
    L.mint c t dst x = L.mint c' t dst x := by
  unfold Ledger.mint Ledger.call Token.call Token.mint requireAuth
  simp only [h]

theorem ledger_burn_auth {L : Ledger} {c c' : Ctx} {t src : Addr} {x : Int} (h : c.auth src = c'.auth src) :
    L.burn c t src x = L.burn c' t src x := by
  unfold Ledger.burn Ledger.call Token.call Token.burn requireAuth
  simp only [h]

theorem grant_auth (c : Ctx) (a : Addr) : (c.grant a).auth a = true := by simp [Ctx.grant, Ctx.auth]
theorem as_self (c : Ctx) (me : Addr) : (c.as me).auth me = true := by simp [Ctx.as, Ctx.auth]

/-- The contract's own transfers need no signature. -/
theorem own_transfer {c : Ctx} {me t dst : Addr} {x : Int} {S S' : Ledger × Signed} :
    signedTokens.transfer S (c.as me) t me dst x = .ok S' ↔ S.1.transfer (c.as me) t me dst x = .ok S'.1 ∧ S'.2 = S.2 := by
  have e : S.1.transfer ((c.as me).grant me) t me dst x = S.1.transfer (c.as me) t me dst x :=
    ledger_transfer_auth ((grant_auth _ _).trans (as_self _ _).symm)
  obtain ⟨L', s'⟩ := S'
  simp only [signedTokens, bind_ok, e, ok_inj, Prod.mk.injEq]
  have : demand (c.as me) S.2 me (.transfer t me dst x) = .ok S.2 := by simp [demand, Ctx.as]
  simp only [this, ok_inj]
  constructor
  · rintro ⟨_, rfl, L, h, rfl, rfl⟩; exact ⟨h, rfl⟩
  · rintro ⟨h, rfl⟩; exact ⟨_, rfl, L', h, rfl, rfl⟩

/-- A transfer out of a signer's account is in the signed tree. -/
theorem signer_transfer {c : Ctx} {me t src dst : Addr} {x : Int} {S S' : Ledger × Signed} (hne : src ≠ me)
    (hs : c.signed src = true) :
    signedTokens.transfer S (c.as me) t src dst x = .ok S' ↔
      S.1.transfer (c.as me) t src dst x = .ok S'.1 ∧ .transfer t src dst x ∈ S.2 src ∧
      S'.2 = upd S.2 src ((S.2 src).erase (.transfer t src dst x)) := by
  have e : S.1.transfer ((c.as me).grant src) t src dst x = S.1.transfer (c.as me) t src dst x :=
    ledger_transfer_auth ((grant_auth _ _).trans (by simp [Ctx.as, Ctx.auth, hs]))
  obtain ⟨L', s'⟩ := S'
  simp only [signedTokens, bind_ok, e, ok_inj, Prod.mk.injEq]
  have hd : ∀ s, demand (c.as me) S.2 src (.transfer t src dst x) = .ok s ↔
      .transfer t src dst x ∈ S.2 src ∧ s = upd S.2 src ((S.2 src).erase (.transfer t src dst x)) := by
    intro s
    unfold demand
    rw [if_neg (by simp [Ctx.as, Ne.symm hne])]
    split
    · rename_i h; simp [h, eq_comm]
    · rename_i h; simp [h]
  simp only [hd]
  constructor
  · rintro ⟨_, ⟨h1, rfl⟩, L, h, rfl, rfl⟩; exact ⟨h, h1, rfl⟩
  · rintro ⟨h, h1, rfl⟩; exact ⟨_, ⟨h1, rfl⟩, L', h, rfl, rfl⟩

theorem own_mint {c : Ctx} {me t dst : Addr} {x : Int} {S S' : Ledger × Signed} (ha : (S.1 t).admin = me) :
    signedTokens.mint S (c.as me) t dst x = .ok S' ↔ S.1.mint (c.as me) t dst x = .ok S'.1 ∧ S'.2 = S.2 := by
  have e : S.1.mint ((c.as me).grant (S.1 t).admin) t dst x = S.1.mint (c.as me) t dst x :=
    ledger_mint_auth ((grant_auth _ _).trans (by rw [ha]; exact (as_self _ _).symm))
  obtain ⟨L', s'⟩ := S'
  simp only [signedTokens, bind_ok, e, ok_inj, Prod.mk.injEq]
  have : demand (c.as me) S.2 (S.1 t).admin (.mint t dst x) = .ok S.2 := by simp [demand, Ctx.as, ha]
  simp only [this, ok_inj]
  constructor
  · rintro ⟨_, rfl, L, h, rfl, rfl⟩; exact ⟨h, rfl⟩
  · rintro ⟨h, rfl⟩; exact ⟨_, rfl, L', h, rfl, rfl⟩

theorem own_burn {c : Ctx} {me t : Addr} {x : Int} {S S' : Ledger × Signed} :
    signedTokens.burn S (c.as me) t me x = .ok S' ↔ S.1.burn (c.as me) t me x = .ok S'.1 ∧ S'.2 = S.2 := by
  have e : S.1.burn ((c.as me).grant me) t me x = S.1.burn (c.as me) t me x :=
    ledger_burn_auth ((grant_auth _ _).trans (as_self _ _).symm)
  obtain ⟨L', s'⟩ := S'
  simp only [signedTokens, bind_ok, e, ok_inj, Prod.mk.injEq]
  have : demand (c.as me) S.2 me (.burn t me x) = .ok S.2 := by simp [demand, Ctx.as]
  simp only [this, ok_inj]
  constructor
  · rintro ⟨_, rfl, L, h, rfl, rfl⟩; exact ⟨h, rfl⟩
  · rintro ⟨h, rfl⟩; exact ⟨_, rfl, L', h, rfl, rfl⟩

namespace Pool

theorem sides_pool {p : State} {offer : Addr} {r : Int × Int} (h : sides p offer = .ok r) : (tokensOf p offer).1 = offer := by
  unfold sides at h
  unfold tokensOf
  split
  · rename_i e; exact e.symm
  · rename_i hA
    rw [if_neg hA] at h
    split at h
    · rename_i e; exact e.symm
    · simp at h

theorem swapS_ok {me : Addr} {c : Ctx} {p p' : State} {S S' : Ledger × Signed} {sender offer : Addr} {amount ret : Int}
    {mo ms mf : Option Int} {dl : Option Nat} (hne : sender ≠ me) (hs : c.signed sender = true) :
    swapX signedTokens me c p S sender offer amount mo ms dl mf = .ok (p', S', ret) ↔
      swap me c p S.1 sender offer amount mo ms dl mf = .ok (p', S'.1, ret) ∧
      .transfer offer sender me amount ∈ S.2 sender ∧ S'.2 = S.2.use sender (.transfer offer sender me amount) := by
  obtain ⟨L', s'⟩ := S'
  unfold swapX doSwapX swap doSwap
  simp only [bind_ok, own_transfer, signer_transfer hne hs, ok_inj, Prod.mk.injEq]
  constructor
  · rintro ⟨u1, h1, u2, h2, u3, h3, lim, h4, sd, h5, fee, h6, r, h7, u4, h8, g1, h9, g, h10, u5, h11, ⟨L1, s1⟩, ⟨h12, h13, h14⟩, rc, h15,
      ⟨L2, s2⟩, ⟨h16, h17⟩, ⟨L3, s3⟩, ⟨h18, h19⟩, q, h20, rfl, ⟨rfl, rfl⟩, rfl⟩
    simp only at h14 h17 h19
    subst h14 h17 h19
    have e := sides_pool h5
    rw [e] at h13
    refine ⟨⟨u1, h1, u2, h2, u3, h3, lim, h4, sd, h5, fee, h6, r, h7, u4, h8, g1, h9, g, h10, u5, h11, L1, h12, rc, h15,
      L2, h16, _, h18, q, h20, rfl, rfl, rfl⟩, h13, by rw [e]; rfl⟩
  · rintro ⟨⟨u1, h1, u2, h2, u3, h3, lim, h4, sd, h5, fee, h6, r, h7, u4, h8, g1, h9, g, h10, u5, h11, L1, h12, rc, h15,
      L2, h16, L3, h18, q, h20, rfl, rfl, rfl⟩, h13, rfl⟩
    have e := sides_pool h5
    exact ⟨u1, h1, u2, h2, u3, h3, lim, h4, sd, h5, fee, h6, r, h7, u4, h8, g1, h9, g, h10, u5, h11,
      (L1, _), ⟨h12, by rw [e]; exact h13, rfl⟩, rc, h15,
      (L2, _), ⟨h16, rfl⟩, (L3, _), ⟨h18, rfl⟩, q, h20, rfl, by rw [e]; rfl, rfl⟩

theorem mintS_ok {me d : Addr} {c : Ctx} {p p' : State} {S S' : Ledger × Signed} {x : Int} (ha : (S.1 p.cfg.shareToken).admin = me) :
    mintSharesX signedTokens me c p S d x = .ok (p', S') ↔ mintShares me c p S.1 d x = .ok (p', S'.1) ∧ S'.2 = S.2 := by
  obtain ⟨L', s'⟩ := S'
  unfold mintSharesX mintShares
  simp only [bind_ok, own_mint ha, ok_inj, Prod.mk.injEq]
  constructor
  · rintro ⟨⟨L1, s1⟩, ⟨h1, h2⟩, t, h3, rfl, ⟨rfl, rfl⟩⟩
    exact ⟨⟨L', h1, t, h3, rfl, rfl⟩, h2⟩
  · rintro ⟨⟨L1, h1, t, h3, rfl, rfl⟩, h2⟩
    exact ⟨(L1, s'), ⟨h1, h2⟩, t, h3, rfl, rfl⟩

theorem mint_admin {me d : Addr} {c : Ctx} {p p' : State} {L L' : Ledger} {x : Int}
    (h : mintShares me c p L d x = .ok (p', L')) : p'.cfg = p.cfg ∧ ∀ t, (L' t).admin = (L t).admin := by
  unfold mintShares at h
  simp only [bind_ok, ok_inj, Prod.mk.injEq] at h
  obtain ⟨L1, h1, t, -, rfl, rfl⟩ := h
  exact ⟨rfl, fun t => ((Ledger.mint_inv h1).2.2.2 t).1⟩

theorem newSharesS_ok {me : Addr} {c : Ctx} {p p' : State} {S S' : Ledger × Signed} {a b x y n : Int}
    (ha : (S.1 p.cfg.shareToken).admin = me) :
    newSharesX signedTokens me c p S a b x y = .ok (n, p', S') ↔
      newShares me c p S.1 a b x y = .ok (n, p', S'.1) ∧ S'.2 = S.2 := by
  obtain ⟨L', s'⟩ := S'
  unfold newSharesX newShares
  split
  · simp only [bind_ok, ok_inj, Prod.mk.injEq]
    constructor
    · rintro ⟨u1, h1, u2, h2, u3, h3, u4, h4, rfl, rfl, rfl⟩
      exact ⟨⟨u1, h1, u2, h2, u3, h3, u4, h4, rfl, rfl, rfl⟩, rfl⟩
    · rintro ⟨⟨u1, h1, u2, h2, u3, h3, u4, h4, rfl, rfl, rfl⟩, h5⟩
      exact ⟨u1, h1, u2, h2, u3, h3, u4, h4, rfl, rfl, by rw [h5]⟩
  · simp only [bind_ok, ok_inj, Prod.mk.injEq]
    constructor
    · rintro ⟨u1, h1, u2, h2, u3, h3, ⟨q, S1⟩, h4, u5, h5, rfl, rfl, rfl⟩
      rw [mintS_ok ha] at h4
      exact ⟨⟨u1, h1, u2, h2, u3, h3, (q, _), h4.1, u5, h5, rfl, rfl, rfl⟩, h4.2⟩
    · rintro ⟨⟨u1, h1, u2, h2, u3, h3, ⟨q, L1⟩, h4, u5, h5, rfl, rfl, rfl⟩, h6⟩
      refine ⟨u1, h1, u2, h2, u3, h3, (q, (L1, s')), (mintS_ok ha).mpr ⟨h4, h6⟩, u5, h5, rfl, rfl, rfl⟩

theorem newShares_admin {me : Addr} {c : Ctx} {p p' : State} {L L' : Ledger} {a b x y n : Int}
    (h : newShares me c p L a b x y = .ok (n, p', L')) : p'.cfg = p.cfg ∧ ∀ t, (L' t).admin = (L t).admin := by
  unfold newShares at h
  split at h
  · simp only [bind_ok, ok_inj, Prod.mk.injEq] at h
    obtain ⟨_, -, _, -, _, -, _, -, -, rfl, rfl⟩ := h
    exact ⟨rfl, fun _ => rfl⟩
  · simp only [bind_ok, ok_inj, Prod.mk.injEq] at h
    obtain ⟨_, -, _, -, _, -, ⟨q, L1⟩, h4, _, -, -, rfl, rfl⟩ := h
    exact mint_admin h4

theorem provideS_ok {me : Addr} {c : Ctx} {p p' : State} {S S' : Ledger × Signed} {sender : Addr}
    {dA mA dB mB cu : Option Int} {dl : Option Nat} (hne : sender ≠ me) (hs : c.signed sender = true)
    (hAB : p.cfg.tokenA ≠ p.cfg.tokenB) (ha : (S.1 p.cfg.shareToken).admin = me) :
    provideX signedTokens me c p S sender dA mA dB mB cu dl = .ok (p', S') ↔
      provide me c p S.1 sender dA mA dB mB cu dl = .ok (p', S'.1) ∧
      ∃ a b, chooseAmounts p dA mA dB mB cu = .ok (a, b) ∧
        .transfer p.cfg.tokenA sender me a ∈ S.2 sender ∧ .transfer p.cfg.tokenB sender me b ∈ S.2 sender ∧
        S'.2 = (S.2.use sender (.transfer p.cfg.tokenA sender me a)).use sender (.transfer p.cfg.tokenB sender me b) := by
  obtain ⟨L', s'⟩ := S'
  have hmem : ∀ a b : Int, (.transfer p.cfg.tokenB sender me b ∈ (S.2.use sender (.transfer p.cfg.tokenA sender me a)) sender) ↔
      (.transfer p.cfg.tokenB sender me b ∈ S.2 sender) := by
    intro a b
    unfold Signed.use
    rw [upd_same, List.mem_erase_of_ne]
    intro e
    injection e with e
    exact hAB e.symm
  unfold provideX provide
  simp only [bind_ok, signer_transfer hne hs, ok_inj, Prod.mk.injEq]
  constructor
  · rintro ⟨u1, h1, u2, h2, u3, h3, u4, h4, u5, h5, u6, h6, u7, h7, ⟨a, b⟩, h8, ⟨L1, s1⟩, ⟨h9, h10, h11⟩,
      ⟨L2, s2⟩, ⟨h12, h13, h14⟩, u8, h15, u9, h16, ⟨n, p1, ⟨L3, s3⟩⟩, h17, m, h18, ⟨p2, ⟨L4, s4⟩⟩, h19, rfl, ⟨rfl, rfl⟩⟩
    simp only at h10 h11 h13 h14
    have a2 : (L2 p.cfg.shareToken).admin = me := by
      rw [((Ledger.transfer_inv h12).2.2.2.2 _).1, ((Ledger.transfer_inv h9).2.2.2.2 _).1, ha]
    rw [newSharesS_ok a2] at h17
    obtain ⟨c1, c2⟩ := newShares_admin h17.1
    rw [mintS_ok (by rw [c1]; exact (c2 _).trans a2)] at h19
    subst h11 h14
    refine ⟨⟨u1, h1, u2, h2, u3, h3, u4, h4, u5, h5, u6, h6, u7, h7, (a, b), h8, L1, h9, L2, h12, u8, h15, u9, h16,
      (n, p1, L3), h17.1, m, h18, (p2, _), h19.1, rfl, rfl⟩, a, b, h8, h10, (hmem a b).mp h13, ?_⟩
    exact h19.2.trans h17.2
  · rintro ⟨⟨u1, h1, u2, h2, u3, h3, u4, h4, u5, h5, u6, h6, u7, h7, ⟨a, b⟩, h8, L1, h9, L2, h12, u8, h15, u9, h16,
      ⟨n, p1, L3⟩, h17, m, h18, ⟨p2, L4⟩, h19, rfl, rfl⟩, a', b', h8', h10, h13, h14⟩
    rw [h8] at h8'
    simp only [ok_inj, Prod.mk.injEq] at h8'
    obtain ⟨rfl, rfl⟩ := h8'
    have a2 : (L2 p.cfg.shareToken).admin = me := by
      rw [((Ledger.transfer_inv h12).2.2.2.2 _).1, ((Ledger.transfer_inv h9).2.2.2.2 _).1, ha]
    obtain ⟨c1, c2⟩ := newShares_admin h17
    refine ⟨u1, h1, u2, h2, u3, h3, u4, h4, u5, h5, u6, h6, u7, h7, (a, b), h8, (L1, S.2.use sender (.transfer p.cfg.tokenA sender me a)),
      ⟨h9, h10, rfl⟩, (L2, s'), ⟨h12, (hmem a b).mpr h13, h14⟩, u8, h15, u9, h16, (n, p1, (L3, s')), ?_, m, h18, (p2, (L4, s')), ?_, rfl, rfl⟩
    · exact (newSharesS_ok a2).mpr ⟨h17, rfl⟩
    · exact (mintS_ok (by rw [c1]; exact (c2 _).trans a2)).mpr ⟨h19, rfl⟩

theorem burnS_ok {me : Addr} {c : Ctx} {p p' : State} {S S' : Ledger × Signed} {x : Int} :
    burnSharesX signedTokens me c p S x = .ok (p', S') ↔ burnShares me c p S.1 x = .ok (p', S'.1) ∧ S'.2 = S.2 := by
  obtain ⟨L', s'⟩ := S'
  unfold burnSharesX burnShares
  simp only [bind_ok, own_burn, ok_inj, Prod.mk.injEq]
  constructor
  · rintro ⟨⟨L1, s1⟩, ⟨h1, h2⟩, t, h3, rfl, ⟨rfl, rfl⟩⟩
    exact ⟨⟨L', h1, t, h3, rfl, rfl⟩, h2⟩
  · rintro ⟨⟨L1, h1, t, h3, rfl, rfl⟩, h2⟩
    exact ⟨(L1, s'), ⟨h1, h2⟩, t, h3, rfl, rfl⟩

theorem withdrawS_ok {me : Addr} {c : Ctx} {p p' : State} {S S' : Ledger × Signed} {sender : Addr}
    {sh mA mB ra rb : Int} {dl : Option Nat} (hne : sender ≠ me) (hs : c.signed sender = true) :
    withdrawX signedTokens me c p S sender sh mA mB dl = .ok (p', S', ra, rb) ↔
      withdraw me c p S.1 sender sh mA mB dl = .ok (p', S'.1, ra, rb) ∧
      .transfer p.cfg.shareToken sender me sh ∈ S.2 sender ∧ S'.2 = S.2.use sender (.transfer p.cfg.shareToken sender me sh) := by
  obtain ⟨L', s'⟩ := S'
  unfold withdrawX withdraw
  simp only [bind_ok, own_transfer, signer_transfer hne hs, ok_inj, Prod.mk.injEq]
  constructor
  · rintro ⟨u1, h1, u2, h2, u3, h3, u4, h4, u5, h5, ⟨L1, s1⟩, ⟨h6, h7, h8⟩, u6, h9, q, h10, u7, h11, u8, h12, u9, h13, ⟨p1, ⟨L2, s2⟩⟩, h14,
      ⟨L3, s3⟩, ⟨h15, h16⟩, ⟨L4, s4⟩, ⟨h17, h18⟩, x1, h19, x2, h20, rfl, ⟨rfl, rfl⟩, rfl, rfl⟩
    rw [burnS_ok] at h14
    obtain ⟨h14, h14'⟩ := h14
    simp only at h7 h8 h14' h16 h18
    subst h18 h16 h14' h8
    exact ⟨⟨u1, h1, u2, h2, u3, h3, u4, h4, u5, h5, L1, h6, u6, h9, q, h10, u7, h11, u8, h12, u9, h13, (p1, L2), h14,
      L3, h15, _, h17, x1, h19, x2, h20, rfl, rfl, rfl, rfl⟩, h7, rfl⟩
  · rintro ⟨⟨u1, h1, u2, h2, u3, h3, u4, h4, u5, h5, L1, h6, u6, h9, q, h10, u7, h11, u8, h12, u9, h13, ⟨p1, L2⟩, h14,
      L3, h15, L4, h17, x1, h19, x2, h20, rfl, rfl, rfl, rfl⟩, h7, rfl⟩
    exact ⟨u1, h1, u2, h2, u3, h3, u4, h4, u5, h5, (L1, _), ⟨h6, h7, rfl⟩, u6, h9, q, h10, u7, h11, u8, h12, u9, h13,
      (p1, (L2, _)), burnS_ok.mpr ⟨h14, rfl⟩, (L3, _), ⟨h15, rfl⟩, (L4, _), ⟨h17, rfl⟩, x1, h19, x2, h20, rfl, rfl, rfl, rfl⟩

end Pool

namespace Stable

theorem sides_tok {p : State} {offer : Addr} {r : Side × Side} (h : sides p offer = .ok r) : r.1.tok = offer := by
  unfold sides at h
  split at h
  · rename_i e
    simp only [ok_inj] at h
    subst h; exact e.symm
  · split at h
    · rename_i e
      simp only [ok_inj] at h
      subst h; exact e.symm
    · simp at h

theorem swapS_ok {me : Addr} {c : Ctx} {p p' : State} {S S' : Ledger × Signed} {sender offer : Addr} {amount ret : Int}
    {mo ms mf : Option Int} {dl : Option Nat} (hne : sender ≠ me) (hs : c.signed sender = true) :
    swapX signedTokens me c p S sender offer amount mo ms dl mf = .ok (p', S', ret) ↔
      swap me c p S.1 sender offer amount mo ms dl mf = .ok (p', S'.1, ret) ∧
      .transfer offer sender me amount ∈ S.2 sender ∧ S'.2 = S.2.use sender (.transfer offer sender me amount) := by
  obtain ⟨L', s'⟩ := S'
  unfold swapX doSwapX swap doSwap
  simp only [bind_ok, own_transfer, signer_transfer hne hs, ok_inj, Prod.mk.injEq]
  constructor
  · rintro ⟨u1, h1, u2, h2, u3, h3, lim, h4, ⟨sd, by'⟩, h5, r, h7, u4, h8, g1, h9, u5, h11, ⟨L1, s1⟩, ⟨h12, h13, h14⟩, rc, h15,
      ⟨L2, s2⟩, ⟨h16, h17⟩, ⟨L3, s3⟩, ⟨h18, h19⟩, q, h20, rfl, ⟨rfl, rfl⟩, rfl⟩
    simp only at h14 h17 h19
    subst h14 h17 h19
    have e := sides_tok h5
    simp only at e
    rw [e] at h13
    refine ⟨⟨u1, h1, u2, h2, u3, h3, lim, h4, (sd, by'), h5, r, h7, u4, h8, g1, h9, u5, h11, L1, h12, rc, h15,
      L2, h16, _, h18, q, h20, rfl, rfl, rfl⟩, h13, by rw [e]; rfl⟩
  · rintro ⟨⟨u1, h1, u2, h2, u3, h3, lim, h4, ⟨sd, by'⟩, h5, r, h7, u4, h8, g1, h9, u5, h11, L1, h12, rc, h15,
      L2, h16, L3, h18, q, h20, rfl, rfl, rfl⟩, h13, rfl⟩
    have e := sides_tok h5
    simp only at e
    exact ⟨u1, h1, u2, h2, u3, h3, lim, h4, (sd, by'), h5, r, h7, u4, h8, g1, h9, u5, h11,
      (L1, _), ⟨h12, by rw [e]; exact h13, rfl⟩, rc, h15,
      (L2, _), ⟨h16, rfl⟩, (L3, _), ⟨h18, rfl⟩, q, h20, rfl, by rw [e]; rfl, rfl⟩

theorem mintS_ok {me d : Addr} {c : Ctx} {p p' : State} {S S' : Ledger × Signed} {x : Int} (ha : (S.1 p.cfg.shareToken).admin = me) :
    mintSharesX signedTokens me c p S d x = .ok (p', S') ↔ mintShares me c p S.1 d x = .ok (p', S'.1) ∧ S'.2 = S.2 := by
  obtain ⟨L', s'⟩ := S'
  unfold mintSharesX mintShares
  simp only [bind_ok, own_mint ha, ok_inj, Prod.mk.injEq]
  constructor
  · rintro ⟨⟨L1, s1⟩, ⟨h1, h2⟩, t, h3, rfl, ⟨rfl, rfl⟩⟩
    exact ⟨⟨L', h1, t, h3, rfl, rfl⟩, h2⟩
  · rintro ⟨⟨L1, h1, t, h3, rfl, rfl⟩, h2⟩
    exact ⟨(L1, s'), ⟨h1, h2⟩, t, h3, rfl, rfl⟩

theorem burnS_ok {me : Addr} {c : Ctx} {p p' : State} {S S' : Ledger × Signed} {x : Int} :
    burnSharesX signedTokens me c p S x = .ok (p', S') ↔ burnShares me c p S.1 x = .ok (p', S'.1) ∧ S'.2 = S.2 := by
  obtain ⟨L', s'⟩ := S'
  unfold burnSharesX burnShares
  simp only [bind_ok, own_burn, ok_inj, Prod.mk.injEq]
  constructor
  · rintro ⟨⟨L1, s1⟩, ⟨h1, h2⟩, t, h3, rfl, ⟨rfl, rfl⟩⟩
    exact ⟨⟨L', h1, t, h3, rfl, rfl⟩, h2⟩
  · rintro ⟨⟨L1, h1, t, h3, rfl, rfl⟩, h2⟩
    exact ⟨(L1, s'), ⟨h1, h2⟩, t, h3, rfl, rfl⟩

theorem provideS_ok {me : Addr} {c : Ctx} {p p' : State} {S S' : Ledger × Signed} {sender : Addr} {a b : Int}
    {cu : Option Int} {dl mn : Option Nat} (hne : sender ≠ me) (hs : c.signed sender = true)
    (hAB : p.cfg.tokenA ≠ p.cfg.tokenB) (ha : (S.1 p.cfg.shareToken).admin = me) :
    provideX signedTokens me c p S sender a b cu dl mn = .ok (p', S') ↔
      provide me c p S.1 sender a b cu dl mn = .ok (p', S'.1) ∧
        .transfer p.cfg.tokenA sender me a ∈ S.2 sender ∧ .transfer p.cfg.tokenB sender me b ∈ S.2 sender ∧
        S'.2 = (S.2.use sender (.transfer p.cfg.tokenA sender me a)).use sender (.transfer p.cfg.tokenB sender me b) := by
  obtain ⟨L', s'⟩ := S'
  have hmem : (.transfer p.cfg.tokenB sender me b ∈ (S.2.use sender (.transfer p.cfg.tokenA sender me a)) sender) ↔
      (.transfer p.cfg.tokenB sender me b ∈ S.2 sender) := by
    unfold Signed.use
    rw [upd_same, List.mem_erase_of_ne]
    intro e
    injection e with e
    exact hAB e.symm
  unfold provideX provide
  simp only [bind_ok, signer_transfer hne hs, ok_inj, Prod.mk.injEq]
  constructor
  · rintro ⟨u1, h1, u2, h2, u3, h3, u4, h4, u5, h5, amp, h6, ⟨L1, s1⟩, ⟨h9, h10, h11⟩,
      ⟨L2, s2⟩, ⟨h12, h13, h14⟩, x1, g1, x2, g2, x3, g3, x4, g4, x5, g5, x6, g6, d, g7, sh, g8, x7, g9, m, g10,
      ⟨p2, ⟨L4, s4⟩⟩, h19, rfl, ⟨rfl, rfl⟩⟩
    simp only at h10 h11 h13 h14
    have a2 : (L2 p.cfg.shareToken).admin = me := by
      rw [((Ledger.transfer_inv h12).2.2.2.2 _).1, ((Ledger.transfer_inv h9).2.2.2.2 _).1, ha]
    rw [mintS_ok a2] at h19
    subst h11 h14
    exact ⟨⟨u1, h1, u2, h2, u3, h3, u4, h4, u5, h5, amp, h6, L1, h9, L2, h12, x1, g1, x2, g2, x3, g3, x4, g4, x5, g5, x6, g6, d, g7,
      sh, g8, x7, g9, m, g10, (p2, _), h19.1, rfl, rfl⟩, h10, hmem.mp h13, h19.2⟩
  · rintro ⟨⟨u1, h1, u2, h2, u3, h3, u4, h4, u5, h5, amp, h6, L1, h9, L2, h12, x1, g1, x2, g2, x3, g3, x4, g4, x5, g5, x6, g6, d, g7,
      sh, g8, x7, g9, m, g10, ⟨p2, L4⟩, h19, rfl, rfl⟩, h10, h13, h14⟩
    have a2 : (L2 p.cfg.shareToken).admin = me := by
      rw [((Ledger.transfer_inv h12).2.2.2.2 _).1, ((Ledger.transfer_inv h9).2.2.2.2 _).1, ha]
    exact ⟨u1, h1, u2, h2, u3, h3, u4, h4, u5, h5, amp, h6, (L1, S.2.use sender (.transfer p.cfg.tokenA sender me a)),
      ⟨h9, h10, rfl⟩, (L2, s'), ⟨h12, hmem.mpr h13, h14⟩, x1, g1, x2, g2, x3, g3, x4, g4, x5, g5, x6, g6, d, g7,
      sh, g8, x7, g9, m, g10, (p2, (L4, s')), (mintS_ok a2).mpr ⟨h19, rfl⟩, rfl, rfl⟩

theorem withdrawS_ok {me : Addr} {c : Ctx} {p p' : State} {S S' : Ledger × Signed} {sender : Addr}
    {sh mA mB ra rb : Int} {dl : Option Nat} (hne : sender ≠ me) (hs : c.signed sender = true) :
    withdrawX signedTokens me c p S sender sh mA mB dl = .ok (p', S', ra, rb) ↔
      withdraw me c p S.1 sender sh mA mB dl = .ok (p', S'.1, ra, rb) ∧
      .transfer p.cfg.shareToken sender me sh ∈ S.2 sender ∧ S'.2 = S.2.use sender (.transfer p.cfg.shareToken sender me sh) := by
  obtain ⟨L', s'⟩ := S'
  unfold withdrawX withdraw
  simp only [bind_ok, own_transfer, signer_transfer hne hs, ok_inj, Prod.mk.injEq]
  constructor
  · rintro ⟨u1, h1, u2, h2, u3, h3, u4, h4, u5, h5, ⟨L1, s1⟩, ⟨h6, h7, h8⟩, u6, h9, q, h10, u7, h11, u8, h12, u9, h13, ⟨p1, ⟨L2, s2⟩⟩, h14,
      ⟨L3, s3⟩, ⟨h15, h16⟩, ⟨L4, s4⟩, ⟨h17, h18⟩, x1, h19, x2, h20, rfl, ⟨rfl, rfl⟩, rfl, rfl⟩
    rw [burnS_ok] at h14
    obtain ⟨h14, h14'⟩ := h14
    simp only at h7 h8 h14' h16 h18
    subst h18 h16 h14' h8
    exact ⟨⟨u1, h1, u2, h2, u3, h3, u4, h4, u5, h5, L1, h6, u6, h9, q, h10, u7, h11, u8, h12, u9, h13, (p1, L2), h14,
      L3, h15, _, h17, x1, h19, x2, h20, rfl, rfl, rfl, rfl⟩, h7, rfl⟩
  · rintro ⟨⟨u1, h1, u2, h2, u3, h3, u4, h4, u5, h5, L1, h6, u6, h9, q, h10, u7, h11, u8, h12, u9, h13, ⟨p1, L2⟩, h14,
      L3, h15, L4, h17, x1, h19, x2, h20, rfl, rfl, rfl, rfl⟩, h7, rfl⟩
    exact ⟨u1, h1, u2, h2, u3, h3, u4, h4, u5, h5, (L1, _), ⟨h6, h7, rfl⟩, u6, h9, q, h10, u7, h11, u8, h12, u9, h13,
      (p1, (L2, _)), burnS_ok.mpr ⟨h14, rfl⟩, (L3, _), ⟨h15, rfl⟩, (L4, _), ⟨h17, rfl⟩, x1, h19, x2, h20, rfl, rfl, rfl, rfl⟩

end Stable

namespace Stake

theorem bondS_ok {me : Addr} {c : Ctx} {s s' : State} {S S' : Ledger × Signed} {sender : Addr} {x : Int}
    (hne : sender ≠ me) (hs : c.signed sender = true) :
    bondX signedTokens me c s S sender x = .ok (s', S') ↔ bond me c s S.1 sender x = .ok (s', S'.1) ∧
      ∃ cfg, s.cfg = some cfg ∧ .transfer cfg.lpToken sender me x ∈ S.2 sender ∧
        S'.2 = S.2.use sender (.transfer cfg.lpToken sender me x) := by
  obtain ⟨L', t'⟩ := S'
  unfold bondX bond
  simp only [bind_ok, signer_transfer hne hs, ok_inj, Prod.mk.injEq]
  have hc : ∀ {cfg}, getConfig s = .ok cfg ↔ s.cfg = some cfg := by
    intro cfg; unfold getConfig; cases s.cfg <;> simp
  constructor
  · rintro ⟨u1, h1, cfg, h2, u2, h3, ⟨L1, s1⟩, ⟨h4, h5, h6⟩, x1, h7, x2, h8, rfl, ⟨rfl, rfl⟩⟩
    exact ⟨⟨u1, h1, cfg, h2, u2, h3, L', h4, x1, h7, x2, h8, rfl, rfl⟩, cfg, hc.mp h2, h5, h6⟩
  · rintro ⟨⟨u1, h1, cfg, h2, u2, h3, L1, h4, x1, h7, x2, h8, rfl, rfl⟩, cfg', h9, h5, h6⟩
    rw [hc, h9] at h2
    cases h2
    exact ⟨u1, h1, cfg, hc.mpr h9, u2, h3, (L1, t'), ⟨h4, h5, h6⟩, x1, h7, x2, h8, rfl, rfl⟩

theorem unbondS_ok {me : Addr} {c : Ctx} {s s' : State} {S S' : Ledger × Signed} {sender : Addr} {x : Int} {ts : Nat} :
    unbondX signedTokens me c s S sender x ts = .ok (s', S') ↔ unbond me c s S.1 sender x ts = .ok (s', S'.1) ∧ S'.2 = S.2 := by
  obtain ⟨L', t'⟩ := S'
  unfold unbondX unbond
  simp only [bind_ok, own_transfer, ok_inj, Prod.mk.injEq]
  constructor
  · rintro ⟨u1, h1, cfg, h2, l, h3, t, h4, ⟨L1, s1⟩, ⟨h5, h6⟩, x2, h7, rfl, ⟨rfl, rfl⟩⟩
    exact ⟨⟨u1, h1, cfg, h2, l, h3, t, h4, L', h5, x2, h7, rfl, rfl⟩, h6⟩
  · rintro ⟨⟨u1, h1, cfg, h2, l, h3, t, h4, L1, h5, x2, h7, rfl, rfl⟩, h6⟩
    exact ⟨u1, h1, cfg, h2, l, h3, t, h4, (L1, t'), ⟨h5, h6⟩, x2, h7, rfl, rfl⟩

theorem distributeS_ok {me : Addr} {c : Ctx} {s s' : State} {S S' : Ledger × Signed} {sender tok : Addr} {x : Int}
    (hne : sender ≠ me) (hs : c.signed sender = true) :
    distributeX signedTokens me c s S sender x tok = .ok (s', S') ↔ distribute me c s S.1 sender x tok = .ok (s', S'.1) ∧
      .transfer tok sender me x ∈ S.2 sender ∧ S'.2 = S.2.use sender (.transfer tok sender me x) := by
  obtain ⟨L', t'⟩ := S'
  unfold distributeX distribute
  simp only [bind_ok, signer_transfer hne hs, ok_inj, Prod.mk.injEq]
  constructor
  · rintro ⟨u1, h1, cfg, h2, u2, h3, u3, h4, m, h5, ⟨L1, s1⟩, ⟨h6, h7, h8⟩, rfl, ⟨rfl, rfl⟩⟩
    exact ⟨⟨u1, h1, cfg, h2, u2, h3, u3, h4, m, h5, L', h6, rfl, rfl⟩, h7, h8⟩
  · rintro ⟨⟨u1, h1, cfg, h2, u2, h3, u3, h4, m, h5, L1, h6, rfl, rfl⟩, h7, h8⟩
    exact ⟨u1, h1, cfg, h2, u2, h3, u3, h4, m, h5, (L1, t'), ⟨h6, h7, h8⟩, rfl, rfl⟩

theorem payLoopS_ok {me : Addr} {c : Ctx} {s : State} {a : Addr} {l : List Addr} {S S' : Ledger × Signed} :
    payLoopX signedTokens me c s a l S = .ok S' ↔ payLoop me c s a l S.1 = .ok S'.1 ∧ S'.2 = S.2 := by
  induction l generalizing S with
  | nil =>
    obtain ⟨L', t'⟩ := S'
    obtain ⟨L, t⟩ := S
    simp only [payLoopX, payLoop, ok_inj, Prod.mk.injEq]
    constructor <;> (rintro ⟨rfl, rfl⟩; exact ⟨rfl, rfl⟩)
  | cons b l ih =>
    unfold payLoopX payLoop
    simp only [bind_ok, own_transfer, ih]
    constructor
    · rintro ⟨p, h1, ⟨L1, s1⟩, ⟨h2, h3⟩, h4, h5⟩
      exact ⟨⟨p, h1, L1, h2, h4⟩, h5.trans h3⟩
    · rintro ⟨⟨p, h1, L1, h2, h4⟩, h5⟩
      exact ⟨p, h1, (L1, S.2), ⟨h2, rfl⟩, h4, h5⟩

theorem withdrawS_ok {me : Addr} {c : Ctx} {s s' : State} {S S' : Ledger × Signed} {a : Addr} :
    withdrawX signedTokens me c s S a = .ok (s', S') ↔ withdraw me c s S.1 a = .ok (s', S'.1) ∧ S'.2 = S.2 := by
  obtain ⟨L', t'⟩ := S'
  unfold withdrawX withdraw
  simp only [bind_ok, payLoopS_ok, ok_inj, Prod.mk.injEq]
  constructor
  · rintro ⟨⟨L1, s1⟩, ⟨h1, h2⟩, rfl, ⟨rfl, rfl⟩⟩
    exact ⟨⟨L', h1, rfl, rfl⟩, h2⟩
  · rintro ⟨⟨L1, h1, rfl, rfl⟩, h2⟩
    exact ⟨(L1, t'), ⟨h1, h2⟩, rfl, rfl⟩

end Stake

namespace Vesting

theorem createS_ok {me : Addr} {c : Ctx} {v v' : State} {S S' : Ledger × Signed} {l : List (Addr × Curve)}
    (hne : v.admin ≠ me) (hs : c.signed v.admin = true) :
    createX signedTokens me c v S l = .ok (v', S') ↔ create me c v S.1 l = .ok (v', S'.1) ∧
      ∃ total : Nat, createLoop v 0 l = .ok (v', total) ∧ .transfer v.token v.admin me total ∈ S.2 v.admin ∧
        S'.2 = S.2.use v.admin (.transfer v.token v.admin me total) := by
  obtain ⟨L', t'⟩ := S'
  unfold createX create
  simp only [bind_ok, signer_transfer hne hs, ok_inj, Prod.mk.injEq, toI128_ok]
  constructor
  · rintro ⟨u1, h1, u2, h2, u3, h3, ⟨w, total⟩, h4, am, h5, u4, h6, ⟨L1, s1⟩, ⟨h7, h8, h9⟩, rfl, ⟨rfl, rfl⟩⟩
    obtain ⟨h5', rfl⟩ := h5
    exact ⟨⟨u1, h1, u2, h2, u3, h3, (w, total), h4, _, ⟨h5', rfl⟩, u4, h6, L', h7, rfl, rfl⟩, total, h4, h8, h9⟩
  · rintro ⟨⟨u1, h1, u2, h2, u3, h3, ⟨w, total⟩, h4, am, h5, u4, h6, L1, h7, rfl, rfl⟩, total', h4', h8, h9⟩
    rw [h4] at h4'
    simp only [ok_inj, Prod.mk.injEq] at h4'
    obtain ⟨-, rfl⟩ := h4'
    obtain ⟨h5', rfl⟩ := h5
    exact ⟨u1, h1, u2, h2, u3, h3, (w, total), h4, _, ⟨h5', rfl⟩, u4, h6, (L1, t'), ⟨h7, h8, h9⟩, rfl, rfl⟩

theorem claimS_ok {me : Addr} {c : Ctx} {v v' : State} {S S' : Ledger × Signed} {a : Addr} {i : Nat} :
    claimX signedTokens me c v S a i = .ok (v', S') ↔ claim me c v S.1 a i = .ok (v', S'.1) ∧ S'.2 = S.2 := by
  obtain ⟨L', t'⟩ := S'
  unfold claimX claim
  simp only [bind_ok, own_transfer, ok_inj, Prod.mk.injEq]
  constructor
  · rintro ⟨u1, h1, av, h2, u2, h3, info, h4, vd, h5, lq, h6, avU, h7, u3, h8, rest, h9, ⟨L1, s1⟩, ⟨h10, h11⟩, rfl, ⟨rfl, rfl⟩⟩
    exact ⟨⟨u1, h1, av, h2, u2, h3, info, h4, vd, h5, lq, h6, avU, h7, u3, h8, rest, h9, L', h10, rfl, rfl⟩, h11⟩
  · rintro ⟨⟨u1, h1, av, h2, u2, h3, info, h4, vd, h5, lq, h6, avU, h7, u3, h8, rest, h9, L1, h10, rfl, rfl⟩, h11⟩
    exact ⟨u1, h1, av, h2, u2, h3, info, h4, vd, h5, lq, h6, avU, h7, u3, h8, rest, h9, (L1, t'), ⟨h10, h11⟩, rfl, rfl⟩

end Vesting

/-! Routes. -/
namespace World
open Phoenix.World.Spec

theorem pool_swap_ctx {P r offer : Addr} {c c' : Ctx} {p : Pool.State} {L : Ledger} {x : Int} {mi sp mf : Option Int} {dl : Option Nat}
    (hn : c.now = c'.now) (h1 : c.signed r = true) (h2 : c'.signed r = true) :
    Pool.swap P c p L r offer x mi sp dl mf = Pool.swap P c' p L r offer x mi sp dl mf := by
  have k0 : requireAuth c r = requireAuth c' r := by simp [requireAuth, Ctx.auth, h1, h2]
  have k1 : ∀ (L : Ledger) t d y, L.transfer (c.as P) t r d y = L.transfer (c'.as P) t r d y := fun L t d y =>
    ledger_transfer_auth (by simp [Ctx.as, Ctx.auth, h1, h2])
  have k2 : ∀ (L : Ledger) t d y, L.transfer (c.as P) t P d y = L.transfer (c'.as P) t P d y := fun L t d y =>
    ledger_transfer_auth (by simp [Ctx.as, Ctx.auth])
  unfold Pool.swap Pool.doSwap Pool.checkDeadline
  simp only [k0, k1, k2, hn]

theorem stable_swap_ctx {P r offer : Addr} {c c' : Ctx} {p : Stable.State} {L : Ledger} {x : Int} {mi sp mf : Option Int} {dl : Option Nat}
    (hn : c.now = c'.now) (h1 : c.signed r = true) (h2 : c'.signed r = true) :
    Stable.swap P c p L r offer x mi sp dl mf = Stable.swap P c' p L r offer x mi sp dl mf := by
  have k0 : requireAuth c r = requireAuth c' r := by simp [requireAuth, Ctx.auth, h1, h2]
  have k1 : ∀ (L : Ledger) t d y, L.transfer (c.as P) t r d y = L.transfer (c'.as P) t r d y := fun L t d y =>
    ledger_transfer_auth (by simp [Ctx.as, Ctx.auth, h1, h2])
  have k2 : ∀ (L : Ledger) t d y, L.transfer (c.as P) t P d y = L.transfer (c'.as P) t P d y := fun L t d y =>
    ledger_transfer_auth (by simp [Ctx.as, Ctx.auth])
  unfold Stable.swap Stable.doSwap Stable.checkDeadline
  simp only [k0, k1, k2, hn]

theorem poolSwapS_ok {w w' : World} {c c' : Ctx} {P r offer : Addr} {x y : Int} {mi sp mf : Option Int} {dl : Option Nat} {subs : List Phoenix.Inv}
    (hr : NoPool w r) (hn : c.now = c'.now) (h1 : c.signed r = true) (h2 : c'.signed r = true) :
    poolSwapS w c P r offer x mi sp dl mf subs = .ok (w', y) ↔
      poolSwap w c' P r offer x mi sp dl mf = .ok (w', y) ∧ .transfer offer r P x ∈ subs := by
  unfold poolSwapS poolSwap
  split
  · rename_i hc
    have hne : r ≠ P := by rintro rfl; exact hr.1 hc
    simp only [hc, bind_ok, ok_inj, Prod.mk.injEq, Prod.exists, Pool.swapS_ok hne h1, pool_swap_ctx (P := P) hn h1 h2, upd_same]
    constructor
    · rintro ⟨p, hp, p', L', s', y', ⟨h3, h4, -⟩, rfl, rfl⟩
      exact ⟨⟨p, hp, p', L', y', h3, rfl, rfl⟩, h4⟩
    · rintro ⟨⟨p, hp, p', L', y', h3, rfl, rfl⟩, h4⟩
      exact ⟨p, hp, p', L', _, y', ⟨h3, h4, rfl⟩, rfl, rfl⟩
  · rename_i hc
    have hne : r ≠ P := by rintro rfl; exact hr.2 hc
    simp only [hc, bind_ok, ok_inj, Prod.mk.injEq, Prod.exists, Stable.swapS_ok hne h1, stable_swap_ctx (P := P) hn h1 h2, upd_same]
    constructor
    · rintro ⟨p, hp, p', L', s', y', ⟨h3, h4, -⟩, rfl, rfl⟩
      exact ⟨⟨p, hp, p', L', y', h3, rfl, rfl⟩, h4⟩
    · rintro ⟨⟨p, hp, p', L', y', h3, rfl, rfl⟩, h4⟩
      exact ⟨p, hp, p', L', _, y', ⟨h3, h4, rfl⟩, rfl, rfl⟩
  · rename_i h1 h2
    split
    · rename_i hc; exact absurd hc h1
    · rename_i hc; exact absurd hc h2
    · simp

theorem poolSwap_code' {w w' : World} {c : Ctx} {P r offer : Addr} {x y : Int} {mi sp mf : Option Int} {dl : Option Nat}
    (h : poolSwap w c P r offer x mi sp dl mf = .ok (w', y)) : w'.code = w.code := by
  unfold poolSwap at h
  split at h
  · simp only [bind_ok, ok_inj, Prod.mk.injEq, Prod.exists] at h
    obtain ⟨p, hp, p', L', y', h3, rfl, rfl⟩ := h; rfl
  · simp only [bind_ok, ok_inj, Prod.mk.injEq, Prod.exists] at h
    obtain ⟨p, hp, p', L', y', h3, rfl, rfl⟩ := h; rfl
  · simp at h

theorem findNode_ok {s : List Node} {i : Phoenix.Inv} {n : Node} (h : findNode s i = .ok n) : n ∈ s ∧ n.inv = i := by
  unfold findNode at h
  split at h
  · rename_i m hm
    simp only [ok_inj] at h
    subst h
    exact ⟨List.mem_of_find?_eq_some hm, by simpa using List.find?_some hm⟩
  · simp at h

theorem hopLoopS_via {c c' : Ctx} {F r : Addr} {sp mf : Option Int} {dl : Option Nat} (hn : c.now = c'.now) (h2 : c'.signed r = true) :
    ∀ {ops : List Multihop.Op} {w w' : World} {x y : Int} {s : List Node}, NoPool w r →
    hopLoopS w c F r sp dl mf ops x s = .ok (w', y) →
      ∃ hops, Via c' F r sp dl mf w ops x w' y hops ∧ ∃ ns : List Node, List.Subperm ns s ∧
        List.Forall₂ (fun n m : Node => n.inv = m.inv ∧ m.subs ⊆ n.subs) ns (treeFor r sp dl mf ops hops)
  | [], w, w', x, y, s, _, h => by
    simp only [hopLoopS, ok_inj, Prod.mk.injEq] at h
    obtain ⟨rfl, rfl⟩ := h
    exact ⟨[], .done _ _, [], List.nil_subperm, by simp [treeFor]⟩
  | op :: ops, w, w', x, y, s, hr, h => by
    simp only [hopLoopS, bind_ok, Prod.exists] at h
    obtain ⟨P, hP, n, hnode, w1, y1, hs, hl⟩ := h
    rw [poolSwapS_ok (c' := c') hr (by exact hn) (by simp [Ctx.grant]) h2] at hs
    obtain ⟨h3, h4⟩ := hs
    have hcode := poolSwap_code' h3
    obtain ⟨hops, k1, ns, k2, k3⟩ := hopLoopS_via hn h2 (w := w1) (by unfold NoPool; rw [hcode]; exact hr) hl
    obtain ⟨m1, m2⟩ := findNode_ok hnode
    refine ⟨(P, x) :: hops, .hop hP (trades_iff.mp h3) k1, n :: ns, ?_, ?_⟩
    · have := (List.subperm_cons n).mpr k2
      exact this.trans (List.perm_cons_erase m1).symm.subperm
    · simp only [treeFor, List.forall₂_cons]
      exact ⟨⟨m2, by simpa using h4⟩, k3⟩

theorem via_chain {c : Ctx} {F r : Addr} {sp mf : Option Int} {dl : Option Nat} {w w' : World} {ops : List Multihop.Op} {x y : Int} :
    Chain c F r sp dl mf w ops x w' y ↔ ∃ hops, Via c F r sp dl mf w ops x w' y hops := by
  constructor
  · intro h
    induction h with
    | done w x => exact ⟨_, .done _ _⟩
    | hop f s _ ih => obtain ⟨hs, ih⟩ := ih; exact ⟨_, .hop f s ih⟩
  · rintro ⟨hs, h⟩
    induction h with
    | done w x => exact .done _ _
    | hop f s _ ih => exact .hop f s ih

theorem via_unique {c : Ctx} {F r : Addr} {sp mf : Option Int} {dl : Option Nat} {w w1 w2 : World} {ops : List Multihop.Op} {x y z : Int}
    {l m : List (Addr × Int)} (h1 : Via c F r sp dl mf w ops x w1 y l) (h2 : Via c F r sp dl mf w ops x w2 z m) :
    w1 = w2 ∧ y = z ∧ l = m := by
  induction h1 generalizing w2 z m with
  | done w x => cases h2; exact ⟨rfl, rfl, rfl⟩
  | hop f s _ ih =>
    cases h2 with
    | hop f' s' k =>
      rw [f] at f'; cases f'
      have s := trades_iff.mpr s
      rw [trades_iff.mpr s'] at s; cases s
      obtain ⟨rfl, rfl, rfl⟩ := ih k
      exact ⟨rfl, rfl, rfl⟩

theorem via_length {c : Ctx} {F r : Addr} {sp mf : Option Int} {dl : Option Nat} {w w1 : World} {ops : List Multihop.Op} {x y : Int}
    {l : List (Addr × Int)} (h1 : Via c F r sp dl mf w ops x w1 y l) : l.length = ops.length := by
  induction h1 with
  | done => rfl
  | hop _ _ _ ih => simp [ih]

/-- The tree made for exactly the hops that take place suffices. -/
theorem hopLoopS_exact {c c' : Ctx} {F r : Addr} {sp mf : Option Int} {dl : Option Nat} (hn : c.now = c'.now) (h2 : c'.signed r = true)
    {ops : List Multihop.Op} {w w' : World} {x y : Int} {hops : List (Addr × Int)} (h : Via c' F r sp dl mf w ops x w' y hops)
    (hr : NoPool w r) : hopLoopS w c F r sp dl mf ops x (treeFor r sp dl mf ops hops) = .ok (w', y) := by
  induction h with
  | done => rfl
  | @hop w w1 w' op ops x y z P hops f s _ ih =>
    have s := trades_iff.mpr s
    have e : findNode (treeFor r sp dl mf (op :: ops) ((P, x) :: hops)) (.swap P r op.offer x op.min sp dl mf) =
        .ok ⟨.swap P r op.offer x op.min sp dl mf, [.transfer op.offer r P x]⟩ := by
      simp [findNode, treeFor]
    have k := (poolSwapS_ok (c := c.grant r) (subs := [.transfer op.offer r P x]) (x := x) (P := P) (offer := op.offer) (w' := w1) (y := y)
      (mi := op.min) (sp := sp) (dl := dl) (mf := mf) hr hn (by simp [Ctx.grant]) h2).mpr ⟨s, by simp⟩
    have hcode := poolSwap_code' s
    have ih := ih (by unfold NoPool; rw [hcode]; exact hr)
    simp only [hopLoopS, bind_ok, Prod.exists]
    refine ⟨P, f, _, e, w1, y, k, ?_⟩
    simp only [treeFor, List.erase_cons_head]
    exact ih

end World
end Phoenix
