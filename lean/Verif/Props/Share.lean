import Verif.Lemmas.Payout
import Verif.Props.PoolSys
import Verif.Props.StableSys
/-!
Property C75, for both kinds of pool: `query_share` announces exactly what
`withdraw_liquidity` pays, and a holder of shares can always withdraw.
-/
namespace Phoenix.Props
open Phoenix Pool Spec Ledger

/-- **C75** Whatever `withdraw_liquidity` of `sh` shares pays, `query_share(sh)` announced
just before. -/
theorem C75_query_predicts_withdrawal {me : Addr} {c : Ctx} {p p' : State} {L L' : Ledger} {sender : Addr}
    {sh mA mB ra rb : Int} {dl : Option Nat}
    (h : withdraw me c p L sender sh mA mB dl = .ok (p', L', ra, rb)) : queryShare p sh = .ok (ra, rb) := by
  unfold withdraw at h
  simp only [bind_ok, req_ok] at h
  obtain ⟨_, -, _, -, _, -, _, -, _, -, L1, -, _, hT, ratio, hr, ra', hra, rb', hrb, _, -, ⟨p1, L2⟩, -, L3, -, L4, -,
    _, -, _, -, hout⟩ := h
  simp only [ok_inj, Prod.mk.injEq] at hout
  obtain ⟨rfl, rfl, rfl, rfl⟩ := hout
  unfold queryShare shareRatio
  rw [if_pos hT]
  simp only [bind_ok, ok_inj]
  exact ⟨_, hr, _, hra, _, hrb, rfl⟩

/-- From the invariant alone. -/
theorem withdraw_of_inv {me : Addr} {p : State} {L : Ledger} (hI : SysInv me ⟨some p, L⟩)
    {c : Ctx} {sender : Addr} {sh mA mB a b : Int} {dl : Option Nat} (hself : c.auth me = false)
    (hq : queryShare p sh = .ok (a, b)) (hau : c.signed sender = true) (hdl : ∀ d, dl = some d → c.now ≤ d)
    (h1 : 0 < sh) (h2 : sh ≤ L.bal p.cfg.shareToken sender)
    (a0 : 0 < mA) (a1 : mA ≤ a) (b0 : 0 < mB) (b1 : mB ≤ b)
    (hfit : ∀ t a, L.bal t a ≤ I128_MAX) (hT : p.total ≤ I128_MAX)
    (fA : L.bal p.cfg.tokenA sender + a ≤ I128_MAX)
    (fB : L.bal p.cfg.tokenB sender + b ≤ I128_MAX) :
    ∃ p' L', withdraw me c p L sender sh mA mB dl = .ok (p', L', a, b) := by
  have hP := hI.pool p rfl
  have hn := hI.led.nonneg
  simp only at hn
  have hne : sender ≠ me := fun e => by have := auth_of_signed hau; rw [e, hself] at this; simp at this
  obtain ⟨hAB, hSA, hSB⟩ := hP.distinct
  have hcov := hP.cover {sender, me}
  rw [Finset.sum_pair hne] at hcov
  simp only at hcov
  have hme := hn p.cfg.shareToken me
  have hTp : 0 < p.total := by omega
  unfold queryShare shareRatio at hq
  rw [if_pos (by omega)] at hq
  simp only [bind_ok, ok_inj, Prod.mk.injEq] at hq
  obtain ⟨r, hr, a', ha, b', hb, rfl, rfl⟩ := hq
  have er := (Dec.fromRatio_ok.mp hr).2.2.2
  have ea := Dec.mulInt_val ha
  have eb := Dec.mulInt_val hb
  rw [← er] at ea eb
  have sA := share_bounds (res := p.resA) (s := sh) hP.a0 h1.le hTp
  have sB := share_bounds (res := p.resB) (s := sh) hP.b0 h1.le hTp
  rw [← ea] at sA
  rw [← eb] at sB
  have leA : a' ≤ p.resA := by
    have : a' * p.total ≤ p.resA * p.total := le_trans sA.2.1 (by have := hP.a0; nlinarith)
    exact le_of_mul_le_mul_right this hTp
  have leB : b' ≤ p.resB := by
    have : b' * p.total ≤ p.resB * p.total := le_trans sB.2.1 (by have := hP.b0; nlinarith)
    exact le_of_mul_le_mul_right this hTp
  obtain ⟨L1, L2, L3, L4, e1, e2, e3, e4⟩ := payout_works (me := me) (c := c) (L := L) (sender := sender)
    (A := p.cfg.tokenA) (B := p.cfg.tokenB) (S := p.cfg.shareToken) hAB hSA hSB hne hau hn hfit h1.le h2
    (by omega) sA.1 (leA.trans hP.aB) fA sB.1 (leB.trans hP.bB) fB
  have rA := hP.aB.trans (hfit _ _)
  have rB := hP.bB.trans (hfit _ _)
  refine ⟨{ p with total := p.total - sh, resA := p.resA - a', resB := p.resB - b' }, L4, ?_⟩
  unfold withdraw
  simp only [bind_ok, checkDeadline_ok, validatePos_some, requireAuth_ok, ok_inj, subI_ok, req_ok, burnShares]
  refine ⟨(), hdl, (), h1, (), a0, (), b0, (), auth_of_signed hau, L1, e1, (), by omega, r, hr, a', ha, b', hb, (), by omega,
    (_, L2), ⟨L2, e2, _, ⟨?_, rfl⟩, rfl⟩, L3, e3, L4, e4, _, ⟨?_, rfl⟩, _, ⟨?_, rfl⟩, rfl⟩
  · simp only [InI128, I128_MIN]; omega
  · have := sA.1; have := hP.a0; simp only [InI128, I128_MIN]; omega
  · have := sB.1; have := hP.b0; simp only [InI128, I128_MIN]; omega

/-- **C75** In every reachable state a holder of `sh` shares who signs and asks for no more
than `query_share(sh)` announces gets exactly that.  (The side conditions say that all
amounts fit the 128-bit integers of the ledger.) -/
theorem C75_withdraw_works {me : Addr} {s : Sys} (h0 : Genesis me s) {ts : List Tx}
    (ht : ∀ t ∈ ts, Possible me t) {p : State} (hp : (run me s ts).pool = some p)
    {c : Ctx} {sender : Addr} {sh mA mB a b : Int} {dl : Option Nat} (hself : c.auth me = false)
    (hq : queryShare p sh = .ok (a, b)) (hau : c.signed sender = true) (hdl : ∀ d, dl = some d → c.now ≤ d)
    (h1 : 0 < sh) (h2 : sh ≤ (run me s ts).led.bal p.cfg.shareToken sender)
    (a0 : 0 < mA) (a1 : mA ≤ a) (b0 : 0 < mB) (b1 : mB ≤ b)
    (hfit : ∀ t a, (run me s ts).led.bal t a ≤ I128_MAX) (hT : p.total ≤ I128_MAX)
    (fA : (run me s ts).led.bal p.cfg.tokenA sender + a ≤ I128_MAX)
    (fB : (run me s ts).led.bal p.cfg.tokenB sender + b ≤ I128_MAX) :
    ∃ p' L', withdraw me c p (run me s ts).led sender sh mA mB dl = .ok (p', L', a, b) := by
  have hI := run_keeps ts ht (genesis_inv h0)
  generalize run me s ts = s' at *
  obtain ⟨o, L⟩ := s'
  simp only at hp
  subst hp
  exact withdraw_of_inv hI hself hq hau hdl h1 h2 a0 a1 b0 b1 hfit hT fA fB

/-- **C75** `query_share` answers for every `sh ≤ total` as long as `sh` and both reserves
are at most 170141183460469231731 units (the 128-bit limit divided by 10^18). -/
theorem C75_query_answers {me : Addr} {s : Sys} (h0 : Genesis me s) {ts : List Tx}
    (ht : ∀ t ∈ ts, Possible me t) {p : State} (hp : (run me s ts).pool = some p) {sh : Int}
    (h1 : 0 ≤ sh) (h2 : sh ≤ p.total) (k : sh ≤ 170141183460469231731)
    (kA : p.resA ≤ 170141183460469231731) (kB : p.resB ≤ 170141183460469231731) :
    ∃ a b, queryShare p sh = .ok (a, b) := by
  have hP := (run_keeps ts ht (genesis_inv h0)).pool p hp
  unfold queryShare shareRatio
  by_cases hz : p.total = 0
  · rw [if_neg (by simpa using hz)]
    exact ⟨0, 0, by simp [Dec.mulInt, bind_ok]⟩
  · rw [if_pos hz]
    have hT : 0 < p.total := by have := hP.total_nonneg; omega
    obtain ⟨r, hr, -, -, y, hy⟩ := ratio_works hP.a0 h1 h2 hT kA k
    obtain ⟨r', hr', -, -, y', hy'⟩ := ratio_works hP.b0 h1 h2 hT kB k
    rw [hr] at hr'; cases hr'
    exact ⟨y, y', by simp only [bind_ok, ok_inj]; exact ⟨r, hr, y, hy, y', hy', rfl⟩⟩

/-- **C75** The limit is real: a pool can hold more, and then nobody can withdraw a large
share.  With 2·10^20 units of each token the holder of almost all shares cannot take them
out in one call. -/
theorem C75_large_pool_overflows (p : State) (sh : Int) (h : 170141183460469231731 < sh) (hT : 0 < p.total) :
    queryShare p sh = .error .overflow := by
  unfold queryShare shareRatio
  rw [if_pos (by omega)]
  have : Dec.fromRatio sh p.total = .error .overflow := by
    unfold Dec.fromRatio mulI
    have e : ¬ InI128 (sh * Dec.ONE) := by
      have hone : Dec.ONE = 1000000000000000000 := by decide
      simp only [InI128, I128_MIN, I128_MAX, hone]; omega
    have e2 : (req (p.total ≠ 0) Err.panic : Res Unit) = .ok () := req_ok.mpr (by omega)
    rw [e2]
    show (i128 _ >>= _) = _
    unfold i128
    rw [if_neg e]; rfl
  rw [this]; rfl

/-- the hypotheses are met by the history of Props/PoolSys: account 1 holds 413213 shares -/
example : ((run 100 exStart exHist).pool.map fun p => queryShare p 10000) = some (.ok (7078, 14128)) ∧
    10000 ≤ (run 100 exStart exHist).led.bal 12 1 := by
  constructor <;> decide +kernel

end Phoenix.Props

namespace Phoenix.Props.Stable
open Phoenix Ledger Phoenix.Stable Phoenix.Stable.Spec

/-- **C75** (stable pool) Whatever `withdraw_liquidity` of `sh` shares pays,
`query_share(sh)` announced just before. -/
theorem C75_query_predicts_withdrawal {me : Addr} {c : Ctx} {p p' : State} {L L' : Ledger} {sender : Addr}
    {sh mA mB ra rb : Int} {dl : Option Nat}
    (h : withdraw me c p L sender sh mA mB dl = .ok (p', L', ra, rb)) : queryShare p sh = .ok (ra, rb) := by
  unfold withdraw at h
  simp only [bind_ok, req_ok] at h
  obtain ⟨_, -, _, -, _, -, _, -, _, -, L1, -, _, hT, ratio, hr, ra', hra, rb', hrb, _, -, ⟨p1, L2⟩, -, L3, -, L4, -,
    _, -, _, -, hout⟩ := h
  simp only [ok_inj, Prod.mk.injEq] at hout
  obtain ⟨rfl, rfl, rfl, rfl⟩ := hout
  unfold queryShare shareRatio
  rw [if_pos hT]
  simp only [bind_ok, ok_inj]
  exact ⟨_, hr, _, hra, _, hrb, rfl⟩

/-- From the invariant alone. -/
theorem withdraw_of_inv {me : Addr} {p : State} {L : Ledger} (hI : SysInv me ⟨some p, L⟩)
    {c : Ctx} {sender : Addr} {sh mA mB a b : Int} {dl : Option Nat} (hself : c.auth me = false)
    (hq : queryShare p sh = .ok (a, b)) (hau : c.signed sender = true) (hdl : ∀ d, dl = some d → c.now ≤ d)
    (h1 : 0 < sh) (h2 : sh ≤ L.bal p.cfg.shareToken sender)
    (a0 : 0 < mA) (a1 : mA ≤ a) (b0 : 0 < mB) (b1 : mB ≤ b)
    (hfit : ∀ t a, L.bal t a ≤ I128_MAX) (hT : p.total ≤ I128_MAX)
    (fA : L.bal p.cfg.tokenA sender + a ≤ I128_MAX)
    (fB : L.bal p.cfg.tokenB sender + b ≤ I128_MAX) :
    ∃ p' L', withdraw me c p L sender sh mA mB dl = .ok (p', L', a, b) := by
  have hP := hI.pool p rfl
  have hn := hI.led.nonneg
  simp only at hn
  have hne : sender ≠ me := fun e => by have := auth_of_signed hau; rw [e, hself] at this; simp at this
  obtain ⟨hAB, hSA, hSB⟩ := hP.distinct
  have hcov := hP.cover {sender, me}
  rw [Finset.sum_pair hne] at hcov
  simp only at hcov
  have hme := hn p.cfg.shareToken me
  have hTp : 0 < p.total := by omega
  unfold queryShare shareRatio at hq
  rw [if_pos (by omega)] at hq
  simp only [bind_ok, ok_inj, Prod.mk.injEq] at hq
  obtain ⟨r, hr, a', ha, b', hb, rfl, rfl⟩ := hq
  have er := (Dec.fromRatio_ok.mp hr).2.2.2
  have ea := Dec.mulInt_val ha
  have eb := Dec.mulInt_val hb
  rw [← er] at ea eb
  have sA := share_bounds (res := p.resA) (s := sh) hP.a0 h1.le hTp
  have sB := share_bounds (res := p.resB) (s := sh) hP.b0 h1.le hTp
  rw [← ea] at sA
  rw [← eb] at sB
  have leA : a' ≤ p.resA := by
    have : a' * p.total ≤ p.resA * p.total := le_trans sA.2.1 (by have := hP.a0; nlinarith)
    exact le_of_mul_le_mul_right this hTp
  have leB : b' ≤ p.resB := by
    have : b' * p.total ≤ p.resB * p.total := le_trans sB.2.1 (by have := hP.b0; nlinarith)
    exact le_of_mul_le_mul_right this hTp
  obtain ⟨L1, L2, L3, L4, e1, e2, e3, e4⟩ := payout_works (me := me) (c := c) (L := L) (sender := sender)
    (A := p.cfg.tokenA) (B := p.cfg.tokenB) (S := p.cfg.shareToken) hAB hSA hSB hne hau hn hfit h1.le h2
    (by omega) sA.1 (leA.trans hP.aB) fA sB.1 (leB.trans hP.bB) fB
  have rA := hP.aB.trans (hfit _ _)
  have rB := hP.bB.trans (hfit _ _)
  refine ⟨{ p with total := p.total - sh, resA := p.resA - a', resB := p.resB - b' }, L4, ?_⟩
  unfold withdraw
  simp only [bind_ok, checkDeadline_ok, validatePos_some, requireAuth_ok, ok_inj, subI_ok, req_ok, burnShares]
  refine ⟨(), hdl, (), h1, (), a0, (), b0, (), auth_of_signed hau, L1, e1, (), by omega, r, hr, a', ha, b', hb, (), by omega,
    (_, L2), ⟨L2, e2, _, ⟨?_, rfl⟩, rfl⟩, L3, e3, L4, e4, _, ⟨?_, rfl⟩, _, ⟨?_, rfl⟩, rfl⟩
  · simp only [InI128, I128_MIN]; omega
  · have := sA.1; have := hP.a0; simp only [InI128, I128_MIN]; omega
  · have := sB.1; have := hP.b0; simp only [InI128, I128_MIN]; omega

/-- **C75** (stable pool) In every reachable state a holder of `sh` shares who signs and asks
for no more than `query_share(sh)` announces gets exactly that. -/
theorem C75_withdraw_works {me : Addr} {s : Sys} (h0 : Genesis me s) {ts : List Tx}
    (ht : ∀ t ∈ ts, Possible me t) {p : State} (hp : (run me s ts).pool = some p)
    {c : Ctx} {sender : Addr} {sh mA mB a b : Int} {dl : Option Nat} (hself : c.auth me = false)
    (hq : queryShare p sh = .ok (a, b)) (hau : c.signed sender = true) (hdl : ∀ d, dl = some d → c.now ≤ d)
    (h1 : 0 < sh) (h2 : sh ≤ (run me s ts).led.bal p.cfg.shareToken sender)
    (a0 : 0 < mA) (a1 : mA ≤ a) (b0 : 0 < mB) (b1 : mB ≤ b)
    (hfit : ∀ t a, (run me s ts).led.bal t a ≤ I128_MAX) (hT : p.total ≤ I128_MAX)
    (fA : (run me s ts).led.bal p.cfg.tokenA sender + a ≤ I128_MAX)
    (fB : (run me s ts).led.bal p.cfg.tokenB sender + b ≤ I128_MAX) :
    ∃ p' L', withdraw me c p (run me s ts).led sender sh mA mB dl = .ok (p', L', a, b) := by
  have hI := run_keeps ts ht (Phoenix.Stable.genesis_inv h0)
  generalize run me s ts = s' at *
  obtain ⟨o, L⟩ := s'
  simp only at hp
  subst hp
  exact withdraw_of_inv hI hself hq hau hdl h1 h2 a0 a1 b0 b1 hfit hT fA fB

example : ((run 100 (exStart 7 7) exLong).pool.map fun p => queryShare p 10000) = some (.ok (5250, 4750)) ∧
    10000 ≤ (run 100 (exStart 7 7) exLong).led.bal 12 1 := by
  constructor <;> decide +kernel

end Phoenix.Props.Stable
