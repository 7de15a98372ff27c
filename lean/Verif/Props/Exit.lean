import Verif.Lemmas.Fits
import Verif.Props.AvailStake
import Verif.Props.Position
import Verif.Props.Share
/-!
Property C130: a liquidity provider can leave, in the whole protocol: every stake in the pool's stake
contract can be taken back and the shares can be turned into the tokens that `query_share` announces.
-/
namespace Phoenix.Props.World
open Phoenix Phoenix.World Phoenix.World.Spec

variable {h : Host} {acct : Accounts} {w0 w : World} {c : Ctx} {a : Addr}

theorem genesis_fits (g : Genesis acct w0) : Fits w0 :=
  ⟨fun P p k => by rw [g.xyk] at k; simp at k, fun P p k => by rw [g.stable] at k; simp at k⟩

/-- The stakes `l` of `a` are back in the wallet, and everything else is as before. -/
structure Unstaked (w w' : World) (K s a : Addr) (l : List Stake.Entry) : Prop where
  stakes : (Stake.queryStaked (w'.stake K) a).stakes = []
  share : w'.led.bal s a = w.led.bal s a + (l.map Stake.Entry.amount).sum
  bal : ∀ t b, t ≠ s → w'.led.bal t b = w.led.bal t b
  xyk : w'.xyk = w.xyk
  stable : w'.stable = w.stable

theorem unbond_effect {K s : Addr} {w w1 : World} {e : Stake.Entry} {l : List Stake.Entry} (ne : a ≠ K) (hK : StakeFor w K s)
    (hl : (Stake.queryStaked (w.stake K) a).stakes = e :: l)
    (h1 : step h w c (.stake K (.unbond a e.amount e.ts)) = .ok w1) :
    (Stake.queryStaked (w1.stake K) a).stakes = l ∧ (w1.stake K).dists = (w.stake K).dists ∧
    (w1.stake K).cfg = (w.stake K).cfg ∧ w1.code = w.code ∧ w1.xyk = w.xyk ∧ w1.stable = w.stable ∧
    w1.led.bal s a = w.led.bal s a + e.amount ∧ w1.led.bal s K = w.led.bal s K - e.amount ∧
    ∀ t b, t ≠ s → w1.led.bal t b = w.led.bal t b := by
  obtain ⟨-, cfg, hcfg, rfl⟩ := hK
  simp only [step, Stake.step, bind_ok, ok_inj, Prod.exists] at h1
  obtain ⟨_, -, _, ⟨v, L, h2, rfl⟩, rfl⟩ := h1
  obtain ⟨-, cfg', p, q, k1, k2, k3, -, -, rfl, k4, -⟩ := Stake.unbond_inv h2
  rw [hcfg] at k1; cases k1
  have hl' : (w.stake K |>.info a).stakes = e :: l := hl
  have hpq : p ++ q = l := by
    rw [hl'] at k2
    cases p with
    | nil => simp only [List.nil_append, List.cons.injEq] at k2 ⊢; exact k2.2.symm
    | cons z p =>
      simp only [List.cons_append, List.cons.injEq] at k2
      exact absurd (by rw [← k2.1]; simp) k3
  refine ⟨?_, ?_, ?_, rfl, rfl, rfl, ?_, ?_, ?_⟩
  · simp only [Stake.queryStaked, upd_same]; exact hpq
  · simp only [upd_same]
  · simp only [upd_same]
  · simp only; rw [k4]; simp [Phoenix.Spec.Flow.delta, Ne.symm ne]
  · simp only; rw [k4]; simp [Phoenix.Spec.Flow.delta, ne]; omega
  · intro t b hne; simp only; rw [k4]; simp [Phoenix.Spec.Flow.delta, Ne.symm hne]

theorem unstake (hh : HostOK h acct) (g : Genesis acct w0) {K s : Addr} (ha : acct a) : ∀ {l : List Stake.Entry} {us ts : List Tx},
    (∀ t ∈ ts, Possible acct t) → StakeFor (run h w0 ts) K s → s ∉ ((run h w0 ts).stake K).dists →
    (run h w0 ts).led.bal s a + (run h w0 ts).led.bal s K ≤ I128_MAX →
    (Stake.queryStaked ((run h w0 ts).stake K) a).stakes = l → (∀ t ∈ us, Possible acct t ∧ Signs t.ctx a) →
    us.map Tx.call = l.map (fun e => .stake K (.unbond a e.amount e.ts)) → Unstaked (run h w0 ts) (run h w0 (ts ++ us)) K s a l := by
  intro l
  induction l with
  | nil =>
    intro us ts hp hK hr hm hl hu he
    simp only [List.map_nil, List.map_eq_nil_iff] at he
    subst he
    rw [List.append_nil]
    exact ⟨hl, by simp, fun _ _ _ => rfl, rfl, rfl⟩
  | cons e l ih =>
    intro us ts hp hK hr hm hl hu he
    cases us with
    | nil => simp at he
    | cons t us =>
      simp only [List.map_cons, List.cons.injEq] at he
      obtain ⟨ht, hs⟩ := hu t (by simp)
      obtain ⟨ctx, call⟩ := t
      obtain ⟨he1, he2⟩ := he
      simp only at he1 hs
      subst he1
      obtain ⟨I, -⟩ := run_inv hh (Phoenix.World.genesis_inv (h := h) g) hp
      have nK := I.core.contracts K (by rw [hK.1]; simp)
      have ne : a ≠ K := by rintro rfl; exact nK ha
      obtain ⟨kc, cfg, hcfg, es⟩ := hK
      have hi := (I.core.at_ K nK).stake
      have b0 := hi.mem_le (a := a) (e := e) (by rw [show ((run h w0 ts).stake K).info a = Stake.queryStaked _ a from rfl, hl]; simp)
      have b1 := hi.one_le a
      have b3 := hi.lp cfg hcfg (by rw [es]; exact hr)
      simp only [es] at b0 b1 b3
      obtain ⟨w1, h1⟩ := C113_unbond_always hh g hp kc hcfg (by rw [es]; exact hr) ht hs (by rw [hl]; simp) (by rw [es]; omega)
      have e1 : run h w0 (ts ++ [⟨ctx, .stake K (.unbond a e.amount e.ts)⟩]) = w1 := by
        unfold run
        rw [List.foldl_append]
        simp only [List.foldl_cons, List.foldl_nil, exec]
        show (match step h (run h w0 ts) ctx _ with | .ok w' => w' | .error _ => run h w0 ts) = w1
        rw [h1]
      obtain ⟨q1, q2, q3, q4, q5, q6, q7, q8, q9⟩ := unbond_effect ne ⟨kc, cfg, hcfg, es⟩ hl h1
      have r := ih (us := us) (ts := ts ++ [⟨ctx, .stake K (.unbond a e.amount e.ts)⟩])
        (by
          intro u hu'
          rcases List.mem_append.1 hu' with k | k
          · exact hp u k
          · simp only [List.mem_singleton] at k; subst k; exact ht)
        (by rw [e1]; exact ⟨by rw [q4]; exact kc, cfg, by rw [q3]; exact hcfg, es⟩) (by rw [e1, q2]; exact hr)
        (by rw [e1, q7, q8]; omega) (by rw [e1]; exact q1) (fun u hu' => hu u (by simp [hu'])) he2
      rw [List.append_assoc, List.singleton_append] at r
      rw [e1] at r
      exact ⟨r.stakes, by rw [r.share, q7]; simp; omega, fun t b hne => by rw [r.bal t b hne, q9 t b hne], by rw [r.xyk, q5],
        by rw [r.stable, q6]⟩


theorem xyk_cover (I : Inv h acct w) {P : Addr} {p : Pool.State} (hP : w.xyk P = some p) (ha : acct a) :
    ¬ acct P ∧ ¬ acct p.cfg.stakeContract ∧ Pool.SysInv P ⟨some p, w.led⟩ ∧
      w.led.bal p.cfg.shareToken a + w.led.bal p.cfg.shareToken p.cfg.stakeContract ≤ p.total := by
  obtain ⟨k1, -, k3⟩ := I.refs.xyk P p hP
  have nP := I.core.contracts P (by rw [k1]; simp)
  have nK := I.core.contracts p.cfg.stakeContract (by rw [k3.1]; simp)
  have hI := (I.core.at_ P nP).xyk
  rw [hP] at hI
  have hc := (hI.pool p rfl).cover {a, p.cfg.stakeContract}
  rw [Finset.sum_pair (by rintro rfl; exact nK ha)] at hc
  exact ⟨nP, nK, hI, hc⟩

/-- **C130** (constant product pool) Whoever holds shares can turn them into the tokens that `query_share`
announces, in every reachable state of the protocol and whatever the other contracts have been doing.
The only limits are 128-bit ones: `query_share` must not overflow (see C75) and the new balances must
fit. -/
theorem C130_withdraw_xyk (hh : HostOK h acct) (g : Genesis acct w0) {ts : List Tx} (hp : ∀ t ∈ ts, Possible acct t)
    {P : Addr} {p : Pool.State} (hP : (run h w0 ts).xyk P = some p) {x va vb mA mB : Int} {dl : Option Nat}
    (hc : Possible acct ⟨c, .xyk P (.withdraw a x mA mB dl)⟩) (hs : Signs c a) (hdl : ∀ d, dl = some d → c.now ≤ d)
    (h1 : 0 < x) (h2 : x ≤ (run h w0 ts).led.bal p.cfg.shareToken a) (hq : Pool.queryShare p x = .ok (va, vb))
    (a0 : 0 < mA) (a1 : mA ≤ va) (b0 : 0 < mB) (b1 : mB ≤ vb)
    (fA : (run h w0 ts).led.bal p.cfg.tokenA a + va ≤ I128_MAX) (fB : (run h w0 ts).led.bal p.cfg.tokenB a + vb ≤ I128_MAX) :
    ∃ w', step h (run h w0 ts) c (.xyk P (.withdraw a x mA mB dl)) = .ok w' ∧
      w'.led.bal p.cfg.tokenA a = (run h w0 ts).led.bal p.cfg.tokenA a + va ∧
      w'.led.bal p.cfg.tokenB a = (run h w0 ts).led.bal p.cfg.tokenB a + vb ∧
      w'.led.bal p.cfg.shareToken a = (run h w0 ts).led.bal p.cfg.shareToken a - x := by
  obtain ⟨I, -⟩ := run_inv hh (Phoenix.World.genesis_inv (h := h) g) hp
  have F := run_fits (h := h) (ts := ts) (genesis_fits g)
  generalize run h w0 ts = w at *
  have ha : acct a := hc.2 a hs
  obtain ⟨nP, -, hI, -⟩ := xyk_cover I hP ha
  have hself : c.auth P = false := by
    by_contra k
    exact nP (hc.2 P ((outside hc P).mp (by simpa using k)))
  obtain ⟨p', L', e⟩ := Phoenix.Props.withdraw_of_inv hI (dl := dl) hself hq hs hdl h1 h2 a0 a1 b0 b1 I.core.typed (F.xyk P p hP) fA fB
  have hd := (hI.pool p rfl).distinct
  obtain ⟨d1, d2, d3⟩ := hd
  obtain ⟨-, -, -, -, -, -, -, -, -, -, -, -, -, k, -, -⟩ := Pool.withdraw_inv e hself (hI.pool p rfl).distinct
  have ne : P ≠ a := by rintro rfl; exact nP ha
  refine ⟨{ w with xyk := upd w.xyk P (some p'), led := L' }, ?_, ?_, ?_, ?_⟩
  · simp only [step, Pool.step, bind_ok, ok_inj, Prod.exists]
    exact ⟨(), req_ok.mpr (I.refs.xyk P p hP).1, _, ⟨p, by rw [hP]; rfl, p', L', va, vb, e, rfl⟩, rfl⟩
  · simp only; rw [k]; simp [Phoenix.Spec.Flow.delta, ne, d2, d1.symm]
  · simp only; rw [k]; simp [Phoenix.Spec.Flow.delta, ne, d1, d3]
  · simp only; rw [k]; simp [Phoenix.Spec.Flow.delta, ne, d2.symm, d3.symm]

/-- **C130** (constant product pool) A liquidity provider whose shares are partly or all staked can leave without
anybody else: calls of `unbond` for every stake listed by `query_staked`, then one
`withdraw_liquidity` of everything, all signed only by the provider, go through and pay what
`query_share` announced for the whole position beforehand.  The shares must not be a reward token of
the stake contract. -/
theorem C130_exit_xyk (hh : HostOK h acct) (g : Genesis acct w0) {ts us : List Tx} (hp : ∀ t ∈ ts, Possible acct t)
    {P : Addr} {p : Pool.State} (hP : (run h w0 ts).xyk P = some p)
    (hr : p.cfg.shareToken ∉ ((run h w0 ts).stake p.cfg.stakeContract).dists)
    (hu : ∀ t ∈ us, Possible acct t ∧ Signs t.ctx a)
    (hcall : us.map Tx.call = ((Stake.queryStaked ((run h w0 ts).stake p.cfg.stakeContract) a).stakes).map
      (fun e => .stake p.cfg.stakeContract (.unbond a e.amount e.ts)))
    {va vb mA mB : Int} {dl : Option Nat}
    (hc : Possible acct ⟨c, .xyk P (.withdraw a (position (run h w0 ts) p a) mA mB dl)⟩) (hs : Signs c a)
    (hdl : ∀ d, dl = some d → c.now ≤ d)
    (h1 : 0 < position (run h w0 ts) p a) (hq : Pool.queryShare p (position (run h w0 ts) p a) = .ok (va, vb))
    (a0 : 0 < mA) (a1 : mA ≤ va) (b0 : 0 < mB) (b1 : mB ≤ vb)
    (fA : (run h w0 ts).led.bal p.cfg.tokenA a + va ≤ I128_MAX) (fB : (run h w0 ts).led.bal p.cfg.tokenB a + vb ≤ I128_MAX) :
    ∃ w', step h (run h w0 (ts ++ us)) c (.xyk P (.withdraw a (position (run h w0 ts) p a) mA mB dl)) = .ok w' ∧
      w'.led.bal p.cfg.tokenA a = (run h w0 ts).led.bal p.cfg.tokenA a + va ∧
      w'.led.bal p.cfg.tokenB a = (run h w0 ts).led.bal p.cfg.tokenB a + vb ∧
      w'.led.bal p.cfg.shareToken a = 0 ∧ (Stake.queryStaked (w'.stake p.cfg.stakeContract) a).stakes = [] := by
  obtain ⟨I, -⟩ := run_inv hh (Phoenix.World.genesis_inv (h := h) g) hp
  have F := run_fits (h := h) (ts := ts) (genesis_fits g)
  have ha : acct a := hc.2 a hs
  obtain ⟨nP, nK, hI, hcov⟩ := xyk_cover I hP ha
  obtain ⟨d1, d2, d3⟩ := (hI.pool p rfl).distinct
  have U := unstake hh g ha (us := us) hp ((I.refs.xyk P p hP).2.2) hr (hcov.trans (F.xyk P p hP)) rfl hu hcall
  have hp' : ∀ t ∈ ts ++ us, Possible acct t := by
    intro t ht
    rcases List.mem_append.1 ht with k | k
    · exact hp t k
    · exact (hu t k).1
  have hpos : (run h w0 (ts ++ us)).led.bal p.cfg.shareToken a = position (run h w0 ts) p a := U.share
  obtain ⟨w', e, eA, eB, eS⟩ := C130_withdraw_xyk hh g hp' (P := P) (p := p) (by rw [U.xyk]; exact hP) hc hs hdl h1 hpos.ge hq
    a0 a1 b0 b1 (by rw [U.bal _ _ d2.symm]; exact fA) (by rw [U.bal _ _ d3.symm]; exact fB)
  refine ⟨w', e, by rw [eA, U.bal _ _ d2.symm], by rw [eB, U.bal _ _ d3.symm], by rw [eS, hpos]; omega, ?_⟩
  have : w'.stake = (run h w0 (ts ++ us)).stake := by
    simp only [step, bind_ok, ok_inj] at e
    obtain ⟨_, -, _, -, rfl⟩ := e; rfl
  rw [this]; exact U.stakes

theorem stable_cover (I : Inv h acct w) {P : Addr} {p : Stable.State} (hP : w.stable P = some p) (ha : acct a) :
    ¬ acct P ∧ ¬ acct p.cfg.stakeContract ∧ Stable.SysInv P ⟨some p, w.led⟩ ∧
      w.led.bal p.cfg.shareToken a + w.led.bal p.cfg.shareToken p.cfg.stakeContract ≤ p.total := by
  obtain ⟨k1, -, k3, -⟩ := I.refs.stable P p hP
  have nP := I.core.contracts P (by rw [k1]; simp)
  have nK := I.core.contracts p.cfg.stakeContract (by rw [k3.1]; simp)
  have hI := (I.core.at_ P nP).stable
  rw [hP] at hI
  have hc := (hI.pool p rfl).cover {a, p.cfg.stakeContract}
  rw [Finset.sum_pair (by rintro rfl; exact nK ha)] at hc
  exact ⟨nP, nK, hI, hc⟩

/-- **C130** (stable pool) Whoever holds shares can turn them into the tokens that `query_share`
announces, in every reachable state of the protocol and whatever the other contracts have been doing.
The only limits are 128-bit ones: `query_share` must not overflow (see C75) and the new balances must
fit. -/
theorem C130_withdraw_stable (hh : HostOK h acct) (g : Genesis acct w0) {ts : List Tx} (hp : ∀ t ∈ ts, Possible acct t)
    {P : Addr} {p : Stable.State} (hP : (run h w0 ts).stable P = some p) {x va vb mA mB : Int} {dl : Option Nat}
    (hc : Possible acct ⟨c, .stable P (.withdraw a x mA mB dl)⟩) (hs : Signs c a) (hdl : ∀ d, dl = some d → c.now ≤ d)
    (h1 : 0 < x) (h2 : x ≤ (run h w0 ts).led.bal p.cfg.shareToken a) (hq : Stable.queryShare p x = .ok (va, vb))
    (a0 : 0 < mA) (a1 : mA ≤ va) (b0 : 0 < mB) (b1 : mB ≤ vb)
    (fA : (run h w0 ts).led.bal p.cfg.tokenA a + va ≤ I128_MAX) (fB : (run h w0 ts).led.bal p.cfg.tokenB a + vb ≤ I128_MAX) :
    ∃ w', step h (run h w0 ts) c (.stable P (.withdraw a x mA mB dl)) = .ok w' ∧
      w'.led.bal p.cfg.tokenA a = (run h w0 ts).led.bal p.cfg.tokenA a + va ∧
      w'.led.bal p.cfg.tokenB a = (run h w0 ts).led.bal p.cfg.tokenB a + vb ∧
      w'.led.bal p.cfg.shareToken a = (run h w0 ts).led.bal p.cfg.shareToken a - x := by
  obtain ⟨I, -⟩ := run_inv hh (Phoenix.World.genesis_inv (h := h) g) hp
  have F := run_fits (h := h) (ts := ts) (genesis_fits g)
  generalize run h w0 ts = w at *
  have ha : acct a := hc.2 a hs
  obtain ⟨nP, -, hI, -⟩ := stable_cover I hP ha
  have hself : c.auth P = false := by
    by_contra k
    exact nP (hc.2 P ((outside hc P).mp (by simpa using k)))
  obtain ⟨p', L', e⟩ := Phoenix.Props.Stable.withdraw_of_inv hI (dl := dl) hself hq hs hdl h1 h2 a0 a1 b0 b1 I.core.typed (F.stable P p hP) fA fB
  have hd := (hI.pool p rfl).distinct
  obtain ⟨d1, d2, d3⟩ := hd
  obtain ⟨-, -, -, -, -, -, -, -, -, -, -, -, -, k, -, -⟩ := Stable.withdraw_inv e hself (hI.pool p rfl).distinct
  have ne : P ≠ a := by rintro rfl; exact nP ha
  refine ⟨{ w with stable := upd w.stable P (some p'), led := L' }, ?_, ?_, ?_, ?_⟩
  · simp only [step, Stable.step, bind_ok, ok_inj, Prod.exists]
    exact ⟨(), req_ok.mpr (I.refs.stable P p hP).1, _, ⟨p, by rw [hP]; rfl, p', L', va, vb, e, rfl⟩, rfl⟩
  · simp only; rw [k]; simp [Phoenix.Spec.Flow.delta, ne, d2, d1.symm]
  · simp only; rw [k]; simp [Phoenix.Spec.Flow.delta, ne, d1, d3]
  · simp only; rw [k]; simp [Phoenix.Spec.Flow.delta, ne, d2.symm, d3.symm]

/-- **C130** (stable pool) A liquidity provider whose shares are partly or all staked can leave without
anybody else: calls of `unbond` for every stake listed by `query_staked`, then one
`withdraw_liquidity` of everything, all signed only by the provider, go through and pay what
`query_share` announced for the whole position beforehand.  The shares must not be a reward token of
the stake contract. -/
theorem C130_exit_stable (hh : HostOK h acct) (g : Genesis acct w0) {ts us : List Tx} (hp : ∀ t ∈ ts, Possible acct t)
    {P : Addr} {p : Stable.State} (hP : (run h w0 ts).stable P = some p)
    (hr : p.cfg.shareToken ∉ ((run h w0 ts).stake p.cfg.stakeContract).dists)
    (hu : ∀ t ∈ us, Possible acct t ∧ Signs t.ctx a)
    (hcall : us.map Tx.call = ((Stake.queryStaked ((run h w0 ts).stake p.cfg.stakeContract) a).stakes).map
      (fun e => .stake p.cfg.stakeContract (.unbond a e.amount e.ts)))
    {va vb mA mB : Int} {dl : Option Nat}
    (hc : Possible acct ⟨c, .stable P (.withdraw a (positionStable (run h w0 ts) p a) mA mB dl)⟩) (hs : Signs c a)
    (hdl : ∀ d, dl = some d → c.now ≤ d)
    (h1 : 0 < positionStable (run h w0 ts) p a) (hq : Stable.queryShare p (positionStable (run h w0 ts) p a) = .ok (va, vb))
    (a0 : 0 < mA) (a1 : mA ≤ va) (b0 : 0 < mB) (b1 : mB ≤ vb)
    (fA : (run h w0 ts).led.bal p.cfg.tokenA a + va ≤ I128_MAX) (fB : (run h w0 ts).led.bal p.cfg.tokenB a + vb ≤ I128_MAX) :
    ∃ w', step h (run h w0 (ts ++ us)) c (.stable P (.withdraw a (positionStable (run h w0 ts) p a) mA mB dl)) = .ok w' ∧
      w'.led.bal p.cfg.tokenA a = (run h w0 ts).led.bal p.cfg.tokenA a + va ∧
      w'.led.bal p.cfg.tokenB a = (run h w0 ts).led.bal p.cfg.tokenB a + vb ∧
      w'.led.bal p.cfg.shareToken a = 0 ∧ (Stake.queryStaked (w'.stake p.cfg.stakeContract) a).stakes = [] := by
  obtain ⟨I, -⟩ := run_inv hh (Phoenix.World.genesis_inv (h := h) g) hp
  have F := run_fits (h := h) (ts := ts) (genesis_fits g)
  have ha : acct a := hc.2 a hs
  obtain ⟨nP, nK, hI, hcov⟩ := stable_cover I hP ha
  obtain ⟨d1, d2, d3⟩ := (hI.pool p rfl).distinct
  have U := unstake hh g ha (us := us) hp ((I.refs.stable P p hP).2.2.1) hr (hcov.trans (F.stable P p hP)) rfl hu hcall
  have hp' : ∀ t ∈ ts ++ us, Possible acct t := by
    intro t ht
    rcases List.mem_append.1 ht with k | k
    · exact hp t k
    · exact (hu t k).1
  have hpos : (run h w0 (ts ++ us)).led.bal p.cfg.shareToken a = positionStable (run h w0 ts) p a := U.share
  obtain ⟨w', e, eA, eB, eS⟩ := C130_withdraw_stable hh g hp' (P := P) (p := p) (by rw [U.stable]; exact hP) hc hs hdl h1 hpos.ge hq
    a0 a1 b0 b1 (by rw [U.bal _ _ d2.symm]; exact fA) (by rw [U.bal _ _ d3.symm]; exact fB)
  refine ⟨w', e, by rw [eA, U.bal _ _ d2.symm], by rw [eB, U.bal _ _ d3.symm], by rw [eS, hpos]; omega, ?_⟩
  have : w'.stake = (run h w0 (ts ++ us)).stake := by
    simp only [step, bind_ok, ok_inj] at e
    obtain ⟨_, -, _, -, rfl⟩ := e; rfl
  rw [this]; exact U.stakes

/-- what account 1 does to leave the pool of the example world in which it has staked 400000 of its shares -/
def exLeave : List Tx := [⟨Example.by' 1, .stake 20602021 (.unbond 1 400000 10)⟩]

/-- it gets 999292 and 1998585 of the 1000000 and 2000000 deposited (1000 shares are locked in the pool) -/
example : (step Example.host (run Example.host exP exLeave) (Example.by' 1)
      (.xyk Example.pool1 (.withdraw 1 1413213 999292 1998585 (some 11)))).toOption.map
        (fun w => (w.led.bal 20 1, w.led.bal 21 1, w.led.bal 10602062 1)) = some (4999292, 3998585, 0) ∧
    (exP.led.bal 20 1, exP.led.bal 21 1) = (4000000, 2000000) ∧
    (exP.xyk Example.pool1).map (fun p => (p.cfg.shareToken, p.cfg.stakeContract, position exP p 1)) =
      some (10602062, 20602021, 1413213) ∧
    (exP.xyk Example.pool1).map (fun p => (Pool.queryShare p (position exP p 1)).toOption) = some (some (999292, 1998585)) ∧
    (Stake.queryStaked (exP.stake 20602021) 1).stakes = [⟨400000, 10⟩] ∧ 10602062 ∉ (exP.stake 20602021).dists ∧
    (∀ t ∈ exLeave, Possible Example.acct t ∧ Signs t.ctx 1) := by
  refine ⟨by decide +kernel, by decide +kernel, by decide +kernel, by decide +kernel, by decide +kernel, by decide +kernel, ?_⟩
  intro t ht
  simp only [exLeave, List.mem_singleton] at ht
  subst ht
  exact ⟨possible_by (by decide), rfl⟩

end Phoenix.Props.World
