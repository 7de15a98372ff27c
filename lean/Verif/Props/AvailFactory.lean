import Verif.Props.Deployed
import Mathlib.Data.Nat.Pairing
/-! C116: exactly which calls of factories, routers and traders go through; pools can be created and
contracts initialised whatever happened elsewhere. -/
namespace Phoenix.Props.World
open Phoenix Phoenix.World Phoenix.World.Spec

variable {h : Host} {acct : Accounts} {w0 w : World} {ts : List Tx} {c : Ctx} {addr : Addr → Salt → Addr}

theorem fac_loaded_iff {s : Option Factory.State} {f : Factory.State} : Factory.loaded s = .ok f ↔ s = some f := by
  cases s <;> simp [Factory.loaded]

theorem trd_loaded_iff {s : Option Trader.State} {f : Trader.State} : Trader.loaded s = .ok f ↔ s = some f := by
  cases s <;> simp [Trader.loaded]

theorem stakeInit_iff {s : Stake.State} {a lp m o : Addr} {mb mr : Int} {mc : Nat} :
    (∃ s', Stake.init s a lp mb mr m o mc = .ok s') ↔ s.cfg = none ∧ 0 < mb ∧ 0 < mr ∧ 0 < mc := by
  simp only [Stake.init, bind_ok, req_ok, ok_inj]
  constructor
  · rintro ⟨_, _, h1, _, h2, _, h3, _, h4, -⟩
    exact ⟨h1, by omega, by omega, by omega⟩
  · rintro ⟨h1, h2, h3, h4⟩
    exact ⟨_, (), h1, (), by omega, (), by omega, (), by omega, rfl⟩

theorem initXyk_iff {P : Addr} {i : Info} {owner : Addr} {dec : Nat} {sl mf : Int}
    (hs : ∀ K, w.code K ≠ .stake → w.stake K = Stake.fresh) :
    (∃ w', initXyk h w P i owner dec sl mf = .ok w') ↔
      w.xyk P = none ∧ XykTerms i dec sl mf ∧ w.code (h.shareAddr P i.tokenA i.tokenB) = .none ∧
      w.code (h.stakeAddr P) = .none ∧ h.shareAddr P i.tokenA i.tokenB ≠ h.stakeAddr P := by
  simp only [initXyk, bind_ok, ok_inj, deploy_ok, Prod.exists, Pool.init, req_ok, validateBps_ok, Token.construct,
    Option.isNone_iff_eq_none]
  constructor
  · rintro ⟨_, p, L, ⟨_, h1, _, b1, _, b2, _, b3, _, b4, _, b5, _, b6, _, h7, _, h8, t, ⟨_, h9, -⟩, _, h10, _, h11, _, h12, -⟩,
      w1, ⟨hS, rfl⟩, w2, ⟨hK, rfl⟩, st, hst, -⟩
    simp only at hK
    have n3 : h.shareAddr P i.tokenA i.tokenB ≠ h.stakeAddr P := by
      intro k; rw [← k, upd_same] at hK; simp at hK
    rw [upd_ne _ _ (Ne.symm n3)] at hK
    exact ⟨h1, ⟨⟨h8, h10, h11, by omega, b1, b2, b3, b6, h7⟩, b4, b5, h9⟩, hS, hK, n3⟩
  · rintro ⟨h1, ⟨⟨h8, h10, h11, h12, b1, b2, b3, b6, h7⟩, b4, b5, h9⟩, hS, hK, n3⟩
    obtain ⟨st, hst⟩ := (stakeInit_iff (s := w.stake (h.stakeAddr P)) (a := i.admin) (lp := h.shareAddr P i.tokenA i.tokenB)
      (m := i.manager) (o := owner)).mpr ⟨by rw [hs _ (by rw [hK]; simp)]; rfl, h10, h11, h12⟩
    refine ⟨_, _, _, ⟨(), h1, (), b1, (), b2, (), b3, (), b4, (), b5, (), b6, (), h7, (), h8, _, ⟨(), h9, rfl⟩, (), h10, (), h11, (),
      by omega, rfl⟩, _, ⟨hS, rfl⟩, _, ⟨?_, rfl⟩, st, hst, rfl⟩
    simp only [upd_ne _ _ (Ne.symm n3)]; exact hK

theorem initStable_iff {P : Addr} {i : Info} {owner : Addr} {amp : Nat} {mf : Int}
    (hs : ∀ K, w.code K ≠ .stake → w.stake K = Stake.fresh) :
    (∃ w', initStable h w c P i owner amp mf = .ok w') ↔
      w.stable P = none ∧ StableTerms w i amp mf ∧ w.code (h.shareAddr P i.tokenA i.tokenB) = .none ∧
      w.code (h.stakeAddr P) = .none ∧ h.shareAddr P i.tokenA i.tokenB ≠ h.stakeAddr P := by
  simp only [initStable, bind_ok, ok_inj, deploy_ok, Prod.exists, Stable.init, req_ok, validateBps_ok, Token.construct,
    Option.isNone_iff_eq_none, expect_ok, mul64_ok]
  constructor
  · rintro ⟨_, _, t1, _, t2, p, L, ⟨_, h1, _, b1, _, b2, _, b3, _, b4, _, b6, _, h7, _, h8, t, ⟨_, h9, -⟩, _, h10, _, h11, _, h12,
      _, h13, _, -, -⟩, w1, ⟨hS, rfl⟩, w2, ⟨hK, rfl⟩, st, hst, -⟩
    simp only at hK
    have n3 : h.shareAddr P i.tokenA i.tokenB ≠ h.stakeAddr P := by
      intro k; rw [← k, upd_same] at hK; simp at hK
    rw [upd_ne _ _ (Ne.symm n3)] at hK
    exact ⟨h1, ⟨⟨h8, h10, h11, by omega, b1, b2, b3, b6, h7⟩, b4, ⟨t1, t2⟩, by omega, by omega⟩, hS, hK, n3⟩
  · rintro ⟨h1, ⟨⟨h8, h10, h11, h12, b1, b2, b3, b6, h7⟩, b4, ⟨t1, t2⟩, h9, h13⟩, hS, hK, n3⟩
    obtain ⟨st, hst⟩ := (stakeInit_iff (s := w.stake (h.stakeAddr P)) (a := i.admin) (lp := h.shareAddr P i.tokenA i.tokenB)
      (m := i.manager) (o := owner)).mpr ⟨by rw [hs _ (by rw [hK]; simp)]; rfl, h10, h11, h12⟩
    refine ⟨_, (), t1, (), t2, _, _, ⟨(), h1, (), b1, (), b2, (), b3, (), b4, (), b6, (), h7, (), h8, _, ⟨(), by omega, rfl⟩, (), h10,
      (), h11, (), by omega, (), ⟨by omega, by omega⟩, _, ⟨?_, rfl⟩, rfl⟩, _, ⟨hS, rfl⟩, _, ⟨?_, rfl⟩, st, hst, rfl⟩
    · simp only [U64_LIM]; omega
    · simp only [upd_ne _ _ (Ne.symm n3)]; exact hK

/-- An address derived from a contract is free unless the contract put something there. -/
theorem derived_free (hd : Derives h addr) (hn : NothingDeployed acct addr w0) (I : Inv h acct w)
    (ho : ∀ x, w.code x ≠ .none → Origin h w0 w x) {d : Addr} {s : Salt} (hna : ¬ acct d)
    (n1 : ∀ f a b, w.fac d = some f → s = .pair a b → f.pair a b = none)
    (n2 : ∀ f a, w.fac d = some f → s ≠ .one a)
    (n3 : ∀ a b, PoolFor w d a b → s ≠ .pair a b ∧ s ≠ .empty) : w.code (addr d s) = .none := by
  by_contra hx
  cases ho _ hx with
  | start e => exact e (hn d s hna)
  | pool F f a b hf hp e k =>
    rw [hd.pool] at e
    obtain ⟨rfl, rfl⟩ := hd.inj _ _ _ _ e
    rw [n1 f a b hf rfl] at hp; simp at hp
  | router F f hf hm e k =>
    rw [hd.hop] at e
    obtain ⟨rfl, rfl⟩ := hd.inj _ _ _ _ e
    exact n2 f _ hf rfl
  | share P a b hP hr e k =>
    rw [hd.share] at e
    obtain ⟨rfl, rfl⟩ := hd.inj _ _ _ _ e
    exact (n3 a b hP).1 rfl
  | stake P a b hP hr e k =>
    rw [hd.stake] at e
    obtain ⟨rfl, rfl⟩ := hd.inj _ _ _ _ e
    exact (n3 a b hP).2 rfl

theorem noPool {P a b : Addr} (hx : w.code P = .xyk → w.xyk P = none) (hs : w.code P = .stable → w.stable P = none) :
    ¬ PoolFor w P a b := by
  rintro (⟨h1, p, h2, -⟩ | ⟨h1, p, h2, -⟩)
  · rw [hx h1] at h2; simp at h2
  · rw [hs h1] at h2; simp at h2

theorem noFac (I : Inv h acct w) {F : Addr} {f : Factory.State} (hF : w.code F ≠ .factory) : w.fac F ≠ some f :=
  fun e => hF (I.refs.fac F f e).code

/-- **C116** A pool is created exactly when somebody on the whitelist signs for it, its parameters are
fine and the factory has no pool for these two tokens yet (of either kind): nothing that happened in
other contracts, by anybody, can stand in the way. -/
theorem C116_create_pool (hh : HostOK h acct) (hd : Derives h addr) (g : Genesis acct w0)
    (hn : NothingDeployed acct addr w0) (hp : ∀ y ∈ ts, Possible acct y) {F sender : Addr} {i : Info} {k : Kind}
    {amp : Option Nat} {sl mf : Int} {f : Factory.State} (hf : (run h w0 ts).fac F = some f)
    (hc : Possible acct ⟨c, .create F sender i k amp sl mf⟩) :
    Accepts h (run h w0 ts) c (.create F sender i k amp sl mf) ↔
      Signs c sender ∧ sender ∈ f.whitelist ∧ CreateTerms (run h w0 ts) f i amp sl mf k ∧
        f.pair i.tokenA i.tokenB = none := by
  obtain ⟨I, -⟩ := run_inv hh (Phoenix.World.genesis_inv (h := h) g) hp
  have ho := fun x => C115_origin hh g hp (x := x)
  generalize run h w0 ts = w at *
  have hfo := I.refs.fac F f hf
  have hcF := hfo.code
  have nF := I.core.contracts F (by rw [hcF]; simp)
  generalize ePd : h.poolAddr F i.tokenA i.tokenB = P
  have nP : ¬ acct P := by rw [← ePd]; exact hh.pool _ _ _
  have free : f.pair i.tokenA i.tokenB = none → w.code P = .none ∧ w.code (h.shareAddr P i.tokenA i.tokenB) = .none ∧
      w.code (h.stakeAddr P) = .none := by
    intro hpn
    have hP : w.code P = .none := by
      rw [← ePd, hd.pool]
      refine derived_free hd hn I ho nF (fun f' a b hf' e => ?_) (fun _ _ _ => by simp) (fun a b hPf => ?_)
      · rw [hf] at hf'; cases hf'; cases e; exact hpn
      · exact absurd hPf (noPool (by rw [hcF]; simp) (by rw [hcF]; simp))
    have e1 : ∀ f', w.fac P ≠ some f' := fun f' => noFac I (by rw [hP]; simp)
    have e2 : ∀ a b, ¬ PoolFor w P a b := fun a b => noPool (by rw [hP]; simp) (by rw [hP]; simp)
    refine ⟨hP, ?_, ?_⟩
    · rw [hd.share]
      exact derived_free hd hn I ho nP (fun f' _ _ k => absurd k (e1 f')) (fun f' _ k => absurd k (e1 f'))
        (fun a b k => absurd k (e2 a b))
    · rw [hd.stake]
      exact derived_free hd hn I ho nP (fun f' _ _ k => absurd k (e1 f')) (fun f' _ k => absurd k (e1 f'))
        (fun a b k => absurd k (e2 a b))
  have dist : h.shareAddr P i.tokenA i.tokenB ≠ h.stakeAddr P := by
    rw [hd.share, hd.stake]; intro e; have := (hd.inj _ _ _ _ e).2; simp at this
  have dist2 : P ≠ F → h.shareAddr P i.tokenA i.tokenB ≠ P := by
    rw [← ePd, hd.pool, hd.share]; intro k e; exact k (hd.inj _ _ _ _ e).1
  have dist3 : h.stakeAddr P ≠ P := by
    intro e
    have e1 : addr P .empty = addr F (.pair i.tokenA i.tokenB) := by rw [← hd.stake, ← hd.pool, ePd]; exact e
    have := (hd.inj _ _ _ _ e1).2; simp at this
  have hs1 : ∀ kc : Code, kc ≠ .stake → w.code P = .none → ∀ K, upd w.code P kc K ≠ .stake → w.stake K = Stake.fresh := by
    intro kc _ hP K hK
    apply I.refs.stake
    intro e
    rw [upd_apply] at hK
    split at hK
    · rename_i e2; rw [e2, hP] at e; simp at e
    · exact hK e
  simp only [Accepts, step, bind_ok, ok_inj, expect_ok, Prod.exists, create, requireAuth_ok, outside hc, fac_loaded_iff, hf,
    Option.some.injEq, req_ok, deploy_ok, validateTokenInfo, validatePoolInfo, validateBps_ok, Prod.mk.injEq, ePd]
  constructor
  · rintro ⟨_, _, -, _, _, ⟨_, ha, _, hamp, _, rfl, _, hwl, _, ⟨_, hlt, _, -, -⟩, w1, ⟨hP, rfl⟩, _, b1, _, b2, _, b3, _, b4, _, b5, _, b6,
      w2, h2, -, -⟩, -⟩
    have hpn : f.pair i.tokenA i.tokenB = none := by
      cases hq : f.pair i.tokenA i.tokenB with
      | none => rfl
      | some Q =>
        obtain ⟨-, e1, e2, -⟩ := hfo.pair _ _ Q hq
        rw [ePd] at e1; subst e1
        exact absurd e2 (noPool (by rw [hP]; simp) (by rw [hP]; simp))
    refine ⟨ha, hwl, ?_, hpn⟩
    cases k with
    | xyk =>
      obtain ⟨-, ht, -⟩ := (initXyk_iff (w := { w with code := upd w.code P Kind.xyk.code }) (hs1 _ (by simp [Kind.code]) hP)).mp ⟨_, h2⟩
      exact ht
    | stable =>
      obtain ⟨-, ht, -⟩ := (initStable_iff (w := { w with code := upd w.code P Kind.stable.code }) (hs1 _ (by simp [Kind.code]) hP)).mp ⟨_, h2⟩
      obtain ⟨A, rfl⟩ := Option.isSome_iff_exists.mp (hamp rfl)
      refine ⟨⟨A, rfl, ht.toCommonTerms, ht.default, ?_, ht.decimals, ht.curve⟩, b4, b5⟩
      have k : ∀ t, upd w.code P Kind.stable.code t = .token → w.code t = .token := by
        intro t e
        rw [upd_apply] at e
        split at e
        · simp [Kind.code] at e
        · exact e
      exact ⟨k _ ht.tokens.1, k _ ht.tokens.2⟩
  · rintro ⟨ha, hwl, ht, hpn⟩
    obtain ⟨f1, f2, f3⟩ := free hpn
    have hPF : P ≠ F := by rintro rfl; rw [hcF] at f1; simp at f1
    have com : CommonTerms i mf := by
      cases k with
      | xyk => exact ht.toCommonTerms
      | stable => obtain ⟨⟨A, -, ht⟩, -⟩ := ht; exact ht.toCommonTerms
    have rest : Bps i.maxReferralBps ∧ Bps sl ∧ (k = .stable → amp.isSome = true) := by
      cases k with
      | xyk => exact ⟨ht.referral, ht.default, by simp⟩
      | stable => obtain ⟨⟨A, rfl, -⟩, r1, r2⟩ := ht; exact ⟨r1, r2, by simp⟩
    have hini : ∃ w2, initPool h { w with code := upd w.code P k.code } c F P i f.lpDecimals sl mf amp k = .ok w2 := by
      have c1 : upd w.code P k.code (h.shareAddr P i.tokenA i.tokenB) = .none := by rw [upd_ne _ _ (dist2 hPF)]; exact f2
      have c2 : upd w.code P k.code (h.stakeAddr P) = .none := by rw [upd_ne _ _ dist3]; exact f3
      cases k with
      | xyk =>
        refine (initXyk_iff (w := { w with code := upd w.code P Kind.xyk.code }) (hs1 _ (by simp [Kind.code]) f1)).mpr
          ⟨?_, ht, c1, c2, dist⟩
        cases hx : w.xyk P with
        | none => rfl
        | some p => have := (I.refs.xyk P p hx).1; rw [f1] at this; simp at this
      | stable =>
        obtain ⟨⟨A, rfl, ht⟩, -⟩ := ht
        refine (initStable_iff (w := { w with code := upd w.code P Kind.stable.code }) (hs1 _ (by simp [Kind.code]) f1)).mpr
          ⟨?_, ⟨ht.toCommonTerms, ht.default, ?_, ht.decimals, ht.curve⟩, c1, c2, dist⟩
        · cases hx : w.stable P with
          | none => rfl
          | some p => have := (I.refs.stable P p hx).1; rw [f1] at this; simp at this
        · have k : ∀ t, w.code t = .token → upd w.code P Kind.stable.code t = .token := by
            intro t e; rw [upd_ne _ _ (by rintro rfl; rw [f1] at e; simp at e)]; exact e
          exact ⟨k _ ht.tokens.1, k _ ht.tokens.2⟩
    obtain ⟨w2, h2⟩ := hini
    exact ⟨_, (), hcF, _, _, ⟨(), ha, (), rest.2.2, f, rfl, (), hwl, (), ⟨(), com.order, (), com.minBond, com.minReward⟩, _, ⟨f1, rfl⟩, (),
      com.fee, (), com.maxSlippage, (), com.spread, (), rest.1, (), rest.2.1, (), com.cap, w2, h2, rfl, rfl⟩, rfl⟩

/-- **C116** A factory is initialised exactly once, by anybody, with a non-empty whitelist. -/
theorem C116_factory_initialize (hh : HostOK h acct) (hd : Derives h addr) (g : Genesis acct w0)
    (hn : NothingDeployed acct addr w0) (hp : ∀ y ∈ ts, Possible acct y) {F admin : Addr} {n1 n2 n3 n4 : Nat}
    {wl : List Addr} {dec : Nat} (hF : (run h w0 ts).code F = .factory) :
    Accepts h (run h w0 ts) c (.facInit F admin n1 n2 n3 n4 wl dec) ↔ (run h w0 ts).fac F = none ∧ wl ≠ [] := by
  obtain ⟨I, -⟩ := run_inv hh (Phoenix.World.genesis_inv (h := h) g) hp
  have ho := fun x => C115_origin hh g hp (x := x)
  generalize run h w0 ts = w at *
  simp only [Accepts, step, facInit, bind_ok, ok_inj, expect_ok, req_ok, deploy_ok, Multihop.init, Option.isNone_iff_eq_none]
  constructor
  · rintro ⟨_, _, -, _, h1, _, h2, -⟩
    exact ⟨h1, h2⟩
  · rintro ⟨h1, h2⟩
    have hH : w.code (h.hopAddr F admin) = .none := by
      rw [hd.hop]
      refine derived_free hd hn I ho (I.core.contracts F (by rw [hF]; simp)) (fun f _ _ k => ?_) (fun f _ k => ?_)
        (fun a b k => ?_)
      · rw [h1] at k; simp at k
      · rw [h1] at k; simp at k
      · exact absurd k (noPool (by rw [hF]; simp) (by rw [hF]; simp))
    refine ⟨_, (), hF, (), h1, (), h2, _, ⟨hH, rfl⟩, _, ⟨(), ?_, rfl⟩, rfl⟩
    cases hm : w.hop (h.hopAddr F admin) with
    | none => rfl
    | some m => have := I.refs.hop _ m hm; rw [hH] at this; simp at this

/-- **C116** A pool deployed by hand is initialised exactly once, by anybody, with fine parameters. -/
theorem C116_xyk_initialize (hh : HostOK h acct) (hd : Derives h addr) (g : Genesis acct w0)
    (hn : NothingDeployed acct addr w0) (hp : ∀ y ∈ ts, Possible acct y) {P owner : Addr} {i : Info} {dec : Nat} {sl mf : Int}
    (hP : (run h w0 ts).code P = .xyk) :
    Accepts h (run h w0 ts) c (.xykInit P i owner dec sl mf) ↔
      (run h w0 ts).xyk P = none ∧ XykTerms i dec sl mf := by
  obtain ⟨I, -⟩ := run_inv hh (Phoenix.World.genesis_inv (h := h) g) hp
  have ho := fun x => C115_origin hh g hp (x := x)
  generalize run h w0 ts = w at *
  have nP := I.core.contracts P (by rw [hP]; simp)
  have e1 : ∀ f', w.fac P ≠ some f' := fun f' => noFac I (by rw [hP]; simp)
  have dist : h.shareAddr P i.tokenA i.tokenB ≠ h.stakeAddr P := by
    rw [hd.share, hd.stake]; intro e; have := (hd.inj _ _ _ _ e).2; simp at this
  have key : Accepts h w c (.xykInit P i owner dec sl mf) ↔ ∃ w', initXyk h w P i owner dec sl mf = .ok w' := by
    simp only [Accepts, step, bind_ok, expect_ok, hP, true_and, exists_const]
  rw [key, initXyk_iff I.refs.stake]
  refine ⟨fun k => ⟨k.1, k.2.1⟩, fun ⟨h1, h2⟩ => ⟨h1, h2, ?_, ?_, dist⟩⟩
  · rw [hd.share]
    exact derived_free hd hn I ho nP (fun f' _ _ k => absurd k (e1 f')) (fun f' _ k => absurd k (e1 f'))
        (fun a b k => absurd k (noPool (fun _ => h1) (by rw [hP]; simp)))
  · rw [hd.stake]
    exact derived_free hd hn I ho nP (fun f' _ _ k => absurd k (e1 f')) (fun f' _ k => absurd k (e1 f'))
        (fun a b k => absurd k (noPool (fun _ => h1) (by rw [hP]; simp)))

/-- **C116** The same for stable pools. -/
theorem C116_stable_initialize (hh : HostOK h acct) (hd : Derives h addr) (g : Genesis acct w0)
    (hn : NothingDeployed acct addr w0) (hp : ∀ y ∈ ts, Possible acct y) {P owner : Addr} {i : Info} {amp : Nat} {mf : Int}
    (hP : (run h w0 ts).code P = .stable) :
    Accepts h (run h w0 ts) c (.stableInit P i owner amp mf) ↔
      (run h w0 ts).stable P = none ∧ StableTerms (run h w0 ts) i amp mf := by
  obtain ⟨I, -⟩ := run_inv hh (Phoenix.World.genesis_inv (h := h) g) hp
  have ho := fun x => C115_origin hh g hp (x := x)
  generalize run h w0 ts = w at *
  have nP := I.core.contracts P (by rw [hP]; simp)
  have e1 : ∀ f', w.fac P ≠ some f' := fun f' => noFac I (by rw [hP]; simp)
  have dist : h.shareAddr P i.tokenA i.tokenB ≠ h.stakeAddr P := by
    rw [hd.share, hd.stake]; intro e; have := (hd.inj _ _ _ _ e).2; simp at this
  have key : Accepts h w c (.stableInit P i owner amp mf) ↔ ∃ w', initStable h w c P i owner amp mf = .ok w' := by
    simp only [Accepts, step, bind_ok, expect_ok, hP, true_and, exists_const]
  rw [key, initStable_iff I.refs.stake]
  refine ⟨fun k => ⟨k.1, k.2.1⟩, fun ⟨h1, h2⟩ => ⟨h1, h2, ?_, ?_, dist⟩⟩
  · rw [hd.share]
    exact derived_free hd hn I ho nP (fun f' _ _ k => absurd k (e1 f')) (fun f' _ k => absurd k (e1 f'))
        (fun a b k => absurd k (noPool (by rw [hP]; simp) (fun _ => h1)))
  · rw [hd.stake]
    exact derived_free hd hn I ho nP (fun f' _ _ k => absurd k (e1 f')) (fun f' _ k => absurd k (e1 f'))
        (fun a b k => absurd k (noPool (by rw [hP]; simp) (fun _ => h1)))

/-- **C116** The whitelist of a factory is changed exactly when its admin signs. -/
theorem C116_update_whitelist {F sender : Addr} {add rem : List Addr} {f : Factory.State}
    (hF : (run h w0 ts).code F = .factory) (hf : (run h w0 ts).fac F = some f)
    (hc : Possible acct ⟨c, .whitelist F sender add rem⟩) :
    Accepts h (run h w0 ts) c (.whitelist F sender add rem) ↔ Signs c sender ∧ sender = f.admin := by
  simp only [Accepts, step, bind_ok, ok_inj, expect_ok, hF, fac_loaded_iff, hf, Option.some.injEq, Factory.updateWhitelist,
    requireAuth_ok, req_ok, outside hc]
  constructor
  · rintro ⟨_, _, _, _, rfl, _, ⟨_, h1, _, h2, -⟩, -⟩; exact ⟨h1, h2.symm⟩
  · rintro ⟨h1, h2⟩; exact ⟨_, (), trivial, f, rfl, _, ⟨(), h1, (), h2.symm, rfl⟩, rfl⟩

/-- **C116** The code used for new pools is changed exactly when the admin signs. -/
theorem C116_update_hashes {F : Addr} {lp stk tok : Option Nat} {f : Factory.State}
    (hF : (run h w0 ts).code F = .factory) (hf : (run h w0 ts).fac F = some f)
    (hc : Possible acct ⟨c, .hashes F lp stk tok⟩) :
    Accepts h (run h w0 ts) c (.hashes F lp stk tok) ↔ Signs c f.admin := by
  simp only [Accepts, step, bind_ok, ok_inj, expect_ok, hF, fac_loaded_iff, hf, Option.some.injEq, Factory.updateHashes,
    requireAuth_ok, outside hc]
  constructor
  · rintro ⟨_, _, _, _, rfl, _, ⟨_, h1, -⟩, -⟩; exact h1
  · rintro h1; exact ⟨_, (), trivial, f, rfl, _, ⟨(), h1, rfl⟩, rfl⟩

theorem C116_update {F : Addr} {stb : Nat} {f : Factory.State}
    (hF : (run h w0 ts).code F = .factory) (hf : (run h w0 ts).fac F = some f)
    (hc : Possible acct ⟨c, .facUpdate F stb⟩) :
    Accepts h (run h w0 ts) c (.facUpdate F stb) ↔ Signs c f.admin := by
  simp only [Accepts, step, bind_ok, ok_inj, expect_ok, hF, fac_loaded_iff, hf, Option.some.injEq, Factory.update,
    requireAuth_ok, outside hc]
  constructor
  · rintro ⟨_, _, _, _, rfl, _, ⟨_, h1, -⟩, -⟩; exact h1
  · rintro h1; exact ⟨_, (), trivial, f, rfl, _, ⟨(), h1, rfl⟩, rfl⟩

/-- **C116** A trader is initialised exactly once, with the signature of its future admin. -/
theorem C116_trader_initialize {T admin a b o : Addr} (hT : (run h w0 ts).code T = .trader)
    (hc : Possible acct ⟨c, .trdInit T admin a b o⟩) :
    Accepts h (run h w0 ts) c (.trdInit T admin a b o) ↔ Signs c admin ∧ (run h w0 ts).trd T = none := by
  simp only [Accepts, step, bind_ok, ok_inj, expect_ok, hT, Trader.init, requireAuth_ok, outside hc, req_ok,
    Option.isNone_iff_eq_none]
  constructor
  · rintro ⟨_, _, _, _, ⟨_, h1, _, h2, -⟩, -⟩; exact ⟨h1, h2⟩
  · rintro ⟨h1, h2⟩; exact ⟨_, (), trivial, _, ⟨(), h1, (), h2, rfl⟩, rfl⟩

/-- **C116** The trader pays out exactly when its admin signs and it has the amount of the named token
(its output token if none is named). -/
theorem C116_trader_transfer (hh : HostOK h acct) (g : Genesis acct w0) (hp : ∀ y ∈ ts, Possible acct y)
    {T sender rec : Addr} {x : Int} {tok : Option Addr} {t : Trader.State} (hT : (run h w0 ts).code T = .trader)
    (ht : (run h w0 ts).trd T = some t) (_hk : (run h w0 ts).code (tok.getD t.output) = .token) (hr : rec ≠ T)
    (hc : Possible acct ⟨c, .trdTransfer T sender rec x tok⟩) :
    Accepts h (run h w0 ts) c (.trdTransfer T sender rec x tok) ↔
      Signs c sender ∧ sender = t.admin ∧ CanPay (run h w0 ts) (tok.getD t.output) T rec x := by
  obtain ⟨I, -⟩ := run_inv hh (Phoenix.World.genesis_inv (h := h) g) hp
  generalize run h w0 ts = w at *
  have hrg := I.core.range (I.core.contracts T (by rw [hT]; simp))
  simp only [Accepts, step, bind_ok, ok_inj, expect_ok, hT, trd_loaded_iff, ht, Option.some.injEq, Trader.transfer,
    requireAuth_ok, req_ok, outside hc]
  constructor
  · rintro ⟨_, _, _, _, rfl, L, ⟨_, h1, _, h2, e⟩, -⟩
    exact ⟨h1, h2, ((transfer_iff hrg (Ne.symm hr)).mp ⟨_, e⟩).2⟩
  · rintro ⟨h1, h2, h3⟩
    obtain ⟨L, e⟩ := (transfer_iff (c := c.as T) hrg (Ne.symm hr)).mpr ⟨as_auth_self _ _, h3⟩
    exact ⟨_, (), trivial, t, rfl, L, ⟨(), h1, (), h2, e⟩, rfl⟩

/-! A host that derives addresses without collisions, and a history on it: a factory is initialised, a
pool is created, a trader is set up and gets tokens; then a second pool can be created, of either kind,
but the first one not again. -/
section
open Example

/-- addresses from deployer and salt, all different and at least 100 -/
def exAddr (d : Addr) : Salt → Addr
  | .pair a b => 3 * Nat.pair d (Nat.pair a b) + 100
  | .one a => 3 * Nat.pair d a + 101
  | .empty => 3 * d + 102

def exHost : Host :=
  { poolAddr := fun F a b => exAddr F (.pair a b)
    hopAddr := fun F a => exAddr F (.one a)
    shareAddr := fun P a b => exAddr P (.pair a b)
    stakeAddr := fun P => exAddr P .empty }

theorem exAddr_ge (d : Addr) (s : Salt) : (100 : Nat) ≤ exAddr d s := by
  cases s <;> simp only [exAddr] <;> exact Nat.le_trans (by decide : (100 : Nat) ≤ _) (Nat.le_add_left _ _)

theorem exHost_derives : Derives exHost exAddr := by
  refine ⟨fun _ _ _ => rfl, fun _ _ => rfl, fun _ _ _ => rfl, fun _ => rfl, fun (d : Nat) s (d' : Nat) s' e => ?_⟩
  cases s <;> cases s' <;> simp only [exAddr] at e <;> replace e := id (α := (_ : Nat) = _) e
  · rename_i a b a' b'
    have : Nat.pair d (Nat.pair a b) = Nat.pair d' (Nat.pair a' b') := by omega
    rw [Nat.pair_eq_pair, Nat.pair_eq_pair] at this
    obtain ⟨rfl, rfl, rfl⟩ := this; exact ⟨rfl, rfl⟩
  · omega
  · omega
  · omega
  · rename_i a a'
    have : Nat.pair d a = Nat.pair d' a' := by omega
    rw [Nat.pair_eq_pair] at this
    obtain ⟨rfl, rfl⟩ := this; exact ⟨rfl, rfl⟩
  · omega
  · omega
  · omega
  · exact ⟨show (d : Nat) = d' by have : 3 * d + 102 = 3 * d' + 102 := e; omega, rfl⟩

theorem exHost_ok : HostOK exHost Example.acct := by
  have k : ∀ d s, ¬ Example.acct (exAddr d s) := fun d s (e : exAddr d s < 20) => by
    have := exAddr_ge d s
    exact absurd (Nat.lt_of_lt_of_le e (by decide : (20 : Nat) ≤ 100)) (Nat.not_lt.mpr this)
  refine ⟨fun F a b => k F (.pair a b), fun F a => k F (.one a), fun P a b => k P (.pair a b), fun P => k P .empty, fun (P a b : Nat) => ?_⟩
  have h1 := Nat.right_le_pair P (Nat.pair a b)
  have h2 := Nat.left_le_pair a b
  have h3 := Nat.right_le_pair a b
  simp only [exHost, exAddr]
  constructor
  · intro (e : 3 * Nat.pair P (Nat.pair a b) + 100 = a); omega
  · intro (e : 3 * Nat.pair P (Nat.pair a b) + 100 = b); omega

theorem exStart_nothing : NothingDeployed Example.acct exAddr start := by
  intro d s _
  have hge := exAddr_ge d s
  generalize exAddr d s = x at hge
  have k : ∀ n : Nat, n < 100 → x ≠ n := fun n hn e => absurd hge (Nat.not_le.mpr (e ▸ hn))
  simp only [start]
  rw [if_neg (by rintro (e | e | e) <;> exact k _ (by decide) e), if_neg (k 50 (by decide)), if_neg (k 60 (by decide)),
    if_neg (k 70 (by decide)), if_neg (k 80 (by decide))]

def exDeploys : List Tx :=
  [ ⟨Example.by' 8, .facInit 50 8 1 2 3 4 [8] 7⟩,
    ⟨Example.by' 8, .create 50 8 (info 20 21) .xyk none 100 1000⟩,
    ⟨Example.by' 4, .trdInit 60 4 20 21 22⟩,
    ⟨Example.by' 1, .token 22 (.transfer 1 60 500)⟩ ]

theorem exDeploys_possible : ∀ y ∈ exDeploys, Possible Example.acct y := by
  intro y hy
  simp only [exDeploys, List.mem_cons, List.not_mem_nil, or_false] at hy
  rcases hy with rfl | rfl | rfl | rfl <;> exact possible_by (by decide)

theorem exInfo_common (a b : Addr) (h : a < b) : CommonTerms (info a b) 1000 := by
  refine ⟨h, ?_, ?_, ?_, ?_, ?_, ?_, ?_, ?_⟩ <;> simp [info, Bps]

/-- the factory after the history -/
theorem exFac : ∃ f, (run exHost start exDeploys).fac 50 = some f ∧ f.admin = 8 ∧ f.whitelist = [8] ∧ f.lpDecimals = 7 ∧
    f.pair 20 21 = some (exAddr 50 (.pair 20 21)) ∧ f.pair 21 22 = none := by
  have k : ((run exHost start exDeploys).fac 50).map (fun f => (f.admin, f.whitelist, f.lpDecimals, f.pair 20 21, f.pair 21 22)) =
      some (8, [8], 7, some (exAddr 50 (.pair 20 21)), none) := by decide +kernel
  cases e : (run exHost start exDeploys).fac 50 with
  | none => rw [e] at k; simp at k
  | some f =>
    rw [e] at k
    simp only [Option.map_some, Option.some.injEq, Prod.mk.injEq] at k
    exact ⟨f, rfl, k.1, k.2.1, k.2.2.1, k.2.2.2.1, k.2.2.2.2⟩

example : Accepts exHost (run exHost start exDeploys) (Example.by' 8) (.create 50 8 (info 21 22) .stable (some 100) 100 1000) := by
  obtain ⟨f, hf, e1, e2, e3, e4, e5⟩ := exFac
  rw [C116_create_pool exHost_ok exHost_derives ex_genesis exStart_nothing exDeploys_possible hf (possible_by (by decide))]
  refine ⟨rfl, by rw [e2]; decide, ⟨⟨100, rfl, ⟨exInfo_common _ _ (by decide), ?_, by decide +kernel, by decide +kernel, by decide⟩⟩, ?_, ?_⟩, e5⟩ <;>
    simp [info, Bps]

example : ¬ Accepts exHost (run exHost start exDeploys) (Example.by' 8) (.create 50 8 (info 20 21) .stable (some 100) 100 1000) := by
  obtain ⟨f, hf, e1, e2, e3, e4, e5⟩ := exFac
  rw [C116_create_pool exHost_ok exHost_derives ex_genesis exStart_nothing exDeploys_possible hf (possible_by (by decide))]
  exact fun k => absurd k.2.2.2 (by simp only [info]; rw [e4]; simp)

example : Accepts exHost (run exHost start []) (Example.by' 3) (.facInit 50 8 1 2 3 4 [8] 7) := by
  rw [C116_factory_initialize exHost_ok exHost_derives ex_genesis exStart_nothing (by simp) (by decide)]
  exact ⟨rfl, by simp⟩

example : ¬ Accepts exHost (run exHost start exDeploys) (Example.by' 3) (.whitelist 50 3 [3] []) := by
  obtain ⟨f, hf, e1, e2, e3, e4, e5⟩ := exFac
  rw [C116_update_whitelist (by decide +kernel) hf (possible_by (by decide))]
  exact fun k => absurd k.2 (by rw [e1]; decide)

example : Accepts exHost (run exHost start exDeploys) (Example.by' 8) (.hashes 50 none (some 7) none) := by
  obtain ⟨f, hf, e1, e2, e3, e4, e5⟩ := exFac
  rw [C116_update_hashes (by decide +kernel) hf (possible_by (by decide))]
  rw [e1]; exact rfl

example : Accepts exHost (run exHost start exDeploys) (Example.by' 8) (.facUpdate 50 9) := by
  obtain ⟨f, hf, e1, e2, e3, e4, e5⟩ := exFac
  rw [C116_update (by decide +kernel) hf (possible_by (by decide))]
  rw [e1]; exact rfl

example : ¬ Accepts exHost (run exHost start exDeploys) (Example.by' 5) (.trdInit 60 5 20 21 22) := by
  rw [C116_trader_initialize (by decide +kernel) (possible_by (by decide))]
  exact fun k => absurd k.2 (by decide +kernel)

example : Accepts exHost (run exHost start exDeploys) (Example.by' 4) (.trdTransfer 60 4 2 500 none) ∧
    ¬ Accepts exHost (run exHost start exDeploys) (Example.by' 4) (.trdTransfer 60 4 2 501 none) := by
  have e : (run exHost start exDeploys).trd 60 = some ⟨4, 20, 21, 22⟩ := by decide +kernel
  constructor
  · rw [C116_trader_transfer exHost_ok ex_genesis exDeploys_possible (by decide +kernel) e (by decide +kernel) (by decide)
      (possible_by (by decide))]
    exact ⟨rfl, rfl, by unfold CanPay; decide +kernel⟩
  · rw [C116_trader_transfer exHost_ok ex_genesis exDeploys_possible (by decide +kernel) e (by decide +kernel) (by decide)
      (possible_by (by decide))]
    exact fun k => absurd k.2.2.2.1 (by decide +kernel)

/-- a start with an XYK pool and a stable pool deployed by hand -/
def exStart2 : World := { start with code := upd (upd start.code 90 .xyk) 91 .stable }

theorem exStart2_code (x : Addr) (h1 : x ≠ 90) (h2 : x ≠ 91) : exStart2.code x = start.code x := by
  simp only [exStart2]; rw [upd_ne _ _ h2, upd_ne _ _ h1]

theorem exStart2_genesis : Genesis Example.acct exStart2 := by
  have g := ex_genesis
  refine ⟨g.xyk, g.stable, g.stake, g.vest, g.fac, g.hop, g.trd, g.rew, fun a ha => ?_, g.range, fun t ht => ?_, g.noAllow⟩
  · by_cases h1 : a = 90
    · subst h1; exact (by decide : ¬ ((90 : Nat) < 20))
    · by_cases h2 : a = 91
      · subst h2; exact (by decide : ¬ ((91 : Nat) < 20))
      · exact g.contracts a (by rw [exStart2_code a h1 h2] at ha; exact ha)
  · by_cases h1 : t = 90
    · subst h1; exact g.blank 90 (by decide)
    · by_cases h2 : t = 91
      · subst h2; exact g.blank 91 (by decide)
      · exact g.blank t (by rw [exStart2_code t h1 h2] at ht; exact ht)

theorem exStart2_nothing : NothingDeployed Example.acct exAddr exStart2 := by
  intro d s hd
  have hge := exAddr_ge d s
  have k : ∀ n : Nat, n < 100 → exAddr d s ≠ n := fun n hn e => absurd hge (Nat.not_le.mpr (e ▸ hn))
  rw [exStart2_code _ (k 90 (by decide)) (k 91 (by decide))]
  exact exStart_nothing d s hd

example : Accepts exHost (run exHost exStart2 []) (Example.by' 3) (.xykInit 90 (info 20 21) 5 7 100 1000) := by
  rw [C116_xyk_initialize exHost_ok exHost_derives exStart2_genesis exStart2_nothing (by simp) (by decide)]
  refine ⟨rfl, exInfo_common _ _ (by decide), ?_, ?_, by decide⟩ <;> simp [info, Bps]

example : Accepts exHost (run exHost exStart2 []) (Example.by' 3) (.stableInit 91 (info 20 21) 5 100 1000) := by
  rw [C116_stable_initialize exHost_ok exHost_derives exStart2_genesis exStart2_nothing (by simp) (by decide)]
  refine ⟨rfl, exInfo_common _ _ (by decide), ?_, by decide, by decide, by decide⟩
  simp [info, Bps]

end

end Phoenix.Props.World
