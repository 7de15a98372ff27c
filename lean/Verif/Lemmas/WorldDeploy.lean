import Verif.Lemmas.WorldStep
/-! Preservation of the invariant by deployments (helpers only). -/
namespace Phoenix.World
open Phoenix Phoenix.World.Spec

variable {h : Host} {acct : Accounts} {w w' : World} {c : Ctx}

/-- The ledger after the deployment of a fresh token at `S`. -/
structure FreshAt (L L' : Ledger) (S : Addr) : Prop where
  bal : ∀ t a, L'.bal t a = L.bal t a
  same : ∀ t, t ≠ S → L' t = L t
  allow : ∀ a b, ((L' S).allow a b).amount = 0

theorem freshAt {L : Ledger} {S : Addr} {t : Token} (hb : ∀ a, L.bal S a = 0) (h1 : ∀ a, t.bal a = 0)
    (h2 : ∀ a b, (t.allow a b).amount = 0) : FreshAt L (upd L S t) S := by
  refine ⟨fun u a => ?_, fun u hu => upd_ne _ _ hu, fun a b => by rw [upd_same]; exact h2 a b⟩
  by_cases e : u = S
  · subst e; rw [hb]; simp only [Ledger.bal, upd_same, h1]
  · simp only [Ledger.bal, upd_ne _ _ e]

theorem FreshAt.ledInv {L L' : Ledger} {S a : Addr} (f : FreshAt L L' S) (k : LedInv a L) : LedInv a L' := by
  refine ⟨fun t b => by rw [f.bal]; exact k.nonneg t b, fun t sp => ?_⟩
  by_cases e : t = S
  · subst e; rw [f.allow]
  · rw [f.same t e]; exact k.noAllow t sp

theorem FreshAt.at_ {L L' : Ledger} {S a : Addr} {x : Option Pool.State} {s : Option Stable.State} {k : Stake.State}
    {v : Option Vesting.State} {r : Rewards.State} (f : FreshAt L L' S) (A : At L x s k v r a)
    (hx : ∀ p, x = some p → p.cfg.shareToken ≠ S)
    (hs : ∀ p, s = some p → p.cfg.shareToken ≠ S ∧ p.cfg.tokenA ≠ S ∧ p.cfg.tokenB ≠ S) : At L' x s k v r a := by
  have hL := f.ledInv A.led
  refine ⟨⟨hL, fun p hp => ?_⟩, ⟨hL, fun p hp => ?_⟩, ?_, ⟨hL, fun u hu => A.vest.st u hu, fun u hu K => ?_⟩,
    ⟨hL, fun cfg hc => ?_, A.rew.fresh⟩⟩
  · have P := A.xyk.pool p hp
    refine ⟨P.distinct, ?_, P.a0, ?_, P.b0, ?_, fun T => ?_, ?_, P.cfg⟩
    · simp only; rw [f.same _ (hx p hp)]; exact P.admin
    · simp only; rw [f.bal]; exact P.aB
    · simp only; rw [f.bal]; exact P.bB
    · simp only [f.bal]; exact P.cover T
    · refine P.phase.imp_right fun l => ⟨l.1, ?_, l.2.2⟩
      simp only; rw [f.bal]; exact l.2.1
  · have P := A.stable.pool p hp
    obtain ⟨e1, e2, e3⟩ := hs p hp
    refine ⟨P.distinct, ?_, P.a0, ?_, P.b0, ?_, fun T => ?_, P.t0, P.empty, P.cfg, P.amp, ?_⟩
    · simp only; rw [f.same _ e1]; exact P.admin
    · simp only; rw [f.bal]; exact P.aB
    · simp only; rw [f.bal]; exact P.bB
    · simp only [f.bal]; exact P.cover T
    · have d := P.dec
      refine ⟨?_, ?_, d.m, d.le⟩
      · simp only; rw [f.same _ e2]; exact d.a
      · simp only; rw [f.same _ e3]; exact d.b
  · have S := A.stake
    refine ⟨hL, S.pos, S.sum, S.users, S.noCfg, S.minBond, S.dist, S.nodup, S.meNone, S.small, fun cfg h1 h2 => ?_⟩
    simp only; rw [f.bal]; exact S.lp cfg h1 h2
  · simp only; rw [f.bal]; exact A.vest.backed u hu K
  · simp only; rw [f.bal]; exact A.rew.solv cfg hc

theorem deploy_ok {a : Addr} {k : Code} : deploy w a k = .ok w' ↔
    w.code a = .none ∧ w' = { w with code := upd w.code a k } := by
  unfold deploy
  simp only [bind_ok, req_ok, ok_inj]
  constructor
  · rintro ⟨_, e, rfl⟩; exact ⟨e, rfl⟩
  · rintro ⟨e, rfl⟩; exact ⟨(), e, rfl⟩

theorem deploy_grows {a : Addr} {k : Code} (e : w.code a = .none) : Grows w { w with code := upd w.code a k } := by
  refine { Grows.refl w with code := fun b hb => ?_ }
  refine upd_ne _ _ ?_
  rintro rfl; exact hb e

/-- Code is deployed at a free address. -/
theorem deploy_step {a : Addr} {k : Code} (i : Inv h acct w) (e : w.code a = .none) (hk : k ≠ .none) (ha : ¬ acct a) :
    Inv h acct { w with code := upd w.code a k } := by
  have g := deploy_grows (k := k) e
  refine ⟨⟨fun b hb => ?_, fun t ht => ?_, i.core.typed, fun b hb => i.core.at_ b hb⟩, ?_⟩
  · by_cases eb : b = a
    · subst eb; exact ha
    · simp only [upd_ne _ _ eb] at hb; exact i.core.contracts b hb
  · apply i.core.blank
    by_cases eb : t = a
    · subst eb; exact e
    · simpa only [upd_ne _ _ eb] using ht
  · refine i.refs.grows g (fun Q r hr hn => ?_) (fun Q r hr hn => ?_) (fun Q => .inl rfl) (fun Q r hr hn => ?_)
      (fun F f hf => .inl ⟨f, hf, rfl, rfl, rfl, rfl⟩) (fun Q r hr hn => ?_) (fun Q r hr hn => ?_)
    all_goals (simp only at hr; rw [hn] at hr; simp at hr)

theorem pool_init_stake {self : Addr} {p : Option Pool.State} {L L' : Ledger} {i : Pool.InitArgs} {p' : Pool.State}
    (h : Pool.init self p L i = .ok (p', L')) : p'.cfg.stakeContract = i.stakeContract := by
  unfold Pool.init at h
  simp only [bind_ok, req_ok, validateBps_ok, ok_inj, Token.construct, Prod.mk.injEq] at h
  obtain ⟨_, hp, _, b1, _, b2, _, b3, _, b4, _, b5, _, b6, _, -, _, hlt, t, ⟨_, -, rfl⟩, _, -, _, -, _, -, rfl, rfl⟩ := h
  rfl

theorem stable_init_stake {self : Addr} {c : Ctx} {p : Option Stable.State} {L L' : Ledger} {i : Stable.InitArgs}
    {p' : Stable.State} (h : Stable.init self c p L i = .ok (p', L')) : p'.cfg.stakeContract = i.stakeContract := by
  unfold Stable.init at h
  simp only [bind_ok, req_ok, validateBps_ok, ok_inj, Token.construct, Prod.mk.injEq, mul64_ok] at h
  obtain ⟨_, hp, _, b1, _, b2, _, b3, _, b4, _, b5, _, b6, _, hlt, t, ⟨_, hd, rfl⟩, _, -, _, -, _, -, _, ha, _, ⟨-, rfl⟩,
    rfl, rfl⟩ := h
  rfl

theorem stake_init_cfg {s s' : Stake.State} {admin lp m o : Addr} {mb mr : Int} {mc : Nat}
    (h : Stake.init s admin lp mb mr m o mc = .ok s') :
    s'.cfg = some ⟨lp, mb, mr, m, o, mc⟩ ∧ s'.admin = admin ∧ s.cfg = none := by
  unfold Stake.init at h
  simp only [bind_ok, req_ok, ok_inj] at h
  obtain ⟨_, h1, _, -, _, -, _, -, rfl⟩ := h
  exact ⟨rfl, rfl, h1⟩

/-- A context without any signer. -/
def noone : Ctx := { now := 0, seq := 0, signed := fun _ => false }

theorem stake_init_inv {K lp admin m o : Addr} {mb mr : Int} {mc : Nat} {L : Ledger} {s : Stake.State}
    (h : Stake.init Stake.fresh admin lp mb mr m o mc = .ok s) (hL : LedInv K L) : Stake.InvA K ⟨s, L⟩ := by
  refine Stake.step_invA (t := .stake noone (.init admin lp mb mr m o mc)) (s := ⟨Stake.fresh, L⟩) ?_ rfl (stake_fresh hL)
  simp only [Stake.step, h, bind_ok, ok_inj]
  exact ⟨s, rfl, rfl⟩

theorem pool_init_keeps {P : Addr} {po : Option Pool.State} {L L' : Ledger} {j : Pool.InitArgs} {p : Pool.State}
    (hi : Pool.init P po L j = .ok (p, L')) (fr : j.shareToken ≠ j.tokenA ∧ j.shareToken ≠ j.tokenB)
    (A : Pool.SysInv P ⟨po, L⟩) : Pool.SysInv P ⟨some p, L'⟩ := by
  refine Pool.step_keeps (t := .pool noone (.init j)) (s := ⟨po, L⟩) ?_ ⟨rfl, fr⟩ A
  simp only [Pool.step, hi, bind_ok, ok_inj]; exact ⟨_, rfl, rfl⟩

theorem stable_init_keeps {P : Addr} {po : Option Stable.State} {L L' : Ledger} {j : Stable.InitArgs} {p : Stable.State}
    (hi : Stable.init P c po L j = .ok (p, L')) (fr : j.shareToken ≠ j.tokenA ∧ j.shareToken ≠ j.tokenB)
    (A : Stable.SysInv P ⟨po, L⟩) : Stable.SysInv P ⟨some p, L'⟩ := by
  refine Stable.step_keeps (t := .pool { noone with now := c.now } (.init j)) (s := ⟨po, L⟩) ?_ ⟨rfl, fr⟩ A
  have : Stable.init P { noone with now := c.now } = Stable.init P c := rfl
  simp only [Stable.step, this, hi, bind_ok, ok_inj]; exact ⟨_, rfl, rfl⟩

/-- What the deployment of share token and stake contract has to establish besides the pool. -/
theorem init_core {P S K : Addr} {L' : Ledger} {st : Stake.State} (i : Inv h acct w)
    (hS : w.code S = .none) (hK : upd w.code S .token K = .none) (nS : ¬ acct S) (nK : ¬ acct K) (f : FreshAt w.led L' S)
    (hst : Stake.InvA K ⟨st, L'⟩) (x : Addr → Option Pool.State) (s : Addr → Option Stable.State)
    (hx : ∀ a, a ≠ P → x a = w.xyk a ∧ s a = w.stable a)
    (hP : w.code P ≠ .none) (hAt : At L' (x P) (s P) (w.stake P) (w.vest P) (w.rew P) P) :
    Core acct { w with code := upd (upd w.code S .token) K .stake, led := L', xyk := x, stable := s,
                       stake := upd w.stake K st } := by
  have hKS : K ≠ S := by rintro rfl; rw [upd_same] at hK; simp at hK
  rw [upd_ne _ _ hKS] at hK
  refine ⟨fun a ha => ?_, fun t ht => ?_, fun t a => by simp only; rw [f.bal]; exact i.core.typed t a, fun a ha => ?_⟩
  · by_cases e1 : a = K
    · subst e1; exact nK
    · by_cases e2 : a = S
      · subst e2; exact nS
      · simp only [upd_ne _ _ e1, upd_ne _ _ e2] at ha; exact i.core.contracts a ha
  · have : w.code t = .none := by
      by_cases e1 : t = K
      · subst e1; exact hK
      · by_cases e2 : t = S
        · subst e2; exact hS
        · simpa only [upd_ne _ _ e1, upd_ne _ _ e2] using ht
    intro a; simp only; rw [f.bal]; exact i.core.blank t this a
  · unfold AtW
    simp only
    by_cases e : a = P
    · subst e
      have : a ≠ K := by rintro rfl; exact hP hK
      rw [upd_ne _ _ this]; exact hAt
    · obtain ⟨h1, h2⟩ := hx a e
      rw [h1, h2]
      have A := f.at_ (i.core.at_ a ha) (fun p hp => ?_) (fun p hp => ?_)
      · by_cases e1 : a = K
        · subst e1; rw [upd_same]; exact ⟨A.xyk, A.stable, hst, A.vest, A.rew⟩
        · rw [upd_ne _ _ e1]; exact A
      · have := (i.refs.xyk a p hp).2.1
        rintro k; rw [k, hS] at this; simp at this
      · obtain ⟨-, k1, -, k2, k3⟩ := i.refs.stable a p hp
        refine ⟨?_, ?_, ?_⟩ <;> rintro k
        · rw [k, hS] at k1; simp at k1
        · rw [k, hS] at k2; simp at k2
        · rw [k, hS] at k3; simp at k3

/-- `initialize` of an XYK pool. -/
theorem initXyk_step {P : Addr} {i : Info} {owner : Addr} {dec : Nat} {sl mf : Int} (hh : HostOK h acct)
    (I : Inv h acct w) (hP : w.code P = .xyk) (e : initXyk h w P i owner dec sl mf = .ok w') :
    Inv h acct w' ∧ Grows w w' ∧ w'.fac = w.fac ∧ w'.hop = w.hop ∧
    ∃ p, w'.xyk P = some p ∧ p.cfg.tokenA = i.tokenA ∧ p.cfg.tokenB = i.tokenB ∧ p.admin = i.admin ∧
      (w'.stake p.cfg.stakeContract).cfg = some ⟨p.cfg.shareToken, i.minBond, i.minReward, i.manager, owner, i.maxComplexity⟩ ∧
      (w'.stake p.cfg.stakeContract).admin = i.admin ∧ i.tokenA < i.tokenB ∧ ∃ S, FreshAt w.led w'.led S := by
  unfold initXyk at e
  simp only [bind_ok, ok_inj, deploy_ok, Prod.exists] at e
  obtain ⟨p, L', hi, w1, ⟨hS, rfl⟩, w2, ⟨hK, rfl⟩, st, hst, rfl⟩ := e
  simp only at hK hst
  have nS := hh.share P i.tokenA i.tokenB
  have nK := hh.stake P
  obtain ⟨fr1, fr2⟩ := hh.fresh P i.tokenA i.tokenB
  generalize h.shareAddr P i.tokenA i.tokenB = S at *
  generalize h.stakeAddr P = K at *
  obtain ⟨hn, hlt, hE, hcfg, eA, eB, eS, eAd, t, ta, tb, tal, hL'⟩ := Pool.init_inv hi
  have eK := pool_init_stake hi
  simp only at eA eB eS eK eAd hL' hlt
  have hPn : w.code P ≠ .none := by rw [hP]; simp
  have nP := I.core.contracts P hPn
  have f : FreshAt w.led L' S := by rw [hL']; exact freshAt (I.core.blank S hS) tb tal
  have hKS : K ≠ S := by rintro rfl; rw [upd_same] at hK; simp at hK
  have hK' : w.code K = .none := by rw [upd_ne _ _ hKS] at hK; exact hK
  have hPS : P ≠ S := by rintro rfl; exact hPn hS
  have hPK : P ≠ K := by rintro rfl; exact hPn hK'
  have sK : w.stake K = Stake.fresh := I.refs.stake K (by rw [hK']; simp)
  rw [sK] at hst
  have A := I.core.at_ P nP
  have n2 : w.stable P = none := by
    cases hs : w.stable P with
    | none => rfl
    | some q => have := (I.refs.stable P q hs).1; rw [hP] at this; simp at this
  have n4 : w.vest P = none := by
    cases hs : w.vest P with
    | none => rfl
    | some q => have := I.refs.vest P q hs; rw [hP] at this; simp at this
  have n3 : w.stake P = Stake.fresh := I.refs.stake P (by rw [hP]; simp)
  have n5 : w.rew P = Rewards.fresh := I.refs.rew P (by rw [hP]; simp)
  have S' : Pool.SysInv P ⟨some p, L'⟩ := by
    exact pool_init_keeps hi ⟨fr1, fr2⟩ A.xyk
  have core := init_core (st := st) (L' := L') (P := P) I hS hK nS nK f (stake_init_inv hst (f.ledInv (I.core.at_ K nK).led))
    (upd w.xyk P (some p)) w.stable (fun a ha => ⟨upd_ne _ _ ha, rfl⟩) hPn (by
      rw [upd_same, n2, n3, n4, n5]
      exact ⟨S', stable_none S'.led, stake_fresh S'.led, vest_none S'.led, rew_fresh S'.led⟩)
  obtain ⟨c1, c2, -⟩ := stake_init_cfg hst
  have g : Grows w { w with code := upd (upd w.code S .token) K .stake, led := L', xyk := upd w.xyk P (some p),
                            stake := upd w.stake K st } := by
    refine { Grows.refl w with code := fun b hb => ?_, xyk := fun Q r hr => ?_, stake := fun Q cfg hq => ?_ }
    · have e1 : b ≠ K := by rintro rfl; exact hb hK'
      have e2 : b ≠ S := by rintro rfl; exact hb hS
      simp only [upd_ne _ _ e1, upd_ne _ _ e2]
    · by_cases e : Q = P
      · subst e; rw [hn] at hr; simp at hr
      · simp only [upd_ne _ _ e]; exact ⟨r, hr, rfl, rfl, rfl, rfl⟩
    · by_cases e : Q = K
      · subst e; rw [sK] at hq; simp [Stake.fresh] at hq
      · simp only [upd_ne _ _ e]; exact hq
  refine ⟨⟨core, ?_⟩, g, rfl, rfl, p, upd_same _ _ _, eA, eB, eAd, ?_, ?_, hlt, S, f⟩
  · refine I.refs.grows g (fun Q r hr hn' => ?_) (fun Q r hr hn => ?_) (fun Q => ?_) (fun Q r hr hn => ?_)
      (fun F f hf => .inl ⟨f, hf, rfl, rfl, rfl, rfl⟩) (fun Q r hr hn => ?_) (fun Q r hr hn => ?_)
    · by_cases e : Q = P
      · subst e; simp only [upd_same, Option.some.injEq] at hr; subst hr
        refine ⟨?_, ?_, ?_⟩
        · simp only [upd_ne _ _ hPK, upd_ne _ _ hPS]; exact hP
        · simp only [eS, upd_ne _ _ hKS.symm, upd_same]
        · rw [eS, eK]; refine ⟨upd_same _ _ _, ?_⟩
          simp only [upd_same]; exact ⟨_, c1, rfl⟩
      · simp only [upd_ne _ _ e] at hr; rw [hn'] at hr; simp at hr
    rotate_left
    · by_cases e : Q = K
      · subst e; right; simp only [upd_same]
      · left; simp only [upd_ne _ _ e]
    all_goals (simp only at hr; rw [hn] at hr; simp at hr)
  · simp only [eK, upd_same, eS]; exact c1
  · simp only [eK, upd_same]; exact c2

/-- `initialize` of a stable pool. -/
theorem initStable_step {P : Addr} {i : Info} {owner : Addr} {amp : Nat} {mf : Int} (hh : HostOK h acct)
    (I : Inv h acct w) (hP : w.code P = .stable) (e : initStable h w c P i owner amp mf = .ok w') :
    Inv h acct w' ∧ Grows w w' ∧ w'.fac = w.fac ∧ w'.hop = w.hop ∧
    ∃ p, w'.stable P = some p ∧ p.cfg.tokenA = i.tokenA ∧ p.cfg.tokenB = i.tokenB ∧ p.admin = i.admin ∧
      (w'.stake p.cfg.stakeContract).cfg = some ⟨p.cfg.shareToken, i.minBond, i.minReward, i.manager, owner, i.maxComplexity⟩ ∧
      (w'.stake p.cfg.stakeContract).admin = i.admin ∧ i.tokenA < i.tokenB ∧ ∃ S, FreshAt w.led w'.led S := by
  unfold initStable at e
  simp only [bind_ok, ok_inj, deploy_ok, Prod.exists, expect_ok] at e
  obtain ⟨_, tA, _, tB, p, L', hi, w1, ⟨hS, rfl⟩, w2, ⟨hK, rfl⟩, st, hst, rfl⟩ := e
  simp only at hK hst
  have nS := hh.share P i.tokenA i.tokenB
  have nK := hh.stake P
  obtain ⟨fr1, fr2⟩ := hh.fresh P i.tokenA i.tokenB
  generalize h.shareAddr P i.tokenA i.tokenB = S at *
  generalize h.stakeAddr P = K at *
  obtain ⟨hn, hlt, hE, hcfg, eA, eB, eS, eAd, -, -, -, t, ta, tb, tal, hL'⟩ := Stable.init_inv hi
  have eK := stable_init_stake hi
  simp only at eA eB eS eK eAd hL' hlt
  have hPn : w.code P ≠ .none := by rw [hP]; simp
  have nP := I.core.contracts P hPn
  have f : FreshAt w.led L' S := by rw [hL']; exact freshAt (I.core.blank S hS) tb tal
  have hKS : K ≠ S := by rintro rfl; rw [upd_same] at hK; simp at hK
  have hK' : w.code K = .none := by rw [upd_ne _ _ hKS] at hK; exact hK
  have hPS : P ≠ S := by rintro rfl; exact hPn hS
  have hPK : P ≠ K := by rintro rfl; exact hPn hK'
  have sK : w.stake K = Stake.fresh := I.refs.stake K (by rw [hK']; simp)
  rw [sK] at hst
  have A := I.core.at_ P nP
  have n2 : w.xyk P = none := by
    cases hs : w.xyk P with
    | none => rfl
    | some q => have := (I.refs.xyk P q hs).1; rw [hP] at this; simp at this
  have n4 : w.vest P = none := by
    cases hs : w.vest P with
    | none => rfl
    | some q => have := I.refs.vest P q hs; rw [hP] at this; simp at this
  have n3 : w.stake P = Stake.fresh := I.refs.stake P (by rw [hP]; simp)
  have n5 : w.rew P = Rewards.fresh := I.refs.rew P (by rw [hP]; simp)
  have S' : Stable.SysInv P ⟨some p, L'⟩ := by
    exact stable_init_keeps hi ⟨fr1, fr2⟩ A.stable
  have core := init_core (st := st) (L' := L') (P := P) I hS hK nS nK f (stake_init_inv hst (f.ledInv (I.core.at_ K nK).led))
    w.xyk (upd w.stable P (some p)) (fun a ha => ⟨rfl, upd_ne _ _ ha⟩) hPn (by
      rw [upd_same, n2, n3, n4, n5]
      exact ⟨pool_none S'.led, S', stake_fresh S'.led, vest_none S'.led, rew_fresh S'.led⟩)
  obtain ⟨c1, c2, -⟩ := stake_init_cfg hst
  have g : Grows w { w with code := upd (upd w.code S .token) K .stake, led := L', stable := upd w.stable P (some p),
                            stake := upd w.stake K st } := by
    refine { Grows.refl w with code := fun b hb => ?_, stable := fun Q r hr => ?_, stake := fun Q cfg hq => ?_ }
    · have e1 : b ≠ K := by rintro rfl; exact hb hK'
      have e2 : b ≠ S := by rintro rfl; exact hb hS
      simp only [upd_ne _ _ e1, upd_ne _ _ e2]
    · by_cases e : Q = P
      · subst e; rw [hn] at hr; simp at hr
      · simp only [upd_ne _ _ e]; exact ⟨r, hr, rfl, rfl, rfl, rfl⟩
    · by_cases e : Q = K
      · subst e; rw [sK] at hq; simp [Stake.fresh] at hq
      · simp only [upd_ne _ _ e]; exact hq
  refine ⟨⟨core, ?_⟩, g, rfl, rfl, p, upd_same _ _ _, eA, eB, eAd, ?_, ?_, hlt, S, f⟩
  · refine I.refs.grows g (fun Q r hr hn => ?_) (fun Q r hr hn' => ?_) (fun Q => ?_) (fun Q r hr hn => ?_)
      (fun F f hf => .inl ⟨f, hf, rfl, rfl, rfl, rfl⟩) (fun Q r hr hn => ?_) (fun Q r hr hn => ?_)
    rotate_left
    · by_cases e : Q = P
      · subst e; simp only [upd_same, Option.some.injEq] at hr; subst hr
        refine ⟨?_, ?_, ?_, ?_, ?_⟩
        · simp only [upd_ne _ _ hPK, upd_ne _ _ hPS]; exact hP
        · simp only [eS, upd_ne _ _ hKS.symm, upd_same]
        · rw [eS, eK]; refine ⟨upd_same _ _ _, ?_⟩
          simp only [upd_same]; exact ⟨_, c1, rfl⟩
        · rw [eA]; exact code_keep g tA (by simp)
        · rw [eB]; exact code_keep g tB (by simp)
      · simp only [upd_ne _ _ e] at hr; rw [hn'] at hr; simp at hr
    · by_cases e : Q = K
      · subst e; right; simp only [upd_same]
      · left; simp only [upd_ne _ _ e]
    all_goals (simp only at hr; rw [hn] at hr; simp at hr)
  · simp only [eK, upd_same, eS]; exact c1
  · simp only [eK, upd_same]; exact c2

end Phoenix.World
