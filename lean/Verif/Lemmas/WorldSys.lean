import Verif.Lemmas.WorldDeploy
/-! The invariant of the whole protocol holds in every history (helpers only). -/
namespace Phoenix.World
open Phoenix Phoenix.World.Spec

variable {h : Host} {acct : Accounts} {w w' : World} {c : Ctx}

/-- `initialize` of a factory. -/
theorem facInit_step {F admin : Addr} {a b d e : Nat} {wl : List Addr} {dec : Nat} (hh : HostOK h acct)
    (I : Inv h acct w) (hF : w.code F = .factory) (hk : facInit h w F admin a b d e wl dec = .ok w') :
    Inv h acct w' ∧ Grows w w' := by
  unfold facInit at hk
  simp only [bind_ok, req_ok, ok_inj, deploy_ok, Multihop.init] at hk
  obtain ⟨_, h1, _, h2, w1, ⟨h3, rfl⟩, m, ⟨_, h4, rfl⟩, rfl⟩ := hk
  simp only at h4
  have nH := hh.hop F admin
  generalize h.hopAddr F admin = H at *
  have I1 := deploy_step (k := .multihop) I h3 (by simp) nH
  have g1 := deploy_grows (k := .multihop) h3
  have hFH : F ≠ H := by rintro rfl; rw [h3] at hF; simp at hF
  have hfn : w.fac F = none := by simpa using h1
  have hhn : w.hop H = none := by simpa using h4
  have g : Grows w { w with
      code := upd w.code H .multihop
      hop := upd w.hop H (some ⟨admin, F⟩)
      fac := upd w.fac F (some
        { admin := admin, multihop := H, lpHash := a, stableHash := b, stakeHash := d, tokenHash := e,
          whitelist := wl, lpDecimals := dec, pools := [], pair := fun _ _ => none }) } := by
    refine { g1 with fac := fun Q r hr => ?_, hop := fun Q r hr => ?_ }
    · by_cases eQ : Q = F
      · subst eQ; rw [hfn] at hr; simp at hr
      · simp only [upd_ne _ _ eQ]; exact ⟨r, hr, rfl, rfl, fun _ _ _ k => k, List.prefix_refl _⟩
    · by_cases eQ : Q = H
      · subst eQ; rw [hhn] at hr; simp at hr
      · simp only [upd_ne _ _ eQ]; exact hr
  refine ⟨⟨⟨I1.core.contracts, I1.core.blank, I1.core.typed, I1.core.at_⟩, ?_⟩, g⟩
  refine I.refs.grows g (fun Q r hr hn => ?_) (fun Q r hr hn => ?_) (fun Q => .inl rfl) (fun Q r hr hn => ?_)
      (fun Q f hf => ?_) (fun Q r hr hn => ?_) (fun Q r hr hn => ?_)
  · simp only at hr; rw [hn] at hr; simp at hr
  · simp only at hr; rw [hn] at hr; simp at hr
  · simp only at hr; rw [hn] at hr; simp at hr
  · by_cases eQ : Q = F
    · subst eQ
      simp only [upd_same, Option.some.injEq] at hf
      subst hf
      refine .inr ⟨?_, ⟨?_, ?_⟩, ?_, ?_, ?_⟩
      · simp only [upd_ne _ _ hFH]; exact hF
      · simp only [upd_same]
      · simp only [upd_same]
      · intro x y P k; simp at k
      · intro P k; simp at k
      · simp
    · simp only [upd_ne _ _ eQ] at hf
      exact .inl ⟨f, hf, rfl, rfl, rfl, rfl⟩
  · by_cases eQ : Q = H
    · subst eQ; simp only [upd_same]
    · simp only [upd_ne _ _ eQ] at hr; rw [hn] at hr; simp at hr
  · simp only at hr; rw [hn] at hr; simp at hr

/-- What `create_liquidity_pool` does. -/
structure Created (h : Host) (w w' : World) (F : Addr) (f : Factory.State) (i : Info) (P : Addr) : Prop where
  old : w.fac F = some f
  addr : P = h.poolAddr F i.tokenA i.tokenB
  free : w.code P = .none
  lt : i.tokenA < i.tokenB
  fac : w'.fac = upd w.fac F (some
          { f with pools := f.pools ++ [P],
                   pair := upd f.pair i.tokenA (upd (f.pair i.tokenA) i.tokenB (some P)) })
  pool : PoolFor w' P i.tokenA i.tokenB
  wired : Wired w' F P i
  fresh : ∃ S, FreshAt w.led w'.led S

theorem wired_xyk {F P : Addr} {i : Info} {p : Pool.State} (I : Inv h acct w) (nP : ¬ acct P) (hp : w.xyk P = some p)
    (hc : (w.stake p.cfg.stakeContract).cfg =
      some ⟨p.cfg.shareToken, i.minBond, i.minReward, i.manager, F, i.maxComplexity⟩) : Wired w F P i := by
  obtain ⟨k1, k2, k3, -⟩ := I.refs.xyk P p hp
  exact ⟨p.cfg.shareToken, p.cfg.stakeContract, by unfold poolRefs poolInfo; rw [k1, hp]; rfl, k2,
    ((I.core.at_ P nP).xyk.pool p hp).admin, k3, hc⟩

theorem wired_stable {F P : Addr} {i : Info} {p : Stable.State} (I : Inv h acct w) (nP : ¬ acct P)
    (hp : w.stable P = some p) (hc : (w.stake p.cfg.stakeContract).cfg =
      some ⟨p.cfg.shareToken, i.minBond, i.minReward, i.manager, F, i.maxComplexity⟩) : Wired w F P i := by
  obtain ⟨k1, k2, k3, -⟩ := I.refs.stable P p hp
  exact ⟨p.cfg.shareToken, p.cfg.stakeContract, by unfold poolRefs poolInfo; rw [k1, hp]; rfl, k2,
    ((I.core.at_ P nP).stable.pool p hp).admin, k3.1, hc⟩

theorem wired_grows {F P : Addr} {i : Info} (I : Inv h acct w) (I' : Inv h acct w') (g : Grows w w')
    (k : Wired w F P i) : Wired w' F P i := by
  obtain ⟨share, stk, h1, h2, h3, h4, h5⟩ := k
  have nP : ¬ acct P := I.core.contracts P (by
    intro e; unfold poolRefs poolInfo at h1; rw [e] at h1; simp [bind_ok] at h1)
  unfold poolRefs at h1
  simp only [bind_ok, ok_inj, Prod.mk.injEq] at h1
  obtain ⟨i0, h1, e1, e2⟩ := h1
  unfold poolInfo at h1
  split at h1
  · simp only [bind_ok, ok_inj] at h1
    obtain ⟨p, hp, rfl⟩ := h1
    subst e1 e2
    obtain ⟨q, hq, e1, e2, e3, e4⟩ := g.xyk P p (pool_loaded hp)
    refine wired_xyk I' nP hq ?_
    rw [e3, e4]; exact g.stake _ _ h5
  · simp only [bind_ok, ok_inj] at h1
    obtain ⟨p, hp, rfl⟩ := h1
    subst e1 e2
    obtain ⟨q, hq, e1, e2, e3, e4⟩ := g.stable P p (stable_loaded hp)
    refine wired_stable I' nP hq ?_
    rw [e3, e4]; exact g.stake _ _ h5
  · simp at h1

theorem create_step {F sender : Addr} {i : Info} {k : Kind} {amp : Option Nat} {sl mf : Int} {P : Addr}
    (hh : HostOK h acct) (I : Inv h acct w) (hF : w.code F = .factory)
    (e : create h w c F sender i k amp sl mf = .ok (w', P)) :
    Inv h acct w' ∧ Grows w w' ∧ ∃ f, Created h w w' F f i P ∧ c.auth sender = true ∧ sender ∈ f.whitelist := by
  unfold create at e
  simp only [bind_ok, req_ok, ok_inj, requireAuth_ok, deploy_ok, validateTokenInfo, Prod.mk.injEq] at e
  obtain ⟨_, ha, _, -, f, hf, _, hwl, _, ⟨_, hlt, _, -, -⟩, w1, ⟨hP, rfl⟩, _, -, _, -, _, -, _, -, _, -, _, -, w2, hi, rfl, rfl⟩ := e
  have hf := fac_loaded hf
  have nP := hh.pool F i.tokenA i.tokenB
  have ead : h.poolAddr F i.tokenA i.tokenB = h.poolAddr F i.tokenA i.tokenB := rfl
  generalize hPe : h.poolAddr F i.tokenA i.tokenB = P at *
  have hkn : k.code ≠ .none := by cases k <;> simp [Kind.code]
  have I1 := deploy_step (k := k.code) I hP hkn nP
  have g1 := deploy_grows (k := k.code) hP
  have main : Inv h acct w2 ∧ Grows { w with code := upd w.code P k.code } w2 ∧ w2.fac = w.fac ∧ w2.hop = w.hop ∧
      PoolFor w2 P i.tokenA i.tokenB ∧ Wired w2 F P i ∧ ∃ S, FreshAt w.led w2.led S := by
    cases k with
    | xyk =>
      obtain ⟨a1, a2, a3, a4, p, a5, a6, a7, -, a8, -, -, fr⟩ := initXyk_step hh I1 (by simp [Kind.code, upd_same]) hi
      exact ⟨a1, a2, a3, a4, .inl ⟨code_keep a2 (k := .xyk) (by simp [Kind.code, upd_same]) (by simp), p, a5, a6, a7⟩, wired_xyk a1 nP a5 a8, fr⟩
    | stable =>
      obtain ⟨a1, a2, a3, a4, p, a5, a6, a7, -, a8, -, -, fr⟩ := initStable_step hh I1 (by simp [Kind.code, upd_same]) hi
      exact ⟨a1, a2, a3, a4, .inr ⟨code_keep a2 (k := .stable) (by simp [Kind.code, upd_same]) (by simp), p, a5, a6, a7⟩, wired_stable a1 nP a5 a8, fr⟩
  obtain ⟨I2, g2, ef, eh, hpool, hwi, fr⟩ := main
  have g12 := g1.trans g2
  have hfo := I.refs.fac F f hf
  have hnp : P ∉ f.pools := by
    intro hmem
    obtain ⟨x, y, hxy⟩ := hfo.pools P hmem
    obtain ⟨-, -, hpf, -⟩ := hfo.pair x y P hxy
    rcases hpf with ⟨k, -⟩ | ⟨k, -⟩ <;> rw [hP] at k <;> simp at k
  have hpn : f.pair i.tokenA i.tokenB = none := by
    cases hq : f.pair i.tokenA i.tokenB with
    | none => rfl
    | some Q =>
      obtain ⟨-, e1, -, e2⟩ := hfo.pair _ _ Q hq
      rw [hPe] at e1; subst e1; exact absurd e2 hnp
  have hpo : PoolFor { w2 with fac := upd w2.fac F (some
          { f with pools := f.pools ++ [P],
                   pair := upd f.pair i.tokenA (upd (f.pair i.tokenA) i.tokenB (some P)) }) } P i.tokenA i.tokenB := hpool
  have g3 : Grows w2 { w2 with fac := upd w2.fac F (some
          { f with pools := f.pools ++ [P],
                   pair := upd f.pair i.tokenA (upd (f.pair i.tokenA) i.tokenB (some P)) }) } := by
    refine { Grows.refl w2 with fac := fun Q r hr => ?_ }
    by_cases eQ : Q = F
    · subst eQ
      rw [ef, hf] at hr; cases hr
      refine ⟨_, upd_same _ _ _, rfl, rfl, fun x y R hxy => ?_, List.prefix_append _ _⟩
      simp only [upd_apply]
      by_cases e1 : x = i.tokenA
      · subst e1
        by_cases e2 : y = i.tokenB
        · subst e2; rw [hpn] at hxy; simp at hxy
        · simp only [if_true, upd_apply, e2, if_false]; exact hxy
      · simp only [e1, if_false]; exact hxy
    · simp only [upd_ne _ _ eQ]; exact ⟨r, hr, rfl, rfl, fun _ _ _ k => k, List.prefix_refl _⟩
  refine ⟨⟨⟨I2.core.contracts, I2.core.blank, I2.core.typed, I2.core.at_⟩, ?_⟩, g12.trans g3, f,
    ⟨hf, hPe.symm, hP, hlt, by simp only [ef], hpo, hwi, fr⟩, ha, hwl⟩
  refine I2.refs.grows g3 (fun Q r hr hn => ?_) (fun Q r hr hn => ?_) (fun Q => .inl rfl) (fun Q r hr hn => ?_)
      (fun Q f' hf' => ?_) (fun Q r hr hn => ?_) (fun Q r hr hn => ?_)
  · simp only at hr; rw [hn] at hr; simp at hr
  · simp only at hr; rw [hn] at hr; simp at hr
  · simp only at hr; rw [hn] at hr; simp at hr
  · by_cases eQ : Q = F
    · subst eQ
      simp only [upd_same, Option.some.injEq] at hf'
      subst hf'
      have hfo2 := I2.refs.fac Q f (by rw [ef]; exact hf)
      refine .inr ⟨hfo2.code, hfo2.hop, fun x y R hxy => ?_, fun R hR => ?_, ?_⟩
      · simp only [upd_apply] at hxy
        by_cases e1 : x = i.tokenA
        · subst e1
          by_cases e2 : y = i.tokenB
          · subst e2
            simp only [if_true, upd_same, Option.some.injEq] at hxy
            subst hxy
            exact ⟨hlt, hPe.symm, hpo, by simp⟩
          · simp only [if_true, upd_apply, e2, if_false] at hxy
            obtain ⟨b1, b2, b3, b4⟩ := hfo2.pair _ y R hxy
            exact ⟨b1, b2, b3, by simp [b4]⟩
        · simp only [e1, if_false] at hxy
          obtain ⟨b1, b2, b3, b4⟩ := hfo2.pair x y R hxy
          exact ⟨b1, b2, b3, by simp [b4]⟩
      · rcases List.mem_append.mp hR with hR | hR
        · obtain ⟨x, y, hxy⟩ := hfo2.pools R hR
          refine ⟨x, y, ?_⟩
          simp only [upd_apply]
          by_cases e1 : x = i.tokenA
          · subst e1
            by_cases e2 : y = i.tokenB
            · subst e2; rw [hpn] at hxy; simp at hxy
            · simp only [if_true, upd_apply, e2, if_false]; exact hxy
          · simp only [e1, if_false]; exact hxy
        · simp only [List.mem_singleton] at hR
          subst hR
          exact ⟨i.tokenA, i.tokenB, by simp [upd_same]⟩
      · rw [List.nodup_append]
        refine ⟨hfo2.nodup, by simp, ?_⟩
        intro x hx y hy
        simp only [List.mem_singleton] at hy
        rintro rfl; subst hy; exact hnp hx
    · simp only [upd_ne _ _ eQ] at hf'
      exact .inl ⟨f', hf', rfl, rfl, rfl, rfl⟩
  · simp only at hr; rw [hn] at hr; simp at hr
  · simp only at hr; rw [hn] at hr; simp at hr

/-- The factory changes its own settings. -/
theorem fac_step {F : Addr} {f g : Factory.State} (I : Inv h acct w) (hf : w.fac F = some f) (ea : g.admin = f.admin)
    (em : g.multihop = f.multihop) (e1 : g.pair = f.pair) (e2 : g.pools = f.pools) :
    Inv h acct { w with fac := upd w.fac F (some g) } ∧ Grows w { w with fac := upd w.fac F (some g) } := by
  have gr : Grows w { w with fac := upd w.fac F (some g) } := by
    refine { Grows.refl w with fac := fun Q r hr => ?_ }
    by_cases eQ : Q = F
    · subst eQ
      rw [hf] at hr; cases hr
      exact ⟨g, upd_same _ _ _, ea, em, by rw [e1]; exact fun _ _ _ k => k, by rw [e2]⟩
    · simp only [upd_ne _ _ eQ]; exact ⟨r, hr, rfl, rfl, fun _ _ _ k => k, List.prefix_refl _⟩
  refine ⟨⟨⟨I.core.contracts, I.core.blank, I.core.typed, I.core.at_⟩, ?_⟩, gr⟩
  refine I.refs.grows gr (fun Q r hr hn => ?_) (fun Q r hr hn => ?_) (fun Q => .inl rfl) (fun Q r hr hn => ?_)
      (fun Q f' hf' => ?_) (fun Q r hr hn => ?_) (fun Q r hr hn => ?_)
  rotate_left 3
  · left
    by_cases eQ : Q = F
    · subst eQ
      simp only [upd_same, Option.some.injEq] at hf'
      subst hf'
      exact ⟨f, hf, ea, em, e1, e2⟩
    · simp only [upd_ne _ _ eQ] at hf'
      exact ⟨f', hf', rfl, rfl, rfl, rfl⟩
  all_goals (simp only at hr; rw [hn] at hr; simp at hr)

theorem hop_step {H : Addr} {m : Multihop.State} (I : Inv h acct w) (hH : w.code H = .multihop) (hn : w.hop H = none) :
    Inv h acct { w with hop := upd w.hop H (some m) } ∧ Grows w { w with hop := upd w.hop H (some m) } := by
  have gr : Grows w { w with hop := upd w.hop H (some m) } := by
    refine { Grows.refl w with hop := fun Q r hr => ?_ }
    by_cases eQ : Q = H
    · subst eQ; rw [hn] at hr; simp at hr
    · simp only [upd_ne _ _ eQ]; exact hr
  refine ⟨⟨⟨I.core.contracts, I.core.blank, I.core.typed, I.core.at_⟩, ?_⟩, gr⟩
  refine I.refs.grows gr (fun Q r hr hn => ?_) (fun Q r hr hn => ?_) (fun Q => .inl rfl) (fun Q r hr hn => ?_)
      (fun Q f hf => .inl ⟨f, hf, rfl, rfl, rfl, rfl⟩) (fun Q r hr hn' => ?_) (fun Q r hr hn => ?_)
  rotate_left 3
  · by_cases eQ : Q = H
    · subst eQ; exact hH
    · simp only [upd_ne _ _ eQ] at hr; rw [hn'] at hr; simp at hr
  all_goals (simp only at hr; rw [hn] at hr; simp at hr)

theorem trd_step {H : Addr} {m : Trader.State} (I : Inv h acct w) (hH : w.code H = .trader) (hn : w.trd H = none) :
    Inv h acct { w with trd := upd w.trd H (some m) } ∧ Grows w { w with trd := upd w.trd H (some m) } := by
  have gr : Grows w { w with trd := upd w.trd H (some m) } := by
    refine { Grows.refl w with trd := fun Q r hr => ?_ }
    by_cases eQ : Q = H
    · subst eQ; rw [hn] at hr; simp at hr
    · simp only [upd_ne _ _ eQ]; exact hr
  refine ⟨⟨⟨I.core.contracts, I.core.blank, I.core.typed, I.core.at_⟩, ?_⟩, gr⟩
  refine I.refs.grows gr (fun Q r hr hn => ?_) (fun Q r hr hn => ?_) (fun Q => .inl rfl) (fun Q r hr hn => ?_)
      (fun Q f hf => .inl ⟨f, hf, rfl, rfl, rfl, rfl⟩) (fun Q r hr hn => ?_) (fun Q r hr hn' => ?_)
  rotate_left 4
  · by_cases eQ : Q = H
    · subst eQ; exact hH
    · simp only [upd_ne _ _ eQ] at hr; rw [hn'] at hr; simp at hr
  all_goals (simp only at hr; rw [hn] at hr; simp at hr)

/-- A swap made by another contract (or by an account through `c`). -/
theorem poolSwap_step {P sender offer : Addr} {x r : Int} {mi sp mf : Option Int} {dl : Option Nat} (I : Inv h acct w)
    (hc : Signed acct c) (hi : c.invoker ≠ some P) (e : poolSwap w c P sender offer x mi sp dl mf = .ok (w', r)) :
    Inv h acct w' ∧ Grows w w' := by
  unfold poolSwap at e
  split at e
  · rename_i hP
    simp only [bind_ok, ok_inj, Prod.exists, Prod.mk.injEq] at e
    obtain ⟨p, hp, p', L, r', hk, rfl, rfl⟩ := e
    refine xyk_step (k := .swap sender offer x mi sp dl mf) (s' := ⟨some p', L⟩) I hc hP hi (by simp) ?_
    simp only [Pool.step, bind_ok, ok_inj, Prod.exists]
    exact ⟨p, hp, p', L, r', hk, rfl⟩
  · rename_i hP
    simp only [bind_ok, ok_inj, Prod.exists, Prod.mk.injEq] at e
    obtain ⟨p, hp, p', L, r', hk, rfl, rfl⟩ := e
    refine stable_step (k := .swap sender offer x mi sp dl mf) (s' := ⟨some p', L⟩) I hc hP hi (by simp) ?_
    simp only [Stable.step, bind_ok, ok_inj, Prod.exists]
    exact ⟨p, hp, p', L, r', hk, rfl⟩
  · simp at e

theorem poolSwap_code {P sender offer : Addr} {x r : Int} {mi sp mf : Option Int} {dl : Option Nat}
    (e : poolSwap w c P sender offer x mi sp dl mf = .ok (w', r)) : w.code P = .xyk ∨ w.code P = .stable := by
  unfold poolSwap at e
  split at e
  · left; assumption
  · right; assumption
  · simp at e

theorem hopLoop_step {H F recipient : Addr} {sp mf : Option Int} {dl : Option Nat} : ∀ {ops : List Multihop.Op}
    {w w' : World} {x r : Int}, Inv h acct w → Signed acct c → w.code H = .multihop →
    hopLoop w (c.as H) F recipient sp dl mf ops x = .ok (w', r) → Inv h acct w' ∧ Grows w w'
  | [], w, w', x, r, I, hc, hH, e => by
    simp only [hopLoop, ok_inj, Prod.mk.injEq] at e
    obtain ⟨rfl, rfl⟩ := e; exact ⟨I, .refl _⟩
  | op :: ops, w, w', x, r, I, hc, hH, e => by
    simp only [hopLoop, bind_ok, Prod.exists] at e
    obtain ⟨P, hP, w1, r1, h1, h2⟩ := e
    have hne : (c.as H).invoker ≠ some P := by
      simp only [Ctx.as, ne_eq, Option.some.injEq]
      rintro rfl
      rcases poolSwap_code h1 with k | k <;> rw [hH] at k <;> simp at k
    obtain ⟨I1, g1⟩ := poolSwap_step I (c := c.as H) hc hne h1
    obtain ⟨I2, g2⟩ := hopLoop_step I1 hc (code_keep g1 hH (by simp)) h2
    exact ⟨I2, g1.trans g2⟩

/-- Every transaction keeps the invariant and forgets nothing. -/
theorem step_inv {k : Call} (hh : HostOK h acct) (I : Inv h acct w) (hc : Signed acct c) (hi : c.invoker = none)
    (e : step h w c k = .ok w') : Inv h acct w' ∧ Grows w w' := by
  have hinv : ∀ a, c.invoker ≠ some a := by rw [hi]; simp
  cases k with
  | token tok op =>
    simp only [step, bind_ok, ok_inj, expect_ok] at e
    obtain ⟨_, h1, L, h2, rfl⟩ := e
    exact token_step I hc hi h1 h2
  | xykInit P i owner dec sl mf =>
    simp only [step, bind_ok, expect_ok] at e
    obtain ⟨_, h1, h2⟩ := e
    obtain ⟨a, b, -⟩ := initXyk_step hh I h1 h2
    exact ⟨a, b⟩
  | xyk P k =>
    cases k with
    | init i => simp [step] at e
    | _ =>
      simp only [step, bind_ok, ok_inj, expect_ok] at e
      obtain ⟨_, h1, s, h2, rfl⟩ := e
      exact xyk_step I hc h1 (hinv P) (by simp) h2
  | stableInit P i owner amp mf =>
    simp only [step, bind_ok, expect_ok] at e
    obtain ⟨_, h1, h2⟩ := e
    obtain ⟨a, b, -⟩ := initStable_step hh I h1 h2
    exact ⟨a, b⟩
  | stable P k =>
    cases k with
    | init i => simp [step] at e
    | _ =>
      simp only [step, bind_ok, ok_inj, expect_ok] at e
      obtain ⟨_, h1, s, h2, rfl⟩ := e
      exact stable_step I hc h1 (hinv P) (by simp) h2
  | stake K k =>
    simp only [step, bind_ok, ok_inj, expect_ok] at e
    obtain ⟨_, h1, s, h2, rfl⟩ := e
    exact stake_step I hc h1 (hinv K) h2
  | vest V k =>
    cases k with
    | mint a x =>
      simp only [step, bind_ok, ok_inj, expect_ok] at e
      obtain ⟨_, h1, v, hv, _, ht, s, h2, rfl⟩ := e
      have hv := vest_loaded hv
      refine vest_step I hc h1 (hinv V) (fun _ v' hv' => ?_) h2
      rw [hv] at hv'; cases hv'; rw [ht]; simp
    | _ =>
      simp only [step, bind_ok, ok_inj, expect_ok] at e
      obtain ⟨_, h1, s, h2, rfl⟩ := e
      exact vest_step I hc h1 (hinv V) (fun ⟨_, _, k⟩ => by simp at k) h2
  | facInit F admin a b d e' wl dec =>
    simp only [step, bind_ok, expect_ok] at e
    obtain ⟨_, h1, h2⟩ := e
    exact facInit_step hh I h1 h2
  | create F sender i k amp sl mf =>
    simp only [step, bind_ok, ok_inj, expect_ok, Prod.exists] at e
    obtain ⟨_, h1, w1, P, h2, rfl⟩ := e
    obtain ⟨a, b, -⟩ := create_step hh I h1 h2
    exact ⟨a, b⟩
  | whitelist F sender add rem =>
    simp only [step, bind_ok, ok_inj, expect_ok, Factory.updateWhitelist] at e
    obtain ⟨_, h1, f, hf, f', ⟨_, -, _, -, rfl⟩, rfl⟩ := e
    exact fac_step I (fac_loaded hf) rfl rfl rfl rfl
  | hashes F a b d =>
    simp only [step, bind_ok, ok_inj, expect_ok, Factory.updateHashes] at e
    obtain ⟨_, h1, f, hf, f', ⟨_, -, rfl⟩, rfl⟩ := e
    exact fac_step I (fac_loaded hf) rfl rfl rfl rfl
  | facUpdate F a =>
    simp only [step, bind_ok, ok_inj, expect_ok, Factory.update] at e
    obtain ⟨_, h1, f, hf, f', ⟨_, -, rfl⟩, rfl⟩ := e
    exact fac_step I (fac_loaded hf) rfl rfl rfl rfl
  | hopInit H admin F =>
    simp only [step, bind_ok, ok_inj, expect_ok, Multihop.init, req_ok] at e
    obtain ⟨_, h1, m, ⟨_, h2, rfl⟩, rfl⟩ := e
    exact hop_step I h1 (by simpa using h2)
  | hopSwap H recipient ops sp amount dl mf =>
    simp only [step, hopSwap, bind_ok, ok_inj, expect_ok, Prod.exists] at e
    obtain ⟨_, h1, w1, r, ⟨_, _, _, _, _, _, m, hm, h2⟩, rfl⟩ := e
    exact hopLoop_step I hc h1 h2
  | trdInit T admin a b o =>
    simp only [step, bind_ok, ok_inj, expect_ok, Trader.init, req_ok] at e
    obtain ⟨_, h1, t, ⟨_, _, _, h2, rfl⟩, rfl⟩ := e
    exact trd_step I h1 (by simpa using h2)
  | trade T sender token pool amount sp dl mi mf =>
    simp only [step, trade, bind_ok, ok_inj, expect_ok, Prod.exists] at e
    obtain ⟨_, h1, w1, r, ⟨_, _, t, ht, _, _, _, _, _, _, h2⟩, rfl⟩ := e
    refine poolSwap_step I (c := c.as T) hc ?_ h2
    simp only [Ctx.as, ne_eq, Option.some.injEq]
    rintro rfl
    rcases poolSwap_code h2 with k | k <;> rw [h1] at k <;> simp at k
  | trdTransfer T sender recipient amount token =>
    simp only [step, bind_ok, ok_inj, expect_ok, Trader.transfer] at e
    obtain ⟨_, h1, t, ht, L, ⟨_, _, _, _, h2⟩, rfl⟩ := e
    exact trader_step I hc h1 h2
  | rewards R k =>
    simp only [step, bind_ok, ok_inj, expect_ok] at e
    obtain ⟨_, h1, s, h2, rfl⟩ := e
    exact rew_step I hc h1 (hinv R) h2

theorem exec_inv {t : Tx} (hh : HostOK h acct) (I : Inv h acct w) (ht : Possible acct t) :
    Inv h acct (exec h w t) ∧ Grows w (exec h w t) := by
  unfold exec
  split
  · rename_i w1 e; exact step_inv hh I ht.2 ht.1 e
  · exact ⟨I, .refl _⟩

theorem run_inv (hh : HostOK h acct) : ∀ {ts : List Tx} {w : World}, Inv h acct w → (∀ t ∈ ts, Possible acct t) →
    Inv h acct (run h w ts) ∧ Grows w (run h w ts)
  | [], w, I, _ => ⟨I, .refl _⟩
  | t :: ts, w, I, hp => by
    obtain ⟨I1, g1⟩ := exec_inv hh I (hp t (by simp))
    obtain ⟨I2, g2⟩ := run_inv hh (ts := ts) I1 (fun u hu => hp u (by simp [hu]))
    exact ⟨I2, g1.trans g2⟩

/-! ### Where tokens can go -/

/-- Signers and contracts act; nobody else. -/
abbrev Active (w : World) (c : Ctx) : Addr → Prop := fun a => c.signed a = true ∨ w.code a ≠ .none

theorem poolSwap_moves {P sender offer : Addr} {x r : Int} {mi sp mf : Option Int} {dl : Option Nat}
    (e : poolSwap w c P sender offer x mi sp dl mf = .ok (w', r)) :
    Moves (Active w c) (fun _ => True) w.led w'.led ∧ w'.code = w.code := by
  have hP : w.code P ≠ .none := by rcases poolSwap_code e with k | k <;> rw [k] <;> simp
  have hby : ∀ a, Moves.By c P a → Active w c a := fun a k => Or.imp_right (fun (q : a = P) => q ▸ hP) k
  unfold poolSwap at e
  split at e
  · simp only [bind_ok, ok_inj, Prod.exists, Prod.mk.injEq] at e
    obtain ⟨p, hp, p', L, r', hk, rfl, rfl⟩ := e
    exact ⟨(Pool.swap_moves hk).mono hby (fun _ k => k), rfl⟩
  · simp only [bind_ok, ok_inj, Prod.exists, Prod.mk.injEq] at e
    obtain ⟨p, hp, p', L, r', hk, rfl, rfl⟩ := e
    exact ⟨(Stable.swap_moves hk).mono hby (fun _ k => k), rfl⟩
  · simp at e

theorem hopLoop_moves {H F recipient : Addr} {sp mf : Option Int} {dl : Option Nat} : ∀ {ops : List Multihop.Op}
    {w w' : World} {x r : Int}, hopLoop w (c.as H) F recipient sp dl mf ops x = .ok (w', r) →
    Moves (Active w c) (fun _ => True) w.led w'.led
  | [], w, w', x, r, e => by
    simp only [hopLoop, ok_inj, Prod.mk.injEq] at e
    obtain ⟨rfl, rfl⟩ := e; exact .refl _
  | op :: ops, w, w', x, r, e => by
    simp only [hopLoop, bind_ok, Prod.exists] at e
    obtain ⟨P, hP, w1, r1, h1, h2⟩ := e
    obtain ⟨m1, ec⟩ := poolSwap_moves h1
    have m2 := hopLoop_moves h2
    refine (m1.mono (fun a k => k) (fun _ k => k)).trans (m2.mono (fun a k => ?_) (fun _ k => k))
    unfold Active at *; rw [ec] at k; exact k

/-- The calls that deploy a share token. -/
def Deploys : Call → Prop
  | .xykInit _ _ _ _ _ _ => True
  | .stableInit _ _ _ _ _ => True
  | .create _ _ _ _ _ _ _ => True
  | _ => False

/-- The ledger changes only by token calls of signers and contracts, except in deployments. -/
theorem step_moves {k : Call} (hi : c.invoker = none) (hd : ¬ Deploys k) (e : step h w c k = .ok w') :
    Moves (Active w c) (fun _ => True) w.led w'.led := by
  have hby : ∀ P, w.code P ≠ .none → ∀ a, Moves.By c P a → Active w c a := fun P hP a k => Or.imp_right (fun (q : a = P) => q ▸ hP) k
  cases k with
  | token tok op =>
    simp only [step, bind_ok, ok_inj, expect_ok] at e
    obtain ⟨_, h1, L, h2, rfl⟩ := e
    refine .one h2 (fun a k => .inl ?_) (.inl trivial)
    simpa [Ctx.auth, hi] using k
  | xykInit P i owner dec sl mf => exact absurd trivial hd
  | xyk P k =>
    cases k with
    | init i => simp [step] at e
    | _ =>
      simp only [step, bind_ok, ok_inj, expect_ok] at e
      obtain ⟨_, h1, s, h2, rfl⟩ := e
      exact (Pool.step_moves h2 (by simp) (by simp)).mono (hby P (by rw [h1]; simp)) (fun _ k => k)
  | stableInit P i owner amp mf => exact absurd trivial hd
  | stable P k =>
    cases k with
    | init i => simp [step] at e
    | _ =>
      simp only [step, bind_ok, ok_inj, expect_ok] at e
      obtain ⟨_, h1, s, h2, rfl⟩ := e
      exact (Stable.step_moves h2 (by simp) (by simp)).mono (hby P (by rw [h1]; simp)) (fun _ k => k)
  | stake K k =>
    simp only [step, bind_ok, ok_inj, expect_ok] at e
    obtain ⟨_, h1, s, h2, rfl⟩ := e
    exact (Stake.step_moves h2).mono (hby K (by rw [h1]; simp)) (fun _ k => k)
  | vest V k =>
    cases k with
    | mint a x =>
      simp only [step, bind_ok, ok_inj, expect_ok] at e
      obtain ⟨_, h1, v, hv, _, ht, s, h2, rfl⟩ := e
      exact (Vesting.step_moves h2 (by simp)).mono (hby V (by rw [h1]; simp)) (fun _ k => k)
    | _ =>
      simp only [step, bind_ok, ok_inj, expect_ok] at e
      obtain ⟨_, h1, s, h2, rfl⟩ := e
      exact (Vesting.step_moves h2 (by simp)).mono (hby V (by rw [h1]; simp)) (fun _ k => k)
  | facInit F admin a b d e' wl dec =>
    simp only [step, facInit, bind_ok, expect_ok, deploy_ok, ok_inj] at e
    obtain ⟨_, h1, _, -, _, -, w1, ⟨-, rfl⟩, m, -, rfl⟩ := e
    exact .refl _
  | create F sender i k amp sl mf => exact absurd trivial hd
  | whitelist F sender add rem =>
    simp only [step, bind_ok, ok_inj, expect_ok] at e
    obtain ⟨_, h1, f, hf, f', -, rfl⟩ := e
    exact .refl _
  | hashes F a b d =>
    simp only [step, bind_ok, ok_inj, expect_ok] at e
    obtain ⟨_, h1, f, hf, f', -, rfl⟩ := e
    exact .refl _
  | facUpdate F a =>
    simp only [step, bind_ok, ok_inj, expect_ok] at e
    obtain ⟨_, h1, f, hf, f', -, rfl⟩ := e
    exact .refl _
  | hopInit H admin F =>
    simp only [step, bind_ok, ok_inj, expect_ok] at e
    obtain ⟨_, h1, m, -, rfl⟩ := e
    exact .refl _
  | hopSwap H recipient ops sp amount dl mf =>
    simp only [step, hopSwap, bind_ok, ok_inj, expect_ok, Prod.exists] at e
    obtain ⟨_, h1, w1, r, ⟨_, _, _, _, _, _, m, hm, h2⟩, rfl⟩ := e
    exact hopLoop_moves h2
  | trdInit T admin a b o =>
    simp only [step, bind_ok, ok_inj, expect_ok] at e
    obtain ⟨_, h1, t, -, rfl⟩ := e
    exact .refl _
  | trade T sender token pool amount sp dl mi mf =>
    simp only [step, trade, bind_ok, ok_inj, expect_ok, Prod.exists] at e
    obtain ⟨_, h1, w1, r, ⟨_, _, t, ht, _, _, _, _, _, _, h2⟩, rfl⟩ := e
    exact (poolSwap_moves h2).1
  | trdTransfer T sender recipient amount token =>
    simp only [step, bind_ok, ok_inj, expect_ok, Trader.transfer] at e
    obtain ⟨_, h1, t, ht, L, ⟨_, _, _, _, h2⟩, rfl⟩ := e
    exact (Moves.transfer h2).mono (hby T (by rw [h1]; simp)) (fun _ k => k)
  | rewards R k =>
    simp only [step, bind_ok, ok_inj, expect_ok] at e
    obtain ⟨_, h1, s, h2, rfl⟩ := e
    exact (Rewards.step_moves h2).mono (hby R (by rw [h1]; simp)) (fun _ k => k)

/-- The ledger changes only by token calls of signers and contracts, or by new tokens. -/
theorem step_ledger {k : Call} (hh : HostOK h acct) (I : Inv h acct w) (hi : c.invoker = none)
    (e : step h w c k = .ok w') :
    Moves (Active w c) (fun _ => True) w.led w'.led ∨ ∃ S, FreshAt w.led w'.led S := by
  cases k with
  | xykInit P i owner dec sl mf =>
    simp only [step, bind_ok, expect_ok] at e
    obtain ⟨_, h1, h2⟩ := e
    obtain ⟨-, -, -, -, p, -, -, -, -, -, -, -, fr⟩ := initXyk_step hh I h1 h2
    exact .inr fr
  | stableInit P i owner amp mf =>
    simp only [step, bind_ok, expect_ok] at e
    obtain ⟨_, h1, h2⟩ := e
    obtain ⟨-, -, -, -, p, -, -, -, -, -, -, -, fr⟩ := initStable_step hh I h1 h2
    exact .inr fr
  | create F sender i k amp sl mf =>
    simp only [step, bind_ok, ok_inj, expect_ok, Prod.exists] at e
    obtain ⟨_, h1, w1, P, h2, rfl⟩ := e
    obtain ⟨-, -, f, a, -⟩ := create_step hh I h1 h2
    exact .inr a.fresh
  | _ => exact .inl (step_moves hi (by simp [Deploys]) e)

/-- Whoever neither signs nor is a contract loses nothing. -/
theorem step_noLoss {k : Call} (hh : HostOK h acct) (I : Inv h acct w) (hi : c.invoker = none)
    (e : step h w c k = .ok w') {a : Addr} (hs : c.signed a = false) (hc : w.code a = .none) (hL : LedInv a w.led) :
    LedInv a w'.led ∧ ∀ t, w.led.bal t a ≤ w'.led.bal t a := by
  rcases step_ledger hh I hi e with m | ⟨S, f⟩
  · exact m.ledInv (by simp [Active, hs, hc]) hL
  · exact ⟨f.ledInv hL, fun t => by rw [f.bal]⟩

end Phoenix.World
