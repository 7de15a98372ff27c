import Verif.Model.Upgrade
import Verif.Lemmas.WorldSys
import Verif.Lemmas.WorldFac
/-!
The administrators stored by the contracts: no call changes them except `update_config` of a pool.
-/
namespace Phoenix.World
open Phoenix Phoenix.World.Spec

variable {h : Host} {acct : Accounts} {w w' : World} {c : Ctx}

theorem findPool_pool (I : Inv h acct w) {F a b P : Addr} (e : findPool w F a b = .ok P) :
    w.code P = .xyk ∨ w.code P = .stable := by
  unfold findPool at e
  simp only [bind_ok, expect_ok] at e
  obtain ⟨_, -, f, hf, hl⟩ := e
  have ho := I.refs.fac F f (fac_loaded hf)
  have key : ∀ x y, f.pair x y = some P → w.code P = .xyk ∨ w.code P = .stable := by
    intro x y q
    obtain ⟨-, -, q, -⟩ := ho.pair _ _ _ q
    exact q.imp And.left And.left
  unfold Factory.lookup Factory.lookupReverted at hl
  split at hl
  · rename_i hq; rw [ok_inj] at hl; subst hl; exact key _ _ hq
  · split at hl
    · rename_i hq; rw [ok_inj] at hl; subst hl; exact key _ _ hq
    · simp at hl

theorem poolSwap_admin {P sender offer : Addr} {x r : Int} {mi sp mf : Option Int} {dl : Option Nat} (I : Inv h acct w)
    (hc : Signed acct c) (hi : c.invoker ≠ some P) (e : poolSwap w c P sender offer x mi sp dl mf = .ok (w', r))
    {A : Addr} {p : Pool.State} (hp : w.xyk A = some p) : ∃ q, w'.xyk A = some q ∧ q.admin = p.admin := by
  unfold poolSwap at e
  split at e
  · rename_i hP
    simp only [bind_ok, ok_inj, Prod.exists, Prod.mk.injEq] at e
    obtain ⟨p0, hp0, p', L, r', hk, rfl, rfl⟩ := e
    by_cases eA : A = P
    · subst eA
      have hp0 := pool_loaded hp0
      rw [hp] at hp0; cases hp0
      have hne : w.code A ≠ .none := by rw [hP]; simp
      have hf := I.core.auth_false hc hne hi
      have A' := I.core.at_ A (I.core.contracts A hne)
      obtain ⟨_, _, _, k⟩ := Pool.swap_inv hk hf (A'.xyk.pool p hp).distinct.1
      exact ⟨p', upd_same _ _ _, k.2.2.2.2.2.2.2.2.2.2.2.2.2.2.2.2.1⟩
    · exact ⟨p, by simp only [upd_ne _ _ eA, hp], rfl⟩
  · simp only [bind_ok, ok_inj, Prod.exists, Prod.mk.injEq] at e
    obtain ⟨p0, hp0, p', L, r', hk, rfl, rfl⟩ := e
    exact ⟨p, hp, rfl⟩
  · simp at e

theorem hopLoop_admin {H F recipient : Addr} {sp mf : Option Int} {dl : Option Nat} {A : Addr} : ∀ {ops : List Multihop.Op}
    {w w' : World} {x r : Int} {p : Pool.State}, Inv h acct w → Signed acct c → w.code H = .multihop →
    hopLoop w (c.as H) F recipient sp dl mf ops x = .ok (w', r) → w.xyk A = some p → ∃ q, w'.xyk A = some q ∧ q.admin = p.admin
  | [], w, w', x, r, p, I, hc, hH, e, hp => by
    simp only [hopLoop, ok_inj, Prod.mk.injEq] at e
    obtain ⟨rfl, rfl⟩ := e; exact ⟨p, hp, rfl⟩
  | op :: ops, w, w', x, r, p, I, hc, hH, e, hp => by
    simp only [hopLoop, bind_ok, Prod.exists] at e
    obtain ⟨P, hP, w1, r1, h1, h2⟩ := e
    have hne : (c.as H).invoker ≠ some P := by
      simp only [Ctx.as, ne_eq, Option.some.injEq]
      rintro rfl
      rcases poolSwap_code h1 with k | k <;> rw [hH] at k <;> simp at k
    obtain ⟨I1, g1⟩ := poolSwap_step I (c := c.as H) hc hne h1
    obtain ⟨q, hq, k⟩ := poolSwap_admin I (c := c.as H) hc hne h1 hp
    obtain ⟨q', hq', k'⟩ := hopLoop_admin I1 hc (code_keep g1 hH (by simp)) h2 hq
    exact ⟨q', hq', k'.trans k⟩

/-- The administrator of an XYK pool changes only with that administrator's signature. -/
theorem step_admin_xyk {k : Call} (I : Inv h acct w) (hc : Signed acct c) (hi : c.invoker = none)
    (e : step h w c k = .ok w') {A : Addr} {p : Pool.State} (hp : w.xyk A = some p) :
    ∃ q, w'.xyk A = some q ∧ (q.admin = p.admin ∨ c.signed p.admin = true) := by
  have hA := (I.refs.xyk A p hp).1
  by_cases ht : Touches w k A
  · cases k with
    | xykInit P i owner dec sl mf =>
      exfalso
      rcases ht with rfl | k
      · simp only [step, initXyk, bind_ok, expect_ok, Prod.exists] at e
        obtain ⟨_, _, _, _, h2, _⟩ := e
        have := (Pool.init_inv h2).1
        rw [hp] at this; simp at this
      · rw [hA] at k; simp at k
    | xyk P k =>
      have : A = P := ht
      subst this
      have hposs : (∀ j, k ≠ .init j) → Phoenix.Spec.Possible A (.pool c k) := by
        intro hk
        refine ⟨I.core.auth_false hc (by rw [hA]; simp) (by rw [hi]; simp), ?_⟩
        cases k with
        | init j => exact absurd rfl (hk j)
        | _ => trivial
      have At := I.core.at_ A (I.core.contracts A (by rw [hA]; simp))
      cases k with
      | init i => simp [step] at e
      | _ =>
        simp only [step, bind_ok, ok_inj, expect_ok] at e
        obtain ⟨_, h1, s, h2, rfl⟩ := e
        obtain ⟨q, hq, -, -, -, -, -, -, hau⟩ := Pool.step_pool h2 (hposs (by simp)) At.xyk hp
        refine ⟨q, by simp only [upd_same, hq], ?_⟩
        by_cases ea : q.admin = p.admin
        · exact .inl ea
        · refine .inr ?_
          have := hau (.inr (.inl ea))
          simpa [Pool.Tx.ctx, Ctx.auth, hi] using this
    | hopSwap H recipient ops sp amount dl mf =>
      simp only [step, hopSwap, bind_ok, ok_inj, expect_ok, Prod.exists] at e
      obtain ⟨_, h1, w1, r, ⟨_, _, _, _, _, _, m, hm, h2⟩, rfl⟩ := e
      obtain ⟨q, hq, k⟩ := hopLoop_admin I hc h1 h2 hp
      exact ⟨q, hq, .inl k⟩
    | trade T sender token pool amount sp dl mi mf =>
      simp only [step, trade, bind_ok, ok_inj, expect_ok, Prod.exists] at e
      obtain ⟨_, h1, w1, r, ⟨_, _, t, ht, _, _, _, _, _, _, h2⟩, rfl⟩ := e
      have hne : (c.as T).invoker ≠ some pool := by
        simp only [Ctx.as, ne_eq, Option.some.injEq]
        rintro rfl
        rcases poolSwap_code h2 with k | k <;> rw [h1] at k <;> simp at k
      obtain ⟨q, hq, k⟩ := poolSwap_admin I (c := c.as T) hc hne h2 hp
      exact ⟨q, hq, .inl k⟩
    | token _ _ => exact absurd ht (by simp [Touches])
    | trdTransfer _ _ _ _ _ => exact absurd ht (by simp [Touches])
    | stableInit P i owner amp mf =>
      rcases ht with rfl | k
      · simp only [step, bind_ok, expect_ok] at e
        obtain ⟨_, h1, _⟩ := e; rw [hA] at h1; simp at h1
      · rw [hA] at k; simp at k
    | facInit F _ _ _ _ _ _ _ =>
      rcases ht with rfl | k
      · simp only [step, bind_ok, expect_ok] at e
        obtain ⟨_, h1, _⟩ := e; rw [hA] at h1; simp at h1
      · rw [hA] at k; simp at k
    | create F _ _ _ _ _ _ =>
      rcases ht with rfl | k
      · simp only [step, bind_ok, expect_ok] at e
        obtain ⟨_, h1, _⟩ := e; rw [hA] at h1; simp at h1
      · rw [hA] at k; simp at k
    | stable P k =>
      have : A = P := ht
      subst this
      cases k with
      | init i => simp [step] at e
      | _ =>
        simp only [step, bind_ok, expect_ok] at e
        obtain ⟨_, h1, _⟩ := e; rw [hA] at h1; simp at h1
    | vest V k =>
      have : A = V := ht
      subst this
      cases k <;>
      · simp only [step, bind_ok, expect_ok] at e
        obtain ⟨_, h1, _⟩ := e; rw [hA] at h1; simp at h1
    | _ =>
      have : A = _ := ht
      subst this
      simp only [step, bind_ok, expect_ok] at e
      obtain ⟨_, h1, _⟩ := e; rw [hA] at h1; simp at h1
  · have s := step_same e ht
    exact ⟨p, by rw [s.xyk, hp], .inl rfl⟩

/-- The only calls that touch the state of a stake contract are calls of that contract. -/
theorem touch_stake {k : Call} (I : Inv h acct w) (e : step h w c k = .ok w') {A : Addr} (hA : w.code A = .stake)
    (ht : Touches w k A) : ∃ j, k = .stake A j := by
  cases k with
  | stake K k => exact ⟨k, by rw [show A = K from ht]⟩
  | hopSwap H recipient ops sp amount dl mf =>
    obtain ⟨m, hm, op, -, hf⟩ := ht
    rcases findPool_pool I hf with k | k <;> rw [hA] at k <;> simp at k
  | trade T sender token pool amount sp dl mi mf =>
    have : A = pool := ht
    subst this
    simp only [step, trade, bind_ok, ok_inj, expect_ok, Prod.exists] at e
    obtain ⟨_, h1, w1, r, ⟨_, _, t, ht, _, _, _, _, _, _, h2⟩, rfl⟩ := e
    rcases poolSwap_code h2 with k | k <;> rw [hA] at k <;> simp at k
  | token _ _ => exact absurd ht (by simp [Touches])
  | trdTransfer _ _ _ _ _ => exact absurd ht (by simp [Touches])
  | xykInit _ _ _ _ _ _ =>
    rcases ht with rfl | k
    · simp only [step, bind_ok, expect_ok] at e
      obtain ⟨_, h1, _⟩ := e; rw [hA] at h1; simp at h1
    · rw [hA] at k; simp at k
  | stableInit _ _ _ _ _ =>
    rcases ht with rfl | k
    · simp only [step, bind_ok, expect_ok] at e
      obtain ⟨_, h1, _⟩ := e; rw [hA] at h1; simp at h1
    · rw [hA] at k; simp at k
  | facInit _ _ _ _ _ _ _ _ =>
    rcases ht with rfl | k
    · simp only [step, bind_ok, expect_ok] at e
      obtain ⟨_, h1, _⟩ := e; rw [hA] at h1; simp at h1
    · rw [hA] at k; simp at k
  | create _ _ _ _ _ _ _ =>
    rcases ht with rfl | k
    · simp only [step, bind_ok, expect_ok] at e
      obtain ⟨_, h1, _⟩ := e; rw [hA] at h1; simp at h1
    · rw [hA] at k; simp at k
  | xyk P k =>
    have : A = P := ht
    subst this
    cases k with
    | init i => simp [step] at e
    | _ =>
      simp only [step, bind_ok, expect_ok] at e
      obtain ⟨_, h1, _⟩ := e; rw [hA] at h1; simp at h1
  | stable P k =>
    have : A = P := ht
    subst this
    cases k with
    | init i => simp [step] at e
    | _ =>
      simp only [step, bind_ok, expect_ok] at e
      obtain ⟨_, h1, _⟩ := e; rw [hA] at h1; simp at h1
  | vest V k =>
    have : A = V := ht
    subst this
    cases k <;>
    · simp only [step, bind_ok, expect_ok] at e
      obtain ⟨_, h1, _⟩ := e; rw [hA] at h1; simp at h1
  | _ =>
    have : A = _ := ht
    subst this
    simp only [step, bind_ok, expect_ok] at e
    obtain ⟨_, h1, _⟩ := e; rw [hA] at h1; simp at h1

/-- The only calls that touch the state of a vesting contract are calls of that contract. -/
theorem touch_vest {k : Call} (I : Inv h acct w) (e : step h w c k = .ok w') {A : Addr} (hA : w.code A = .vesting)
    (ht : Touches w k A) : ∃ j, k = .vest A j := by
  cases k with
  | vest K k => exact ⟨k, by rw [show A = K from ht]⟩
  | hopSwap H recipient ops sp amount dl mf =>
    obtain ⟨m, hm, op, -, hf⟩ := ht
    rcases findPool_pool I hf with k | k <;> rw [hA] at k <;> simp at k
  | trade T sender token pool amount sp dl mi mf =>
    have : A = pool := ht
    subst this
    simp only [step, trade, bind_ok, ok_inj, expect_ok, Prod.exists] at e
    obtain ⟨_, h1, w1, r, ⟨_, _, t, ht, _, _, _, _, _, _, h2⟩, rfl⟩ := e
    rcases poolSwap_code h2 with k | k <;> rw [hA] at k <;> simp at k
  | token _ _ => exact absurd ht (by simp [Touches])
  | trdTransfer _ _ _ _ _ => exact absurd ht (by simp [Touches])
  | xykInit _ _ _ _ _ _ =>
    rcases ht with rfl | k
    · simp only [step, bind_ok, expect_ok] at e
      obtain ⟨_, h1, _⟩ := e; rw [hA] at h1; simp at h1
    · rw [hA] at k; simp at k
  | stableInit _ _ _ _ _ =>
    rcases ht with rfl | k
    · simp only [step, bind_ok, expect_ok] at e
      obtain ⟨_, h1, _⟩ := e; rw [hA] at h1; simp at h1
    · rw [hA] at k; simp at k
  | facInit _ _ _ _ _ _ _ _ =>
    rcases ht with rfl | k
    · simp only [step, bind_ok, expect_ok] at e
      obtain ⟨_, h1, _⟩ := e; rw [hA] at h1; simp at h1
    · rw [hA] at k; simp at k
  | create _ _ _ _ _ _ _ =>
    rcases ht with rfl | k
    · simp only [step, bind_ok, expect_ok] at e
      obtain ⟨_, h1, _⟩ := e; rw [hA] at h1; simp at h1
    · rw [hA] at k; simp at k
  | xyk P k =>
    have : A = P := ht
    subst this
    cases k with
    | init i => simp [step] at e
    | _ =>
      simp only [step, bind_ok, expect_ok] at e
      obtain ⟨_, h1, _⟩ := e; rw [hA] at h1; simp at h1
  | stable P k =>
    have : A = P := ht
    subst this
    cases k with
    | init i => simp [step] at e
    | _ =>
      simp only [step, bind_ok, expect_ok] at e
      obtain ⟨_, h1, _⟩ := e; rw [hA] at h1; simp at h1
  | _ =>
    have : A = _ := ht
    subst this
    simp only [step, bind_ok, expect_ok] at e
    obtain ⟨_, h1, _⟩ := e; rw [hA] at h1; simp at h1

/-- A stake contract keeps its administrator. -/
theorem step_admin_stake {k : Call} (I : Inv h acct w) (e : step h w c k = .ok w') {A : Addr} (hA : w.code A = .stake)
    {cfg : Stake.Config} (hcfg : (w.stake A).cfg = some cfg) :
    (w'.stake A).cfg = some cfg ∧ (w'.stake A).admin = (w.stake A).admin := by
  by_cases ht : Touches w k A
  · obtain ⟨k, rfl⟩ := touch_stake I e hA ht
    simp only [step, bind_ok, ok_inj, expect_ok] at e
    obtain ⟨_, h1, s, h2, rfl⟩ := e
    have := Props.C67_config_permanent (me := A) (s := ⟨w.stake A, w.led⟩) hcfg [.stake c k]
    simp only [Stake.run, Stake.exec, List.foldl_cons, List.foldl_nil, h2] at this
    simp only [upd_same]
    exact this
  · have s := step_same e ht
    exact ⟨by rw [s.stake, hcfg], by rw [s.stake]⟩

/-- A vesting contract keeps its administrator. -/
theorem step_admin_vest {k : Call} (I : Inv h acct w) (hc : Signed acct c) (hi : c.invoker = none)
    (e : step h w c k = .ok w') {A : Addr} {v : Vesting.State} (hv : w.vest A = some v) :
    ∃ u, w'.vest A = some u ∧ u.admin = v.admin := by
  have hA := I.refs.vest A v hv
  by_cases ht : Touches w k A
  · obtain ⟨k, rfl⟩ := touch_vest I e hA ht
    have hf := I.core.auth_false hc (P := A) (by rw [hA]; simp) (by rw [hi]; simp)
    have At := I.core.at_ A (I.core.contracts A (by rw [hA]; simp))
    cases k with
    | mint a x =>
      simp only [step, bind_ok, ok_inj, expect_ok] at e
      obtain ⟨_, h1, v', hv', _, ht, s, h2, rfl⟩ := e
      obtain ⟨u, hu⟩ := Vesting.step_eff h2 hf At.vest hv
      exact ⟨u, by simp only [upd_same, hu.vest'], hu.admin⟩
    | _ =>
      simp only [step, bind_ok, ok_inj, expect_ok] at e
      obtain ⟨_, h1, s, h2, rfl⟩ := e
      obtain ⟨u, hu⟩ := Vesting.step_eff h2 hf At.vest hv
      exact ⟨u, by simp only [upd_same, hu.vest'], hu.admin⟩
  · have s := step_same e ht
    exact ⟨v, by rw [s.vest, hv], rfl⟩

end Phoenix.World
