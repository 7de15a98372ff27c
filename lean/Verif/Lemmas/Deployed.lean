import Verif.Lemmas.Accept
import Verif.Lemmas.WorldFac
import Verif.Spec.Deploy
/-! Where contracts come from (helpers). -/
namespace Phoenix.World
open Phoenix Phoenix.World.Spec

variable {h : Host} {acct : Accounts} {w w' w0 : World} {c : Ctx}

theorem refs_xyk {P : Addr} {p : Pool.State} (hc : w.code P = .xyk) (hp : w.xyk P = some p) :
    poolRefs w P = .ok (p.cfg.shareToken, p.cfg.stakeContract) := by
  simp only [poolRefs, poolInfo, hc, hp, Pool.loaded]; rfl

theorem refs_stable {P : Addr} {p : Stable.State} (hc : w.code P = .stable) (hp : w.stable P = some p) :
    poolRefs w P = .ok (p.cfg.shareToken, p.cfg.stakeContract) := by
  simp only [poolRefs, poolInfo, hc, hp, Stable.loaded]; rfl

theorem refs_grows {P a b : Addr} {r : Addr × Addr} (g : Grows w w') (hP : PoolFor w P a b)
    (e : poolRefs w P = .ok r) : poolRefs w' P = .ok r := by
  rcases hP with ⟨h1, p, h2, -, -⟩ | ⟨h1, p, h2, -, -⟩
  · obtain ⟨q, hq, -, -, e1, e2⟩ := g.xyk P p h2
    rw [refs_xyk h1 h2] at e
    rw [refs_xyk (code_keep g h1 (by simp)) hq, e1, e2, e]
  · obtain ⟨q, hq, -, -, e1, e2⟩ := g.stable P p h2
    rw [refs_stable h1 h2] at e
    rw [refs_stable (code_keep g h1 (by simp)) hq, e1, e2, e]

theorem origin_grows {x : Addr} (g : Grows w w') (o : Origin h w0 w x) : Origin h w0 w' x := by
  cases o with
  | start e => exact .start e
  | pool F f a b hf hp e k =>
    obtain ⟨f', hf', -, -, e1, -⟩ := g.fac F f hf
    exact .pool F f' a b hf' (e1 a b x hp) e (k.imp (code_keep g · (by simp)) (code_keep g · (by simp)))
  | router F f hf hm e k =>
    obtain ⟨f', hf', e1, e2, -, -⟩ := g.fac F f hf
    exact .router F f' hf' (e2.trans hm) (by rw [e1]; exact e) (code_keep g k (by simp))
  | share P a b hP hr e k =>
    obtain ⟨y, hy⟩ := hr
    exact .share P a b (poolFor_grows g hP) ⟨y, refs_grows g hP hy⟩ e (code_keep g k (by simp))
  | stake P a b hP hr e k =>
    obtain ⟨y, hy⟩ := hr
    exact .stake P a b (poolFor_grows g hP) ⟨y, refs_grows g hP hy⟩ e (code_keep g k (by simp))

/-- What the initialisation of a pool deploys. -/
theorem initXyk_codes {P : Addr} {i : Info} {owner : Addr} {dec : Nat} {sl mf : Int} (hP : w.code P = .xyk)
    (e : initXyk h w P i owner dec sl mf = .ok w') :
    w'.code = upd (upd w.code (h.shareAddr P i.tokenA i.tokenB) .token) (h.stakeAddr P) .stake ∧
    w'.code (h.shareAddr P i.tokenA i.tokenB) = .token ∧
    PoolFor w' P i.tokenA i.tokenB ∧ poolRefs w' P = .ok (h.shareAddr P i.tokenA i.tokenB, h.stakeAddr P) := by
  unfold initXyk at e
  simp only [bind_ok, ok_inj, deploy_ok, Prod.exists] at e
  obtain ⟨p, L', hi, w1, ⟨hS, rfl⟩, w2, ⟨hK, rfl⟩, st, hst, rfl⟩ := e
  simp only at hK
  have n1 : P ≠ h.shareAddr P i.tokenA i.tokenB := by rintro k; rw [← k, hP] at hS; simp at hS
  have n2 : P ≠ h.stakeAddr P := by
    rintro k; rw [← k, upd_ne _ _ n1, hP] at hK; simp at hK
  have n3 : h.shareAddr P i.tokenA i.tokenB ≠ h.stakeAddr P := by
    intro k; rw [← k, upd_same] at hK; simp at hK
  have hcode : upd (upd w.code (h.shareAddr P i.tokenA i.tokenB) .token) (h.stakeAddr P) .stake P = .xyk := by
    rw [upd_ne _ _ n2, upd_ne _ _ n1, hP]
  have er : p.cfg.shareToken = h.shareAddr P i.tokenA i.tokenB ∧ p.cfg.stakeContract = h.stakeAddr P ∧
      p.cfg.tokenA = i.tokenA ∧ p.cfg.tokenB = i.tokenB := by
    unfold Pool.init at hi
    simp only [bind_ok, ok_inj, Prod.mk.injEq] at hi
    obtain ⟨_, _, _, _, _, _, _, _, _, _, _, _, _, _, _, _, _, _, _, _, _, _, _, _, _, _, rfl, _⟩ := hi
    exact ⟨rfl, rfl, rfl, rfl⟩
  refine ⟨rfl, ?_, .inl ⟨hcode, p, upd_same _ _ _, er.2.2.1, er.2.2.2⟩, ?_⟩
  · simp only [upd_ne _ _ n3, upd_same]
  · rw [refs_xyk (p := p) hcode (upd_same _ _ _), er.1, er.2.1]

theorem initStable_codes {P : Addr} {i : Info} {owner : Addr} {amp : Nat} {mf : Int} (hP : w.code P = .stable)
    (e : initStable h w c P i owner amp mf = .ok w') :
    w'.code = upd (upd w.code (h.shareAddr P i.tokenA i.tokenB) .token) (h.stakeAddr P) .stake ∧
    w'.code (h.shareAddr P i.tokenA i.tokenB) = .token ∧
    PoolFor w' P i.tokenA i.tokenB ∧ poolRefs w' P = .ok (h.shareAddr P i.tokenA i.tokenB, h.stakeAddr P) := by
  unfold initStable at e
  simp only [bind_ok, ok_inj, deploy_ok, Prod.exists] at e
  obtain ⟨_, -, _, -, p, L', hi, w1, ⟨hS, rfl⟩, w2, ⟨hK, rfl⟩, st, hst, rfl⟩ := e
  simp only at hK
  have n1 : P ≠ h.shareAddr P i.tokenA i.tokenB := by rintro k; rw [← k, hP] at hS; simp at hS
  have n2 : P ≠ h.stakeAddr P := by
    rintro k; rw [← k, upd_ne _ _ n1, hP] at hK; simp at hK
  have n3 : h.shareAddr P i.tokenA i.tokenB ≠ h.stakeAddr P := by
    intro k; rw [← k, upd_same] at hK; simp at hK
  have hcode : upd (upd w.code (h.shareAddr P i.tokenA i.tokenB) .token) (h.stakeAddr P) .stake P = .stable := by
    rw [upd_ne _ _ n2, upd_ne _ _ n1, hP]
  have er : p.cfg.shareToken = h.shareAddr P i.tokenA i.tokenB ∧ p.cfg.stakeContract = h.stakeAddr P ∧
      p.cfg.tokenA = i.tokenA ∧ p.cfg.tokenB = i.tokenB := by
    unfold Stable.init at hi
    simp only [bind_ok, ok_inj, Prod.mk.injEq] at hi
    obtain ⟨_, _, _, _, _, _, _, _, _, _, _, _, _, _, _, _, _, _, _, _, _, _, _, _, _, _, _, _, rfl, _⟩ := hi
    exact ⟨rfl, rfl, rfl, rfl⟩
  refine ⟨rfl, ?_, .inr ⟨hcode, p, upd_same _ _ _, er.2.2.1, er.2.2.2⟩, ?_⟩
  · simp only [upd_ne _ _ n3, upd_same]
  · rw [refs_stable (p := p) hcode (upd_same _ _ _), er.1, er.2.1]

/-- A new contract of a newly initialised pool. -/
theorem init_origin {P x a b : Addr}
    (hc : w'.code = upd (upd w.code (h.shareAddr P a b) .token) (h.stakeAddr P) .stake)
    (hs : w'.code (h.shareAddr P a b) = .token)
    (hP : PoolFor w' P a b) (hr : poolRefs w' P = .ok (h.shareAddr P a b, h.stakeAddr P))
    (hx : w'.code x ≠ w.code x) : Origin h w0 w' x := by
  by_cases e2 : x = h.stakeAddr P
  · exact .stake P a b hP ⟨_, by rw [e2]; exact hr⟩ e2 (by rw [e2, hc, upd_same])
  · by_cases e1 : x = h.shareAddr P a b
    · exact .share P a b hP ⟨_, by rw [e1]; exact hr⟩ e1 (by rw [e1]; exact hs)
    · rw [hc, upd_ne _ _ e2, upd_ne _ _ e1] at hx
      exact absurd rfl hx

theorem hopLoop_codes {F recipient : Addr} {sp mf : Option Int} {dl : Option Nat} : ∀ {ops : List Multihop.Op}
    {w w' : World} {x r : Int}, hopLoop w c F recipient sp dl mf ops x = .ok (w', r) → w'.code = w.code
  | [], w, w', x, r, e => by
    simp only [hopLoop, ok_inj, Prod.mk.injEq] at e
    obtain ⟨rfl, rfl⟩ := e; rfl
  | op :: ops, w, w', x, r, e => by
    simp only [hopLoop, bind_ok, Prod.exists] at e
    obtain ⟨P, hP, w1, r1, h1, h2⟩ := e
    rw [hopLoop_codes h2, poolSwap_codes h1]

theorem step_origin {k : Call} {x : Addr} (hh : HostOK h acct) (I : Inv h acct w) (hc : Signed acct c)
    (hi : c.invoker = none) (e : step h w c k = .ok w') (hx : w'.code x ≠ w.code x) : Origin h w0 w' x := by
  obtain ⟨I', -⟩ := step_inv hh I hc hi e
  cases k with
  | xykInit P i owner dec sl mf =>
    simp only [step, bind_ok, expect_ok] at e
    obtain ⟨_, h1, h2⟩ := e
    obtain ⟨a1, a2, a3, a4⟩ := initXyk_codes h1 h2
    exact init_origin a1 a2 a3 a4 hx
  | stableInit P i owner amp mf =>
    simp only [step, bind_ok, expect_ok] at e
    obtain ⟨_, h1, h2⟩ := e
    obtain ⟨a1, a2, a3, a4⟩ := initStable_codes h1 h2
    exact init_origin a1 a2 a3 a4 hx
  | create F sender i k amp sl mf =>
    simp only [step, bind_ok, ok_inj, expect_ok, Prod.exists] at e
    obtain ⟨_, hF, w1, P, h2, rfl⟩ := e
    simp only [create, bind_ok, ok_inj, deploy_ok, Prod.mk.injEq] at h2
    obtain ⟨_, _, _, _, f, hf, _, _, _, _, w1, ⟨hP, rfl⟩, _, _, _, _, _, _, _, _, _, _, _, _, w2, h2, rfl, rfl⟩ := h2
    have key : w2.code = upd (upd (upd w.code (h.poolAddr F i.tokenA i.tokenB) k.code)
          (h.shareAddr (h.poolAddr F i.tokenA i.tokenB) i.tokenA i.tokenB) .token)
          (h.stakeAddr (h.poolAddr F i.tokenA i.tokenB)) .stake ∧
        w2.code (h.shareAddr (h.poolAddr F i.tokenA i.tokenB) i.tokenA i.tokenB) = .token ∧
        PoolFor w2 (h.poolAddr F i.tokenA i.tokenB) i.tokenA i.tokenB ∧
        poolRefs w2 (h.poolAddr F i.tokenA i.tokenB) = .ok (h.shareAddr (h.poolAddr F i.tokenA i.tokenB) i.tokenA i.tokenB,
          h.stakeAddr (h.poolAddr F i.tokenA i.tokenB)) := by
      cases k with
      | xyk => exact (initXyk_codes (by simp [Kind.code, upd_same]) h2 :)
      | stable => exact (initStable_codes (by simp [Kind.code, upd_same]) h2 :)
    obtain ⟨a1, a2, a3, a4⟩ := key
    generalize hPe : h.poolAddr F i.tokenA i.tokenB = P at *
    by_cases eP : x = P
    · subst eP
      refine .pool F _ i.tokenA i.tokenB (upd_same _ _ _) (by simp [upd_same]) hPe.symm ?_
      rcases a3 with k | k
      · exact .inl k.1
      · exact .inr k.1
    · exact init_origin (w := { w with code := upd w.code P k.code }) a1 a2 a3 a4 (by
        simp only [upd_ne _ _ eP]; exact hx)
  | facInit F admin lp stb stk tok wl dec =>
    simp only [step, bind_ok, expect_ok] at e
    obtain ⟨_, h1, e⟩ := e
    unfold facInit at e
    simp only [bind_ok, req_ok, ok_inj, deploy_ok, Multihop.init] at e
    obtain ⟨_, _, _, _, w1, ⟨h3, rfl⟩, m, ⟨_, h4, rfl⟩, rfl⟩ := e
    by_cases ex : x = h.hopAddr F admin
    · exact .router F _ (upd_same _ _ _) ex.symm ex (by rw [ex]; exact upd_same _ _ _)
    · simp only [upd_ne _ _ ex] at hx; exact absurd rfl hx
  | hopSwap H recipient ops sp x dl mf =>
    simp only [step, bind_ok, ok_inj, expect_ok, Prod.exists, hopSwap] at e
    obtain ⟨_, _, w1, _, e, rfl⟩ := e
    obtain ⟨_, _, _, _, _, _, _, _, e⟩ := e
    exact absurd (by rw [hopLoop_codes e]) hx
  | trade T sender token pool amount sp dl min mf =>
    simp only [step, bind_ok, ok_inj, expect_ok, Prod.exists, trade] at e
    obtain ⟨_, _, w1, _, e, rfl⟩ := e
    obtain ⟨_, _, _, _, _, _, _, _, _, _, e⟩ := e
    exact absurd (by rw [poolSwap_codes e]) hx
  | xyk P k =>
    cases k with
    | init i => simp [step] at e
    | _ =>
      simp only [step, bind_ok, ok_inj, expect_ok] at e
      obtain ⟨_, _, _, _, rfl⟩ := e
      exact absurd rfl hx
  | stable P k =>
    cases k with
    | init i => simp [step] at e
    | _ =>
      simp only [step, bind_ok, ok_inj, expect_ok] at e
      obtain ⟨_, _, _, _, rfl⟩ := e
      exact absurd rfl hx
  | vest V k =>
    cases k with
    | mint s a =>
      simp only [step, bind_ok, ok_inj, expect_ok] at e
      obtain ⟨_, _, _, _, _, _, _, _, rfl⟩ := e
      exact absurd rfl hx
    | _ =>
      simp only [step, bind_ok, ok_inj, expect_ok] at e
      obtain ⟨_, _, _, _, rfl⟩ := e
      exact absurd rfl hx
  | token _ _ | stake _ _ | hopInit _ _ _ | trdInit _ _ _ _ _ | rewards _ _ =>
    simp only [step, bind_ok, ok_inj, expect_ok] at e
    obtain ⟨_, _, _, _, rfl⟩ := e
    exact absurd rfl hx
  | whitelist _ _ _ _ | hashes _ _ _ _ | facUpdate _ _ | trdTransfer _ _ _ _ _ =>
    simp only [step, bind_ok, ok_inj, expect_ok] at e
    obtain ⟨_, _, _, _, _, _, rfl⟩ := e
    exact absurd rfl hx

theorem run_origin (hh : HostOK h acct) : ∀ {ts : List Tx} {w : World}, Inv h acct w → (∀ t ∈ ts, Possible acct t) →
    (∀ x, w.code x ≠ .none → Origin h w0 w x) → ∀ x, (run h w ts).code x ≠ .none → Origin h w0 (run h w ts) x
  | [], w, I, _, ho => ho
  | t :: ts, w, I, hp, ho => by
    obtain ⟨I1, g1⟩ := exec_inv hh I (hp t (by simp))
    refine run_origin hh (ts := ts) I1 (fun u hu => hp u (by simp [hu])) (fun x hx => ?_)
    by_cases e : (exec h w t).code x = w.code x
    · exact origin_grows g1 (ho x (e ▸ hx))
    · unfold exec at e ⊢
      split at e
      · rename_i w1 e1
        exact step_origin hh I (hp t (by simp)).2 (hp t (by simp)).1 e1 e
      · exact absurd rfl e

end Phoenix.World
