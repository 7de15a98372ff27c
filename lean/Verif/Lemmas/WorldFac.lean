import Verif.Lemmas.WorldSys
/-! The registry of a factory in every history (helpers only). -/
namespace Phoenix.World
open Phoenix Phoenix.World.Spec

variable {h : Host} {acct : Accounts} {w w' : World} {c : Ctx}

def regPools (w : World) (F : Addr) : List Addr := match w.fac F with | some f => f.pools | none => []
def regPair (w : World) (F a b : Addr) : Option Addr := match w.fac F with | some f => f.pair a b | none => none

/-- What one transaction adds to the registry. -/
def Adds (w w' : World) (F : Addr) (l : List Listing) : Prop :=
  regPools w' F = regPools w F ++ l.map (·.pool) ∧
  ∀ a b P, regPair w' F a b = some P ↔ regPair w F a b = some P ∨ ⟨a, b, P⟩ ∈ l

theorem Adds.nothing {F : Addr} (e : w'.fac F = w.fac F) : Adds w w' F [] := by
  unfold Adds regPools regPair
  rw [e]; simp

theorem Adds.keep {F Q : Addr} {f g : Factory.State} (hf : w.fac F = some f) (e1 : g.pair = f.pair) (e2 : g.pools = f.pools) :
    Adds w { w with fac := upd w.fac F (some g) } Q [] := by
  by_cases e : Q = F
  · subst e
    unfold Adds regPools regPair
    simp only [upd_same, hf, e1, e2]; simp
  · exact .nothing (by simp only [upd_ne _ _ e])

theorem hopLoop_fac {F H recipient : Addr} {sp mf : Option Int} {dl : Option Nat} : ∀ {ops : List Multihop.Op}
    {w w' : World} {x r : Int}, hopLoop w c F recipient sp dl mf ops x = .ok (w', r) → w'.fac = w.fac
  | [], w, w', x, r, e => by
    simp only [hopLoop, ok_inj, Prod.mk.injEq] at e
    obtain ⟨rfl, rfl⟩ := e; rfl
  | op :: ops, w, w', x, r, e => by
    simp only [hopLoop, bind_ok, Prod.exists] at e
    obtain ⟨P, hP, w1, r1, h1, h2⟩ := e
    rw [hopLoop_fac (H := H) h2]
    exact poolSwap_fac h1
where
  poolSwap_fac {w w' : World} {c : Ctx} {P sender offer : Addr} {x r : Int} {mi sp mf : Option Int} {dl : Option Nat}
    (e : poolSwap w c P sender offer x mi sp dl mf = .ok (w', r)) : w'.fac = w.fac := by
    unfold poolSwap at e
    split at e
    · simp only [bind_ok, ok_inj, Prod.exists, Prod.mk.injEq] at e
      obtain ⟨p, hp, p', L, r', hk, rfl, rfl⟩ := e; rfl
    · simp only [bind_ok, ok_inj, Prod.exists, Prod.mk.injEq] at e
      obtain ⟨p, hp, p', L, r', hk, rfl, rfl⟩ := e; rfl
    · simp at e

theorem poolSwap_fac {P sender offer : Addr} {x r : Int} {mi sp mf : Option Int} {dl : Option Nat}
    (e : poolSwap w c P sender offer x mi sp dl mf = .ok (w', r)) : w'.fac = w.fac := hopLoop_fac.poolSwap_fac e

theorem step_fac {k : Call} (hh : HostOK h acct) (I : Inv h acct w) (hc : Signed acct c) (hi : c.invoker = none)
    (e : step h w c k = .ok w') (F : Addr) : Adds w w' F (createdBy h w F ⟨c, k⟩) := by
  obtain ⟨-, gr⟩ := step_inv hh I hc hi e
  cases k with
  | token tok op =>
    simp only [step, bind_ok, ok_inj, expect_ok] at e
    obtain ⟨_, h1, L, h2, rfl⟩ := e
    exact .nothing rfl
  | xykInit P i owner dec sl mf =>
    simp only [step, bind_ok, expect_ok] at e
    obtain ⟨_, h1, h2⟩ := e
    obtain ⟨-, -, a, -⟩ := initXyk_step hh I h1 h2
    exact .nothing (by rw [a])
  | xyk P k =>
    cases k with
    | init i => simp [step] at e
    | _ =>
      simp only [step, bind_ok, ok_inj, expect_ok] at e
      obtain ⟨_, h1, s, h2, rfl⟩ := e
      exact .nothing rfl
  | stableInit P i owner amp mf =>
    simp only [step, bind_ok, expect_ok] at e
    obtain ⟨_, h1, h2⟩ := e
    obtain ⟨-, -, a, -⟩ := initStable_step hh I h1 h2
    exact .nothing (by rw [a])
  | stable P k =>
    cases k with
    | init i => simp [step] at e
    | _ =>
      simp only [step, bind_ok, ok_inj, expect_ok] at e
      obtain ⟨_, h1, s, h2, rfl⟩ := e
      exact .nothing rfl
  | stake K k =>
    simp only [step, bind_ok, ok_inj, expect_ok] at e
    obtain ⟨_, h1, s, h2, rfl⟩ := e
    exact .nothing rfl
  | vest V k =>
    cases k with
    | mint a x =>
      simp only [step, bind_ok, ok_inj, expect_ok] at e
      obtain ⟨_, h1, v, hv, _, ht, s, h2, rfl⟩ := e
      exact .nothing rfl
    | _ =>
      simp only [step, bind_ok, ok_inj, expect_ok] at e
      obtain ⟨_, h1, s, h2, rfl⟩ := e
      exact .nothing rfl
  | facInit F' admin a b d e' wl dec =>
    simp only [step, facInit, bind_ok, expect_ok, deploy_ok, ok_inj, req_ok] at e
    obtain ⟨_, h1, _, h3, _, -, w1, ⟨-, rfl⟩, m, -, rfl⟩ := e
    simp only [createdBy]
    by_cases ef : F = F'
    · subst ef
      have hn : w.fac F = none := by simpa using h3
      unfold Adds regPools regPair
      simp only [upd_same, hn]; simp
    · exact .nothing (by simp only [upd_ne _ _ ef])
  | create F' sender i k amp sl mf =>
    have e0 := e
    simp only [step, bind_ok, ok_inj, expect_ok, Prod.exists] at e
    obtain ⟨_, h1, w1, P, h2, rfl⟩ := e
    obtain ⟨-, -, f, a, -⟩ := create_step hh I h1 h2
    by_cases ef : F' = F
    · subst ef
      simp only [createdBy, if_true, e0, h2]
      obtain ⟨g', hg, -, -, keep, -⟩ := gr.fac F' f a.old
      have hg' := a.fac
      have : w1.fac F' = some
          { f with pools := f.pools ++ [P],
                   pair := upd f.pair i.tokenA (upd (f.pair i.tokenA) i.tokenB (some P)) } := by
        rw [hg', upd_same]
      unfold Adds regPools regPair
      rw [this] at hg
      cases hg
      simp only [this, a.old, List.map_cons, List.map_nil, true_and]
      intro x y Q
      constructor
      · intro hq
        simp only [upd_apply] at hq
        by_cases e1 : x = i.tokenA
        · subst e1
          by_cases e2 : y = i.tokenB
          · subst e2; simp only [if_true, Option.some.injEq, upd_same] at hq; right; simp [hq]
          · simp only [if_true, upd_apply, e2, if_false] at hq; left; exact hq
        · simp only [e1, if_false] at hq; left; exact hq
      · rintro (hq | hq)
        · exact keep x y Q hq
        · simp only [List.mem_singleton, Listing.mk.injEq] at hq
          obtain ⟨rfl, rfl, rfl⟩ := hq
          simp only [upd_same]
    · simp only [createdBy, ef, if_false]
      exact .nothing (by rw [a.fac, upd_ne _ _ (Ne.symm ef)])
  | whitelist F sender add rem =>
    simp only [step, bind_ok, ok_inj, expect_ok, Factory.updateWhitelist] at e
    obtain ⟨_, h1, f, hf, f', ⟨_, -, _, -, rfl⟩, rfl⟩ := e
    exact .keep (fac_loaded hf) rfl rfl
  | hashes F a b d =>
    simp only [step, bind_ok, ok_inj, expect_ok, Factory.updateHashes] at e
    obtain ⟨_, h1, f, hf, f', ⟨_, -, rfl⟩, rfl⟩ := e
    exact .keep (fac_loaded hf) rfl rfl
  | facUpdate F a =>
    simp only [step, bind_ok, ok_inj, expect_ok, Factory.update] at e
    obtain ⟨_, h1, f, hf, f', ⟨_, -, rfl⟩, rfl⟩ := e
    exact .keep (fac_loaded hf) rfl rfl
  | hopInit H admin F =>
    simp only [step, bind_ok, ok_inj, expect_ok] at e
    obtain ⟨_, h1, m, -, rfl⟩ := e
    exact .nothing rfl
  | hopSwap H recipient ops sp amount dl mf =>
    simp only [step, hopSwap, bind_ok, ok_inj, expect_ok, Prod.exists] at e
    obtain ⟨_, h1, w1, r, ⟨_, _, _, _, _, _, m, hm, h2⟩, rfl⟩ := e
    exact .nothing (by rw [hopLoop_fac (H := H) h2])
  | trdInit T admin a b o =>
    simp only [step, bind_ok, ok_inj, expect_ok] at e
    obtain ⟨_, h1, t, -, rfl⟩ := e
    exact .nothing rfl
  | trade T sender token pool amount sp dl mi mf =>
    simp only [step, trade, bind_ok, ok_inj, expect_ok, Prod.exists] at e
    obtain ⟨_, h1, w1, r, ⟨_, _, t, ht, _, _, _, _, _, _, h2⟩, rfl⟩ := e
    exact .nothing (by rw [poolSwap_fac h2])
  | trdTransfer T sender recipient amount token =>
    simp only [step, bind_ok, ok_inj, expect_ok, Trader.transfer] at e
    obtain ⟨_, h1, t, ht, L, ⟨_, _, _, _, h2⟩, rfl⟩ := e
    exact .nothing rfl
  | rewards R k =>
    simp only [step, bind_ok, ok_inj, expect_ok] at e
    obtain ⟨_, h1, s, h2, rfl⟩ := e
    exact .nothing rfl

theorem createdBy_failed {F : Addr} {t : Tx} {er : Err} (e : step h w t.ctx t.call = .error er) : createdBy h w F t = [] := by
  obtain ⟨c, k⟩ := t
  cases k with
  | create F' sender i k amp sl mf =>
    simp only at e
    simp only [createdBy, e]
    split <;> rfl
  | _ => rfl

theorem exec_fac {t : Tx} (hh : HostOK h acct) (I : Inv h acct w) (ht : Possible acct t) (F : Addr) :
    Adds w (exec h w t) F (createdBy h w F t) := by
  unfold exec
  split
  · rename_i w1 e; exact step_fac hh I ht.2 ht.1 e F
  · rename_i er e
    rw [createdBy_failed e]; exact .nothing rfl

theorem run_fac (hh : HostOK h acct) (F : Addr) : ∀ {ts : List Tx} {w : World}, Inv h acct w → (∀ t ∈ ts, Possible acct t) →
    Adds w (run h w ts) F (created h F w ts)
  | [], w, I, _ => .nothing rfl
  | t :: ts, w, I, hp => by
    obtain ⟨I1, -⟩ := exec_inv hh I (hp t (by simp))
    obtain ⟨a1, a2⟩ := exec_fac hh I (hp t (by simp)) F
    obtain ⟨b1, b2⟩ := run_fac hh F (ts := ts) I1 (fun u hu => hp u (by simp [hu]))
    refine ⟨?_, fun a b P => ?_⟩
    · show regPools (run h (exec h w t) ts) F = _
      rw [b1, a1]; simp only [created, List.map_append, List.append_assoc]
    · show regPair (run h (exec h w t) ts) F a b = _ ↔ _
      rw [b2, a2]; simp only [created, List.mem_append, or_assoc]

/-! ### Separation -/

theorem _root_.Phoenix.World.Spec.SameAt.refl (w : World) (a : Addr) : SameAt w w a := ⟨rfl, rfl, rfl, rfl, rfl, rfl, rfl, rfl, rfl⟩

theorem _root_.Phoenix.World.Spec.SameAt.trans {u v w : World} {a : Addr} (h : SameAt u v a) (k : SameAt v w a) : SameAt u w a :=
  ⟨k.code.trans h.code, k.xyk.trans h.xyk, k.stable.trans h.stable, k.stake.trans h.stake, k.vest.trans h.vest,
    k.fac.trans h.fac, k.hop.trans h.hop, k.trd.trans h.trd, k.rew.trans h.rew⟩

theorem poolSwap_same {P sender offer a : Addr} {x r : Int} {mi sp mf : Option Int} {dl : Option Nat} (ha : a ≠ P)
    (e : poolSwap w c P sender offer x mi sp dl mf = .ok (w', r)) : SameAt w w' a := by
  unfold poolSwap at e
  split at e
  · simp only [bind_ok, ok_inj, Prod.exists, Prod.mk.injEq] at e
    obtain ⟨p, hp, p', L, r', hk, rfl, rfl⟩ := e
    exact ⟨rfl, upd_ne _ _ ha, rfl, rfl, rfl, rfl, rfl, rfl, rfl⟩
  · simp only [bind_ok, ok_inj, Prod.exists, Prod.mk.injEq] at e
    obtain ⟨p, hp, p', L, r', hk, rfl, rfl⟩ := e
    exact ⟨rfl, rfl, upd_ne _ _ ha, rfl, rfl, rfl, rfl, rfl, rfl⟩
  · simp at e

theorem poolSwap_codes {P sender offer : Addr} {x r : Int} {mi sp mf : Option Int} {dl : Option Nat}
    (e : poolSwap w c P sender offer x mi sp dl mf = .ok (w', r)) : w'.code = w.code := by
  unfold poolSwap at e
  split at e
  · simp only [bind_ok, ok_inj, Prod.exists, Prod.mk.injEq] at e
    obtain ⟨p, hp, p', L, r', hk, rfl, rfl⟩ := e; rfl
  · simp only [bind_ok, ok_inj, Prod.exists, Prod.mk.injEq] at e
    obtain ⟨p, hp, p', L, r', hk, rfl, rfl⟩ := e; rfl
  · simp at e

theorem findPool_swap {P sender offer : Addr} {x r : Int} {mi sp mf : Option Int} {dl : Option Nat}
    (e : poolSwap w c P sender offer x mi sp dl mf = .ok (w', r)) (F a b : Addr) : findPool w' F a b = findPool w F a b := by
  unfold findPool expect
  rw [poolSwap_codes e, poolSwap_fac e]

theorem hopLoop_same {F recipient a : Addr} {sp mf : Option Int} {dl : Option Nat} : ∀ {ops : List Multihop.Op}
    {w w' : World} {x r : Int}, (∀ op ∈ ops, findPool w F op.offer op.ask ≠ .ok a) →
    hopLoop w c F recipient sp dl mf ops x = .ok (w', r) → SameAt w w' a
  | [], w, w', x, r, _, e => by
    simp only [hopLoop, ok_inj, Prod.mk.injEq] at e
    obtain ⟨rfl, rfl⟩ := e; exact .refl _ _
  | op :: ops, w, w', x, r, hn, e => by
    simp only [hopLoop, bind_ok, Prod.exists] at e
    obtain ⟨P, hP, w1, r1, h1, h2⟩ := e
    have hne : a ≠ P := by rintro rfl; exact hn op (by simp) hP
    refine (poolSwap_same hne h1).trans (hopLoop_same (fun o ho => ?_) h2)
    rw [findPool_swap h1]; exact hn o (by simp [ho])

theorem init_same {P a : Addr} {w1 w2 : World} {st : Stake.State} {S K : Addr} {L : Ledger}
    {x : Addr → Option Pool.State} {s : Addr → Option Stable.State}
    (h1 : deploy w S .token = .ok w1) (h2 : deploy w1 K .stake = .ok w2)
    (hx : a ≠ P → x a = w.xyk a ∧ s a = w.stable a) (ha : a ≠ P) (hc : w.code a ≠ .none) :
    SameAt w { w2 with led := L, xyk := x, stable := s, stake := upd w2.stake K st } a := by
  rw [deploy_ok] at h1 h2
  obtain ⟨hS, rfl⟩ := h1
  obtain ⟨hK, rfl⟩ := h2
  simp only at hK
  have e1 : a ≠ S := by rintro rfl; exact hc hS
  have e2 : a ≠ K := by
    rintro rfl
    rw [upd_ne _ _ e1] at hK
    exact hc hK
  refine ⟨?_, (hx ha).1, (hx ha).2, ?_, rfl, rfl, rfl, rfl, rfl⟩
  · simp only [upd_ne _ _ e1, upd_ne _ _ e2]
  · simp only [upd_ne _ _ e2]

theorem initXyk_same {P a : Addr} {i : Info} {owner : Addr} {dec : Nat} {sl mf : Int}
    (e : initXyk h w P i owner dec sl mf = .ok w') (ha : a ≠ P) (hc : w.code a ≠ .none) : SameAt w w' a := by
  unfold initXyk at e
  simp only [bind_ok, ok_inj, Prod.exists] at e
  obtain ⟨p, L', hi, w1, h1, w2, h2, st, hst, rfl⟩ := e
  have e1 : w2.stable = w.stable ∧ w2.xyk = w.xyk := by
    have k1 := h1; have k2 := h2
    rw [deploy_ok] at k1 k2
    obtain ⟨-, rfl⟩ := k1; obtain ⟨-, rfl⟩ := k2; exact ⟨rfl, rfl⟩
  exact init_same (P := P) (L := L') (st := st) h1 h2 (s := w2.stable) (x := upd w2.xyk P (some p))
    (fun k => ⟨by rw [upd_ne _ _ k, e1.2], by rw [e1.1]⟩) ha hc

theorem initStable_same {P a : Addr} {i : Info} {owner : Addr} {amp : Nat} {mf : Int}
    (e : initStable h w c P i owner amp mf = .ok w') (ha : a ≠ P) (hc : w.code a ≠ .none) : SameAt w w' a := by
  unfold initStable at e
  simp only [bind_ok, ok_inj, Prod.exists] at e
  obtain ⟨_, -, _, -, p, L', hi, w1, h1, w2, h2, st, hst, rfl⟩ := e
  have e1 : w2.stable = w.stable ∧ w2.xyk = w.xyk := by
    have k1 := h1; have k2 := h2
    rw [deploy_ok] at k1 k2
    obtain ⟨-, rfl⟩ := k1; obtain ⟨-, rfl⟩ := k2; exact ⟨rfl, rfl⟩
  exact init_same (P := P) (L := L') (st := st) h1 h2 (x := w2.xyk) (s := upd w2.stable P (some p))
    (fun k => ⟨by rw [e1.2], by rw [upd_ne _ _ k, e1.1]⟩) ha hc

theorem create_same {F sender P a : Addr} {i : Info} {k : Kind} {amp : Option Nat} {sl mf : Int}
    (e : create h w c F sender i k amp sl mf = .ok (w', P)) (ha : a ≠ F) (hc : w.code a ≠ .none) : SameAt w w' a := by
  unfold create at e
  simp only [bind_ok, req_ok, ok_inj, requireAuth_ok, deploy_ok, Prod.mk.injEq] at e
  obtain ⟨_, -, _, -, f, hf, _, -, _, -, w1, ⟨hP, rfl⟩, _, -, _, -, _, -, _, -, _, -, _, -, w2, hi, rfl, rfl⟩ := e
  have hne : a ≠ h.poolAddr F i.tokenA i.tokenB := by rintro rfl; exact hc hP
  have s1 : SameAt w { w with code := upd w.code (h.poolAddr F i.tokenA i.tokenB) k.code } a :=
    ⟨upd_ne _ _ hne, rfl, rfl, rfl, rfl, rfl, rfl, rfl, rfl⟩
  have hc1 : upd w.code (h.poolAddr F i.tokenA i.tokenB) k.code a ≠ .none := by rw [upd_ne _ _ hne]; exact hc
  have s2 : SameAt w w2 a := by
    refine s1.trans ?_
    cases k with
    | xyk => exact initXyk_same hi hne hc1
    | stable => exact initStable_same hi hne hc1
  exact s2.trans ⟨rfl, rfl, rfl, rfl, rfl, upd_ne _ _ ha, rfl, rfl, rfl⟩

/-- Only the contracts a call touches change. -/
theorem step_same {k : Call} (e : step h w c k = .ok w') {a : Addr} (ha : ¬ Touches w k a) : SameAt w w' a := by
  cases k with
  | token tok op =>
    simp only [step, bind_ok, ok_inj, expect_ok] at e
    obtain ⟨_, h1, L, h2, rfl⟩ := e
    exact ⟨rfl, rfl, rfl, rfl, rfl, rfl, rfl, rfl, rfl⟩
  | xykInit P i owner dec sl mf =>
    simp only [step, bind_ok, expect_ok] at e
    obtain ⟨_, h1, h2⟩ := e
    simp only [Touches, not_or] at ha
    exact initXyk_same h2 ha.1 ha.2
  | xyk P k =>
    cases k with
    | init i => simp [step] at e
    | _ =>
      simp only [step, bind_ok, ok_inj, expect_ok] at e
      obtain ⟨_, h1, s, h2, rfl⟩ := e
      exact ⟨rfl, upd_ne _ _ ha, rfl, rfl, rfl, rfl, rfl, rfl, rfl⟩
  | stableInit P i owner amp mf =>
    simp only [step, bind_ok, expect_ok] at e
    obtain ⟨_, h1, h2⟩ := e
    simp only [Touches, not_or] at ha
    exact initStable_same h2 ha.1 ha.2
  | stable P k =>
    cases k with
    | init i => simp [step] at e
    | _ =>
      simp only [step, bind_ok, ok_inj, expect_ok] at e
      obtain ⟨_, h1, s, h2, rfl⟩ := e
      exact ⟨rfl, rfl, upd_ne _ _ ha, rfl, rfl, rfl, rfl, rfl, rfl⟩
  | stake K k =>
    simp only [step, bind_ok, ok_inj, expect_ok] at e
    obtain ⟨_, h1, s, h2, rfl⟩ := e
    exact ⟨rfl, rfl, rfl, upd_ne _ _ ha, rfl, rfl, rfl, rfl, rfl⟩
  | vest V k =>
    cases k with
    | mint b x =>
      simp only [step, bind_ok, ok_inj, expect_ok] at e
      obtain ⟨_, h1, v, hv, _, ht, s, h2, rfl⟩ := e
      exact ⟨rfl, rfl, rfl, rfl, upd_ne _ _ ha, rfl, rfl, rfl, rfl⟩
    | _ =>
      simp only [step, bind_ok, ok_inj, expect_ok] at e
      obtain ⟨_, h1, s, h2, rfl⟩ := e
      exact ⟨rfl, rfl, rfl, rfl, upd_ne _ _ ha, rfl, rfl, rfl, rfl⟩
  | facInit F admin a1 b d e' wl dec =>
    simp only [step, facInit, bind_ok, expect_ok, deploy_ok, ok_inj, req_ok] at e
    obtain ⟨_, h1, _, h3, _, -, w1, ⟨hn, rfl⟩, m, -, rfl⟩ := e
    simp only [Touches, not_or] at ha
    have hne : a ≠ h.hopAddr F admin := by rintro rfl; exact ha.2 hn
    exact ⟨upd_ne _ _ hne, rfl, rfl, rfl, rfl, upd_ne _ _ ha.1, upd_ne _ _ hne, rfl, rfl⟩
  | create F sender i k amp sl mf =>
    simp only [step, bind_ok, ok_inj, expect_ok, Prod.exists] at e
    obtain ⟨_, h1, w1, P, h2, rfl⟩ := e
    simp only [Touches, not_or] at ha
    exact create_same h2 ha.1 ha.2
  | whitelist F sender add rem =>
    simp only [step, bind_ok, ok_inj, expect_ok] at e
    obtain ⟨_, h1, f, hf, f', -, rfl⟩ := e
    exact ⟨rfl, rfl, rfl, rfl, rfl, upd_ne _ _ ha, rfl, rfl, rfl⟩
  | hashes F a1 b d =>
    simp only [step, bind_ok, ok_inj, expect_ok] at e
    obtain ⟨_, h1, f, hf, f', -, rfl⟩ := e
    exact ⟨rfl, rfl, rfl, rfl, rfl, upd_ne _ _ ha, rfl, rfl, rfl⟩
  | facUpdate F a1 =>
    simp only [step, bind_ok, ok_inj, expect_ok] at e
    obtain ⟨_, h1, f, hf, f', -, rfl⟩ := e
    exact ⟨rfl, rfl, rfl, rfl, rfl, upd_ne _ _ ha, rfl, rfl, rfl⟩
  | hopInit H admin F =>
    simp only [step, bind_ok, ok_inj, expect_ok] at e
    obtain ⟨_, h1, m, -, rfl⟩ := e
    exact ⟨rfl, rfl, rfl, rfl, rfl, rfl, upd_ne _ _ ha, rfl, rfl⟩
  | hopSwap H recipient ops sp amount dl mf =>
    simp only [step, hopSwap, bind_ok, ok_inj, expect_ok, Prod.exists] at e
    obtain ⟨_, h1, w1, r, ⟨_, _, _, _, _, _, m, hm, h2⟩, rfl⟩ := e
    refine hopLoop_same (fun op hop k => ha ?_) h2
    exact ⟨m, hop_loaded hm, op, hop, k⟩
  | trdInit T admin a1 b o =>
    simp only [step, bind_ok, ok_inj, expect_ok] at e
    obtain ⟨_, h1, t, -, rfl⟩ := e
    exact ⟨rfl, rfl, rfl, rfl, rfl, rfl, rfl, upd_ne _ _ ha, rfl⟩
  | trade T sender token pool amount sp dl mi mf =>
    simp only [step, trade, bind_ok, ok_inj, expect_ok, Prod.exists] at e
    obtain ⟨_, h1, w1, r, ⟨_, _, t, ht, _, _, _, _, _, _, h2⟩, rfl⟩ := e
    exact poolSwap_same ha h2
  | trdTransfer T sender recipient amount token =>
    simp only [step, bind_ok, ok_inj, expect_ok, Trader.transfer] at e
    obtain ⟨_, h1, t, ht, L, ⟨_, _, _, _, h2⟩, rfl⟩ := e
    exact ⟨rfl, rfl, rfl, rfl, rfl, rfl, rfl, rfl, rfl⟩
  | rewards R k =>
    simp only [step, bind_ok, ok_inj, expect_ok] at e
    obtain ⟨_, h1, s, h2, rfl⟩ := e
    exact ⟨rfl, rfl, rfl, rfl, rfl, rfl, rfl, rfl, upd_ne _ _ ha⟩

/-! ### Whose tokens a call moves -/

theorem poolSwap_spends {P sender offer : Addr} {x r : Int} {mi sp mf : Option Int} {dl : Option Nat}
    (e : poolSwap w c P sender offer x mi sp dl mf = .ok (w', r)) :
    Moves (fun a => c.signed a = true ∨ a = P) (fun _ => True) w.led w'.led := by
  unfold poolSwap at e
  split at e
  · simp only [bind_ok, ok_inj, Prod.exists, Prod.mk.injEq] at e
    obtain ⟨p, hp, p', L, r', hk, rfl, rfl⟩ := e
    exact (Pool.swap_moves hk).mono (fun _ k => k) (fun _ k => k)
  · simp only [bind_ok, ok_inj, Prod.exists, Prod.mk.injEq] at e
    obtain ⟨p, hp, p', L, r', hk, rfl, rfl⟩ := e
    exact (Stable.swap_moves hk).mono (fun _ k => k) (fun _ k => k)
  · simp at e

theorem hopLoop_spends {w0 : World} {H F recipient : Addr} {sp mf : Option Int} {dl : Option Nat} {ops0 : List Multihop.Op} :
    ∀ {ops : List Multihop.Op} {w w' : World} {x r : Int}, (∀ o ∈ ops, o ∈ ops0) →
    (fun a b => findPool w F a b) = (fun a b => findPool w0 F a b) →
    hopLoop w (c.as H) F recipient sp dl mf ops x = .ok (w', r) →
    Moves (fun a => c.signed a = true ∨ ∃ o ∈ ops0, findPool w0 F o.offer o.ask = .ok a) (fun _ => True) w.led w'.led
  | [], w, w', x, r, _, _, e => by
    simp only [hopLoop, ok_inj, Prod.mk.injEq] at e
    obtain ⟨rfl, rfl⟩ := e; exact .refl _
  | op :: ops, w, w', x, r, hs, hf, e => by
    simp only [hopLoop, bind_ok, Prod.exists] at e
    obtain ⟨P, hP, w1, r1, h1, h2⟩ := e
    have hP' : findPool w0 F op.offer op.ask = .ok P := by rw [← hP]; exact (congrFun (congrFun hf _) _).symm
    have hf1 : (fun a b => findPool w1 F a b) = (fun a b => findPool w0 F a b) := by
      rw [← hf]; funext a b; exact findPool_swap h1 F a b
    refine ((poolSwap_spends h1).mono (fun a k => k.imp_right ?_) (fun _ k => k)).trans
      (hopLoop_spends (fun o ho => hs o (by simp [ho])) hf1 h2)
    rintro rfl; exact ⟨op, hs op (by simp), hP'⟩

/-- Tokens leave only signers and the contracts that the call involves. -/
theorem step_spends {k : Call} (hh : HostOK h acct) (I : Inv h acct w) (hi : c.invoker = none)
    (e : step h w c k = .ok w') :
    Moves (fun a => c.signed a = true ∨ Spends w k a) (fun _ => True) w.led w'.led ∨ ∃ S, FreshAt w.led w'.led S := by
  cases k with
  | token tok op =>
    simp only [step, bind_ok, ok_inj, expect_ok] at e
    obtain ⟨_, h1, L, h2, rfl⟩ := e
    refine .inl (.one h2 (fun a k => .inl ?_) (.inl trivial))
    simpa [Ctx.auth, hi] using k
  | xykInit P i owner dec sl mf =>
    simp only [step, bind_ok, expect_ok] at e
    obtain ⟨_, h1, h2⟩ := e
    obtain ⟨-, -, -, -, p, -, -, -, -, -, -, -, fr⟩ := initXyk_step hh I h1 h2
    exact .inr fr
  | xyk P k =>
    cases k with
    | init i => simp [step] at e
    | _ =>
      simp only [step, bind_ok, ok_inj, expect_ok] at e
      obtain ⟨_, h1, s, h2, rfl⟩ := e
      exact .inl ((Pool.step_moves h2 (by simp) (by simp)).mono (fun _ k => k) (fun _ k => k))
  | stableInit P i owner amp mf =>
    simp only [step, bind_ok, expect_ok] at e
    obtain ⟨_, h1, h2⟩ := e
    obtain ⟨-, -, -, -, p, -, -, -, -, -, -, -, fr⟩ := initStable_step hh I h1 h2
    exact .inr fr
  | stable P k =>
    cases k with
    | init i => simp [step] at e
    | _ =>
      simp only [step, bind_ok, ok_inj, expect_ok] at e
      obtain ⟨_, h1, s, h2, rfl⟩ := e
      exact .inl ((Stable.step_moves h2 (by simp) (by simp)).mono (fun _ k => k) (fun _ k => k))
  | stake K k =>
    simp only [step, bind_ok, ok_inj, expect_ok] at e
    obtain ⟨_, h1, s, h2, rfl⟩ := e
    exact .inl ((Stake.step_moves h2).mono (fun _ k => k) (fun _ k => k))
  | vest V k =>
    cases k with
    | mint a x =>
      simp only [step, bind_ok, ok_inj, expect_ok] at e
      obtain ⟨_, h1, v, hv, _, ht, s, h2, rfl⟩ := e
      exact .inl ((Vesting.step_moves h2 (by simp)).mono (fun _ k => k) (fun _ k => k))
    | _ =>
      simp only [step, bind_ok, ok_inj, expect_ok] at e
      obtain ⟨_, h1, s, h2, rfl⟩ := e
      exact .inl ((Vesting.step_moves h2 (by simp)).mono (fun _ k => k) (fun _ k => k))
  | facInit F admin a b d e' wl dec =>
    simp only [step, facInit, bind_ok, expect_ok, deploy_ok, ok_inj] at e
    obtain ⟨_, h1, _, -, _, -, w1, ⟨-, rfl⟩, m, -, rfl⟩ := e
    exact .inl (.refl _)
  | create F sender i k amp sl mf =>
    simp only [step, bind_ok, ok_inj, expect_ok, Prod.exists] at e
    obtain ⟨_, h1, w1, P, h2, rfl⟩ := e
    obtain ⟨-, -, f, a, -⟩ := create_step hh I h1 h2
    exact .inr a.fresh
  | whitelist F sender add rem =>
    simp only [step, bind_ok, ok_inj, expect_ok] at e
    obtain ⟨_, h1, f, hf, f', -, rfl⟩ := e
    exact .inl (.refl _)
  | hashes F a b d =>
    simp only [step, bind_ok, ok_inj, expect_ok] at e
    obtain ⟨_, h1, f, hf, f', -, rfl⟩ := e
    exact .inl (.refl _)
  | facUpdate F a =>
    simp only [step, bind_ok, ok_inj, expect_ok] at e
    obtain ⟨_, h1, f, hf, f', -, rfl⟩ := e
    exact .inl (.refl _)
  | hopInit H admin F =>
    simp only [step, bind_ok, ok_inj, expect_ok] at e
    obtain ⟨_, h1, m, -, rfl⟩ := e
    exact .inl (.refl _)
  | hopSwap H recipient ops sp amount dl mf =>
    simp only [step, hopSwap, bind_ok, ok_inj, expect_ok, Prod.exists] at e
    obtain ⟨_, h1, w1, r, ⟨_, _, _, _, _, _, m, hm, h2⟩, rfl⟩ := e
    exact .inl ((hopLoop_spends (ops0 := ops) (fun o ho => ho) rfl h2).mono (fun a k => k.imp_right (fun ⟨o, ho, q⟩ => ⟨m, hop_loaded hm, o, ho, q⟩)) (fun _ k => k))
  | trdInit T admin a b o =>
    simp only [step, bind_ok, ok_inj, expect_ok] at e
    obtain ⟨_, h1, t, -, rfl⟩ := e
    exact .inl (.refl _)
  | trade T sender token pool amount sp dl mi mf =>
    simp only [step, trade, bind_ok, ok_inj, expect_ok, Prod.exists] at e
    obtain ⟨_, h1, w1, r, ⟨_, _, t, ht, _, _, _, _, _, _, h2⟩, rfl⟩ := e
    exact .inl ((poolSwap_spends h2).mono (fun _ k => k) (fun _ k => k))
  | trdTransfer T sender recipient amount token =>
    simp only [step, bind_ok, ok_inj, expect_ok, Trader.transfer] at e
    obtain ⟨_, h1, t, ht, L, ⟨_, _, _, _, h2⟩, rfl⟩ := e
    exact .inl ((Moves.transfer h2).mono (fun _ k => k) (fun _ k => k))
  | rewards R k =>
    simp only [step, bind_ok, ok_inj, expect_ok] at e
    obtain ⟨_, h1, s, h2, rfl⟩ := e
    exact .inl ((Rewards.step_moves h2).mono (fun _ k => k) (fun _ k => k))


theorem step_untouched {k : Call} (hh : HostOK h acct) (I : Inv h acct w) (hi : c.invoker = none)
    (e : step h w c k = .ok w') {a : Addr} (hs : c.signed a = false) (hn : ¬ Spends w k a) (hL : LedInv a w.led) :
    LedInv a w'.led ∧ ∀ t, w.led.bal t a ≤ w'.led.bal t a := by
  rcases step_spends hh I hi e with m | ⟨S, f⟩
  · exact m.ledInv (by simp [hs, hn]) hL
  · exact ⟨f.ledInv hL, fun t => by rw [f.bal]⟩

end Phoenix.World
