import Verif.Lemmas.Later
import Verif.Lemmas.Delay
/-! Distributions are dated after time zero, when all calls are made after time zero (helpers only). -/
namespace Phoenix.Later
open World

variable {h : Host} {w w' : World} {c : Ctx}

/-- in all stake contracts -/
def Keys (w : World) : Prop := ∀ K, KeysPos (w.stake K)

theorem Keys.congr (b : Keys w) (hk : w'.stake = w.stake) : Keys w' := by unfold Keys; rw [hk]; exact b

theorem Keys.put (b : Keys w) {K : Addr} {s : Stake.State} (hs : KeysPos s) (hk : w'.stake = upd w.stake K s) : Keys w' := by
  intro J
  rw [hk]
  by_cases e : J = K
  · subst e; rw [upd_same]; exact hs
  · simp only [upd, e, if_false]; exact b J

theorem poolSwap_stake {P s o : Addr} {x r : Int} {mi sp mf : Option Int} {dl : Option Nat}
    (e : poolSwap w c P s o x mi sp dl mf = .ok (w', r)) : w'.stake = w.stake := by
  unfold poolSwap at e
  split at e
  · simp only [bind_ok, ok_inj, Prod.exists, Prod.mk.injEq] at e
    obtain ⟨_, _, _, _, _, _, rfl, rfl⟩ := e
    rfl
  · simp only [bind_ok, ok_inj, Prod.exists, Prod.mk.injEq] at e
    obtain ⟨p, hp, q, L, r', hq, rfl, rfl⟩ := e
    rfl
  · simp at e

theorem hopLoop_stake {F s : Addr} {sp mf : Option Int} {dl : Option Nat} : ∀ {ops : List Multihop.Op} {w w' : World} {x r : Int},
    hopLoop w c F s sp dl mf ops x = .ok (w', r) → w'.stake = w.stake
  | [], w, w', x, r, e => by
    simp only [hopLoop, ok_inj, Prod.mk.injEq] at e
    obtain ⟨rfl, rfl⟩ := e
    rfl
  | op :: ops, w, w', x, r, e => by
    simp only [hopLoop, bind_ok, Prod.exists] at e
    obtain ⟨Q, hQ, w1, r1, h1, h2⟩ := e
    exact (hopLoop_stake h2).trans (poolSwap_stake h1)

theorem init_keys {s s' : Stake.State} {a lp m o : Addr} {mb mr : Int} {mc : Nat} (b : KeysPos s)
    (e : Stake.init s a lp mb mr m o mc = .ok s') : KeysPos s' := by
  unfold Stake.init at e
  simp only [bind_ok, ok_inj] at e
  obtain ⟨_, _, _, _, _, _, _, _, rfl⟩ := e
  exact b

theorem initXyk_keys {P owner : Addr} {i : Info} {dec : Nat} {sl mf : Int} (b : Keys w)
    (e : initXyk h w P i owner dec sl mf = .ok w') : Keys w' := by
  simp only [initXyk, bind_ok, ok_inj, Prod.exists] at e
  obtain ⟨p, L, _, w1, h1, w2, h2, st, h3, rfl⟩ := e
  obtain ⟨-, d2, -⟩ := deploy_same h1
  obtain ⟨-, d4, -⟩ := deploy_same h2
  have b2 : Keys w2 := b.congr (d4.trans d2)
  exact b2.put (init_keys (b2 _) h3) rfl

theorem initStable_keys {P owner : Addr} {i : Info} {amp : Nat} {mf : Int} (b : Keys w)
    (e : initStable h w c P i owner amp mf = .ok w') : Keys w' := by
  simp only [initStable, bind_ok, ok_inj, Prod.exists] at e
  obtain ⟨_, _, _, _, p, L, hp, w1, h1, w2, h2, st, h3, rfl⟩ := e
  obtain ⟨-, d2, -⟩ := deploy_same h1
  obtain ⟨-, d4, -⟩ := deploy_same h2
  have b2 : Keys w2 := b.congr (d4.trans d2)
  exact b2.put (init_keys (b2 _) h3) rfl

theorem step_keys {k : Call} (b : Keys w) (hn : 0 < c.now) (e : step h w c k = .ok w') : Keys w' := by
  cases k with
  | token tok op =>
    simp only [step, bind_ok, ok_inj] at e
    obtain ⟨_, _, L, _, rfl⟩ := e
    exact b
  | xykInit P i owner dec sl mf =>
    simp only [step, bind_ok] at e
    obtain ⟨_, _, e⟩ := e
    exact initXyk_keys b e
  | xyk P k =>
    cases k <;> simp only [step, bind_ok, ok_inj, reduceCtorEq] at e
    all_goals
      obtain ⟨_, _, s, _, rfl⟩ := e
      exact b
  | stableInit P i owner amp mf =>
    simp only [step, bind_ok] at e
    obtain ⟨_, _, e⟩ := e
    exact initStable_keys b e
  | stable P k =>
    cases k <;> simp only [step, bind_ok, ok_inj, reduceCtorEq] at e
    all_goals
      obtain ⟨_, _, s, _, rfl⟩ := e
      exact b
  | stake K k =>
    simp only [step, bind_ok, ok_inj] at e
    obtain ⟨_, _, s, hs, rfl⟩ := e
    exact b.put (keysPos_step (b K) hn hs) rfl
  | vest V k =>
    cases k <;> simp only [step, bind_ok, ok_inj] at e
    case mint =>
      obtain ⟨_, _, v, _, _, _, s, _, rfl⟩ := e
      exact b
    all_goals
      obtain ⟨_, _, s, _, rfl⟩ := e
      exact b
  | facInit F admin lp stb stk tok wl dec =>
    simp only [step, facInit, bind_ok, ok_inj] at e
    obtain ⟨_, _, _, _, _, _, w1, h1, m, _, rfl⟩ := e
    obtain ⟨-, d2, -⟩ := deploy_same h1
    exact b.congr d2
  | create F sender i k amp sl mf =>
    simp only [step, create, bind_ok, ok_inj, Prod.exists, Prod.mk.injEq] at e
    obtain ⟨_, _, w2, P, ⟨_, _, _, _, f, _, _, _, _, _, w1, h1, _, _, _, _, _, _, _, _, _, _, _, _, w3, h2, rfl, rfl⟩, rfl⟩ := e
    obtain ⟨-, d2, -⟩ := deploy_same h1
    have b1 : Keys w1 := b.congr d2
    have b3 : Keys w3 := by
      cases k with
      | xyk => exact initXyk_keys b1 h2
      | stable => exact initStable_keys (c := c.as F) b1 h2
    exact b3
  | whitelist F sender add rem =>
    simp only [step, bind_ok, ok_inj] at e
    obtain ⟨_, _, f, _, f', _, rfl⟩ := e
    exact b
  | hashes F lp stk tok =>
    simp only [step, bind_ok, ok_inj] at e
    obtain ⟨_, _, f, _, f', _, rfl⟩ := e
    exact b
  | facUpdate F stb =>
    simp only [step, bind_ok, ok_inj] at e
    obtain ⟨_, _, f, _, f', _, rfl⟩ := e
    exact b
  | hopInit H admin F =>
    simp only [step, bind_ok, ok_inj] at e
    obtain ⟨_, _, m, _, rfl⟩ := e
    exact b
  | hopSwap H recipient ops sp amount dl mf =>
    simp only [step, hopSwap, bind_ok, ok_inj, Prod.exists] at e
    obtain ⟨_, h1, w1, r, ⟨_, _, _, _, _, _, m, hm, h2⟩, rfl⟩ := e
    exact b.congr (hopLoop_stake h2)
  | trdInit T admin a b' o =>
    simp only [step, bind_ok, ok_inj] at e
    obtain ⟨_, _, m, _, rfl⟩ := e
    exact b
  | trade T sender token pool amount sp dl mi mf =>
    simp only [step, trade, bind_ok, ok_inj, Prod.exists] at e
    obtain ⟨_, h1, w1, r, ⟨_, _, t, ht, _, _, _, _, _, _, h2⟩, rfl⟩ := e
    exact b.congr (poolSwap_stake h2)
  | trdTransfer T sender recipient amount token =>
    simp only [step, bind_ok, ok_inj] at e
    obtain ⟨_, _, t, _, L, _, rfl⟩ := e
    exact b
  | rewards R k =>
    simp only [step, bind_ok, ok_inj] at e
    obtain ⟨_, _, s, _, rfl⟩ := e
    exact b

theorem exec_later {d : Nat} {t : Tx} (b : Keys w) (ht : InRange d t) :
    exec h (world d w) (tx d t) = world d (exec h w t) ∧ Keys (exec h w t) := by
  have e := step_later d h b ht
  refine ⟨?_, ?_⟩
  · unfold exec
    simp only [tx, e]
    cases step h w t.ctx t.call <;> rfl
  · unfold exec
    cases e' : step h w t.ctx t.call with
    | error _ => exact b
    | ok w' => exact step_keys b ht.1 e'

theorem run_later {d : Nat} {ts : List Tx} (ht : ∀ t ∈ ts, InRange d t) (b : Keys w) :
    run h (world d w) (ts.map (tx d)) = world d (run h w ts) ∧ Keys (run h w ts) := by
  induction ts generalizing w with
  | nil => exact ⟨rfl, b⟩
  | cons t ts ih =>
    obtain ⟨e, b'⟩ := exec_later (h := h) b (ht t (by simp))
    obtain ⟨e2, b2⟩ := ih (fun x hx => ht x (by simp [hx])) b'
    simp only [run, List.map_cons, List.foldl_cons] at e2 b2 ⊢
    rw [e]
    exact ⟨e2, b2⟩

end Phoenix.Later
