import Verif.Lemmas.WorldFac
/-! The recorded number of shares of every pool fits into an i128 (helpers only). -/
namespace Phoenix

namespace Pool
variable {me : Addr} {c : Ctx} {p p' : State} {L L' : Ledger}

theorem mintShares_fits {d : Addr} {x : Int} (h : mintShares me c p L d x = .ok (p', L')) : p'.total ≤ I128_MAX := by
  simp only [mintShares, bind_ok, ok_inj, Prod.mk.injEq, addI_ok] at h
  obtain ⟨L1, h1, _, ⟨h2, rfl⟩, rfl, rfl⟩ := h
  exact h2.2

theorem burnShares_fits {x : Int} (h : burnShares me c p L x = .ok (p', L')) : p'.total ≤ I128_MAX := by
  simp only [burnShares, bind_ok, ok_inj, Prod.mk.injEq, subI_ok] at h
  obtain ⟨L1, h1, _, ⟨h2, rfl⟩, rfl, rfl⟩ := h
  exact h2.2

theorem swapReserves_total {o : Addr} {x : Int} {r : ComputeSwap} (h : swapReserves p o x r = .ok p') : p'.total = p.total := by
  unfold swapReserves at h
  split at h <;> simp only [bind_ok, ok_inj] at h
  · obtain ⟨_, _, _, _, _, _, _, _, rfl⟩ := h; rfl
  · obtain ⟨_, _, _, _, _, _, _, _, rfl⟩ := h; rfl

theorem swap_total {sender offer : Addr} {x r : Int} {mi sp mf : Option Int} {dl : Option Nat}
    (h : swap me c p L sender offer x mi sp dl mf = .ok (p', L', r)) : p'.total = p.total := by
  simp only [swap, doSwap, bind_ok, ok_inj, Prod.mk.injEq, Prod.exists] at h
  obtain ⟨_, _, _, _, _, _, _, _, _, _, _, _, _, _, _, _, _, _, _, _, _, _, _, L1, h1, _, _, L2, h2, L3, h3, q, hq, rfl, rfl, rfl⟩ := h
  exact swapReserves_total hq

theorem step_fits {s s' : Sys} {k : Call} (h : step me s (.pool c k) = .ok s') (hs : ∀ p, s.pool = some p → p.total ≤ I128_MAX) :
    ∀ p, s'.pool = some p → p.total ≤ I128_MAX := by
  have hq : ∀ p, loaded s.pool = .ok p → p.total ≤ I128_MAX := by
    intro p hp; apply hs; revert hp; unfold loaded; split <;> simp_all
  cases k with
  | init i =>
    simp only [step, bind_ok, ok_inj, Prod.exists] at h
    obtain ⟨p, L, h, rfl⟩ := h
    obtain ⟨-, -, h2, -⟩ := init_inv h
    intro q hq'
    cases hq'
    rw [h2.1]; decide
  | provide =>
    simp only [step, provide, bind_ok, ok_inj, Prod.mk.injEq, Prod.exists] at h
    obtain ⟨p, hp, p', L, ⟨_, _, _, _, _, _, _, _, _, _, _, _, _, _, _, _, _, L1, h1, L2, h2, _, _, _, _, _, p1, L3, h3, _, _, p2, L4, h4, rfl, rfl⟩, rfl⟩ := h
    intro q hq'
    cases hq'
    exact (mintShares_fits h4 : p2.total ≤ _)
  | swap =>
    simp only [step, bind_ok, ok_inj, Prod.exists] at h
    obtain ⟨p, hp, p', L, r, h, rfl⟩ := h
    intro q hq'
    cases hq'
    rw [swap_total h]
    exact hq p hp
  | withdraw =>
    simp only [step, withdraw, bind_ok, ok_inj, Prod.mk.injEq, Prod.exists] at h
    obtain ⟨p, hp, p', L, _, _, ⟨_, _, _, _, _, _, _, _, _, _, L1, h1, _, _, _, _, _, _, _, _, _, _, p1, L2, h2, L3, h3, L4, h4, _, _, _, _, rfl, rfl, rfl, rfl⟩, rfl⟩ := h
    intro q hq'
    cases hq'
    exact (burnShares_fits h2 : p1.total ≤ _)
  | updateConfig u =>
    simp only [step, bind_ok, ok_inj, updateConfig] at h
    obtain ⟨p, hp, p', ⟨_, _, _, _, _, _, _, _, _, _, rfl⟩, rfl⟩ := h
    intro q hq'
    cases hq'
    exact hq p hp
  | upgrade =>
    simp only [step, bind_ok, ok_inj, upgrade] at h
    obtain ⟨p, hp, p', ⟨_, _, rfl⟩, rfl⟩ := h
    intro q hq'
    cases hq'
    exact hq p hp

end Pool

namespace Stable
variable {me : Addr} {c : Ctx} {p p' : State} {L L' : Ledger}

theorem mintShares_fits {d : Addr} {x : Int} (h : mintShares me c p L d x = .ok (p', L')) : p'.total ≤ I128_MAX := by
  simp only [mintShares, bind_ok, ok_inj, Prod.mk.injEq, addI_ok] at h
  obtain ⟨L1, h1, _, ⟨h2, rfl⟩, rfl, rfl⟩ := h
  exact h2.2

theorem burnShares_fits {x : Int} (h : burnShares me c p L x = .ok (p', L')) : p'.total ≤ I128_MAX := by
  simp only [burnShares, bind_ok, ok_inj, Prod.mk.injEq, subI_ok] at h
  obtain ⟨L1, h1, _, ⟨h2, rfl⟩, rfl, rfl⟩ := h
  exact h2.2

theorem swapReserves_total {o : Addr} {x : Int} {r : Quote} (h : swapReserves p o x r = .ok p') : p'.total = p.total := by
  unfold swapReserves at h
  split at h <;> simp only [bind_ok, ok_inj] at h
  · obtain ⟨_, _, _, _, _, _, rfl⟩ := h; rfl
  · obtain ⟨_, _, _, _, _, _, rfl⟩ := h; rfl

theorem swap_total {sender offer : Addr} {x r : Int} {mi sp mf : Option Int} {dl : Option Nat}
    (h : swap me c p L sender offer x mi sp dl mf = .ok (p', L', r)) : p'.total = p.total := by
  simp only [swap, doSwap, bind_ok, ok_inj, Prod.mk.injEq, Prod.exists] at h
  obtain ⟨_, _, _, _, _, _, _, _, _, _, _, _, _, _, _, _, _, _, _, L1, h1, _, _, L2, h2, L3, h3, q, hq, rfl, rfl, rfl⟩ := h
  exact swapReserves_total hq

theorem step_fits {s s' : Sys} {k : Call} (h : step me s (.pool c k) = .ok s') (hs : ∀ p, s.pool = some p → p.total ≤ I128_MAX) :
    ∀ p, s'.pool = some p → p.total ≤ I128_MAX := by
  have hq : ∀ p, loaded s.pool = .ok p → p.total ≤ I128_MAX := by
    intro p hp; apply hs; revert hp; unfold loaded; split <;> simp_all
  cases k with
  | init i =>
    simp only [step, bind_ok, ok_inj, Prod.exists] at h
    obtain ⟨p, L, h, rfl⟩ := h
    obtain ⟨-, -, h2, -⟩ := init_inv h
    intro q hq'
    cases hq'
    rw [h2.1]; decide
  | provide =>
    simp only [step, provide, bind_ok, ok_inj, Prod.mk.injEq, Prod.exists] at h
    obtain ⟨p, hp, p', L, ⟨_, _, _, _, _, _, _, _, _, _, _, _, L1, h1, L2, h2, _, _, _, _, _, _, _, _, _, _, _, _, _, _, _, _, _, _, _, _, p2, L4, h4, rfl, rfl⟩, rfl⟩ := h
    intro q hq'
    cases hq'
    exact (mintShares_fits h4 : p2.total ≤ _)
  | swap =>
    simp only [step, bind_ok, ok_inj, Prod.exists] at h
    obtain ⟨p, hp, p', L, r, h, rfl⟩ := h
    intro q hq'
    cases hq'
    rw [swap_total h]
    exact hq p hp
  | withdraw =>
    simp only [step, withdraw, bind_ok, ok_inj, Prod.mk.injEq, Prod.exists] at h
    obtain ⟨p, hp, p', L, _, _, ⟨_, _, _, _, _, _, _, _, _, _, L1, h1, _, _, _, _, _, _, _, _, _, _, p1, L2, h2, L3, h3, L4, h4, _, _, _, _, rfl, rfl, rfl, rfl⟩, rfl⟩ := h
    intro q hq'
    cases hq'
    exact (burnShares_fits h2 : p1.total ≤ _)
  | updateConfig u =>
    simp only [step, bind_ok, ok_inj, updateConfig] at h
    obtain ⟨p, hp, p', ⟨_, _, _, _, _, _, _, _, rfl⟩, rfl⟩ := h
    intro q hq'
    cases hq'
    exact hq p hp

end Stable

namespace World
variable {h : Host} {c : Ctx} {w w' : World}

/-- Every recorded number of shares fits into an i128. -/
structure Fits (w : World) : Prop where
  xyk : ∀ P p, w.xyk P = some p → p.total ≤ I128_MAX
  stable : ∀ P p, w.stable P = some p → p.total ≤ I128_MAX

theorem Fits.congr (f : Fits w) (h1 : w'.xyk = w.xyk) (h2 : w'.stable = w.stable) : Fits w' :=
  ⟨by rw [h1]; exact f.xyk, by rw [h2]; exact f.stable⟩

theorem upd_fits {f : Addr → Option Pool.State} {P : Addr} {v : Option Pool.State} (hf : ∀ P p, f P = some p → p.total ≤ I128_MAX)
    (hv : ∀ p, v = some p → p.total ≤ I128_MAX) : ∀ Q p, upd f P v Q = some p → p.total ≤ I128_MAX := by
  intro Q p
  by_cases e : Q = P
  · subst e; rw [upd_same]; exact hv p
  · rw [upd_ne _ _ e]; exact hf Q p

theorem upd_fits' {f : Addr → Option Stable.State} {P : Addr} {v : Option Stable.State} (hf : ∀ P p, f P = some p → p.total ≤ I128_MAX)
    (hv : ∀ p, v = some p → p.total ≤ I128_MAX) : ∀ Q p, upd f P v Q = some p → p.total ≤ I128_MAX := by
  intro Q p
  by_cases e : Q = P
  · subst e; rw [upd_same]; exact hv p
  · rw [upd_ne _ _ e]; exact hf Q p

theorem deploy_fits {a : Addr} {k : Code} (f : Fits w) (e : deploy w a k = .ok w') : Fits w' := by
  simp only [deploy, bind_ok, ok_inj] at e
  obtain ⟨_, _, rfl⟩ := e
  exact f.congr rfl rfl

theorem initXyk_fits {P owner : Addr} {i : Info} {dec : Nat} {sl mf : Int} (f : Fits w) (e : initXyk h w P i owner dec sl mf = .ok w') :
    Fits w' := by
  simp only [initXyk, bind_ok, ok_inj, Prod.exists] at e
  obtain ⟨p, L, h1, w1, h2, w2, h3, st, h4, rfl⟩ := e
  have g := deploy_fits (deploy_fits f h2) h3
  obtain ⟨-, -, h5, -⟩ := Pool.init_inv h1
  exact ⟨upd_fits g.xyk (by rintro q ⟨⟩; rw [h5.1]; decide), g.stable⟩

theorem initStable_fits {P owner : Addr} {i : Info} {amp : Nat} {mf : Int} (f : Fits w) (e : initStable h w c P i owner amp mf = .ok w') :
    Fits w' := by
  simp only [initStable, bind_ok, ok_inj, Prod.exists] at e
  obtain ⟨_, _, _, _, p, L, h1, w1, h2, w2, h3, st, h4, rfl⟩ := e
  have g := deploy_fits (deploy_fits f h2) h3
  obtain ⟨-, -, h5, -⟩ := Stable.init_inv h1
  exact ⟨g.xyk, upd_fits' g.stable (by rintro q ⟨⟩; rw [h5.1]; decide)⟩

theorem poolSwap_fits {P sender offer : Addr} {x r : Int} {mi sp mf : Option Int} {dl : Option Nat} (f : Fits w)
    (e : poolSwap w c P sender offer x mi sp dl mf = .ok (w', r)) : Fits w' := by
  unfold poolSwap at e
  split at e
  · simp only [bind_ok, ok_inj, Prod.exists, Prod.mk.injEq] at e
    obtain ⟨p, hp, p', L, r', hk, rfl, rfl⟩ := e
    have hp' : w.xyk P = some p := by revert hp; unfold Pool.loaded; split <;> simp_all
    exact ⟨upd_fits f.xyk (by rintro q ⟨⟩; rw [Pool.swap_total hk]; exact f.xyk P p hp'), f.stable⟩
  · simp only [bind_ok, ok_inj, Prod.exists, Prod.mk.injEq] at e
    obtain ⟨p, hp, p', L, r', hk, rfl, rfl⟩ := e
    have hp' : w.stable P = some p := by revert hp; unfold Stable.loaded; split <;> simp_all
    exact ⟨f.xyk, upd_fits' f.stable (by rintro q ⟨⟩; rw [Stable.swap_total hk]; exact f.stable P p hp')⟩
  · cases e

theorem hopLoop_fits {F recipient : Addr} {sp mf : Option Int} {dl : Option Nat} : ∀ {ops : List Multihop.Op}
    {w w' : World} {x r : Int}, Fits w → hopLoop w c F recipient sp dl mf ops x = .ok (w', r) → Fits w'
  | [], w, w', x, r, f, e => by
    simp only [hopLoop, ok_inj, Prod.mk.injEq] at e
    obtain ⟨rfl, rfl⟩ := e; exact f
  | op :: ops, w, w', x, r, f, e => by
    simp only [hopLoop, bind_ok, Prod.exists] at e
    obtain ⟨P, hP, w1, r1, h1, h2⟩ := e
    exact hopLoop_fits (poolSwap_fits f h1) h2

theorem step_fits {k : Call} (f : Fits w) (e : step h w c k = .ok w') : Fits w' := by
  cases k with
  | token tok op =>
    simp only [step, bind_ok, ok_inj] at e
    obtain ⟨_, _, L, _, rfl⟩ := e
    exact f.congr rfl rfl
  | xykInit P i owner dec sl mf =>
    simp only [step, bind_ok] at e
    obtain ⟨_, _, e⟩ := e
    exact initXyk_fits f e
  | xyk P k =>
    cases k with
    | init i => simp [step] at e
    | _ =>
      simp only [step, bind_ok, ok_inj] at e
      obtain ⟨_, _, s, hs, rfl⟩ := e
      exact ⟨upd_fits f.xyk (Pool.step_fits hs (f.xyk P)), f.stable⟩
  | stableInit P i owner amp mf =>
    simp only [step, bind_ok] at e
    obtain ⟨_, _, e⟩ := e
    exact initStable_fits f e
  | stable P k =>
    cases k with
    | init i => simp [step] at e
    | _ =>
      simp only [step, bind_ok, ok_inj] at e
      obtain ⟨_, _, s, hs, rfl⟩ := e
      exact ⟨f.xyk, upd_fits' f.stable (Stable.step_fits hs (f.stable P))⟩
  | stake K k =>
    simp only [step, bind_ok, ok_inj] at e
    obtain ⟨_, _, L, _, rfl⟩ := e
    exact f.congr rfl rfl
  | vest V k =>
    cases k with
    | mint sd am =>
      simp only [step, bind_ok, ok_inj] at e
      obtain ⟨_, _, _, _, _, _, L, _, rfl⟩ := e
      exact f.congr rfl rfl
    | _ =>
      simp only [step, bind_ok, ok_inj] at e
      obtain ⟨_, _, L, _, rfl⟩ := e
      exact f.congr rfl rfl
  | facInit F admin lp stb stk tok wl dec =>
    simp only [step, facInit, bind_ok, ok_inj] at e
    obtain ⟨_, _, _, _, _, _, w1, h1, m, _, rfl⟩ := e
    exact (deploy_fits f h1).congr rfl rfl
  | create F sender i k amp sl mf =>
    simp only [step, create, bind_ok, ok_inj, Prod.exists, Prod.mk.injEq] at e
    obtain ⟨_, _, _, _, ⟨_, _, _, _, _, _, _, _, _, _, w1, h1, _, _, _, _, _, _, _, _, _, _, _, _, w2, h2, rfl, rfl⟩, rfl⟩ := e
    have g := deploy_fits f h1
    cases k with
    | xyk => exact (initXyk_fits g h2).congr rfl rfl
    | stable => exact (initStable_fits g h2).congr rfl rfl
  | whitelist F sender add rem =>
    simp only [step, bind_ok, ok_inj] at e
    obtain ⟨_, _, _, _, L, _, rfl⟩ := e
    exact f.congr rfl rfl
  | hashes F lp stk tok =>
    simp only [step, bind_ok, ok_inj] at e
    obtain ⟨_, _, _, _, L, _, rfl⟩ := e
    exact f.congr rfl rfl
  | facUpdate F stb =>
    simp only [step, bind_ok, ok_inj] at e
    obtain ⟨_, _, _, _, L, _, rfl⟩ := e
    exact f.congr rfl rfl
  | hopInit H admin F =>
    simp only [step, bind_ok, ok_inj] at e
    obtain ⟨_, _, L, _, rfl⟩ := e
    exact f.congr rfl rfl
  | hopSwap H r ops sp x dl mf =>
    simp only [step, hopSwap, bind_ok, ok_inj, Prod.exists] at e
    obtain ⟨_, _, _, _, ⟨_, _, _, _, _, _, m, _, e⟩, rfl⟩ := e
    exact hopLoop_fits f e
  | trdInit T admin a b o =>
    simp only [step, bind_ok, ok_inj] at e
    obtain ⟨_, _, L, _, rfl⟩ := e
    exact f.congr rfl rfl
  | trade T sender token pool amount spread dl min mf =>
    simp only [step, trade, bind_ok, ok_inj, Prod.exists] at e
    obtain ⟨_, _, _, _, ⟨_, _, _, _, _, _, _, _, _, _, e⟩, rfl⟩ := e
    exact poolSwap_fits f e
  | trdTransfer T sender r x token =>
    simp only [step, bind_ok, ok_inj] at e
    obtain ⟨_, _, _, _, L, _, rfl⟩ := e
    exact f.congr rfl rfl
  | rewards R k =>
    simp only [step, bind_ok, ok_inj] at e
    obtain ⟨_, _, L, _, rfl⟩ := e
    exact f.congr rfl rfl

theorem exec_fits {t : Tx} (f : Fits w) : Fits (exec h w t) := by
  unfold exec
  split
  · rename_i e; exact step_fits f e
  · exact f

theorem run_fits {ts : List Tx} (f : Fits w) : Fits (run h w ts) := by
  induction ts generalizing w with
  | nil => exact f
  | cons t ts ih => exact ih (exec_fits f)

end World
end Phoenix
