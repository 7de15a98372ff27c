import Verif.Lemmas.WorldSys
/-!
# Contracts never touch allowances or administrators of tokens (helpers only)
-/
namespace Phoenix
open Phoenix.Spec (SameRights)

namespace Pool
variable {me : Addr} {c : Ctx} {p p' : State} {L L' : Ledger}

theorem mintShares_rights {d : Addr} {x : Int} (h : mintShares me c p L d x = .ok (p', L'))  : SameRights L L' := by
  simp only [mintShares, bind_ok, ok_inj, Prod.mk.injEq] at h
  obtain ⟨L1, h1, _, _, rfl, rfl⟩ := h
  exact (Ledger.mint_inv h1).2.2.2

theorem burnShares_rights {x : Int} (h : burnShares me c p L x = .ok (p', L')) :
    SameRights L L' := by
  simp only [burnShares, bind_ok, ok_inj, Prod.mk.injEq] at h
  obtain ⟨L1, h1, _, _, rfl, rfl⟩ := h
  exact (Ledger.burn_inv h1).2.2.2.2

theorem newShares_rights {a b x y n : Int} (h : newShares me c p L a b x y = .ok (n, p', L'))  : SameRights L L' := by
  unfold newShares at h
  split at h
  · simp only [bind_ok, ok_inj, Prod.mk.injEq] at h
    obtain ⟨_, _, _, _, _, _, _, _, _, rfl, rfl⟩ := h
    exact Ledger.sameRights_refl _
  · simp only [bind_ok, ok_inj, Prod.mk.injEq, Prod.exists] at h
    obtain ⟨_, _, _, _, _, _, p1, L1, h1, _, _, _, rfl, rfl⟩ := h
    exact mintShares_rights h1

theorem provide_rights {sender : Addr} {x1 x2 x3 x4 x5 : Option Int} {dl : Option Nat}
    (h : provide me c p L sender x1 x2 x3 x4 x5 dl = .ok (p', L')) :
    SameRights L L' := by
  simp only [provide, bind_ok, ok_inj, Prod.mk.injEq, Prod.exists] at h
  obtain ⟨_, _, _, _, _, _, _, _, _, _, _, _, _, _, _, _, _, L1, h1, L2, h2, _, _, _, _, _, p1, L3, h3, _, _, p2, L4, h4, rfl, rfl⟩ := h
  exact Ledger.sameRights_trans (Ledger.transfer_inv h1 |>.2.2.2.2) (Ledger.sameRights_trans (Ledger.transfer_inv h2 |>.2.2.2.2) (Ledger.sameRights_trans (newShares_rights h3) (mintShares_rights h4)))

theorem withdraw_rights {sender : Addr} {x1 x2 x3 r1 r2 : Int} {dl : Option Nat}
    (h : withdraw me c p L sender x1 x2 x3 dl = .ok (p', L', r1, r2)) : SameRights L L' := by
  simp only [withdraw, bind_ok, ok_inj, Prod.mk.injEq, Prod.exists] at h
  obtain ⟨_, _, _, _, _, _, _, _, _, _, L1, h1, _, _, _, _, _, _, _, _, _, _, p1, L2, h2, L3, h3, L4, h4, _, _, _, _, rfl, rfl, rfl, rfl⟩ := h
  exact Ledger.sameRights_trans (Ledger.transfer_inv h1 |>.2.2.2.2) (Ledger.sameRights_trans (burnShares_rights h2) (Ledger.sameRights_trans (Ledger.transfer_inv h3 |>.2.2.2.2) (Ledger.transfer_inv h4 |>.2.2.2.2)))

theorem swap_rights {sender offer : Addr} {x r : Int} {x1 x2 x3 : Option Int} {dl : Option Nat}
    (h : swap me c p L sender offer x x1 x2 dl x3 = .ok (p', L', r)) : SameRights L L' := by
  simp only [swap, doSwap, bind_ok, ok_inj, Prod.mk.injEq, Prod.exists] at h
  obtain ⟨_, _, _, _, _, _, _, _, _, _, _, _, _, _, _, _, _, _, _, _, _, _, _, L1, h1, _, _, L2, h2, L3, h3, _, _, rfl, rfl, rfl⟩ := h
  exact Ledger.sameRights_trans (Ledger.transfer_inv h1 |>.2.2.2.2) (Ledger.sameRights_trans (Ledger.transfer_inv h2 |>.2.2.2.2) (Ledger.transfer_inv h3 |>.2.2.2.2))

/-- Every call but `initialize`. -/
theorem step_rights {s s' : Sys} {k : Call} (h : step me s (.pool c k) = .ok s') (hk : ∀ i, k ≠ .init i) : SameRights s.led s'.led := by
  cases k with
  | init i => exact absurd rfl (hk i)
  | provide =>
    simp only [step, bind_ok, ok_inj, Prod.exists] at h
    obtain ⟨p, hp, p', L, h, rfl⟩ := h
    exact provide_rights h
  | swap =>
    simp only [step, bind_ok, ok_inj, Prod.exists] at h
    obtain ⟨p, hp, p', L, r, h, rfl⟩ := h
    exact swap_rights h
  | withdraw =>
    simp only [step, bind_ok, ok_inj, Prod.exists] at h
    obtain ⟨p, hp, p', L, _, _, h, rfl⟩ := h
    exact withdraw_rights h
  | updateConfig =>
    simp only [step, bind_ok, ok_inj] at h
    obtain ⟨p, hp, p', h, rfl⟩ := h
    exact Ledger.sameRights_refl _
  | upgrade =>
    simp only [step, bind_ok, ok_inj] at h
    obtain ⟨p, hp, p', h, rfl⟩ := h
    exact Ledger.sameRights_refl _

end Pool

namespace Stable
variable {me : Addr} {c : Ctx} {p p' : State} {L L' : Ledger}

theorem provide_rights {sender : Addr} {x y : Int} {x1 : Option Int} {dl m : Option Nat}
    (h : provide me c p L sender x y x1 dl m = .ok (p', L')) :
    SameRights L L' := by
  simp only [provide, mintShares, bind_ok, ok_inj, Prod.mk.injEq, Prod.exists] at h
  obtain ⟨_, _, _, _, _, _, _, _, _, _, _, _, L1, h1, L2, h2, _, _, _, _, _, _, _, _, _, _, _, _, _, _, _, _, _, _, _, _, p1, L3, ⟨L4, h3, _, _, rfl, rfl⟩, rfl, rfl⟩ := h
  exact Ledger.sameRights_trans (Ledger.transfer_inv h1 |>.2.2.2.2) (Ledger.sameRights_trans (Ledger.transfer_inv h2 |>.2.2.2.2) (Ledger.mint_inv h3 |>.2.2.2))

theorem withdraw_rights {sender : Addr} {x1 x2 x3 r1 r2 : Int} {dl : Option Nat}
    (h : withdraw me c p L sender x1 x2 x3 dl = .ok (p', L', r1, r2)) : SameRights L L' := by
  simp only [withdraw, burnShares, bind_ok, ok_inj, Prod.mk.injEq, Prod.exists] at h
  obtain ⟨_, _, _, _, _, _, _, _, _, _, L1, h1, _, _, _, _, _, _, _, _, _, _, p1, L2, ⟨L2', h2, _, _, rfl, rfl⟩, L3, h3, L4, h4, _, _, _, _, rfl, rfl, rfl, rfl⟩ := h
  exact Ledger.sameRights_trans (Ledger.transfer_inv h1 |>.2.2.2.2) (Ledger.sameRights_trans (Ledger.burn_inv h2 |>.2.2.2.2) (Ledger.sameRights_trans (Ledger.transfer_inv h3 |>.2.2.2.2) (Ledger.transfer_inv h4 |>.2.2.2.2)))

theorem swap_rights {sender offer : Addr} {x r : Int} {x1 x2 x3 : Option Int} {dl : Option Nat}
    (h : swap me c p L sender offer x x1 x2 dl x3 = .ok (p', L', r)) : SameRights L L' := by
  simp only [swap, doSwap, bind_ok, ok_inj, Prod.mk.injEq, Prod.exists] at h
  obtain ⟨_, _, _, _, _, _, _, _, _, _, _, _, _, _, _, _, _, _, _, L1, h1, _, _, L2, h2, L3, h3, _, _, rfl, rfl, rfl⟩ := h
  exact Ledger.sameRights_trans (Ledger.transfer_inv h1 |>.2.2.2.2) (Ledger.sameRights_trans (Ledger.transfer_inv h2 |>.2.2.2.2) (Ledger.transfer_inv h3 |>.2.2.2.2))

/-- Every call but `initialize`. -/
theorem step_rights {s s' : Sys} {k : Call} (h : step me s (.pool c k) = .ok s') (hk : ∀ i, k ≠ .init i) : SameRights s.led s'.led := by
  cases k with
  | init i => exact absurd rfl (hk i)
  | provide =>
    simp only [step, bind_ok, ok_inj, Prod.exists] at h
    obtain ⟨p, hp, p', L, h, rfl⟩ := h
    exact provide_rights h
  | swap =>
    simp only [step, bind_ok, ok_inj, Prod.exists] at h
    obtain ⟨p, hp, p', L, r, h, rfl⟩ := h
    exact swap_rights h
  | withdraw =>
    simp only [step, bind_ok, ok_inj, Prod.exists] at h
    obtain ⟨p, hp, p', L, _, _, h, rfl⟩ := h
    exact withdraw_rights h
  | updateConfig =>
    simp only [step, bind_ok, ok_inj] at h
    obtain ⟨p, hp, p', h, rfl⟩ := h
    exact Ledger.sameRights_refl _

end Stable

namespace Stake
variable {me : Addr} {c : Ctx}

theorem payLoop_rights {s : State} {sender : Addr} : ∀ {l : List Addr} {L L' : Ledger},
    payLoop me c s sender l L = .ok L' → SameRights L L'
  | [], L, L', h => by simp only [payLoop, ok_inj] at h; subst h; exact Ledger.sameRights_refl _
  | a :: l, L, L', h => by
    simp only [payLoop, bind_ok] at h
    obtain ⟨_, _, L1, h1, h2⟩ := h
    exact Ledger.sameRights_trans (Ledger.transfer_inv h1 |>.2.2.2.2) (payLoop_rights h2)

theorem step_rights {s s' : Sys} {k : Call} (h : step me s (.stake c k) = .ok s') :
    SameRights s.led s'.led := by
  cases k with
  | init =>
    simp only [step, bind_ok, ok_inj] at h
    obtain ⟨v, _, rfl⟩ := h; exact Ledger.sameRights_refl _
  | bond =>
    simp only [step, bond, bind_ok, ok_inj, Prod.exists, Prod.mk.injEq] at h
    obtain ⟨v, L, ⟨_, _, _, _, _, _, L1, h1, _, _, _, _, rfl, rfl⟩, rfl⟩ := h
    exact (Ledger.transfer_inv h1).2.2.2.2
  | unbond =>
    simp only [step, unbond, bind_ok, ok_inj, Prod.exists, Prod.mk.injEq] at h
    obtain ⟨v, L, ⟨_, _, _, _, _, _, _, _, L1, h1, _, _, rfl, rfl⟩, rfl⟩ := h
    exact (Ledger.transfer_inv h1).2.2.2.2
  | createFlow =>
    simp only [step, bind_ok, ok_inj] at h
    obtain ⟨v, _, rfl⟩ := h; exact Ledger.sameRights_refl _
  | distribute =>
    simp only [step, distribute, bind_ok, ok_inj, Prod.exists, Prod.mk.injEq] at h
    obtain ⟨v, L, ⟨_, _, _, _, _, _, _, _, _, _, L1, h1, rfl, rfl⟩, rfl⟩ := h
    exact (Ledger.transfer_inv h1).2.2.2.2
  | withdraw =>
    simp only [step, withdraw, bind_ok, ok_inj, Prod.exists, Prod.mk.injEq] at h
    obtain ⟨v, L, ⟨L1, h1, rfl, rfl⟩, rfl⟩ := h
    exact payLoop_rights h1

end Stake

namespace Vesting
variable {me : Addr} {c : Ctx}

theorem step_rights {s s' : Sys} {k : Call} (h : step me s (.vest c k) = .ok s') : SameRights s.led s'.led := by
  cases k with
  | init =>
    simp only [step, bind_ok, ok_inj] at h
    obtain ⟨v, _, rfl⟩ := h; exact Ledger.sameRights_refl _
  | create =>
    simp only [step, create, bind_ok, ok_inj, Prod.exists, Prod.mk.injEq] at h
    obtain ⟨_, _, v, L, ⟨_, _, _, _, _, _, _, _, _, _, _, _, _, L1, h1, rfl, rfl⟩, rfl⟩ := h
    exact (Ledger.transfer_inv h1).2.2.2.2
  | claim =>
    simp only [step, claim, bind_ok, ok_inj, Prod.exists, Prod.mk.injEq] at h
    obtain ⟨_, _, v, L, ⟨_, _, _, _, _, _, _, _, _, _, _, _, _, _, _, _, _, _, L1, h1, rfl, rfl⟩, rfl⟩ := h
    exact (Ledger.transfer_inv h1).2.2.2.2
  | burn =>
    simp only [step, burn, bind_ok, ok_inj] at h
    obtain ⟨_, _, L, ⟨_, _, _, _, h1⟩, rfl⟩ := h
    exact (Ledger.burn_inv h1).2.2.2.2
  | mint a x =>
    simp only [step, mint, bind_ok, ok_inj, Prod.exists, Prod.mk.injEq] at h
    obtain ⟨v0, hv, v, L, ⟨_, _, _, _, _, _, _, _, _, _, _, _, L1, h1, rfl, rfl⟩, rfl⟩ := h
    exact (Ledger.mint_inv h1).2.2.2
  | updateMinter =>
    simp only [step, bind_ok, ok_inj] at h
    obtain ⟨_, _, v, _, rfl⟩ := h; exact Ledger.sameRights_refl _
  | updateCapacity =>
    simp only [step, bind_ok, ok_inj] at h
    obtain ⟨_, _, v, _, rfl⟩ := h; exact Ledger.sameRights_refl _

end Vesting

namespace Rewards
variable {me : Addr} {c : Ctx}

theorem withdraw_rights {s v : State} {L L' : Ledger} {u : Addr} {i : Stake.Info}
    (h : withdraw me c s L u i = .ok (v, L')) : SameRights L L' := by
  unfold withdraw at h
  simp only [bind_ok] at h
  obtain ⟨cfg, h1, _, h2, x, h3, h4⟩ := h
  split at h4
  · simp only [ok_inj, Prod.mk.injEq] at h4
    obtain ⟨rfl, rfl⟩ := h4; exact Ledger.sameRights_refl _
  · simp only [bind_ok, ok_inj, Prod.mk.injEq] at h4
    obtain ⟨_, _, _, _, L1, hL, rfl, rfl⟩ := h4
    exact (Ledger.transfer_inv hL).2.2.2.2

theorem step_rights {s s' : Sys} {k : Call} (h : step me s (.rewards c k) = .ok s') :
    SameRights s.led s'.led := by
  cases k with
  | init =>
    simp only [step, bind_ok, ok_inj] at h
    obtain ⟨v, _, rfl⟩ := h; exact Ledger.sameRights_refl _
  | addUser =>
    simp only [step, bind_ok, ok_inj] at h
    obtain ⟨v, _, rfl⟩ := h; exact Ledger.sameRights_refl _
  | calcBond =>
    simp only [step, bind_ok, ok_inj] at h
    obtain ⟨v, _, rfl⟩ := h; exact Ledger.sameRights_refl _
  | calcUnbond =>
    simp only [step, calcUnbond, withdrawIfAny, bind_ok, ok_inj, Prod.exists, Prod.mk.injEq] at h
    obtain ⟨v, L, ⟨_, _, _, _, _, _, v1, L1, ⟨r, _, h1⟩, _, _, _, _, _, _, _, _, rfl, rfl⟩, rfl⟩ := h
    split at h1
    · exact withdraw_rights h1
    · simp only [ok_inj, Prod.mk.injEq] at h1
      obtain ⟨rfl, rfl⟩ := h1; exact Ledger.sameRights_refl _
  | distribute =>
    simp only [step, bind_ok, ok_inj] at h
    obtain ⟨v, _, rfl⟩ := h; exact Ledger.sameRights_refl _
  | withdraw =>
    simp only [step, bind_ok, ok_inj, Prod.exists] at h
    obtain ⟨v, L, h1, rfl⟩ := h
    exact withdraw_rights h1
  | fund =>
    simp only [step, fund, bind_ok, ok_inj, Prod.exists, Prod.mk.injEq] at h
    obtain ⟨v, L, ⟨_, _, _, _, _, _, _, _, _, _, L1, h1, _, _, _, _, _, _, _, _, rfl, rfl⟩, rfl⟩ := h
    exact (Ledger.transfer_inv h1).2.2.2.2

end Rewards

namespace World
open Phoenix.World.Spec
variable {h : Host} {acct : Accounts} {w w' : World} {c : Ctx}

/-- Old tokens keep their rights; tokens that did not exist keep them too, or start without allowances. -/
def Rights (w w' : World) : Prop :=
  ∀ t, ((w'.led t).admin = (w.led t).admin ∧ (w'.led t).allow = (w.led t).allow ∧ (w'.led t).decimals = (w.led t).decimals) ∨
    (w.code t = .none ∧ ∀ a b, ((w'.led t).allow a b).amount = 0)

theorem Rights.same (hs : SameRights w.led w'.led) : Rights w w' := fun t => .inl (hs t)

theorem poolSwap_rights {P sender offer : Addr} {x r : Int} {mi sp mf : Option Int} {dl : Option Nat}
    (e : poolSwap w c P sender offer x mi sp dl mf = .ok (w', r)) : SameRights w.led w'.led := by
  unfold poolSwap at e
  split at e
  · simp only [bind_ok, ok_inj, Prod.exists, Prod.mk.injEq] at e
    obtain ⟨p, hp, p', L, r', hk, rfl, rfl⟩ := e
    exact Pool.swap_rights hk
  · simp only [bind_ok, ok_inj, Prod.exists, Prod.mk.injEq] at e
    obtain ⟨p, hp, p', L, r', hk, rfl, rfl⟩ := e
    exact Stable.swap_rights hk
  · simp at e

theorem hopLoop_rights {F recipient : Addr} {sp mf : Option Int} {dl : Option Nat} : ∀ {ops : List Multihop.Op}
    {w w' : World} {x r : Int}, hopLoop w c F recipient sp dl mf ops x = .ok (w', r) → SameRights w.led w'.led
  | [], w, w', x, r, e => by
    simp only [hopLoop, ok_inj, Prod.mk.injEq] at e
    obtain ⟨rfl, rfl⟩ := e; exact Ledger.sameRights_refl _
  | op :: ops, w, w', x, r, e => by
    simp only [hopLoop, bind_ok, Prod.exists] at e
    obtain ⟨P, hP, w1, r1, h1, h2⟩ := e
    exact Ledger.sameRights_trans (poolSwap_rights h1) (hopLoop_rights h2)

theorem upd_rights {L : Ledger} {S : Addr} {t : Token} (hS : w.code S = .none) (hL : w.led = L) (hL' : w'.led = upd L S t)
    (ht : ∀ a b, (t.allow a b).amount = 0) : Rights w w' := by
  intro u
  by_cases e : u = S
  · subst e; right; rw [hL', upd_same]; exact ⟨hS, ht⟩
  · left; rw [hL', upd_ne _ _ e, hL]; exact ⟨rfl, rfl, rfl⟩

theorem initXyk_rights {P : Addr} {i : Info} {owner : Addr} {dec : Nat} {sl mf : Int}
    (e : initXyk h w P i owner dec sl mf = .ok w') : Rights w w' := by
  unfold initXyk at e
  simp only [bind_ok, ok_inj, deploy_ok, Prod.exists] at e
  obtain ⟨p, L', hi, w1, ⟨hS, rfl⟩, w2, ⟨hK, rfl⟩, st, hst, rfl⟩ := e
  obtain ⟨-, -, -, -, -, -, -, -, t, -, -, tal, hL'⟩ := Pool.init_inv hi
  exact upd_rights hS rfl hL' tal

theorem initStable_rights {P : Addr} {i : Info} {owner : Addr} {amp : Nat} {mf : Int}
    (e : initStable h w c P i owner amp mf = .ok w') : Rights w w' := by
  unfold initStable at e
  simp only [bind_ok, ok_inj, deploy_ok, Prod.exists, expect_ok] at e
  obtain ⟨_, tA, _, tB, p, L', hi, w1, ⟨hS, rfl⟩, w2, ⟨hK, rfl⟩, st, hst, rfl⟩ := e
  obtain ⟨-, -, -, -, -, -, -, -, -, -, -, t, -, -, tal, hL'⟩ := Stable.init_inv hi
  exact upd_rights hS rfl hL' tal

theorem create_rights {F sender P : Addr} {i : Info} {k : Kind} {amp : Option Nat} {sl mf : Int}
    (e : create h w c F sender i k amp sl mf = .ok (w', P)) : Rights w w' := by
  unfold create at e
  simp only [bind_ok, req_ok, ok_inj, requireAuth_ok, deploy_ok, Prod.mk.injEq] at e
  obtain ⟨_, -, _, -, f, hf, _, -, _, -, w1, ⟨hP, rfl⟩, _, -, _, -, _, -, _, -, _, -, _, -, w2, hi, rfl, rfl⟩ := e
  have r : Rights { w with code := upd w.code (h.poolAddr F i.tokenA i.tokenB) k.code } w2 := by
    cases k with
    | xyk => exact initXyk_rights hi
    | stable => exact initStable_rights hi
  intro t
  rcases r t with k1 | ⟨k1, k2⟩
  · exact .inl k1
  · right
    refine ⟨?_, k2⟩
    simp only at k1
    by_cases e : t = h.poolAddr F i.tokenA i.tokenB
    · rw [e]; exact hP
    · rw [upd_ne _ _ e] at k1; exact k1

/-- Calls of contracts other than tokens leave allowances, administrators and decimals of tokens alone. -/
theorem step_rights {k : Call} (hk : ∀ tok op, k ≠ .token tok op) (e : step h w c k = .ok w') : Rights w w' := by
  cases k with
  | token tok op => exact absurd rfl (hk tok op)
  | xykInit P i owner dec sl mf =>
    simp only [step, bind_ok, expect_ok] at e
    obtain ⟨_, h1, h2⟩ := e
    exact initXyk_rights h2
  | xyk P k =>
    cases k with
    | init i => simp [step] at e
    | _ =>
      simp only [step, bind_ok, ok_inj, expect_ok] at e
      obtain ⟨_, h1, s, h2, rfl⟩ := e
      exact .same (Pool.step_rights h2 (by simp))
  | stableInit P i owner amp mf =>
    simp only [step, bind_ok, expect_ok] at e
    obtain ⟨_, h1, h2⟩ := e
    exact initStable_rights h2
  | stable P k =>
    cases k with
    | init i => simp [step] at e
    | _ =>
      simp only [step, bind_ok, ok_inj, expect_ok] at e
      obtain ⟨_, h1, s, h2, rfl⟩ := e
      exact .same (Stable.step_rights h2 (by simp))
  | stake K k =>
    simp only [step, bind_ok, ok_inj, expect_ok] at e
    obtain ⟨_, h1, s, h2, rfl⟩ := e
    exact .same (Stake.step_rights h2)
  | vest V k =>
    cases k with
    | mint a x =>
      simp only [step, bind_ok, ok_inj, expect_ok] at e
      obtain ⟨_, h1, v, hv, _, ht, s, h2, rfl⟩ := e
      exact .same (Vesting.step_rights h2)
    | _ =>
      simp only [step, bind_ok, ok_inj, expect_ok] at e
      obtain ⟨_, h1, s, h2, rfl⟩ := e
      exact .same (Vesting.step_rights h2)
  | facInit F admin a b d e' wl dec =>
    simp only [step, facInit, bind_ok, expect_ok, deploy_ok, ok_inj] at e
    obtain ⟨_, h1, _, -, _, -, w1, ⟨-, rfl⟩, m, -, rfl⟩ := e
    exact .same (Ledger.sameRights_refl _)
  | create F sender i k amp sl mf =>
    simp only [step, bind_ok, ok_inj, expect_ok, Prod.exists] at e
    obtain ⟨_, h1, w1, P, h2, rfl⟩ := e
    exact create_rights h2
  | whitelist F sender add rem =>
    simp only [step, bind_ok, ok_inj, expect_ok] at e
    obtain ⟨_, h1, f, hf, f', -, rfl⟩ := e
    exact .same (Ledger.sameRights_refl _)
  | hashes F a b d =>
    simp only [step, bind_ok, ok_inj, expect_ok] at e
    obtain ⟨_, h1, f, hf, f', -, rfl⟩ := e
    exact .same (Ledger.sameRights_refl _)
  | facUpdate F a =>
    simp only [step, bind_ok, ok_inj, expect_ok] at e
    obtain ⟨_, h1, f, hf, f', -, rfl⟩ := e
    exact .same (Ledger.sameRights_refl _)
  | hopInit H admin F =>
    simp only [step, bind_ok, ok_inj, expect_ok] at e
    obtain ⟨_, h1, m, -, rfl⟩ := e
    exact .same (Ledger.sameRights_refl _)
  | hopSwap H recipient ops sp amount dl mf =>
    simp only [step, hopSwap, bind_ok, ok_inj, expect_ok, Prod.exists] at e
    obtain ⟨_, h1, w1, r, ⟨_, _, _, _, _, _, m, hm, h2⟩, rfl⟩ := e
    exact .same (hopLoop_rights h2)
  | trdInit T admin a b o =>
    simp only [step, bind_ok, ok_inj, expect_ok] at e
    obtain ⟨_, h1, t, -, rfl⟩ := e
    exact .same (Ledger.sameRights_refl _)
  | trade T sender token pool amount sp dl mi mf =>
    simp only [step, trade, bind_ok, ok_inj, expect_ok, Prod.exists] at e
    obtain ⟨_, h1, w1, r, ⟨_, _, t, ht, _, _, _, _, _, _, h2⟩, rfl⟩ := e
    exact .same (poolSwap_rights h2)
  | trdTransfer T sender recipient amount token =>
    simp only [step, bind_ok, ok_inj, expect_ok, Trader.transfer] at e
    obtain ⟨_, h1, t, ht, L, ⟨_, _, _, _, h2⟩, rfl⟩ := e
    exact .same (Ledger.transfer_inv h2).2.2.2.2
  | rewards R k =>
    simp only [step, bind_ok, ok_inj, expect_ok] at e
    obtain ⟨_, h1, s, h2, rfl⟩ := e
    exact .same (Rewards.step_rights h2)

theorem spendAllowance_le {t t' : Token} {seq : Nat} {o s : Addr} {x : Int} (e : t.spendAllowance seq o s x = .ok t') (a b : Addr) :
    (t'.allow a b).amount ≤ (t.allow a b).amount := by
  obtain ⟨hx, -, -, -, ⟨rfl, -⟩ | ⟨hp, ha⟩⟩ := Token.spendAllowance_ok e
  · exact le_refl _
  · rw [ha]
    simp only [upd_apply]
    by_cases ea : a = o
    · subst ea
      simp only [if_true, upd_apply]
      by_cases eb : b = s
      · subst eb
        simp only [if_true]
        unfold Token.readAllowance at hx ⊢
        simp only at hx ⊢
        split at hx
        · simp only at hx; omega
        · rename_i h1; simp only [h1, if_false]; omega
      · simp [eb]
    · simp [ea]

/-- A token call raises an allowance only if it is `approve` of its owner. -/
theorem call_allow {t t' : Token} {op : TokenOp} (e : t.call c op = .ok t') {a b : Addr}
    (hp : 0 < (t'.allow a b).amount) (hlt : (t.allow a b).amount < (t'.allow a b).amount) :
    c.auth a = true ∧ ∃ exp, op = .approve a b (t'.allow a b).amount exp := by
  cases op with
  | mint d x =>
    simp only [Token.call, Token.mint_ok] at e
    obtain ⟨_, _, _, rfl⟩ := e
    simp at hlt
  | setAdmin n =>
    simp only [Token.call, Token.setAdmin, bind_ok, requireAuth_ok, ok_inj] at e
    obtain ⟨_, _, rfl⟩ := e
    simp at hlt
  | approve o s x exp =>
    simp only [Token.call, Token.approve, Token.checkNonneg, bind_ok, requireAuth_ok, req_ok,
      Token.writeAllowance_ok] at e
    obtain ⟨_, h0, _, h1, _, rfl⟩ := e
    simp only [upd_apply] at hlt hp ⊢
    by_cases ea : a = o
    · subst ea
      simp only [if_true, upd_apply] at hlt hp ⊢
      by_cases eb : b = s
      · subst eb
        simp only [if_true] at hlt hp ⊢
        exact ⟨h0, exp, rfl⟩
      · simp [eb] at hlt
    · simp [ea] at hlt
  | transfer s d x =>
    simp only [Token.call, Token.transfer_ok] at e
    obtain ⟨_, _, _, _, _, rfl⟩ := e
    simp at hlt
  | burn s x =>
    simp only [Token.call, Token.burn_ok] at e
    obtain ⟨_, _, _, _, rfl⟩ := e
    simp at hlt
  | transferFrom sp s d x =>
    simp only [Token.call, Token.transferFrom, Token.checkNonneg, bind_ok, requireAuth_ok, req_ok,
      Token.spend_ok, Token.receive_ok] at e
    obtain ⟨_, _, _, _, t1, h1, _, ⟨_, _, rfl⟩, _, rfl⟩ := e
    exact absurd (spendAllowance_le h1 a b) (not_le.mpr hlt)
  | burnFrom sp s x =>
    simp only [Token.call, Token.burnFrom, Token.checkNonneg, bind_ok, requireAuth_ok, req_ok,
      Token.spend_ok] at e
    obtain ⟨_, _, _, _, t1, h1, _, _, rfl⟩ := e
    exact absurd (spendAllowance_le h1 a b) (not_le.mpr hlt)

end World
end Phoenix
