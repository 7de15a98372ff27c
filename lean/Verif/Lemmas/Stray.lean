import Verif.Spec.Stray
import Verif.Lemmas.WorldFac
import Verif.Lemmas.Admin
/-! What each contract pays out (helpers for C146). -/
namespace Phoenix
open Spec

section ledger
variable {c : Ctx} {L L' : Ledger} {tok s d t me : Addr} {x : Int}

theorem keep_transfer (h : L.transfer c tok s d x = .ok L') (hk : t ≠ tok ∨ d = me) : L.bal t me ≤ L'.bal t me := by
  obtain ⟨-, h1, -, h2, -⟩ := Ledger.transfer_inv h
  rw [h2 t me]
  simp only [Flow.delta, List.map_cons, List.map_nil, List.sum_cons, List.sum_nil, add_zero]
  rcases hk with hk | rfl
  · simp [Ne.symm hk]
  · simp only [and_true]
    split <;> split <;> simp_all

theorem keep_mint (h : L.mint c tok d x = .ok L') : L.bal t me ≤ L'.bal t me := by
  obtain ⟨-, h1, h2, -⟩ := Ledger.mint_inv h
  rw [h2 t me]; split <;> omega

theorem keep_burn (h : L.burn c tok s x = .ok L') (hk : t ≠ tok) : L.bal t me ≤ L'.bal t me := by
  obtain ⟨-, h1, -, h2, -⟩ := Ledger.burn_inv h
  rw [h2 t me]; simp [Ne.symm hk]

theorem keep_in_burn {L1 : Ledger} {c' : Ctx} (h : L.transfer c tok s me x = .ok L1) (hs : s ≠ me)
    (h' : L1.burn c' tok me x = .ok L') : L.bal t me ≤ L'.bal t me := by
  obtain ⟨-, h1, -, h2, -⟩ := Ledger.transfer_inv h
  obtain ⟨-, -, -, h3, -⟩ := Ledger.burn_inv h'
  rw [h3 t me, h2 t me]
  simp only [Flow.delta, List.map_cons, List.map_nil, List.sum_cons, List.sum_nil, add_zero, and_true, hs, and_false, if_false]
  split <;> omega

end ledger

theorem ne_of_auth {c : Ctx} {a me : Addr} (h : c.auth a = true) (hme : c.auth me = false) : a ≠ me := by
  rintro rfl; rw [h] at hme; cases hme

namespace Pool
variable {me t : Addr} {c : Ctx}

theorem mintShares_keep {p p' : State} {L L' : Ledger} {d : Addr} {x : Int} (h : mintShares me c p L d x = .ok (p', L')) :
    L.bal t me ≤ L'.bal t me := by
  simp only [mintShares, bind_ok, ok_inj, Prod.mk.injEq] at h
  obtain ⟨L1, h1, _, _, rfl, rfl⟩ := h
  exact keep_mint h1

theorem swap_keep {p p' : State} {L L' : Ledger} {sender offer : Addr} {x r : Int} {x1 x2 x3 : Option Int} {dl : Option Nat}
    (h : swap me c p L sender offer x x1 x2 dl x3 = .ok (p', L', r)) (ht : t ≠ p.cfg.tokenA ∧ t ≠ p.cfg.tokenB) :
    L.bal t me ≤ L'.bal t me := by
  simp only [swap, doSwap, bind_ok, ok_inj, Prod.mk.injEq, Prod.exists] at h
  obtain ⟨_, _, _, _, _, _, _, _, _, _, _, _, _, _, _, _, _, _, _, _, _, _, _, L1, h1, _, _, L2, h2, L3, h3, _, _, rfl, rfl, rfl⟩ := h
  have hb : t ≠ (tokensOf p offer).2 := by unfold tokensOf; split <;> [exact ht.2; exact ht.1]
  exact (keep_transfer h1 (.inr rfl)).trans ((keep_transfer h2 (.inl hb)).trans (keep_transfer h3 (.inl hb)))

theorem step_keep {s s' : Sys} {k : Call} (h : step me s (.pool c k) = .ok s') (hk : ∀ i, k ≠ .init i) (hme : c.auth me = false)
    (ht : ∀ p, s.pool = some p → t ≠ p.cfg.tokenA ∧ t ≠ p.cfg.tokenB) : s.led.bal t me ≤ s'.led.bal t me := by
  have hq : ∀ p, loaded s.pool = .ok p → t ≠ p.cfg.tokenA ∧ t ≠ p.cfg.tokenB := by
    intro p hp; apply ht; revert hp; unfold loaded; split <;> simp_all
  cases k with
  | init i => exact absurd rfl (hk i)
  | provide =>
    simp only [step, provide, bind_ok, ok_inj, Prod.exists, Prod.mk.injEq] at h
    obtain ⟨p, hp, p', L, ⟨_, _, _, _, _, _, _, _, _, _, _, _, _, _, _, _, _, L1, h1, L2, h2, _, _, _, _, _, p1, L3, h3, _, _, p2, L4, h4, rfl, rfl⟩, rfl⟩ := h
    refine (keep_transfer h1 (.inr rfl)).trans ((keep_transfer h2 (.inr rfl)).trans (le_trans ?_ (mintShares_keep h4)))
    unfold newShares at h3
    split at h3
    · simp only [bind_ok, ok_inj, Prod.mk.injEq] at h3
      obtain ⟨_, _, _, _, _, _, _, _, _, rfl, rfl⟩ := h3
      exact le_refl _
    · simp only [bind_ok, ok_inj, Prod.mk.injEq, Prod.exists] at h3
      obtain ⟨_, _, _, _, _, _, p1, L1, h1, _, _, _, rfl, rfl⟩ := h3
      exact mintShares_keep h1
  | swap =>
    simp only [step, bind_ok, ok_inj, Prod.exists] at h
    obtain ⟨p, hp, p', L, r, h, rfl⟩ := h
    exact swap_keep h (hq p hp)
  | withdraw =>
    simp only [step, withdraw, burnShares, bind_ok, ok_inj, Prod.exists, Prod.mk.injEq, requireAuth_ok] at h
    obtain ⟨p, hp, p', L, _, _, ⟨_, _, _, _, _, _, _, _, _, ha, L1, h1, _, _, _, _, _, _, _, _, _, _, p1, L2, ⟨L2', h2, _, _, rfl, rfl⟩, L3, h3, L4, h4, _, _, _, _, rfl, rfl, rfl, rfl⟩, rfl⟩ := h
    exact (keep_in_burn h1 (ne_of_auth ha hme) h2).trans ((keep_transfer h3 (.inl (hq p hp).1)).trans (keep_transfer h4 (.inl (hq p hp).2)))
  | updateConfig =>
    simp only [step, bind_ok, ok_inj] at h
    obtain ⟨p, hp, p', h, rfl⟩ := h
    exact le_refl _
  | upgrade =>
    simp only [step, bind_ok, ok_inj] at h
    obtain ⟨p, hp, p', h, rfl⟩ := h
    exact le_refl _

end Pool

namespace Stable
variable {me t : Addr} {c : Ctx}

theorem swap_keep {p p' : State} {L L' : Ledger} {sender offer : Addr} {x r : Int} {x1 x2 x3 : Option Int} {dl : Option Nat}
    (h : swap me c p L sender offer x x1 x2 dl x3 = .ok (p', L', r)) (ht : t ≠ p.cfg.tokenA ∧ t ≠ p.cfg.tokenB) :
    L.bal t me ≤ L'.bal t me := by
  simp only [swap, doSwap, bind_ok, ok_inj, Prod.mk.injEq, Prod.exists] at h
  obtain ⟨_, _, _, _, _, _, _, _, x, y, hxy, _, _, _, _, _, _, _, _, L1, h1, _, _, L2, h2, L3, h3, _, _, rfl, rfl, rfl⟩ := h
  have hb : t ≠ y.tok := by
    revert hxy; unfold sides; split
    · rintro h; simp only [ok_inj, Prod.mk.injEq] at h; rw [← h.2]; exact ht.2
    · split
      · rintro h; simp only [ok_inj, Prod.mk.injEq] at h; rw [← h.2]; exact ht.1
      · intro h; cases h
  exact (keep_transfer h1 (.inr rfl)).trans ((keep_transfer h2 (.inl hb)).trans (keep_transfer h3 (.inl hb)))

theorem step_keep {s s' : Sys} {k : Call} (h : step me s (.pool c k) = .ok s') (hk : ∀ i, k ≠ .init i) (hme : c.auth me = false)
    (ht : ∀ p, s.pool = some p → t ≠ p.cfg.tokenA ∧ t ≠ p.cfg.tokenB) : s.led.bal t me ≤ s'.led.bal t me := by
  have hq : ∀ p, loaded s.pool = .ok p → t ≠ p.cfg.tokenA ∧ t ≠ p.cfg.tokenB := by
    intro p hp; apply ht; revert hp; unfold loaded; split <;> simp_all
  cases k with
  | init i => exact absurd rfl (hk i)
  | provide =>
    simp only [step, provide, mintShares, bind_ok, ok_inj, Prod.exists, Prod.mk.injEq] at h
    obtain ⟨p, hp, p', L, ⟨_, _, _, _, _, _, _, _, _, _, _, _, L1, h1, L2, h2, _, _, _, _, _, _, _, _, _, _, _, _, _, _, _, _, _, _, _, _, p1, L3, ⟨L4, h3, _, _, rfl, rfl⟩, rfl, rfl⟩, rfl⟩ := h
    exact (keep_transfer h1 (.inr rfl)).trans ((keep_transfer h2 (.inr rfl)).trans (keep_mint h3))
  | swap =>
    simp only [step, bind_ok, ok_inj, Prod.exists] at h
    obtain ⟨p, hp, p', L, r, h, rfl⟩ := h
    exact swap_keep h (hq p hp)
  | withdraw =>
    simp only [step, withdraw, burnShares, bind_ok, ok_inj, Prod.exists, Prod.mk.injEq, requireAuth_ok] at h
    obtain ⟨p, hp, p', L, _, _, ⟨_, _, _, _, _, _, _, _, _, ha, L1, h1, _, _, _, _, _, _, _, _, _, _, p1, L2, ⟨L2', h2, _, _, rfl, rfl⟩, L3, h3, L4, h4, _, _, _, _, rfl, rfl, rfl, rfl⟩, rfl⟩ := h
    exact (keep_in_burn h1 (ne_of_auth ha hme) h2).trans ((keep_transfer h3 (.inl (hq p hp).1)).trans (keep_transfer h4 (.inl (hq p hp).2)))
  | updateConfig =>
    simp only [step, bind_ok, ok_inj] at h
    obtain ⟨p, hp, p', h, rfl⟩ := h
    exact le_refl _

end Stable

namespace Stake
variable {me t : Addr} {c : Ctx}

theorem payLoop_keep {s : State} {sender : Addr} : ∀ {l : List Addr} {L L' : Ledger}, t ∉ l →
    payLoop me c s sender l L = .ok L' → L.bal t me ≤ L'.bal t me
  | [], L, L', _, h => by simp only [payLoop, ok_inj] at h; subst h; exact le_refl _
  | a :: l, L, L', hn, h => by
    simp only [payLoop, bind_ok] at h
    obtain ⟨_, _, L1, h1, h2⟩ := h
    simp only [List.mem_cons, not_or] at hn
    exact (keep_transfer h1 (.inl hn.1)).trans (payLoop_keep hn.2 h2)

theorem step_keep {s s' : Sys} {k : Call} (h : step me s (.stake c k) = .ok s')
    (hl : ∀ cfg, s.st.cfg = some cfg → t ≠ cfg.lpToken) (hd : t ∉ s.st.dists) : s.led.bal t me ≤ s'.led.bal t me := by
  cases k with
  | init =>
    simp only [step, bind_ok, ok_inj] at h
    obtain ⟨v, _, rfl⟩ := h; exact le_refl _
  | bond =>
    simp only [step, bond, bind_ok, ok_inj, Prod.exists, Prod.mk.injEq] at h
    obtain ⟨v, L, ⟨_, _, _, _, _, _, L1, h1, _, _, _, _, rfl, rfl⟩, rfl⟩ := h
    exact keep_transfer h1 (.inr rfl)
  | unbond =>
    simp only [step, unbond, bind_ok, ok_inj, Prod.exists, Prod.mk.injEq] at h
    obtain ⟨v, L, ⟨_, _, cfg, hcfg, _, _, _, _, L1, h1, _, _, rfl, rfl⟩, rfl⟩ := h
    refine keep_transfer h1 (.inl (hl cfg ?_))
    revert hcfg; unfold getConfig; split <;> simp_all
  | createFlow =>
    simp only [step, bind_ok, ok_inj] at h
    obtain ⟨v, _, rfl⟩ := h; exact le_refl _
  | distribute =>
    simp only [step, distribute, bind_ok, ok_inj, Prod.exists, Prod.mk.injEq] at h
    obtain ⟨v, L, ⟨_, _, _, _, _, _, _, _, _, _, L1, h1, rfl, rfl⟩, rfl⟩ := h
    exact keep_transfer h1 (.inr rfl)
  | withdraw =>
    simp only [step, withdraw, bind_ok, ok_inj, Prod.exists, Prod.mk.injEq] at h
    obtain ⟨v, L, ⟨L1, h1, rfl, rfl⟩, rfl⟩ := h
    exact payLoop_keep hd h1

/-- announced reward tokens stay announced -/
theorem step_dists {s s' : Sys} {k : Call} (h : step me s (.stake c k) = .ok s') (ht : t ∈ s.st.dists) : t ∈ s'.st.dists := by
  cases k with
  | init =>
    simp only [step, init, bind_ok, ok_inj] at h
    obtain ⟨v, ⟨_, _, _, _, _, _, _, _, rfl⟩, rfl⟩ := h
    exact ht
  | bond =>
    simp only [step, bond, bind_ok, ok_inj, Prod.exists, Prod.mk.injEq] at h
    obtain ⟨v, L, ⟨_, _, _, _, _, _, L1, h1, _, _, _, _, rfl, rfl⟩, rfl⟩ := h
    exact ht
  | unbond =>
    simp only [step, unbond, bind_ok, ok_inj, Prod.exists, Prod.mk.injEq] at h
    obtain ⟨v, L, ⟨_, _, cfg, hcfg, _, _, _, _, L1, h1, _, _, rfl, rfl⟩, rfl⟩ := h
    exact ht
  | createFlow =>
    simp only [step, createFlow, bind_ok, ok_inj] at h
    obtain ⟨v, ⟨_, _, _, _, _, _, _, _, rfl⟩, rfl⟩ := h
    exact List.mem_append_left _ ht
  | distribute =>
    simp only [step, distribute, bind_ok, ok_inj, Prod.exists, Prod.mk.injEq] at h
    obtain ⟨v, L, ⟨_, _, _, _, _, _, _, _, _, _, L1, h1, rfl, rfl⟩, rfl⟩ := h
    exact ht
  | withdraw =>
    simp only [step, withdraw, bind_ok, ok_inj, Prod.exists, Prod.mk.injEq] at h
    obtain ⟨v, L, ⟨L1, h1, rfl, rfl⟩, rfl⟩ := h
    exact ht

end Stake

namespace Vesting
variable {me t : Addr} {c : Ctx}

theorem step_keep {s s' : Sys} {k : Call} (h : step me s (.vest c k) = .ok s')
    (ht : ∀ v, s.vest = some v → t ≠ v.token) : s.led.bal t me ≤ s'.led.bal t me := by
  have hq : ∀ v, loaded s.vest = .ok v → t ≠ v.token := by
    intro p hp; apply ht; revert hp; unfold loaded; split <;> simp_all
  cases k with
  | init =>
    simp only [step, bind_ok, ok_inj] at h
    obtain ⟨v, _, rfl⟩ := h; exact le_refl _
  | create =>
    simp only [step, create, bind_ok, ok_inj, Prod.exists, Prod.mk.injEq] at h
    obtain ⟨_, _, v, L, ⟨_, _, _, _, _, _, _, _, _, _, _, _, _, L1, h1, rfl, rfl⟩, rfl⟩ := h
    exact keep_transfer h1 (.inr rfl)
  | claim =>
    simp only [step, claim, bind_ok, ok_inj, Prod.exists, Prod.mk.injEq] at h
    obtain ⟨v0, hv, v, L, ⟨_, _, _, _, _, _, _, _, _, _, _, _, _, _, _, _, _, _, L1, h1, rfl, rfl⟩, rfl⟩ := h
    exact keep_transfer h1 (.inl (hq v0 hv))
  | burn =>
    simp only [step, burn, bind_ok, ok_inj] at h
    obtain ⟨v0, hv, L, ⟨_, _, _, _, h1⟩, rfl⟩ := h
    exact keep_burn h1 (hq v0 hv)
  | mint a x =>
    simp only [step, mint, bind_ok, ok_inj, Prod.exists, Prod.mk.injEq] at h
    obtain ⟨v0, hv, v, L, ⟨_, _, _, _, _, _, _, _, _, _, _, _, L1, h1, rfl, rfl⟩, rfl⟩ := h
    exact keep_mint h1
  | updateMinter =>
    simp only [step, bind_ok, ok_inj] at h
    obtain ⟨_, _, v, _, rfl⟩ := h; exact le_refl _
  | updateCapacity =>
    simp only [step, bind_ok, ok_inj] at h
    obtain ⟨_, _, v, _, rfl⟩ := h; exact le_refl _

end Vesting

namespace Rewards
variable {me t : Addr} {c : Ctx}

theorem withdraw_keep {s v : State} {L L' : Ledger} {u : Addr} {i : Stake.Info} (h : withdraw me c s L u i = .ok (v, L'))
    (ht : ∀ cfg, s.cfg = some cfg → t ≠ cfg.token) : L.bal t me ≤ L'.bal t me := by
  unfold withdraw at h
  simp only [bind_ok] at h
  obtain ⟨cfg, h1, _, h2, x, h3, h4⟩ := h
  split at h4
  · simp only [ok_inj, Prod.mk.injEq] at h4
    obtain ⟨rfl, rfl⟩ := h4; exact le_refl _
  · simp only [bind_ok, ok_inj, Prod.mk.injEq] at h4
    obtain ⟨_, _, _, _, L1, hL, rfl, rfl⟩ := h4
    refine keep_transfer hL (.inl (ht cfg ?_))
    revert h1; unfold getConfig; split <;> simp_all

theorem step_keep {s s' : Sys} {k : Call} (h : step me s (.rewards c k) = .ok s')
    (ht : ∀ cfg, s.st.cfg = some cfg → t ≠ cfg.token) : s.led.bal t me ≤ s'.led.bal t me := by
  cases k with
  | init =>
    simp only [step, bind_ok, ok_inj] at h
    obtain ⟨v, _, rfl⟩ := h; exact le_refl _
  | addUser =>
    simp only [step, bind_ok, ok_inj] at h
    obtain ⟨v, _, rfl⟩ := h; exact le_refl _
  | calcBond =>
    simp only [step, bind_ok, ok_inj] at h
    obtain ⟨v, _, rfl⟩ := h; exact le_refl _
  | calcUnbond =>
    simp only [step, calcUnbond, withdrawIfAny, bind_ok, ok_inj, Prod.exists, Prod.mk.injEq] at h
    obtain ⟨v, L, ⟨_, _, _, _, _, _, v1, L1, ⟨r, _, h1⟩, _, _, _, _, _, _, _, _, rfl, rfl⟩, rfl⟩ := h
    split at h1
    · exact withdraw_keep h1 ht
    · simp only [ok_inj, Prod.mk.injEq] at h1
      obtain ⟨rfl, rfl⟩ := h1; exact le_refl _
  | distribute =>
    simp only [step, bind_ok, ok_inj] at h
    obtain ⟨v, _, rfl⟩ := h; exact le_refl _
  | withdraw =>
    simp only [step, bind_ok, ok_inj, Prod.exists] at h
    obtain ⟨v, L, h1, rfl⟩ := h
    exact withdraw_keep h1 ht
  | fund =>
    simp only [step, fund, bind_ok, ok_inj, Prod.exists, Prod.mk.injEq] at h
    obtain ⟨v, L, ⟨_, _, _, _, _, _, _, _, _, _, L1, h1, _, _, _, _, _, _, _, _, rfl, rfl⟩, rfl⟩ := h
    exact keep_transfer h1 (.inr rfl)

end Rewards
end Phoenix

namespace Phoenix.World
open Phoenix Phoenix.World.Spec

variable {h : Host} {acct : Accounts} {w w' : World} {c : Ctx} {X t : Addr}

/-- neither token of a pool at `X` -/
def NotPaired (w : World) (X t : Addr) : Prop :=
  (∀ p, w.xyk X = some p → t ≠ p.cfg.tokenA ∧ t ≠ p.cfg.tokenB) ∧ (∀ p, w.stable X = some p → t ≠ p.cfg.tokenA ∧ t ≠ p.cfg.tokenB)

theorem notPaired_of (hn : ¬ Handles w X t) : NotPaired w X t := by
  unfold Handles at hn
  simp only [not_or, not_exists, not_and] at hn
  exact ⟨fun p hp => ⟨(hn.1 p hp).1, (hn.1 p hp).2⟩, fun p hp => ⟨(hn.2.1 p hp).1, (hn.2.1 p hp).2⟩⟩

theorem poolSwap_keep {P sender offer : Addr} {x r : Int} {mi sp mf : Option Int} {dl : Option Nat} (hs : c.signed X = false)
    (hL : LedInv X w.led) (hn : NotPaired w X t) (e : poolSwap w c P sender offer x mi sp dl mf = .ok (w', r)) :
    w.led.bal t X ≤ w'.led.bal t X := by
  by_cases hX : X = P
  · subst hX
    unfold poolSwap at e
    split at e
    · simp only [bind_ok, ok_inj, Prod.exists, Prod.mk.injEq] at e
      obtain ⟨p, hp, p', L, r', hk, rfl, rfl⟩ := e
      exact Pool.swap_keep hk (hn.1 p (pool_loaded hp))
    · simp only [bind_ok, ok_inj, Prod.exists, Prod.mk.injEq] at e
      obtain ⟨p, hp, p', L, r', hk, rfl, rfl⟩ := e
      exact Stable.swap_keep hk (hn.2 p (stable_loaded hp))
    · simp at e
  · exact ((poolSwap_spends e).ledInv (by simp [hs, hX]) hL).2 t

theorem poolSwap_cfg {P sender offer : Addr} {x r : Int} {mi sp mf : Option Int} {dl : Option Nat} (I : Inv h acct w)
    (hc : Signed acct c) (hi : c.invoker ≠ some P) (e : poolSwap w c P sender offer x mi sp dl mf = .ok (w', r))
    (hn : NotPaired w X t) : NotPaired w' X t := by
  obtain ⟨-, g⟩ := poolSwap_step I hc hi e
  constructor
  · intro p hp
    cases hq : w.xyk X with
    | some q =>
      obtain ⟨p', hp', e1, e2, -⟩ := g.xyk X q hq
      rw [hp] at hp'; cases hp'
      rw [e1, e2]; exact hn.1 q hq
    | none =>
      unfold poolSwap at e
      split at e
      · simp only [bind_ok, ok_inj, Prod.exists, Prod.mk.injEq] at e
        obtain ⟨p1, hp1, p', L, r', hk, rfl, rfl⟩ := e
        have : X ≠ P := by rintro rfl; rw [pool_loaded hp1] at hq; cases hq
        simp only [upd_ne _ _ this] at hp
        rw [hq] at hp; cases hp
      · simp only [bind_ok, ok_inj, Prod.exists, Prod.mk.injEq] at e
        obtain ⟨p1, hp1, p', L, r', hk, rfl, rfl⟩ := e
        simp only at hp
        rw [hq] at hp; cases hp
      · simp at e
  · intro p hp
    cases hq : w.stable X with
    | some q =>
      obtain ⟨p', hp', e1, e2, -⟩ := g.stable X q hq
      rw [hp] at hp'; cases hp'
      rw [e1, e2]; exact hn.2 q hq
    | none =>
      unfold poolSwap at e
      split at e
      · simp only [bind_ok, ok_inj, Prod.exists, Prod.mk.injEq] at e
        obtain ⟨p1, hp1, p', L, r', hk, rfl, rfl⟩ := e
        simp only at hp
        rw [hq] at hp; cases hp
      · simp only [bind_ok, ok_inj, Prod.exists, Prod.mk.injEq] at e
        obtain ⟨p1, hp1, p', L, r', hk, rfl, rfl⟩ := e
        have : X ≠ P := by rintro rfl; rw [stable_loaded hp1] at hq; cases hq
        simp only [upd_ne _ _ this] at hp
        rw [hq] at hp; cases hp
      · simp at e

theorem hopLoop_keep {H F recipient : Addr} {sp mf : Option Int} {dl : Option Nat} : ∀ {ops : List Multihop.Op}
    {w w' : World} {x r : Int}, Inv h acct w → Signed acct c → w.code H = .multihop → w.code X ≠ .none → NotPaired w X t →
    hopLoop w (c.as H) F recipient sp dl mf ops x = .ok (w', r) → w.led.bal t X ≤ w'.led.bal t X
  | [], w, w', x, r, I, hc, hH, hX, hn, e => by
    simp only [hopLoop, ok_inj, Prod.mk.injEq] at e
    obtain ⟨rfl, rfl⟩ := e; exact le_refl _
  | op :: ops, w, w', x, r, I, hc, hH, hX, hn, e => by
    simp only [hopLoop, bind_ok, Prod.exists] at e
    obtain ⟨P, hP, w1, r1, h1, h2⟩ := e
    have hne : (c.as H).invoker ≠ some P := by
      simp only [Ctx.as, ne_eq, Option.some.injEq]
      rintro rfl
      rcases poolSwap_code h1 with k | k <;> rw [hH] at k <;> simp at k
    have hs : (c.as H).signed X = false := by
      have := I.core.contracts X hX
      cases e : c.signed X with
      | false => exact e
      | true => exact absurd (hc X e) this
    obtain ⟨I1, g1⟩ := poolSwap_step (c := c.as H) I hc hne h1
    have hco : w1.code = w.code := poolSwap_codes h1
    exact (poolSwap_keep hs (I.core.at_ X (I.core.contracts X hX)).led hn h1).trans
      (hopLoop_keep I1 hc (by rw [hco]; exact hH) (by rw [hco]; exact hX) (poolSwap_cfg (c := c.as H) I hc hne h1 hn) h2)

/-- A contract keeps what it does not handle. -/
theorem step_keep {k : Call} (hh : HostOK h acct) (I : Inv h acct w) (hc : Signed acct c) (hi : c.invoker = none)
    (e : step h w c k = .ok w') (hX : w.code X ≠ .none) (hn : ¬ Handles w X t) : w.led.bal t X ≤ w'.led.bal t X := by
  have hna := I.core.contracts X hX
  have hL := (I.core.at_ X hna).led
  have hs : c.signed X = false := by
    cases e : c.signed X with
    | false => rfl
    | true => exact absurd (hc X e) hna
  have hau : c.auth X = false := I.core.auth_false hc hX (by rw [hi]; simp)
  by_cases hS : Spends w k X
  swap
  · exact (step_untouched hh I hi e hs hS hL).2 t
  have np := notPaired_of hn
  unfold Handles at hn
  simp only [not_or, not_exists, not_and] at hn
  obtain ⟨-, -, n3, n4, n5, n6, n7⟩ := hn
  cases k with
  | token tok op => exact absurd hS id
  | xykInit P i owner dec sl mf =>
    simp only [step, bind_ok, expect_ok] at e
    obtain ⟨_, h1, h2⟩ := e
    obtain ⟨-, -, -, -, p, -, -, -, -, -, -, -, S, fr⟩ := initXyk_step hh I h1 h2
    rw [fr.bal]
  | xyk P k =>
    have : X = P := hS
    subst this
    cases k with
    | init i => simp [step] at e
    | _ =>
      simp only [step, bind_ok, ok_inj, expect_ok] at e
      obtain ⟨_, h1, s, h2, rfl⟩ := e
      exact Pool.step_keep h2 (by simp) hau np.1
  | stableInit P i owner amp mf =>
    simp only [step, bind_ok, expect_ok] at e
    obtain ⟨_, h1, h2⟩ := e
    obtain ⟨-, -, -, -, p, -, -, -, -, -, -, -, S, fr⟩ := initStable_step hh I h1 h2
    rw [fr.bal]
  | stable P k =>
    have : X = P := hS
    subst this
    cases k with
    | init i => simp [step] at e
    | _ =>
      simp only [step, bind_ok, ok_inj, expect_ok] at e
      obtain ⟨_, h1, s, h2, rfl⟩ := e
      exact Stable.step_keep h2 (by simp) hau np.2
  | stake K k =>
    have : X = K := hS
    subst this
    simp only [step, bind_ok, ok_inj, expect_ok] at e
    obtain ⟨_, h1, s, h2, rfl⟩ := e
    exact Stake.step_keep h2 n3 n4
  | vest V k =>
    have : X = V := hS
    subst this
    cases k with
    | mint a x =>
      simp only [step, bind_ok, ok_inj, expect_ok] at e
      obtain ⟨_, h1, v, hv, _, ht, s, h2, rfl⟩ := e
      exact Vesting.step_keep h2 n5
    | _ =>
      simp only [step, bind_ok, ok_inj, expect_ok] at e
      obtain ⟨_, h1, s, h2, rfl⟩ := e
      exact Vesting.step_keep h2 n5
  | facInit F admin a b d e' wl dec =>
    simp only [step, facInit, bind_ok, expect_ok, deploy_ok, ok_inj] at e
    obtain ⟨_, h1, _, -, _, -, w1, ⟨-, rfl⟩, m, -, rfl⟩ := e
    exact le_refl _
  | create F sender i k amp sl mf =>
    simp only [step, bind_ok, ok_inj, expect_ok, Prod.exists] at e
    obtain ⟨_, h1, w1, P, h2, rfl⟩ := e
    obtain ⟨-, -, f, a, -⟩ := create_step hh I h1 h2
    obtain ⟨S, fr⟩ := a.fresh
    rw [fr.bal]
  | whitelist F sender add rem =>
    simp only [step, bind_ok, ok_inj, expect_ok] at e
    obtain ⟨_, h1, f, hf, f', -, rfl⟩ := e
    exact le_refl _
  | hashes F a b d =>
    simp only [step, bind_ok, ok_inj, expect_ok] at e
    obtain ⟨_, h1, f, hf, f', -, rfl⟩ := e
    exact le_refl _
  | facUpdate F a =>
    simp only [step, bind_ok, ok_inj, expect_ok] at e
    obtain ⟨_, h1, f, hf, f', -, rfl⟩ := e
    exact le_refl _
  | hopInit H admin F =>
    simp only [step, bind_ok, ok_inj, expect_ok] at e
    obtain ⟨_, h1, m, -, rfl⟩ := e
    exact le_refl _
  | hopSwap H recipient ops sp amount dl mf =>
    simp only [step, hopSwap, bind_ok, ok_inj, expect_ok, Prod.exists] at e
    obtain ⟨_, h1, w1, r, ⟨_, _, _, _, _, _, m, hm, h2⟩, rfl⟩ := e
    exact hopLoop_keep I hc h1 hX np h2
  | trdInit T admin a b o =>
    simp only [step, bind_ok, ok_inj, expect_ok] at e
    obtain ⟨_, h1, t, -, rfl⟩ := e
    exact le_refl _
  | trade T sender token pool amount sp dl mi mf =>
    simp only [step, trade, bind_ok, ok_inj, expect_ok, Prod.exists] at e
    obtain ⟨_, h1, w1, r, ⟨_, _, t, ht, _, _, _, _, _, _, h2⟩, rfl⟩ := e
    exact poolSwap_keep (c := c.as T) hs hL np h2
  | trdTransfer T sender recipient amount token =>
    simp only [step, bind_ok, ok_inj, expect_ok, Trader.transfer] at e
    obtain ⟨_, h1, -⟩ := e
    have : X = T := hS
    exact absurd (this ▸ h1) n7
  | rewards R k =>
    have : X = R := hS
    subst this
    simp only [step, bind_ok, ok_inj, expect_ok] at e
    obtain ⟨_, h1, s, h2, rfl⟩ := e
    exact Rewards.step_keep h2 n6

/-- Business with a token is never given up. -/
theorem step_handles {k : Call} (hh : HostOK h acct) (I : Inv h acct w) (hc : Signed acct c) (hi : c.invoker = none)
    (e : step h w c k = .ok w') (hn : Handles w X t) : Handles w' X t := by
  obtain ⟨-, g⟩ := step_inv hh I hc hi e
  rcases hn with ⟨p, hp, ht⟩ | ⟨p, hp, ht⟩ | ⟨cfg, hcfg, ht⟩ | ht | ⟨v, hv, ht⟩ | ⟨cfg, hcfg, ht⟩ | ht
  · obtain ⟨q, hq, e1, e2, -⟩ := g.xyk X p hp
    exact .inl ⟨q, hq, by rw [e1, e2]; exact ht⟩
  · obtain ⟨q, hq, e1, e2, -⟩ := g.stable X p hp
    exact .inr (.inl ⟨q, hq, by rw [e1, e2]; exact ht⟩)
  · exact .inr (.inr (.inl ⟨cfg, g.stake X cfg hcfg, ht⟩))
  · refine .inr (.inr (.inr (.inl ?_)))
    by_cases hT : Touches w k X
    · have hX : w.code X = .stake := by
        by_contra hne
        rw [I.refs.stake X hne] at ht
        simp [Stake.fresh] at ht
      obtain ⟨k, rfl⟩ := touch_stake I e hX hT
      simp only [step, bind_ok, ok_inj, expect_ok] at e
      obtain ⟨_, h1, s, h2, rfl⟩ := e
      simp only [upd_same]
      exact Stake.step_dists h2 ht
    · rw [(step_same e hT).stake]; exact ht
  · refine .inr (.inr (.inr (.inr (.inl ?_))))
    have hA := I.refs.vest X v hv
    by_cases hT : Touches w k X
    · obtain ⟨k, rfl⟩ := touch_vest I e hA hT
      have hf := I.core.auth_false hc (P := X) (by rw [hA]; simp) (by rw [hi]; simp)
      have At := I.core.at_ X (I.core.contracts X (by rw [hA]; simp))
      cases k with
      | mint a x =>
        simp only [step, bind_ok, ok_inj, expect_ok] at e
        obtain ⟨_, h1, v', hv', _, ht', s, h2, rfl⟩ := e
        obtain ⟨u, hu⟩ := Vesting.step_eff h2 hf At.vest hv
        exact ⟨u, by simp only [upd_same, hu.vest'], by rw [hu.token]; exact ht⟩
      | _ =>
        simp only [step, bind_ok, ok_inj, expect_ok] at e
        obtain ⟨_, h1, s, h2, rfl⟩ := e
        obtain ⟨u, hu⟩ := Vesting.step_eff h2 hf At.vest hv
        exact ⟨u, by simp only [upd_same, hu.vest'], by rw [hu.token]; exact ht⟩
    · exact ⟨v, by rw [(step_same e hT).vest, hv], ht⟩
  · exact .inr (.inr (.inr (.inr (.inr (.inl ⟨cfg, (g.rew X cfg hcfg).1, ht⟩)))))
  · exact .inr (.inr (.inr (.inr (.inr (.inr ((g.code X (by rw [ht]; simp)).trans ht))))))

theorem run_handles (hh : HostOK h acct) : ∀ (ts : List Tx) {w : World}, Inv h acct w → (∀ t ∈ ts, Possible acct t) →
    Handles w X t → Handles (run h w ts) X t
  | [], w, _, _, hn => hn
  | u :: ts, w, I, hp, hn => by
    have hu := hp u (by simp)
    refine run_handles hh ts (exec_inv hh I hu).1 (fun v hv => hp v (by simp [hv])) ?_
    unfold exec
    split
    · rename_i w1 e; exact step_handles hh I hu.2 hu.1 e hn
    · exact hn

theorem run_keep (hh : HostOK h acct) : ∀ (ts : List Tx) {w : World}, Inv h acct w → (∀ t ∈ ts, Possible acct t) →
    w.code X ≠ .none → ¬ Handles (run h w ts) X t → w.led.bal t X ≤ (run h w ts).led.bal t X
  | [], w, _, _, _, _ => le_refl _
  | u :: ts, w, I, hp, hX, hn => by
    have hu := hp u (by simp)
    obtain ⟨I1, g1⟩ := exec_inv hh I hu
    refine le_trans ?_ (run_keep hh ts I1 (fun v hv => hp v (by simp [hv])) (by rw [g1.code X hX]; exact hX) hn)
    have hn0 : ¬ Handles w X t := fun k => hn (run_handles hh (u :: ts) I hp k)
    unfold exec
    split
    · rename_i w1 e; exact step_keep hh I hu.2 hu.1 e hX hn0
    · exact le_refl _

end Phoenix.World
