import Verif.Lemmas.PoolSys
import Verif.Lemmas.StableSys
import Verif.Lemmas.StakeSys
import Verif.Lemmas.VestingSys
import Verif.Lemmas.RewardsSys
/-!
# Token movements made by contracts (helpers only)

`Moves ok live L L'`: the ledger `L'` arises from `L` by transfers, burns and mints, each
authorised only by addresses in `ok`, and mints only of tokens in `live`.
-/
namespace Phoenix
open Phoenix.Spec (Settles SameRights Flow NoAllowance)
open Phoenix.Props (token_call_inv)

/-- A call of an existing token, or an operation that moves nothing where nothing is. -/
def Plain (live : Addr → Prop) (tok : Addr) (op : TokenOp) : Prop :=
  live tok ∨ (∃ s d x, op = .transfer s d x) ∨ (∃ s x, op = .burn s x)

theorem spend_typed {t t' : Token} {s : Addr} {x : Int} (h : ∀ a, t.bal a ≤ I128_MAX) (hx : 0 ≤ x)
    (hc : t.spend s x = .ok t') : ∀ a, t'.bal a ≤ I128_MAX := by
  rw [Token.spend_ok] at hc
  obtain ⟨-, -, rfl⟩ := hc
  intro a
  simp only [upd_apply]
  split
  · have := h s; omega
  · exact h a

theorem receive_typed {t t' : Token} {s : Addr} {x : Int} (h : ∀ a, t.bal a ≤ I128_MAX)
    (hc : t.receive s x = .ok t') : ∀ a, t'.bal a ≤ I128_MAX := by
  rw [Token.receive_ok] at hc
  obtain ⟨hi, rfl⟩ := hc
  intro a
  simp only [upd_apply]
  split
  · exact hi.2
  · exact h a

/-- Token calls keep balances in the range of i128. -/
theorem call_typed {c : Ctx} {t t' : Token} {op : TokenOp} (hc : t.call c op = .ok t') (h : ∀ a, t.bal a ≤ I128_MAX) :
    ∀ a, t'.bal a ≤ I128_MAX := by
  cases op with
  | mint d x =>
    simp only [Token.call, Token.mint, Token.checkNonneg, bind_ok, requireAuth_ok, req_ok] at hc
    obtain ⟨_, h1, _, _, h2⟩ := hc
    exact receive_typed h h2
  | setAdmin n =>
    simp only [Token.call, Token.setAdmin, bind_ok, requireAuth_ok, ok_inj] at hc
    obtain ⟨_, _, rfl⟩ := hc
    exact h
  | approve o s x e =>
    simp only [Token.call, Token.approve, Token.checkNonneg, bind_ok, requireAuth_ok, req_ok,
      Token.writeAllowance_ok] at hc
    obtain ⟨_, h0, _, h1, _, rfl⟩ := hc
    exact h
  | transfer s d x =>
    simp only [Token.call, Token.transfer, Token.checkNonneg, bind_ok, requireAuth_ok, req_ok] at hc
    obtain ⟨_, h0, _, h1, t1, h2, h3⟩ := hc
    exact receive_typed (spend_typed h h1 h2) h3
  | transferFrom sp s d x =>
    simp only [Token.call, Token.transferFrom, Token.checkNonneg, bind_ok, requireAuth_ok, req_ok] at hc
    obtain ⟨_, _, _, h1, t0, h0, t1, h2, h3⟩ := hc
    obtain ⟨-, hb, -⟩ := Token.spendAllowance_ok h0
    exact receive_typed (spend_typed (by rw [hb]; exact h) h1 h2) h3
  | burn s x =>
    simp only [Token.call, Token.burn, Token.checkNonneg, bind_ok, requireAuth_ok, req_ok] at hc
    obtain ⟨_, h0, _, h1, h2⟩ := hc
    exact spend_typed h h1 h2
  | burnFrom sp s x =>
    simp only [Token.call, Token.burnFrom, Token.checkNonneg, bind_ok, requireAuth_ok, req_ok] at hc
    obtain ⟨_, _, _, h1, t0, h0, h2⟩ := hc
    obtain ⟨-, hb, -⟩ := Token.spendAllowance_ok h0
    exact spend_typed (by rw [hb]; exact h) h1 h2

inductive Moves (ok live : Addr → Prop) : Ledger → Ledger → Prop where
  | refl (L : Ledger) : Moves ok live L L
  | step {L L1 L2 : Ledger} {c : Ctx} {tok : Addr} {op : TokenOp} (h : L.call c tok op = .ok L1)
      (ha : ∀ a, c.auth a = true → ok a) (hp : Plain live tok op) (t : Moves ok live L1 L2) : Moves ok live L L2

namespace Moves
variable {ok live : Addr → Prop}

theorem one {L L1 : Ledger} {c : Ctx} {tok : Addr} {op : TokenOp} (h : L.call c tok op = .ok L1)
    (ha : ∀ a, c.auth a = true → ok a) (hp : Plain live tok op) : Moves ok live L L1 := .step h ha hp (.refl _)

theorem trans {L L1 L2 : Ledger} (h1 : Moves ok live L L1) (h2 : Moves ok live L1 L2) : Moves ok live L L2 := by
  induction h1 with
  | refl => exact h2
  | step h ha hp _ ih => exact .step h ha hp (ih h2)

theorem mono {ok' live' : Addr → Prop} {L L' : Ledger} (h : Moves ok live L L') (h1 : ∀ a, ok a → ok' a)
    (h2 : ∀ a, live a → live' a) : Moves ok' live' L L' := by
  induction h with
  | refl => exact .refl _
  | step h ha hp _ ih => exact .step h (fun a k => h1 a (ha a k)) (hp.imp_left (h2 _)) ih

/-- What the contract `me` may do with the signatures of `c`. -/
abbrev By (c : Ctx) (me : Addr) : Addr → Prop := fun a => c.signed a = true ∨ a = me

theorem transfer {L L1 : Ledger} {c : Ctx} {me tok s d : Addr} {x : Int}
    (h : L.transfer (c.as me) tok s d x = .ok L1) : Moves (By c me) live L L1 :=
  one h (fun _ k => as_auth.mp k) (.inr (.inl ⟨_, _, _, rfl⟩))
theorem burn {L L1 : Ledger} {c : Ctx} {me tok s : Addr} {x : Int} (h : L.burn (c.as me) tok s x = .ok L1) :
    Moves (By c me) live L L1 := one h (fun _ k => as_auth.mp k) (.inr (.inr ⟨_, _, rfl⟩))
theorem mint {L L1 : Ledger} {c : Ctx} {me tok d : Addr} {x : Int} (h : L.mint (c.as me) tok d x = .ok L1)
    (hl : live tok) : Moves (By c me) live L L1 := one h (fun _ k => as_auth.mp k) (.inl hl)

/-- Tokens that do not exist stay without balances. -/
theorem blank {L L' : Ledger} (m : Moves ok live L L') (t : Addr) (ht : ¬ live t) (h : ∀ a, L.bal t a = 0) :
    ∀ a, L'.bal t a = 0 := by
  induction m with
  | refl => exact h
  | @step L L1 L2 c tok op hc ha hp _ ih =>
    apply ih
    rcases hp with hp | ⟨s, d, x, rfl⟩ | ⟨s, x, rfl⟩
    · rw [Ledger.call_ok] at hc
      obtain ⟨t1, -, rfl⟩ := hc
      have : t ≠ tok := fun e => ht (e ▸ hp)
      intro a; simp only [Ledger.bal, upd_ne _ _ this]; exact h a
    · obtain ⟨-, h1, h2, h3, -⟩ := Ledger.transfer_inv hc
      intro a
      rw [h3 t a, h a]
      simp only [Flow.delta, List.map_cons, List.map_nil, List.sum_cons, List.sum_nil, add_zero, zero_add]
      by_cases e : tok = t
      · subst e
        have : x = 0 := by have := h s; omega
        subst this; simp
      · simp [e]
    · obtain ⟨-, h1, h2, h3, -⟩ := Ledger.burn_inv hc
      intro a
      rw [h3 t a, h a]
      by_cases e : tok = t
      · subst e
        have : x = 0 := by have := h s; omega
        subst this; simp
      · simp [e]

/-- Balances stay in the range of i128. -/
theorem typed {L L' : Ledger} (m : Moves ok live L L') (h : ∀ t a, L.bal t a ≤ I128_MAX) :
    ∀ t a, L'.bal t a ≤ I128_MAX := by
  induction m with
  | refl => exact h
  | @step L L1 L2 c tok op hc ha hp _ ih =>
    apply ih
    rw [Ledger.call_ok] at hc
    obtain ⟨t1, h1, rfl⟩ := hc
    intro t a
    simp only [Ledger.bal, upd_apply]
    split
    · exact call_typed h1 (h tok) a
    · exact h t a

variable {a : Addr} {L L' : Ledger}

/-- The invariants of a contract that takes no part survive. -/
theorem ledInv (m : Moves ok live L L') (ha : ¬ ok a) (h : LedInv a L) :
    LedInv a L' ∧ ∀ t, L.bal t a ≤ L'.bal t a := by
  induction m with
  | refl => exact ⟨h, fun _ => le_refl _⟩
  | @step L L1 L2 c tok op hc hk hp _ ih =>
    have hf : c.auth a = false := by by_contra k; exact ha (hk a (by simpa using k))
    obtain ⟨k1, k2, -⟩ := ledger_call_others hc hf h
    exact ⟨(ih k1).1, fun t => (k2 t).trans ((ih k1).2 t)⟩

theorem pool (m : Moves ok live L L') (ha : ¬ ok a) {p : Option Pool.State} (h : Pool.SysInv a ⟨p, L⟩) :
    Pool.SysInv a ⟨p, L'⟩ := by
  induction m with
  | refl => exact h
  | @step L L1 L2 c tok op hc hk hp _ ih =>
    have hf : c.auth a = false := by by_contra k; exact ha (hk a (by simpa using k))
    exact ih (Pool.step_keeps (t := .token c tok op) (s' := ⟨p, L1⟩) (by simp [Pool.step, bind_ok, hc])
      ⟨hf, trivial⟩ h)

theorem stable (m : Moves ok live L L') (ha : ¬ ok a) {p : Option Stable.State} (h : Stable.SysInv a ⟨p, L⟩) :
    Stable.SysInv a ⟨p, L'⟩ := by
  induction m with
  | refl => exact h
  | @step L L1 L2 c tok op hc hk hp _ ih =>
    have hf : c.auth a = false := by by_contra k; exact ha (hk a (by simpa using k))
    exact ih (Stable.step_keeps (t := .token c tok op) (s' := ⟨p, L1⟩) (by simp [Stable.step, bind_ok, hc])
      ⟨hf, trivial⟩ h)

theorem stake (m : Moves ok live L L') (ha : ¬ ok a) {p : Stake.State} (h : Stake.InvA a ⟨p, L⟩) :
    Stake.InvA a ⟨p, L'⟩ := by
  induction m with
  | refl => exact h
  | @step L L1 L2 c tok op hc hk hp _ ih =>
    have hf : c.auth a = false := by by_contra k; exact ha (hk a (by simpa using k))
    exact ih (Stake.step_invA (t := .token c tok op) (s' := ⟨p, L1⟩) (by simp [Stake.step, bind_ok, hc]) hf h)

theorem vest (m : Moves ok live L L') (ha : ¬ ok a) {p : Option Vesting.State} (h : Vesting.SysInv a ⟨p, L⟩) :
    Vesting.SysInv a ⟨p, L'⟩ := by
  induction m with
  | refl => exact h
  | @step L L1 L2 c tok op hc hk hp _ ih =>
    have hf : c.auth a = false := by by_contra k; exact ha (hk a (by simpa using k))
    exact ih (Vesting.step_inv (t := .token c tok op) (s' := ⟨p, L1⟩) (by simp [Vesting.step, bind_ok, hc]) hf h)

theorem rew (m : Moves ok live L L') (ha : ¬ ok a) {p : Rewards.State} (h : Rewards.Inv a ⟨p, L⟩) :
    Rewards.Inv a ⟨p, L'⟩ := by
  induction m with
  | refl => exact h
  | @step L L1 L2 c tok op hc hk hp _ ih =>
    have hf : c.auth a = false := by by_contra k; exact ha (hk a (by simpa using k))
    exact ih (Rewards.step_inv (t := .token c tok op) (s' := ⟨p, L1⟩) (by simp [Rewards.step, bind_ok, hc]) hf h)

end Moves

/-! ### The calls of each contract -/
open Moves (By)

namespace Pool
variable {live : Addr → Prop} {me : Addr} {c : Ctx} {p p' : State} {L L' : Ledger}

theorem mintShares_moves {d : Addr} {x : Int} (h : mintShares me c p L d x = .ok (p', L'))
    (hl : live p.cfg.shareToken) : Moves (By c me) live L L' ∧ p'.cfg = p.cfg := by
  simp only [mintShares, bind_ok, ok_inj, Prod.mk.injEq] at h
  obtain ⟨L1, h1, _, _, rfl, rfl⟩ := h
  exact ⟨.mint h1 hl, rfl⟩

theorem burnShares_moves {x : Int} (h : burnShares me c p L x = .ok (p', L')) :
    Moves (By c me) live L L' := by
  simp only [burnShares, bind_ok, ok_inj, Prod.mk.injEq] at h
  obtain ⟨L1, h1, _, _, rfl, rfl⟩ := h
  exact .burn h1

theorem newShares_moves {a b x y n : Int} (h : newShares me c p L a b x y = .ok (n, p', L'))
    (hl : live p.cfg.shareToken) : Moves (By c me) live L L' ∧ p'.cfg = p.cfg := by
  unfold newShares at h
  split at h
  · simp only [bind_ok, ok_inj, Prod.mk.injEq] at h
    obtain ⟨_, _, _, _, _, _, _, _, _, rfl, rfl⟩ := h
    exact ⟨.refl _, rfl⟩
  · simp only [bind_ok, ok_inj, Prod.mk.injEq, Prod.exists] at h
    obtain ⟨_, _, _, _, _, _, p1, L1, h1, _, _, _, rfl, rfl⟩ := h
    exact mintShares_moves h1 hl

theorem provide_moves {sender : Addr} {x1 x2 x3 x4 x5 : Option Int} {dl : Option Nat}
    (h : provide me c p L sender x1 x2 x3 x4 x5 dl = .ok (p', L')) (hl : live p.cfg.shareToken) :
    Moves (By c me) live L L' := by
  simp only [provide, bind_ok, ok_inj, Prod.mk.injEq, Prod.exists] at h
  obtain ⟨_, _, _, _, _, _, _, _, _, _, _, _, _, _, _, _, _, L1, h1, L2, h2, _, _, _, _, _, p1, L3, h3, _, _, p2, L4, h4, rfl, rfl⟩ := h
  obtain ⟨m3, e⟩ := newShares_moves h3 hl
  exact (Moves.transfer h1).trans ((Moves.transfer h2).trans (m3.trans (mintShares_moves h4 (e ▸ hl)).1))

theorem withdraw_moves {sender : Addr} {x1 x2 x3 r1 r2 : Int} {dl : Option Nat}
    (h : withdraw me c p L sender x1 x2 x3 dl = .ok (p', L', r1, r2)) : Moves (By c me) live L L' := by
  simp only [withdraw, bind_ok, ok_inj, Prod.mk.injEq, Prod.exists] at h
  obtain ⟨_, _, _, _, _, _, _, _, _, _, L1, h1, _, _, _, _, _, _, _, _, _, _, p1, L2, h2, L3, h3, L4, h4, _, _, _, _, rfl, rfl, rfl, rfl⟩ := h
  exact (Moves.transfer h1).trans ((burnShares_moves h2).trans ((Moves.transfer h3).trans (Moves.transfer h4)))

theorem swap_moves {sender offer : Addr} {x r : Int} {x1 x2 x3 : Option Int} {dl : Option Nat}
    (h : swap me c p L sender offer x x1 x2 dl x3 = .ok (p', L', r)) : Moves (By c me) live L L' := by
  simp only [swap, doSwap, bind_ok, ok_inj, Prod.mk.injEq, Prod.exists] at h
  obtain ⟨_, _, _, _, _, _, _, _, _, _, _, _, _, _, _, _, _, _, _, _, _, _, _, L1, h1, _, _, L2, h2, L3, h3, _, _, rfl, rfl, rfl⟩ := h
  exact (Moves.transfer h1).trans ((Moves.transfer h2).trans (Moves.transfer h3))

/-- Every call but `initialize`. -/
theorem step_moves {s s' : Sys} {k : Call} (h : step me s (.pool c k) = .ok s') (hk : ∀ i, k ≠ .init i)
    (hl : ∀ p, s.pool = some p → live p.cfg.shareToken) : Moves (By c me) live s.led s'.led := by
  have hq : ∀ p, loaded s.pool = .ok p → live p.cfg.shareToken := by
    intro p hp; apply hl; revert hp; unfold loaded; split <;> simp_all
  cases k with
  | init i => exact absurd rfl (hk i)
  | provide =>
    simp only [step, bind_ok, ok_inj, Prod.exists] at h
    obtain ⟨p, hp, p', L, h, rfl⟩ := h
    exact provide_moves h (hq p hp)
  | swap =>
    simp only [step, bind_ok, ok_inj, Prod.exists] at h
    obtain ⟨p, hp, p', L, r, h, rfl⟩ := h
    exact swap_moves h
  | withdraw =>
    simp only [step, bind_ok, ok_inj, Prod.exists] at h
    obtain ⟨p, hp, p', L, _, _, h, rfl⟩ := h
    exact withdraw_moves h
  | updateConfig =>
    simp only [step, bind_ok, ok_inj] at h
    obtain ⟨p, hp, p', h, rfl⟩ := h
    exact .refl _
  | upgrade =>
    simp only [step, bind_ok, ok_inj] at h
    obtain ⟨p, hp, p', h, rfl⟩ := h
    exact .refl _

end Pool

namespace Stable
variable {live : Addr → Prop} {me : Addr} {c : Ctx} {p p' : State} {L L' : Ledger}

theorem provide_moves {sender : Addr} {x y : Int} {x1 : Option Int} {dl m : Option Nat}
    (h : provide me c p L sender x y x1 dl m = .ok (p', L')) (hl : live p.cfg.shareToken) :
    Moves (By c me) live L L' := by
  simp only [provide, mintShares, bind_ok, ok_inj, Prod.mk.injEq, Prod.exists] at h
  obtain ⟨_, _, _, _, _, _, _, _, _, _, _, _, L1, h1, L2, h2, _, _, _, _, _, _, _, _, _, _, _, _, _, _, _, _, _, _, _, _, p1, L3, ⟨L4, h3, _, _, rfl, rfl⟩, rfl, rfl⟩ := h
  exact (Moves.transfer h1).trans ((Moves.transfer h2).trans (Moves.mint h3 hl))

theorem withdraw_moves {sender : Addr} {x1 x2 x3 r1 r2 : Int} {dl : Option Nat}
    (h : withdraw me c p L sender x1 x2 x3 dl = .ok (p', L', r1, r2)) : Moves (By c me) live L L' := by
  simp only [withdraw, burnShares, bind_ok, ok_inj, Prod.mk.injEq, Prod.exists] at h
  obtain ⟨_, _, _, _, _, _, _, _, _, _, L1, h1, _, _, _, _, _, _, _, _, _, _, p1, L2, ⟨L2', h2, _, _, rfl, rfl⟩, L3, h3, L4, h4, _, _, _, _, rfl, rfl, rfl, rfl⟩ := h
  exact (Moves.transfer h1).trans ((Moves.burn h2).trans ((Moves.transfer h3).trans (Moves.transfer h4)))

theorem swap_moves {sender offer : Addr} {x r : Int} {x1 x2 x3 : Option Int} {dl : Option Nat}
    (h : swap me c p L sender offer x x1 x2 dl x3 = .ok (p', L', r)) : Moves (By c me) live L L' := by
  simp only [swap, doSwap, bind_ok, ok_inj, Prod.mk.injEq, Prod.exists] at h
  obtain ⟨_, _, _, _, _, _, _, _, _, _, _, _, _, _, _, _, _, _, _, L1, h1, _, _, L2, h2, L3, h3, _, _, rfl, rfl, rfl⟩ := h
  exact (Moves.transfer h1).trans ((Moves.transfer h2).trans (Moves.transfer h3))

/-- Every call but `initialize`. -/
theorem step_moves {s s' : Sys} {k : Call} (h : step me s (.pool c k) = .ok s') (hk : ∀ i, k ≠ .init i)
    (hl : ∀ p, s.pool = some p → live p.cfg.shareToken) : Moves (By c me) live s.led s'.led := by
  have hq : ∀ p, loaded s.pool = .ok p → live p.cfg.shareToken := by
    intro p hp; apply hl; revert hp; unfold loaded; split <;> simp_all
  cases k with
  | init i => exact absurd rfl (hk i)
  | provide =>
    simp only [step, bind_ok, ok_inj, Prod.exists] at h
    obtain ⟨p, hp, p', L, h, rfl⟩ := h
    exact provide_moves h (hq p hp)
  | swap =>
    simp only [step, bind_ok, ok_inj, Prod.exists] at h
    obtain ⟨p, hp, p', L, r, h, rfl⟩ := h
    exact swap_moves h
  | withdraw =>
    simp only [step, bind_ok, ok_inj, Prod.exists] at h
    obtain ⟨p, hp, p', L, _, _, h, rfl⟩ := h
    exact withdraw_moves h
  | updateConfig =>
    simp only [step, bind_ok, ok_inj] at h
    obtain ⟨p, hp, p', h, rfl⟩ := h
    exact .refl _

end Stable

namespace Stake
variable {live : Addr → Prop} {me : Addr} {c : Ctx}

theorem payLoop_moves {s : State} {sender : Addr} : ∀ {l : List Addr} {L L' : Ledger},
    payLoop me c s sender l L = .ok L' → Moves (By c me) live L L'
  | [], L, L', h => by simp only [payLoop, ok_inj] at h; subst h; exact .refl _
  | a :: l, L, L', h => by
    simp only [payLoop, bind_ok] at h
    obtain ⟨_, _, L1, h1, h2⟩ := h
    exact (Moves.transfer h1).trans (payLoop_moves h2)

theorem step_moves {s s' : Sys} {k : Call} (h : step me s (.stake c k) = .ok s') :
    Moves (By c me) live s.led s'.led := by
  cases k with
  | init =>
    simp only [step, bind_ok, ok_inj] at h
    obtain ⟨v, _, rfl⟩ := h; exact .refl _
  | bond =>
    simp only [step, bond, bind_ok, ok_inj, Prod.exists, Prod.mk.injEq] at h
    obtain ⟨v, L, ⟨_, _, _, _, _, _, L1, h1, _, _, _, _, rfl, rfl⟩, rfl⟩ := h
    exact .transfer h1
  | unbond =>
    simp only [step, unbond, bind_ok, ok_inj, Prod.exists, Prod.mk.injEq] at h
    obtain ⟨v, L, ⟨_, _, _, _, _, _, _, _, L1, h1, _, _, rfl, rfl⟩, rfl⟩ := h
    exact .transfer h1
  | createFlow =>
    simp only [step, bind_ok, ok_inj] at h
    obtain ⟨v, _, rfl⟩ := h; exact .refl _
  | distribute =>
    simp only [step, distribute, bind_ok, ok_inj, Prod.exists, Prod.mk.injEq] at h
    obtain ⟨v, L, ⟨_, _, _, _, _, _, _, _, _, _, L1, h1, rfl, rfl⟩, rfl⟩ := h
    exact .transfer h1
  | withdraw =>
    simp only [step, withdraw, bind_ok, ok_inj, Prod.exists, Prod.mk.injEq] at h
    obtain ⟨v, L, ⟨L1, h1, rfl, rfl⟩, rfl⟩ := h
    exact payLoop_moves h1

end Stake

namespace Vesting
variable {live : Addr → Prop} {me : Addr} {c : Ctx}

theorem step_moves {s s' : Sys} {k : Call} (h : step me s (.vest c k) = .ok s')
    (hl : (∃ a x, k = .mint a x) → ∀ v, s.vest = some v → live v.token) : Moves (By c me) live s.led s'.led := by
  cases k with
  | init =>
    simp only [step, bind_ok, ok_inj] at h
    obtain ⟨v, _, rfl⟩ := h; exact .refl _
  | create =>
    simp only [step, create, bind_ok, ok_inj, Prod.exists, Prod.mk.injEq] at h
    obtain ⟨_, _, v, L, ⟨_, _, _, _, _, _, _, _, _, _, _, _, _, L1, h1, rfl, rfl⟩, rfl⟩ := h
    exact .transfer h1
  | claim =>
    simp only [step, claim, bind_ok, ok_inj, Prod.exists, Prod.mk.injEq] at h
    obtain ⟨_, _, v, L, ⟨_, _, _, _, _, _, _, _, _, _, _, _, _, _, _, _, _, _, L1, h1, rfl, rfl⟩, rfl⟩ := h
    exact .transfer h1
  | burn =>
    simp only [step, burn, bind_ok, ok_inj] at h
    obtain ⟨_, _, L, ⟨_, _, _, _, h1⟩, rfl⟩ := h
    exact .burn h1
  | mint a x =>
    simp only [step, mint, bind_ok, ok_inj, Prod.exists, Prod.mk.injEq] at h
    obtain ⟨v0, hv, v, L, ⟨_, _, _, _, _, _, _, _, _, _, _, _, L1, h1, rfl, rfl⟩, rfl⟩ := h
    refine .mint h1 (hl ⟨a, x, rfl⟩ v0 ?_)
    revert hv; unfold loaded; split <;> simp_all
  | updateMinter =>
    simp only [step, bind_ok, ok_inj] at h
    obtain ⟨_, _, v, _, rfl⟩ := h; exact .refl _
  | updateCapacity =>
    simp only [step, bind_ok, ok_inj] at h
    obtain ⟨_, _, v, _, rfl⟩ := h; exact .refl _

end Vesting

namespace Rewards
variable {live : Addr → Prop} {me : Addr} {c : Ctx}

theorem withdraw_moves {s v : State} {L L' : Ledger} {u : Addr} {i : Stake.Info}
    (h : withdraw me c s L u i = .ok (v, L')) : Moves (By c me) live L L' := by
  unfold withdraw at h
  simp only [bind_ok] at h
  obtain ⟨cfg, h1, _, h2, x, h3, h4⟩ := h
  split at h4
  · simp only [ok_inj, Prod.mk.injEq] at h4
    obtain ⟨rfl, rfl⟩ := h4; exact .refl _
  · simp only [bind_ok, ok_inj, Prod.mk.injEq] at h4
    obtain ⟨_, _, _, _, L1, hL, rfl, rfl⟩ := h4
    exact .transfer hL

theorem step_moves {s s' : Sys} {k : Call} (h : step me s (.rewards c k) = .ok s') :
    Moves (By c me) live s.led s'.led := by
  cases k with
  | init =>
    simp only [step, bind_ok, ok_inj] at h
    obtain ⟨v, _, rfl⟩ := h; exact .refl _
  | addUser =>
    simp only [step, bind_ok, ok_inj] at h
    obtain ⟨v, _, rfl⟩ := h; exact .refl _
  | calcBond =>
    simp only [step, bind_ok, ok_inj] at h
    obtain ⟨v, _, rfl⟩ := h; exact .refl _
  | calcUnbond =>
    simp only [step, calcUnbond, withdrawIfAny, bind_ok, ok_inj, Prod.exists, Prod.mk.injEq] at h
    obtain ⟨v, L, ⟨_, _, _, _, _, _, v1, L1, ⟨r, _, h1⟩, _, _, _, _, _, _, _, _, rfl, rfl⟩, rfl⟩ := h
    split at h1
    · exact withdraw_moves h1
    · simp only [ok_inj, Prod.mk.injEq] at h1
      obtain ⟨rfl, rfl⟩ := h1; exact .refl _
  | distribute =>
    simp only [step, bind_ok, ok_inj] at h
    obtain ⟨v, _, rfl⟩ := h; exact .refl _
  | withdraw =>
    simp only [step, bind_ok, ok_inj, Prod.exists] at h
    obtain ⟨v, L, h1, rfl⟩ := h
    exact withdraw_moves h1
  | fund =>
    simp only [step, fund, bind_ok, ok_inj, Prod.exists, Prod.mk.injEq] at h
    obtain ⟨v, L, ⟨_, _, _, _, _, _, _, _, _, _, L1, h1, _, _, _, _, _, _, _, _, rfl, rfl⟩, rfl⟩ := h
    exact .transfer h1

end Rewards
end Phoenix
