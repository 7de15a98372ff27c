import Verif.Props.Rewards
/-!
C173: in the reward contract it does not matter in which order the calls of two different users are made.
-/
namespace Phoenix.Props.OrderRewards
open Phoenix Rewards Rewards.Spec
open Phoenix.Stake (Info)
open Phoenix.Spec (Settles)

/-- the calls that concern one user: reports of their stake and withdrawals of their rewards -/
def OfUser (u : Addr) : Call → Prop
  | .addUser w _ | .calcBond w _ | .calcUnbond w _ _ | .withdraw w _ => w = u
  | _ => False

/-- a call pays `x` to `u` and leaves `A` in the books of `u` (helper) -/
def Does (me : Addr) (cfg : Config) (u : Addr) (x : Nat) (A : Adj) (z z' : Sys) : Prop :=
  x ≤ z.st.dist.withdrawable ∧
  z'.st = { z.st with dist := { z.st.dist with withdrawable := z.st.dist.withdrawable - x }, adj := upd z.st.adj u A } ∧
  Settles z.led z'.led [⟨cfg.token, me, u, x⟩]

theorem does_nothing_paid {me u : Addr} {cfg : Config} {A : Adj} {z : Sys} {v : State} (h : v = { z.st with adj := upd z.st.adj u A }) :
    Does me cfg u 0 A z ⟨v, z.led⟩ :=
  ⟨Nat.zero_le _, h, settles_zero _ _ _ _⟩

/-- what a call of a user does depends only on the configuration, the share price and the books of that user -/
theorem same_effect {me u : Addr} {cfg : Config} {z z' y y' : Sys} {c : Ctx} {k : Call} (hk : OfUser u k)
    (hz : z.st.cfg = some cfg) (hy : y.st.cfg = some cfg) (hs : y.st.dist.spp = z.st.dist.spp) (ha : y.st.adj u = z.st.adj u)
    (h : Rewards.step me z (.rewards c k) = .ok z') (g : Rewards.step me y (.rewards c k) = .ok y') :
    ∃ x A, Does me cfg u x A z z' ∧ Does me cfg u x A y y' := by
  have pay : ∀ i, payable c cfg y.st u i = payable c cfg z.st u i := by
    intro i; simp only [payable, claim, hs, ha]
  cases k with
  | addUser w i =>
    cases hk
    simp only [Rewards.step, bind_ok, ok_inj] at h g
    obtain ⟨v, h, rfl⟩ := h
    obtain ⟨v', g, rfl⟩ := g
    obtain ⟨cf, a1, -, a2⟩ := addUser_inv h
    obtain ⟨cf', b1, -, b2⟩ := addUser_inv g
    rw [hz] at a1; cases a1
    rw [hy] at b1; cases b1
    rw [hs, ha] at b2
    exact ⟨0, _, does_nothing_paid a2, does_nothing_paid b2⟩
  | calcBond w i =>
    cases hk
    simp only [Rewards.step, bind_ok, ok_inj] at h g
    obtain ⟨v, h, rfl⟩ := h
    obtain ⟨v', g, rfl⟩ := g
    obtain ⟨cf, e, a1, -, a3, a2⟩ := calcBond_inv h
    obtain ⟨cf', e', b1, -, b3, b2⟩ := calcBond_inv g
    rw [hz] at a1; cases a1
    rw [hy] at b1; cases b1
    rw [a3] at b3; cases b3
    rw [hs, ha] at b2
    exact ⟨0, _, does_nothing_paid a2, does_nothing_paid b2⟩
  | calcUnbond w i q =>
    cases hk
    simp only [Rewards.step, bind_ok, ok_inj] at h g
    obtain ⟨⟨v, L⟩, h, rfl⟩ := h
    obtain ⟨⟨v', L'⟩, g, rfl⟩ := g
    obtain ⟨cf, x, a1, -, -, a2, a3, a4, a5, -, a6, -⟩ := calcUnbond_inv h
    obtain ⟨cf', x', b1, -, -, b2, b3, b4, b5, -, b6, -⟩ := calcUnbond_inv g
    rw [hz] at a1; cases a1
    rw [hy] at b1; cases b1
    rw [pay, a2, ok_inj] at b2
    subst b2
    have hx : ((x.toNat : Nat) : Int) = x := by omega
    refine ⟨x.toNat, ⟨(z.st.adj u).corr - z.st.dist.spp * (weight cfg.minBond (i.total - q) - weight cfg.minBond i.total),
      (z.st.adj u).withdrawn + x.toNat⟩, ⟨by omega, ?_, by rw [hx]; exact a6⟩, ⟨by omega, ?_, by rw [hx]; exact b6⟩⟩
    · rw [a5]
      simp only [paidState, upd_same, State.mk.injEq, true_and]
      funext b
      by_cases e : b = u
      · subst e; simp only [upd_same]
      · simp only [upd_ne _ _ e]
    · rw [b5]
      simp only [paidState, upd_same, State.mk.injEq, true_and, hs, ha]
      funext b
      by_cases e : b = u
      · subst e; simp only [upd_same]
      · simp only [upd_ne _ _ e]
  | withdraw w i =>
    cases hk
    simp only [Rewards.step, bind_ok, ok_inj] at h g
    obtain ⟨⟨v, L⟩, h, rfl⟩ := h
    obtain ⟨⟨v', L'⟩, g, rfl⟩ := g
    obtain ⟨cf, x, a1, -, a2, a3, a4, a5, -, a6, -⟩ := withdraw_inv h
    obtain ⟨cf', x', b1, -, b2, b3, b4, b5, -, b6, -⟩ := withdraw_inv g
    rw [hz] at a1; cases a1
    rw [hy] at b1; cases b1
    rw [pay, a2, ok_inj] at b2
    subst b2
    have hx : ((x.toNat : Nat) : Int) = x := by omega
    refine ⟨x.toNat, { z.st.adj u with withdrawn := (z.st.adj u).withdrawn + x.toNat },
      ⟨by omega, a5, by rw [hx]; exact a6⟩, ⟨by omega, ?_, by rw [hx]; exact b6⟩⟩
    rw [← ha]; exact b5
  | _ => exact hk.elim

/-- **C173** Two calls that concern different users: if each goes through both before and after the other, the contract ends in the
same state in either order, and everybody has the same balances. -/
theorem C173_order_does_not_matter {me u v : Addr} {cfg : Config} {z z1 z12 z2 z21 : Sys} {c d : Ctx} {k l : Call} (hne : u ≠ v)
    (hc : queryConfig z.st = .ok cfg) (hk : OfUser u k) (hl : OfUser v l)
    (h1 : Rewards.step me z (.rewards c k) = .ok z1) (h12 : Rewards.step me z1 (.rewards d l) = .ok z12)
    (h2 : Rewards.step me z (.rewards d l) = .ok z2) (h21 : Rewards.step me z2 (.rewards c k) = .ok z21) :
    z12.st = z21.st ∧ ∀ t a, z12.led.bal t a = z21.led.bal t a := by
  have hc' : z.st.cfg = some cfg := getConfig_ok.mp hc
  obtain ⟨_, _, p, -⟩ := same_effect hk hc' hc' rfl rfl h1 h1
  obtain ⟨_, _, q, -⟩ := same_effect hl hc' hc' rfl rfl h2 h2
  obtain ⟨x, A, a1, a2⟩ := same_effect hk hc' (by rw [q.2.1]; exact hc') (by rw [q.2.1]) (by rw [q.2.1]; exact upd_ne _ _ hne) h1 h21
  obtain ⟨y, B, b1, b2⟩ := same_effect hl hc' (by rw [p.2.1]; exact hc') (by rw [p.2.1]) (by rw [p.2.1]; exact upd_ne _ _ hne.symm) h2 h12
  constructor
  · rw [b2.2.1, a1.2.1, a2.2.1, b1.2.1]
    simp only [State.mk.injEq, Dist.mk.injEq, true_and]
    refine ⟨by omega, ?_⟩
    funext w
    by_cases e : w = u
    · subst e; simp only [upd_same, upd_ne _ _ hne]
    · by_cases f : w = v
      · subst f; simp only [upd_same, upd_ne _ _ e]
      · simp only [upd_ne _ _ e, upd_ne _ _ f]
  · intro t a
    rw [b2.2.2, a1.2.2, a2.2.2, b1.2.2]
    ring

/-! In the example of C86, on day 30 after the first distribution: user 2 withdraws, and user 1 takes 4000 of their stake back. -/
def orStart : Sys := Rewards.run 100 rExStart (rExHist.take 5)
def orOne : Tx := .rewards (rBy 2 30) (.withdraw 2 (rInfo 5000 0))
def orTwo : Tx := .rewards (rBy 1 30) (.calcUnbond 1 (rInfo 10000 0) 4000)

example : OfUser 2 (.withdraw 2 (rInfo 5000 0)) ∧ OfUser 1 (.calcUnbond 1 (rInfo 10000 0) 4000) := ⟨rfl, rfl⟩
example : queryConfig orStart.st = .ok ⟨50, 40, 10, 1000, 1000⟩ ∧ Rewards.Spec.succeeds 100 orStart orOne = true ∧
    Rewards.Spec.succeeds 100 (exec 100 orStart orOne) orTwo = true ∧ Rewards.Spec.succeeds 100 orStart orTwo = true ∧
    Rewards.Spec.succeeds 100 (exec 100 orStart orTwo) orOne = true ∧
    (exec 100 (exec 100 orStart orOne) orTwo).led.bal 40 1 = 100000 ∧ (exec 100 (exec 100 orStart orOne) orTwo).led.bal 40 2 = 50000 := by
  refine ⟨?_, ?_, ?_, ?_, ?_, ?_, ?_⟩ <;> decide +kernel

end Phoenix.Props.OrderRewards
