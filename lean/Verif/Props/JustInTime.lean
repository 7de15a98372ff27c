import Verif.Props.Leaver
import Verif.Props.Lost
/-!
C170: in the reward contract a stake made just before a distribution and taken back just after it earns its full part of the
distribution, however long the distributed rewards had been accruing.  The 60-day rule only delays the payment: the owner
comes back with any small stake and collects.
-/
namespace Phoenix.Props.JustInTime
open Phoenix Rewards Rewards.Spec
open Phoenix.Stake (Info Entry)
open Phoenix.Spec (Settles)
open Phoenix.Props.Leaver (Away)

/-- the claim of a user without stake is made of their correction alone -/
theorem idle_claim {s : State} {c : Ctx} {u : Addr} {st : List Entry} {l F : Nat} (hm : multiplier c.now st = 10 ^ 18)
    (h : queryWithdrawable c s u ⟨st, l, 0⟩ = .ok F) : (F : Int) = (s.adj u).corr / 4294967296 - (s.adj u).withdrawn := by
  obtain ⟨cfg1, j1, j2⟩ := queryWithdrawable_inv h
  obtain ⟨f, k1, -, k2, -⟩ := payable_inv j2
  have g := (claim_inv k1).2
  simp only [Rewards.weight_zero, mul_zero, zero_add] at g
  simp only [hm] at k2
  have : (F : Int) = f := by rw [k2]; exact Int.mul_ediv_cancel _ (by decide)
  omega

theorem multiplier_young {now : Nat} {e : Entry} (h : now < e.ts + 86400) : multiplier now [e] = 0 := by
  have : (now - e.ts) / 86400 = 0 := by omega
  unfold multiplier
  simp only [List.map_cons, List.map_nil, this]
  simp

/-- stake, distribution, stake taken back: the correction of the user grows by the growth of the share price times the points -/
theorem round_trip {me : Addr} {z z1 z2 z3 : Sys} {c0 c1 c2 : Ctx} {u : Addr} {e : Entry} {T : Int} {l l' : Nat} {cfg : Config}
    (hc : z.st.cfg = some cfg)
    (h1 : Rewards.step me z (.rewards c0 (.calcBond u ⟨[e], l, 0⟩)) = .ok z1)
    (h2 : Rewards.step me z1 (.rewards c1 (.distribute T)) = .ok z2)
    (h3 : Rewards.step me z2 (.rewards c2 (.calcUnbond u ⟨[e], l', e.amount⟩ e.amount)) = .ok z3)
    (hy : c2.now < e.ts + 86400) {D A : Nat} (hD : queryDistributed z.st cfg.token = .ok D)
    (hA : queryDistributed z2.st cfg.token = .ok (D + A)) (hA0 : 0 < A) (hAs : A < 2 ^ 96) :
    z3.led = z.led ∧ z3.st.cfg = some cfg ∧ (z3.st.adj u).withdrawn = (z.st.adj u).withdrawn ∧ 0 < weight cfg.minBond T ∧
    ∃ G : Int, (A : Int) * 4294967296 - weight cfg.minBond T < weight cfg.minBond T * G ∧
      (z3.st.adj u).corr = (z.st.adj u).corr + G * weight cfg.minBond e.amount := by
  simp only [Rewards.step, bind_ok, ok_inj] at h1 h2 h3
  obtain ⟨v1, h1, rfl⟩ := h1
  obtain ⟨v2, h2, rfl⟩ := h2
  obtain ⟨⟨v3, L3⟩, h3, rfl⟩ := h3
  obtain ⟨cfg1, e', a1, -, a2, rfl⟩ := calcBond_inv h1
  simp only [List.getLast?_singleton, Option.some.injEq] at a2
  subst a2
  rw [hc] at a1; cases a1
  unfold queryDistributed at hD hA
  simp only [bind_ok, getConfig_ok, req_ok, ok_inj] at hD hA
  obtain ⟨_, -, _, -, hD⟩ := hD
  obtain ⟨_, -, _, -, hA⟩ := hA
  obtain ⟨cfg2, b1, -, -, ⟨rfl, -⟩ | ⟨y, d, b2, b3, b4, b5, rfl⟩⟩ := distribute_inv h2
  · simp only at hA; omega
  simp only [hc, Option.some.injEq] at b1
  subst b1
  have k3 := (handOut_inv b5).2.2.2.1
  have hyA : y = A := by simp only at hA k3; omega
  subst hyA
  obtain ⟨P, hP⟩ : ∃ P : Nat, (P : Int) = weight cfg.minBond T := ⟨(weight cfg.minBond T).toNat, by omega⟩
  rw [show (weight cfg.minBond T).toNat = P by omega] at b5
  obtain ⟨-, hg⟩ := Lost.price_growth b5 hAs
  rw [hP] at hg
  simp only at hg
  -- the unbonding pays nothing
  unfold calcUnbond at h3
  simp only [bind_ok, getConfig_ok, requireAuth_ok, subI_ok, ok_inj, Prod.mk.injEq] at h3
  obtain ⟨_, -, cfg3, d1, _, -, w, d2, p, d3, _, ⟨-, rfl⟩, q, d4, s', d5, rfl, rfl⟩ := h3
  rw [hc] at d1; cases d1
  unfold withdrawIfAny at d2
  simp only [bind_ok] at d2
  obtain ⟨r, f1, f2⟩ := d2
  have hr : r = 0 := by
    obtain ⟨cfg4, m1, m2⟩ := queryWithdrawable_inv f1
    obtain ⟨f, -, -, m3, -⟩ := payable_inv m2
    simp only [multiplier_young hy, mul_zero, Int.zero_ediv] at m3
    exact_mod_cast m3
  subst hr
  simp only [ne_eq, not_true_eq_false, if_false, ok_inj] at f2
  subst f2
  have hp := power_val d3
  have hq := power_val d4
  have hs := updateRewards_inv d5
  subst hp hq hs
  refine ⟨rfl, hc, ?_, b3, (d.spp : Int) - z.st.dist.spp, hg, ?_⟩
  · simp only [upd_same]
  · simp only [upd_same, sub_self, zero_add, Rewards.weight_zero]
    ring

/-- the part of an amount that falls to `w` of `P` points -/
theorem won_part (K A : Nat) (P w G X : Int) (hK : 0 < K) (hP : 0 < P) (hw : 0 ≤ w) (hg : (A : Int) * K - P ≤ P * G)
    (hx : G * w < K * (X + 1)) : ((A : ℚ) - P / K) * (w / P) - 1 < X := by
  have hK' : (0 : ℚ) < K := by exact_mod_cast hK
  have hP' : (0 : ℚ) < P := by exact_mod_cast hP
  have hw' : (0 : ℚ) ≤ w := by exact_mod_cast hw
  have hg' : (A : ℚ) * K - P ≤ P * G := by exact_mod_cast hg
  have hx' : (G : ℚ) * w < K * (X + 1) := by exact_mod_cast hx
  have e : ((A : ℚ) - P / K) * (w / P) * K = (A * K - P) / P * w := by field_simp
  have h1 : ((A : ℚ) * K - P) / P * w ≤ G * w := by
    refine mul_le_mul_of_nonneg_right ?_ hw'
    rw [div_le_iff₀ hP']; linarith
  have h2 : ((A : ℚ) - P / K) * (w / P) * K < (X + 1) * K := by rw [e]; linarith
  linarith [lt_of_mul_lt_mul_right h2 hK'.le]

/-- **C170** A user without stake stakes `e`, a distribution hands out `A` over `W` points, and the user takes the whole stake
back, all within a day (in the same second, if they like).  No reward is paid then, but they have earned their part of the
distribution, `w / W` for the `w` points of the stake, in full, whenever the rewards in it had been released: it is kept, whatever
happens while they are away, and when they come back with some stake `e'`, exactly that much more is claimable than they had
before (in full once the 60-day rule no longer reduces it). -/
theorem C170_earns_without_staying {me : Addr} {z z1 z2 z3 z4 : Sys} {c0 c1 c2 c3 d d' : Ctx} {u : Addr} {e e' : Entry} {T : Int}
    {l l' l'' : Nat} {cfg : Config} (hc : queryConfig z.st = .ok cfg) {F : Nat} {st : List Entry}
    (hm : multiplier d.now st = 10 ^ 18) (hF : queryWithdrawable d z.st u ⟨st, l, 0⟩ = .ok F)
    (h1 : Rewards.step me z (.rewards c0 (.calcBond u ⟨[e], l, 0⟩)) = .ok z1)
    (h2 : Rewards.step me z1 (.rewards c1 (.distribute T)) = .ok z2)
    (h3 : Rewards.step me z2 (.rewards c2 (.calcUnbond u ⟨[e], l', e.amount⟩ e.amount)) = .ok z3)
    (he : 0 ≤ e.amount) (hy : c2.now < e.ts + 86400) {D A : Nat} (hD : queryDistributed z.st cfg.token = .ok D)
    (hA : queryDistributed z2.st cfg.token = .ok (D + A)) (hA0 : 0 < A) (hAs : A < 2 ^ 96)
    {W w : Int} (hW : W = weight cfg.minBond T) (hw : w = weight cfg.minBond e.amount)
    (ts : List Tx) (ha : ∀ t ∈ ts, Away u t)
    (h4 : Rewards.step me (Rewards.run me z3 ts) (.rewards c3 (.calcBond u ⟨[e'], l'', 0⟩)) = .ok z4) {m : Info}
    (hmt : m.total = e'.amount) (hm' : multiplier d'.now m.stakes = 10 ^ 18) {G : Nat}
    (hG : queryWithdrawable d' z4.st u m = .ok G) :
    z3.led = z.led ∧ ((A : ℚ) - W / 2 ^ 32) * (w / W) - 1 < (G : ℚ) - F := by
  have hc' : z.st.cfg = some cfg := getConfig_ok.mp hc
  obtain ⟨r1, r2, r3, r4, g, r5, r6⟩ := round_trip hc' h1 h2 h3 hy hD hA hA0 hAs
  refine ⟨r1, ?_⟩
  have hF' := idle_claim hm hF
  obtain ⟨s1, s2⟩ := Leaver.run_away ts ha r2 (me := me)
  simp only [Rewards.step, bind_ok, ok_inj] at h4
  obtain ⟨v, hi', rfl⟩ := h4
  obtain ⟨cfg', e'', b1, _, b2, rfl⟩ := calcBond_inv hi'
  simp only [List.getLast?_singleton, Option.some.injEq] at b2
  subst b2
  rw [s1] at b1; cases b1
  obtain ⟨cfg1, j1, j2⟩ := queryWithdrawable_inv hG
  simp only at j1
  rw [s1] at j1; cases j1
  obtain ⟨f, k1, -, k2, -⟩ := payable_inv j2
  have q := (claim_inv k1).2
  simp only [upd_same, hmt, zero_add, Rewards.weight_zero, sub_zero, s2] at q
  rw [show ∀ a b : Int, a + (b - a) = b from fun a b => by ring] at q
  rw [hm'] at k2
  have hGf : (G : Int) = f := by rw [k2]; exact Int.mul_ediv_cancel _ (by decide)
  rw [r3, r6, ← hw] at q
  rw [← hW] at r4 r5
  have hx : g * w < (4294967296 : Nat) * (((G : Int) - F) + 1) := by
    generalize g * w = M at *
    push_cast
    omega
  have fin := won_part 4294967296 A W w g ((G : Int) - F) (by decide) r4 (hw ▸ weight_nonneg he) r5.le hx
  rw [Lost.two32, Int.cast_sub] at fin
  simpa only [Int.cast_natCast] using fin

/-! In the example of C86, users 1 and 2 have staked 10000 and 5000 for 30 days when user 3 stakes 15000, has the first
distribution made, and takes the stake back, all in one second.  The next day they come back with a stake of 1000; when that is
60 days old they can withdraw 150000, half of what users 1 and 2 had waited for. -/
def jiStart : Sys := Rewards.run 100 rExStart (rExHist.take 4)
def jiIn : Sys := exec 100 jiStart (.rewards (rBy 3 30) (.calcBond 3 ⟨[⟨15000, 30 * 86400⟩], 0, 0⟩))
def jiMid : Sys := exec 100 jiIn (.rewards (rBy 3 30) (.distribute 30000))
def jiOut : Sys := exec 100 jiMid (.rewards (rBy 3 30) (.calcUnbond 3 ⟨[⟨15000, 30 * 86400⟩], 0, 15000⟩ 15000))
def jiBack : Sys := exec 100 (Rewards.run 100 jiOut [.rewards (rBy 1 30) (.withdraw 1 (rInfo 10000 0))])
  (.rewards (rBy 3 31) (.calcBond 3 ⟨[⟨1000, 31 * 86400⟩], 0, 0⟩))

example : Rewards.Spec.succeeds 100 jiStart (.rewards (rBy 3 30) (.calcBond 3 ⟨[⟨15000, 30 * 86400⟩], 0, 0⟩)) = true ∧
    Rewards.Spec.succeeds 100 jiIn (.rewards (rBy 3 30) (.distribute 30000)) = true ∧
    Rewards.Spec.succeeds 100 jiMid (.rewards (rBy 3 30) (.calcUnbond 3 ⟨[⟨15000, 30 * 86400⟩], 0, 15000⟩ 15000)) = true ∧
    queryConfig jiStart.st = .ok ⟨50, 40, 10, 1000, 1000⟩ ∧ multiplier (rBy 3 91).now [⟨1, 0⟩] = 10 ^ 18 ∧
    queryWithdrawable (rBy 3 91) jiStart.st 3 ⟨[⟨1, 0⟩], 0, 0⟩ = .ok 0 ∧
    queryDistributed jiStart.st 40 = .ok 0 ∧ queryDistributed jiMid.st 40 = .ok (0 + 300000) ∧
    Rewards.Spec.succeeds 100 (Rewards.run 100 jiOut [.rewards (rBy 1 30) (.withdraw 1 (rInfo 10000 0))])
      (.rewards (rBy 3 31) (.calcBond 3 ⟨[⟨1000, 31 * 86400⟩], 0, 0⟩)) = true ∧
    queryWithdrawable (rBy 3 91) jiBack.st 3 ⟨[⟨1000, 31 * 86400⟩], 0, 1000⟩ = .ok 150000 := by
  refine ⟨?_, ?_, ?_, ?_, ?_, ?_, ?_, ?_, ?_, ?_⟩ <;> decide +kernel
example : ∀ t ∈ [Tx.rewards (rBy 1 30) (.withdraw 1 (rInfo 10000 0))], Away 3 t := by
  intro t ht
  simp only [List.mem_cons, List.not_mem_nil, or_false] at ht
  subst ht
  intro h; cases h

end Phoenix.Props.JustInTime
