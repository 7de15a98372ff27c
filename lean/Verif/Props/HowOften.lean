import Verif.Props.Rewards
/-!
C171: how often the rewards of the reward contract are distributed makes no difference, as long as the stakes stay the same: two
distributions one after the other leave exactly the state that the second one alone would have left.
-/
namespace Phoenix.Props.HowOften
open Phoenix Rewards Rewards.Spec

/-- handing out in two parts -/
theorem handOut_twice {d d1 d2 d' : Dist} {a b P : Nat} (h1 : handOut d a P = .ok d1) (h2 : handOut d1 b P = .ok d2)
    (h : handOut d (a + b) P = .ok d') (hP : P < 2 ^ 64) (hs : a + b < 2 ^ 96) : d2 = d' := by
  obtain ⟨k0, k1, k2, k3, k4⟩ := handOut_inv h1
  obtain ⟨-, l1, l2, l3, l4⟩ := handOut_inv h2
  obtain ⟨-, m1, m2, m3, m4⟩ := handOut_inv h
  have lim : U128_LIM = 2 ^ 96 * 4294967296 := by decide
  have lim64 : U64_LIM = 2 ^ 64 := by decide
  have fit : ∀ x, x < 2 ^ 96 → x * 4294967296 % U128_LIM = x * 4294967296 := fun x hx =>
    Nat.mod_eq_of_lt (by rw [lim]; exact Nat.mul_lt_mul_of_pos_right hx (by decide))
  have hP0 : 0 < P := Nat.pos_of_ne_zero k0
  have cut : ∀ x, x % P % U64_LIM = x % P := fun x =>
    Nat.mod_eq_of_lt (by rw [lim64]; exact lt_trans (Nat.mod_lt x hP0) hP)
  rw [fit a (by omega), cut] at *
  rw [fit b (by omega)] at *
  rw [fit (a + b) hs] at *
  rw [k2] at l1 l2
  have e : (a + b) * 4294967296 + d.leftover = b * 4294967296 + (a * 4294967296 + d.leftover) % P +
      P * ((a * 4294967296 + d.leftover) / P) := by
    have := Nat.div_add_mod (a * 4294967296 + d.leftover) P
    linarith
  have f1 : ((a + b) * 4294967296 + d.leftover) / P =
      (b * 4294967296 + (a * 4294967296 + d.leftover) % P) / P + (a * 4294967296 + d.leftover) / P := by
    rw [e, Nat.add_mul_div_left _ _ hP0]
  have f2 : ((a + b) * 4294967296 + d.leftover) % P = (b * 4294967296 + (a * 4294967296 + d.leftover) % P) % P := by
    rw [e, Nat.add_mul_mod_self_left]
  rw [f1] at m1
  rw [f2] at m2
  obtain ⟨s2, t2, u2, w2⟩ := d2
  obtain ⟨s', t', u', w'⟩ := d'
  simp only at *
  rw [Dist.mk.injEq]
  refine ⟨?_, ?_, ?_, ?_⟩ <;> omega

/-- **C171** Two distributions over the same total stake: if both go through, and the second would also have gone through alone, the
contract and the tokens are afterwards exactly as if only the second had been made.  (The amounts are assumed below 2^96 and the
points of the total stake below 2^64.) -/
theorem C171_how_often_does_not_matter {me : Addr} {z z1 z2 z' : Sys} {c1 c2 : Ctx} {T : Int} {cfg : Config}
    (hc : queryConfig z.st = .ok cfg) (h1 : Rewards.step me z (.rewards c1 (.distribute T)) = .ok z1)
    (h2 : Rewards.step me z1 (.rewards c2 (.distribute T)) = .ok z2)
    (h : Rewards.step me z (.rewards c2 (.distribute T)) = .ok z')
    (hT : weight cfg.minBond T < 2 ^ 64) (hb : z.led.bal cfg.token me < 2 ^ 96) : z2 = z' := by
  have hc' : z.st.cfg = some cfg := getConfig_ok.mp hc
  simp only [Rewards.step, bind_ok, ok_inj] at h1 h2 h
  obtain ⟨v1, h1, rfl⟩ := h1
  obtain ⟨v2, h2, rfl⟩ := h2
  obtain ⟨v, h, rfl⟩ := h
  obtain ⟨cfg1, a1, -, -, ⟨rfl, -⟩ | ⟨x, d1, a2, a3, a4, a5, rfl⟩⟩ := distribute_inv h1
  · simp only at h2
    rw [h2, ok_inj] at h
    rw [h]
  rw [hc'] at a1; cases a1
  obtain ⟨v1, p1, p2⟩ := unlocked_inv a4
  have k4 := (handOut_inv a5).2.2.2.2
  obtain ⟨cfg1, b1, -, -, b⟩ := distribute_inv h
  rw [hc'] at b1; cases b1
  obtain ⟨cfg1, e1, -, -, e⟩ := distribute_inv h2
  simp only [hc', Option.some.injEq] at e1
  subst e1
  obtain ⟨P, hP⟩ : ∃ P : Nat, (P : Int) = weight cfg.minBond T := ⟨(weight cfg.minBond T).toNat, by omega⟩
  rw [show (weight cfg.minBond T).toNat = P by omega] at a5 b e
  have hPlt : P < 2 ^ 64 := by omega
  -- what the second distribution finds in either case
  have two : ∀ y n, unlocked me c2 cfg { z.st with dist := d1 } z.led = .ok y → unlocked me c2 cfg z.st z.led = .ok n → n = x + y := by
    intro y n hy hn
    obtain ⟨v2, q1, q2⟩ := unlocked_inv hy
    obtain ⟨v3, r1, r2⟩ := unlocked_inv hn
    simp only at q1 q2
    rw [q1, ok_inj] at r1
    subst r1
    rw [k4] at q2
    push_cast at q2
    omega
  have small : ∀ n, unlocked me c2 cfg z.st z.led = .ok n → n < 2 ^ 96 := by
    intro n hn
    obtain ⟨v3, r1, r2⟩ := unlocked_inv hn
    omega
  obtain ⟨rfl, hz | hz⟩ | ⟨n, d, n1, -, n2, n3, rfl⟩ := b
  · omega
  · exfalso
    obtain ⟨-, hz2 | hz2⟩ | ⟨y, d2, y1, -, y2, -, -⟩ := e
    · omega
    · have := two 0 0 hz2 hz; omega
    · have := two y 0 y2 hz; omega
  · obtain ⟨rfl, hz2 | hz2⟩ | ⟨y, d2, y1, -, y2, y3, rfl⟩ := e
    · omega
    · have hn := two 0 n hz2 n2
      rw [Nat.add_zero] at hn
      subst hn
      rw [a5, ok_inj] at n3
      rw [n3]
    · have hn := two y n y2 n2
      subst hn
      rw [handOut_twice a5 y3 n3 hPlt (small _ n2)]

/-- distributions only change the contract's books: not the configuration, not the tokens -/
theorem run_books {me : Addr} {T : Int} {cfg : Config} : ∀ (cs : List Ctx) {z : Sys}, z.st.cfg = some cfg →
    (Rewards.run me z (cs.map fun c => .rewards c (.distribute T))).st.cfg = some cfg ∧
    (Rewards.run me z (cs.map fun c => .rewards c (.distribute T))).led = z.led := by
  intro cs
  induction cs with
  | nil => exact fun h => ⟨h, rfl⟩
  | cons c cs ih =>
    intro z hc
    have one : (exec me z (.rewards c (.distribute T))).st.cfg = some cfg ∧ (exec me z (.rewards c (.distribute T))).led = z.led := by
      unfold exec
      split
      · rename_i z1 h1
        simp only [Rewards.step, bind_ok, ok_inj] at h1
        obtain ⟨v1, h1, rfl⟩ := h1
        obtain ⟨cfg1, a1, -, -, ⟨rfl, -⟩ | ⟨x, d1, a2, a3, a4, a5, rfl⟩⟩ := distribute_inv h1
        · exact ⟨hc, rfl⟩
        · exact ⟨hc, rfl⟩
      · exact ⟨hc, rfl⟩
    obtain ⟨k1, k2⟩ := ih one.1
    exact ⟨k1, k2.trans one.2⟩

/-- **C171** The same for any number of distributions at any times before: as long as the last one goes through wherever one
stops before it, it leaves the state it would have left alone. -/
theorem C171_any_number {me : Addr} {z : Sys} {last : Ctx} {T : Int} {cfg : Config} (cs : List Ctx)
    (hc : queryConfig z.st = .ok cfg) (hT : weight cfg.minBond T < 2 ^ 64) (hb : z.led.bal cfg.token me < 2 ^ 96)
    (ok : ∀ ds, ds <+: cs → ∃ z', Rewards.step me (Rewards.run me z (ds.map fun c => .rewards c (.distribute T)))
      (.rewards last (.distribute T)) = .ok z') :
    Rewards.step me (Rewards.run me z (cs.map fun c => .rewards c (.distribute T))) (.rewards last (.distribute T)) =
      Rewards.step me z (.rewards last (.distribute T)) := by
  have hc' : z.st.cfg = some cfg := getConfig_ok.mp hc
  induction cs using List.reverseRecOn with
  | nil => rfl
  | append_singleton ds c ih =>
    have pre : ds <+: ds ++ [c] := List.prefix_append _ _
    rw [← ih fun es he => ok es (he.trans pre)]
    obtain ⟨z', h'⟩ := ok ds pre
    obtain ⟨z2, h2⟩ := ok (ds ++ [c]) (List.prefix_refl _)
    obtain ⟨k1, k2⟩ := run_books ds hc' (me := me) (T := T)
    rw [h2, h']
    have e : Rewards.run me z ((ds ++ [c]).map fun c => .rewards c (.distribute T)) =
        exec me (Rewards.run me z (ds.map fun c => .rewards c (.distribute T))) (.rewards c (.distribute T)) := by
      simp [Rewards.run, List.foldl_append]
    rw [e] at h2
    cases hs : Rewards.step me (Rewards.run me z (ds.map fun c => .rewards c (.distribute T))) (.rewards c (.distribute T)) with
    | error x =>
      simp only [exec, hs] at h2
      rw [← h2, h']
    | ok z1 =>
      simp only [exec, hs] at h2
      rw [C171_how_often_does_not_matter (getConfig_ok.mpr k1) hs h2 h' hT (by rw [k2]; exact hb)]

/-! In the example of C86 with 17000 staked, distributions on days 10, 11 and 25 (which leave remainders, 1000000 over 100 days
going to 17 points) before the one on day 30 make no difference; the one on day 30 hands out 300000. -/
def hoStart : Sys := Rewards.run 100 rExStart (rExHist.take 4)

example : queryConfig hoStart.st = .ok ⟨50, 40, 10, 1000, 1000⟩ ∧ weight 1000 17000 < 2 ^ 64 ∧ hoStart.led.bal 40 100 < 2 ^ 96 ∧
    (Rewards.run 100 hoStart [.rewards (rBy 3 10) (.distribute 17000)]).st.dist.leftover ≠ 0 ∧
    queryDistributed (Rewards.run 100 hoStart [.rewards (rBy 3 10) (.distribute 17000)]).st 40 = .ok 100000 ∧
    queryDistributed (Rewards.run 100 hoStart [.rewards (rBy 3 30) (.distribute 17000)]).st 40 = .ok 300000 := by
  refine ⟨?_, ?_, ?_, ?_, ?_, ?_⟩ <;> decide +kernel
example : ∀ ds, ds <+: [rBy 3 10, rBy 3 11, rBy 3 25] → ∃ z', Rewards.step 100
    (Rewards.run 100 hoStart (ds.map fun c => .rewards c (.distribute 17000))) (.rewards (rBy 3 30) (.distribute 17000)) = .ok z' := by
  have key : ∀ ds ∈ [[], [rBy 3 10], [rBy 3 10, rBy 3 11], [rBy 3 10, rBy 3 11, rBy 3 25]], Rewards.Spec.succeeds 100
      (Rewards.run 100 hoStart (ds.map fun c => .rewards c (.distribute 17000))) (.rewards (rBy 3 30) (.distribute 17000)) = true := by
    intro ds hd
    simp only [List.mem_cons, List.not_mem_nil, or_false] at hd
    rcases hd with rfl | rfl | rfl | rfl <;> decide +kernel
  intro ds hd
  have := key ds (by
    rw [← List.mem_inits] at hd
    simpa [List.inits] using hd)
  revert this
  unfold Rewards.Spec.succeeds
  cases Rewards.step 100 (Rewards.run 100 hoStart (ds.map fun c => .rewards c (.distribute 17000))) (.rewards (rBy 3 30) (.distribute 17000)) with
  | ok z' => exact fun _ => ⟨z', rfl⟩
  | error x => intro h; cases h

end Phoenix.Props.HowOften
