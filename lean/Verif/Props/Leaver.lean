import Verif.Props.Rewards
/-!
C167: what happens to the rewards held back by the 60-day rule (C86) when their owner takes back all stakes: while they
are away nothing can be withdrawn and nothing is earned, and when they come back, with whatever stake, the rest is there.
-/
namespace Phoenix.Props.Leaver
open Phoenix Rewards Rewards.Spec
open Phoenix.Stake (Info Entry)
open Phoenix.Spec (Settles)

/-- Transactions made while user `u` has no stake: everything may happen, except that a stake of `u` is reported.
Withdrawals for `u` may be asked for; they come with the empty list of stakes. -/
def Away (u : Addr) : Tx → Prop
  | .rewards _ (.addUser v _) => v ≠ u
  | .rewards _ (.calcBond v _) => v ≠ u
  | .rewards _ (.calcUnbond v _ _) => v ≠ u
  | .rewards _ (.withdraw v i) => v = u → i.stakes = []
  | _ => True

theorem multiplier_nil (now : Nat) : multiplier now [] = 0 := by simp [multiplier]

theorem weight_zero (mb : Int) : weight mb 0 = 0 := by unfold weight; split <;> rfl

/-- with no stakes nothing is to be paid -/
theorem payable_nil {c : Ctx} {cfg : Config} {s : State} {u : Addr} {i : Info} {x : Int} (h : payable c cfg s u i = .ok x)
    (hi : i.stakes = []) : x = 0 := by
  obtain ⟨f, -, -, h2, -⟩ := payable_inv h
  rw [hi, multiplier_nil] at h2
  simpa using h2

/-- **C167** Without stakes the query shows nothing, whatever is held back. -/
theorem C167_shows_nothing {c : Ctx} {s : State} {u : Addr} {i : Info} {r : Nat} (h : queryWithdrawable c s u i = .ok r)
    (hi : i.stakes = []) : r = 0 := by
  obtain ⟨cfg, -, h2⟩ := queryWithdrawable_inv h
  have := payable_nil h2 hi
  omega

/-- **C167** A withdrawal for a user without stakes changes nothing. -/
theorem C167_pays_nothing {me : Addr} {s s' : Sys} {c : Ctx} {u : Addr} {i : Info}
    (h : Rewards.step me s (.rewards c (.withdraw u i)) = .ok s') (hi : i.stakes = []) : s' = s := by
  simp only [Rewards.step, bind_ok, ok_inj] at h
  obtain ⟨⟨v, L⟩, hw, rfl⟩ := h
  unfold withdraw at hw
  simp only [bind_ok] at hw
  obtain ⟨cfg, -, _, -, x, hx, hw⟩ := hw
  rw [if_pos (payable_nil hx hi), ok_inj, Prod.mk.injEq] at hw
  obtain ⟨rfl, rfl⟩ := hw
  rfl

theorem step_away {me : Addr} {s s' : Sys} {t : Tx} {u : Addr} (ht : Away u t) (h : Rewards.step me s t = .ok s') {cfg : Config}
    (hc : s.st.cfg = some cfg) : s'.st.adj u = s.st.adj u := by
  cases t with
  | token c tok op =>
    simp only [Rewards.step, bind_ok, ok_inj] at h
    obtain ⟨L, hL, rfl⟩ := h
    rfl
  | rewards c k =>
    cases k with
    | init a st tok mc mr mb =>
      simp only [Rewards.step, Rewards.init, bind_ok, req_ok, hc] at h
      obtain ⟨_, ⟨_, e, -⟩, -⟩ := h
      cases e
    | distribute T =>
      simp only [Rewards.step, bind_ok, ok_inj] at h
      obtain ⟨w, hi, rfl⟩ := h
      obtain ⟨_, -, -, -, h | ⟨_, _, -, -, -, -, rfl⟩⟩ := distribute_inv hi
      · rw [h.1]
      · rfl
    | addUser v j =>
      simp only [Rewards.step, bind_ok, ok_inj] at h
      obtain ⟨w, hi', rfl⟩ := h
      obtain ⟨_, _, _, rfl⟩ := addUser_inv hi'
      exact upd_ne _ _ (Ne.symm ht)
    | calcBond v j =>
      simp only [Rewards.step, bind_ok, ok_inj] at h
      obtain ⟨w, hi', rfl⟩ := h
      obtain ⟨_, _, _, _, _, rfl⟩ := calcBond_inv hi'
      exact upd_ne _ _ (Ne.symm ht)
    | calcUnbond v j y =>
      simp only [Rewards.step, bind_ok, ok_inj] at h
      obtain ⟨⟨w, L⟩, hi', rfl⟩ := h
      obtain ⟨cfg, x, h1, _, _, _, _, _, rfl, -⟩ := calcUnbond_inv hi'
      have hne : u ≠ v := Ne.symm ht
      show upd (paidState s.st v x).adj v _ u = _
      rw [upd_ne _ _ hne]
      show upd s.st.adj v _ u = _
      rw [upd_ne _ _ hne]
    | withdraw v j =>
      by_cases hv : v = u
      · rw [C167_pays_nothing h (ht hv)]
      · simp only [Rewards.step, bind_ok, ok_inj] at h
        obtain ⟨⟨w, L⟩, hi', rfl⟩ := h
        obtain ⟨cfg, x, _, _, _, _, _, rfl, -⟩ := withdraw_inv hi'
        exact upd_ne _ _ (Ne.symm hv)
    | fund a d x =>
      simp only [Rewards.step, bind_ok, ok_inj] at h
      obtain ⟨⟨w, L⟩, hi', rfl⟩ := h
      obtain ⟨cfg, kv, _, _, _, _, _, _, _, _, _, rfl, -⟩ := fund_inv hi'
      rfl

theorem run_away {me : Addr} {u : Addr} {cfg : Config} : ∀ (ts : List Tx) {s : Sys}, (∀ t ∈ ts, Away u t) → s.st.cfg = some cfg →
    (Rewards.run me s ts).st.cfg = some cfg ∧ (Rewards.run me s ts).st.adj u = s.st.adj u := by
  intro ts
  induction ts with
  | nil => intro s _ hc; exact ⟨hc, rfl⟩
  | cons t ts ih =>
    intro s ha hc
    have key : (exec me s t).st.cfg = some cfg ∧ (exec me s t).st.adj u = s.st.adj u := by
      unfold exec
      cases h : Rewards.step me s t with
      | error e => exact ⟨hc, rfl⟩
      | ok s' => exact ⟨(step_cfg h hc).1, step_away (ha t (by simp)) h hc⟩
    obtain ⟨h1, h2⟩ := ih (s := exec me s t) (fun t h => ha t (by simp [h])) key.1
    exact ⟨h1, h2.trans key.2⟩

/-- after taking back everything, the user's correction holds the whole claim -/
theorem unbond_all {me : Addr} {s s' : Sys} {c c' : Ctx} {u : Addr} {i j : Info} {p F : Nat}
    (h : Rewards.step me s (.rewards c (.calcUnbond u i i.total)) = .ok s') (hp : queryWithdrawable c s.st u i = .ok p)
    (hij : j.total = i.total) (hm : multiplier c'.now j.stakes = 10 ^ 18) (hF : queryWithdrawable c' s.st u j = .ok F) :
    ∃ cfg, s.st.cfg = some cfg ∧ s'.st.cfg = some cfg ∧ Settles s.led s'.led [⟨cfg.token, me, u, p⟩] ∧ p ≤ F ∧
      ((F : Int) - p) = (s'.st.adj u).corr / 4294967296 - (s'.st.adj u).withdrawn := by
  simp only [Rewards.step, bind_ok, ok_inj] at h
  obtain ⟨⟨w, L⟩, hi', rfl⟩ := h
  obtain ⟨cfg, x, h1, _, _, hx, hx0, _, rfl, -, hset, -⟩ := calcUnbond_inv hi'
  obtain ⟨cfg1, j1, j2⟩ := queryWithdrawable_inv hF
  rw [h1] at j1; cases j1
  obtain ⟨cfg1, j1, j0⟩ := queryWithdrawable_inv hp
  rw [h1] at j1; cases j1
  rw [hx, ok_inj] at j0
  subst j0
  obtain ⟨f, k1, -, k2, -⟩ := payable_inv j2
  obtain ⟨f0, l1, -, -, -, l2⟩ := payable_inv hx
  rw [hij] at k1
  rw [k1, ok_inj] at l1
  subst l1
  have g := (claim_inv k1).2
  rw [hm] at k2
  have e1 : (F : Int) = f := by rw [k2]; exact Int.mul_ediv_cancel _ (by decide)
  refine ⟨cfg, h1, h1, hset, by omega, ?_⟩
  simp only [paidState, upd_same, sub_self, weight_zero]
  rw [show (s.st.adj u).corr - s.st.dist.spp * (0 - weight cfg.minBond i.total) =
    s.st.dist.spp * weight cfg.minBond i.total + (s.st.adj u).corr by ring]
  push_cast
  simp only [Int.toNat_natCast]
  omega

/-- **C167** A user takes back all stakes: they are paid what the query shows, `p`, of their full reward `F`.  Whatever
then happens while they are away, distributions included, the contract keeps for them exactly the rest: it is what the
query would show for no stake if it were not for the 60-day rule.  (C85_all_can_be_paid applies to this claim: it is never
paid to anybody else.) -/
theorem C167_rest_is_kept {me : Addr} {s s' : Sys} {c c' d : Ctx} {u : Addr} {i j : Info} {p F G l : Nat} {st : List Entry}
    (h : Rewards.step me s (.rewards c (.calcUnbond u i i.total)) = .ok s') (hp : queryWithdrawable c s.st u i = .ok p)
    (hij : j.total = i.total) (hm : multiplier c'.now j.stakes = 10 ^ 18) (hF : queryWithdrawable c' s.st u j = .ok F)
    (ts : List Tx) (ha : ∀ t ∈ ts, Away u t) (hd : multiplier d.now st = 10 ^ 18)
    (hG : queryWithdrawable d (Rewards.run me s' ts).st u ⟨st, l, 0⟩ = .ok G) :
    p ≤ F ∧ G = F - p := by
  obtain ⟨cfg, h1, h2, -, h3, h4⟩ := unbond_all h hp hij hm hF
  obtain ⟨r1, r2⟩ := run_away ts ha h2 (me := me)
  obtain ⟨cfg1, j1, j2⟩ := queryWithdrawable_inv hG
  rw [r1] at j1; cases j1
  obtain ⟨f, k1, -, k2, -⟩ := payable_inv j2
  have g := (claim_inv k1).2
  simp only [weight_zero, mul_zero, zero_add, r2] at g
  simp only [hd] at k2
  have : (G : Int) = f := by rw [k2]; exact Int.mul_ediv_cancel _ (by decide)
  omega

/-- **C167** When the user comes back with a stake `e`, reported as a first stake, exactly that rest is claimable again
(in full once the 60-day rule no longer reduces it), however small the stake is. -/
theorem C167_rest_comes_back {me : Addr} {s s' z : Sys} {c c' c'' d : Ctx} {u : Addr} {i j k m : Info} {p F G : Nat} {e : Entry}
    (h : Rewards.step me s (.rewards c (.calcUnbond u i i.total)) = .ok s') (hp : queryWithdrawable c s.st u i = .ok p)
    (hij : j.total = i.total) (hm : multiplier c'.now j.stakes = 10 ^ 18) (hF : queryWithdrawable c' s.st u j = .ok F)
    (ts : List Tx) (ha : ∀ t ∈ ts, Away u t)
    (hb : Rewards.step me (Rewards.run me s' ts) (.rewards c'' (.calcBond u k)) = .ok z) (hk : k.total = 0)
    (he : k.stakes.getLast? = some e) (hmt : m.total = e.amount) (hd : multiplier d.now m.stakes = 10 ^ 18)
    (hG : queryWithdrawable d z.st u m = .ok G) :
    p ≤ F ∧ G = F - p := by
  obtain ⟨cfg, h1, h2, -, h3, h4⟩ := unbond_all h hp hij hm hF
  obtain ⟨r1, r2⟩ := run_away ts ha h2 (me := me)
  simp only [Rewards.step, bind_ok, ok_inj] at hb
  obtain ⟨w, hi', rfl⟩ := hb
  obtain ⟨cfg', e', b1, _, b2, rfl⟩ := calcBond_inv hi'
  rw [he] at b2; cases b2
  rw [r1] at b1; cases b1
  obtain ⟨cfg1, j1, j2⟩ := queryWithdrawable_inv hG
  simp only at j1
  rw [r1] at j1; cases j1
  obtain ⟨f, k1, -, k2, -⟩ := payable_inv j2
  have g := (claim_inv k1).2
  simp only [upd_same, hk, hmt, zero_add, weight_zero, sub_zero, r2] at g
  rw [show ∀ a b : Int, a + (b - a) = b from fun a b => by ring] at g
  rw [hd] at k2
  have : (G : Int) = f := by rw [k2]; exact Int.mul_ediv_cancel _ (by decide)
  omega

/-! User 2 of the example of C86 leaves on day 30 with half of a full reward of 100000.  While they are away a distribution
takes place, and a withdrawal for them is asked for.  On day 62 they come back with a smaller stake: the other half is there. -/
def lvHist : List Tx :=
  [ .rewards (rBy 3 60) (.distribute 10000),
    .rewards (rBy 2 61) (.withdraw 2 ⟨[], 0, 0⟩),
    .rewards (rBy 1 61) (.withdraw 1 (rInfo 10000 0)) ]
def lvMid : Sys := exec 100 (Rewards.run 100 rExStart (rExHist.take 5)) (.rewards (rBy 2 30) (.calcUnbond 2 (rInfo 5000 0) 5000))
def lvEnd : Sys := exec 100 (Rewards.run 100 lvMid lvHist) (.rewards (rBy 2 62) (.calcBond 2 ⟨[⟨2000, 62 * 86400⟩], 0, 0⟩))

example : lvMid.led.bal 40 2 = 50000 ∧ Rewards.Spec.succeeds 100 (Rewards.run 100 rExStart (rExHist.take 5))
      (.rewards (rBy 2 30) (.calcUnbond 2 (rInfo 5000 0) 5000)) = true ∧
    queryWithdrawable (rBy 2 30) (Rewards.run 100 rExStart (rExHist.take 5)).st 2 (rInfo 5000 0) = .ok 50000 ∧
    queryWithdrawable (rBy 2 61) (Rewards.run 100 rExStart (rExHist.take 5)).st 2 (rInfo 5000 0) = .ok 100000 ∧
    multiplier (rBy 2 61).now (rInfo 5000 0).stakes = 10 ^ 18 ∧
    (Rewards.run 100 lvMid lvHist).led.bal 40 2 = 50000 ∧ lvMid.led.bal 40 1 < (Rewards.run 100 lvMid lvHist).led.bal 40 1 ∧
    queryWithdrawable (rBy 2 61) (Rewards.run 100 lvMid lvHist).st 2 ⟨[], 0, 0⟩ = .ok 0 ∧
    queryWithdrawable (rBy 2 61) (Rewards.run 100 lvMid lvHist).st 2 ⟨[⟨1, 0⟩], 0, 0⟩ = .ok 50000 ∧
    Rewards.Spec.succeeds 100 (Rewards.run 100 lvMid lvHist) (.rewards (rBy 2 62) (.calcBond 2 ⟨[⟨2000, 62 * 86400⟩], 0, 0⟩)) = true ∧
    queryWithdrawable (rBy 2 122) lvEnd.st 2 ⟨[⟨2000, 62 * 86400⟩], 0, 2000⟩ = .ok 50000 ∧
    queryWithdrawable (rBy 2 68) lvEnd.st 2 ⟨[⟨2000, 62 * 86400⟩], 0, 2000⟩ = .ok 5000 := by
  refine ⟨?_, ?_, ?_, ?_, ?_, ?_, ?_, ?_, ?_, ?_, ?_, ?_⟩ <;> decide +kernel

example : ∀ t ∈ lvHist, Away 2 t := by
  intro t ht
  simp only [lvHist, List.mem_cons, List.not_mem_nil, or_false] at ht
  rcases ht with rfl | rfl | rfl
  · trivial
  · exact fun _ => rfl
  · intro h; cases h

end Phoenix.Props.Leaver
