import Verif.Spec.Rewards
import Verif.Lemmas.StakeLive
/-! The reward distribution contract: inversion of its calls (helpers only). -/
namespace Phoenix.Rewards
open Phoenix Phoenix.Spec Stake Rewards.Spec

theorem getConfig_ok {s : State} {c : Config} : getConfig s = .ok c ↔ s.cfg = some c := by
  unfold getConfig; cases s.cfg <;> simp

theorem init_inv {s v : State} {a st tok : Addr} {mc : Nat} {mr mb : Int}
    (h : init s a st tok mc mr mb = .ok v) :
    s.cfg = none ∧ v = { s with cfg := some ⟨st, tok, mc, mr, mb⟩, admin := a, dist := ⟨1, 0, 0, 0⟩,
                                curve := .constant 0 } := by
  unfold init at h
  simp only [bind_ok, req_ok, ok_inj] at h
  obtain ⟨_, h1, rfl⟩ := h
  exact ⟨h1, rfl⟩

theorem power_val {cfg : Config} {x p : Int} (h : power cfg x = .ok p) : p = weight cfg.minBond x := by
  unfold power at h
  unfold weight
  split at h
  · rename_i hx; rw [if_pos hx]; rw [ok_inj] at h; exact h.symm
  · rename_i hx
    rw [if_neg hx]
    simp only [bind_ok, divI_ok] at h
    obtain ⟨q, hq, _, _, rfl⟩ := h
    rw [Dec.mulInt_val hq, Int.mul_tdiv_cancel _ (by decide)]

theorem weight_nonneg {mb x : Int} (h : 0 ≤ x) : 0 ≤ weight mb x := by
  unfold weight; split
  · exact le_refl _
  · exact Int.tdiv_nonneg h (by decide)

theorem updateRewards_inv {s v : State} {u : Addr} {old new : Int} (h : updateRewards s u old new = .ok v) :
    v = { s with adj := upd s.adj u { s.adj u with corr := (s.adj u).corr - s.dist.spp * (new - old) } } := by
  unfold updateRewards at h
  split at h
  · rename_i e
    rw [ok_inj] at h
    subst h; subst e
    have : upd s.adj u { s.adj u with corr := (s.adj u).corr - s.dist.spp * (old - old) } = s.adj := by
      funext b; rw [upd_apply]; split
      · rename_i e; subst e; simp
      · rfl
    rw [this]
  · simp only [bind_ok, subI_ok, mulI_ok, toI128_ok, ok_inj] at h
    obtain ⟨_, ⟨_, rfl⟩, _, ⟨_, rfl⟩, _, ⟨_, rfl⟩, _, ⟨_, rfl⟩, rfl⟩ := h
    rfl

theorem addUser_inv {c : Ctx} {s v : State} {u : Addr} {i : Info} (h : addUser c s u i = .ok v) :
    ∃ cfg, s.cfg = some cfg ∧ c.auth cfg.staking = true ∧
      v = { s with adj := upd s.adj u { s.adj u with
              corr := (s.adj u).corr - s.dist.spp * (weight cfg.minBond i.total - 0) } } := by
  unfold addUser at h
  simp only [bind_ok, getConfig_ok, requireAuth_ok] at h
  obtain ⟨cfg, h1, _, h2, p, h3, h4⟩ := h
  have := power_val h3
  subst this
  exact ⟨cfg, h1, h2, updateRewards_inv h4⟩

theorem lastEntry_ok {l : List Entry} {e : Entry} : lastEntry l = .ok e ↔ l.getLast? = some e := by
  unfold lastEntry; cases l.getLast? <;> simp

theorem calcBond_inv {c : Ctx} {s v : State} {u : Addr} {i : Info} (h : calcBond c s u i = .ok v) :
    ∃ cfg e, s.cfg = some cfg ∧ c.auth cfg.staking = true ∧ i.stakes.getLast? = some e ∧
      v = { s with adj := upd s.adj u { s.adj u with
              corr := (s.adj u).corr - s.dist.spp * (weight cfg.minBond (i.total + e.amount) -
                weight cfg.minBond i.total) } } := by
  unfold calcBond at h
  simp only [bind_ok, getConfig_ok, requireAuth_ok, lastEntry_ok, addI_ok] at h
  obtain ⟨cfg, h1, _, h2, e, h3, p, h4, _, ⟨_, rfl⟩, q, h5, h6⟩ := h
  have := power_val h4
  subst this
  have := power_val h5
  subst this
  exact ⟨cfg, e, h1, h2, h3, updateRewards_inv h6⟩

theorem claim_inv {cfg : Config} {s : State} {u : Addr} {T : Int} {r : Nat} (h : claim cfg s u T = .ok r) :
    0 ≤ s.dist.spp * weight cfg.minBond T + (s.adj u).corr ∧
    (r : Int) = (s.dist.spp * weight cfg.minBond T + (s.adj u).corr) / 4294967296 - (s.adj u).withdrawn := by
  unfold claim at h
  simp only [bind_ok, toI128_ok, mulI_ok, addI_ok, toU128_ok, subU_ok] at h
  obtain ⟨p, h1, _, ⟨_, rfl⟩, _, ⟨_, rfl⟩, _, ⟨_, rfl⟩, a, h2, h3, rfl⟩ := h
  have := power_val h1
  subst this
  refine ⟨?_, by omega⟩
  have : 0 ≤ (s.dist.spp * weight cfg.minBond T + (s.adj u).corr) / 4294967296 := by omega
  omega

theorem daysCounted_ok {now : Nat} {e : Entry} {d : Nat} :
    daysCounted now e = .ok d ↔ e.ts ≤ now ∧ d = min ((now - e.ts) / 86400) 60 := by
  unfold daysCounted
  simp only [bind_ok, subU_ok, ok_inj]
  constructor
  · rintro ⟨_, ⟨h1, rfl⟩, rfl⟩
    refine ⟨h1, ?_⟩
    split <;> omega
  · rintro ⟨h1, rfl⟩
    refine ⟨_, ⟨h1, rfl⟩, ?_⟩
    split <;> omega

/-- the two sums of the multiplier -/
def wsum (now : Nat) (l : List Entry) : Int :=
  (l.map (fun e => ((min ((now - e.ts) / 86400) 60 : Nat) : Int) * e.amount)).sum
def asum (l : List Entry) : Int := (l.map (fun e => 60 * e.amount)).sum

theorem weigh_inv {now : Nat} {l : List Entry} {acc w : Nat × Nat} (h : weigh now l acc = .ok w) :
    (∀ e ∈ l, e.ts ≤ now ∧ 0 ≤ e.amount) ∧ (w.1 : Int) = acc.1 + wsum now l ∧ (w.2 : Int) = acc.2 + asum l := by
  induction l generalizing acc with
  | nil =>
    simp only [weigh, ok_inj] at h
    subst h
    simp [wsum, asum]
  | cons e l ih =>
    simp only [weigh, bind_ok, daysCounted_ok, toU128_ok, mul128_ok, add128_ok] at h
    obtain ⟨d, ⟨h1, rfl⟩, x, h2, _, ⟨_, rfl⟩, _, ⟨_, rfl⟩, _, ⟨_, rfl⟩, _, ⟨_, rfl⟩, h3⟩ := h
    obtain ⟨i1, i2, i3⟩ := ih h3
    refine ⟨?_, ?_, ?_⟩
    · intro e' he'
      rcases List.mem_cons.mp he' with rfl | he'
      · exact ⟨h1, by omega⟩
      · exact i1 e' he'
    · rw [i2]; simp only [wsum, List.map_cons, List.sum_cons]; push_cast; rw [h2]; ring
    · rw [i3]; simp only [asum, List.map_cons, List.sum_cons]; push_cast; rw [h2]; ring

theorem wsum_le {now : Nat} {l : List Entry} (h : ∀ e ∈ l, 0 ≤ e.amount) : 0 ≤ wsum now l ∧ wsum now l ≤ asum l := by
  induction l with
  | nil => simp [wsum, asum]
  | cons e l ih =>
    obtain ⟨i1, i2⟩ := ih (fun e' he' => h e' (List.mem_cons_of_mem _ he'))
    have h0 := h e (List.mem_cons_self ..)
    simp only [wsum, asum, List.map_cons, List.sum_cons] at *
    have a1 : (0 : Int) ≤ ((min ((now - e.ts) / 86400) 60 : Nat) : Int) := by omega
    have a2 : ((min ((now - e.ts) / 86400) 60 : Nat) : Int) ≤ 60 := by omega
    have b1 := mul_nonneg a1 h0
    have b2 := mul_le_mul_of_nonneg_right a2 h0
    omega

theorem withdrawPower_inv {now : Nat} {l : List Entry} {m : Int} (h : withdrawPower now l = .ok m) :
    m = multiplier now l ∧ 0 ≤ m ∧ m ≤ Dec.ONE ∧ ∀ e ∈ l, e.ts ≤ now ∧ 0 ≤ e.amount := by
  unfold withdrawPower at h
  simp only [bind_ok] at h
  obtain ⟨w, h1, h2⟩ := h
  obtain ⟨i1, i2, i3⟩ := weigh_inv h1
  obtain ⟨j1, j2⟩ := wsum_le (now := now) (fun e he => (i1 e he).2)
  simp only [Nat.cast_zero, zero_add] at i2 i3
  have hm : multiplier now l = if asum l = 0 then 0 else wsum now l * 10 ^ 18 / asum l := rfl
  rw [hm]
  split at h2
  · rename_i hpos
    simp only [bind_ok, toI128_ok, Dec.fromRatio_ok] at h2
    obtain ⟨_, ⟨_, rfl⟩, _, ⟨_, rfl⟩, h3, _, _, h4⟩ := h2
    rw [i2, i3] at h4
    have ha : 0 < asum l := by omega
    rw [if_neg (by omega)]
    rw [show (Dec.ONE : Int) = 10 ^ 18 from rfl] at *
    rw [Int.tdiv_eq_ediv_of_nonneg (by positivity)] at h4
    subst h4
    refine ⟨rfl, Int.ediv_nonneg (by positivity) ha.le, ?_, i1⟩
    apply Int.ediv_le_of_le_mul ha
    nlinarith
  · rename_i hpos
    rw [ok_inj] at h2
    subst h2
    rw [if_pos (by omega)]
    exact ⟨rfl, le_refl _, by decide, i1⟩

theorem payable_inv {c : Ctx} {cfg : Config} {s : State} {u : Addr} {i : Info} {x : Int}
    (h : payable c cfg s u i = .ok x) :
    ∃ r : Nat, claim cfg s u i.total = .ok r ∧ withdrawPower c.now i.stakes = .ok (multiplier c.now i.stakes) ∧
      x = r * multiplier c.now i.stakes / 10 ^ 18 ∧ 0 ≤ x ∧ x ≤ r := by
  unfold payable at h
  simp only [bind_ok, toI128_ok] at h
  obtain ⟨r, h1, m, h2, _, ⟨_, rfl⟩, h3⟩ := h
  obtain ⟨rfl, m1, m2, -⟩ := withdrawPower_inv h2
  have := Dec.mulInt_val h3
  rw [show (Dec.ONE : Int) = 10 ^ 18 from rfl] at *
  rw [Int.tdiv_eq_ediv_of_nonneg (by positivity)] at this
  refine ⟨r, h1, h2, this, ?_, ?_⟩
  · rw [this]; exact Int.ediv_nonneg (by positivity) (by norm_num)
  · rw [this]
    apply Int.ediv_le_of_le_mul (by norm_num)
    exact mul_le_mul_of_nonneg_left m2 (by omega)

theorem asU128_toNat {x : Int} (h0 : 0 ≤ x) (h1 : x ≤ I128_MAX) : asU128 x = x.toNat := by
  unfold asU128
  rw [Int.emod_eq_of_lt h0]
  have : I128_MAX < (U128_LIM : Int) := by decide
  omega

theorem payable_small {c : Ctx} {cfg : Config} {s : State} {u : Addr} {i : Info} {x : Int}
    (h : payable c cfg s u i = .ok x) : x ≤ I128_MAX := by
  have h' := h
  unfold payable at h'
  simp only [bind_ok, toI128_ok] at h'
  obtain ⟨r, h1, m, h2, _, ⟨hr, rfl⟩, h3⟩ := h'
  obtain ⟨r', k1, -, -, -, k5⟩ := payable_inv h
  rw [h1, ok_inj] at k1
  subst k1
  omega

/-- the state after a user got `x` -/
def paidState (s : State) (u : Addr) (x : Int) : State :=
  { s with dist := { s.dist with withdrawable := s.dist.withdrawable - x.toNat },
           adj := upd s.adj u { s.adj u with withdrawn := (s.adj u).withdrawn + x.toNat } }

theorem paidState_zero (s : State) (u : Addr) : paidState s u 0 = s := by
  unfold paidState
  simp only [Int.toNat_zero, Nat.sub_zero, Nat.add_zero]
  have : upd s.adj u (s.adj u) = s.adj := by
    funext b; rw [upd_apply]; split
    · rename_i e; rw [e]
    · rfl
  rw [this]

theorem settles_zero (L : Ledger) (t a b : Addr) : Settles L L [⟨t, a, b, 0⟩] := by
  intro t' a'; simp [Flow.delta]

theorem sameRights_refl (L : Ledger) : SameRights L L := fun _ => ⟨rfl, rfl, rfl⟩

theorem withdraw_inv {me : Addr} {c : Ctx} {s v : State} {L L' : Ledger} {u : Addr} {i : Info}
    (h : withdraw me c s L u i = .ok (v, L')) :
    ∃ cfg x, s.cfg = some cfg ∧ c.auth cfg.staking = true ∧ payable c cfg s u i = .ok x ∧ 0 ≤ x ∧
      x ≤ s.dist.withdrawable ∧ v = paidState s u x ∧ (x = 0 ∨ x ≤ L.bal cfg.token me) ∧
      Settles L L' [⟨cfg.token, me, u, x⟩] ∧ SameRights L L' := by
  unfold withdraw at h
  simp only [bind_ok, getConfig_ok, requireAuth_ok] at h
  obtain ⟨cfg, h1, _, h2, x, h3, h4⟩ := h
  have hx := (payable_inv h3).choose_spec.2.2.2.1
  split at h4
  · rename_i e
    simp only [ok_inj, Prod.mk.injEq] at h4
    obtain ⟨rfl, rfl⟩ := h4
    subst e
    exact ⟨cfg, 0, h1, h2, h3, hx, by omega, (paidState_zero _ _).symm, .inl rfl, settles_zero _ _ _ _, sameRights_refl _⟩
  · simp only [bind_ok, add128_ok, subU_ok, ok_inj, Prod.mk.injEq] at h4
    obtain ⟨_, ⟨_, rfl⟩, _, ⟨h5, rfl⟩, L1, hL, rfl, rfl⟩ := h4
    obtain ⟨_, k2, k3, k4, k5⟩ := Ledger.transfer_inv hL
    rw [asU128_toNat hx (payable_small h3)] at *
    refine ⟨cfg, x, h1, h2, h3, hx, by omega, rfl, .inr k3, k4, k5⟩

theorem queryWithdrawable_inv {c : Ctx} {s : State} {u : Addr} {i : Info} {r : Nat}
    (h : queryWithdrawable c s u i = .ok r) :
    ∃ cfg, s.cfg = some cfg ∧ payable c cfg s u i = .ok r := by
  unfold queryWithdrawable at h
  simp only [bind_ok, getConfig_ok, toU128_ok] at h
  obtain ⟨cfg, h1, x, h2, h3⟩ := h
  exact ⟨cfg, h1, by rw [h3]; exact h2⟩

theorem calcUnbond_inv {me : Addr} {c : Ctx} {s v : State} {L L' : Ledger} {u : Addr} {i : Info} {y : Int}
    (h : calcUnbond me c s L u i y = .ok (v, L')) :
    ∃ cfg x, s.cfg = some cfg ∧ c.auth u = true ∧ c.auth cfg.staking = true ∧ payable c cfg s u i = .ok x ∧ 0 ≤ x ∧
      x ≤ s.dist.withdrawable ∧
      v = { paidState s u x with adj := upd (paidState s u x).adj u { (paidState s u x).adj u with
              corr := (s.adj u).corr - s.dist.spp * (weight cfg.minBond (i.total - y) -
                weight cfg.minBond i.total) } } ∧
      (x = 0 ∨ x ≤ L.bal cfg.token me) ∧ Settles L L' [⟨cfg.token, me, u, x⟩] ∧ SameRights L L' := by
  unfold calcUnbond at h
  simp only [bind_ok, getConfig_ok, requireAuth_ok, subI_ok, ok_inj, Prod.mk.injEq] at h
  obtain ⟨_, h0, cfg, h1, _, h2, w, h3, p, h4, _, ⟨_, rfl⟩, q, h5, s', h6, rfl, rfl⟩ := h
  have := power_val h4
  subst this
  have := power_val h5
  subst this
  have h7 := updateRewards_inv h6
  unfold withdrawIfAny at h3
  simp only [bind_ok] at h3
  obtain ⟨r, h8, h9⟩ := h3
  obtain ⟨cfg', e, h10⟩ := queryWithdrawable_inv h8
  rw [h1] at e; cases e
  split at h9
  · obtain ⟨w1, w2⟩ := w
    obtain ⟨cfg', x, e1, e2, e3, e4, e5, rfl, e6, e7, e8⟩ := withdraw_inv h9
    rw [h1] at e1; cases e1
    refine ⟨cfg, x, h1, h0, h2, e3, e4, e5, ?_, e6, e7, e8⟩
    rw [h7]; simp [paidState, upd_same]
  · rename_i e
    have : r = 0 := by omega
    subst this
    rw [ok_inj] at h9
    subst h9
    refine ⟨cfg, 0, h1, h0, h2, h10, le_refl _, by omega, ?_, .inl rfl, settles_zero _ _ _ _, sameRights_refl _⟩
    rw [h7, paidState_zero]

theorem handOut_inv {d d' : Dist} {amount total : Nat} (h : handOut d amount total = .ok d') :
    total ≠ 0 ∧ d'.spp = d.spp + (amount * 4294967296 % U128_LIM + d.leftover) / total ∧
    d'.leftover = (amount * 4294967296 % U128_LIM + d.leftover) % total % U64_LIM ∧
    d'.distributed = d.distributed + amount ∧ d'.withdrawable = d.withdrawable + amount := by
  unfold handOut at h
  simp only [bind_ok, add128_ok, divU_ok, ok_inj] at h
  obtain ⟨_, ⟨_, rfl⟩, _, ⟨h1, rfl⟩, _, ⟨_, rfl⟩, _, ⟨_, rfl⟩, _, ⟨_, rfl⟩, rfl⟩ := h
  exact ⟨h1, rfl, rfl, rfl, rfl⟩

theorem unlocked_inv {me : Addr} {c : Ctx} {cfg : Config} {s : State} {L : Ledger} {x : Nat}
    (h : unlocked me c cfg s L = .ok x) :
    ∃ v, s.curve.value c.now = .ok v ∧ (x : Int) + s.dist.withdrawable + v = L.bal cfg.token me := by
  unfold unlocked at h
  simp only [bind_ok, toU128_ok, subU_ok] at h
  obtain ⟨b, h1, v, h2, _, ⟨h3, rfl⟩, h4, rfl⟩ := h
  exact ⟨v, h2, by omega⟩

theorem distribute_inv {me : Addr} {c : Ctx} {s v : State} {L : Ledger} {T : Int}
    (h : distribute me c s L T = .ok v) :
    ∃ cfg, s.cfg = some cfg ∧ c.auth cfg.staking = true ∧ 0 ≤ weight cfg.minBond T ∧
      (v = s ∧ (weight cfg.minBond T = 0 ∨ unlocked me c cfg s L = .ok 0) ∨
       ∃ (x : Nat) (d : Dist), 0 < x ∧ 0 < weight cfg.minBond T ∧ unlocked me c cfg s L = .ok x ∧
         handOut s.dist x (weight cfg.minBond T).toNat = .ok d ∧ v = { s with dist := d }) := by
  unfold distribute at h
  simp only [bind_ok, getConfig_ok, requireAuth_ok, toU128_ok] at h
  obtain ⟨cfg, h1, _, h2, p, h3, t, h4, h5⟩ := h
  have := power_val h3
  subst this
  refine ⟨cfg, h1, h2, by omega, ?_⟩
  split at h5
  · rename_i e
    rw [ok_inj] at h5
    exact .inl ⟨h5.symm, .inl (by omega)⟩
  · rename_i e
    simp only [bind_ok] at h5
    obtain ⟨x, h6, h7⟩ := h5
    split at h7
    · rename_i e2
      rw [ok_inj] at h7
      subst e2
      exact .inl ⟨h7.symm, .inr h6⟩
    · rename_i e2
      simp only [bind_ok, ok_inj] at h7
      obtain ⟨d, h8, rfl⟩ := h7
      exact .inr ⟨x, d, by omega, by omega, h6, by rw [← h4]; exact h8, rfl⟩

theorem fund_inv {me : Addr} {c : Ctx} {s v : State} {L L' : Ledger} {a d : Nat} {x : Int}
    (h : fund me c s L a d x = .ok (v, L')) :
    ∃ cfg k, s.cfg = some cfg ∧ c.auth s.admin = true ∧ c.auth cfg.staking = true ∧ c.now ≤ a ∧ cfg.minReward ≤ x ∧
      0 ≤ x ∧ x ≤ L.bal cfg.token s.admin ∧ c.now + d < U64_LIM ∧
      joinCurves c.now cfg.maxComplexity s.curve (.sl a x.toNat (c.now + d) 0) = .ok k ∧
      v = { s with curve := k } ∧ Settles L L' [⟨cfg.token, s.admin, me, x⟩] ∧ SameRights L L' := by
  unfold fund at h
  simp only [bind_ok, getConfig_ok, requireAuth_ok, req_ok, add64_ok, toU128_ok, ok_inj, Prod.mk.injEq] at h
  obtain ⟨cfg, h1, _, h2, _, h3, _, h4, _, h5, L1, hL, _, ⟨h6, rfl⟩, n, h7, _, _, k, h8, rfl, rfl⟩ := h
  obtain ⟨_, k2, k3, k4, k5⟩ := Ledger.transfer_inv hL
  have : x.toNat = n := by omega
  rw [← this] at h8
  exact ⟨cfg, k, h1, h2, h3, by omega, by omega, k2, k3, h6, h8, rfl, k4, k5⟩

end Phoenix.Rewards
