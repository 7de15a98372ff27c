import Verif.Props.HowOften
/-!
C172: withdrawing rewards early neither costs nor gains anything, and touches nobody else.  Two courses of events are compared that
differ only in one withdrawal; the same distributions and reports of stakes follow in both.
-/
namespace Phoenix.Props.PayTiming
open Phoenix Rewards Rewards.Spec
open Phoenix.Stake (Info)
open Phoenix.Spec (Settles)

/-- `a` is `b` after `x` was paid to `u` in addition -/
structure Behind (me : Addr) (cfg : Config) (u : Addr) (x : Nat) (a b : Sys) : Prop where
  conf : a.st.cfg = some cfg ∧ b.st.cfg = some cfg
  curve : a.st.curve = b.st.curve
  spp : a.st.dist.spp = b.st.dist.spp
  left : a.st.dist.leftover = b.st.dist.leftover
  total : a.st.dist.distributed = b.st.dist.distributed
  owed : b.st.dist.withdrawable = a.st.dist.withdrawable + x
  others : ∀ v, v ≠ u → a.st.adj v = b.st.adj v
  corr : (a.st.adj u).corr = (b.st.adj u).corr
  paid : (a.st.adj u).withdrawn = (b.st.adj u).withdrawn + x
  bal : b.led.bal cfg.token me = a.led.bal cfg.token me + x

theorem unlocked_iff {me : Addr} {c : Ctx} {cfg : Config} {s : State} {L : Ledger} {x : Nat} :
    unlocked me c cfg s L = .ok x ↔
    ∃ v, s.curve.value c.now = .ok v ∧ (x : Int) + s.dist.withdrawable + v = L.bal cfg.token me := by
  refine ⟨unlocked_inv, fun ⟨v, h1, h2⟩ => ?_⟩
  unfold unlocked
  simp only [bind_ok, toU128_ok, subU_ok]
  exact ⟨(L.bal cfg.token me).toNat, by omega, v, h1, _, ⟨by omega, rfl⟩, by omega, by omega⟩

theorem handOut_iff {d d' : Dist} {n P : Nat} : handOut d n P = .ok d' ↔
    n * 4294967296 % U128_LIM + d.leftover < U128_LIM ∧ P ≠ 0 ∧
    d.spp + (n * 4294967296 % U128_LIM + d.leftover) / P < U128_LIM ∧ d.distributed + n < U128_LIM ∧ d.withdrawable + n < U128_LIM ∧
    d' = ⟨d.spp + (n * 4294967296 % U128_LIM + d.leftover) / P, (n * 4294967296 % U128_LIM + d.leftover) % P % U64_LIM,
      d.distributed + n, d.withdrawable + n⟩ := by
  unfold handOut
  simp only [bind_ok, add128_ok, divU_ok, ok_inj]
  constructor
  · rintro ⟨_, ⟨h1, rfl⟩, _, ⟨h2, rfl⟩, _, ⟨h3, rfl⟩, _, ⟨h4, rfl⟩, _, ⟨h5, rfl⟩, rfl⟩
    exact ⟨h1, h2, h3, h4, h5, rfl⟩
  · rintro ⟨h1, h2, h3, h4, h5, rfl⟩
    exact ⟨_, ⟨h1, rfl⟩, _, ⟨h2, rfl⟩, _, ⟨h3, rfl⟩, _, ⟨h4, rfl⟩, _, ⟨h5, rfl⟩, rfl⟩

theorem distribute_iff {me : Addr} {c : Ctx} {s v : State} {L : Ledger} {T : Int} {cfg : Config} (hc : s.cfg = some cfg) :
    distribute me c s L T = .ok v ↔ c.auth cfg.staking = true ∧ ∃ p P, power cfg T = .ok p ∧ toU128 p = .ok P ∧
      (P = 0 ∧ v = s ∨ P ≠ 0 ∧ ∃ n, unlocked me c cfg s L = .ok n ∧
        (n = 0 ∧ v = s ∨ n ≠ 0 ∧ ∃ d, handOut s.dist n P = .ok d ∧ v = { s with dist := d })) := by
  unfold distribute
  simp only [bind_ok, getConfig_ok, requireAuth_ok, hc, Option.some.injEq]
  constructor
  · rintro ⟨cf, rfl, _, h2, p, h3, P, h4, h5⟩
    refine ⟨h2, p, P, h3, h4, ?_⟩
    split at h5
    · rename_i e; rw [ok_inj] at h5; exact .inl ⟨e, h5.symm⟩
    · rename_i e
      simp only [bind_ok] at h5
      obtain ⟨n, h6, h7⟩ := h5
      refine .inr ⟨e, n, h6, ?_⟩
      split at h7
      · rename_i e2; rw [ok_inj] at h7; exact .inl ⟨e2, h7.symm⟩
      · rename_i e2
        simp only [bind_ok, ok_inj] at h7
        obtain ⟨d, h8, h9⟩ := h7
        exact .inr ⟨e2, d, h8, h9.symm⟩
  · rintro ⟨h2, p, P, h3, h4, h5⟩
    refine ⟨cfg, rfl, (), h2, p, h3, P, h4, ?_⟩
    obtain ⟨e, rfl⟩ | ⟨e, n, h6, h7⟩ := h5
    · rw [if_pos e]
    · rw [if_neg e]
      simp only [bind_ok]
      refine ⟨n, h6, ?_⟩
      obtain ⟨e2, rfl⟩ | ⟨e2, d, h8, rfl⟩ := h7
      · rw [if_pos e2]
      · rw [if_neg e2]
        simp only [bind_ok, ok_inj]
        exact ⟨d, h8, rfl⟩

/-- a distribution does the same to both -/
theorem step_behind {me : Addr} {cfg : Config} {u : Addr} {x : Nat} {a b : Sys} (h : Behind me cfg u x a b)
    (hb : b.led.bal cfg.token me ≤ I128_MAX) (c : Ctx) (T : Int) :
    Behind me cfg u x (exec me a (.rewards c (.distribute T))) (exec me b (.rewards c (.distribute T))) ∧
    (exec me b (.rewards c (.distribute T))).led = b.led := by
  have lim : I128_MAX < (U128_LIM : Int) := by decide
  have un : ∀ n, unlocked me c cfg b.st b.led = .ok n ↔ unlocked me c cfg a.st a.led = .ok n := by
    intro n
    rw [unlocked_iff, unlocked_iff, h.curve, h.owed, h.bal]
    constructor <;> rintro ⟨v, h1, h2⟩ <;> exact ⟨v, h1, by push_cast at *; omega⟩
  have sa := fun v => distribute_iff (me := me) (c := c) (L := a.led) (T := T) (v := v) h.conf.1
  have sb := fun v => distribute_iff (me := me) (c := c) (L := b.led) (T := T) (v := v) h.conf.2
  have ha : ∀ n P d, unlocked me c cfg a.st a.led = .ok n → (handOut a.st.dist n P = .ok d ↔
      handOut b.st.dist n P = .ok { d with withdrawable := d.withdrawable + x }) := by
    intro n P d hn
    have hn' := (un n).mpr hn
    obtain ⟨v, -, k⟩ := unlocked_inv hn'
    have w := h.owed
    rw [handOut_iff, handOut_iff, h.spp, h.left, h.total]
    obtain ⟨d1, d2, d3, d4⟩ := d
    simp only [Dist.mk.injEq]
    constructor
    · rintro ⟨h1, h2, h3, h4, h5, h6, h7, h8, h9⟩
      exact ⟨h1, h2, h3, h4, by omega, h6, h7, h8, by omega⟩
    · rintro ⟨h1, h2, h3, h4, h5, h6, h7, h8, h9⟩
      exact ⟨h1, h2, h3, h4, by omega, h6, h7, h8, by omega⟩
  unfold exec
  simp only [Rewards.step]
  cases ea : distribute me c a.st a.led T with
  | ok va =>
    obtain ⟨k1, p, P, k2, k3, ⟨k4, rfl⟩ | ⟨k4, n, k5, ⟨k6, rfl⟩ | ⟨k6, d, k7, rfl⟩⟩⟩ := (sa va).mp ea
    · rw [(sb b.st).mpr ⟨k1, p, P, k2, k3, .inl ⟨k4, rfl⟩⟩]
      exact ⟨h, rfl⟩
    · rw [(sb b.st).mpr ⟨k1, p, P, k2, k3, .inr ⟨k4, n, (un n).mpr k5, .inl ⟨k6, rfl⟩⟩⟩]
      exact ⟨h, rfl⟩
    · rw [(sb _).mpr ⟨k1, p, P, k2, k3, .inr ⟨k4, n, (un n).mpr k5, .inr ⟨k6, _, (ha n P d k5).mp k7, rfl⟩⟩⟩]
      exact ⟨⟨h.conf, h.curve, rfl, rfl, rfl, rfl, h.others, h.corr, h.paid, h.bal⟩, rfl⟩
  | error e =>
    cases eb : distribute me c b.st b.led T with
    | error e' => exact ⟨h, rfl⟩
    | ok vb =>
      exfalso
      have no : ∀ v, distribute me c a.st a.led T ≠ .ok v := fun v hv => by rw [ea] at hv; cases hv
      obtain ⟨k1, p, P, k2, k3, ⟨k4, rfl⟩ | ⟨k4, n, k5, ⟨k6, rfl⟩ | ⟨k6, d, k7, rfl⟩⟩⟩ := (sb vb).mp eb
      · exact no _ ((sa a.st).mpr ⟨k1, p, P, k2, k3, .inl ⟨k4, rfl⟩⟩)
      · exact no _ ((sa a.st).mpr ⟨k1, p, P, k2, k3, .inr ⟨k4, n, (un n).mp k5, .inl ⟨k6, rfl⟩⟩⟩)
      · have k5' := (un n).mp k5
        have w := h.owed
        have hd := (handOut_inv k7).2.2.2.2
        have e : d = { ({ d with withdrawable := d.withdrawable - x } : Dist) with withdrawable := d.withdrawable - x + x } := by
          obtain ⟨d1, d2, d3, d4⟩ := d
          simp only [Dist.mk.injEq, true_and]
          simp only at hd
          omega
        rw [e] at k7
        exact no _ ((sa _).mpr ⟨k1, p, P, k2, k3, .inr ⟨k4, n, k5', .inr ⟨k6, _, (ha n P _ k5').mpr k7, rfl⟩⟩⟩)

/-- reporting a change of a stake does the same to both -/
theorem update_behind {me : Addr} {cfg : Config} {u : Addr} {x : Nat} {a b : Sys} (h : Behind me cfg u x a b) (w : Addr) (old new : Int) :
    (∃ va vb, updateRewards a.st w old new = .ok va ∧ updateRewards b.st w old new = .ok vb ∧
      Behind me cfg u x ⟨va, a.led⟩ ⟨vb, b.led⟩) ∨
    ∃ e, updateRewards a.st w old new = .error e ∧ updateRewards b.st w old new = .error e := by
  have hw : (a.st.adj w).corr = (b.st.adj w).corr := by
    by_cases e : w = u
    · rw [e]; exact h.corr
    · rw [h.others w e]
  by_cases e : old = new
  · exact .inl ⟨a.st, b.st, by simp [updateRewards, e], by simp [updateRewards, e], h⟩
  simp only [updateRewards, if_neg e, h.spp, hw]
  cases subI new old with
  | error e1 => exact .inr ⟨e1, rfl, rfl⟩
  | ok d =>
    cases h2 : toI128 b.st.dist.spp with
    | error e1 => exact .inr ⟨e1, by simp [bind, Except.bind], by simp [bind, Except.bind]⟩
    | ok q =>
      cases h3 : mulI q d with
      | error e1 => exact .inr ⟨e1, by simp [bind, Except.bind, h3], by simp [bind, Except.bind, h3]⟩
      | ok p =>
        cases h4 : subI (b.st.adj w).corr p with
        | error e1 => exact .inr ⟨e1, by simp [bind, Except.bind, h3, h4], by simp [bind, Except.bind, h3, h4]⟩
        | ok k =>
          refine .inl ⟨_, _, by simp only [bind, Except.bind, h3, h4]; rfl, by simp only [bind, Except.bind, h3, h4]; rfl, ?_⟩
          refine ⟨h.conf, h.curve, h.spp, h.left, h.total, h.owed, fun v hv => ?_, ?_, ?_, h.bal⟩
          · by_cases ev : v = w
            · subst ev; simp only [upd_same, h.others v hv]
            · simp only [upd_ne _ _ ev, h.others v hv]
          · by_cases ev : u = w
            · subst ev; simp only [upd_same]
            · simp only [upd_ne _ _ ev, h.corr]
          · by_cases ev : u = w
            · subst ev; simp only [upd_same, h.paid]
            · simp only [upd_ne _ _ ev, h.paid]

/-- distributions, and reports of new or larger stakes of anybody -/
def Bookkeeping : Call → Prop
  | .distribute _ | .addUser _ _ | .calcBond _ _ => True
  | _ => False

/-- each of these calls does the same to both -/
theorem exec_behind {me : Addr} {cfg : Config} {u : Addr} {x : Nat} {a b : Sys} (h : Behind me cfg u x a b)
    (hb : b.led.bal cfg.token me ≤ I128_MAX) (c : Ctx) (k : Call) (hk : Bookkeeping k) :
    Behind me cfg u x (exec me a (.rewards c k)) (exec me b (.rewards c k)) ∧ (exec me b (.rewards c k)).led = b.led := by
  cases k with
  | distribute T => exact step_behind h hb c T
  | addUser w i =>
    simp only [exec, Rewards.step, addUser, getConfig, h.conf.1, h.conf.2]
    cases h1 : requireAuth c cfg.staking with
    | error e => simp only [bind, Except.bind, h1]; exact ⟨h, trivial⟩
    | ok _ =>
      cases h2 : power cfg i.total with
      | error e => simp only [bind, Except.bind, h1, h2]; exact ⟨h, trivial⟩
      | ok n =>
        obtain ⟨va, vb, k1, k2, k3⟩ | ⟨e, k1, k2⟩ := update_behind h w 0 n
        · simp only [bind, Except.bind, h1, h2, k1, k2]; exact ⟨k3, trivial⟩
        · simp only [bind, Except.bind, h1, h2, k1, k2]; exact ⟨h, trivial⟩
  | calcBond w i =>
    simp only [exec, Rewards.step, calcBond, getConfig, h.conf.1, h.conf.2]
    cases h1 : requireAuth c cfg.staking with
    | error e => simp only [bind, Except.bind, h1]; exact ⟨h, trivial⟩
    | ok _ =>
      cases h2 : lastEntry i.stakes with
      | error e => simp only [bind, Except.bind, h1]; exact ⟨h, trivial⟩
      | ok en =>
        cases h3 : power cfg i.total with
        | error e => simp only [bind, Except.bind, h1, h3]; exact ⟨h, trivial⟩
        | ok o =>
          cases h4 : addI i.total en.amount with
          | error e => simp only [bind, Except.bind, h1, h3, h4]; exact ⟨h, trivial⟩
          | ok t =>
            cases h5 : power cfg t with
            | error e => simp only [bind, Except.bind, h1, h3, h4, h5]; exact ⟨h, trivial⟩
            | ok n =>
              obtain ⟨va, vb, k1, k2, k3⟩ | ⟨e, k1, k2⟩ := update_behind h w o n
              · simp only [bind, Except.bind, h1, h3, h4, h5, k1, k2]; exact ⟨k3, trivial⟩
              · simp only [bind, Except.bind, h1, h3, h4, h5, k1, k2]; exact ⟨h, trivial⟩
  | _ => exact hk.elim

/-- any number of them do the same to both -/
theorem run_behind {me : Addr} {cfg : Config} {u : Addr} {x : Nat} : ∀ (ds : List (Ctx × Call)) {a b : Sys}, (∀ d ∈ ds, Bookkeeping d.2) →
    Behind me cfg u x a b → b.led.bal cfg.token me ≤ I128_MAX →
    Behind me cfg u x (Rewards.run me a (ds.map fun d => .rewards d.1 d.2)) (Rewards.run me b (ds.map fun d => .rewards d.1 d.2)) := by
  intro ds
  induction ds with
  | nil => exact fun _ h _ => h
  | cons d ds ih =>
    intro a b hk h hb
    obtain ⟨k1, k2⟩ := exec_behind h hb d.1 d.2 (hk d List.mem_cons_self)
    exact ih (fun e he => hk e (List.mem_cons_of_mem _ he)) k1 (by rw [k2]; exact hb)

/-- **C172** Compare withdrawing now with not withdrawing now, with the same distributions and reports of new
or larger stakes following.  The withdrawal pays what the
query showed, say `r`; at any later time the full reward of the user is then exactly `r` less than it would be otherwise, so together
they get the same; what any other account is shown at any time, and the total distributed, are the same in both. -/
theorem C172_early_costs_nothing {me u : Addr} {z z1 : Sys} {c : Ctx} {i : Info} {cfg : Config} (hu : u ≠ me)
    (hc : queryConfig z.st = .ok cfg) (h : Rewards.step me z (.rewards c (.withdraw u i)) = .ok z1)
    (hb : z.led.bal cfg.token me ≤ I128_MAX) (ds : List (Ctx × Call))
    (hk : ∀ d ∈ ds, Bookkeeping d.2) {a b : Sys}
    (ha : Rewards.run me z1 (ds.map fun d => .rewards d.1 d.2) = a)
    (hb' : Rewards.run me z (ds.map fun d => .rewards d.1 d.2) = b) :
    ∃ r, queryWithdrawable c z.st u i = .ok r ∧ Settles z.led z1.led [⟨cfg.token, me, u, r⟩] ∧
      (∀ (c' : Ctx) (j : Info) (f g : Nat), multiplier c'.now j.stakes = 10 ^ 18 → queryWithdrawable c' a.st u j = .ok f →
        queryWithdrawable c' b.st u j = .ok g → f + r = g) ∧
      (∀ (v : Addr) (c' : Ctx) (j : Info), v ≠ u → queryWithdrawable c' a.st v j = queryWithdrawable c' b.st v j) ∧
      queryDistributed a.st cfg.token = queryDistributed b.st cfg.token := by
  have hc' : z.st.cfg = some cfg := getConfig_ok.mp hc
  simp only [Rewards.step, bind_ok, ok_inj] at h
  obtain ⟨⟨v, L⟩, hw, rfl⟩ := h
  obtain ⟨cfg', x, e1, e2, e3, e4, e5, rfl, e7, e8, e9⟩ := withdraw_inv hw
  rw [hc'] at e1; cases e1
  have hx : ((x.toNat : Nat) : Int) = x := by omega
  have start : Behind me cfg u x.toNat ⟨paidState z.st u x, L⟩ z := by
    refine ⟨⟨hc', hc'⟩, rfl, rfl, rfl, rfl, ?_, fun v hv => upd_ne _ _ hv, ?_, ?_, ?_⟩
    · simp only [paidState]; omega
    · simp [paidState, upd_same]
    · simp [paidState, upd_same]
    · have k := Stake.settles_me (me := me) e8 cfg.token
      simp only [true_and, hu, if_false, if_true] at k
      simp only
      omega
  have fin := run_behind ds hk start hb
  rw [ha, hb'] at fin
  refine ⟨x.toNat, ?_, by rw [hx]; exact e8, ?_, ?_, ?_⟩
  · unfold queryWithdrawable
    simp only [bind_ok, getConfig_ok, toU128_ok]
    exact ⟨cfg, hc', x, e3, by omega⟩
  · intro c' j f g hm hf hg
    obtain ⟨cf, p1, p2⟩ := queryWithdrawable_inv hf
    rw [fin.conf.1] at p1; cases p1
    obtain ⟨cg, q1, q2⟩ := queryWithdrawable_inv hg
    rw [fin.conf.2] at q1; cases q1
    obtain ⟨r1, m1, -, m2, -⟩ := payable_inv p2
    obtain ⟨r2, n1, -, n2, -⟩ := payable_inv q2
    rw [hm, Int.mul_ediv_cancel _ (by decide)] at m2 n2
    have m3 := (claim_inv m1).2
    have n3 := (claim_inv n1).2
    rw [fin.spp, fin.corr, fin.paid] at m3
    push_cast at m3
    omega
  · intro v c' j hv
    simp only [queryWithdrawable, getConfig, payable, claim, fin.conf.1, fin.conf.2, fin.spp, fin.others v hv]
  · simp only [queryDistributed, getConfig, fin.conf.1, fin.conf.2, fin.total]

/-! In the example of C86, user 2 withdraws 50000 on day 30, a distribution on day 60, a stake of 15000 of user 3 and a
distribution on day 91 follow.  On day 91 they are shown 201666, against 251666 had they waited; user 1 is shown 503333 in both cases. -/
def ptNow : Sys := Rewards.run 100 rExStart (rExHist.take 5)
def ptPaid : Sys := exec 100 ptNow (.rewards (rBy 2 30) (.withdraw 2 (rInfo 5000 0)))
def ptLater : List (Ctx × Call) :=
  [(rBy 3 60, .distribute 15000), (rBy 3 61, .calcBond 3 ⟨[⟨15000, 61 * 86400⟩], 0, 0⟩), (rBy 3 91, .distribute 30000)]

example : ∀ d ∈ ptLater, Bookkeeping d.2 := by
  intro d hd
  simp only [ptLater, List.mem_cons, List.not_mem_nil, or_false] at hd
  rcases hd with rfl | rfl | rfl <;> trivial

example : Rewards.Spec.succeeds 100 ptNow (.rewards (rBy 2 30) (.withdraw 2 (rInfo 5000 0))) = true ∧
    queryConfig ptNow.st = .ok ⟨50, 40, 10, 1000, 1000⟩ ∧ ptNow.led.bal 40 100 ≤ I128_MAX ∧
    queryWithdrawable (rBy 2 30) ptNow.st 2 (rInfo 5000 0) = .ok 50000 ∧ multiplier (rBy 2 91).now (rInfo 5000 0).stakes = 10 ^ 18 ∧
    queryWithdrawable (rBy 2 91) (Rewards.run 100 ptPaid (ptLater.map fun d => .rewards d.1 d.2)).st 2 (rInfo 5000 0) = .ok 201666 ∧
    queryWithdrawable (rBy 2 91) (Rewards.run 100 ptNow (ptLater.map fun d => .rewards d.1 d.2)).st 2 (rInfo 5000 0) = .ok 251666 ∧
    queryWithdrawable (rBy 1 91) (Rewards.run 100 ptPaid (ptLater.map fun d => .rewards d.1 d.2)).st 1 (rInfo 10000 0) = .ok 503333 := by
  refine ⟨?_, ?_, ?_, ?_, ?_, ?_, ?_, ?_⟩ <;> decide +kernel

end Phoenix.Props.PayTiming
