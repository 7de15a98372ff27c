import Verif.Props.Vesting
/-!
Property theorems about when a recipient claims and how fast a schedule releases: C158.
Two vesting contracts, or two histories of one, are compared.  They may differ in everything else: other schedules, other
callers, other claims, a minter.
-/
namespace Phoenix.Props.Habits
open Phoenix Vesting Curve Vesting.Spec Props
open Phoenix.Spec (Settles SameRights Issues Flow NoAllowance stepsOf NonConstant)

/-- The curve `x` of locked amounts releases the same total as `y`, and nothing later: at no time is more locked. -/
def Sooner (x y : Curve) : Prop :=
  x.value 0 = y.value 0 ∧ ∀ t v w, x.value t = .ok v → y.value t = .ok w → v ≤ w

/-- The history `ts` of the contract `me` starts before the contract is set up, nobody signs for the contract itself, and at its
end the schedule `i` of account `a` has the curve `x`. -/
structure Holds (me : Addr) (s : Sys) (ts : List Tx) (a : Addr) (i : Nat) (x : Curve) : Prop where
  fresh : Genesis me s
  possible : ∀ t ∈ ts, Vesting.Spec.Possible me t
  curve : (schedule? (Vesting.run me s ts) a i).map Info.schedule = some x

/-- A call of `claim` for schedule `i`, signed by its account `a`, not before anything of the history, at a time at which the curve
can be evaluated; the balances involved fit the token's range. -/
structure Attempt (me : Addr) (s : Sys) (ts : List Tx) (a : Addr) (i : Nat) (x : Curve) (c : Ctx) : Prop where
  signed : c.auth a = true
  notSelf : c.auth me = false
  last : ∀ t ∈ ts, t.ctx.now ≤ c.now
  answers : ∃ v, x.value c.now = .ok v
  fits : held (Vesting.run me s ts) me ≤ I128_MAX ∧
    ∀ n, x.value 0 = .ok n → held (Vesting.run me s ts) a + n ≤ I128_MAX

theorem claimed_append (me : Addr) (s : Sys) (a : Addr) (i : Nat) (ts us : List Tx) :
    claimed me s a i (ts ++ us) = claimed me s a i ts + claimed me (Vesting.run me s ts) a i us := by
  induction ts generalizing s with
  | nil => simp [claimed, Vesting.run]
  | cons t ts ih =>
    show paid me s t a i + claimed me (exec me s t) a i (ts ++ us) = paid me s t a i + claimed me (exec me s t) a i ts + _
    rw [ih, Vesting.run_cons]; ring

theorem Holds.get {me : Addr} {s : Sys} {ts : List Tx} {a : Addr} {i : Nat} {x : Curve} (h : Holds me s ts a i x) :
    ∃ b r, schedule? (Vesting.run me s ts) a i = some ⟨b, r, x⟩ := by
  cases e : schedule? (Vesting.run me s ts) a i with
  | none => have := h.curve; rw [e] at this; simp at this
  | some y =>
    have := h.curve; rw [e] at this
    simp only [Option.map_some, Option.some.injEq] at this
    subst this
    exact ⟨y.balance, y.recipient, rfl⟩

/-- **C158** Waiting costs nothing: whatever was claimed before, what has been paid out of a schedule and what
`query_available_to_claim` announces together are always the total minus what the curve still locks. -/
theorem C158_waiting_costs_nothing {me : Addr} {s : Sys} {ts : List Tx} {a : Addr} {i : Nat} {x : Curve} (h : Holds me s ts a i x)
    {v : Vesting.State} (hv : (Vesting.run me s ts).vest = some v) {c : Ctx} {y : Int} (hy : available c v a i = .ok y) :
    ∃ n k, x.value 0 = .ok n ∧ x.value c.now = .ok k ∧ claimed me s a i ts + y = (n : Int) - k := by
  obtain ⟨b, r, hr⟩ := h.get
  obtain ⟨n, h1, h2, -, -⟩ := C30_claimed_is_vested h.fresh ts h.possible hr
  obtain ⟨z, k, k1, k2, k3, -, rfl⟩ := available_ok.mp hy
  simp only [schedule?, hv, Option.bind_some] at hr
  rw [k1] at hr; cases hr
  exact ⟨n, k, h1, k2, by rw [h2]; simp only; ring⟩

/-- **C158** An attempt to claim always leaves the account with exactly what has vested, whether it pays something or is refused
because there is nothing left to pay. -/
theorem C158_attempt_settles {me : Addr} {s : Sys} {ts : List Tx} {a : Addr} {i : Nat} {x : Curve} (h : Holds me s ts a i x)
    {c : Ctx} (k : Attempt me s ts a i x c) :
    ∃ n v, x.value 0 = .ok n ∧ x.value c.now = .ok v ∧
      claimed me s a i (ts ++ [.vest c (.claim a i)]) = (n : Int) - v := by
  obtain ⟨b, r, hr⟩ := h.get
  obtain ⟨n, h1, h2, h3, h4⟩ := C30_claimed_is_vested h.fresh ts h.possible hr
  obtain ⟨w, hw⟩ := k.answers
  obtain ⟨c1, c2, -⟩ := C30_never_more_than_vested h.fresh ts h.possible hr h1 k.last hw
  have hinv := Vesting.run_inv ts h.possible (Vesting.genesis_inv h.fresh)
  have hfit := k.fits
  refine ⟨n, w, h1, hw, ?_⟩
  rw [claimed_append]
  simp only [h2] at c1 c2 h4 ⊢
  have hne : a ≠ me := by rintro rfl; have := k.signed; rw [k.notSelf] at this; simp at this
  have hpay : claimed me (Vesting.run me s ts) a i [.vest c (.claim a i)] = (b : Int) - w := by
    simp only [claimed, paid, and_self, if_true, add_zero]
    have hS : ∀ s', Vesting.step me (Vesting.run me s ts) (.vest c (.claim a i)) = .ok s' →
        exec me (Vesting.run me s ts) (.vest c (.claim a i)) = s' := fun s' e => by unfold exec; rw [e]
    by_cases hlt : w < b
    · generalize Vesting.run me s ts = S at *
      cases hv : S.vest with
      | none => simp [schedule?, hv] at hr
      | some v =>
        have hr' := hr
        simp only [schedule?, hv, Option.bind_some] at hr'
        have hheld : ∀ z, held S z = S.led.bal v.token z := fun z => by simp [held, token?, hv]
        have hb' := hinv.backed v hv {(a, i)}
        simp only [Finset.sum_singleton, out, hr'] at hb'
        have f1 := hfit.1
        have f2 := hfit.2 n h1
        rw [hheld] at f1 f2
        obtain ⟨L', hL⟩ := transfer_succeeds (c := c.as me) (L := S.led) (t := v.token) (src := me) (d := a)
          (x := (b : Int) - w) (as_auth_self c me) (by omega) (by omega) f1 hne (hinv.led.nonneg _ _) (by omega)
        have hav : available c v a i = .ok ((b : Int) - w) :=
          available_ok.mpr ⟨_, w, hr', hw, by simp only; omega, by simp only; omega, by simp only⟩
        have hcl : claim me c v S.led a i = .ok (putInfo v a i ⟨w, r, x⟩, L') := by
          unfold claim
          simp only [bind_ok]
          exact ⟨(), requireAuth_ok.mpr k.signed, _, hav, (), req_ok.mpr (by omega), _, getVesting_ok.mpr hr', w, hw,
            b - w, subU_ok.mpr ⟨by simp only; omega, by simp only⟩, b - w, toU128_ok.mpr (by omega), (), req_ok.mpr (by omega),
            w, subU_ok.mpr ⟨by simp only; omega, by simp only; omega⟩, L', hL, rfl⟩
        have hst : Vesting.step me S (.vest c (.claim a i)) = .ok ⟨some (putInfo v a i ⟨w, r, x⟩), L'⟩ := by
          simp only [Vesting.step, bind_ok, loaded_ok]
          exact ⟨v, hv, _, hcl, rfl⟩
        rw [hS _ hst]
        obtain ⟨z, m, e1, -, e3, -, -, e6, -⟩ := step_claim hst k.notSelf
        rw [hr] at e1; cases e1
        rw [hw, ok_inj] at e3; subst e3
        exact e6
    · have hex : exec me (Vesting.run me s ts) (.vest c (.claim a i)) = Vesting.run me s ts := by
        unfold exec
        cases e : Vesting.step me (Vesting.run me s ts) (.vest c (.claim a i)) with
        | error er => rfl
        | ok s' =>
          exfalso
          obtain ⟨z, m, e1, -, e3, e4, -⟩ := step_claim e k.notSelf
          rw [hr] at e1; cases e1
          rw [hw, ok_inj] at e3; subst e3
          exact hlt e4
      rw [hex]
      omega
  rw [hpay]; ring

/-- **C158** When a recipient claims does not matter in the end: two accounts with the same curve, in whatever histories, have
received the same once both have tried to claim at the same time. -/
theorem C158_same_in_the_end {me me' : Addr} {s s' : Sys} {ts ts' : List Tx} {a a' : Addr} {i i' : Nat} {x : Curve}
    (h : Holds me s ts a i x) (h' : Holds me' s' ts' a' i' x) {c c' : Ctx} (k : Attempt me s ts a i x c)
    (k' : Attempt me' s' ts' a' i' x c') (ht : c.now = c'.now) :
    claimed me s a i (ts ++ [.vest c (.claim a i)]) = claimed me' s' a' i' (ts' ++ [.vest c' (.claim a' i')]) := by
  obtain ⟨n, v, h1, h2, h3⟩ := C158_attempt_settles h k
  obtain ⟨n', v', j1, j2, j3⟩ := C158_attempt_settles h' k'
  rw [h1, ok_inj] at j1; subst j1
  rw [← ht, h2, ok_inj] at j2; subst j2
  rw [h3, j3]

/-- **C158** A schedule that releases sooner never pays less: if `x` releases the same total as `y` and nothing later, the account
with `x` has received at least as much as the one with `y` once it has tried to claim, not before the other did. -/
theorem C158_sooner_never_pays_less {me me' : Addr} {s s' : Sys} {ts ts' : List Tx} {a a' : Addr} {i i' : Nat} {x y : Curve}
    (hxy : Sooner x y) (h : Holds me s ts a i x) (h' : Holds me' s' ts' a' i' y) {c c' : Ctx} (k : Attempt me s ts a i x c)
    (k' : Attempt me' s' ts' a' i' y c') (ht : c'.now ≤ c.now) (hx : ∃ v, x.value c'.now = .ok v) :
    claimed me' s' a' i' (ts' ++ [.vest c' (.claim a' i')]) ≤ claimed me s a i (ts ++ [.vest c (.claim a i)]) := by
  obtain ⟨n, v, h1, h2, h3⟩ := C158_attempt_settles h k
  obtain ⟨n', v', j1, j2, j3⟩ := C158_attempt_settles h' k'
  rw [← hxy.1, h1, ok_inj] at j1; subst j1
  obtain ⟨u, hu⟩ := hx
  have h4 := hxy.2 _ _ _ hu j2
  have hdec : x.validateDec = .ok () := by
    have hinv := Vesting.run_inv ts h.possible (Vesting.genesis_inv h.fresh)
    have hc := h.curve
    generalize Vesting.run me s ts = S at *
    cases hv : S.vest with
    | none => simp [schedule?, hv] at hc
    | some w =>
      simp only [schedule?, hv, Option.bind_some] at hc
      cases e : w.sched a i with
      | none => rw [e] at hc; simp at hc
      | some z =>
        rw [e] at hc
        simp only [Option.map_some, Option.some.injEq] at hc
        obtain ⟨_, m, hm, -⟩ := (hinv.st w hv).good a i z e
        rw [← hc]; exact hm.dec
  have h5 := C26_decreasing hdec ht hu h2
  rw [h3, j3]
  omega

/-- **C158** For the common straight schedules: the same amount, starting no later and ending no later, is released sooner. -/
theorem C158_earlier_dates_sooner {n b e b' e' : Nat} (hb : b ≤ b') (he : e ≤ e') (h1 : b < e) (h2 : b' < e') :
    Sooner (.sl b n e 0) (.sl b' n e' 0) := by
  constructor
  · have key : ∀ b e, b < e → (Curve.sl b n e 0).value 0 = .ok n := by
      intro b e h
      simp only [value, slValue]
      split
      · rfl
      · rename_i hb0
        obtain rfl : b = 0 := by omega
        rw [if_neg (by omega)]
        exact interpolate_start h (by simp [U128_LIM])
    rw [key b e h1, key b' e' h2]
  · intro t v w hv hw
    simp only [value, slValue] at hv hw
    split at hv
    · rename_i h3
      rw [ok_inj] at hv; subst hv
      rw [if_pos (by omega), ok_inj] at hw; omega
    · split at hv
      · rw [ok_inj] at hv; subst hv; exact Nat.zero_le _
      · rename_i h3 h4
        obtain ⟨-, -, ⟨k1, -⟩ | ⟨-, -, -, rfl⟩⟩ := interpolate_inv hv
        · omega
        · split at hw
          · rw [ok_inj] at hw; subst hw; exact Nat.sub_le _ _
          · rename_i h5
            rw [if_neg (by omega)] at hw
            obtain ⟨-, -, ⟨k1, -⟩ | ⟨-, -, -, rfl⟩⟩ := interpolate_inv hw
            · omega
            · refine Nat.sub_le_sub_left ?_ n
              simp only [Nat.sub_zero]
              rw [Nat.le_div_iff_mul_le (by omega)]
              have q := Nat.div_mul_le_self (n * (t - b')) (e' - b')
              generalize n * (t - b') / (e' - b') = r at *
              obtain ⟨u, rfl⟩ : ∃ u, t = b' + u := ⟨t - b', by omega⟩
              obtain ⟨d, rfl⟩ : ∃ d, b' = b + d := ⟨b' - b, by omega⟩
              obtain ⟨z, rfl⟩ : ∃ z, e = b + d + u + z := ⟨e - (b + d + u), by omega⟩
              obtain ⟨f, rfl⟩ : ∃ f, e' = b + d + u + z + f := ⟨e' - (b + d + u + z), by omega⟩
              have e1 : b + d + u - (b + d) = u := by omega
              have e2 : b + d + u + z + f - (b + d) = u + z + f := by omega
              have e3 : b + d + u + z - b = d + u + z := by omega
              have e4 : b + d + u - b = d + u := by omega
              rw [e1, e2] at q
              rw [e3, e4]
              have hpos : 0 < u + z + f := by omega
              refine Nat.le_of_mul_le_mul_right ?_ hpos
              have s1 : r * (d + u + z) * (u + z + f) ≤ n * u * (d + u + z) := by
                calc r * (d + u + z) * (u + z + f) = r * (u + z + f) * (d + u + z) := by ring
                  _ ≤ n * u * (d + u + z) := Nat.mul_le_mul_right _ q
              have s2 : u * (d + u + z) ≤ (d + u) * (u + z + f) := by nlinarith [Nat.zero_le (d * z), Nat.zero_le (d * f), Nat.zero_le (u * f)]
              calc r * (d + u + z) * (u + z + f) ≤ n * u * (d + u + z) := s1
                _ = n * (u * (d + u + z)) := by ring
                _ ≤ n * ((d + u) * (u + z + f)) := Nat.mul_le_mul_left _ s2
                _ = n * (d + u) * (u + z + f) := by ring

/-- account 1 claims its first schedule twice on the way; account 2 of another contract, with a schedule that starts and ends later,
never does before time 40 -/
def exLate : List Tx :=
  [ .vest (vBy 8 1) (.init 8 30 10 none), .vest (vBy 8 2) (.create [(2, .sl 20 120 80 0)]) ]

theorem exLate_possible : ∀ t ∈ exLate, Vesting.Spec.Possible 101 t := by
  intro t ht
  simp [exLate] at ht
  rcases ht with rfl | rfl <;> simp [Vesting.Spec.Possible, Tx.ctx, Ctx.auth, vBy]

theorem exHolds : Holds 100 vExStart vExHist 1 0 vExSl := ⟨vExStart_genesis, vExHist_possible, by decide +kernel⟩

theorem exHolds' : Holds 101 vExStart exLate 2 0 (.sl 20 120 80 0) :=
  ⟨⟨rfl, vExStart_genesis.2.1, fun _ _ => le_refl _⟩, exLate_possible, by decide +kernel⟩

theorem exAttempt : Attempt 100 vExStart vExHist 1 0 vExSl (vBy 1 40) where
  signed := rfl
  notSelf := rfl
  last := by
    intro t ht
    simp [vExHist] at ht
    rcases ht with rfl | rfl | rfl | rfl | rfl | rfl | rfl | rfl <;> simp [Tx.ctx, vBy]
  answers := ⟨54, by decide +kernel⟩
  fits := ⟨by decide +kernel, fun n hn => by
    have : vExSl.value 0 = .ok 120 := by decide +kernel
    rw [this, ok_inj] at hn; subst hn
    decide +kernel⟩

theorem exAttempt' : Attempt 101 vExStart exLate 2 0 (.sl 20 120 80 0) (vBy 2 40) where
  signed := rfl
  notSelf := rfl
  last := by
    intro t ht
    simp [exLate] at ht
    rcases ht with rfl | rfl <;> simp [Tx.ctx, vBy]
  answers := ⟨80, by decide +kernel⟩
  fits := ⟨by decide +kernel, fun n hn => by
    have : (Curve.sl 20 120 80 0).value 0 = .ok 120 := by decide +kernel
    rw [this, ok_inj] at hn; subst hn
    decide +kernel⟩

/-- At time 40 account 1 has 66 of its 120, after claims at 30, 33 and 40; account 2 has 40 of its 120. -/
example : claimed 100 vExStart 1 0 (vExHist ++ [.vest (vBy 1 40) (.claim 1 0)]) = 66 ∧
    claimed 101 vExStart 2 0 (exLate ++ [.vest (vBy 2 40) (.claim 2 0)]) = 40 ∧
    claimed 101 vExStart 2 0 (exLate ++ [.vest (vBy 2 40) (.claim 2 0)]) ≤
      claimed 100 vExStart 1 0 (vExHist ++ [.vest (vBy 1 40) (.claim 1 0)]) :=
  ⟨by decide +kernel, by decide +kernel,
    C158_sooner_never_pays_less (C158_earlier_dates_sooner (by decide) (by decide) (by decide) (by decide)) exHolds exHolds'
      exAttempt exAttempt' (by decide) ⟨54, by decide +kernel⟩⟩

/-- Whoever claims once at time 40 gets the same 66. -/
example : claimed 100 vExStart 1 0 (vExHist.take 3 ++ [.vest (vBy 1 40) (.claim 1 0)]) = 66 := by decide +kernel

/-- At time 36, before anything is claimed and after the claims at 30 and 33. -/
example : ((Vesting.run 100 vExStart (vExHist.take 3)).vest.map fun v => (available (vBy 3 36) v 1 0).toOption) = some (some 56) ∧
    ((Vesting.run 100 vExStart vExHist).vest.map fun v => (available (vBy 3 36) v 1 0).toOption) = some (some 8) ∧
    claimed 100 vExStart 1 0 vExHist = 48 := by decide +kernel

end Phoenix.Props.Habits
