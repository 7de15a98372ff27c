import Verif.Lemmas.VestingSys
/-!
Property theorems about the vesting contract: C29 - C34 and C60 - C64.
A history is any list of transactions by anybody: calls of the contract (failed ones
leave no trace) interleaved with calls of any token contract.
-/
namespace Phoenix.Props
open Phoenix Vesting Curve Vesting.Spec
open Phoenix.Spec (Settles SameRights Issues Flow NoAllowance stepsOf NonConstant)

/-! A concrete history.  Admin 8 creates schedules for accounts 1 and 2, both claim, the
minter 6 mints, account 3 tries to claim what it does not have. -/

/-- 120 tokens vesting linearly between times 15 and 60 -/
def vExSl : Curve := .sl 15 120 60 0
/-- 300 tokens: 200 left at time 20, nothing at 50 -/
def vExPl : Curve := .pl [⟨10, 300⟩, ⟨20, 200⟩, ⟨50, 0⟩]
/-- admin 8 holds 1000 tokens of every kind; contract 100 may mint token 30 -/
def vExStart : Sys :=
  { vest := none
    led := fun _ => { admin := 100, decimals := 7, bal := fun a => if a = 8 then 1000 else 0,
                      allow := fun _ _ => ⟨0, 0⟩ } }
/-- signed by `a` at time `now` -/
def vBy (a : Addr) (now : Nat) : Ctx := { now := now, seq := 0, signed := fun x => x == a }
/-- the history -/
def vExHist : List Tx :=
  [ .vest (vBy 8 1) (.init 8 30 10 (some ⟨6, 500⟩)),
    .vest (vBy 8 2) (.create [(1, vExSl), (2, vExPl)]),
    .vest (vBy 8 3) (.create [(1, vExPl)]),
    .vest (vBy 1 30) (.claim 1 0),
    .vest (vBy 6 31) (.mint 6 70),
    .vest (vBy 3 31) (.claim 1 1),
    .vest (vBy 2 32) (.claim 2 0),
    .vest (vBy 1 33) (.claim 1 0) ]

theorem vExStart_genesis : Genesis 100 vExStart := by
  refine ⟨rfl, fun t a => ?_, fun t sp => le_refl _⟩
  show (0:Int) ≤ if a = 8 then 1000 else 0
  split <;> decide
theorem vExHist_possible : ∀ t ∈ vExHist, Vesting.Spec.Possible 100 t := by
  intro t ht
  simp [vExHist] at ht
  rcases ht with rfl | rfl | rfl | rfl | rfl | rfl | rfl | rfl <;> simp [Vesting.Spec.Possible, Tx.ctx, Ctx.auth, vBy]
/-- outstanding balances, holdings and capacity at the end -/
theorem vExHist_result :
    (schedule? (Vesting.run 100 vExStart vExHist) 1 0).map Info.balance = some 72 ∧
    (schedule? (Vesting.run 100 vExStart vExHist) 1 1).map Info.balance = some 300 ∧
    (schedule? (Vesting.run 100 vExStart vExHist) 2 0).map Info.balance = some 120 ∧
    held (Vesting.run 100 vExStart vExHist) 100 = 562 ∧ capacityOf (Vesting.run 100 vExStart vExHist) = 430 := by
  decide +kernel

/-- **C29** In every reachable state the contract's balance of the vesting token is at
least the sum of the outstanding balances of any set of schedules. -/
theorem C29_obligations_backed {me : Addr} {s : Sys} (h0 : Genesis me s) (ts : List Tx)
    (ht : ∀ t ∈ ts, Vesting.Spec.Possible me t) (hi : (Vesting.run me s ts).vest ≠ none) (K : Finset (Addr × Nat)) :
    owed (Vesting.run me s ts) K ≤ held (Vesting.run me s ts) me := by
  cases hv : (Vesting.run me s ts).vest with
  | none => exact absurd hv hi
  | some v =>
    have := (Vesting.run_inv ts ht (Vesting.genesis_inv h0)).backed v hv K
    rw [owed_some hv]
    simpa [held, token?, hv] using this

example : owed (Vesting.run 100 vExStart vExHist) {(1, 0), (1, 1), (2, 0)} = 492 := by decide +kernel

/-- **C29** The same in terms of what the contract itself reports: in every reachable state and at any time, what
`query_available_to_claim` announces for any set of schedules adds up to no more than `query_vesting_contract_balance`, and that
is the balance that `query_balance` reports for the contract and the vesting token has for it. -/
theorem C29_reported_balance_covers {me : Addr} {s : Sys} (h0 : Genesis me s) (ts : List Tx)
    (ht : ∀ t ∈ ts, Vesting.Spec.Possible me t) {v : Vesting.State} (hv : (Vesting.run me s ts).vest = some v) (c : Ctx)
    (K : Finset (Addr × Nat)) {f : Addr × Nat → Int} (hf : ∀ k ∈ K, available c v k.1 k.2 = .ok (f k)) :
    ∑ k ∈ K, f k ≤ queryContractBalance me v (Vesting.run me s ts).led ∧
      ∀ a, queryBalance v (Vesting.run me s ts).led a = held (Vesting.run me s ts) a ∧
        queryContractBalance me v (Vesting.run me s ts).led = held (Vesting.run me s ts) me := by
  have hh : ∀ a, held (Vesting.run me s ts) a = (Vesting.run me s ts).led.bal v.token a := fun a => by simp [held, token?, hv]
  refine ⟨?_, fun a => ⟨(hh a).symm, (hh me).symm⟩⟩
  have hb := C29_obligations_backed h0 ts ht (by rw [hv]; simp) K
  rw [hh] at hb
  refine le_trans (le_trans (Finset.sum_le_sum fun k hk => ?_) (le_refl (owed (Vesting.run me s ts) K))) hb
  have := hf k hk
  simp only [available, bind_ok, subU_ok, toI128_ok] at this
  obtain ⟨x, hx, n, -, d, ⟨h1, rfl⟩, h2, h3⟩ := this
  have hs : schedule? (Vesting.run me s ts) k.1 k.2 = some x := by
    simp only [schedule?, hv, Option.bind_some]
    exact getVesting_ok.mp hx
  unfold outstanding
  rw [hs]
  simp only
  omega

/-- The three schedules of the example at time 40: 18, 233 and 53 can be claimed, 562 are there. -/
example : (Vesting.run 100 vExStart vExHist).vest.map (fun v =>
    ([available (vBy 3 40) v 1 0, available (vBy 3 40) v 1 1, available (vBy 3 40) v 2 0].map Except.toOption,
      queryContractBalance 100 v (Vesting.run 100 vExStart vExHist).led, queryBalance v (Vesting.run 100 vExStart vExHist).led 1)) =
    some ([some 18, some 233, some 53], 562, 48) := by decide +kernel

/-- **C30** For every schedule of every reachable state: the total paid out by claims is
the initial amount (the curve at time zero) minus the outstanding balance, and the
outstanding balance is the curve at the time of the last successful claim; without a
successful claim nothing was paid. -/
theorem C30_claimed_is_vested {me : Addr} {s : Sys} (h0 : Genesis me s) (ts : List Tx)
    (ht : ∀ t ∈ ts, Vesting.Spec.Possible me t) {a : Addr} {i : Nat} {x : Info}
    (hx : schedule? (Vesting.run me s ts) a i = some x) :
    ∃ n : Nat, x.schedule.value 0 = .ok n ∧ claimed me s a i ts = (n : Int) - x.balance ∧
      (∀ t, lastClaim me s a i none ts = some t → x.schedule.value t = .ok x.balance) ∧
      (lastClaim me s a i none ts = none → claimed me s a i ts = 0) := by
  have hb : Books s a i 0 none := by
    have : schedule? s a i = none := by simp [schedule?, h0.1]
    exact ⟨fun _ => ⟨rfl, rfl⟩, fun y hy => by rw [this] at hy; simp at hy⟩
  obtain ⟨n, h1, h2, h3⟩ := (books_run ts (Vesting.genesis_inv h0) ht hb).2 x hx
  rw [zero_add] at h2
  refine ⟨n, h1, h2, fun t e => by rw [e] at h3; exact h3, fun e => ?_⟩
  rw [e] at h3
  simp only [Option.getD_none] at h3
  rw [h1, ok_inj] at h3
  omega

/-- **C30** Hence, at any time not before the last transaction, no more has been claimed
than has vested, and never less than nothing or more than the initial amount. -/
theorem C30_never_more_than_vested {me : Addr} {s : Sys} (h0 : Genesis me s) (ts : List Tx)
    (ht : ∀ t ∈ ts, Vesting.Spec.Possible me t) {a : Addr} {i : Nat} {x : Info}
    (hx : schedule? (Vesting.run me s ts) a i = some x) {n now v : Nat} (hn : x.schedule.value 0 = .ok n)
    (hnow : ∀ t ∈ ts, t.ctx.now ≤ now) (hv : x.schedule.value now = .ok v) :
    0 ≤ claimed me s a i ts ∧ claimed me s a i ts ≤ (n : Int) - v ∧ claimed me s a i ts ≤ n := by
  obtain ⟨m, h1, h2, h3, h4⟩ := C30_claimed_is_vested h0 ts ht hx
  rw [hn, ok_inj] at h1; subst h1
  have hg : x.schedule.validateDec = .ok () := by
    cases hv' : (Vesting.run me s ts).vest with
    | none => simp [schedule?, hv'] at hx
    | some w =>
      have := (Vesting.run_inv ts ht (Vesting.genesis_inv h0)).st w hv'
      simp only [schedule?, hv', Option.bind_some] at hx
      obtain ⟨_, k, hk, -⟩ := this.good a i x hx
      exact hk.dec
  cases hl : lastClaim me s a i none ts with
  | none =>
    have := h4 hl
    have := C26_decreasing hg (Nat.zero_le now) hn hv
    omega
  | some t =>
    have h5 := h3 t hl
    have := C26_decreasing hg (Nat.zero_le t) hn h5
    rcases lastClaim_mem ts none hl with e | ⟨u, hu, rfl⟩
    · simp at e
    · have := C26_decreasing hg (hnow u hu) h5 hv
      omega

/-- account 1 claimed 40 at time 30 and 8 more at time 33 of its first schedule -/
example : claimed 100 vExStart 1 0 vExHist = 48 ∧ lastClaim 100 vExStart 1 0 none vExHist = some 33 ∧
    vExSl.value 33 = .ok 72 ∧ vExSl.value 0 = .ok 120 ∧ ∀ t ∈ vExHist, t.ctx.now ≤ 33 := by
  refine ⟨by decide +kernel, by decide +kernel, by decide +kernel, by decide +kernel, ?_⟩
  intro t ht
  simp [vExHist] at ht
  rcases ht with rfl | rfl | rfl | rfl | rfl | rfl | rfl | rfl <;> simp [Tx.ctx, vBy]

/-- A transfer that must succeed (helper). -/
theorem transfer_succeeds {c : Ctx} {L : Ledger} {t src d : Addr} {x : Int} (h1 : c.auth src = true) (h2 : 0 ≤ x)
    (h3 : x ≤ L.bal t src) (hs : L.bal t src ≤ I128_MAX) (hne : d ≠ src) (h4 : 0 ≤ L.bal t d)
    (h5 : L.bal t d + x ≤ I128_MAX) : ∃ L', L.transfer c t src d x = .ok L' := by
  refine ⟨_, Ledger.call_ok.mpr ⟨_, Token.transfer_ok.mpr ⟨h1, h2, h3, ?_, ?_, rfl⟩, rfl⟩⟩
  · simp only [InI128, I128_MIN]; simp only [Ledger.bal] at *; omega
  · rw [upd_ne _ _ hne]
    simp only [InI128, I128_MIN]; simp only [Ledger.bal] at *; omega

/-- **C31** After the end of a schedule (or at the end, provided the curve can be
evaluated there) a claim by its owner with a positive outstanding balance succeeds, pays
all of it and leaves zero.  Only an overflow of the owner's own token balance, which
needs a supply above `i128::MAX`, could stop it. -/
theorem C31_everything_claimable {me : Addr} {s : Sys} (h0 : Genesis me s) (ts : List Tx)
    (ht : ∀ t ∈ ts, Vesting.Spec.Possible me t) {a : Addr} {i e : Nat} {x : Info}
    (hx : schedule? (Vesting.run me s ts) a i = some x) (hpos : 0 < x.balance) {c : Ctx} (hc : c.auth a = true)
    (hme : c.auth me = false) (he : x.schedule.end = some e)
    (hnow : e < c.now ∨ (e ≤ c.now ∧ ∃ v, x.schedule.value e = .ok v))
    (hfit : held (Vesting.run me s ts) me ≤ I128_MAX ∧ held (Vesting.run me s ts) a + x.balance ≤ I128_MAX) :
    ∃ s', Vesting.step me (Vesting.run me s ts) (.vest c (.claim a i)) = .ok s' ∧
      schedule? s' a i = some { x with balance := 0 } ∧
      held s' a = held (Vesting.run me s ts) a + x.balance := by
  have hinv := Vesting.run_inv ts ht (Vesting.genesis_inv h0)
  generalize Vesting.run me s ts = S at *
  cases hv : S.vest with
  | none => simp [schedule?, hv] at hx
  | some v =>
    simp only [schedule?, hv, Option.bind_some] at hx
    simp only [held, token?, hv, Option.map_some] at hfit
    obtain ⟨_, n, hn, -⟩ := (hinv.st v hv).good a i x hx
    have h1 := hn.at_end he hnow
    have hne : a ≠ me := by rintro rfl; rw [hc] at hme; simp at hme
    have hb := hinv.backed v hv {(a, i)}
    simp only [Finset.sum_singleton, out, hx] at hb
    obtain ⟨L', hL⟩ := transfer_succeeds (c := c.as me) (L := S.led) (t := v.token) (src := me) (d := a)
      (x := (x.balance : Int)) (as_auth_self c me) (by omega) hb hfit.1 hne (hinv.led.nonneg _ _) hfit.2
    have hmax : (x.balance : Int) ≤ I128_MAX := by omega
    have hav : available c v a i = .ok (x.balance : Int) :=
      available_ok.mpr ⟨x, 0, hx, h1, by omega, by simpa using hmax, by simp⟩
    have hcl : claim me c v S.led a i = .ok (putInfo v a i { x with balance := 0 }, L') := by
      unfold claim
      simp only [bind_ok]
      refine ⟨(), requireAuth_ok.mpr hc, _, hav, (), req_ok.mpr (by omega), x, getVesting_ok.mpr hx, 0, h1,
        x.balance, subU_ok.mpr ⟨by omega, by omega⟩, x.balance, toU128_ok.mpr rfl, (), req_ok.mpr (by omega),
        0, subU_ok.mpr ⟨by omega, by omega⟩, L', hL, rfl⟩
    refine ⟨⟨some (putInfo v a i { x with balance := 0 }), L'⟩, ?_, ?_, ?_⟩
    · simp only [Vesting.step, bind_ok, loaded_ok]
      exact ⟨v, hv, _, hcl, rfl⟩
    · simp [schedule?, putInfo_sched]
    · simp only [held, token?, hv, Option.map_some]
      show L'.bal v.token a = _
      obtain ⟨_, _, _, h6, _⟩ := Ledger.transfer_inv hL
      rw [h6]; simp [Flow.delta, Ne.symm hne]

/-- both schedules of account 1 after the example history, at their ends -/
example : vExSl.end = some 60 ∧ vExSl.value 60 = .ok 0 ∧
    held (Vesting.run 100 vExStart (vExHist ++ [.vest (vBy 1 60) (.claim 1 0), .vest (vBy 1 50) (.claim 1 1)])) 1 = 420 ∧
    owed (Vesting.run 100 vExStart (vExHist ++ [.vest (vBy 1 60) (.claim 1 0), .vest (vBy 1 50) (.claim 1 1)]))
      {(1, 0), (1, 1)} = 0 := by
  refine ⟨by decide +kernel, by decide +kernel, by decide +kernel, by decide +kernel⟩

/-- admin 8 holds `2^126` tokens -/
def vExRich : Sys :=
  { vest := none
    led := fun _ => { admin := 100, decimals := 7, bal := fun a => if a = 8 then 2 ^ 126 else 0,
                      allow := fun _ _ => ⟨0, 0⟩ } }

/-- **C31** The proviso is needed: a saturating schedule for a large amount cannot be
claimed at the very second of its end, since evaluating the curve overflows; one second
later it can. -/
theorem C31_end_instant_can_fail : ∃ (n : Nat) (start : Sys), (n : Int) ≤ I128_MAX ∧ Genesis 100 start ∧
    (let s := Vesting.run 100 start [.vest (vBy 8 1) (.init 8 30 10 none), .vest (vBy 8 1) (.create [(1, .sl 10 n 20 0)])]
     schedule? s 1 0 = some ⟨n, 1, .sl 10 n 20 0⟩ ∧
     Vesting.step 100 s (.vest (vBy 1 20) (.claim 1 0)) = .error .overflow ∧
     ∃ s', Vesting.step 100 s (.vest (vBy 1 21) (.claim 1 0)) = .ok s') := by
  refine ⟨2 ^ 126, vExRich, by decide, ⟨rfl, fun t a => ?_, fun t sp => le_refl _⟩, ?_⟩
  · show (0:Int) ≤ if a = 8 then 2 ^ 126 else 0
    split <;> decide
  · refine ⟨by decide +kernel, eq_of_failsWith (by decide +kernel), ?_⟩
    obtain ⟨s', h, -⟩ := exists_of_okAnd (x := Vesting.step 100 (Vesting.run 100 vExRich
      [.vest (vBy 8 1) (.init 8 30 10 none), .vest (vBy 8 1) (.create [(1, .sl 10 (2 ^ 126) 20 0)])])
      (.vest (vBy 1 21) (.claim 1 0))) (P := fun _ => true) (by decide +kernel)
    exact ⟨s', h⟩

/-- **C32** A successful claim needs the sender's signature; it lowers the outstanding
balance of that sender's schedule at that index, leaves every other schedule alone and
moves tokens only from the contract to the sender. -/
theorem C32_claim_only_own {me : Addr} {s s' : Sys} {v : State} (hv : s.vest = some v) {c : Ctx} {a : Addr} {i : Nat}
    (h : Vesting.step me s (.vest c (.claim a i)) = .ok s') :
    c.auth a = true ∧ (∃ x n, schedule? s a i = some x ∧ n < x.balance ∧
      schedule? s' a i = some { x with balance := n } ∧
      Settles s.led s'.led [⟨v.token, me, a, (x.balance : Int) - n⟩]) ∧ SameRights s.led s'.led ∧
    ∀ b j, (b, j) ≠ (a, i) → schedule? s' b j = schedule? s b j := by
  simp only [Vesting.step, bind_ok, ok_inj, loaded_ok] at h
  obtain ⟨w, hw, ⟨v', L'⟩, hk, rfl⟩ := h
  rw [hv] at hw; cases hw
  obtain ⟨h1, x, n, h2, h3, h4, rfl, h5, h6, h7⟩ := claim_inv hk
  refine ⟨h1, ⟨x, n, by simp [schedule?, hv, h2], h4, by simp [schedule?, putInfo_sched], h6⟩, h7, fun b j hne => ?_⟩
  simp only [schedule?, hv, Option.bind_some, putInfo_sched]
  rw [if_neg]
  rintro ⟨rfl, rfl⟩
  exact hne rfl

example : ∃ s', Vesting.step 100 (Vesting.run 100 vExStart (vExHist.take 3)) (.vest (vBy 1 30) (.claim 1 0)) = .ok s' := by
  obtain ⟨s', h, -⟩ := exists_of_okAnd
    (x := Vesting.step 100 (Vesting.run 100 vExStart (vExHist.take 3)) (.vest (vBy 1 30) (.claim 1 0)))
    (P := fun _ => true) (by decide +kernel)
  exact ⟨s', h⟩

/-- **C32** Over any further history a schedule keeps its owner and curve, its
outstanding balance never grows, and it does not change at all without a successful
claim of its owner at its index.  In particular creating schedules overwrites none. -/
theorem C32_schedules_permanent {me : Addr} {s : Sys} (h0 : Genesis me s) (ts us : List Tx)
    (ht : ∀ t ∈ ts, Vesting.Spec.Possible me t) (hu : ∀ t ∈ us, Vesting.Spec.Possible me t) {a : Addr} {i : Nat} {x : Info}
    (hx : schedule? (Vesting.run me s ts) a i = some x) :
    ∃ n, schedule? (Vesting.run me s (ts ++ us)) a i = some { x with balance := n } ∧ n ≤ x.balance ∧
      (lastClaim me (Vesting.run me s ts) a i none us = none → n = x.balance) := by
  rw [Vesting.run_append]
  exact sched_run us (Vesting.run_inv ts ht (Vesting.genesis_inv h0)) hu hx

/-- the first schedule of account 1 survives the creation of its second one -/
example : schedule? (Vesting.run 100 vExStart (vExHist.take 2)) 1 0 = some ⟨120, 1, vExSl⟩ ∧
    schedule? (Vesting.run 100 vExStart (vExHist.take 3)) 1 0 = some ⟨120, 1, vExSl⟩ ∧
    schedule? (Vesting.run 100 vExStart (vExHist.take 3)) 1 1 = some ⟨300, 1, vExPl⟩ := by
  refine ⟨by decide +kernel, by decide +kernel, by decide +kernel⟩

/-- **C32** Successful creation needs the admin's signature, and every schedule that is
new afterwards is one of the requested ones, belongs to the requested account and starts
at the full amount of its curve; the tokens come from the admin. -/
theorem C32_create_exact {me : Addr} {s : Sys} (h0 : Genesis me s) (ts : List Tx)
    (ht : ∀ t ∈ ts, Vesting.Spec.Possible me t) {v : State} (hv : (Vesting.run me s ts).vest = some v) {c : Ctx}
    {l : List (Addr × Curve)} {s' : Sys} (h : Vesting.step me (Vesting.run me s ts) (.vest c (.create l)) = .ok s') :
    c.auth v.admin = true ∧
    (∀ a i x, schedule? (Vesting.run me s ts) a i = some x → schedule? s' a i = some x) ∧
    (∀ a i x, schedule? s' a i = some x → schedule? (Vesting.run me s ts) a i = none →
      (a, x.schedule) ∈ l ∧ x.recipient = a ∧ Vests x.schedule x.balance) ∧
    ∃ T : Int, 0 ≤ T ∧ Settles (Vesting.run me s ts).led s'.led [⟨v.token, v.admin, me, T⟩] ∧
      ∀ K : Finset (Addr × Nat), (∀ a i, (a, i) ∉ K → schedule? s' a i = none) →
        owed s' K = owed (Vesting.run me s ts) K + T := by
  have hinv := Vesting.run_inv ts ht (Vesting.genesis_inv h0)
  generalize Vesting.run me s ts = S at *
  simp only [Vesting.step, bind_ok, ok_inj, loaded_ok] at h
  obtain ⟨w, hw, ⟨v', L'⟩, hk, rfl⟩ := h
  rw [hv] at hw; cases hw
  obtain ⟨h1, _, _, T, h4, h5, h6, h7, h8⟩ := create_inv hk
  obtain ⟨i1, i2, i3, i4, i5, i6, i7, i8, i9⟩ := createLoop_inv (hinv.st v hv) h4
  refine ⟨h1, fun a i x hx => ?_, fun a i x hx hn => ?_, T, by omega, h7, fun K hK => ?_⟩
  · simp only [schedule?, hv, Option.bind_some] at hx ⊢
    exact i7 a i x hx
  · simp only [schedule?, hv, Option.bind_some] at hx hn
    rcases i8 a i x hx with h | ⟨_, h⟩
    · rw [h] at hn; simp at hn
    · exact h
  · rw [owed_some hv, owed_some (s := ⟨some v', L'⟩) rfl]
    have := (i9 K).2 (fun a i hn => by simpa [schedule?] using hK a i hn)
    rw [this]; simp

/-- **C33** Right after a successful claim nothing is available and another claim of the
same schedule at the same time fails, whoever signs. -/
theorem C33_repeat_fails {me : Addr} {s s' : Sys} {c c' : Ctx} {a : Addr} {i : Nat} (hme : c.auth me = false)
    (h : Vesting.step me s (.vest c (.claim a i)) = .ok s') (hnow : c'.now = c.now) :
    (∀ v, s'.vest = some v → available c' v a i = .ok 0) ∧
    ∀ s'', Vesting.step me s' (.vest c' (.claim a i)) ≠ .ok s'' := by
  obtain ⟨x, n, h1, h2, h3, -⟩ := step_claim h hme
  refine ⟨fun v hv => ?_, fun s'' h4 => ?_⟩
  · simp only [schedule?, hv, Option.bind_some] at h2
    exact available_ok.mpr ⟨_, n, h2, by simpa [hnow] using h3, le_refl _, by simp [I128_MAX], by simp⟩
  · simp only [Vesting.step, bind_ok, ok_inj, loaded_ok] at h4
    obtain ⟨v, hv, ⟨v', L'⟩, hk, rfl⟩ := h4
    obtain ⟨-, y, m, k1, k2, k3, -⟩ := claim_inv hk
    simp only [schedule?, hv, Option.bind_some] at h2
    rw [h2] at k1; cases k1
    simp only [hnow] at k2 k3
    rw [h3, ok_inj] at k2
    omega

/-- **C33** After a claim at one time and any history without a successful claim of the
same schedule, the next successful claim pays exactly the decrease of the curve between
the two times. -/
theorem C33_increment {me : Addr} {s : Sys} (h0 : Genesis me s) (ts us : List Tx)
    (ht : ∀ t ∈ ts, Vesting.Spec.Possible me t) (hu : ∀ t ∈ us, Vesting.Spec.Possible me t)
    {c c' : Ctx} {a : Addr} {i : Nat} {s1 s2 : Sys} (hc : c.auth me = false) (hc' : c'.auth me = false)
    (h1 : Vesting.step me (Vesting.run me s ts) (.vest c (.claim a i)) = .ok s1)
    (hno : lastClaim me s1 a i none us = none)
    (h2 : Vesting.step me (Vesting.run me s1 us) (.vest c' (.claim a i)) = .ok s2) :
    ∃ x n1 n2, schedule? s1 a i = some x ∧ x.schedule.value c.now = .ok n1 ∧ x.schedule.value c'.now = .ok n2 ∧
      held s2 a - held (Vesting.run me s1 us) a = (n1 : Int) - n2 := by
  have hi1 := Vesting.step_inv h1 hc (Vesting.run_inv ts ht (Vesting.genesis_inv h0))
  obtain ⟨x, n, k1, k2, k3, -⟩ := step_claim h1 hc
  obtain ⟨m, j1, -, j3⟩ := sched_run us hi1 hu k2
  obtain ⟨y, n2, l1, l2, l3, l4, -, l6, -⟩ := step_claim h2 hc'
  rw [j1] at l1
  cases l1
  have := j3 hno
  simp only at this l3 l6
  exact ⟨_, n, n2, k2, k3, l3, by rw [l6, this]⟩

/-- account 1 claims at times 30 and 33; the curve falls by 8 -/
example : ∃ s1 s2, Vesting.step 100 (Vesting.run 100 vExStart (vExHist.take 3)) (.vest (vBy 1 30) (.claim 1 0)) = .ok s1 ∧
    lastClaim 100 s1 1 0 none ((vExHist.drop 4).take 3) = none ∧
    Vesting.step 100 (Vesting.run 100 s1 ((vExHist.drop 4).take 3)) (.vest (vBy 1 33) (.claim 1 0)) = .ok s2 := by
  obtain ⟨s1, h1, hP⟩ := exists_of_okAnd
    (x := Vesting.step 100 (Vesting.run 100 vExStart (vExHist.take 3)) (.vest (vBy 1 30) (.claim 1 0)))
    (P := fun s1 => (lastClaim 100 s1 1 0 none ((vExHist.drop 4).take 3) == none) &&
      okAnd (Vesting.step 100 (Vesting.run 100 s1 ((vExHist.drop 4).take 3)) (.vest (vBy 1 33) (.claim 1 0)))
        (fun _ => true)) (by decide +kernel)
  simp only [Bool.and_eq_true, beq_iff_eq] at hP
  obtain ⟨s2, h2, -⟩ := exists_of_okAnd hP.2
  exact ⟨s1, s2, h1, hP.1, h2⟩

/-! ### minting -/

theorem capacityOf_some {s : Sys} {v : State} (h : s.vest = some v) : capacityOf s = (capacity v : Int) := by
  simp only [capacityOf, h, Option.bind_some, capacity]
  cases v.minter <;> rfl

theorem createLoop_minter {v v' : State} {z T : Nat} {l : List (Addr × Curve)}
    (h : createLoop v z l = .ok (v', T)) : v'.minter = v.minter := by
  induction l generalizing v z with
  | nil => simp only [createLoop, ok_inj, Prod.mk.injEq] at h; rw [h.1]
  | cons p l ih =>
    obtain ⟨a, cu⟩ := p
    simp only [createLoop, bind_ok, req_ok] at h
    obtain ⟨n, _, _, _, v1, h1, T1, _, h⟩ := h
    obtain ⟨i, _, _, rfl⟩ := saveVesting_inv h1
    exact (ih h).trans rfl

/-- One transaction uses up exactly as much capacity as it mints (helper). -/
theorem exec_capacity {me : Addr} {s : Sys} {t : Tx} (hset : setsCapacity t = false) :
    mintedBy me s t + capacityOf (Vesting.exec me s t) = capacityOf s := by
  have key : ∀ s', Vesting.step me s t = .ok s' → (∀ c a y, t ≠ .vest c (.mint a y)) →
      capacityOf s' = capacityOf s := by
    intro s' h hnm
    cases t with
    | token c tok op =>
      simp only [Vesting.step, bind_ok, ok_inj] at h
      obtain ⟨L, hL, rfl⟩ := h
      rfl
    | vest c k =>
      cases k with
      | init a t m mi => simp [setsCapacity] at hset
      | updateCapacity a n => simp [setsCapacity] at hset
      | mint a y => exact absurd rfl (hnm c a y)
      | create l =>
        simp only [Vesting.step, bind_ok, ok_inj, loaded_ok] at h
        obtain ⟨v, hv, ⟨v', L'⟩, hk, rfl⟩ := h
        obtain ⟨h1, _, _, T, h4, -⟩ := create_inv hk
        have hm := createLoop_minter h4
        simp [capacityOf, hv, hm]
      | claim a i =>
        simp only [Vesting.step, bind_ok, ok_inj, loaded_ok] at h
        obtain ⟨v, hv, ⟨v', L'⟩, hk, rfl⟩ := h
        obtain ⟨h1, x, n, h2, h3, h4, rfl, -⟩ := claim_inv hk
        simp [capacityOf, hv, putInfo]
      | burn a n =>
        simp only [Vesting.step, bind_ok, ok_inj, loaded_ok] at h
        obtain ⟨v, hv, L', hk, rfl⟩ := h
        rfl
      | updateMinter a n =>
        simp only [Vesting.step, bind_ok, ok_inj, loaded_ok] at h
        obtain ⟨v, hv, v', hk, rfl⟩ := h
        obtain ⟨_, _, rfl⟩ := updateMinter_ok hk
        rw [capacityOf_some hv]
        simp [capacityOf]
  by_cases hm : ∃ c a y, t = .vest c (.mint a y)
  · obtain ⟨c, a, y, rfl⟩ := hm
    cases h : Vesting.step me s (.vest c (.mint a y)) with
    | error e =>
      have he : Vesting.exec me s (.vest c (.mint a y)) = s := by simp [Vesting.exec, h]
      simp [mintedBy, he]
    | ok s' =>
      have he : Vesting.exec me s (.vest c (.mint a y)) = s' := by simp [Vesting.exec, h]
      simp only [Vesting.step, bind_ok, ok_inj, loaded_ok] at h
      obtain ⟨v, hv, ⟨v', L'⟩, hk, rfl⟩ := h
      obtain ⟨h1, h2, m, h3, h4, h5, rfl, h6, h7⟩ := mint_inv hk
      simp only [mintedBy, he, held, token?, hv, Option.map_some, capacityOf, Option.bind_some, h3]
      show L'.bal v.token me - _ + _ = _
      rw [h6]
      simp only [and_self, if_true]
      omega
  · push Not at hm
    have h0 : mintedBy me s t = 0 := by
      unfold mintedBy
      split
      · rename_i c a y; exact absurd rfl (hm c a y)
      · rfl
    rw [h0, zero_add]
    unfold Vesting.exec
    split
    · rename_i s' h; exact key s' h hm
    · rfl

/-- **C34** Over any history in which nobody sets the capacity, the total minted through
the contract is exactly the capacity used up; so it is at most the capacity at the start,
however often the minter changes. -/
theorem C34_minted_bounded {me : Addr} {s : Sys} (ts : List Tx) (h : ∀ t ∈ ts, setsCapacity t = false) :
    minted me s ts = capacityOf s - capacityOf (Vesting.run me s ts) ∧ minted me s ts ≤ capacityOf s := by
  have key : ∀ (ts : List Tx) (s : Sys), (∀ t ∈ ts, setsCapacity t = false) →
      minted me s ts = capacityOf s - capacityOf (Vesting.run me s ts) := by
    intro ts
    induction ts with
    | nil => intro s _; simp [minted, Vesting.run]
    | cons t ts ih =>
      intro s h
      have h1 := exec_capacity (me := me) (s := s) (h t List.mem_cons_self)
      have h2 := ih (Vesting.exec me s t) (fun u hu => h u (List.mem_cons_of_mem _ hu))
      rw [Vesting.run_cons]
      simp only [minted]
      omega
  have hk := key ts s h
  refine ⟨hk, ?_⟩
  have : 0 ≤ capacityOf (Vesting.run me s ts) := by
    unfold capacityOf; split <;> omega
  omega

example : minted 100 (Vesting.run 100 vExStart (vExHist.take 1)) (vExHist.drop 1) = 70 ∧
    capacityOf (Vesting.run 100 vExStart (vExHist.take 1)) = 500 := by constructor <;> decide +kernel

/-- **C34** A successful `mint` is signed by the current minter, within their capacity,
and creates exactly the requested amount, all of it in the contract's own balance. -/
theorem C34_only_minter_mints {me : Addr} {s s' : Sys} {v : State} (hv : s.vest = some v) {c : Ctx} {a : Addr} {y : Int}
    (h : Vesting.step me s (.vest c (.mint a y)) = .ok s') :
    ∃ m, v.minter = some m ∧ a = m.address ∧ c.auth m.address = true ∧ 0 < y ∧ y ≤ m.capacity ∧
      Issues s.led s'.led v.token me y := by
  simp only [Vesting.step, bind_ok, ok_inj, loaded_ok] at h
  obtain ⟨w, hw, ⟨v', L'⟩, hk, rfl⟩ := h
  rw [hv] at hw; cases hw
  obtain ⟨h1, h2, m, h3, rfl, h5, rfl, h6, h7⟩ := mint_inv hk
  exact ⟨m, h3, rfl, h1, h2, h5, h6⟩

example : ∃ s', Vesting.step 100 (Vesting.run 100 vExStart (vExHist.take 4)) (.vest (vBy 6 31) (.mint 6 70)) = .ok s' := by
  obtain ⟨s', h, -⟩ := exists_of_okAnd
    (x := Vesting.step 100 (Vesting.run 100 vExStart (vExHist.take 4)) (.vest (vBy 6 31) (.mint 6 70)))
    (P := fun _ => true) (by decide +kernel)
  exact ⟨s', h⟩

/-- **C34** If a transaction changes who the minter is, the old minter signed it, or the
admin if there was none; if it raises the capacity, the admin signed it. -/
theorem C34_minter_changes_authorised {me : Addr} {g : Sys} (h0 : Genesis me g) (ts : List Tx)
    (ht : ∀ t ∈ ts, Vesting.Spec.Possible me t) {s' : Sys} {t : Tx} {v v' : State}
    (hv : (Vesting.run me g ts).vest = some v) (hv' : s'.vest = some v')
    (h : Vesting.step me (Vesting.run me g ts) t = .ok s') :
    (v'.minter.map Minter.address ≠ v.minter.map Minter.address →
      (∀ m, v.minter = some m → t.ctx.auth m.address = true) ∧ (v.minter = none → t.ctx.auth v.admin = true)) ∧
    (capacityOf (Vesting.run me g ts) < capacityOf s' → t.ctx.auth v.admin = true) := by
  have hs := Vesting.run_inv ts ht (Vesting.genesis_inv h0)
  generalize Vesting.run me g ts = s at *
  cases t with
  | token c tok op =>
    simp only [Vesting.step, bind_ok, ok_inj] at h
    obtain ⟨L, hL, rfl⟩ := h
    simp only at hv'
    rw [hv] at hv'; cases hv'
    exact ⟨fun h => absurd rfl h, fun h => absurd h (by simp [capacityOf, hv])⟩
  | vest c k =>
    cases k with
    | init a t m mi =>
      simp only [Vesting.step, bind_ok, ok_inj] at h
      obtain ⟨w, hi, rfl⟩ := h
      rw [hv] at hi
      exact absurd (init_ok hi).1 (by simp)
    | create l =>
      simp only [Vesting.step, bind_ok, ok_inj, loaded_ok] at h
      obtain ⟨w, hw, ⟨v1, L'⟩, hk, rfl⟩ := h
      rw [hv] at hw; cases hw
      cases hv'
      obtain ⟨h1, _, _, T, h4, -⟩ := create_inv hk
      have hm := (createLoop_inv (hs.st v hv) h4).2.2.2.2.1
      exact ⟨fun h => absurd (by rw [hm]) h, fun _ => h1⟩
    | claim a i =>
      simp only [Vesting.step, bind_ok, ok_inj, loaded_ok] at h
      obtain ⟨w, hw, ⟨v1, L'⟩, hk, rfl⟩ := h
      rw [hv] at hw; cases hw
      cases hv'
      obtain ⟨h1, x, n, h2, h3, h4, rfl, -⟩ := claim_inv hk
      exact ⟨fun h => absurd rfl h, fun h => absurd h (by simp [capacityOf, hv, putInfo])⟩
    | burn a n =>
      simp only [Vesting.step, bind_ok, ok_inj, loaded_ok] at h
      obtain ⟨w, hw, L', hk, rfl⟩ := h
      simp only at hv'
      rw [hv] at hv'; cases hv'
      exact ⟨fun h => absurd rfl h, fun h => absurd h (by simp [capacityOf, hv])⟩
    | mint a y =>
      simp only [Vesting.step, bind_ok, ok_inj, loaded_ok] at h
      obtain ⟨w, hw, ⟨v1, L'⟩, hk, rfl⟩ := h
      rw [hv] at hw; cases hw
      cases hv'
      obtain ⟨h1, h2, m, h3, rfl, h5, rfl, h6, h7⟩ := mint_inv hk
      refine ⟨fun h => absurd (by simp [h3]) h, fun h => ?_⟩
      simp only [capacityOf, hv, Option.bind_some, h3] at h
      omega
    | updateMinter a n =>
      simp only [Vesting.step, bind_ok, ok_inj, loaded_ok] at h
      obtain ⟨w, hw, v1, hk, rfl⟩ := h
      rw [hv] at hw; cases hw
      cases hv'
      obtain ⟨h1, h2, rfl⟩ := updateMinter_ok hk
      refine ⟨fun _ => ⟨fun m hm => ?_, fun hm => ?_⟩, fun h => ?_⟩
      · simp only [minterOwner, hm] at h2; rw [← h2]; exact h1
      · simp only [minterOwner, hm] at h2; rw [← h2]; exact h1
      · rw [capacityOf_some hv] at h
        simp [capacityOf] at h
    | updateCapacity a n =>
      simp only [Vesting.step, bind_ok, ok_inj, loaded_ok] at h
      obtain ⟨w, hw, v1, hk, rfl⟩ := h
      rw [hv] at hw; cases hw
      cases hv'
      obtain ⟨h1, h2, m, h3, rfl⟩ := updateCapacity_ok hk
      exact ⟨fun h => absurd (by simp [h3]) h, fun _ => by rw [← h2]; exact h1⟩

/-- minter 6 hands over to 5; admin 8 raises the capacity; account 1 can do neither -/
example :
    (Vesting.run 100 vExStart (vExHist ++ [.vest (vBy 6 40) (.updateMinter 6 5), .vest (vBy 8 41) (.updateCapacity 8 900),
      .vest (vBy 1 41) (.updateCapacity 1 9000), .vest (vBy 1 41) (.updateMinter 1 1)])).vest.map State.minter
      = some (some ⟨5, 900⟩) := by decide +kernel

/-! ### further properties -/

/-- **C60** Over any further history, the contract's token balance minus everything it
owes never decreases: whatever was minted into it, or sent to it, beyond what it owes
stays there.  `K` is any finite set containing all schedules. -/
theorem C60_surplus_never_leaves {me : Addr} {s : Sys} (h0 : Genesis me s) (ts us : List Tx)
    (ht : ∀ t ∈ ts, Vesting.Spec.Possible me t) (hu : ∀ t ∈ us, Vesting.Spec.Possible me t)
    (hi : (Vesting.run me s ts).vest ≠ none) (K : Finset (Addr × Nat))
    (hK : ∀ a i, (a, i) ∉ K → schedule? (Vesting.run me s (ts ++ us)) a i = none) :
    held (Vesting.run me s ts) me - owed (Vesting.run me s ts) K ≤
      held (Vesting.run me s (ts ++ us)) me - owed (Vesting.run me s (ts ++ us)) K := by
  have hinv := Vesting.run_inv ts ht (Vesting.genesis_inv h0)
  rw [Vesting.run_append] at hK ⊢
  generalize Vesting.run me s ts = S at *
  clear h0 ht
  induction us generalizing S with
  | nil => exact le_refl _
  | cons t us ih =>
    have h1 := hu t List.mem_cons_self
    have hu' := fun u h => hu u (List.mem_cons_of_mem _ h)
    have hinv' := Vesting.exec_inv h1 hinv
    rw [Vesting.run_cons] at hK ⊢
    cases hv : S.vest with
    | none => exact absurd hv hi
    | some v =>
      cases h : Vesting.step me S t with
      | error e =>
        have he : Vesting.exec me S t = S := by simp [Vesting.exec, h]
        rw [he] at hK ⊢
        exact ih hu' S hi hK hinv
      | ok s' =>
        have he : Vesting.exec me S t = s' := by simp [Vesting.exec, h]
        rw [he] at hK hinv' ⊢
        obtain ⟨v', e⟩ := step_eff h h1 hinv hv
        have h2 := ih hu' s' (by rw [e.vest']; simp) hK hinv'
        have h3 := e.surplus K (fun a i hn => by
          have := hK a i hn
          cases hx : v'.sched a i with
          | none => rfl
          | some x =>
            obtain ⟨n, hn, -⟩ := sched_run us hinv' hu' (a := a) (i := i) (x := x) (by simp [schedule?, e.vest', hx])
            rw [hn] at this; simp at this)
        rw [owed_some hv]
        rw [owed_some e.vest'] at h2
        simp only [held, token?, hv, e.vest', Option.map_some, e.token] at h2 ⊢
        omega

/-- 70 minted: surplus 70 from then on -/
example : held (Vesting.run 100 vExStart vExHist) 100 - owed (Vesting.run 100 vExStart vExHist) {(1, 0), (1, 1), (2, 0)} = 70 ∧
    held (Vesting.run 100 vExStart (vExHist.take 4)) 100 -
      owed (Vesting.run 100 vExStart (vExHist.take 4)) {(1, 0), (1, 1), (2, 0)} = 0 := by
  constructor <;> decide +kernel

/-- the complexity of a schedule is the number of its points (helper) -/
theorem size_points (k : Curve) : k.size = (stepsOf k).length := by cases k <;> rfl

/-- The loop over the requested schedules does not fail (helper). -/
theorem createLoop_succeeds {v : State} (hv : StInv v) (l : List (Addr × Curve)) (amt : Addr × Curve → Nat) (T : Nat)
    (h : ∀ p ∈ l, Vests p.2 (amt p) ∧ (stepsOf p.2).length < v.maxComplexity) (hT : T + (l.map amt).sum < U128_LIM) :
    ∃ v', createLoop v T l = .ok (v', T + (l.map amt).sum) := by
  induction l generalizing v T with
  | nil => exact ⟨v, by simp [createLoop]⟩
  | cons p l ih =>
    obtain ⟨a, c⟩ := p
    obtain ⟨h1, h2⟩ := h (a, c) List.mem_cons_self
    simp only at h1 h2
    obtain ⟨k, hk⟩ := firstFree_total (f := v.sched a) v.entries 0 (hv.fresh a _ (by omega))
    have hsave : saveVesting v a ⟨amt (a, c), a, c⟩ =
        .ok { putInfo v a k ⟨amt (a, c), a, c⟩ with entries := v.entries + 1 } := by
      unfold saveVesting; rw [hk]; rfl
    simp only [List.map_cons, List.sum_cons] at hT
    obtain ⟨v', hv'⟩ := ih (saveVesting_stInv hv h1 hsave) (T := T + amt (a, c))
      (fun p hp => h p (List.mem_cons_of_mem _ hp)) (by omega)
    refine ⟨v', ?_⟩
    simp only [createLoop, bind_ok, List.map_cons, List.sum_cons]
    exact ⟨_, validateSchedule_ok.mpr h1, (), req_ok.mpr (by rw [size_points]; omega), _, hsave, T + amt (a, c),
      add128_ok.mpr ⟨by omega, rfl⟩, by rw [← Nat.add_assoc]; exact hv'⟩

theorem checkDup_ok {seen : List Addr} {l : List (Addr × Curve)} (h : (seen ++ l.map Prod.fst).Nodup) :
    checkDup seen l = .ok () := by
  induction l generalizing seen with
  | nil => rfl
  | cons p l ih =>
    obtain ⟨a, c⟩ := p
    simp only [checkDup, bind_ok, req_ok]
    refine ⟨(), ?_, ih (by simpa using h)⟩
    intro ha
    rw [List.nodup_append] at h
    exact h.2.2 a ha a (by simp) rfl

/-- **C61** In every reachable state the admin can create any non-empty list of schedules
for pairwise different accounts whose curves are non-constant, valid, non-increasing, end
at zero and have fewer steps than the limit, provided they hold the total: the call
succeeds.  (Balances must stay below `i128::MAX`.) -/
theorem C61_valid_schedules_accepted {me : Addr} {s : Sys} (h0 : Genesis me s) (ts : List Tx)
    (ht : ∀ t ∈ ts, Vesting.Spec.Possible me t) {v : State} (hv : (Vesting.run me s ts).vest = some v) {c : Ctx}
    (hc' : c.signed v.admin = true) (hme : c.auth me = false) {l : List (Addr × Curve)} (hne : l ≠ [])
    (hd : (l.map Prod.fst).Nodup) (amt : Addr × Curve → Nat)
    (hl : ∀ p ∈ l, Vests p.2 (amt p) ∧ (stepsOf p.2).length < v.maxComplexity)
    (hbal : (((l.map amt).sum : Nat) : Int) ≤ held (Vesting.run me s ts) v.admin)
    (hfit : held (Vesting.run me s ts) v.admin ≤ I128_MAX ∧
      held (Vesting.run me s ts) me + ((l.map amt).sum : Nat) ≤ I128_MAX) :
    ∃ s', Vesting.step me (Vesting.run me s ts) (.vest c (.create l)) = .ok s' := by
  have hinv := Vesting.run_inv ts ht (Vesting.genesis_inv h0)
  have hc := auth_of_signed hc'
  generalize Vesting.run me s ts = S at *
  simp only [held, token?, hv, Option.map_some] at hbal hfit
  have hmax : (((l.map amt).sum : Nat) : Int) ≤ I128_MAX := by omega
  obtain ⟨v', hv'⟩ := createLoop_succeeds (hinv.st v hv) l amt 0 hl (by
    simp only [I128_MAX] at hmax; simp only [U128_LIM]; omega)
  rw [Nat.zero_add] at hv'
  have hne' : me ≠ v.admin := by intro e; rw [e, hc] at hme; simp at hme
  obtain ⟨L', hL⟩ := transfer_succeeds (c := c.as me) (L := S.led) (t := v.token) (src := v.admin) (d := me)
    (x := (((l.map amt).sum : Nat) : Int)) (as_auth.mpr (.inl hc')) (by omega) hbal hfit.1 hne'
    (hinv.led.nonneg _ _) hfit.2
  refine ⟨⟨some v', L'⟩, ?_⟩
  simp only [Vesting.step, bind_ok, loaded_ok]
  refine ⟨v, hv, (v', L'), ?_, rfl⟩
  unfold create
  simp only [bind_ok]
  exact ⟨(), requireAuth_ok.mpr hc, (), req_ok.mpr hne, (), checkDup_ok (by simpa using hd), _, hv', _,
    toI128_ok.mpr ⟨hmax, rfl⟩, (), req_ok.mpr (by omega), L', hL, rfl⟩

/-- the two curves of the example qualify -/
example : Vests vExSl 120 ∧ Vests vExPl 300 :=
  ⟨validateSchedule_ok.mp (by decide +kernel), validateSchedule_ok.mp (by decide +kernel)⟩

theorem allVestings_get {f : Nat → Option Info} {n k : Nat} (hn : f (k + n) = none)
    (hd : ∀ i j, i ≤ j → f i = none → f j = none) (i : Nat) : (allVestings f k (n + 1))[i]? = f (k + i) := by
  induction n generalizing k i with
  | zero =>
    simp only [Nat.add_zero] at hn
    simp [allVestings, hn, hd k (k + i) (by omega) hn]
  | succ n ih =>
    unfold allVestings
    split
    · rename_i hk
      simp [hd k (k + i) (by omega) hk]
    · rename_i x hk
      cases i with
      | zero => simp [hk]
      | succ i =>
        rw [List.getElem?_cons_succ, ih (k := k + 1) (by rw [← hn]; congr 1; omega)]
        congr 1; omega

/-- **C62** In every reachable state `query_all_vesting_info` lists all schedules of the
account: its entry number `i` is the schedule number `i`, and there is no other. -/
theorem C62_query_all_complete {me : Addr} {s : Sys} (h0 : Genesis me s) (ts : List Tx)
    (ht : ∀ t ∈ ts, Vesting.Spec.Possible me t) {v : State} (hv : (Vesting.run me s ts).vest = some v) (a : Addr) (i : Nat) :
    (queryAll v a)[i]? = schedule? (Vesting.run me s ts) a i := by
  have hst := (Vesting.run_inv ts ht (Vesting.genesis_inv h0)).st v hv
  unfold queryAll
  rw [allVestings_get (by rw [Nat.zero_add]; exact hst.fresh a _ (le_refl _)) (fun i j => hst.dense a i j)]
  simp [schedule?, hv]

example : ((Vesting.run 100 vExStart vExHist).vest.map (fun v => (queryAll v 1).map Info.balance)) = some [72, 300] := by
  decide +kernel

/-- **C63** If a vesting call lowers anybody's balance of any token, then either that
account signed the call, or it is the contract itself paying a claim. -/
theorem C63_no_unauthorised_movement {me : Addr} {s s' : Sys} {c : Ctx} {k : Call} {tok a : Addr}
    (h : Vesting.step me s (.vest c k) = .ok s') (hloss : s'.led.bal tok a < s.led.bal tok a) :
    c.auth a = true ∨ (a = me ∧ (∃ b i, k = .claim b i) ∧ token? s = some tok) := by
  cases k with
  | init b t m mi =>
    simp only [Vesting.step, bind_ok, ok_inj] at h
    obtain ⟨w, hi, rfl⟩ := h
    simp at hloss
  | create l =>
    simp only [Vesting.step, bind_ok, ok_inj, loaded_ok] at h
    obtain ⟨v, hv, ⟨v', L'⟩, hk, rfl⟩ := h
    obtain ⟨h1, _, _, T, h4, h5, h6, h7, h8⟩ := create_inv hk
    left
    by_contra hno
    have hne : v.admin ≠ a := by rintro rfl; exact hno h1
    simp only at hloss
    rw [h7] at hloss
    simp only [Flow.delta, List.map_cons, List.map_nil, List.sum_cons, List.sum_nil, hne, and_false, if_false] at hloss
    split at hloss <;> omega
  | claim b i =>
    simp only [Vesting.step, bind_ok, ok_inj, loaded_ok] at h
    obtain ⟨v, hv, ⟨v', L'⟩, hk, rfl⟩ := h
    obtain ⟨h1, x, n, h2, h3, h4, rfl, h5, h6, h7⟩ := claim_inv hk
    right
    simp only at hloss
    rw [h6] at hloss
    simp only [Flow.delta, List.map_cons, List.map_nil, List.sum_cons, List.sum_nil] at hloss
    by_cases e : v.token = tok ∧ me = a
    · exact ⟨e.2.symm, ⟨b, i, rfl⟩, by simp [token?, hv, e.1]⟩
    · rw [if_neg e] at hloss; split at hloss <;> omega
  | burn b n =>
    simp only [Vesting.step, bind_ok, ok_inj, loaded_ok] at h
    obtain ⟨v, hv, L', hk, rfl⟩ := h
    unfold Vesting.burn at hk
    simp only [bind_ok, requireAuth_ok, req_ok] at hk
    obtain ⟨_, h1, _, _, hk⟩ := hk
    obtain ⟨_, h2, h3, h4, h5⟩ := Ledger.burn_inv hk
    left
    simp only at hloss
    rw [h4] at hloss
    split at hloss
    · rename_i e; rw [← e.2]; exact h1
    · omega
  | mint b y =>
    simp only [Vesting.step, bind_ok, ok_inj, loaded_ok] at h
    obtain ⟨v, hv, ⟨v', L'⟩, hk, rfl⟩ := h
    obtain ⟨h1, h2, m, h3, h4, h5, rfl, h6, h7⟩ := mint_inv hk
    simp only at hloss
    rw [h6] at hloss
    split at hloss <;> omega
  | updateMinter b n =>
    simp only [Vesting.step, bind_ok, ok_inj, loaded_ok] at h
    obtain ⟨v, hv, v', hk, rfl⟩ := h
    simp at hloss
  | updateCapacity b n =>
    simp only [Vesting.step, bind_ok, ok_inj, loaded_ok] at h
    obtain ⟨v, hv, v', hk, rfl⟩ := h
    simp at hloss

/-- **C64** Once initialised the contract stays initialised with the same admin, token and
complexity limit over any further history, and a second initialisation fails. -/
theorem C64_setup_permanent {me : Addr} {s : Sys} (h0 : Genesis me s) (ts us : List Tx)
    (ht : ∀ t ∈ ts, Vesting.Spec.Possible me t) (hu : ∀ t ∈ us, Vesting.Spec.Possible me t) {v : State}
    (hv : (Vesting.run me s ts).vest = some v) :
    (∃ v', (Vesting.run me s (ts ++ us)).vest = some v' ∧ v'.admin = v.admin ∧ v'.token = v.token ∧
      v'.maxComplexity = v.maxComplexity) ∧
    ∀ c a t m mi, Vesting.step me (Vesting.run me s ts) (.vest c (.init a t m mi)) = .error (.code 31) := by
  have hinv := Vesting.run_inv ts ht (Vesting.genesis_inv h0)
  rw [Vesting.run_append]
  generalize Vesting.run me s ts = S at *
  clear h0 ht
  constructor
  · induction us generalizing S v with
    | nil => exact ⟨v, hv, rfl, rfl, rfl⟩
    | cons t us ih =>
      have h1 := hu t List.mem_cons_self
      have hu' := fun u h => hu u (List.mem_cons_of_mem _ h)
      have hinv' := Vesting.exec_inv h1 hinv
      rw [Vesting.run_cons]
      cases h : Vesting.step me S t with
      | error e =>
        have he : Vesting.exec me S t = S := by simp [Vesting.exec, h]
        rw [he]
        exact ih hu' S hv hinv
      | ok s' =>
        have he : Vesting.exec me S t = s' := by simp [Vesting.exec, h]
        rw [he] at hinv' ⊢
        obtain ⟨v', e⟩ := step_eff h h1 hinv hv
        obtain ⟨w, k1, k2, k3, k4⟩ := ih hu' s' e.vest' hinv'
        exact ⟨w, k1, k2.trans e.admin, k3.trans e.token, k4.trans e.maxC⟩
  · intro c a t m mi
    simp only [Vesting.step, Vesting.init, hv]
    rfl

/-- **C64** Initialisation itself is unprotected: a transaction signed by nobody makes
any address the admin. -/
theorem C64_anyone_initialises {me : Addr} {s : Sys} (h0 : Genesis me s) (c : Ctx) (_hc : ∀ a, c.auth a = false)
    (attacker token : Addr) (m : Nat) :
    ∃ s' v, Vesting.step me s (.vest c (.init attacker token m none)) = .ok s' ∧ s'.vest = some v ∧ v.admin = attacker := by
  refine ⟨⟨some ⟨attacker, token, m, none, fun _ _ => none, 0⟩, s.led⟩, _, ?_, rfl, rfl⟩
  simp only [Vesting.step, Vesting.init, h0.1]
  rfl

/-- The hypotheses of C63 and C64 are met: admin 8 signs and pays 420 into two schedules, the contract pays a claim of account 1,
and the setup after the third transaction is still there at the end of the history. -/
example : (∃ s', Vesting.step 100 (Vesting.run 100 vExStart (vExHist.take 1)) (.vest (vBy 8 2) (.create [(1, vExSl), (2, vExPl)])) = .ok s' ∧
      s'.led.bal 30 8 < (Vesting.run 100 vExStart (vExHist.take 1)).led.bal 30 8) ∧
    (∃ s', Vesting.step 100 (Vesting.run 100 vExStart (vExHist.take 3)) (.vest (vBy 1 30) (.claim 1 0)) = .ok s' ∧
      s'.led.bal 30 100 < (Vesting.run 100 vExStart (vExHist.take 3)).led.bal 30 100) ∧
    ((Vesting.run 100 vExStart (vExHist.take 3)).vest.map (fun v => (v.admin, v.token, v.maxComplexity)) = some (8, 30, 10) ∧
      (Vesting.run 100 vExStart vExHist).vest.map (fun v => (v.admin, v.token, v.maxComplexity)) = some (8, 30, 10)) := by
  have lt : ∀ {x : Res Sys} {t a : Addr} {y : Int}, okAnd x (fun s' => decide (s'.led.bal t a < y)) = true → ∃ s', x = .ok s' ∧ s'.led.bal t a < y := by
    intro x t a y h
    obtain ⟨s', h1, h2⟩ := exists_of_okAnd h
    exact ⟨s', h1, by simpa using h2⟩
  refine ⟨lt ?_, lt ?_, ?_, ?_⟩ <;> decide +kernel

end Phoenix.Props
