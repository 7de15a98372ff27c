import Verif.Lemmas.StakeLive
/-!
Property theorems about the stake contract: C35 - C42, C65 and C66.
A history is any list of transactions by anybody: calls of the contract (failed ones
leave no trace) interleaved with calls of any token contract.
-/
namespace Phoenix.Props
open Phoenix Stake Stake.Spec
open Phoenix.Spec (Settles SameRights Flow NoAllowance)

/-! A concrete history: accounts 1 and 2 stake token 30 in contract 100, manager 7
distributes token 40. -/

/-- accounts 1, 2 and 7 hold 5000 of every token -/
def sExStart : Sys :=
  { st := fresh
    led := fun _ => { admin := 6, decimals := 7, bal := fun a => if a = 1 ∨ a = 2 ∨ a = 7 then 5000 else 0,
                      allow := fun _ _ => ⟨0, 0⟩ } }
/-- signed by `a` at time `now` -/
def sBy (a : Addr) (now : Nat) : Ctx := { now := now, seq := 0, signed := fun x => x == a }
/-- the time of day `n` -/
def sDay (n : Nat) : Nat := n * 86400
/-- the history -/
def sExHist : List Tx :=
  [ .stake (sBy 9 0) (.init 9 30 10 1 7 9 5),
    .stake (sBy 7 1) (.createFlow 7 40),
    .stake (sBy 1 (sDay 10)) (.bond 1 300),
    .stake (sBy 2 (sDay 40)) (.bond 2 100),
    .stake (sBy 7 (sDay 70)) (.distribute 7 4000 40),
    .stake (sBy 3 (sDay 71)) (.withdraw 1),
    .stake (sBy 7 (sDay 75)) (.distribute 7 300 40),
    .stake (sBy 2 (sDay 76)) (.bond 2 50),
    .stake (sBy 1 (sDay 77)) (.unbond 1 300 (sDay 10)),
    .stake (sBy 1 (sDay 78)) (.bond 1 20) ]

theorem sExStart_genesis : Genesis 100 sExStart := by
  refine ⟨rfl, fun t a => ?_, fun t sp => le_refl _⟩
  show (0:Int) ≤ if a = 1 ∨ a = 2 ∨ a = 7 then 5000 else 0
  split <;> decide
theorem sExHist_possible : ∀ t ∈ sExHist, Stake.Spec.Possible 100 t := by
  intro t ht
  simp only [sExHist, List.mem_cons, List.not_mem_nil, or_false] at ht
  rcases ht with rfl | rfl | rfl | rfl | rfl | rfl | rfl | rfl | rfl | rfl <;> rfl
theorem sExHist_ordered : TimeOrdered 0 sExHist := by
  simp [TimeOrdered, sExHist, Tx.ctx, sBy, sDay]
theorem sExHist_wellTimed : WellTimed 100 sExStart sExHist := by
  refine ⟨sExHist_ordered, ?_⟩
  refine ⟨?_, ?_, ?_, ?_, ?_, ?_, ?_, ?_, ?_, ?_, trivial⟩ <;> decide +kernel
/-- user 1 got 3000 of 4000 for 300 of 400 staked for 60 days -/
theorem sExHist_result :
    (Stake.run 100 sExStart sExHist).led.bal 40 1 = 8000 ∧ (Stake.run 100 sExStart sExHist).st.total = 170 ∧
    (Stake.run 100 sExStart sExHist).led.bal 30 100 = 170 ∧ (Stake.run 100 sExStart sExHist).led.bal 40 100 = 1300 := by
  decide +kernel

/-! ### C35 -/

/-- **C35** As long as the staked token is not itself a reward token, the contract holds at
least the reported total staked. -/
theorem C35_principal_backed {me : Addr} {s : Sys} (h0 : Genesis me s) (ts : List Tx)
    (ht : ∀ t ∈ ts, Stake.Spec.Possible me t) {lp : Addr} (hlp : lp? (Stake.run me s ts) = some lp)
    (hr : lp ∉ (Stake.run me s ts).st.dists) {T : Int} (hT : queryTotal (Stake.run me s ts).st = .ok T) :
    T ≤ (Stake.run me s ts).led.bal lp me := by
  unfold lp? at hlp
  obtain ⟨cfg, hc, rfl⟩ := Option.map_eq_some_iff.mp hlp
  unfold queryTotal at hT
  simp only [bind_ok, getConfig_ok, ok_inj] at hT
  obtain ⟨_, _, rfl⟩ := hT
  exact (run_invA ts ht (genesis_invA h0)).lp cfg hc hr

/-- **C35** The reported total staked is the sum of all stakes of all accounts, and each
account's reported total is the sum of its own stakes, all of them positive. -/
theorem C35_total_is_sum {me : Addr} {s : Sys} (h0 : Genesis me s) (ts : List Tx)
    (ht : ∀ t ∈ ts, Stake.Spec.Possible me t) :
    (∃ U : Finset Addr, (∀ a, a ∉ U → stakesOf (Stake.run me s ts) a = []) ∧
      (Stake.run me s ts).st.total = ∑ a ∈ U, stakedBy (Stake.run me s ts) a) ∧
    (∀ a, (queryStaked (Stake.run me s ts).st a).total = stakedBy (Stake.run me s ts) a) ∧
    (∀ a, ∀ e ∈ stakesOf (Stake.run me s ts) a, 0 < e.amount) := by
  have hi := run_invA ts ht (genesis_invA h0)
  obtain ⟨U, u1, u2⟩ := hi.users
  refine ⟨⟨U, u1, ?_⟩, hi.sum, hi.pos⟩
  rw [← u2]
  exact Finset.sum_congr rfl (fun a _ => hi.sum a)

/-- **C35** With ordered time and distinct distribution times the principal is backed even
if the staked token is also a reward token. -/
theorem C35_principal_backed_always {me : Addr} {s : Sys} (h0 : Genesis me s) (ts : List Tx)
    (ht : ∀ t ∈ ts, Stake.Spec.Possible me t) (hw : WellTimed me s ts) {lp : Addr}
    (hlp : lp? (Stake.run me s ts) = some lp) :
    (Stake.run me s ts).st.total ≤ (Stake.run me s ts).led.bal lp me := by
  unfold lp? at hlp
  obtain ⟨cfg, hc, rfl⟩ := Option.map_eq_some_iff.mp hlp
  obtain ⟨⟨n', seen', hB, -⟩, -⟩ := run_B ts ht (genesis_invA h0) (genesis_B h0) hw.ordered hw.distinct
  have h1 := hB.backed cfg.lpToken ∅
  have h2 : 0 ≤ Phi (Stake.run me s ts).st cfg.lpToken ∅ := by
    unfold Phi
    split
    · apply List.sum_nonneg
      intro z hz
      obtain ⟨p, _, rfl⟩ := List.mem_map.mp hz
      unfold term
      split <;> simp
    · exact le_refl _
  simp only [principal, hc, if_true] at h1
  omega

example : lp? (Stake.run 100 sExStart sExHist) = some 30 ∧ 30 ∉ (Stake.run 100 sExStart sExHist).st.dists ∧
    queryTotal (Stake.run 100 sExStart sExHist).st = .ok 170 ∧ stakedBy (Stake.run 100 sExStart sExHist) 2 = 150 ∧
    stakesOf (Stake.run 100 sExStart sExHist) 1 = [⟨20, sDay 78⟩] := by decide +kernel

/-! ### C36 -/

theorem removeStake_erase {x : Int} {ts : Nat} {l l' : List Entry} (h : removeStake x ts l = .ok l') :
    ⟨x, ts⟩ ∈ l ∧ l' = l.erase ⟨x, ts⟩ := by
  obtain ⟨p, q, rfl, rfl, hp⟩ := removeStake_ok h
  refine ⟨by simp, ?_⟩
  rw [List.erase_append_right _ hp]; simp

/-- **C36** A successful `unbond` was authorised by the account, there was a stake with
that amount and timestamp, exactly one such entry is removed, the account is paid exactly
that amount by the contract, and nobody else's stakes change. -/
theorem C36_unbond_exact {me : Addr} {s s' : Sys} {c : Ctx} {a : Addr} {x : Int} {ts : Nat}
    (h : Stake.step me s (.stake c (.unbond a x ts)) = .ok s') :
    c.auth a = true ∧ ⟨x, ts⟩ ∈ stakesOf s a ∧ stakesOf s' a = (stakesOf s a).erase ⟨x, ts⟩ ∧
    (∀ b, b ≠ a → queryStaked s'.st b = queryStaked s.st b) ∧ s'.st.total = s.st.total - x ∧
    ∃ lp, lp? s = some lp ∧ Settles s.led s'.led [⟨lp, me, a, x⟩] ∧ SameRights s.led s'.led := by
  simp only [Stake.step, bind_ok, ok_inj] at h
  obtain ⟨⟨v, L⟩, hb, rfl⟩ := h
  have hb' := hb
  obtain ⟨h1, cfg, p, q, h2, h3, h4, h5, h6, rfl, h7, h8⟩ := unbond_inv hb
  refine ⟨h1, ?_, ?_, fun b hb => ?_, rfl, cfg.lpToken, by simp [lp?, h2], h7, h8⟩
  · simp only [stakesOf, queryStaked, h3]; simp
  · simp only [stakesOf, queryStaked, upd_same, h3]
    rw [List.erase_append_right _ h4]; simp
  · simp only [queryStaked, upd_ne _ _ hb]

/-- **C36** Without a matching stake `unbond` fails. -/
theorem C36_no_stake_fails {me : Addr} {s : Sys} {c : Ctx} {a : Addr} {x : Int} {ts : Nat}
    (h : ⟨x, ts⟩ ∉ stakesOf s a) (s' : Sys) : Stake.step me s (.stake c (.unbond a x ts)) ≠ .ok s' :=
  fun hk => h (C36_unbond_exact hk).2.1

theorem unbond_works {me : Addr} {r : Sys} (hi : InvA me r) {lp : Addr} (hlp : lp? r = some lp)
    (h3 : r.st.total ≤ r.led.bal lp me) {a : Addr} {x : Int} {tm : Nat}
    (hm : ⟨x, tm⟩ ∈ stakesOf r a) {c : Ctx} (hc : c.auth a = true)
    (hb : r.led.bal lp a + x ≤ I128_MAX) (hb2 : r.led.bal lp me ≤ I128_MAX) :
    ∃ s', Stake.step me r (.stake c (.unbond a x tm)) = .ok s' := by
  obtain ⟨cfg, hcfg, rfl⟩ := Option.map_eq_some_iff.mp hlp
  obtain ⟨l, hl⟩ := removeStake_mem hm
  have hx := hi.pos a _ hm
  have h1 := hi.mem_le hm
  have h2 := hi.one_le a
  have h4 := hi.small
  have h5 := hi.nonneg
  have h6 := hi.total_nonneg a
  simp only at hx h1
  have hne : a ≠ me := by
    rintro rfl
    have := hi.meNone
    simp only [stakesOf, queryStaked, this] at hm; simp at hm
  obtain ⟨L, hL⟩ := transfer_works (c := c.as me) (L := r.led) (t := cfg.lpToken) (as_auth_self c me) hx.le (by omega) hb2
    hne (hi.led.nonneg _ _) hb
  refine ⟨⟨{ r.st with info := upd r.st.info a { r.st.info a with stakes := l, total := (r.st.info a).total - x },
                       total := r.st.total - x }, L⟩, ?_⟩
  simp only [Stake.step, unbond, bind_ok, ok_inj]
  refine ⟨(_, L), ⟨(), requireAuth_ok.mpr hc, cfg, getConfig_ok.mpr hcfg, l, hl, _, subI_ok.mpr ⟨?_, rfl⟩, L, hL, _,
    subI_ok.mpr ⟨?_, rfl⟩, rfl⟩, rfl⟩
  · simp only [InI128, I128_MIN]; constructor <;> omega
  · simp only [InI128, I128_MIN]; constructor <;> omega

/-- **C36** In every reachable state every recorded stake can be taken back by its owner
(the staked token not being a reward token).  Only balances above `i128::MAX`, which need
a supply above it, could stop it. -/
theorem C36_unbond_succeeds {me : Addr} {s : Sys} (h0 : Genesis me s) (ts : List Tx)
    (ht : ∀ t ∈ ts, Stake.Spec.Possible me t) {lp : Addr} (hlp : lp? (Stake.run me s ts) = some lp)
    (hr : lp ∉ (Stake.run me s ts).st.dists) {a : Addr} {x : Int} {tm : Nat}
    (hm : ⟨x, tm⟩ ∈ stakesOf (Stake.run me s ts) a) {c : Ctx} (hc : c.auth a = true)
    (hb : (Stake.run me s ts).led.bal lp a + x ≤ I128_MAX) (hb2 : (Stake.run me s ts).led.bal lp me ≤ I128_MAX) :
    ∃ s', Stake.step me (Stake.run me s ts) (.stake c (.unbond a x tm)) = .ok s' := by
  have hi := run_invA ts ht (genesis_invA h0)
  obtain ⟨cfg, hcfg, rfl⟩ := Option.map_eq_some_iff.mp hlp
  exact unbond_works hi hlp (hi.lp cfg hcfg hr) hm hc hb hb2

/-- **C36** The same in well-timed histories, even if the staked token is a reward token. -/
theorem C36_unbond_succeeds_always {me : Addr} {s : Sys} (h0 : Genesis me s) (ts : List Tx)
    (ht : ∀ t ∈ ts, Stake.Spec.Possible me t) (hw : WellTimed me s ts) {lp : Addr}
    (hlp : lp? (Stake.run me s ts) = some lp) {a : Addr} {x : Int} {tm : Nat}
    (hm : ⟨x, tm⟩ ∈ stakesOf (Stake.run me s ts) a) {c : Ctx} (hc : c.auth a = true)
    (hb : (Stake.run me s ts).led.bal lp a + x ≤ I128_MAX) (hb2 : (Stake.run me s ts).led.bal lp me ≤ I128_MAX) :
    ∃ s', Stake.step me (Stake.run me s ts) (.stake c (.unbond a x tm)) = .ok s' :=
  unbond_works (run_invA ts ht (genesis_invA h0)) hlp (C35_principal_backed_always h0 ts ht hw hlp) hm hc hb hb2

/-- **C36** Stakes of an account change only in transactions authorised by it. -/
theorem C36_only_owner {me : Addr} {s s' : Sys} {t : Tx} {a : Addr} (h : Stake.step me s t = .ok s')
    (hd : stakesOf s' a ≠ stakesOf s a) : t.ctx.auth a = true := by
  by_contra hna
  apply hd
  cases t with
  | token c tok op =>
    simp only [Stake.step, bind_ok, ok_inj] at h
    obtain ⟨L, hL, rfl⟩ := h
    rfl
  | stake c k =>
    simp only [Stake.Tx.ctx] at hna
    cases k with
    | init b lp mb mr m o mc =>
      simp only [Stake.step, bind_ok, ok_inj] at h
      obtain ⟨v, hi, rfl⟩ := h
      obtain ⟨_, _, _, _, rfl⟩ := Stake.init_inv hi
      rfl
    | bond b x =>
      simp only [Stake.step, bind_ok, ok_inj] at h
      obtain ⟨⟨v, L⟩, hb, rfl⟩ := h
      obtain ⟨h1, _, _, _, _, _, _, _, rfl, _, _⟩ := bond_inv hb
      have : a ≠ b := by rintro rfl; exact hna h1
      simp only [stakesOf, queryStaked, upd_ne _ _ this]
    | unbond b x ts =>
      obtain ⟨h1, _, _, h2, _⟩ := C36_unbond_exact h
      have : a ≠ b := by rintro rfl; exact hna h1
      simp only [stakesOf, h2 a this]
    | createFlow b u =>
      simp only [Stake.step, bind_ok, ok_inj] at h
      obtain ⟨v, hi, rfl⟩ := h
      obtain ⟨_, _, _, _, _, rfl⟩ := createFlow_inv hi
      rfl
    | distribute b x u =>
      simp only [Stake.step, bind_ok, ok_inj] at h
      obtain ⟨⟨v, L⟩, hb, rfl⟩ := h
      obtain ⟨_, _, m, _, _, _, h5, _, _, _, rfl, _, _⟩ := distribute_inv hb
      rfl
    | withdraw b =>
      simp only [Stake.step, bind_ok, ok_inj] at h
      obtain ⟨⟨v, L⟩, hb, rfl⟩ := h
      obtain ⟨rfl, _⟩ := withdraw_inv hb
      simp only [stakesOf, queryStaked, upd_apply]
      split
      · rename_i e; subst e; rfl
      · rfl

/-- account 2 takes back its stake of 100 although it has another, newer one -/
example : (⟨100, sDay 40⟩ : Entry) ∈ stakesOf (Stake.run 100 sExStart sExHist) 2 ∧
    ((Stake.step 100 (Stake.run 100 sExStart sExHist) (.stake (sBy 2 (sDay 80)) (.unbond 2 100 (sDay 40)))).toOption.map
      (fun s' => (stakesOf s' 2, s'.led.bal 30 2, s'.st.total))) = some ([⟨50, sDay 76⟩], 4950, 70) := by
  decide +kernel

/-! ### C37 -/

/-- **C37** In every history with ordered time in which no two distributions carry the same
timestamp, no more of any token is paid out as rewards than was distributed. -/
theorem C37_paid_at_most_distributed {me : Addr} {s : Sys} (h0 : Genesis me s) (ts : List Tx)
    (ht : ∀ t ∈ ts, Stake.Spec.Possible me t) (hw : WellTimed me s ts) (tok : Addr) :
    paidOut me s tok ts ≤ distributed me s tok ts := by
  obtain ⟨-, h⟩ := run_B ts ht (genesis_invA h0) (genesis_B h0) hw.ordered hw.distinct
  obtain ⟨S', k⟩ := h tok ∅
  have h1 : Phi s.st tok S' = 0 := by rw [h0.1]; rfl
  have h2 : 0 ≤ Phi (Stake.run me s ts).st tok ∅ := by
    unfold Phi
    split
    · apply List.sum_nonneg
      intro z hz
      obtain ⟨p, _, rfl⟩ := List.mem_map.mp hz
      unfold term
      split <;> simp
    · exact le_refl _
  omega

/-- **C37** In every history whatsoever the contract holds, of each token, at least what was
distributed minus what was paid, on top of the principal if it is the staked token. -/
theorem C37_holdings {me : Addr} {s : Sys} (h0 : Genesis me s) (ts : List Tx)
    (ht : ∀ t ∈ ts, Stake.Spec.Possible me t) (tok : Addr) :
    distributed me s tok ts - paidOut me s tok ts +
      (if lp? (Stake.run me s ts) = some tok then (Stake.run me s ts).st.total else 0) ≤
      (Stake.run me s ts).led.bal tok me := by
  have h := run_books ts ht (genesis_invA h0) tok
  have h1 : principal s.st tok = 0 := by rw [h0.1]; rfl
  have h2 := h0.2.1 tok me
  have h3 : principal (Stake.run me s ts).st tok =
      if lp? (Stake.run me s ts) = some tok then (Stake.run me s ts).st.total else 0 := by
    unfold principal lp?
    cases (Stake.run me s ts).st.cfg <;> simp
  rw [h3] at h
  omega

example : paidOut 100 sExStart 40 sExHist = 3000 ∧ distributed 100 sExStart 40 sExHist = 4300 := by decide +kernel

/-- Two tokens distributed at the same time: account 2 is paid for the first, leaves, and
the second distribution lowers the recorded total stake for that time. -/
def sOverpay : List Tx :=
  [ .stake (sBy 9 0) (.init 9 30 10 1 7 9 5),
    .stake (sBy 7 1) (.createFlow 7 40), .stake (sBy 7 1) (.createFlow 7 41),
    .stake (sBy 1 (sDay 1)) (.bond 1 100), .stake (sBy 2 (sDay 1)) (.bond 2 100),
    .stake (sBy 7 (sDay 70)) (.distribute 7 1000 40),
    .stake (sBy 2 (sDay 70)) (.withdraw 2), .stake (sBy 2 (sDay 70)) (.unbond 2 100 (sDay 1)),
    .stake (sBy 7 (sDay 70)) (.distribute 7 10 41),
    .token (sBy 7 (sDay 70)) 40 (.transfer 7 100 500),
    .stake (sBy 1 (sDay 71)) (.withdraw 1) ]

/-- **C37** (negation) Without the restriction more is paid than distributed: 1000 units of
token 40 are distributed, 1500 paid (a gift of 500 to the contract makes it visible; without
it the second withdrawal fails for lack of funds). -/
theorem C37_can_overpay : (∀ t ∈ sOverpay, Stake.Spec.Possible 100 t) ∧ TimeOrdered 0 sOverpay ∧
    distributed 100 sExStart 40 sOverpay = 1000 ∧ paidOut 100 sExStart 40 sOverpay = 1500 := by
  refine ⟨fun t ht => ?_, ?_, by decide +kernel, by decide +kernel⟩
  · simp only [sOverpay, List.mem_cons, List.not_mem_nil, or_false] at ht
    rcases ht with rfl | rfl | rfl | rfl | rfl | rfl | rfl | rfl | rfl | rfl | rfl <;> rfl
  · simp [TimeOrdered, sOverpay, Tx.ctx, sBy, sDay]

/-! ### C38 -/

/-- **C38** After a withdrawal of rewards for `a`, nothing of `tok` is withdrawable for `a`,
at any later time, until `tok` is distributed again: whatever else happens in between. -/
theorem C38_nothing_left {me : Addr} {s : Sys} (h0 : Genesis me s) (ts : List Tx) (ho : TimeOrdered 0 ts)
    {c : Ctx} (hc : ∀ t ∈ ts, t.ctx.now ≤ c.now) {a : Addr} {s1 : Sys}
    (h : Stake.step me (Stake.run me s ts) (.stake c (.withdraw a)) = .ok s1) (us : List Tx) (ho' : TimeOrdered c.now us)
    {tok : Addr} (hd : dists me s1 tok us = []) (hin : tok ∈ (Stake.run me s1 us).st.dists)
    (ht : ∀ t ∈ ts ++ us, Stake.Spec.Possible me t) (hc' : c.auth me = false) (c' : Ctx) :
    pending c' (Stake.run me s1 us).st tok (queryStaked (Stake.run me s1 us).st a) = .ok 0 := by
  have hk0 : KeysLe s.st tok 0 := by intro m hm; rw [h0.1] at hm; simp [fresh] at hm
  have hk1 := run_keys (me := me) ts hk0 ho (Nat.zero_le c.now) hc
  have hk2 := (step_keys h hk1 (le_refl _)).1
  have hl : c.now ≤ (s1.st.info a).last := by
    simp only [Stake.step, bind_ok, ok_inj] at h
    obtain ⟨⟨v, L⟩, hb, rfl⟩ := h
    obtain ⟨rfl, _⟩ := withdraw_inv hb
    simp [upd_same]
  obtain ⟨h1, h2⟩ := run_done us hk2 hl (le_refl _) ho' hd
  have hA : InvA me (Stake.run me s1 us) := by
    refine run_invA us (fun t hu => ht t (List.mem_append_right _ hu)) (step_invA h ?_
      (run_invA ts (fun t hu => ht t (List.mem_append_left _ hu)) (genesis_invA h0)))
    exact hc'
  obtain ⟨m, hm⟩ := hA.mem_dists hin
  exact pending_nil hm (.inl (fun k hkm => le_trans (h1 m hm k hkm) h2))

/-- **C38** In particular, right after a withdrawal (in any state) a query at the same time
reports zero for every reward token. -/
theorem C38_zero_right_after {me : Addr} {c : Ctx} {s s' : Sys} {a : Addr}
    (h : Stake.step me s (.stake c (.withdraw a)) = .ok s') :
    queryWithdrawable c s'.st a = .ok (s.st.dists.map (fun t => (t, 0))) := by
  simp only [Stake.step, bind_ok, ok_inj] at h
  obtain ⟨⟨v, L⟩, hb, rfl⟩ := h
  obtain ⟨rfl, h1⟩ := withdraw_inv hb
  have hp : ∀ t ∈ s.st.dists, ∃ m, s.st.rewards t = some m := by
    obtain ⟨ps, e1, e2, -⟩ := payLoop_inv h1
    intro t ht
    rw [← e1] at ht
    obtain ⟨p, hp, rfl⟩ := List.mem_map.mp ht
    have := (e2 p hp).1
    unfold pending at this
    simp only [bind_ok, rewardHistory_ok] at this
    obtain ⟨m, hm, _⟩ := this
    exact ⟨m, hm⟩
  refine queryLoop_ok (f := fun _ => 0) (fun t ht => ?_)
  obtain ⟨m, hm⟩ := hp t ht
  exact pending_nil (m := m) hm (.inr (by simp [upd_same]))

example : queryWithdrawable (sBy 3 (sDay 72)) (Stake.run 100 sExStart (sExHist.take 6)).st 1 = .ok [(40, 0)] ∧
    queryWithdrawable (sBy 3 (sDay 72)) (Stake.run 100 sExStart (sExHist.take 6)).st 2 = .ok [(40, 500)] := by
  decide +kernel

/-! ### C39 -/

/-- **C39** In a well-timed history the withdrawable amount of a token is, whenever the
query succeeds, the documented formula over the distributions of that token in the history,
and never negative. -/
theorem C39_pending_formula {me : Addr} {s : Sys} (h0 : Genesis me s) (ts : List Tx)
    (ht : ∀ t ∈ ts, Stake.Spec.Possible me t) (hw : WellTimed me s ts) {c : Ctx} {a tok : Addr} {p : Int}
    (h : pending c (Stake.run me s ts).st tok (queryStaked (Stake.run me s ts).st a) = .ok p) :
    p = due (dists me s tok ts) (queryStaked (Stake.run me s ts).st a) c.now ∧ 0 ≤ p := by
  have hA0 := genesis_invA h0
  obtain ⟨⟨n', seen', hB, -⟩, -⟩ := run_B ts ht hA0 (genesis_B h0) hw.ordered hw.distinct
  obtain ⟨l1, -, l3⟩ := run_log ts ht hA0 (genesis_B h0) hw.ordered hw.distinct
  have hA := run_invA ts ht hA0
  have h' := h
  unfold pending at h'
  simp only [bind_ok, rewardHistory_ok] at h'
  obtain ⟨m, hm, -⟩ := h'
  obtain ⟨rfl, -⟩ := pending_val hm (hB.sortR tok m hm) (hB.fine hA hm a) h
  refine ⟨due_eq hm ?_ (l3 tok) _ _, ?_⟩
  · have := l1 tok
    rw [hm, h0.1] at this
    simpa [fresh] using this
  · apply List.sum_nonneg
    intro z hz
    obtain ⟨q, _, rfl⟩ := List.mem_map.mp hz
    exact payFor_nonneg (fun e he => (hA.amt a e he).1) q

/-- **C39** The query reports, for every reward token in order, the formula. -/
theorem C39_query_formula {me : Addr} {s : Sys} (h0 : Genesis me s) (ts : List Tx)
    (ht : ∀ t ∈ ts, Stake.Spec.Possible me t) (hw : WellTimed me s ts) {c : Ctx} {a : Addr} {r : List (Addr × Nat)}
    (h : queryWithdrawable c (Stake.run me s ts).st a = .ok r) :
    r.map Prod.fst = (Stake.run me s ts).st.dists ∧
    ∀ tok ∈ (Stake.run me s ts).st.dists,
      (tok, asU128 (due (dists me s tok ts) (queryStaked (Stake.run me s ts).st a) c.now)) ∈ r := by
  obtain ⟨h1, h2⟩ := queryLoop_inv h
  refine ⟨h1, fun tok hin => ?_⟩
  obtain ⟨p, hp, hr⟩ := h2 tok hin
  rw [← (C39_pending_formula h0 ts ht hw hp).1]
  exact hr

/-- **C39** In any state whatsoever: what a withdrawal pays is what the query says at that
moment, token by token, and nothing else moves. -/
theorem C39_query_is_payout {me : Addr} {c : Ctx} {s s' : Sys} {a : Addr}
    (h : Stake.step me s (.stake c (.withdraw a)) = .ok s') :
    ∃ ps : List (Addr × Int), (∀ p ∈ ps, 0 ≤ p.2) ∧
      queryWithdrawable c s.st a = .ok (ps.map (fun p => (p.1, asU128 p.2))) ∧
      Settles s.led s'.led (ps.map (fun p => ⟨p.1, me, a, p.2⟩)) ∧ SameRights s.led s'.led := by
  simp only [Stake.step, bind_ok, ok_inj] at h
  obtain ⟨⟨v, L⟩, hb, rfl⟩ := h
  obtain ⟨rfl, h1⟩ := withdraw_inv hb
  obtain ⟨ps, e1, e2, e3, e4⟩ := payLoop_inv h1
  refine ⟨ps, fun p hp => (e2 p hp).2, ?_, e3, e4⟩
  unfold queryWithdrawable
  rw [← e1]
  clear e1 e3 e4 h1 hb
  induction ps with
  | nil => rfl
  | cons p ps ih =>
    simp only [List.map_cons, queryLoop]
    rw [(e2 p List.mem_cons_self).1, ih (fun q hq => e2 q (List.mem_cons_of_mem _ hq))]
    rfl

/-- stake of 100 for 30 days: half of its quarter of 4000 -/
example : due [⟨sDay 70, 4000, 400⟩] ⟨[⟨100, sDay 40⟩], 0, 100⟩ (sDay 71) = 500 ∧
    dists 100 sExStart 40 (sExHist.take 6) = [⟨sDay 70, 4000, 400⟩] := by decide +kernel

/-! ### C40 -/

/-- **C40** If a stake of the account is newer than a distribution it has not claimed (made
while something was staked), both the query and the withdrawal fail. -/
theorem C40_newer_stake_blocks {me : Addr} {s : Sys} (h0 : Genesis me s) (ts : List Tx)
    (ht : ∀ t ∈ ts, Stake.Spec.Possible me t) (hw : WellTimed me s ts) {tok a : Addr} {d : Dist} {e : Entry} {c : Ctx}
    (hd : d ∈ dists me s tok ts) (hpos : d.staked ≠ 0)
    (hl : (queryStaked (Stake.run me s ts).st a).last < d.time) (hnow : d.time ≤ c.now)
    (he : e ∈ stakesOf (Stake.run me s ts) a) (hnew : d.time < e.ts) (hin : tok ∈ (Stake.run me s ts).st.dists) :
    (∀ r, queryWithdrawable c (Stake.run me s ts).st a ≠ .ok r) ∧
    ∀ s', Stake.step me (Stake.run me s ts) (.stake c (.withdraw a)) ≠ .ok s' := by
  have hA0 := genesis_invA h0
  obtain ⟨⟨n', seen', hB, -⟩, -⟩ := run_B ts ht hA0 (genesis_B h0) hw.ordered hw.distinct
  obtain ⟨l1, -, l3⟩ := run_log ts ht hA0 (genesis_B h0) hw.ordered hw.distinct
  have hA := run_invA ts ht hA0
  obtain ⟨m, hm⟩ := hA.mem_dists hin
  have hmem : (d.time, d.amount.toNat) ∈ m := by
    have := l1 tok
    rw [hm, h0.1] at this
    simp only [Option.getD_some, fresh, Option.getD_none, List.nil_append] at this
    rw [this]
    exact List.mem_map.mpr ⟨d, hd, rfl⟩
  obtain ⟨k1, k2, k3⟩ := l3 tok d hd
  have key : ∀ p, pending c (Stake.run me s ts).st tok ((Stake.run me s ts).st.info a) ≠ .ok p := by
    intro p hp
    obtain ⟨-, hold⟩ := pending_val hm (hB.sortR tok m hm) (hB.fine hA hm a) hp
    have hlk : (d.time, d.amount.toNat) ∈ looked m ((Stake.run me s ts).st.info a).last c.now :=
      List.mem_filter.mpr ⟨hmem, by simp only [decide_eq_true_eq]; exact ⟨hl, hnow⟩⟩
    have := hold _ hlk _ k1 (by omega) e he
    simp only at this
    omega
  constructor
  · intro r hr
    obtain ⟨p, hp, -⟩ := (queryLoop_inv hr).2 tok hin
    exact key p hp
  · intro s' hs
    simp only [Stake.step, bind_ok, ok_inj] at hs
    obtain ⟨⟨v, L⟩, hb, -⟩ := hs
    obtain ⟨-, h1⟩ := withdraw_inv hb
    obtain ⟨ps, e1, e2, -⟩ := payLoop_inv h1
    rw [← e1] at hin
    obtain ⟨q, hq, rfl⟩ := List.mem_map.mp hin
    exact key _ (e2 q hq).1

/-- account 2 bonded 50 after the distribution of day 75 -/
example : queryWithdrawable (sBy 2 (sDay 80)) (Stake.run 100 sExStart sExHist).st 2 = .error .overflow ∧
    dists 100 sExStart 40 sExHist = [⟨sDay 70, 4000, 400⟩, ⟨sDay 75, 300, 400⟩] ∧
    (queryStaked (Stake.run 100 sExStart sExHist).st 2).last = 0 ∧
    (⟨50, sDay 76⟩ : Entry) ∈ stakesOf (Stake.run 100 sExStart sExHist) 2 := by decide +kernel

/-- **C40** Otherwise the withdrawal succeeds, whoever calls it, if the numbers fit: shares
times `10^18` within an i128 and balances not beyond `i128::MAX`. -/
theorem C40_withdraw_succeeds {me : Addr} {s : Sys} (h0 : Genesis me s) (ts : List Tx)
    (ht : ∀ t ∈ ts, Stake.Spec.Possible me t) (hw : WellTimed me s ts) {a : Addr} {c : Ctx} (hne : a ≠ me)
    (hnow : ∀ t ∈ ts, t.ctx.now ≤ c.now)
    (hold : ∀ tok, ∀ d ∈ dists me s tok ts, d.staked ≠ 0 → (queryStaked (Stake.run me s ts).st a).last < d.time →
      ∀ e ∈ stakesOf (Stake.run me s ts) a, e.ts ≤ d.time)
    (hfit : ∀ tok, ∀ d ∈ dists me s tok ts, d.amount * 10 ^ 18 ≤ I128_MAX ∧
      ∀ e ∈ stakesOf (Stake.run me s ts) a, e.amount * d.amount < U128_LIM)
    (hbal : ∀ tok, (Stake.run me s ts).led.bal tok a + (Stake.run me s ts).led.bal tok me ≤ I128_MAX) :
    ∃ s', Stake.step me (Stake.run me s ts) (.stake c (.withdraw a)) = .ok s' := by
  have hA0 := genesis_invA h0
  obtain ⟨⟨n', seen', hB, hn'⟩, -⟩ := run_B ts ht hA0 (genesis_B h0) hw.ordered hw.distinct
  obtain ⟨l1, -, l3⟩ := run_log ts ht hA0 (genesis_B h0) hw.ordered hw.distinct
  have hA := run_invA ts ht hA0
  have hn := hn' c.now (Nat.zero_le _) hnow
  generalize hr : Stake.run me s ts = r at *
  have hpay : ∀ t ∈ r.st.dists, ∃ p, pending c r.st t (r.st.info a) = .ok p ∧ 0 ≤ p ∧ p ≤ r.led.bal t me ∧
      r.led.bal t me ≤ I128_MAX ∧ r.led.bal t a + p ≤ I128_MAX := by
    intro t hin
    obtain ⟨m, hm⟩ := hA.mem_dists hin
    have hlog : m = (dists me s t ts).map (fun d => (d.time, d.amount.toNat)) := by
      have := l1 t
      rw [hm, h0.1] at this
      simpa [fresh] using this
    have hnn : 0 ≤ ((looked m (r.st.info a).last c.now).map (payFor r.st.hist (r.st.info a).stakes)).sum := by
      apply List.sum_nonneg
      intro z hz
      obtain ⟨q, _, rfl⟩ := List.mem_map.mp hz
      exact payFor_nonneg (fun e he => (hA.amt a e he).1) q
    -- the claim is part of what is backed
    have hle : ((looked m (r.st.info a).last c.now).map (payFor r.st.hist (r.st.info a).stakes)).sum ≤ r.led.bal t me := by
      have hb := hB.backed t {a}
      have hpr : 0 ≤ principal r.st t := by
        unfold principal
        split
        · split
          · exact hA.nonneg
          · exact le_refl _
        · exact le_refl _
      have hphi : ((looked m (r.st.info a).last c.now).map (payFor r.st.hist (r.st.info a).stakes)).sum ≤
          Phi r.st t {a} := by
        unfold Phi looked
        simp only [hm]
        have hall : ∀ q ∈ m, q.1 ≤ c.now ∧ ∃ T, r.st.hist.get q.1 = some T := fun q hq =>
          ⟨le_trans (hB.seenLe _ (hB.sub t m hm q hq).1) hn,
            Option.ne_none_iff_exists'.mp ((hB.seenH q.1).mpr (hB.sub t m hm q hq).1)⟩
        clear hlog hm hnn
        induction m with
        | nil => simp
        | cons q m ih =>
          have ih := ih (fun x hx => hall x (List.mem_cons_of_mem _ hx))
          obtain ⟨h1, T, hT⟩ := hall q List.mem_cons_self
          have hpos : ∀ e ∈ (r.st.info a).stakes, 0 ≤ e.amount := fun e he => (hA.pos a e he).le
          simp only [List.filter_cons, List.map_cons, List.sum_cons]
          have hterm : (if (r.st.info a).last < q.1 then payFor r.st.hist (r.st.info a).stakes q else 0) ≤ term r.st {a} q := by
            unfold term unp
            simp only [hT, Finset.sum_singleton]
            split
            · exact payFor_le (R := q.2) hpos hT
            · simp
          by_cases hq : (r.st.info a).last < q.1
          · simp only [hq, h1, and_self, decide_true, if_true, List.map_cons, List.sum_cons] at hterm ⊢
            omega
          · simp only [hq, false_and, decide_false] at hterm ⊢
            simp only [Bool.false_eq_true, if_false] at hterm ⊢
            omega
      omega
    have hb1 := hbal t
    have hb2 := hA.led.nonneg t a
    have hclear : ∀ p ∈ looked m (r.st.info a).last c.now, Clear r.st.hist (r.st.info a).stakes p := by
      intro p hp
      obtain ⟨hp1, hp2⟩ := List.mem_filter.mp hp
      simp only [decide_eq_true_eq] at hp2
      rw [hlog] at hp1
      obtain ⟨d, hd, rfl⟩ := List.mem_map.mp hp1
      obtain ⟨k1, k2, k3⟩ := l3 t d hd
      obtain ⟨f1, f2⟩ := hfit t d hd
      have e1 : (d.amount.toNat : Int) = d.amount := by omega
      refine ⟨fun T hT hpos e he => ?_, fun T hT hpos e he => ?_, fun T hT hpos e he hlt => ?_⟩
      · rw [k1] at hT; cases hT
        exact hold t d hd (by omega) hp2.1 e he
      · simp only [e1]; exact f2 e he
      · rw [hlog] at hm
        have hsh := (hB.early d.time T hT).2 {a}
        simp only [Finset.sum_singleton] at hsh
        have h4 : e.amount ≤ early (r.st.info a) d.time := by
          unfold early
          apply List.single_le_sum
          · intro z hz
            obtain ⟨x, hx, rfl⟩ := List.mem_map.mp hz
            exact (hA.pos a x (List.mem_of_mem_filter hx)).le
          · exact List.mem_map.mpr ⟨e, List.mem_filter.mpr ⟨he, by simpa using hlt⟩, rfl⟩
        simp only [e1]
        have hTi : (0:Int) < T := by omega
        have h5 : e.amount * d.amount / T ≤ d.amount := by
          calc _ ≤ (T : Int) * d.amount / T := Int.ediv_le_ediv hTi (mul_le_mul_of_nonneg_right (by omega) k2)
            _ = d.amount := Int.mul_ediv_cancel_left _ hTi.ne'
        omega
    obtain ⟨p, hp⟩ := pending_succeeds hm (hB.sortR t m hm) (hA.amt a) hclear (by omega)
    obtain ⟨rfl, -⟩ := pending_val hm (hB.sortR t m hm) (hB.fine hA hm a) hp
    exact ⟨_, hp, hnn, hle, by omega, by omega⟩
  obtain ⟨L, hL⟩ := payLoop_succeeds hne hA.nodup hA.led.nonneg hpay
  refine ⟨⟨{ r.st with info := upd r.st.info a { r.st.info a with last := c.now } }, L⟩, ?_⟩
  simp only [Stake.step, withdraw, bind_ok, ok_inj]
  exact ⟨(_, L), ⟨L, hL, rfl⟩, rfl⟩

/-- account 2 before it bonds more: withdrawal succeeds and pays 500 + 43 -/
example : ((Stake.step 100 (Stake.run 100 sExStart (sExHist.take 7)) (.stake (sBy 3 (sDay 76)) (.withdraw 2))).toOption.map
      (fun s' => s'.led.bal 40 2)) = some 5543 ∧
    (∀ e ∈ stakesOf (Stake.run 100 sExStart (sExHist.take 7)) 2, e.ts ≤ sDay 70) := by decide +kernel

/-! ### C41 -/

/-- **C41** With ordered time and distinct distribution times every distribution stays
recorded, in order, with its amount and the total staked at that moment. -/
theorem C41_all_recorded {me : Addr} {s : Sys} (h0 : Genesis me s) (ts : List Tx)
    (ht : ∀ t ∈ ts, Stake.Spec.Possible me t) (hw : WellTimed me s ts) (tok : Addr) :
    ((Stake.run me s ts).st.rewards tok).getD [] = (dists me s tok ts).map (fun d => (d.time, d.amount.toNat)) ∧
    ∀ d ∈ dists me s tok ts, (Stake.run me s ts).st.hist.get d.time = some d.staked.toNat ∧ 0 ≤ d.amount ∧ 0 ≤ d.staked := by
  obtain ⟨l1, -, l3⟩ := run_log ts ht (genesis_invA h0) (genesis_B h0) hw.ordered hw.distinct
  refine ⟨?_, l3 tok⟩
  have := l1 tok
  rw [h0.1] at this
  simpa [fresh] using this

example : (Stake.run 100 sExStart sExHist).st.rewards 40 = some [(sDay 70, 4000), (sDay 75, 300)] := by decide +kernel

/-- Two distributions of the same token at the same time. -/
def sTwice : List Tx := sExHist.take 5 ++ [.stake (sBy 7 (sDay 70)) (.distribute 7 20 40)]
/-- **C41** (negation) The second distribution at the same timestamp replaces the first: of
4020 distributed units account 1 can withdraw 15 instead of 3015. -/
theorem C41_same_time_lost : distributed 100 sExStart 40 sTwice = 4020 ∧
    queryWithdrawable (sBy 3 (sDay 71)) (Stake.run 100 sExStart sTwice).st 1 = .ok [(40, 15)] := by decide +kernel

/-- A withdrawal just before a distribution at the same time. -/
def sSkip : List Tx := sExHist.take 4 ++ [.stake (sBy 3 (sDay 70)) (.withdraw 1), .stake (sBy 7 (sDay 70)) (.distribute 7 4000 40)]
/-- **C41** (negation) A distribution at the time of an account's last withdrawal is skipped
for that account, and anybody can make that withdrawal (here account 3). -/
theorem C41_same_time_skipped :
    queryWithdrawable (sBy 3 (sDay 71)) (Stake.run 100 sExStart sSkip).st 1 = .ok [(40, 0)] ∧
    queryWithdrawable (sBy 3 (sDay 71)) (Stake.run 100 sExStart sSkip).st 2 = .ok [(40, 500)] := by decide +kernel

/-! ### C42 -/

/-- **C42** `withdraw_rewards(a)`, whoever signs, changes no stake of anybody, no total, no
distribution; it pays only `a` and only out of the contract's balance. -/
theorem C42_withdraw_only_pays {me : Addr} {c : Ctx} {s s' : Sys} {a : Addr}
    (h : Stake.step me s (.stake c (.withdraw a)) = .ok s') :
    (∀ b, stakesOf s' b = stakesOf s b) ∧ (∀ b, b ≠ a → queryStaked s'.st b = queryStaked s.st b) ∧
    s'.st.total = s.st.total ∧ s'.st.cfg = s.st.cfg ∧ s'.st.dists = s.st.dists ∧ s'.st.rewards = s.st.rewards ∧
    s'.st.hist = s.st.hist ∧ (∀ t b, b ≠ me → s.led.bal t b ≤ s'.led.bal t b) ∧
    (∀ t b, b ≠ me → b ≠ a → s'.led.bal t b = s.led.bal t b) := by
  obtain ⟨ps, p1, -, p3, -⟩ := C39_query_is_payout h
  simp only [Stake.step, bind_ok, ok_inj] at h
  obtain ⟨⟨v, L⟩, hb, rfl⟩ := h
  obtain ⟨rfl, h1⟩ := withdraw_inv hb
  have hdelta : ∀ t b, b ≠ me → 0 ≤ ((ps.map (fun p => (⟨p.1, me, a, p.2⟩ : Flow))).map (fun f => f.delta t b)).sum ∧
      (b ≠ a → ((ps.map (fun p => (⟨p.1, me, a, p.2⟩ : Flow))).map (fun f => f.delta t b)).sum = 0) := by
    intro t b hb
    clear p3
    induction ps with
    | nil => simp
    | cons p ps ih =>
      obtain ⟨i1, i2⟩ := ih (fun q hq => p1 q (List.mem_cons_of_mem _ hq))
      have h0 := p1 p List.mem_cons_self
      simp only [List.map_cons, List.sum_cons]
      constructor
      · have : 0 ≤ Flow.delta ⟨p.1, me, a, p.2⟩ t b := by
          simp only [Flow.delta, Ne.symm hb, and_false, if_false, sub_zero]
          split <;> omega
        omega
      · intro hba
        rw [i2 hba]
        simp [Flow.delta, Ne.symm hb, Ne.symm hba]
  refine ⟨fun b => ?_, fun b hba => ?_, rfl, rfl, rfl, rfl, rfl, fun t b hb => ?_, fun t b hb hba => ?_⟩
  · simp only [stakesOf, queryStaked, upd_apply]
    split
    · rename_i e; subst e; rfl
    · rfl
  · simp only [queryStaked, upd_ne _ _ hba]
  · have := p3 t b
    have := (hdelta t b hb).1
    simp only at *; omega
  · have := p3 t b
    have := (hdelta t b hb).2 hba
    simp only at *; omega

/-- **C42** The set of reward tokens and what is recorded as distributed change only when
the manager or the owner authorises it. -/
theorem C42_only_manager {me : Addr} {s s' : Sys} {t : Tx} (h : Stake.step me s t = .ok s')
    (hd : s'.st.dists ≠ s.st.dists ∨ s'.st.rewards ≠ s.st.rewards) :
    ∃ cfg, s.st.cfg = some cfg ∧ (t.ctx.auth cfg.manager = true ∨ t.ctx.auth cfg.owner = true) := by
  cases t with
  | token c tok op =>
    simp only [Stake.step, bind_ok, ok_inj] at h
    obtain ⟨L, hL, rfl⟩ := h
    simp at hd
  | stake c k =>
    simp only [Stake.Tx.ctx]
    cases k with
    | init b lp mb mr m o mc =>
      simp only [Stake.step, bind_ok, ok_inj] at h
      obtain ⟨v, hi, rfl⟩ := h
      obtain ⟨_, _, _, _, rfl⟩ := Stake.init_inv hi
      simp at hd
    | bond b x =>
      simp only [Stake.step, bind_ok, ok_inj] at h
      obtain ⟨⟨v, L⟩, hb, rfl⟩ := h
      obtain ⟨h1, _, _, _, _, _, _, _, rfl, _, _⟩ := bond_inv hb
      simp at hd
    | unbond b x ts =>
      simp only [Stake.step, bind_ok, ok_inj] at h
      obtain ⟨⟨v, L⟩, hb, rfl⟩ := h
      obtain ⟨_, _, _, _, _, _, _, _, _, rfl, _, _⟩ := unbond_inv hb
      simp at hd
    | createFlow b u =>
      simp only [Stake.step, bind_ok, ok_inj] at h
      obtain ⟨v, hi, rfl⟩ := h
      obtain ⟨h1, cfg, h2, h3, _, rfl⟩ := createFlow_inv hi
      refine ⟨cfg, h2, ?_⟩
      rcases h3 with rfl | rfl
      · exact .inl h1
      · exact .inr h1
    | distribute b x u =>
      simp only [Stake.step, bind_ok, ok_inj] at h
      obtain ⟨⟨v, L⟩, hb, rfl⟩ := h
      obtain ⟨h1, cfg, m, h2, h3, _, h5, _, _, _, rfl, _, _⟩ := distribute_inv hb
      refine ⟨cfg, h2, ?_⟩
      rcases h3 with rfl | rfl
      · exact .inl h1
      · exact .inr h1
    | withdraw b =>
      have := C42_withdraw_only_pays h
      rcases hd with hd | hd
      · exact absurd this.2.2.2.2.1 hd
      · exact absurd this.2.2.2.2.2.1 hd

/-- **C42** `distribute_rewards` succeeds only for the manager or the owner, for a token
with an existing distribution flow, and moves exactly `amount` from the sender. -/
theorem C42_distribute_exact {me : Addr} {c : Ctx} {s s' : Sys} {a tok : Addr} {x : Int}
    (h : Stake.step me s (.stake c (.distribute a x tok)) = .ok s') :
    c.auth a = true ∧ (∃ cfg, s.st.cfg = some cfg ∧ (a = cfg.manager ∨ a = cfg.owner)) ∧ tok ∈ s.st.dists ∧ 0 ≤ x ∧
    Settles s.led s'.led [⟨tok, a, me, x⟩] ∧ SameRights s.led s'.led ∧
    (∀ b, queryStaked s'.st b = queryStaked s.st b) ∧ s'.st.total = s.st.total ∧ s'.st.dists = s.st.dists := by
  simp only [Stake.step, bind_ok, ok_inj] at h
  obtain ⟨⟨v, L⟩, hb, rfl⟩ := h
  obtain ⟨h1, cfg, m, h2, h3, h4, h5, h6, _, _, rfl, h7, h8⟩ := distribute_inv hb
  exact ⟨h1, ⟨cfg, h2, h3⟩, h4, h6, h7, h8, fun _ => rfl, rfl, rfl⟩

/-- account 3 triggers the withdrawal of account 1; account 3 cannot distribute -/
example : ((Stake.step 100 (Stake.run 100 sExStart (sExHist.take 5)) (.stake (sBy 3 (sDay 71)) (.withdraw 1))).toOption.map
      (fun s' => (s'.led.bal 40 1, s'.led.bal 40 3))) = some (8000, 0) ∧
    (Stake.step 100 (Stake.run 100 sExStart (sExHist.take 5)) (.stake (sBy 3 (sDay 71)) (.distribute 3 0 40))).toOption.isNone
      = true := by decide +kernel

/-! ### C65 -/

/-- **C65** `unbond` moves only the staked token, and the rewards due to the account drop by
exactly what the removed stake had earned and not yet claimed: they are forfeited. -/
theorem C65_unbond_forfeits {me : Addr} {s s' : Sys} {c : Ctx} {a : Addr} {x : Int} {ts : Nat}
    (h : Stake.step me s (.stake c (.unbond a x ts)) = .ok s') (log : List Dist) (now : Nat) :
    due log (queryStaked s'.st a) now =
      due log (queryStaked s.st a) now - due log ⟨[⟨x, ts⟩], (queryStaked s.st a).last, x⟩ now ∧
    ∀ tok b, lp? s ≠ some tok → s'.led.bal tok b = s.led.bal tok b := by
  obtain ⟨-, h1, h2, -, -, lp, h3, h4, -⟩ := C36_unbond_exact h
  have hl : (queryStaked s'.st a).last = (queryStaked s.st a).last := by
    simp only [Stake.step, bind_ok, ok_inj] at h
    obtain ⟨⟨v, L⟩, hb, rfl⟩ := h
    obtain ⟨_, cfg, p, q, _, _, _, _, _, rfl, _, _⟩ := unbond_inv hb
    simp [queryStaked, upd_same]
  constructor
  · unfold due
    rw [hl]
    simp only [stakesOf] at h1 h2
    rw [h2]
    have key : ∀ d, earnedFor ((queryStaked s.st a).stakes.erase ⟨x, ts⟩) d =
        earnedFor (queryStaked s.st a).stakes d - earnedFor [⟨x, ts⟩] d := by
      intro d
      unfold earnedFor
      split
      · rfl
      · have hp := (List.perm_cons_erase h1).map (fun e : Entry => reward e.amount d.amount d.staked d.time e.ts)
        have := hp.sum_eq
        simp only [List.map_cons, List.sum_cons, List.map_nil, List.sum_nil, add_zero] at this ⊢
        omega
    generalize List.filter _ log = l
    induction l with
    | nil => rfl
    | cons d l ih => simp only [List.map_cons, List.sum_cons, ih, key d]; ring
  · intro tok b hne
    have hn : lp ≠ tok := by rintro rfl; exact hne h3
    have := h4 tok b
    simpa [Flow.delta, hn] using this

/-- account 2 leaves with 500 + 37 units of unclaimed rewards, which nobody can claim any more -/
example : due (dists 100 sExStart 40 sExHist) (queryStaked (Stake.run 100 sExStart (sExHist.take 7)).st 2) (sDay 76) = 543 ∧
    ((Stake.step 100 (Stake.run 100 sExStart (sExHist.take 7)) (.stake (sBy 2 (sDay 76)) (.unbond 2 100 (sDay 40)))).toOption.map
      (fun s' => due (dists 100 sExStart 40 sExHist) (queryStaked s'.st 2) (sDay 76))) = some 0 := by decide +kernel

/-! ### C66 -/

/-- **C66** A successful `bond` was authorised by the staker, pays exactly the amount (at
least the configured minimum) of the staked token into the contract, appends exactly one
stake carrying the amount and the present time, and changes nothing for anybody else. -/
theorem C66_bond_exact {me : Addr} {s s' : Sys} {c : Ctx} {a : Addr} {x : Int}
    (h : Stake.step me s (.stake c (.bond a x)) = .ok s') :
    c.auth a = true ∧ stakesOf s' a = stakesOf s a ++ [⟨x, c.now⟩] ∧
    (queryStaked s'.st a).total = (queryStaked s.st a).total + x ∧ s'.st.total = s.st.total + x ∧
    (queryStaked s'.st a).last = (queryStaked s.st a).last ∧
    (∀ b, b ≠ a → queryStaked s'.st b = queryStaked s.st b) ∧
    ∃ cfg, s.st.cfg = some cfg ∧ cfg.minBond ≤ x ∧ Settles s.led s'.led [⟨cfg.lpToken, a, me, x⟩] ∧
      SameRights s.led s'.led := by
  simp only [Stake.step, bind_ok, ok_inj] at h
  obtain ⟨⟨v, L⟩, hb, rfl⟩ := h
  obtain ⟨h1, cfg, h2, h3, h4, h5, h6, h7, rfl, h8, h9⟩ := bond_inv hb
  refine ⟨h1, ?_, ?_, rfl, ?_, fun b hb => ?_, cfg, h2, h3, h8, h9⟩
  · simp [stakesOf, queryStaked, upd_same]
  · simp [queryStaked, upd_same]
  · simp [queryStaked, upd_same]
  · simp only [queryStaked, upd_ne _ _ hb]

/-- **C66** `bond` succeeds whenever the staker signs it, has the tokens and the amount
reaches the minimum, as long as totals fit an i128. -/
theorem C66_bond_succeeds {me : Addr} {s : Sys} (h0 : Genesis me s) (ts : List Tx)
    (ht : ∀ t ∈ ts, Stake.Spec.Possible me t) {cfg : Stake.Config} (hcfg : (Stake.run me s ts).st.cfg = some cfg)
    {a : Addr} {x : Int} {c : Ctx} (hc' : c.signed a = true) (hne : a ≠ me) (hx : cfg.minBond ≤ x)
    (hb : x ≤ (Stake.run me s ts).led.bal cfg.lpToken a) (hb' : (Stake.run me s ts).led.bal cfg.lpToken a ≤ I128_MAX)
    (hb2 : (Stake.run me s ts).led.bal cfg.lpToken me + x ≤ I128_MAX)
    (hT : (Stake.run me s ts).st.total + x ≤ I128_MAX) :
    ∃ s', Stake.step me (Stake.run me s ts) (.stake c (.bond a x)) = .ok s' := by
  have hi := run_invA ts ht (genesis_invA h0)
  generalize Stake.run me s ts = r at *
  have hc := auth_of_signed hc'
  have h1 := hi.minBond cfg hcfg
  have h2 := hi.one_le a
  have h3 := hi.nonneg
  have h4 := hi.total_nonneg a
  have hx0 : 0 ≤ x := by omega
  obtain ⟨L, hL⟩ := transfer_works (c := c.as me) (L := r.led) (t := cfg.lpToken) (src := a) (d := me)
    (as_auth.mpr (.inl hc')) hx0 hb hb' (Ne.symm hne) (hi.led.nonneg _ _) hb2
  refine ⟨⟨{ r.st with info := upd r.st.info a { r.st.info a with stakes := (r.st.info a).stakes ++ [⟨x, c.now⟩], total := (r.st.info a).total + x },
                       total := r.st.total + x }, L⟩, ?_⟩
  simp only [Stake.step, bond, bind_ok, ok_inj]
  refine ⟨(_, L), ⟨(), requireAuth_ok.mpr hc, cfg, getConfig_ok.mpr hcfg, (), req_ok.mpr (by omega), L, hL, _,
    addI_ok.mpr ⟨?_, rfl⟩, _, addI_ok.mpr ⟨?_, rfl⟩, rfl⟩, rfl⟩
  · simp only [InI128, I128_MIN]; constructor <;> omega
  · simp only [InI128, I128_MIN]; constructor <;> omega

example : stakesOf (Stake.run 100 sExStart (sExHist.take 8)) 2 = [⟨100, sDay 40⟩, ⟨50, sDay 76⟩] ∧
    (Stake.step 100 (Stake.run 100 sExStart sExHist) (.stake (sBy 1 (sDay 80)) (.bond 1 9))).toOption.isNone = true ∧
    (Stake.step 100 (Stake.run 100 sExStart sExHist) (.stake (sBy 1 (sDay 80)) (.bond 1 10))).toOption.isSome = true := by
  decide +kernel

/-! ### C67 -/

/-- **C67** Once set, the configuration (staked token, minimums, manager, owner) and the
administrator never change, whatever happens. -/
theorem C67_config_permanent {me : Addr} {s : Sys} {cfg : Stake.Config} (h : s.st.cfg = some cfg) (ts : List Tx) :
    (Stake.run me s ts).st.cfg = some cfg ∧ (Stake.run me s ts).st.admin = s.st.admin := by
  induction ts generalizing s with
  | nil => exact ⟨h, rfl⟩
  | cons t ts ih =>
    have hs : ∀ s', Stake.step me s t = .ok s' → s'.st.cfg = some cfg ∧ s'.st.admin = s.st.admin := by
      intro s' hk
      cases t with
      | token c tok op =>
        simp only [Stake.step, bind_ok, ok_inj] at hk
        obtain ⟨L, hL, rfl⟩ := hk
        exact ⟨h, rfl⟩
      | stake c k =>
        cases k with
        | init b lp mb mr m o mc =>
          simp only [Stake.step, bind_ok, ok_inj] at hk
          obtain ⟨v, hi, rfl⟩ := hk
          have := (Stake.init_inv hi).1
          rw [h] at this; cases this
        | bond b x =>
          simp only [Stake.step, bind_ok, ok_inj] at hk
          obtain ⟨⟨v, L⟩, hb, rfl⟩ := hk
          obtain ⟨_, _, _, _, _, _, _, _, rfl, _, _⟩ := bond_inv hb
          exact ⟨h, rfl⟩
        | unbond b x ts =>
          simp only [Stake.step, bind_ok, ok_inj] at hk
          obtain ⟨⟨v, L⟩, hb, rfl⟩ := hk
          obtain ⟨_, _, _, _, _, _, _, _, _, rfl, _, _⟩ := unbond_inv hb
          exact ⟨h, rfl⟩
        | createFlow b u =>
          simp only [Stake.step, bind_ok, ok_inj] at hk
          obtain ⟨v, hi, rfl⟩ := hk
          obtain ⟨_, _, _, _, _, rfl⟩ := createFlow_inv hi
          exact ⟨h, rfl⟩
        | distribute b x u =>
          simp only [Stake.step, bind_ok, ok_inj] at hk
          obtain ⟨⟨v, L⟩, hb, rfl⟩ := hk
          obtain ⟨_, _, _, _, _, _, _, _, _, _, rfl, _, _⟩ := distribute_inv hb
          exact ⟨h, rfl⟩
        | withdraw b =>
          simp only [Stake.step, bind_ok, ok_inj] at hk
          obtain ⟨⟨v, L⟩, hb, rfl⟩ := hk
          obtain ⟨rfl, _⟩ := withdraw_inv hb
          exact ⟨h, rfl⟩
    have hx : (Stake.exec me s t).st.cfg = some cfg ∧ (Stake.exec me s t).st.admin = s.st.admin := by
      cases hr : Stake.step me s t with
      | error e => rw [exec_error hr]; exact ⟨h, rfl⟩
      | ok s' => rw [exec_ok hr]; exact hs s' hr
    obtain ⟨i1, i2⟩ := ih hx.1
    exact ⟨i1, i2.trans hx.2⟩

/-- **C67** (the protection users may expect is missing) Anybody may initialise a fresh
contract with a configuration of their choice: no signature is asked for. -/
theorem C67_anyone_initialises (me : Addr) (s : Sys) (h : s.st.cfg = none) (c : Ctx) (a lp m o : Addr) :
    ∃ s', Stake.step me s (.stake c (.init a lp 1 1 m o 1)) = .ok s' ∧ s'.st.cfg = some ⟨lp, 1, 1, m, o, 1⟩ := by
  refine ⟨⟨{ s.st with cfg := some ⟨lp, 1, 1, m, o, 1⟩, admin := a, total := 0, hist := [] }, s.led⟩, ?_, rfl⟩
  simp [Stake.step, Stake.init, h, req, bind, Except.bind]

example : (Stake.run 100 sExStart sExHist).st.cfg = some ⟨30, 10, 1, 7, 9, 5⟩ := by decide +kernel

end Phoenix.Props
