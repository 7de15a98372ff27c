import Verif.Lemmas.RewardsCurve
import Verif.Lemmas.StakeLive
/-!
Property theorems about the reward distribution contract (contracts/stake_rewards): C83 - C89.
A history is any list of transactions by anybody: calls of the contract (failed ones leave
no trace) interleaved with calls of any token contract.
-/
namespace Phoenix.Props
open Phoenix Rewards Rewards.Spec
open Phoenix.Stake (Info Entry)
open Phoenix.Spec (Settles SameRights Flow NoAllowance)

/-! A concrete history: contract 100 hands out token 40 to the stakers of contract 50. -/

/-- the administrator 9 holds ten million of every token -/
def rExStart : Sys :=
  { st := fresh
    led := fun _ => { admin := 6, decimals := 7, bal := fun a => if a = 9 then 10000000 else 0,
                      allow := fun _ _ => ⟨0, 0⟩ } }
/-- called by the staking contract 50, signed by `a`, on day `n` -/
def rBy (a : Addr) (n : Nat) : Ctx :=
  { now := n * 86400, seq := 0, signed := fun x => x == a, invoker := some 50 }
/-- one stake of `x`, made on day `n` -/
def rInfo (x : Int) (n : Nat) : Info := ⟨[⟨x, n * 86400⟩], 0, x⟩
/-- the history: users 1 and 2 stake 10000 and 5000, one million is funded for 100 days, user 1
takes back 4000 on day 61, user 2 adds 3000 on day 62 -/
def rExHist : List Tx :=
  [ .rewards (rBy 9 0) (.init 9 50 40 10 1000 1000),
    .rewards (rBy 1 0) (.addUser 1 (rInfo 10000 0)),
    .rewards (rBy 2 0) (.calcBond 2 ⟨[⟨5000, 0⟩], 0, 0⟩),
    .rewards (rBy 9 0) (.fund 0 8640000 1000000),
    .rewards (rBy 3 30) (.distribute 15000),
    .rewards (rBy 2 30) (.withdraw 2 (rInfo 5000 0)),
    .rewards (rBy 3 60) (.distribute 15000),
    .rewards (rBy 1 60) (.withdraw 1 (rInfo 10000 0)),
    .rewards (rBy 1 61) (.calcUnbond 1 (rInfo 10000 0) 4000),
    .rewards (rBy 2 62) (.calcBond 2 ⟨[⟨5000, 0⟩, ⟨3000, 5356800⟩], 0, 5000⟩),
    .rewards (rBy 3 101) (.distribute 14000) ]

theorem rExStart_genesis : Rewards.Spec.Genesis 100 rExStart := by
  refine ⟨rfl, fun t a => ?_, fun t sp => le_refl _⟩
  show (0:Int) ≤ if a = 9 then 10000000 else 0
  split <;> decide
theorem rExHist_possible : ∀ t ∈ rExHist, Rewards.Spec.Possible 100 t := by
  intro t ht
  simp only [rExHist, List.mem_cons, List.not_mem_nil, or_false] at ht
  rcases ht with rfl | rfl | rfl | rfl | rfl | rfl | rfl | rfl | rfl | rfl | rfl <;> rfl
/-- user 2 got 50000 on day 30 (half of 100000, the stake being 30 days old), user 1 got 400000 on day 60 -/
theorem rExHist_result :
    (Rewards.run 100 rExStart rExHist).led.bal 40 1 = 400000 ∧ (Rewards.run 100 rExStart rExHist).led.bal 40 2 = 50000 ∧
    (Rewards.run 100 rExStart rExHist).led.bal 40 100 = 550000 ∧
    queryDistributed (Rewards.run 100 rExStart rExHist).st 40 = .ok 1000000 := by
  refine ⟨?_, ?_, ?_, ?_⟩ <;> decide +kernel

/-! ### C83 -/

/-- **C83** Every call except the initialization needs the approval of the staking contract
named at initialization; a funding also that of the administrator, an unbonding also that of
the user. -/
theorem C83_access {me : Addr} {s s' : Sys} {c : Ctx} {k : Call} (h : Rewards.step me s (.rewards c k) = .ok s')
    (hk : ∀ a st tok mc mr mb, k ≠ .init a st tok mc mr mb) :
    ∃ cfg admin, queryConfig s.st = .ok cfg ∧ queryAdmin s.st = .ok admin ∧ c.auth cfg.staking = true ∧
      (∀ a d x, k = .fund a d x → c.auth admin = true) ∧ (∀ u i y, k = .calcUnbond u i y → c.auth u = true) := by
  have hq : ∀ cfg, s.st.cfg = some cfg → queryConfig s.st = .ok cfg ∧ queryAdmin s.st = .ok s.st.admin := by
    intro cfg hc
    have h1 : getConfig s.st = .ok cfg := getConfig_ok.mpr hc
    refine ⟨h1, ?_⟩
    unfold queryAdmin; rw [h1]; rfl
  cases k with
  | init a st tok mc mr mb => exact absurd rfl (hk a st tok mc mr mb)
  | addUser u i =>
    simp only [Rewards.step, bind_ok, ok_inj] at h
    obtain ⟨v, hi, rfl⟩ := h
    obtain ⟨cfg, h1, h2, -⟩ := addUser_inv hi
    exact ⟨cfg, s.st.admin, (hq cfg h1).1, (hq cfg h1).2, h2, by simp, by simp⟩
  | calcBond u i =>
    simp only [Rewards.step, bind_ok, ok_inj] at h
    obtain ⟨v, hi, rfl⟩ := h
    obtain ⟨cfg, e, h1, h2, -⟩ := calcBond_inv hi
    exact ⟨cfg, s.st.admin, (hq cfg h1).1, (hq cfg h1).2, h2, by simp, by simp⟩
  | calcUnbond u i y =>
    simp only [Rewards.step, bind_ok, ok_inj] at h
    obtain ⟨⟨v, L⟩, hi, rfl⟩ := h
    obtain ⟨cfg, x, h1, h2, h3, -⟩ := calcUnbond_inv hi
    refine ⟨cfg, s.st.admin, (hq cfg h1).1, (hq cfg h1).2, h3, by simp, ?_⟩
    intro u' i' y' e; cases e; exact h2
  | distribute T =>
    simp only [Rewards.step, bind_ok, ok_inj] at h
    obtain ⟨v, hi, rfl⟩ := h
    obtain ⟨cfg, h1, h2, -⟩ := distribute_inv hi
    exact ⟨cfg, s.st.admin, (hq cfg h1).1, (hq cfg h1).2, h2, by simp, by simp⟩
  | withdraw u i =>
    simp only [Rewards.step, bind_ok, ok_inj] at h
    obtain ⟨⟨v, L⟩, hi, rfl⟩ := h
    obtain ⟨cfg, x, h1, h2, -⟩ := withdraw_inv hi
    exact ⟨cfg, s.st.admin, (hq cfg h1).1, (hq cfg h1).2, h2, by simp, by simp⟩
  | fund a d x =>
    simp only [Rewards.step, bind_ok, ok_inj] at h
    obtain ⟨⟨v, L⟩, hi, rfl⟩ := h
    obtain ⟨cfg, kv, h1, h2, h3, -⟩ := fund_inv hi
    exact ⟨cfg, s.st.admin, (hq cfg h1).1, (hq cfg h1).2, h3, fun _ _ _ _ => h2, by simp⟩

/-- **C83** Once set, configuration and administrator never change, whatever happens. -/
theorem C83_settings_permanent {me : Addr} {s : Sys} (ts : List Tx) {cfg : Config} {a : Addr}
    (hc : queryConfig s.st = .ok cfg) (ha : queryAdmin s.st = .ok a) :
    queryConfig (Rewards.run me s ts).st = .ok cfg ∧ queryAdmin (Rewards.run me s ts).st = .ok a := by
  have hc' : s.st.cfg = some cfg := getConfig_ok.mp hc
  have ha' : s.st.admin = a := by
    unfold queryAdmin at ha
    simp only [bind_ok, ok_inj] at ha
    obtain ⟨_, _, ha⟩ := ha
    exact ha
  obtain ⟨h1, h2⟩ := run_cfg (me := me) ts hc'
  have h3 : getConfig (Rewards.run me s ts).st = .ok cfg := getConfig_ok.mpr h1
  refine ⟨h3, ?_⟩
  unfold queryAdmin; rw [h3, h2, ha']; rfl

/-- **C83** A second initialization is refused. -/
theorem C83_init_once {me : Addr} {s : Sys} {c : Ctx} {cfg : Config} (hc : queryConfig s.st = .ok cfg)
    (a st tok : Addr) (mc : Nat) (mr mb : Int) :
    Rewards.step me s (.rewards c (.init a st tok mc mr mb)) = .error (.code 1) := by
  have hc' : s.st.cfg = some cfg := getConfig_ok.mp hc
  simp [Rewards.step, Rewards.init, req, hc', Bind.bind, Except.bind]

/-- **C83**, what fails: the first initialization is open to everybody, with any settings, so
whoever comes first names the staking contract and the administrator. -/
theorem C83_anyone_initialises (me : Addr) {s : Sys} (hs : Rewards.Spec.Genesis me s) (c : Ctx) (a st tok : Addr) (mc : Nat)
    (mr mb : Int) : ∃ s', Rewards.step me s (.rewards c (.init a st tok mc mr mb)) = .ok s' ∧
      queryAdmin s'.st = .ok a ∧ queryConfig s'.st = .ok ⟨st, tok, mc, mr, mb⟩ := by
  obtain ⟨h1, -⟩ := hs
  have hn : s.st.cfg = none := by rw [h1]; rfl
  have h2 : Rewards.step me s (.rewards c (.init a st tok mc mr mb)) =
      .ok { s with st := { s.st with cfg := some ⟨st, tok, mc, mr, mb⟩, admin := a, dist := ⟨1, 0, 0, 0⟩, curve := .constant 0 } } := by
    simp only [Rewards.step, Rewards.init, req, hn, if_true]
    rfl
  exact ⟨_, h2, rfl, rfl⟩

/-- a withdrawal on behalf of user 1 that somebody else asks for directly -/
example : Rewards.Spec.succeeds 100 (Rewards.run 100 rExStart (rExHist.take 7))
    (.rewards { now := 60 * 86400, seq := 0, signed := fun x => x == 1 } (.withdraw 1 (rInfo 10000 0))) = false := by
  decide +kernel
example : Rewards.Spec.succeeds 100 (Rewards.run 100 rExStart (rExHist.take 7))
    (.rewards (rBy 1 60) (.withdraw 1 (rInfo 10000 0))) = true := by decide +kernel

/-! ### C84 -/

/-- **C84** In every history the contract can pay everything it has handed out and not yet
paid: the query for the undistributed rewards never fails. -/
theorem C84_solvent {me : Addr} {s : Sys} (h0 : Rewards.Spec.Genesis me s) (ts : List Tx)
    (ht : ∀ t ∈ ts, Rewards.Spec.Possible me t) {cfg : Config} (hc : queryConfig (Rewards.run me s ts).st = .ok cfg) :
    ∃ u, queryUndistributed me (Rewards.run me s ts).st (Rewards.run me s ts).led cfg.token = .ok u := by
  have hi := run_inv ts ht (Rewards.genesis_inv h0)
  have hc' : (Rewards.run me s ts).st.cfg = some cfg := getConfig_ok.mp hc
  generalize Rewards.run me s ts = z at *
  have h1 := hi.solv cfg hc'
  refine ⟨(z.led.bal cfg.token me).toNat - z.st.dist.withdrawable, ?_⟩
  unfold queryUndistributed
  simp only [bind_ok, getConfig_ok, req_ok, toU128_ok, subU_ok]
  exact ⟨cfg, hc', (), rfl, (z.led.bal cfg.token me).toNat, by omega, by omega, rfl⟩

theorem step_account {me : Addr} {s s' : Sys} {t : Tx} {cfg : Config} (h : Rewards.step me s t = .ok s')
    (hi : Rewards.Inv me s) (hp : payee t ≠ some me) (hc : s'.st.cfg = some cfg) :
    (s'.st.dist.distributed : Int) - s'.st.dist.withdrawable =
      s.st.dist.distributed - s.st.dist.withdrawable + paidBy me s cfg.token t := by
  have hx : Rewards.exec me s t = s' := by unfold Rewards.exec; rw [h]
  cases t with
  | token c tok op =>
    simp only [Rewards.step, bind_ok, ok_inj] at h
    obtain ⟨L, hL, rfl⟩ := h
    simp [paidBy]
  | rewards c k =>
    rcases step_kinds h with ⟨hled, hp', hf⟩ | ⟨cfg', u, i, x, e1, e2, e3, e4, e5, e6, e7, ⟨e8, e9, e10, e11, e12⟩, e13, e14, e15⟩ |
        ⟨cfg', a, d, x, kv, e1, rfl, e2, e3, e4, e5, e6, e7, e8, e9, e10, e11⟩
    · cases k with
      | init a st tok mc mr mb =>
        simp only [Rewards.step, bind_ok, ok_inj] at h
        obtain ⟨v, hi', rfl⟩ := h
        obtain ⟨h1, rfl⟩ := init_inv hi'
        have := (hi.fresh h1).1
        simp [paidBy, this]
      | addUser u i =>
        simp only [Rewards.step, bind_ok, ok_inj] at h
        obtain ⟨v, hi', rfl⟩ := h
        obtain ⟨_, _, _, rfl⟩ := addUser_inv hi'
        simp [paidBy]
      | calcBond u i =>
        simp only [Rewards.step, bind_ok, ok_inj] at h
        obtain ⟨v, hi', rfl⟩ := h
        obtain ⟨_, _, _, _, _, rfl⟩ := calcBond_inv hi'
        simp [paidBy]
      | distribute T =>
        simp only [Rewards.step, bind_ok, ok_inj] at h
        obtain ⟨v, hi', rfl⟩ := h
        obtain ⟨cfg', h1, _, _, ⟨rfl, -⟩ | ⟨x, d, h2, h3, h4, h5, rfl⟩⟩ := distribute_inv hi'
        · simp [paidBy]
        · obtain ⟨_, _, _, k1, k2⟩ := handOut_inv h5
          simp only [paidBy, k1, k2]; omega
      | calcUnbond u i y => simp [payee] at hp'
      | withdraw u i => simp [payee] at hp'
      | fund a d x => exact absurd rfl (hf a d x)
    · rw [e10, e1] at hc; cases hc
      have hu : u ≠ me := by rintro rfl; exact hp e3
      have hb := e13 cfg.token me
      simp only [Flow.delta, List.map_cons, List.map_nil, List.sum_cons, List.sum_nil] at hb
      have hb' : s'.led.bal cfg.token me = s.led.bal cfg.token me - x := by
        rw [hb]; simp [hu]; ring
      have hpb : paidBy me s cfg.token (.rewards c k) = x := by
        rcases e7 with rfl | ⟨y, rfl, -⟩ <;> simp only [paidBy, hx, hb'] <;> ring
      rw [hpb, e8]
      simp only [paidState]
      omega
    · rw [show s'.st.dist = s.st.dist by rw [e9]]
      simp [paidBy]

/-- **C84** All rewards are accounted for: at any moment, what was ever handed out, plus what
is still undistributed, is exactly what the contract holds plus what it has paid to users. -/
theorem C84_accounting {me : Addr} {s : Sys} (h0 : Rewards.Spec.Genesis me s) (ts : List Tx)
    (ht : ∀ t ∈ ts, Rewards.Spec.Possible me t) (hp : ∀ t ∈ ts, payee t ≠ some me) {tok : Addr} {D U : Nat}
    (hD : queryDistributed (Rewards.run me s ts).st tok = .ok D)
    (hU : queryUndistributed me (Rewards.run me s ts).st (Rewards.run me s ts).led tok = .ok U) :
    (D : Int) + U = (Rewards.run me s ts).led.bal tok me + paidOut me s tok ts := by
  have key : ∀ (ts : List Tx) (s : Sys) (cfg : Config), Rewards.Inv me s → (∀ t ∈ ts, Rewards.Spec.Possible me t) →
      (∀ t ∈ ts, payee t ≠ some me) → (Rewards.run me s ts).st.cfg = some cfg →
      ((Rewards.run me s ts).st.dist.distributed : Int) - (Rewards.run me s ts).st.dist.withdrawable =
        s.st.dist.distributed - s.st.dist.withdrawable + paidOut me s cfg.token ts := by
    intro ts
    induction ts with
    | nil => intro s cfg _ _ _ _; simp [Rewards.run, paidOut]
    | cons t ts ih =>
      intro s cfg hi ht hp hc
      have hi' := exec_inv (ht t (List.mem_cons_self ..)) hi
      have h1 := ih (Rewards.exec me s t) cfg hi' (fun t' h' => ht t' (List.mem_cons_of_mem _ h'))
        (fun t' h' => hp t' (List.mem_cons_of_mem _ h')) hc
      show ((Rewards.run me (Rewards.exec me s t) ts).st.dist.distributed : Int) -
        (Rewards.run me (Rewards.exec me s t) ts).st.dist.withdrawable = _
      rw [h1]
      simp only [paidOut]
      have hstep : ((Rewards.exec me s t).st.dist.distributed : Int) - (Rewards.exec me s t).st.dist.withdrawable =
          s.st.dist.distributed - s.st.dist.withdrawable + paidBy me s cfg.token t := by
        cases h : Rewards.step me s t with
        | error e =>
          have hx : Rewards.exec me s t = s := by unfold Rewards.exec; rw [h]
          have : paidBy me s cfg.token t = 0 := by unfold paidBy; rw [hx]; split <;> simp
          rw [hx, this]; ring
        | ok s' =>
          have hx : Rewards.exec me s t = s' := by unfold Rewards.exec; rw [h]
          rw [hx]
          cases hcs : s'.st.cfg with
          | some cfg' =>
            have h2 := (run_cfg (me := me) ts hcs).1
            have h3 : (Rewards.run me s' ts).st.cfg = some cfg := by rw [← hx]; exact hc
            rw [h2] at h3; cases h3
            exact step_account h hi (hp t (List.mem_cons_self ..)) hcs
          | none =>
            have hf := (step_inv h (ht t (List.mem_cons_self ..)) hi).fresh hcs
            have hsn : s.st.cfg = none := by
              cases hs : s.st.cfg with
              | none => rfl
              | some cfg' => have := (step_cfg h hs).1; rw [hcs] at this; cases this
            have hf' := hi.fresh hsn
            have hpz : paidBy me s cfg.token t = 0 := by
              cases t with
              | token c tok op => rfl
              | rewards c k =>
                rcases step_kinds h with ⟨hled, hp', hf⟩ | ⟨cfg', u, i, x, e1, -⟩ | ⟨cfg', a, d, x, kv, e1, -⟩
                · unfold paidBy; rw [hx, hled]; split <;> simp
                · rw [hsn] at e1; cases e1
                · rw [hsn] at e1; cases e1
            rw [hf.1, hf'.1, hpz]; simp
      omega
  unfold queryDistributed at hD
  simp only [bind_ok, getConfig_ok, req_ok, ok_inj] at hD
  obtain ⟨cfg, hc, _, rfl, rfl⟩ := hD
  unfold queryUndistributed at hU
  simp only [bind_ok, getConfig_ok, req_ok, toU128_ok, subU_ok] at hU
  obtain ⟨cfg', hc', _, _, b, hb, hle, rfl⟩ := hU
  have h1 := key ts s cfg (Rewards.genesis_inv h0) ht hp hc
  rw [h0.1] at h1
  simp only [fresh] at h1
  omega

/-- **C84** Nothing leaves the contract except a payment of exactly the queried reward, in the
reward token, to the user the withdrawal or unbonding is for. -/
theorem C84_only_payments_leave {me : Addr} {s : Sys} (h0 : Rewards.Spec.Genesis me s) (ts : List Tx)
    (ht : ∀ t ∈ ts, Rewards.Spec.Possible me t) {t : Tx} (hpt : Rewards.Spec.Possible me t) {s' : Sys} (h : Rewards.step me (Rewards.run me s ts) t = .ok s')
    {tok : Addr} (hlt : s'.led.bal tok me < (Rewards.run me s ts).led.bal tok me) :
    ∃ c u i r cfg, (t = .rewards c (.withdraw u i) ∨ ∃ y, t = .rewards c (.calcUnbond u i y)) ∧
      queryConfig (Rewards.run me s ts).st = .ok cfg ∧ tok = cfg.token ∧
      queryWithdrawable c (Rewards.run me s ts).st u i = .ok r ∧
      Settles (Rewards.run me s ts).led s'.led [⟨tok, me, u, r⟩] := by
  have hi := run_inv ts ht (Rewards.genesis_inv h0)
  generalize Rewards.run me s ts = z at *
  cases t with
  | token c tok' op =>
    simp only [Rewards.step, bind_ok, ok_inj] at h
    obtain ⟨L, hL, rfl⟩ := h
    obtain ⟨_, k2, -⟩ := ledger_call_others hL hpt hi.led
    have := k2 tok
    simp only at hlt
    omega
  | rewards c k =>
    rcases step_kinds h with ⟨hled, hp', hf⟩ | ⟨cfg', u, i, x, e1, e2, e3, e4, e5, e6, e7, ⟨e8, e9, e10, e11, e12⟩, e13, e14, e15⟩ |
        ⟨cfg', a, d, x, kv, e1, rfl, e2, e3, e4, e5, e6, e7, e8, e9, e10, e11⟩
    · rw [hled] at hlt; omega
    · have hb := e13 tok me
      simp only [Flow.delta, List.map_cons, List.map_nil, List.sum_cons, List.sum_nil] at hb
      have htok : tok = cfg'.token := by
        by_contra hne
        have hne' : ¬ cfg'.token = tok := fun e => hne e.symm
        simp [hne'] at hb
        omega
      refine ⟨c, u, i, x.toNat, cfg', ?_, getConfig_ok.mpr e1, htok, ?_, ?_⟩
      · rcases e7 with rfl | ⟨y, rfl, -⟩
        · exact .inl rfl
        · exact .inr ⟨y, rfl⟩
      · unfold queryWithdrawable
        simp only [bind_ok, getConfig_ok, toU128_ok]
        exact ⟨cfg', e1, x, e4, by omega⟩
      · rw [htok, show ((x.toNat : Nat) : Int) = x by omega]; exact e13
    · exfalso
      have hb := e10 tok me
      simp only [Flow.delta, List.map_cons, List.map_nil, List.sum_cons, List.sum_nil] at hb
      by_cases hadm : z.st.admin = me
      · have := (Rewards.Spec.Possible.eq_1 me _ ▸ hpt : _)
        simp only [Tx.ctx] at this
        rw [hadm, this] at e2; cases e2
      · have hadm' : ¬ me = z.st.admin := fun e => hadm e.symm
        by_cases htok : tok = cfg'.token
        · simp [htok, hadm] at hb
          rw [htok] at hlt
          omega
        · have htok' : ¬ cfg'.token = tok := fun e => htok e.symm
          simp [htok'] at hb
          omega

/-- 1000000 handed out, 0 left, 550000 held and 450000 paid -/
example : queryDistributed (Rewards.run 100 rExStart rExHist).st 40 = .ok 1000000 ∧
    queryUndistributed 100 (Rewards.run 100 rExStart rExHist).st (Rewards.run 100 rExStart rExHist).led 40 = .ok 0 ∧
    paidOut 100 rExStart 40 rExHist = 450000 := by
  refine ⟨?_, ?_, ?_⟩ <;> decide +kernel
example : ∀ t ∈ rExHist, payee t ≠ some 100 := by
  intro t ht
  simp only [rExHist, List.mem_cons, List.not_mem_nil, or_false] at ht
  rcases ht with rfl | rfl | rfl | rfl | rfl | rfl | rfl | rfl | rfl | rfl | rfl <;> decide

/-! ### C85 -/

/-- **C85** If the staking contract reports truthfully, then at any moment the rewards of any
set of users, as the query shows them, can all be paid at once: together they are at most
what the contract holds beyond the undistributed rewards. -/
theorem C85_all_can_be_paid {me : Addr} {s : Sys} (h0 : Rewards.Spec.Genesis me s) (ts : List Tx)
    (ht : ∀ t ∈ ts, Rewards.Spec.Possible me t) (hh : HonestRun me (fun _ => 0) s ts)
    (U : Finset Addr) (c : Addr → Ctx) (i : Addr → Info) (r : Addr → Nat)
    (hi : ∀ u ∈ U, (i u).total = bookAfter me (fun _ => 0) s ts u)
    (hr : ∀ u ∈ U, queryWithdrawable (c u) (Rewards.run me s ts).st u (i u) = .ok (r u)) {cfg : Config} {x : Nat}
    (hc : queryConfig (Rewards.run me s ts).st = .ok cfg)
    (hx : queryUndistributed me (Rewards.run me s ts).st (Rewards.run me s ts).led cfg.token = .ok x) :
    ∑ u ∈ U, (r u : Int) + x ≤ (Rewards.run me s ts).led.bal cfg.token me := by
  have hv := run_hinv ts ht (Rewards.genesis_inv h0) hh (genesis_hinv h0)
  have hc' : (Rewards.run me s ts).st.cfg = some cfg := getConfig_ok.mp hc
  generalize Rewards.run me s ts = z at *
  generalize bookAfter me (fun _ => 0) s ts = b at *
  have h1 : ∀ u ∈ U, 4294967296 * (r u : Int) ≤ due z.st cfg b u := by
    intro u hu
    obtain ⟨cfg', k1, k2⟩ := queryWithdrawable_inv (hr u hu)
    rw [hc'] at k1; cases k1
    obtain ⟨f, k3, -, -, -, k4⟩ := payable_inv k2
    rw [hi u hu] at k3
    have := (claim_due k3).2
    omega
  have h2 := hv.sum cfg hc' U
  have h3 := Finset.sum_le_sum h1
  rw [← Finset.mul_sum] at h3
  unfold queryUndistributed at hx
  simp only [bind_ok, getConfig_ok, req_ok, toU128_ok, subU_ok] at hx
  obtain ⟨cfg', -, _, _, y, hy, hle, rfl⟩ := hx
  omega

/-- **C85** With truthful reports, a reward shown by the query can be withdrawn at once, in full. -/
theorem C85_query_then_withdraw {me : Addr} {s : Sys} (h0 : Rewards.Spec.Genesis me s) (ts : List Tx)
    (ht : ∀ t ∈ ts, Rewards.Spec.Possible me t) (hh : HonestRun me (fun _ => 0) s ts) {c : Ctx} {u : Addr} {i : Info} {r : Nat}
    (hu : u ≠ me) (hi : i.total = bookAfter me (fun _ => 0) s ts u) {cfg : Config} (hc : queryConfig (Rewards.run me s ts).st = .ok cfg)
    (ha : c.auth cfg.staking = true) (hr : queryWithdrawable c (Rewards.run me s ts).st u i = .ok r)
    (hb : (Rewards.run me s ts).led.bal cfg.token me ≤ I128_MAX)
    (hb' : (Rewards.run me s ts).led.bal cfg.token u + r ≤ I128_MAX) :
    ∃ s', Rewards.step me (Rewards.run me s ts) (.rewards c (.withdraw u i)) = .ok s' ∧
      Settles (Rewards.run me s ts).led s'.led [⟨cfg.token, me, u, r⟩] := by
  have hv := run_hinv ts ht (Rewards.genesis_inv h0) hh (genesis_hinv h0)
  have hI := run_inv ts ht (Rewards.genesis_inv h0)
  have hc' : (Rewards.run me s ts).st.cfg = some cfg := getConfig_ok.mp hc
  generalize Rewards.run me s ts = z at *
  generalize bookAfter me (fun _ => 0) s ts = b at *
  obtain ⟨cfg', k1, k2⟩ := queryWithdrawable_inv hr
  rw [hc'] at k1; cases k1
  obtain ⟨f, k3, -, -, -, k4⟩ := payable_inv k2
  have k3' := k3
  rw [hi] at k3
  have k5 := (claim_due k3).2
  have h2 := hv.sum cfg hc' {u}
  rw [Finset.sum_singleton] at h2
  have h3 := hI.solv cfg hc'
  have hsmall := payable_small k2
  have hstep : ∃ s', Rewards.step me z (.rewards c (.withdraw u i)) = .ok s' := by
    by_cases hz : (r : Int) = 0
    · refine ⟨z, ?_⟩
      simp only [Rewards.step, bind_ok]
      refine ⟨(z.st, z.led), ?_, rfl⟩
      unfold Rewards.withdraw
      simp only [bind_ok, getConfig_ok, requireAuth_ok]
      exact ⟨cfg, hc', (), ha, r, k2, by rw [if_pos hz]⟩
    · have hmx : I128_MAX < (U128_LIM : Int) := by decide
      obtain ⟨L', hL⟩ := Stake.transfer_works (c := c.as me) (L := z.led) (t := cfg.token) (src := me) (d := u) (x := (r : Int))
        (as_auth_self c me) (by omega) (by omega) hb hu (hI.led.nonneg _ _) hb'
      have hw : (z.st.adj u).withdrawn + asU128 (r : Int) < U128_LIM := by
        rw [asU128_toNat (by omega) hsmall]
        have hclaim := k3'
        unfold claim at hclaim
        simp only [bind_ok, toI128_ok, mulI_ok, addI_ok, toU128_ok, subU_ok] at hclaim
        obtain ⟨p, _, _, ⟨_, rfl⟩, _, ⟨_, rfl⟩, _, ⟨hq, rfl⟩, a, ha', hle, rfl⟩ := hclaim
        have := hq.2
        omega
      have hdo : ∃ v, Rewards.withdraw me c z.st z.led u i = .ok (v, L') := by
        unfold Rewards.withdraw
        simp only [bind_ok, getConfig_ok, requireAuth_ok]
        refine ⟨{ z.st with dist := { z.st.dist with withdrawable := z.st.dist.withdrawable - asU128 (r : Int) }, adj := upd z.st.adj u { z.st.adj u with withdrawn := (z.st.adj u).withdrawn + asU128 (r : Int) } },
          cfg, hc', (), ha, r, k2, ?_⟩
        rw [if_neg hz]
        simp only [bind_ok, add128_ok, subU_ok]
        refine ⟨_, ⟨hw, rfl⟩, _, ⟨?_, rfl⟩, L', hL, rfl⟩
        rw [asU128_toNat (by omega) hsmall]
        omega
      obtain ⟨v, hdo⟩ := hdo
      refine ⟨⟨v, L'⟩, ?_⟩
      simp only [Rewards.step, bind_ok]
      exact ⟨(v, L'), hdo, rfl⟩
  obtain ⟨s', hs'⟩ := hstep
  refine ⟨s', hs', ?_⟩
  simp only [Rewards.step, bind_ok, ok_inj] at hs'
  obtain ⟨⟨v, L⟩, hw, rfl⟩ := hs'
  obtain ⟨cfg', x, e1, e2, e3, e4, e5, e6, e7, e8, e9⟩ := withdraw_inv hw
  rw [hc'] at e1; cases e1
  rw [k2, ok_inj] at e3
  rw [e3]; exact e8

/-- **C85** Nothing that happens to other users, and no funding, changes what a user is shown;
this needs no assumption about the reports. -/
theorem C85_others_unaffected {me : Addr} {s s' : Sys} {t : Tx} (h : Rewards.step me s t = .ok s') {u : Addr}
    (ht : match t with
      | .rewards _ (.addUser v _) => v ≠ u
      | .rewards _ (.calcBond v _) => v ≠ u
      | .rewards _ (.calcUnbond v _ _) => v ≠ u
      | .rewards _ (.withdraw v _) => v ≠ u
      | .rewards _ (.fund _ _ _) => True
      | .token _ _ _ => True
      | _ => False) (c : Ctx) (i : Info) :
    queryWithdrawable c s'.st u i = queryWithdrawable c s.st u i := by
  have key : ∀ z z' : State, z'.cfg = z.cfg → z'.dist.spp = z.dist.spp → z'.adj u = z.adj u →
      queryWithdrawable c z' u i = queryWithdrawable c z u i := by
    intro z z' h1 h2 h3
    unfold queryWithdrawable getConfig payable claim
    rw [h1, h2, h3]
  cases t with
  | token c' tok op =>
    simp only [Rewards.step, bind_ok, ok_inj] at h
    obtain ⟨L, hL, rfl⟩ := h
    rfl
  | rewards c' k =>
    cases k with
    | init a st tok mc mr mb => exact ht.elim
    | distribute T => exact ht.elim
    | addUser v j =>
      simp only [Rewards.step, bind_ok, ok_inj] at h
      obtain ⟨w, hi', rfl⟩ := h
      obtain ⟨_, _, _, rfl⟩ := addUser_inv hi'
      exact key _ _ rfl rfl (upd_ne _ _ (Ne.symm ht))
    | calcBond v j =>
      simp only [Rewards.step, bind_ok, ok_inj] at h
      obtain ⟨w, hi', rfl⟩ := h
      obtain ⟨_, _, _, _, _, rfl⟩ := calcBond_inv hi'
      exact key _ _ rfl rfl (upd_ne _ _ (Ne.symm ht))
    | calcUnbond v j y =>
      simp only [Rewards.step, bind_ok, ok_inj] at h
      obtain ⟨⟨w, L⟩, hi', rfl⟩ := h
      obtain ⟨cfg, x, h1, _, _, _, _, _, rfl, -⟩ := calcUnbond_inv hi'
      refine key _ _ rfl rfl ?_
      have hne : u ≠ v := Ne.symm ht
      show upd (paidState s.st v x).adj v _ u = _
      rw [upd_ne _ _ hne]
      show upd s.st.adj v _ u = _
      rw [upd_ne _ _ hne]
    | withdraw v j =>
      simp only [Rewards.step, bind_ok, ok_inj] at h
      obtain ⟨⟨w, L⟩, hi', rfl⟩ := h
      obtain ⟨cfg, x, _, _, _, _, _, rfl, -⟩ := withdraw_inv hi'
      exact key _ _ rfl rfl (upd_ne _ _ (Ne.symm ht))
    | fund a d x =>
      simp only [Rewards.step, bind_ok, ok_inj] at h
      obtain ⟨⟨w, L⟩, hi', rfl⟩ := h
      obtain ⟨cfg, kv, _, _, _, _, _, _, _, _, _, rfl, -⟩ := fund_inv hi'
      exact key _ _ rfl rfl rfl

/-- **C85** A user's own truthfully reported new stake changes nothing of the rewards earned so
far: with the same list of stakes the query shows the same before (old total) and after (new total). -/
theorem C85_own_stake_neutral {me : Addr} {s s' : Sys} {c : Ctx} {u : Addr} {i : Info} {e : Entry} {r r' : Nat} {st : List Entry} {l l' : Nat} {c' : Ctx}
    (h : Rewards.step me s (.rewards c (.calcBond u i)) = .ok s') (he : i.stakes.getLast? = some e)
    (hq : queryWithdrawable c' s.st u ⟨st, l, i.total⟩ = .ok r)
    (hq' : queryWithdrawable c' s'.st u ⟨st, l', i.total + e.amount⟩ = .ok r') : r' = r := by
  simp only [Rewards.step, bind_ok, ok_inj] at h
  obtain ⟨w, hi', rfl⟩ := h
  obtain ⟨cfg, e', h1, _, h2, rfl⟩ := calcBond_inv hi'
  rw [he] at h2; cases h2
  obtain ⟨cfg1, j1, j2⟩ := queryWithdrawable_inv hq
  rw [h1] at j1; cases j1
  obtain ⟨cfg1, j1, j3⟩ := queryWithdrawable_inv hq'
  simp only at j1
  rw [h1] at j1; cases j1
  obtain ⟨f, k1, -, k2, -⟩ := payable_inv j2
  obtain ⟨f', k1', -, k2', -⟩ := payable_inv j3
  have g := (claim_inv k1).2
  have g' := (claim_inv k1').2
  simp only [upd_same] at g'
  have : (f' : Int) = f := by rw [g, g']; congr 2; ring
  rw [this] at k2'
  simp only at k2 k2'
  omega

/-- **C85** Unbonding pays the reward shown, and leaves the user with exactly the rest: afterwards
the query with the reduced total shows what it showed before with the full list of stakes, less the payment. -/
theorem C85_own_unstake_neutral {me : Addr} {s s' : Sys} {c c' : Ctx} {u : Addr} {i : Info} {y : Int} {r p r' : Nat} {st : List Entry} {l l' : Nat}
    (h : Rewards.step me s (.rewards c (.calcUnbond u i y)) = .ok s')
    (hp : queryWithdrawable c s.st u i = .ok p)
    (hm : multiplier c'.now st = 10 ^ 18) (hq : queryWithdrawable c' s.st u ⟨st, l, i.total⟩ = .ok r)
    (hq' : queryWithdrawable c' s'.st u ⟨st, l', i.total - y⟩ = .ok r') : (r' : Int) = r - p := by
  simp only [Rewards.step, bind_ok, ok_inj] at h
  obtain ⟨⟨w, L⟩, hi', rfl⟩ := h
  obtain ⟨cfg, x, h1, _, _, hx, hx0, _, rfl, -⟩ := calcUnbond_inv hi'
  obtain ⟨cfg1, j1, j2⟩ := queryWithdrawable_inv hq
  rw [h1] at j1; cases j1
  obtain ⟨cfg1, j1, j0⟩ := queryWithdrawable_inv hp
  rw [h1] at j1; cases j1
  rw [hx, ok_inj] at j0
  obtain ⟨cfg1, j1, j3⟩ := queryWithdrawable_inv hq'
  simp only [paidState] at j1
  rw [h1] at j1; cases j1
  obtain ⟨f, k1, -, k2, -⟩ := payable_inv j2
  obtain ⟨f', k1', -, k2', -⟩ := payable_inv j3
  have g := (claim_inv k1).2
  have g' := (claim_inv k1').2
  simp only [paidState, upd_same] at g'
  simp only [hm] at k2 k2'
  rw [show ((s.st.dist.spp : Int) * weight cfg.minBond (i.total - y) +
      ((s.st.adj u).corr - s.st.dist.spp * (weight cfg.minBond (i.total - y) - weight cfg.minBond i.total))) =
      s.st.dist.spp * weight cfg.minBond i.total + (s.st.adj u).corr by ring] at g'
  simp only at g g'
  have e1 : (r : Int) = f := by rw [k2]; exact Int.mul_ediv_cancel _ (by decide)
  have e2 : (r' : Int) = f' := by rw [k2']; exact Int.mul_ediv_cancel _ (by decide)
  omega

/-- the leftover of a distribution is smaller than the points it was divided by -/
theorem step_leftover {me : Addr} {s s' : Sys} {t : Tx} {M : Nat} (h : Rewards.step me s t = .ok s')
    (hM : ∀ c T cfg, t = .rewards c (.distribute T) → s.st.cfg = some cfg → weight cfg.minBond T ≤ M)
    (hl : s.st.dist.leftover ≤ M) : s'.st.dist.leftover ≤ M := by
  cases t with
  | token c tok op =>
    simp only [Rewards.step, bind_ok, ok_inj] at h
    obtain ⟨L, hL, rfl⟩ := h
    exact hl
  | rewards c k =>
    rcases step_kinds h with ⟨hled, hp', hf⟩ | ⟨cfg', u, i, x, e1, e2, e3, e4, e5, e6, e7, ⟨e8, e9, e10, e11, e12⟩, e13, e14, e15⟩ |
        ⟨cfg', a, d, x, kv, e1, rfl, e2, e3, e4, e5, e6, e7, e8, e9, e10, e11⟩
    · cases k with
      | init a st tok mc mr mb =>
        simp only [Rewards.step, bind_ok, ok_inj] at h
        obtain ⟨v, hi', rfl⟩ := h
        obtain ⟨h1, rfl⟩ := init_inv hi'
        exact Nat.zero_le _
      | addUser u i =>
        simp only [Rewards.step, bind_ok, ok_inj] at h
        obtain ⟨v, hi', rfl⟩ := h
        obtain ⟨_, _, _, rfl⟩ := addUser_inv hi'
        exact hl
      | calcBond u i =>
        simp only [Rewards.step, bind_ok, ok_inj] at h
        obtain ⟨v, hi', rfl⟩ := h
        obtain ⟨_, _, _, _, _, rfl⟩ := calcBond_inv hi'
        exact hl
      | distribute T =>
        simp only [Rewards.step, bind_ok, ok_inj] at h
        obtain ⟨v, hi', rfl⟩ := h
        obtain ⟨cfg', h1, _, _, ⟨rfl, -⟩ | ⟨x, d, h2, h3, h4, h5, rfl⟩⟩ := distribute_inv hi'
        · exact hl
        · obtain ⟨k0, _, k1, -⟩ := handOut_inv h5
          have := hM c T cfg' rfl h1
          show d.leftover ≤ M
          rw [k1]
          refine le_trans (Nat.mod_le _ _) ?_
          have := Nat.mod_lt (x * 4294967296 % U128_LIM + s.st.dist.leftover) (Nat.pos_of_ne_zero k0)
          omega
      | calcUnbond u i y => simp [payee] at hp'
      | withdraw u i => simp [payee] at hp'
      | fund a d x => exact absurd rfl (hf a d x)
    · rw [e8]; exact hl
    · rw [show s'.st.dist = s.st.dist by rw [e9]]; exact hl

theorem run_leftover {me : Addr} {M : Nat} {cfg : Config} (ts : List Tx) (s : Sys) (hc : (Rewards.run me s ts).st.cfg = some cfg)
    (hM : ∀ c T, Tx.rewards c (.distribute T) ∈ ts → weight cfg.minBond T ≤ M)
    (hl : s.st.dist.leftover ≤ M) : (Rewards.run me s ts).st.dist.leftover ≤ M := by
  induction ts generalizing s with
  | nil => exact hl
  | cons t ts ih =>
    refine ih (Rewards.exec me s t) hc (fun c T h' => hM c T (List.mem_cons_of_mem _ h')) ?_
    unfold Rewards.exec
    cases h : Rewards.step me s t with
    | error e => exact hl
    | ok s' =>
      refine step_leftover h (fun c T cfg' e hc' => ?_) hl
      have := (run_cfg (me := me) (t :: ts) hc').1
      rw [hc] at this; cases this
      exact hM c T (by rw [← e]; exact List.mem_cons_self ..)

/-- **C85** A distribution gives every user the proportional share, up to rounding.  If the
amount handed out is `A`, the user's points are `w` of a total of `W`, and no distribution so
far was divided by more than `M` points, then for a user whose stakes are all old enough the
query grows by `A * w / W`, with an error below `1 + w / 2 ^ 32` downwards and below
`1 + M * w / (W * 2 ^ 32)` upwards. -/
theorem C85_proportional {me : Addr} {s : Sys} (h0 : Rewards.Spec.Genesis me s) (ts : List Tx) {s' : Sys} {c c' : Ctx} {T : Int}
    (h : Rewards.step me (Rewards.run me s ts) (.rewards c (.distribute T)) = .ok s') {cfg : Config}
    (hc : queryConfig (Rewards.run me s ts).st = .ok cfg) {M : Nat}
    (hM : ∀ c T, Tx.rewards c (.distribute T) ∈ ts → weight cfg.minBond T ≤ M) {D A : Nat}
    (hD : queryDistributed (Rewards.run me s ts).st cfg.token = .ok D)
    (hA : queryDistributed s'.st cfg.token = .ok (D + A)) (hA0 : 0 < A) (hAs : A < 2 ^ 96) {u : Addr} {i : Info} {r r' : Nat}
    (hpos : 0 ≤ i.total) (hm : multiplier c'.now i.stakes = 10 ^ 18)
    (hr : queryWithdrawable c' (Rewards.run me s ts).st u i = .ok r)
    (hr' : queryWithdrawable c' s'.st u i = .ok r') :
    2 ^ 32 * (A * weight cfg.minBond i.total) <
        weight cfg.minBond T * (2 ^ 32 * ((r' : Int) - r + 1) + weight cfg.minBond i.total) ∧
    weight cfg.minBond T * (2 ^ 32 * ((r' : Int) - r - 1)) <
        (2 ^ 32 * A + M) * weight cfg.minBond i.total := by
  have hc' : (Rewards.run me s ts).st.cfg = some cfg := getConfig_ok.mp hc
  have hl := run_leftover ts s hc' hM (by rw [h0.1]; exact Nat.zero_le _)
  generalize Rewards.run me s ts = z at *
  simp only [Rewards.step, bind_ok, ok_inj] at h
  obtain ⟨v, hi', rfl⟩ := h
  unfold queryDistributed at hD hA
  simp only [bind_ok, getConfig_ok, req_ok, ok_inj] at hD hA
  obtain ⟨_, -, _, -, hD⟩ := hD
  obtain ⟨_, -, _, -, hA⟩ := hA
  obtain ⟨cfg', h1, _, _, ⟨rfl, -⟩ | ⟨x, d, h2, h3, h4, h5, rfl⟩⟩ := distribute_inv hi'
  · omega
  · rw [hc'] at h1; cases h1
    obtain ⟨k0, k1, k2, k3, k4⟩ := handOut_inv h5
    simp only at hA
    have hx : x = A := by omega
    subst hx
    obtain ⟨W, hW⟩ : ∃ W : Nat, (W : Int) = weight cfg.minBond T := ⟨(weight cfg.minBond T).toNat, by omega⟩
    obtain ⟨w, hw⟩ : ∃ w : Nat, (w : Int) = weight cfg.minBond i.total :=
      ⟨(weight cfg.minBond i.total).toNat, by have := weight_nonneg (mb := cfg.minBond) hpos; omega⟩
    rw [show (weight cfg.minBond T).toNat = W by omega] at k0 k1 k2
    have hlim : x * 4294967296 < U128_LIM := by
      have : U128_LIM = 2 ^ 96 * 4294967296 := by decide
      rw [this]; exact Nat.mul_lt_mul_of_pos_right hAs (by decide)
    rw [Nat.mod_eq_of_lt hlim] at k1 k2
    obtain ⟨cfg1, j1, j2⟩ := queryWithdrawable_inv hr
    rw [hc'] at j1; cases j1
    obtain ⟨cfg1, j1, j3⟩ := queryWithdrawable_inv hr'
    simp only at j1
    rw [hc'] at j1; cases j1
    obtain ⟨f, a1, -, a2, -⟩ := payable_inv j2
    obtain ⟨f', b1, -, b2, -⟩ := payable_inv j3
    have g := (claim_inv a1).2
    have g' := (claim_inv b1).2
    rw [hm] at a2 b2
    have e1 : (r : Int) = f := by rw [a2]; exact Int.mul_ediv_cancel _ (by decide)
    have e2 : (r' : Int) = f' := by rw [b2]; exact Int.mul_ediv_cancel _ (by decide)
    simp only [k1, ← hw, ← hW] at g g' ⊢
    have hdm := Nat.div_add_mod (x * 4294967296 + z.st.dist.leftover) W
    have hml := Nat.mod_lt (x * 4294967296 + z.st.dist.leftover) (Nat.pos_of_ne_zero k0)
    generalize (x * 4294967296 + z.st.dist.leftover) / W = q at *
    generalize (x * 4294967296 + z.st.dist.leftover) % W = m at *
    have hexp : ((z.st.dist.spp + q : Nat) : Int) * w + (z.st.adj u).corr =
        (z.st.dist.spp * w + (z.st.adj u).corr) + q * w := by push_cast; ring
    rw [hexp] at g'
    generalize (z.st.dist.spp : Int) * w + (z.st.adj u).corr = P at *
    -- 2^32 (r' - r) is within 2^32 of q w
    have lo : (q : Int) * w < 4294967296 * ((r' : Int) - r + 1) := by omega
    have hi2 : 4294967296 * ((r' : Int) - r - 1) < (q : Int) * w := by omega
    have hdm' : (W : Int) * q + m = x * 4294967296 + z.st.dist.leftover := by exact_mod_cast hdm
    have hW0 : (0 : Int) < W := by omega
    have hw0 : (0 : Int) ≤ w := by omega
    have hm' : (m : Int) < W := by exact_mod_cast hml
    have hl' : (z.st.dist.leftover : Int) ≤ M := by exact_mod_cast hl
    have hl0 : (0 : Int) ≤ z.st.dist.leftover := by omega
    have hm0 : (0 : Int) ≤ m := by omega
    constructor
    · have p1 : (W : Int) * (q * w) < W * (4294967296 * ((r' : Int) - r + 1)) := by
        exact (Int.mul_lt_mul_left hW0).mpr lo
      have p2 : (x : Int) * 4294967296 * w ≤ (W * q + m) * w := by
        rw [hdm']; exact mul_le_mul_of_nonneg_right (by omega) hw0
      have p3 : (m : Int) * w ≤ W * w := mul_le_mul_of_nonneg_right hm'.le hw0
      generalize (r' : Int) - r = δ at *
      have p4 : (W * (q : Int) + m) * w = W * (q * w) + m * w := by ring
      have p5 : (W : Int) * (2 ^ 32 * (δ + 1) + w) = W * (4294967296 * (δ + 1)) + W * w := by ring
      have p6 : (2 : Int) ^ 32 * (x * w) = x * 4294967296 * w := by ring
      omega
    · have p1 : (W : Int) * (4294967296 * ((r' : Int) - r - 1)) < W * (q * w) := by
        exact (Int.mul_lt_mul_left hW0).mpr hi2
      have p2 : ((W : Int) * q) * w ≤ (x * 4294967296 + M) * w := mul_le_mul_of_nonneg_right (by omega) hw0
      generalize (r' : Int) - r = δ at *
      have p4 : ((W : Int) * q) * w = W * (q * w) := by ring
      have p5 : (W : Int) * (2 ^ 32 * (δ - 1)) = W * (4294967296 * (δ - 1)) := by ring
      have p6 : ((2 : Int) ^ 32 * x + M) * w = (x * 4294967296 + M) * w := by ring
      omega

/-- stakes of `x` and `y` for users 1 and 2 -/
def rBook (x y : Int) : Book := fun u => if u = 1 then x else if u = 2 then y else 0
theorem rBook_sum {x y T : Int} (hx : 0 ≤ x) (hy : 0 ≤ y) (hT : x + y ≤ T) (U : Finset Addr) : ∑ u ∈ U, rBook x y u ≤ T := by
  have h0 : ∀ u, 0 ≤ rBook x y u := by intro u; unfold rBook; split <;> (try split) <;> omega
  have h1 : ∑ u ∈ U, rBook x y u ≤ ∑ u ∈ U ∪ {1, 2}, rBook x y u :=
    Finset.sum_le_sum_of_subset_of_nonneg Finset.subset_union_left (fun u _ _ => h0 u)
  have h2 : ∑ u ∈ U ∪ {1, 2}, rBook x y u = ∑ u ∈ ({1, 2} : Finset Addr), rBook x y u := by
    refine (Finset.sum_subset Finset.subset_union_right (fun u _ hu => ?_)).symm
    simp only [Finset.mem_insert, Finset.mem_singleton, not_or] at hu
    simp [rBook, hu.1, hu.2]
  have h3 : ∑ u ∈ ({1, 2} : Finset Addr), rBook x y u = x + y := by
    rw [Finset.sum_pair (by decide)]; rfl
  omega
theorem rHonest_cons {me : Addr} {b b' : Book} {s : Sys} {t : Tx} {ts : List Tx} (h1 : Honest b t) (h2 : book me b s t = b')
    (h3 : HonestRun me b' (Rewards.exec me s t) ts) : HonestRun me b s (t :: ts) := ⟨h1, by rw [h2]; exact h3⟩
theorem rBook_zero : (fun _ => 0 : Book) = rBook 0 0 := by funext u; simp [rBook]
theorem rBook_upd1 (x y z : Int) : upd (rBook x y) 1 z = rBook z y := by
  funext u; rw [upd_apply]; unfold rBook; split <;> simp_all
theorem rBook_upd2 (x y z : Int) : upd (rBook x y) 2 z = rBook x z := by
  funext u; rw [upd_apply]; unfold rBook; split <;> simp_all

/-- the reports in the example are truthful, and the stakes are 6000 and 8000 in the end -/
theorem rExHist_honest : HonestRun 100 (fun _ => 0) rExStart rExHist ∧ bookAfter 100 (fun _ => 0) rExStart rExHist = rBook 6000 8000 := by
  rw [rBook_zero]
  have key : ∀ (b b' : Book) (s : Sys) (t : Tx) (ts : List Tx) (B : Book), Honest b t → book 100 b s t = b' →
      (HonestRun 100 b' (Rewards.exec 100 s t) ts ∧ bookAfter 100 b' (Rewards.exec 100 s t) ts = B) →
      HonestRun 100 b s (t :: ts) ∧ bookAfter 100 b s (t :: ts) = B := by
    intro b b' s t ts B h1 h2 h3
    exact ⟨⟨h1, by rw [h2]; exact h3.1⟩, by show bookAfter 100 (book 100 b s t) _ ts = B; rw [h2]; exact h3.2⟩
  unfold rExHist
  refine key _ (rBook 0 0) _ _ _ _ ?_ ?_ ?_
  · exact trivial
  · unfold book; split <;> rfl
  refine key _ (rBook 10000 0) _ _ _ _ ?_ ?_ ?_
  · exact ⟨rfl, by decide⟩
  · unfold book; rw [if_pos (by decide +kernel)]; exact rBook_upd1 _ _ _
  refine key _ (rBook 10000 5000) _ _ _ _ ?_ ?_ ?_
  · exact ⟨rfl, by intro e he; cases he; decide⟩
  · unfold book; rw [if_pos (by decide +kernel)]; exact rBook_upd2 _ _ _
  refine key _ (rBook 10000 5000) _ _ _ _ ?_ ?_ ?_
  · exact trivial
  · unfold book; split <;> rfl
  refine key _ (rBook 10000 5000) _ _ _ _ ?_ ?_ ?_
  · exact rBook_sum (by decide) (by decide) (by decide)
  · unfold book; split <;> rfl
  refine key _ (rBook 10000 5000) _ _ _ _ ?_ ?_ ?_
  · exact rfl
  · unfold book; split <;> rfl
  refine key _ (rBook 10000 5000) _ _ _ _ ?_ ?_ ?_
  · exact rBook_sum (by decide) (by decide) (by decide)
  · unfold book; split <;> rfl
  refine key _ (rBook 10000 5000) _ _ _ _ ?_ ?_ ?_
  · exact rfl
  · unfold book; split <;> rfl
  refine key _ (rBook 6000 5000) _ _ _ _ ?_ ?_ ?_
  · exact ⟨rfl, by decide, by decide⟩
  · unfold book; rw [if_pos (by decide +kernel)]; exact rBook_upd1 _ _ _
  refine key _ (rBook 6000 8000) _ _ _ _ ?_ ?_ ?_
  · exact ⟨rfl, by intro e he; cases he; decide⟩
  · unfold book; rw [if_pos (by decide +kernel)]; exact rBook_upd2 _ _ _
  refine key _ (rBook 6000 8000) _ _ _ _ ?_ ?_ ?_
  · exact rBook_sum (by decide) (by decide) (by decide)
  · unfold book; split <;> rfl
  exact ⟨trivial, rfl⟩

/-- on day 122 everything can be paid: 171428 to user 1 and 378571 to user 2 out of 550000 -/
example : queryWithdrawable (rBy 1 122) (Rewards.run 100 rExStart rExHist).st 1 (rInfo 6000 0) = .ok 171428 ∧
    queryWithdrawable (rBy 2 122) (Rewards.run 100 rExStart rExHist).st 2 ⟨[⟨5000, 0⟩, ⟨3000, 5356800⟩], 0, 8000⟩ = .ok 378571 ∧
    multiplier (122 * 86400) [⟨5000, 0⟩, ⟨3000, 5356800⟩] = 10 ^ 18 := by
  refine ⟨?_, ?_, ?_⟩ <;> decide +kernel
/-- the second distribution of the example, on day 60: user 1 has 10 of 15 points and gains 200000 of 300000 -/
example : queryDistributed (Rewards.run 100 rExStart (rExHist.take 6)).st 40 = .ok 300000 ∧
    queryDistributed (Rewards.run 100 rExStart (rExHist.take 7)).st 40 = .ok (300000 + 300000) ∧
    queryWithdrawable (rBy 1 60) (Rewards.run 100 rExStart (rExHist.take 6)).st 1 (rInfo 10000 0) = .ok 200000 ∧
    queryWithdrawable (rBy 1 60) (Rewards.run 100 rExStart (rExHist.take 7)).st 1 (rInfo 10000 0) = .ok 400000 ∧
    weight 1000 10000 = 10 ∧ weight 1000 15000 = 15 := by
  refine ⟨?_, ?_, ?_, ?_, ?_, ?_⟩ <;> decide +kernel
/-- unbonding on day 61 and the new stake on day 62 -/
example : queryWithdrawable (rBy 1 122) (Rewards.run 100 rExStart (rExHist.take 8)).st 1 (rInfo 10000 0) = .ok 0 ∧
    queryWithdrawable (rBy 1 122) (Rewards.run 100 rExStart (rExHist.take 9)).st 1 (rInfo 6000 0) = .ok 0 ∧
    queryWithdrawable (rBy 2 122) (Rewards.run 100 rExStart (rExHist.take 9)).st 2 (rInfo 5000 0) = .ok 150000 ∧
    queryWithdrawable (rBy 2 122) (Rewards.run 100 rExStart (rExHist.take 10)).st 2 ⟨[⟨5000, 0⟩], 0, 8000⟩ = .ok 150000 := by
  refine ⟨?_, ?_, ?_, ?_⟩ <;> decide +kernel

/-! ### C86 -/

theorem multiplier_eq (now : Nat) (l : List Entry) : multiplier now l = if asum l = 0 then 0 else wsum now l * 10 ^ 18 / asum l := rfl

/-- **C86** The multiplier lies between 0 and 1, grows with time, and is 1 as soon as every
stake is 60 days old. -/
theorem C86_multiplier_range {now : Nat} {l : List Entry} (h : ∀ e ∈ l, 0 ≤ e.amount) :
    0 ≤ multiplier now l ∧ multiplier now l ≤ 10 ^ 18 := by
  rw [multiplier_eq]
  obtain ⟨h1, h2⟩ := wsum_le (now := now) h
  split
  · decide
  · have hp : 0 < asum l := by omega
    exact ⟨Int.ediv_nonneg (by positivity) hp.le,
      Int.ediv_le_of_le_mul hp (by nlinarith)⟩

theorem C86_multiplier_grows {now now' : Nat} {l : List Entry} (h : ∀ e ∈ l, 0 ≤ e.amount) (ht : now ≤ now') :
    multiplier now l ≤ multiplier now' l := by
  rw [multiplier_eq, multiplier_eq]
  have key : wsum now l ≤ wsum now' l := by
    induction l with
    | nil => simp [wsum]
    | cons e l ih =>
      have := ih (fun e' he' => h e' (List.mem_cons_of_mem _ he'))
      have h0 := h e (List.mem_cons_self ..)
      simp only [wsum, List.map_cons, List.sum_cons] at *
      have hm : ((min ((now - e.ts) / 86400) 60 : Nat) : Int) ≤ ((min ((now' - e.ts) / 86400) 60 : Nat) : Int) := by
        have : (now - e.ts) / 86400 ≤ (now' - e.ts) / 86400 := Nat.div_le_div_right (by omega)
        omega
      have := mul_le_mul_of_nonneg_right hm h0
      omega
  obtain ⟨h1, h2⟩ := wsum_le (now := now) h
  split
  · exact le_refl _
  · exact Int.ediv_le_ediv (by omega) (by omega)

theorem C86_multiplier_full {now : Nat} {l : List Entry} (h : ∀ e ∈ l, 0 ≤ e.amount ∧ e.ts + 60 * 86400 ≤ now)
    (hpos : ∃ e ∈ l, 0 < e.amount) : multiplier now l = 10 ^ 18 := by
  rw [multiplier_eq]
  have key : wsum now l = asum l := by
    unfold wsum asum
    congr 1
    apply List.map_congr_left
    intro e he
    have h1 := (h e he).2
    have : min ((now - e.ts) / 86400) 60 = 60 := by omega
    rw [this]; rfl
  have hp : 0 < asum l := by
    obtain ⟨e, he, h0⟩ := hpos
    unfold asum
    have hle := List.single_le_sum (l := l.map (fun e => 60 * e.amount))
      (by intro x hx; obtain ⟨e', he', rfl⟩ := List.mem_map.mp hx; have := (h e' he').1; omega)
      _ (List.mem_map.mpr ⟨e, he, rfl⟩)
    omega
  rw [if_neg (by omega), key]
  exact Int.mul_ediv_cancel_left _ (by omega)

/-- **C86** The reward shown is the full reward (what is shown, for the same total, with stakes
that are all old enough) times the multiplier, rounded down. -/
theorem C86_reduced_by_multiplier {s : State} {c c' : Ctx} {u : Addr} {i j : Info} {r F : Nat} (hij : i.total = j.total)
    (hm : multiplier c'.now j.stakes = 10 ^ 18) (hr : queryWithdrawable c s u i = .ok r)
    (hF : queryWithdrawable c' s u j = .ok F) : (r : Int) = F * multiplier c.now i.stakes / 10 ^ 18 ∧ r ≤ F := by
  obtain ⟨cfg, j1, j2⟩ := queryWithdrawable_inv hr
  obtain ⟨cfg', k1, k2⟩ := queryWithdrawable_inv hF
  rw [j1] at k1; cases k1
  obtain ⟨f, a1, -, a2, -, a3⟩ := payable_inv j2
  obtain ⟨f', b1, -, b2, -⟩ := payable_inv k2
  rw [hij, b1, ok_inj] at a1
  rw [hm, Int.mul_ediv_cancel _ (by decide)] at b2
  rw [a1] at b2
  exact ⟨by rw [b2]; exact a2, by omega⟩

theorem mulInt_one_mono {x x' y : Int} (h : Dec.mulInt x Dec.ONE = .ok y) (h0 : 0 ≤ x') (h1 : x' ≤ x) :
    Dec.mulInt x' Dec.ONE = .ok x' := by
  unfold Dec.mulInt at h ⊢
  by_cases hx : x' = 0
  · subst hx; simp
  · have hone : ¬ Dec.ONE = 0 := by decide
    have hx' : ¬ x = 0 := by omega
    rw [if_neg (by simp only [hx', hone, or_self, not_false_eq_true])] at h
    rw [if_neg (by simp only [hx, hone, or_self, not_false_eq_true])]
    simp only [bind_ok, mulI_ok, divI_ok, InI128, I128_MIN, I128_MAX, Dec.ONE] at h ⊢
    obtain ⟨_, ⟨k1, rfl⟩, -⟩ := h
    refine ⟨_, ⟨⟨by omega, by omega⟩, rfl⟩, by decide, ?_, ?_⟩
    · rw [Int.mul_tdiv_cancel _ (by decide)]; omega
    · rw [Int.mul_tdiv_cancel _ (by decide)]

/-- **C86** A withdrawal pays what the query shows, and what an early withdrawal leaves stays
claimable: later, with old enough stakes, the user is shown the full reward less the payment. -/
theorem C86_rest_stays {me : Addr} {s s' : Sys} {c c' : Ctx} {u : Addr} {i j : Info} {F : Nat}
    (h : Rewards.step me s (.rewards c (.withdraw u i)) = .ok s') (hij : i.total = j.total)
    (hm : multiplier c'.now j.stakes = 10 ^ 18) (hF : queryWithdrawable c' s.st u j = .ok F) :
    ∃ cfg r, queryConfig s.st = .ok cfg ∧ queryWithdrawable c s.st u i = .ok r ∧
      Settles s.led s'.led [⟨cfg.token, me, u, r⟩] ∧ queryWithdrawable c' s'.st u j = .ok (F - r) ∧ r ≤ F := by
  simp only [Rewards.step, bind_ok, ok_inj] at h
  obtain ⟨⟨v, L⟩, hw, rfl⟩ := h
  obtain ⟨cfg, x, e1, e2, e3, e4, e5, rfl, e7, e8, e9⟩ := withdraw_inv hw
  have hq : queryWithdrawable c s.st u i = .ok x.toNat := by
    unfold queryWithdrawable
    simp only [bind_ok, getConfig_ok, toU128_ok]
    exact ⟨cfg, e1, x, e3, by omega⟩
  have hle := (C86_reduced_by_multiplier hij hm hq hF).2
  refine ⟨cfg, x.toNat, getConfig_ok.mpr e1, hq, ?_, ?_, hle⟩
  · rw [show ((x.toNat : Nat) : Int) = x by omega]; exact e8
  · unfold queryWithdrawable payable claim at hF ⊢
    simp only [bind_ok, getConfig_ok, toI128_ok, mulI_ok, addI_ok, toU128_ok, subU_ok] at hF ⊢
    obtain ⟨cfg', k0, y, ⟨r, ⟨p, k1, _, ⟨k2, rfl⟩, _, ⟨k3, rfl⟩, _, ⟨k4, rfl⟩, a, k5, k6, rfl⟩, m, k7, _, ⟨k8, rfl⟩, k9⟩, k10⟩ := hF
    have hmm := (withdrawPower_inv k7).1
    rw [hm] at hmm
    subst hmm
    have hy : y = ((a - (s.st.adj u).withdrawn : Nat) : Int) := by
      have := Dec.mulInt_val k9
      rw [this]
      have h18 : (10 : Int) ^ 18 = Dec.ONE := by decide
      rw [h18]
      exact Int.mul_tdiv_cancel _ (by decide)
    have hFa : F = a - (s.st.adj u).withdrawn := by omega
    refine ⟨cfg', k0, ((F - x.toNat : Nat) : Int), ⟨F - x.toNat, ⟨p, k1, _, ⟨k2, rfl⟩, _, ⟨k3, rfl⟩, _, ⟨?_, rfl⟩, a, ?_, ?_, ?_⟩, _, k7, _, ⟨?_, rfl⟩, ?_⟩, rfl⟩
    · simpa [paidState, upd_same] using k4
    · simpa [paidState, upd_same] using k5
    · simp only [paidState, upd_same]; omega
    · simp only [paidState, upd_same]; omega
    · omega
    · have h18 : (10 : Int) ^ 18 = Dec.ONE := by decide
      rw [h18] at k9 ⊢
      exact mulInt_one_mono k9 (by omega) (by omega)

/-- day 30 of the example: the full reward of user 2 is 100000, half of it can be withdrawn,
the other half stays -/
example : multiplier (30 * 86400) [⟨5000, 0⟩] = 5 * 10 ^ 17 ∧ multiplier (61 * 86400) [⟨5000, 0⟩] = 10 ^ 18 ∧
    queryWithdrawable (rBy 2 61) (Rewards.run 100 rExStart (rExHist.take 5)).st 2 (rInfo 5000 0) = .ok 100000 ∧
    queryWithdrawable (rBy 2 30) (Rewards.run 100 rExStart (rExHist.take 5)).st 2 (rInfo 5000 0) = .ok 50000 ∧
    queryWithdrawable (rBy 2 61) (Rewards.run 100 rExStart (rExHist.take 6)).st 2 (rInfo 5000 0) = .ok 50000 := by
  refine ⟨?_, ?_, ?_, ?_, ?_⟩ <;> decide +kernel

/-! ### C87 -/

/-- **C87** A funding moves exactly the given amount from the administrator to the contract,
and nothing else; it is refused if the start lies in the past or the amount is below the
minimum.  The undistributed rewards grow by the amount, the distributed ones stay. -/
theorem C87_fund_effect {me : Addr} {s s' : Sys} {c : Ctx} {a d : Nat} {x : Int} (hme : c.auth me = false)
    (h : Rewards.step me s (.rewards c (.fund a d x)) = .ok s') :
    ∃ cfg admin, queryConfig s.st = .ok cfg ∧ queryAdmin s.st = .ok admin ∧ c.now ≤ a ∧ cfg.minReward ≤ x ∧ 0 ≤ x ∧
      Settles s.led s'.led [⟨cfg.token, admin, me, x⟩] ∧
      queryDistributed s'.st cfg.token = queryDistributed s.st cfg.token ∧
      ∀ U, queryUndistributed me s.st s.led cfg.token = .ok U →
        queryUndistributed me s'.st s'.led cfg.token = .ok (U + x.toNat) := by
  simp only [Rewards.step, bind_ok, ok_inj] at h
  obtain ⟨⟨v, L⟩, hi', rfl⟩ := h
  obtain ⟨cfg, kv, h1, h2, h3, h4, h5, h6, h7, h8, h9, rfl, h10, h11⟩ := fund_inv hi'
  have hg : getConfig s.st = .ok cfg := getConfig_ok.mpr h1
  refine ⟨cfg, s.st.admin, hg, ?_, h4, h5, h6, h10, rfl, fun U hU => ?_⟩
  · unfold queryAdmin; rw [hg]; rfl
  · have hadm : ¬ s.st.admin = me := by
      intro e; rw [e, hme] at h2; cases h2
    have hb := h10 cfg.token me
    simp [Flow.delta, hadm] at hb
    unfold queryUndistributed at hU ⊢
    simp only [bind_ok, getConfig_ok, req_ok, toU128_ok, subU_ok] at hU ⊢
    obtain ⟨cfg', k1, _, k2, b, k3, k4, rfl⟩ := hU
    exact ⟨cfg', k1, (), k2, b + x.toNat, by omega, by omega, by omega⟩

/-- **C87** After the end of every funded schedule (each of which ends after it starts), one
distribution to any stakers hands out everything: nothing stays undistributed. -/
theorem C87_all_released {me : Addr} {s : Sys} (h0 : Rewards.Spec.Genesis me s) (ts : List Tx)
    (hw : ∀ t ∈ ts, WellScheduled t) {c : Ctx} {T : Int}
    (hend : ∀ c' a d x, Tx.rewards c' (.fund a d x) ∈ ts → c'.now + d < c.now) (hnow : 0 < c.now) {s' : Sys}
    (h : Rewards.step me (Rewards.run me s ts) (.rewards c (.distribute T)) = .ok s') {cfg : Config}
    (hc : queryConfig (Rewards.run me s ts).st = .ok cfg) (hT : 0 < weight cfg.minBond T) :
    queryUndistributed me s'.st s'.led cfg.token = .ok 0 := by
  have hs : Sched (c.now - 1) (Rewards.run me s ts).st.curve := by
    refine run_sched ts hw (fun c' a d x h' => ?_) (by rw [h0.1]; exact sched_zero _)
    have := hend c' a d x h'
    omega
  have hv := sched_after hs (show c.now - 1 < c.now by omega)
  have hc' : (Rewards.run me s ts).st.cfg = some cfg := getConfig_ok.mp hc
  generalize Rewards.run me s ts = z at *
  simp only [Rewards.step, bind_ok, ok_inj] at h
  obtain ⟨v, hi', rfl⟩ := h
  obtain ⟨cfg', h1, _, _, h2⟩ := distribute_inv hi'
  rw [hc'] at h1; cases h1
  unfold queryUndistributed
  simp only [bind_ok, getConfig_ok, req_ok, toU128_ok, subU_ok]
  rcases h2 with ⟨rfl, h2 | h2⟩ | ⟨x, d, h2, h3, h4, h5, rfl⟩
  · omega
  · obtain ⟨w, k1, k2⟩ := unlocked_inv h2
    rw [hv, ok_inj] at k1
    exact ⟨cfg, hc', (), rfl, z.st.dist.withdrawable, by omega, le_refl _, Nat.sub_self _⟩
  · obtain ⟨w, k1, k2⟩ := unlocked_inv h4
    rw [hv, ok_inj] at k1
    obtain ⟨_, _, _, k4, k5⟩ := handOut_inv h5
    exact ⟨cfg, hc', (), rfl, d.withdrawable, by omega, le_refl _, Nat.sub_self _⟩

/-- **C87** With such schedules, waiting never releases less: a distribution at a later time
hands out at least as much as one now. -/
theorem C87_later_releases_more {me : Addr} {s : Sys} (h0 : Rewards.Spec.Genesis me s) (ts : List Tx)
    (hw : ∀ t ∈ ts, WellScheduled t) {c c' : Ctx} {T T' : Int} (hle : c.now ≤ c'.now) {s1 s2 : Sys}
    (h : Rewards.step me (Rewards.run me s ts) (.rewards c (.distribute T)) = .ok s1)
    (h' : Rewards.step me (Rewards.run me s ts) (.rewards c' (.distribute T')) = .ok s2) {cfg : Config}
    (hc : queryConfig (Rewards.run me s ts).st = .ok cfg) (hT : 0 < weight cfg.minBond T') {D D' : Nat}
    (hD : queryDistributed s1.st cfg.token = .ok D) (hD' : queryDistributed s2.st cfg.token = .ok D') : D ≤ D' := by
  have hs : ∃ B, Sched B (Rewards.run me s ts).st.curve := by
    have hb : ∃ B, ∀ c a d x, Tx.rewards c (.fund a d x) ∈ ts → c.now + d ≤ B := by
      clear h h' hc hw
      induction ts with
      | nil => exact ⟨0, by simp⟩
      | cons t ts ih =>
        obtain ⟨B, hB⟩ := ih
        have : ∃ B', ∀ c a d x, t = Tx.rewards c (.fund a d x) → c.now + d ≤ B' := by
          cases t with
          | token c tok op => exact ⟨0, by simp⟩
          | rewards c k =>
            cases k with
            | fund a d x => exact ⟨c.now + d, by intro c' a' d' x' e; cases e; exact le_refl _⟩
            | _ => exact ⟨0, by simp⟩
        obtain ⟨B', hB'⟩ := this
        refine ⟨max B B', fun c a d x hm => ?_⟩
        rcases List.mem_cons.mp hm with e | hm
        · exact le_trans (hB' c a d x e.symm) (le_max_right _ _)
        · exact le_trans (hB c a d x hm) (le_max_left _ _)
    obtain ⟨B, hB⟩ := hb
    exact ⟨B, run_sched ts hw hB (by rw [h0.1]; exact sched_zero _)⟩
  obtain ⟨B, hs⟩ := hs
  have hc' : (Rewards.run me s ts).st.cfg = some cfg := getConfig_ok.mp hc
  generalize Rewards.run me s ts = z at *
  have hmono : ∀ v v', z.st.curve.value c.now = .ok v → z.st.curve.value c'.now = .ok v' → v' ≤ v := by
    intro v v' e e'
    exact Curve.plValue_anti (Curve.stepsOf_sorted hs.wf).2 hs.dec (Curve.value_pl hs.wf e) (Curve.value_pl hs.wf e') hle
  simp only [Rewards.step, bind_ok, ok_inj] at h h'
  obtain ⟨v, hi, rfl⟩ := h
  obtain ⟨v', hi', rfl⟩ := h'
  unfold queryDistributed at hD hD'
  simp only [bind_ok, getConfig_ok, req_ok, ok_inj] at hD hD'
  obtain ⟨_, -, _, -, rfl⟩ := hD
  obtain ⟨_, -, _, -, rfl⟩ := hD'
  obtain ⟨cfg1, h1, _, _, h2⟩ := distribute_inv hi
  rw [hc'] at h1; cases h1
  obtain ⟨cfg1, h1, _, _, h3⟩ := distribute_inv hi'
  rw [hc'] at h1; cases h1
  rcases h2 with ⟨rfl, -⟩ | ⟨x, d, h2, -, h4, h5, rfl⟩
  · rcases h3 with ⟨rfl, -⟩ | ⟨x', d', -, -, -, h5', rfl⟩
    · exact le_refl _
    · have := (handOut_inv h5').2.2.2.1
      simp only; omega
  · obtain ⟨w, k1, k2⟩ := unlocked_inv h4
    have e1 := (handOut_inv h5).2.2.2.1
    rcases h3 with ⟨rfl, h3 | h3⟩ | ⟨x', d', -, -, h4', h5', rfl⟩
    · omega
    · obtain ⟨w', k1', k2'⟩ := unlocked_inv h3
      have := hmono w w' k1 k1'
      simp only; omega
    · obtain ⟨w', k1', k2'⟩ := unlocked_inv h4'
      have := hmono w w' k1 k1'
      have e2 := (handOut_inv h5').2.2.2.1
      simp only; omega

theorem rExHist_wellScheduled : ∀ t ∈ rExHist, WellScheduled t := by
  intro t ht
  simp only [rExHist, List.mem_cons, List.not_mem_nil, or_false] at ht
  rcases ht with rfl | rfl | rfl | rfl | rfl | rfl | rfl | rfl | rfl | rfl | rfl <;> simp [WellScheduled, rBy]
/-- the last distribution of the example, after day 100, releases all -/
example : queryUndistributed 100 (Rewards.run 100 rExStart (rExHist.take 10)).st (Rewards.run 100 rExStart (rExHist.take 10)).led 40 =
      .ok 400000 ∧
    queryUndistributed 100 (Rewards.run 100 rExStart rExHist).st (Rewards.run 100 rExStart rExHist).led 40 = .ok 0 := by
  refine ⟨?_, ?_⟩ <;> decide +kernel

/-- called by the staking contract 50, signed by `a`, at time `t` -/
def rAt (a : Addr) (t : Nat) : Ctx := { now := t, seq := 0, signed := fun x => x == a, invoker := some 50 }
/-- a funding of 1000 over 30 seconds, then one of 500 that is to start at 100 and to last 50 -/
def rLate : List Tx :=
  [ .rewards (rAt 9 0) (.init 9 50 40 10 1 1000),
    .rewards (rAt 1 0) (.addUser 1 (rInfo 10000 0)),
    .rewards (rAt 9 0) (.fund 0 30 1000),
    .rewards (rAt 9 0) (.fund 100 50 500) ]

theorem rLate_state : (Rewards.run 100 rExStart rLate).st.curve = .pl [⟨0, 1500⟩, ⟨30, 500⟩, ⟨50, 500⟩, ⟨100, 500⟩] ∧
    (Rewards.run 100 rExStart rLate).st.cfg = some ⟨50, 40, 10, 1, 1000⟩ ∧
    (Rewards.run 100 rExStart rLate).st.dist.withdrawable = 0 ∧ (Rewards.run 100 rExStart rLate).led.bal 40 100 = 1500 := by
  refine ⟨?_, ?_, ?_, ?_⟩ <;> decide +kernel

/-- **C87**, what fails: the duration counts from the call, not from the start of the schedule.
A schedule that starts after `now + duration`, added to a running one, is never released: at
every later time a distribution leaves at least 500 undistributed. -/
theorem C87_late_start_never_released {c : Ctx} (hnow : 100 < c.now) {T : Int} {s' : Sys}
    (h : Rewards.step 100 (Rewards.run 100 rExStart rLate) (.rewards c (.distribute T)) = .ok s') {U : Nat}
    (hU : queryUndistributed 100 s'.st s'.led 40 = .ok U) : 500 ≤ U := by
  obtain ⟨z1, z2, z3, z4⟩ := rLate_state
  generalize Rewards.run 100 rExStart rLate = z at *
  simp only [Rewards.step, bind_ok, ok_inj] at h
  obtain ⟨v, hi, rfl⟩ := h
  unfold queryUndistributed at hU
  simp only [bind_ok, getConfig_ok, req_ok, toU128_ok, subU_ok] at hU
  obtain ⟨_, -, _, -, b, hb, hle, rfl⟩ := hU
  simp only [z4] at hb
  obtain ⟨cfg1, h1, _, _, h2⟩ := distribute_inv hi
  rw [z2] at h1; cases h1
  rcases h2 with ⟨rfl, -⟩ | ⟨x, d, h2, -, h4, h5, rfl⟩
  · omega
  · obtain ⟨w, k1, k2⟩ := unlocked_inv h4
    have e1 := (handOut_inv h5).2.2.2.2
    rw [z1] at k1
    have hsort : Spec.SortedSteps [⟨0, 1500⟩, ⟨30, 500⟩, ⟨50, 500⟩, ⟨100, 500⟩] := by simp [Spec.SortedSteps]
    have hlast := plValue_last hsort (t := c.now) (by
      intro st hst
      simp only [List.mem_cons, List.not_mem_nil, or_false] at hst
      rcases hst with rfl | rfl | rfl | rfl <;> simp only <;> omega)
    simp only [Curve.value] at k1
    rw [hlast, ok_inj] at k1
    simp only [Curve.lastStep] at k1
    simp only [z4] at k2
    simp only
    omega
/-- such distributions do succeed -/
example : Rewards.Spec.succeeds 100 (Rewards.run 100 rExStart rLate) (.rewards (rAt 1 1000) (.distribute 10000)) = true := by
  decide +kernel

/-- **C87**, what fails: a schedule whose start equals its end is accepted, and at that very
instant no distribution is possible (division by zero); just before and after it is. -/
theorem C87_empty_schedule_blocks :
    let z := Rewards.run 100 rExStart (rLate.take 2 ++ [.rewards (rAt 9 0) (.fund 50 50 500)])
    z.led.bal 40 100 = 500 ∧
    Rewards.Spec.succeeds 100 z (.rewards (rAt 1 49) (.distribute 10000)) = true ∧
    Rewards.Spec.succeeds 100 z (.rewards (rAt 1 50) (.distribute 10000)) = false ∧
    Rewards.Spec.succeeds 100 z (.rewards (rAt 1 51) (.distribute 10000)) = true := by
  refine ⟨?_, ?_, ?_, ?_⟩ <;> decide +kernel

/-- **C87**, what fails: right after a funding a distribution can be impossible, because the
joined schedule, rounded anew, asks to lock one unit more than the contract has left. -/
theorem C87_fund_can_block :
    let ts := rLate.take 2 ++ [.rewards (rAt 9 0) (.fund 0 7 100), .rewards (rAt 1 4) (.distribute 10000)]
    Rewards.Spec.succeeds 100 (Rewards.run 100 rExStart ts) (.rewards (rAt 1 4) (.distribute 10000)) = true ∧
    Rewards.Spec.succeeds 100 (Rewards.run 100 rExStart ts) (.rewards (rAt 9 4) (.fund 5 10 1000)) = true ∧
    Rewards.Spec.succeeds 100 (Rewards.run 100 rExStart (ts ++ [.rewards (rAt 9 4) (.fund 5 10 1000)]))
      (.rewards (rAt 1 4) (.distribute 10000)) = false := by
  refine ⟨?_, ?_, ?_⟩ <;> decide +kernel

/-! ### C88 -/

theorem step_spp {me : Addr} {s s' : Sys} {t : Tx} (h : Rewards.step me s t = .ok s')
    (hs : s.st.cfg ≠ none → s.st.dist.distributed = 0 → s.st.dist.spp = 1) :
    s'.st.cfg ≠ none → s'.st.dist.distributed = 0 → s'.st.dist.spp = 1 := by
  cases t with
  | token c tok op =>
    simp only [Rewards.step, bind_ok, ok_inj] at h
    obtain ⟨L, hL, rfl⟩ := h
    exact hs
  | rewards c k =>
    rcases step_kinds h with ⟨hled, hp', hf⟩ | ⟨cfg', u, i, x, e1, e2, e3, e4, e5, e6, e7, ⟨e8, e9, e10, e11, e12⟩, e13, e14, e15⟩ |
        ⟨cfg', a, d, x, kv, e1, rfl, e2, e3, e4, e5, e6, e7, e8, e9, e10, e11⟩
    · cases k with
      | init a st tok mc mr mb =>
        simp only [Rewards.step, bind_ok, ok_inj] at h
        obtain ⟨v, hi', rfl⟩ := h
        obtain ⟨h1, rfl⟩ := init_inv hi'
        exact fun _ _ => rfl
      | addUser u i =>
        simp only [Rewards.step, bind_ok, ok_inj] at h
        obtain ⟨v, hi', rfl⟩ := h
        obtain ⟨_, _, _, rfl⟩ := addUser_inv hi'
        exact hs
      | calcBond u i =>
        simp only [Rewards.step, bind_ok, ok_inj] at h
        obtain ⟨v, hi', rfl⟩ := h
        obtain ⟨_, _, _, _, _, rfl⟩ := calcBond_inv hi'
        exact hs
      | distribute T =>
        simp only [Rewards.step, bind_ok, ok_inj] at h
        obtain ⟨v, hi', rfl⟩ := h
        obtain ⟨cfg', h1, _, _, ⟨rfl, -⟩ | ⟨x, d, h2, h3, h4, h5, rfl⟩⟩ := distribute_inv hi'
        · exact hs
        · obtain ⟨_, _, _, k1, -⟩ := handOut_inv h5
          intro _ hz
          simp only [k1] at hz
          omega
      | calcUnbond u i y => simp [payee] at hp'
      | withdraw u i => simp [payee] at hp'
      | fund a d x => exact absurd rfl (hf a d x)
    · rw [e8, e10]; exact hs
    · rw [show s'.st.dist = s.st.dist by rw [e9], show s'.st.cfg = s.st.cfg by rw [e9]]; exact hs

theorem run_spp {me : Addr} (ts : List Tx) (s : Sys) (hs : s.st.cfg ≠ none → s.st.dist.distributed = 0 → s.st.dist.spp = 1) :
    (Rewards.run me s ts).st.cfg ≠ none → (Rewards.run me s ts).st.dist.distributed = 0 → (Rewards.run me s ts).st.dist.spp = 1 := by
  induction ts generalizing s with
  | nil => exact hs
  | cons t ts ih =>
    refine ih (Rewards.exec me s t) ?_
    unfold Rewards.exec
    cases h : Rewards.step me s t with
    | error e => exact hs
    | ok s' => exact step_spp h hs

theorem annualized_inv {c : Ctx} {s : State} {cfg : Config} {T a : Int} (hc : s.cfg = some cfg) (hspp : s.dist.spp = 1)
    (h : queryAnnualized c s T = .ok a) :
    (weight cfg.minBond T = 0 ∧ a = 0) ∨ (0 < weight cfg.minBond T ∧ ∃ pay, annualized s.curve c.now = .ok pay ∧
      a = pay.tdiv (weight cfg.minBond T)) := by
  unfold queryAnnualized at h
  simp only [bind_ok, getConfig_ok] at h
  obtain ⟨cfg', k1, p, k2, k3⟩ := h
  rw [hc] at k1; cases k1
  have hp := power_val k2
  split at k3
  · rw [ok_inj] at k3; exact .inl ⟨by omega, k3.symm⟩
  · simp only [bind_ok, toU128_ok, mul128_ok, toI128_ok, Dec.divInt, divI_ok] at k3
    obtain ⟨pay, k4, u, k5, _, ⟨_, rfl⟩, _, ⟨_, rfl⟩, _, _, rfl⟩ := k3
    refine .inr ⟨by omega, pay, k4, ?_⟩
    rw [hspp, Nat.mul_one, k5, hp]

/-- **C88** As long as nothing was handed out, the annualized reward is what the schedule
releases in the coming year, per point of stake (18 decimals, rounded down): `v0` and `v1` are
the amounts the schedule locks now and in a year. -/
theorem C88_rate_full_year {me : Addr} {s : Sys} (h0 : Rewards.Spec.Genesis me s) (ts : List Tx) {c : Ctx} {cfg : Config} {T a : Int}
    {last v0 v1 : Nat} (hc : queryConfig (Rewards.run me s ts).st = .ok cfg)
    (hd : queryDistributed (Rewards.run me s ts).st cfg.token = .ok 0) (hT : 0 < weight cfg.minBond T)
    (he : (Rewards.run me s ts).st.curve.end = some last) (hlast : c.now + 31536000 ≤ last)
    (hv0 : (Rewards.run me s ts).st.curve.value c.now = .ok v0)
    (hv1 : (Rewards.run me s ts).st.curve.value (c.now + 31536000) = .ok v1)
    (h : queryAnnualized c (Rewards.run me s ts).st T = .ok a) :
    a = ((v0 : Int) - v1) * 10 ^ 18 / weight cfg.minBond T ∧ v1 ≤ v0 := by
  have hc' : (Rewards.run me s ts).st.cfg = some cfg := getConfig_ok.mp hc
  have hspp := run_spp (me := me) ts s (by rw [h0.1]; intro hn; exact absurd rfl hn) (by rw [hc']; simp) (by
    unfold queryDistributed at hd
    simp only [bind_ok, getConfig_ok, req_ok, ok_inj] at hd
    obtain ⟨_, -, _, -, hd⟩ := hd
    exact hd)
  generalize Rewards.run me s ts = z at *
  rcases annualized_inv hc' hspp h with ⟨k1, -⟩ | ⟨-, pay, k2, rfl⟩
  · omega
  · unfold annualized at k2
    rw [he] at k2
    simp only at k2
    rw [if_neg (by omega)] at k2
    simp only [bind_ok, subU_ok] at k2
    obtain ⟨_, ⟨_, rfl⟩, k3⟩ := k2
    rw [if_pos (by omega)] at k3
    simp only [bind_ok, subU_ok, add64_ok, toI128_ok, Dec.fromAtomics, Dec.pow10, i128_ok] at k3
    obtain ⟨_, e0, _, ⟨_, rfl⟩, _, e1, _, ⟨e2, rfl⟩, _, ⟨_, rfl⟩, e3⟩ := k3
    rw [hv0, ok_inj] at e0; subst e0
    rw [hv1, ok_inj] at e1; subst e1
    rw [if_pos (by decide)] at e3
    simp only [bind_ok, i128_ok, mulI_ok] at e3
    obtain ⟨_, ⟨_, rfl⟩, _, rfl⟩ := e3
    refine ⟨?_, e2⟩
    rw [show ((v0 - v1 : Nat) : Int) = (v0 : Int) - v1 by omega]
    rw [show ((10 : Int) ^ (18 - 0 : Int).toNat) = 10 ^ 18 by rfl]
    exact Int.tdiv_eq_ediv_of_nonneg (mul_nonneg (by omega) (by positivity))

/-- **C88** If the schedule ends within the year, it is the locked amount scaled up to a year. -/
theorem C88_rate_scaled_up {me : Addr} {s : Sys} (h0 : Rewards.Spec.Genesis me s) (ts : List Tx) {c : Ctx} {cfg : Config} {T a : Int}
    {last v0 : Nat} (hc : queryConfig (Rewards.run me s ts).st = .ok cfg)
    (hd : queryDistributed (Rewards.run me s ts).st cfg.token = .ok 0) (hT : 0 < weight cfg.minBond T)
    (he : (Rewards.run me s ts).st.curve.end = some last) (hnow : c.now < last) (hlast : last < c.now + 31536000)
    (hv0 : (Rewards.run me s ts).st.curve.value c.now = .ok v0)
    (h : queryAnnualized c (Rewards.run me s ts).st T = .ok a) :
    a = (v0 : Int) * 31536000 * 10 ^ 18 / (((last : Int) - c.now) * weight cfg.minBond T) := by
  have hc' : (Rewards.run me s ts).st.cfg = some cfg := getConfig_ok.mp hc
  have hspp := run_spp (me := me) ts s (by rw [h0.1]; intro hn; exact absurd rfl hn) (by rw [hc']; simp) (by
    unfold queryDistributed at hd
    simp only [bind_ok, getConfig_ok, req_ok, ok_inj] at hd
    obtain ⟨_, -, _, -, hd⟩ := hd
    exact hd)
  generalize Rewards.run me s ts = z at *
  rcases annualized_inv hc' hspp h with ⟨k1, -⟩ | ⟨-, pay, k2, rfl⟩
  · omega
  · unfold annualized at k2
    rw [he] at k2
    simp only at k2
    rw [if_neg (by omega)] at k2
    simp only [bind_ok, subU_ok] at k2
    obtain ⟨_, ⟨_, rfl⟩, k3⟩ := k2
    rw [if_neg (by omega)] at k3
    simp only [bind_ok, mul128_ok, toI128_ok, Dec.fromRatio_ok] at k3
    obtain ⟨_, e0, _, ⟨_, rfl⟩, _, ⟨_, rfl⟩, _, _, _, rfl⟩ := k3
    rw [hv0, ok_inj] at e0; subst e0
    rw [show ((last - c.now : Nat) : Int) = (last : Int) - c.now by omega]
    push_cast
    rw [show Dec.ONE = 10 ^ 18 by rfl]
    have n0 : (0 : Int) ≤ (v0 : Int) * 31536000 * 10 ^ 18 := by positivity
    rw [Int.tdiv_eq_ediv_of_nonneg n0, Int.tdiv_eq_ediv_of_nonneg (Int.ediv_nonneg n0 (by omega)),
      Int.ediv_ediv_of_nonneg (by omega)]
    norm_num

/-- **C88** Without stakes, without a schedule or after its end the annualized reward is zero. -/
theorem C88_rate_zero {c : Ctx} {s : State} {cfg : Config} {T a : Int} (hc : queryConfig s = .ok cfg)
    (hz : weight cfg.minBond T = 0 ∨ s.curve.end = none ∨ ∃ e, s.curve.end = some e ∧ e ≤ c.now)
    (h : queryAnnualized c s T = .ok a) : a = 0 := by
  unfold queryAnnualized at h
  simp only [bind_ok, getConfig_ok] at h
  obtain ⟨cfg', k1, p, k2, k3⟩ := h
  have hc' : s.cfg = some cfg := getConfig_ok.mp hc
  rw [hc'] at k1; cases k1
  have hp := power_val k2
  split at k3
  · rw [ok_inj] at k3; exact k3.symm
  · simp only [bind_ok, toU128_ok, mul128_ok, toI128_ok, Dec.divInt, divI_ok] at k3
    obtain ⟨pay, k4, u, k5, _, ⟨_, rfl⟩, _, ⟨_, rfl⟩, _, _, rfl⟩ := k3
    have : pay = 0 := by
      unfold annualized at k4
      rcases hz with hz | hz | ⟨e, hz, hle⟩
      · omega
      · rw [hz] at k4; simp only [ok_inj] at k4; exact k4.symm
      · rw [hz] at k4; simp only at k4; rw [if_pos hle, ok_inj] at k4; exact k4.symm
    rw [this]; simp

/-- the schedule of the example on day 10: 900000 are locked, 90 days are left -/
example : queryDistributed (Rewards.run 100 rExStart (rExHist.take 4)).st 40 = .ok 0 ∧
    (Rewards.run 100 rExStart (rExHist.take 4)).st.curve.end = some 8640000 ∧
    (Rewards.run 100 rExStart (rExHist.take 4)).st.curve.value 864000 = .ok 900000 ∧ weight 1000 15000 = 15 := by
  refine ⟨?_, ?_, ?_, ?_⟩ <;> decide +kernel
/-- a schedule of two years -/
example :
    let z := Rewards.run 100 rExStart (rExHist.take 3 ++ [.rewards (rBy 9 0) (.fund 0 63072000 1000000)])
    z.st.curve.end = some 63072000 ∧ z.st.curve.value 864000 = .ok 986302 ∧ z.st.curve.value (864000 + 31536000) = .ok 486302 ∧
    queryAnnualized (rBy 1 10) z.st 15000 = .ok 33333333333333333333333 := by
  refine ⟨?_, ?_, ?_, ?_⟩ <;> decide +kernel

/-- **C88**, what fails: the reported rate is divided by the accumulated points as well, so the
first distribution makes it collapse.  In the example it is 243333 per year and point on day 10,
but 0.0000000028 on day 31, although the schedule and the stakes have not changed. -/
theorem C88_collapses_after_distribution :
    queryAnnualized (rBy 1 10) (Rewards.run 100 rExStart (rExHist.take 4)).st 15000 = .ok 243333333333333333333333 ∧
    queryAnnualized (rBy 1 31) (Rewards.run 100 rExStart (rExHist.take 4)).st 15000 = .ok 243333333333333333333333 ∧
    queryAnnualized (rBy 1 31) (Rewards.run 100 rExStart (rExHist.take 5)).st 15000 = .ok 2832772831 := by
  refine ⟨?_, ?_, ?_⟩ <;> decide +kernel

/-! ### C89 -/

/-- users 1 and 2 have staked 3000 and 1001; 4000 have been handed out -/
def rTwice : List Tx :=
  [ .rewards (rAt 9 0) (.init 9 50 40 10 1 1000),
    .rewards (rAt 1 0) (.addUser 1 (rInfo 3000 0)),
    .rewards (rAt 2 0) (.addUser 2 (rInfo 1001 0)),
    .rewards (rAt 9 0) (.fund 0 10 4000),
    .rewards (rAt 9 20) (.distribute 4001) ]
/-- user 2 stakes 1999 more, reported as stored after bonding: the total already includes the new stake -/
def rAfter : Info := ⟨[⟨1001, 0⟩, ⟨1999, 20⟩], 20, 3000⟩

/-- **C89** Reported with the stored stakes (the total includes the new stake), the new stake is
counted twice: user 2, with a quarter of the points, is at once shown 2000 of the 4000 rewards
instead of 1000; after withdrawing them nothing is left to pay user 1, whose 3000 are still shown. -/
theorem C89_stored_report_steals :
    queryWithdrawable (rBy 2 100) (Rewards.run 100 rExStart rTwice).st 2 (rInfo 1001 0) = .ok 1000 ∧
    queryWithdrawable (rBy 1 100) (Rewards.run 100 rExStart rTwice).st 1 (rInfo 3000 0) = .ok 3000 ∧
    (let z := Rewards.run 100 rExStart (rTwice ++ [.rewards (rAt 2 20) (.calcBond 2 rAfter)])
     queryWithdrawable (rBy 2 100) z.st 2 rAfter = .ok 2000 ∧
     queryWithdrawable (rBy 1 100) z.st 1 (rInfo 3000 0) = .ok 3000 ∧
     (let w := Rewards.exec 100 z (.rewards (rBy 2 100) (.withdraw 2 rAfter))
      w.led.bal 40 2 = 2000 ∧ queryWithdrawable (rBy 1 100) w.st 1 (rInfo 3000 0) = .ok 3000 ∧
      Rewards.Spec.succeeds 100 w (.rewards (rBy 1 100) (.withdraw 1 (rInfo 3000 0))) = false)) := by
  refine ⟨?_, ?_, ?_, ?_, ?_, ?_, ?_⟩ <;> decide +kernel

/-- **C89** In general: with a report of the stored stakes `i` the user is afterwards credited
with `weight (total + last) - weight total` new points, instead of `weight total - weight (total - last)`;
every unit of the difference is worth all rewards handed out per point so far. -/
theorem C89_stored_report_error {me : Addr} {s s' : Sys} {c c' : Ctx} {u : Addr} {i : Info} {e : Entry} {r r' : Nat} {st : List Entry} {l l' : Nat}
    {cfg : Config} (h : Rewards.step me s (.rewards c (.calcBond u i)) = .ok s') (he : i.stakes.getLast? = some e)
    (hcfg : queryConfig s.st = .ok cfg) (hm : multiplier c'.now st = 10 ^ 18)
    (hq : queryWithdrawable c' s.st u ⟨st, l, i.total - e.amount⟩ = .ok r)
    (hq' : queryWithdrawable c' s'.st u ⟨st, l', i.total⟩ = .ok r') :
    let tooMany := (weight cfg.minBond i.total - weight cfg.minBond (i.total - e.amount)) -
      (weight cfg.minBond (i.total + e.amount) - weight cfg.minBond i.total)
    (r' : Int) - r ≤ (s.st.dist.spp * tooMany) / 2 ^ 32 + 1 ∧ (s.st.dist.spp * tooMany) / 2 ^ 32 ≤ (r' : Int) - r := by
  intro tooMany
  simp only [Rewards.step, bind_ok, ok_inj] at h
  obtain ⟨w, hi', rfl⟩ := h
  obtain ⟨cfg1, e', h1, _, h2, rfl⟩ := calcBond_inv hi'
  rw [getConfig_ok.mp hcfg] at h1; cases h1
  rw [he] at h2; cases h2
  obtain ⟨cfg1, j1, j2⟩ := queryWithdrawable_inv hq
  rw [getConfig_ok.mp hcfg] at j1; cases j1
  obtain ⟨cfg1, j1, j3⟩ := queryWithdrawable_inv hq'
  simp only at j1
  rw [getConfig_ok.mp hcfg] at j1; cases j1
  obtain ⟨f, k1, -, k2, -⟩ := payable_inv j2
  obtain ⟨f', k1', -, k2', -⟩ := payable_inv j3
  have g := (claim_inv k1).2
  have g' := (claim_inv k1').2
  simp only [upd_same] at g'
  simp only [hm] at k2 k2'
  have e1 : (r : Int) = f := by rw [k2]; exact Int.mul_ediv_cancel _ (by decide)
  have e2 : (r' : Int) = f' := by rw [k2']; exact Int.mul_ediv_cancel _ (by decide)
  have hring : (s.st.dist.spp : Int) * weight cfg.minBond i.total +
      ((s.st.adj u).corr - s.st.dist.spp * (weight cfg.minBond (i.total + e.amount) - weight cfg.minBond i.total)) =
      (s.st.dist.spp * weight cfg.minBond (i.total - e.amount) + (s.st.adj u).corr) + s.st.dist.spp * tooMany := by
    simp only [tooMany]; ring
  rw [hring] at g'
  simp only at g g'
  generalize (s.st.dist.spp : Int) * weight cfg.minBond (i.total - e.amount) + (s.st.adj u).corr = P at *
  generalize (s.st.dist.spp : Int) * tooMany = Q at *
  omega

end Phoenix.Props
