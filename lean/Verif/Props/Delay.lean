import Verif.Lemmas.Delay
import Verif.Props.AvailVesting
import Verif.Props.Rewards
/-!
C139: a transaction that is held back does the same, or nothing.
-/
namespace Phoenix.Props.World
open Phoenix Phoenix.World Phoenix.World.Spec

section
variable {h : Host} {acct : Accounts} {w0 w w' : World} {c : Ctx} {ts : List Tx} {T t : Nat} {k : Call}

/-- **C139** No stable pool and no stake contract ever keeps a time that has not come yet: after a history of transactions up to
time `T`, all dates of stakes, distributions, withdrawals and pool starts are at most `T`. -/
theorem C139_no_future_dates (g : Genesis acct w0) (hT : ∀ y ∈ ts, y.ctx.now ≤ T) : Before T (run h w0 ts) :=
  run_before hT (genesis_before g)

/-- **C139** A transaction that is executed later, with nothing else executed in between and before its deadline, does exactly the
same, or fails with the same error. This is about every call but those that note the time. -/
theorem C139_same_later (g : Genesis acct w0) (hT : ∀ y ∈ ts, y.ctx.now ≤ c.now) (hk : ¬ NotesTime k) (ht : c.now ≤ t)
    (hd : InTime t k) : step h (run h w0 ts) (on c t) k = step h (run h w0 ts) c k :=
  step_on (C139_no_future_dates g hT) le_rfl ht hk (inTime_le ht hd) hd

theorem pool_expired {c : Ctx} {dl : Option Nat} {d : Nat} (h : dl = some d) (hd : d < c.now) : Pool.checkDeadline c dl ≠ .ok () := by
  subst h
  simp only [Pool.checkDeadline, whenSome, ne_eq, req_ok]
  omega

theorem stable_expired {c : Ctx} {dl : Option Nat} {d : Nat} (h : dl = some d) (hd : d < c.now) : Stable.checkDeadline c dl ≠ .ok () := by
  subst h
  simp only [Stable.checkDeadline, whenSome, ne_eq, req_ok]
  omega

theorem poolSwap_expired {P s o : Addr} {x r : Int} {mi sp mf : Option Int} {dl : Option Nat} {d : Nat} (hdl : dl = some d)
    (hd : d < c.now) : poolSwap w c P s o x mi sp dl mf ≠ .ok (w', r) := by
  intro e
  unfold poolSwap at e
  split at e
  · simp only [bind_ok, ok_inj, Prod.exists, Prod.mk.injEq, Pool.swap] at e
    obtain ⟨_, _, _, _, _, ⟨⟨⟩, h1, -⟩, -⟩ := e
    exact pool_expired hdl hd h1
  · simp only [bind_ok, ok_inj, Prod.exists, Prod.mk.injEq, Stable.swap] at e
    obtain ⟨_, _, _, _, _, ⟨⟨⟩, h1, -⟩, -⟩ := e
    exact stable_expired hdl hd h1
  · simp at e

/-- **C139** After its deadline a call fails: deposits, withdrawals and swaps in pools of both kinds, routes and trades. -/
theorem C139_expired_fails {d : Nat} (hdl : deadline k = some d) (hd : d < c.now) : step h w c k ≠ .ok w' := by
  intro e
  cases k with
  | xyk P k =>
    cases k with
    | provide s dA mA dB mB cu dl =>
      simp only [step, Pool.step, Pool.provide, bind_ok, ok_inj, Prod.exists] at e
      obtain ⟨_, _, _, ⟨_, _, _, _, ⟨⟨⟩, h1, -⟩, -⟩, -⟩ := e
      exact pool_expired hdl hd h1
    | swap s o x mo ms dl mf =>
      simp only [step, Pool.step, Pool.swap, bind_ok, ok_inj, Prod.exists] at e
      obtain ⟨_, _, _, ⟨_, _, _, _, _, ⟨⟨⟩, h1, -⟩, -⟩, -⟩ := e
      exact pool_expired hdl hd h1
    | withdraw s x mA mB dl =>
      simp only [step, Pool.step, Pool.withdraw, bind_ok, ok_inj, Prod.exists] at e
      obtain ⟨_, _, _, ⟨_, _, _, _, _, _, ⟨⟨⟩, h1, -⟩, -⟩, -⟩ := e
      exact pool_expired hdl hd h1
    | _ => simp [deadline] at hdl
  | stable P k =>
    cases k with
    | provide s x y cu dl ms =>
      simp only [step, Stable.step, Stable.provide, bind_ok, ok_inj, Prod.exists] at e
      obtain ⟨_, _, _, ⟨_, _, _, _, ⟨⟨⟩, h1, -⟩, -⟩, -⟩ := e
      exact stable_expired hdl hd h1
    | swap s o x mo ms dl mf =>
      simp only [step, Stable.step, Stable.swap, bind_ok, ok_inj, Prod.exists] at e
      obtain ⟨_, _, _, ⟨_, _, _, _, _, ⟨⟨⟩, h1, -⟩, -⟩, -⟩ := e
      exact stable_expired hdl hd h1
    | withdraw s x mA mB dl =>
      simp only [step, Stable.step, Stable.withdraw, bind_ok, ok_inj, Prod.exists] at e
      obtain ⟨_, _, _, ⟨_, _, _, _, _, _, ⟨⟨⟩, h1, -⟩, -⟩, -⟩ := e
      exact stable_expired hdl hd h1
    | _ => simp [deadline] at hdl
  | hopSwap H recipient ops sp amount dl mf =>
    simp only [step, hopSwap, bind_ok, ok_inj, Prod.exists, req_ok] at e
    obtain ⟨_, h1, w1, r, ⟨_, hne, _, _, _, _, m, hm, h2⟩, rfl⟩ := e
    cases ops with
    | nil => exact hne rfl
    | cons op ops =>
      simp only [hopLoop, bind_ok, Prod.exists] at h2
      obtain ⟨Q, hQ, w2, r1, h3, -⟩ := h2
      exact poolSwap_expired (c := c.as H) hdl hd h3
  | trade T sender token pool amount sp dl mi mf =>
    simp only [step, trade, bind_ok, ok_inj, Prod.exists] at e
    obtain ⟨_, h1, w1, r, ⟨_, _, t, ht, _, _, _, _, _, _, h2⟩, rfl⟩ := e
    exact poolSwap_expired (c := c.as T) hdl hd h2
  | _ => simp [deadline] at hdl

theorem poolSimulate_on {P o : Addr} {x : Int} {u : Nat} (b : Before T w) (hu : T ≤ u) (ht : T ≤ t) :
    poolSimulate w t P o x = poolSimulate w u P o x ∧ poolSimulateReverse w t P o x = poolSimulateReverse w u P o x := by
  unfold poolSimulate poolSimulateReverse
  cases hp : w.stable P with
  | none => exact ⟨rfl, rfl⟩
  | some p =>
    have := (b.stable P p hp).2
    have h1 : p.amp.nextTime ≤ u := by omega
    have h2 : p.amp.nextTime ≤ t := by omega
    refine ⟨?_, ?_⟩
    · split
      · rfl
      · simp only [Stable.loaded, bind, Except.bind, Stable.simulateSwap, quote_on h1 h2]
      · rfl
    · split
      · rfl
      · simp only [Stable.loaded, bind, Except.bind, Stable.simulateReverseSwap, offer_on h1 h2]
      · rfl

/-- **C139** As long as nothing is executed, the router's quotes in both directions, over any route and pools of both kinds, do not
change with time. -/
theorem C139_quotes_keep (g : Genesis acct w0) {u : Nat} (hT : ∀ y ∈ ts, y.ctx.now ≤ u) (ht : u ≤ t) (H : Addr)
    (ops : List Multihop.Op) (x : Int) :
    hopSimulate (run h w0 ts) t H ops x = hopSimulate (run h w0 ts) u H ops x ∧
    hopSimulateReverse (run h w0 ts) t H ops x = hopSimulateReverse (run h w0 ts) u H ops x := by
  have b := C139_no_future_dates (h := h) g hT
  generalize run h w0 ts = w at *
  have l1 : ∀ (F : Addr) (ops : List Multihop.Op) (x : Int) (q : Quote), simLoop w t F ops x q = simLoop w u F ops x q := by
    intro F ops
    induction ops with
    | nil => intros; rfl
    | cons op ops ih => intro x q; simp only [simLoop, (poolSimulate_on b le_rfl ht).1, ih]
  have l2 : ∀ (F : Addr) (ops : List Multihop.Op) (x : Int) (q : Quote), revLoop w t F ops x q = revLoop w u F ops x q := by
    intro F ops
    induction ops with
    | nil => intros; rfl
    | cons op ops ih => intro x q; simp only [revLoop, (poolSimulate_on b le_rfl ht).2, ih]
  exact ⟨by simp only [hopSimulate, l1], by simp only [hopSimulateReverse, l2]⟩

theorem takeWhile_all {l : List Nat} {u : Nat} (hl : ∀ d ∈ l, d ≤ u) : l.takeWhile (fun d => decide (d ≤ u)) = l := by
  induction l with
  | nil => rfl
  | cons d l ih =>
    rw [List.takeWhile_cons, if_pos (by simpa using hl d (by simp)), ih (fun e he => hl e (by simp [he]))]

theorem relevant_on {l : List Nat} {last u : Nat} (hl : ∀ d ∈ l, d ≤ T) (hu : T ≤ u) (ht : T ≤ t) :
    Stake.relevant l last t = Stake.relevant l last u := by
  unfold Stake.relevant
  split
  · rfl
  · rename_i f _
    have hl' : ∀ d ∈ l.dropWhile (fun d => decide (d < f)), d ≤ T := fun d hd => hl d ((List.dropWhile_sublist _).subset hd)
    rw [takeWhile_all (fun d hd => le_trans (hl' d hd) ht), takeWhile_all (fun d hd => le_trans (hl' d hd) hu)]

theorem pending_on {s : Stake.State} (b : StakeBefore T s) (hu : T ≤ c.now) (ht : T ≤ t) (tok : Addr) (i : Stake.Info) :
    Stake.pending (on c t) s tok i = Stake.pending c s tok i := by
  unfold Stake.pending
  cases hm : s.rewards tok with
  | none => simp only [Stake.rewardHistory, hm]; rfl
  | some m =>
    simp only [Stake.rewardHistory, hm, bind, Except.bind]
    rw [show (on c t).now = t from rfl, relevant_on (b.rewards tok m hm) hu ht]

theorem payLoop_on {s : Stake.State} (b : StakeBefore T s) (hu : T ≤ c.now) (ht : T ≤ t) (K a : Addr) (l : List Addr) (L : Ledger) :
    Stake.payLoop K (on c t) s a l L = Stake.payLoop K c s a l L := by
  induction l generalizing L with
  | nil => rfl
  | cons d l ih =>
    simp only [Stake.payLoop, pending_on b hu ht, ih]
    rfl

/-- **C139** Nothing is lost or gained in a stake contract by a call that comes later: bonding, unbonding, distributing and
withdrawing rewards move the same tokens, or fail with the same error. -/
theorem C139_stake_same_payments (g : Genesis acct w0) (hT : ∀ y ∈ ts, y.ctx.now ≤ c.now) (ht : c.now ≤ t) (K : Addr)
    (k : Stake.Call) :
    (step h (run h w0 ts) (on c t) (.stake K k)).map World.led = (step h (run h w0 ts) c (.stake K k)).map World.led := by
  have b := C139_no_future_dates (h := h) g hT
  generalize run h w0 ts = w at *
  have comp : ∀ {x y : Res Stake.Sys}, x.map Stake.Sys.led = y.map Stake.Sys.led →
      (do expect w K .stake; let s ← x; .ok { w with stake := upd w.stake K s.st, led := s.led } : Res World).map World.led =
      (do expect w K .stake; let s ← y; .ok { w with stake := upd w.stake K s.st, led := s.led } : Res World).map World.led := by
    intro x y e
    cases expect w K .stake with
    | error _ => rfl
    | ok _ =>
      cases x with
      | error _ => cases y with
        | error _ => simpa [bind, Except.bind, Except.map] using e
        | ok _ => simp [Except.map] at e
      | ok _ => cases y with
        | error _ => simp [Except.map] at e
        | ok _ => simpa [bind, Except.bind, Except.map] using e
  show (do expect w K .stake; let s ← Stake.step K ⟨w.stake K, w.led⟩ (.stake (on c t) k); _ : Res World).map World.led =
    (do expect w K .stake; let s ← Stake.step K ⟨w.stake K, w.led⟩ (.stake c k); _ : Res World).map World.led
  apply comp
  cases k with
  | withdraw a =>
    simp only [Stake.step, Stake.withdraw, payLoop_on (b.stake K) le_rfl ht]
    cases Stake.payLoop K c (w.stake K) a (w.stake K).dists w.led <;> rfl
  | bond a x =>
    simp only [Stake.step, Stake.bond, show (on c t).now = t from rfl, show requireAuth (on c t) a = requireAuth c a from rfl,
      show ∀ L : Ledger, ∀ u v : Addr, L.transfer ((on c t).as K) u a v x = L.transfer (c.as K) u a v x from fun _ _ _ => rfl]
    cases requireAuth c a with
    | error _ => rfl
    | ok _ =>
    cases Stake.getConfig (w.stake K) with
    | error _ => rfl
    | ok cfg =>
    simp only [bind, Except.bind]
    cases req (¬ x < cfg.minBond) (Err.code 4) with
    | error _ => rfl
    | ok _ =>
    simp only
    cases w.led.transfer (c.as K) cfg.lpToken a K x with
    | error _ => rfl
    | ok L =>
    simp only
    cases addI ((w.stake K).info a).total x with
    | error _ => rfl
    | ok _ =>
    simp only
    cases addI (w.stake K).total x <;> rfl
  | distribute a x tok =>
    simp only [Stake.step, Stake.distribute, show (on c t).now = t from rfl, show requireAuth (on c t) a = requireAuth c a from rfl,
      show ∀ L : Ledger, ∀ u v : Addr, L.transfer ((on c t).as K) u a v x = L.transfer (c.as K) u a v x from fun _ _ _ => rfl]
    cases requireAuth c a with
    | error _ => rfl
    | ok _ =>
    cases Stake.getConfig (w.stake K) with
    | error _ => rfl
    | ok cfg =>
    simp only [bind, Except.bind]
    cases req (¬ (a ≠ cfg.manager ∧ a ≠ cfg.owner)) (Err.code 5) with
    | error _ => rfl
    | ok _ =>
    simp only
    cases req (tok ∈ (w.stake K).dists) (Err.code 13) with
    | error _ => rfl
    | ok _ =>
    simp only
    cases Stake.rewardHistory (w.stake K) tok with
    | error _ => rfl
    | ok _ =>
    simp only
    cases w.led.transfer (c.as K) tok a K x <;> rfl
  | _ => rfl

/-- **C139** Waiting with a claim of vested tokens never makes it smaller. -/
theorem C139_vested_only_grows (hh : HostOK h acct) (g : Genesis acct w0) (hp : ∀ y ∈ ts, Possible acct y) {V a : Addr} {i : Nat}
    {v : Vesting.State} {n m : Int} (hV : (run h w0 ts).code V = .vesting) (hv : (run h w0 ts).vest V = some v) (ht : c.now ≤ t)
    (h1 : Vesting.available c v a i = .ok n) (h2 : Vesting.available (on c t) v a i = .ok m) : n ≤ m := by
  obtain ⟨I, -⟩ := run_inv hh (Phoenix.World.genesis_inv (h := h) g) hp
  generalize run h w0 ts = w at *
  have nV := I.core.contracts V (by rw [hV]; simp)
  have hi := ((I.core.at_ V nV).vest).st v hv
  obtain ⟨x, p, e1, e2, e3, e4, rfl⟩ := Vesting.available_ok.mp h1
  obtain ⟨x', q, f1, f2, f3, f4, rfl⟩ := Vesting.available_ok.mp h2
  rw [e1] at f1
  cases f1
  obtain ⟨_, k, hk, -⟩ := hi.good a i x e1
  have := C26_decreasing hk.dec (show c.now ≤ (on c t).now from ht) e2 f2
  omega

/-- **C139** Nor does waiting make the reward smaller that the reward contract announces for the same stakes and pays. -/
theorem C139_reward_only_grows {s : Rewards.State} {u : Addr} {i : Stake.Info} {n m : Nat} (ht : c.now ≤ t)
    (h1 : Rewards.queryWithdrawable c s u i = .ok n) (h2 : Rewards.queryWithdrawable (on c t) s u i = .ok m) : n ≤ m := by
  obtain ⟨cfg, j1, j2⟩ := Rewards.queryWithdrawable_inv h1
  obtain ⟨cfg', k1, k2⟩ := Rewards.queryWithdrawable_inv h2
  rw [j1] at k1
  cases k1
  obtain ⟨r, a1, aw, a2, -, -⟩ := Rewards.payable_inv j2
  obtain ⟨r', b1, -, b2, -, -⟩ := Rewards.payable_inv k2
  rw [a1, ok_inj] at b1
  subst b1
  obtain ⟨-, -, -, hl⟩ := Rewards.withdrawPower_inv aw
  have hm := Phoenix.Props.C86_multiplier_grows (fun e he => (hl e he).2) (show c.now ≤ (on c t).now from ht)
  have : (n : Int) ≤ m := by
    rw [a2, b2]
    exact Int.ediv_le_ediv (by norm_num) (mul_le_mul_of_nonneg_left hm (by omega))
  omega

/-- **C139** A funding of the reward contract that is executed after its start fails; executed before, it moves the same tokens. (Its
end is reckoned from the time of execution.) -/
theorem C139_funding {R : Addr} {start duration : Nat} {x : Int} {w1 : World}
    (e : step h w (on c t) (.rewards R (.fund start duration x)) = .ok w1) :
    t ≤ start ∧ ∀ w2, step h w c (.rewards R (.fund start duration x)) = .ok w2 → w1.led = w2.led := by
  simp only [step, Rewards.step, Rewards.fund, bind_ok, ok_inj, req_ok, requireAuth_ok, not_lt] at e
  obtain ⟨_, -, s1, ⟨⟨v1, L1⟩, ⟨cfg, hcfg, _, -, _, -, _, hst, _, -, L1', hL1, _, -, _, -, _, -, k, -, hv⟩, rfl⟩, rfl⟩ := e
  simp only [Prod.mk.injEq] at hv
  obtain ⟨-, rfl⟩ := hv
  refine ⟨hst, fun w2 e2 => ?_⟩
  simp only [step, Rewards.step, Rewards.fund, bind_ok, ok_inj, req_ok, requireAuth_ok, not_lt] at e2
  obtain ⟨_, -, s2, ⟨⟨v2, L2⟩, ⟨cfg2, hcfg2, _, -, _, -, _, -, _, -, L2', hL2, _, -, _, -, _, -, k2, -, hv2⟩, rfl⟩, rfl⟩ := e2
  simp only [Prod.mk.injEq] at hv2
  obtain ⟨-, rfl⟩ := hv2
  rw [hcfg] at hcfg2
  cases hcfg2
  have : (w.led.transfer ((on c t).as R) cfg.token (w.rew R).admin R x) = w.led.transfer (c.as R) cfg.token (w.rew R).admin R x := rfl
  rw [this, hL2, ok_inj] at hL1
  exact hL1.symm
end

/-! Concrete cases: the set-up of the example world, with a swap, a route, a stake with rewards and a vesting schedule. -/
section
open Phoenix.World.Example

/-- account 1 stakes shares of the first pool, account 6 distributes 1000 of token 20 at time 10 -/
def exWait : List Tx := setup ++ liquidity ++ exVesting ++
  [ ⟨by' 1, .stake (pool1 + 20000000) (.bond 1 1000)⟩,
    ⟨by' 6, .stake (pool1 + 20000000) (.createFlow 6 20)⟩ ]

/-- a swap with the deadline 50 in the stable pool, at times 10, 50 and 51 -/
example : (∀ y ∈ exWait, y.ctx.now ≤ 10) ∧ ¬ NotesTime (.stable pool2 (.swap 2 21 1000 none none (some 50) none)) ∧
    InTime 50 (.stable pool2 (.swap 2 21 1000 none none (some 50) none)) ∧
    (let w := run host start exWait
     let k : Call := .stable pool2 (.swap 2 21 1000 none none (some 50) none)
     (step host w (by' 2) k).toOption.map (fun w => w.led.bal 22 2) = some 5000997 ∧
     (step host w (on (by' 2) 50) k).toOption.map (fun w => w.led.bal 22 2) = some 5000997 ∧
     (step host w (on (by' 2) 51) k).toOption.map (fun w => w.led.bal 22 2) = none) := by
  refine ⟨?_, fun h => h, ?_, ?_⟩
  · intro y hy
    simp only [exWait, setup, liquidity, exVesting, List.cons_append, List.nil_append, List.mem_cons, List.not_mem_nil, or_false] at hy
    rcases hy with rfl | rfl | rfl | rfl | rfl | rfl | rfl | rfl | rfl | rfl | rfl <;> exact le_refl 10
  · intro d hd
    simp only [deadline, Option.some.injEq] at hd
    omega
  · decide +kernel

/-- what account 2 can claim of 120 vesting from second 0 to second 20, at times 10 and 15 -/
example : ((run host start exWait).vest 70).map (fun v => (Vesting.available (by' 2) v 2 0, Vesting.available (on (by' 2) 15) v 2 0))
    = some (.ok 60, .ok 90) := by decide +kernel

open Phoenix.Props in
/-- what the reward contract has for user 1, whose stake of 6000 was made on day 90, on days 101 and 120 -/
example : Rewards.queryWithdrawable (rBy 1 101) (Rewards.run 100 rExStart rExHist).st 1 (rInfo 6000 90) = .ok 31428 ∧
    Rewards.queryWithdrawable (on (rBy 1 101) (120 * 86400)) (Rewards.run 100 rExStart rExHist).st 1 (rInfo 6000 90) = .ok 85714 := by
  decide +kernel

/-- account 1 funds the reward contract 80, for which it plays the staking contract as well, from time 40 on: at times 10, 40 and 41 -/
example :
    let w := run host start (exWait ++ [⟨by' 1, .rewards 80 (.init 1 1 20 10 100 100)⟩])
    let k : Call := .rewards 80 (.fund 40 50 1000)
    (step host w (by' 1) k).toOption.map (fun w => w.led.bal 20 80) = some 1000 ∧
    (step host w (on (by' 1) 40) k).toOption.map (fun w => w.led.bal 20 80) = some 1000 ∧
    (step host w (on (by' 1) 41) k).toOption.map (fun w => w.led.bal 20 80) = none := by decide +kernel

/-- bonding at time 10 or at time 5000: the same payment -/
example : (step host (run host start exWait) (by' 1) (.stake (pool1 + 20000000) (.bond 1 500))).toOption.map
      (fun w => w.led.bal (pool1 + 10000041) 1) = some 1411713 ∧
    (step host (run host start exWait) (on (by' 1) 5000) (.stake (pool1 + 20000000) (.bond 1 500))).toOption.map
      (fun w => w.led.bal (pool1 + 10000041) 1) = some 1411713 := by decide +kernel
end

end Phoenix.Props.World
