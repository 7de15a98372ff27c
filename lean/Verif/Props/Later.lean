import Verif.Lemmas.LaterKeys
import Verif.Spec.WorldExample
/-!
C151: only durations matter.  Let everything that happens on the ledger happen `d` seconds later,
with deadlines, schedules and the times that name stakes moved by `d` as well.  Then every call has
the same outcome, and everybody has the same tokens at the end.  So no contract treats a date in its
own way: neither a day of the week, nor the start of a day, nor how long ago the clock began.
-/
namespace Phoenix.Props.Later
open Phoenix.World Phoenix.World.Spec Phoenix.Later

variable {acct : Accounts} {h : Host} {w0 : World} {ts : List Tx} {d : Nat}

theorem genesis_keys (g : Genesis acct w0) : Keys w0 := by
  intro K t m e
  rw [g.stake K] at e
  simp [Stake.fresh] at e

theorem genesis_later (g : Genesis acct w0) : world d w0 = w0 := by
  have h1 : (fun a => (w0.stable a).map (stable d)) = w0.stable := by funext a; simp [g.stable a]
  have h2 : (fun a => stake d (w0.stake a)) = w0.stake := by funext a; rw [g.stake a]; rfl
  have h3 : (fun a => (w0.vest a).map (vest d)) = w0.vest := by funext a; simp [g.vest a]
  have h4 : (fun a => rewards d (w0.rew a)) = w0.rew := by funext a; rw [g.rew a]; rfl
  unfold world
  rw [h1, h2, h3, h4]

/-- C151: a history that happens `d` seconds later leads to the same state with all stored times `d`
seconds later. -/
theorem C151_same_history_later (g : Genesis acct w0) (ht : ∀ t ∈ ts, InRange d t) :
    run h w0 (ts.map (tx d)) = world d (run h w0 ts) := by
  have := (run_later (h := h) ht (genesis_keys g)).1
  rwa [genesis_later g] at this

/-- C151: after any history, a call made `d` seconds later (in the history that is `d` seconds
later) fails with the same error, or succeeds and leads to the same state `d` seconds later. -/
theorem C151_same_outcome (g : Genesis acct w0) (ht : ∀ t ∈ ts, InRange d t) (t : Tx) (hr : InRange d t) :
    (∀ e, step h (run h w0 ts) t.ctx t.call = .error e →
      step h (run h w0 (ts.map (tx d))) (tx d t).ctx (tx d t).call = .error e)
    ∧ ∀ w', step h (run h w0 ts) t.ctx t.call = .ok w' →
      step h (run h w0 (ts.map (tx d))) (tx d t).ctx (tx d t).call = .ok (world d w') := by
  have e := step_later d h (run_later (h := h) ht (genesis_keys g)).2 hr
  rw [C151_same_history_later g ht]
  refine ⟨fun x hx => ?_, fun w' hw => ?_⟩
  · rw [hx] at e; exact e
  · rw [hw] at e; exact e

/-- C151: in particular everybody has the same balance of every token and the same allowances, all
constant product pools, factories, routers and traders are the same, and so is what is deployed. -/
theorem C151_same_balances (g : Genesis acct w0) (ht : ∀ t ∈ ts, InRange d t) :
    (run h w0 (ts.map (tx d))).led = (run h w0 ts).led
    ∧ (run h w0 (ts.map (tx d))).xyk = (run h w0 ts).xyk
    ∧ (run h w0 (ts.map (tx d))).fac = (run h w0 ts).fac
    ∧ (run h w0 (ts.map (tx d))).hop = (run h w0 ts).hop
    ∧ (run h w0 (ts.map (tx d))).trd = (run h w0 ts).trd
    ∧ (run h w0 (ts.map (tx d))).code = (run h w0 ts).code := by
  rw [C151_same_history_later g ht]
  exact ⟨rfl, rfl, rfl, rfl, rfl, rfl⟩

/-- C151: what a staker can withdraw from a stake contract, what a schedule has released and what a
reward contract owes are the same `d` seconds later. -/
theorem C151_same_claims (g : Genesis acct w0) (ht : ∀ t ∈ ts, InRange d t) (c : Ctx) (K V R a : Addr) (n : Nat)
    (i : Stake.Info) :
    Stake.queryWithdrawable (ctx d c) ((run h w0 (ts.map (tx d))).stake K) a
      = Stake.queryWithdrawable c ((run h w0 ts).stake K) a
    ∧ ((run h w0 (ts.map (tx d))).vest V).map (fun v => Vesting.available (ctx d c) v a n)
      = ((run h w0 ts).vest V).map (fun v => Vesting.available c v a n)
    ∧ Rewards.queryWithdrawable (ctx d c) ((run h w0 (ts.map (tx d))).rew R) a (stakes d i)
      = Rewards.queryWithdrawable c ((run h w0 ts).rew R) a i := by
  have hk := (run_later (h := h) ht (genesis_keys g)).2
  rw [C151_same_history_later g ht]
  refine ⟨queryLoop_later d (hk K) c a _, ?_, ?_⟩
  · rw [w_vest]
    cases (run h w0 ts).vest V with
    | none => rfl
    | some v => simp
  · rw [w_rew]
    simp [Rewards.queryWithdrawable]

theorem simulate_later (w : World) (n : Nat) (P o : Addr) (x : Int) :
    poolSimulate (world d w) (n + d) P o x = poolSimulate w n P o x := by
  simp only [poolSimulate, w_code]
  cases w.code P
  case stable => simp [Stable.simulateSwap]
  all_goals rfl

theorem reverse_later (w : World) (n : Nat) (P o : Addr) (x : Int) :
    poolSimulateReverse (world d w) (n + d) P o x = poolSimulateReverse w n P o x := by
  simp only [poolSimulateReverse, w_code]
  cases w.code P
  case stable => simp [Stable.simulateReverseSwap, Stable.computeOfferAmount]; rfl
  all_goals rfl

/-- C151: the quotes of the pools and of the routers are the same `d` seconds later. -/
theorem C151_same_quotes (g : Genesis acct w0) (ht : ∀ t ∈ ts, InRange d t) (n : Nat) (H P o : Addr)
    (ops : List Multihop.Op) (x : Int) :
    poolSimulate (run h w0 (ts.map (tx d))) (n + d) P o x = poolSimulate (run h w0 ts) n P o x
    ∧ poolSimulateReverse (run h w0 (ts.map (tx d))) (n + d) P o x = poolSimulateReverse (run h w0 ts) n P o x
    ∧ hopSimulate (run h w0 (ts.map (tx d))) (n + d) H ops x = hopSimulate (run h w0 ts) n H ops x
    ∧ hopSimulateReverse (run h w0 (ts.map (tx d))) (n + d) H ops x = hopSimulateReverse (run h w0 ts) n H ops x := by
  rw [C151_same_history_later g ht]
  generalize run h w0 ts = w
  have hf : ∀ F a b, findPool (world d w) F a b = findPool w F a b := fun _ _ _ => rfl
  have hl : ∀ F ops y q, simLoop (world d w) (n + d) F ops y q = simLoop w n F ops y q := by
    intro F ops
    induction ops with
    | nil => intros; rfl
    | cons o ops ih => intro y q; simp only [simLoop, hf, simulate_later, ih]
  have hr : ∀ F ops y q, revLoop (world d w) (n + d) F ops y q = revLoop w n F ops y q := by
    intro F ops
    induction ops with
    | nil => intros; rfl
    | cons o ops ih => intro y q; simp only [revLoop, hf, reverse_later, ih]
  refine ⟨simulate_later w n P o x, reverse_later w n P o x, ?_, ?_⟩
  · simp only [hopSimulate, w_hop, hl]
  · simp only [hopSimulateReverse, w_hop, hr]

/-- C151: time zero itself is the exception, and the hypothesis that calls and schedules come after
it cannot be dropped: a schedule with a point at time zero is refused, the same schedule one second
later is accepted. -/
theorem C151_time_zero_is_special :
    (∃ e, (Curve.pl [⟨0, 100⟩, ⟨10, 0⟩]).validateDec = .error e)
    ∧ (curve 1 (.pl [⟨0, 100⟩, ⟨10, 0⟩])).validateDec = .ok () :=
  ⟨⟨_, rfl⟩, rfl⟩

/-! ### A concrete history -/

/-- two pools are created and filled, and account 2 swaps in one of them, first before a deadline and then
after one, which fails -/
def exHist : List Tx :=
  Example.setup ++ Example.liquidity ++
  [ ⟨Example.by' 2, .xyk Example.pool1 (.swap 2 20 1000 none none (some 15) none)⟩,
    ⟨Example.by' 2, .xyk Example.pool1 (.swap 2 20 1000 none none (some 9) none)⟩ ]

theorem exHist_range (d : Nat) : ∀ t ∈ exHist, InRange d t := by
  intro t ht
  simp only [exHist, Example.setup, Example.liquidity, List.cons_append, List.nil_append, List.mem_cons,
    List.not_mem_nil, or_false] at ht
  rcases ht with rfl | rfl | rfl | rfl | rfl | rfl | rfl | rfl | rfl <;> exact ⟨by decide, trivial⟩

/-- The history meets the hypotheses, it does something, and half a day later it does the same. -/
example : (∀ t ∈ exHist, InRange 43200 t) ∧ (run Example.host Example.start exHist).led.bal 20 2 = 4999000
    ∧ (run Example.host Example.start (exHist.map (tx 43200))).led.bal 20 2 = 4999000 :=
  ⟨exHist_range _, by decide +kernel, by decide +kernel⟩

/-- A stake contract in which account 1 has a stake of a hundred since time 5, and 1000 reward tokens
were distributed at time 90000: the claim at time 200000 is the same half a day later. -/
example :
    let s : Stake.State := { Stake.fresh with
      cfg := some ⟨30, 1, 1, 6, 7, 7⟩, total := 100, dists := [40],
      info := fun a => if a = 1 then ⟨[⟨100, 5⟩], 0, 100⟩ else Stake.noInfo,
      rewards := fun t => if t = 40 then some [(90000, 1000)] else none, hist := [(90000, 100)] }
    Stake.queryWithdrawable ⟨200000, 1, fun _ => false, none⟩ s 1 = Stake.queryWithdrawable (ctx 43200 ⟨200000, 1, fun _ => false, none⟩) (stake 43200 s) 1
    ∧ ∃ x, Stake.queryWithdrawable ⟨200000, 1, fun _ => false, none⟩ s 1 = .ok [(40, x)] ∧ 0 < x := by
  refine ⟨by decide +kernel, 16, ?_, ?_⟩ <;> decide +kernel

end Phoenix.Props.Later
