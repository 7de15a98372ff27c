import Verif.Lemmas.Rename
import Verif.Spec.WorldExample
/-!
C137: no address is special.  Give every address another name, in the state, in the calls and in
the signatures: everything that happens afterwards is the same under the new names.  So no
contract has a built-in account, token or contract that it treats in its own way; whatever an
address may do more than another comes from what is stored under its name.
-/
namespace Phoenix.Props.Rename
open Phoenix Phoenix.World Phoenix.Rename

variable (σ : Names)

/-- C137: one call, made under other names, has the same outcome under those names: it fails with
the same error, or it succeeds and leads to the renamed state. -/
theorem C137_same_outcome (h : Host) (w : World) (c : Ctx) (k : Call) (ho : KeepsOrder σ k) :
    (∀ e, step h w c k = .error e → step (host σ h) (world σ w) (ctx σ c) (call σ k) = .error e)
    ∧ ∀ w', step h w c k = .ok w' → step (host σ h) (world σ w) (ctx σ c) (call σ k) = .ok (world σ w') := by
  rw [step_ren σ h w c k ho]
  exact ⟨fun e he => by rw [he]; rfl, fun w' hw => by rw [hw]; rfl⟩

/-- C137: a whole history, replayed under other names, leads to the renamed state. -/
theorem C137_no_address_is_special (h : Host) (w : World) (ts : List Tx) (ho : ∀ t ∈ ts, KeepsOrder σ t.call) :
    run (host σ h) (world σ w) (ts.map (tx σ)) = world σ (run h w ts) := by
  induction ts generalizing w with
  | nil => rfl
  | cons t ts ih =>
    have hx : exec (host σ h) (world σ w) (tx σ t) = world σ (exec h w t) := by
      unfold exec
      have := step_ren σ h w t.ctx t.call (ho t (by simp))
      simp only [tx, this]
      cases step h w t.ctx t.call <;> rfl
    rw [List.map_cons]
    unfold run
    rw [List.foldl_cons, List.foldl_cons, hx]
    exact ih (exec h w t) fun t ht => ho t (by simp [ht])

/-- C137: in particular everybody ends up with the same balance of every token as under the old
names. -/
theorem C137_same_balances (h : Host) (w : World) (ts : List Tx) (ho : ∀ t ∈ ts, KeepsOrder σ t.call) (t a : Addr) :
    (run (host σ h) (world σ w) (ts.map (tx σ))).led.bal (σ t) (σ a) = (run h w ts).led.bal t a := by
  rw [C137_no_address_is_special σ h w ts ho]
  simp

theorem simulate_ren (w : World) (n : Nat) (P o : Addr) (x : Int) :
    poolSimulate (world σ w) n (σ P) (σ o) x = poolSimulate w n P o x := by
  simp only [poolSimulate, w_code]
  cases w.code P
  case xyk =>
    have hb : ∀ p, (pool σ p).cfg.totalFeeBps = p.cfg.totalFeeBps := fun _ => rfl
    simp [Pool.simulateSwap, hb]
  case stable => simp [Stable.simulateSwap]
  all_goals rfl

theorem reverse_ren (w : World) (n : Nat) (P o : Addr) (x : Int) :
    poolSimulateReverse (world σ w) n (σ P) (σ o) x = poolSimulateReverse w n P o x := by
  simp only [poolSimulateReverse, w_code]
  cases w.code P
  case xyk =>
    have hb : ∀ p, (pool σ p).cfg.totalFeeBps = p.cfg.totalFeeBps := fun _ => rfl
    have hs : ∀ p, Pool.reverseSides (pool σ p) (σ o) = Pool.reverseSides p o := fun p => by
      simp [Pool.reverseSides, pool]
    simp [Pool.simulateReverseSwap, hb, hs]
  case stable =>
    have hb : ∀ p, (stable σ p).cfg.totalFeeBps = p.cfg.totalFeeBps := fun _ => rfl
    have hr : ∀ x, (side σ x).res = x.res := fun _ => rfl
    have hp : ∀ x, (side σ x).prec = x.prec := fun _ => rfl
    have hc : ∀ p a b d e f g, Stable.computeOfferAmount n (stable σ p) a b d e f g = Stable.computeOfferAmount n p a b d e f g :=
      fun _ _ _ _ _ _ _ => rfl
    simp [Stable.simulateReverseSwap, hb, hr, hp, hc]
  all_goals rfl

/-- C137: the quotes of the pools and of the routers are the same as well, failures included. -/
theorem C137_same_quotes (w : World) (n : Nat) (H P o : Addr) (ops : List Multihop.Op) (x : Int) :
    poolSimulate (world σ w) n (σ P) (σ o) x = poolSimulate w n P o x
    ∧ poolSimulateReverse (world σ w) n (σ P) (σ o) x = poolSimulateReverse w n P o x
    ∧ hopSimulate (world σ w) n (σ H) (ops.map (hopOp σ)) x = hopSimulate w n H ops x
    ∧ hopSimulateReverse (world σ w) n (σ H) (ops.map (hopOp σ)) x = hopSimulateReverse w n H ops x := by
  have hf : ∀ m : Multihop.State, (multihop σ m).factory = σ m.factory := fun _ => rfl
  have h1 : ∀ o, (hopOp σ o).offer = σ o.offer := fun _ => rfl
  have h2 : ∀ o, (hopOp σ o).ask = σ o.ask := fun _ => rfl
  have hl : ∀ F y q, simLoop (world σ w) n (σ F) (ops.map (hopOp σ)) y q = simLoop w n F ops y q := by
    induction ops with
    | nil => intros; rfl
    | cons o ops ih =>
      intro F y q
      simp only [List.map_cons, simLoop, h1, h2, findPool_ren, bind_map, simulate_ren, ih]
  have hr : ∀ F y q, revLoop (world σ w) n (σ F) (ops.map (hopOp σ)) y q = revLoop w n F ops y q := by
    induction ops with
    | nil => intros; rfl
    | cons o ops ih =>
      intro F y q
      have hl' : ∀ F y q, simLoop (world σ w) n (σ F) (ops.map (hopOp σ)) y q = simLoop w n F ops y q := by
        intro F y q
        clear hl ih
        induction ops generalizing y q with
        | nil => rfl
        | cons o ops ih => simp only [List.map_cons, simLoop, h1, h2, findPool_ren, bind_map, simulate_ren, ih]
      simp only [List.map_cons, revLoop, h1, h2, findPool_ren, bind_map, reverse_ren, ih hl']
  have hv : ∀ l : List Multihop.Op, Multihop.verifyReverseSwap (l.map (hopOp σ)) = Multihop.verifyReverseSwap l := by
    intro l
    induction l with
    | nil => rfl
    | cons a l ih =>
      cases l with
      | nil => rfl
      | cons b l =>
        simp only [List.map_cons] at ih
        simp only [List.map_cons, Multihop.verifyReverseSwap, ih, h1, h2, EmbeddingLike.apply_eq_iff_eq]
  refine ⟨simulate_ren σ w n P o x, reverse_ren σ w n P o x, ?_, ?_⟩
  · simp only [hopSimulate, verifySwap_ren, w_hop, hop_loaded, bind_map, hf, hl, List.map_eq_nil_iff]
  · simp only [hopSimulateReverse, hv, w_hop, hop_loaded, bind_map, hf, hr, List.map_eq_nil_iff]

/-- C137: what a stake contract owes, what a vesting schedule has released, and what a reward
contract would pay do not depend on the name of the account either. -/
theorem C137_same_claims (c : Ctx) (s : Stake.State) (v : Vesting.State) (r : Rewards.State) (a : Addr) (n : Nat)
    (i : Stake.Info) :
    Stake.queryWithdrawable (ctx σ c) (stake σ s) (σ a)
      = (Stake.queryWithdrawable c s a).map (List.map fun p => (σ p.1, p.2))
    ∧ Vesting.available (ctx σ c) (vest σ v) (σ a) n = Vesting.available c v a n
    ∧ Rewards.queryWithdrawable (ctx σ c) (rewards σ r) (σ a) i = Rewards.queryWithdrawable c r a i := by
  refine ⟨?_, by simp, ?_⟩
  · have (l : List Addr) : Stake.queryLoop (ctx σ c) (stake σ s) (σ a) (l.map σ)
        = (Stake.queryLoop c s a l).map (List.map fun p => (σ p.1, p.2)) := by
      induction l with
      | nil => rfl
      | cons b l ih => simp [Stake.queryLoop, ih]
    exact this s.dists
  · simp [Rewards.queryWithdrawable]

/-- C137: two accounts between which the state makes no difference are treated alike: what one of
them can get with a call, the other gets with the same call. -/
theorem C137_twins (a b : Addr) (h : Host) (w : World) (c : Ctx) (k : Call) (hh : host (Equiv.swap a b) h = h)
    (hw : world (Equiv.swap a b) w = w) (ho : KeepsOrder (Equiv.swap a b) k) {w' : World} (e : step h w c k = .ok w') :
    ∃ w'', step h w (ctx (Equiv.swap a b) c) (call (Equiv.swap a b) k) = .ok w''
      ∧ ∀ t, t ≠ a → t ≠ b → w''.led.bal t b = w'.led.bal t a ∧ w''.led.bal t a = w'.led.bal t b := by
  have := (C137_same_outcome (Equiv.swap a b) h w c k ho).2 w' e
  rw [hh, hw] at this
  refine ⟨_, this, fun t ha hb => ?_⟩
  have ht : Equiv.swap a b t = t := Equiv.swap_apply_of_ne_of_ne ha hb
  have h1 := ledger_bal (Equiv.swap a b) w'.led t a
  have h2 := ledger_bal (Equiv.swap a b) w'.led t b
  rw [ht, Equiv.swap_apply_left] at h1
  rw [ht, Equiv.swap_apply_right] at h2
  exact ⟨h1, h2⟩

/-! ### Concrete cases -/

/-- accounts 1 and 2 exchange their names -/
abbrev exSwap : Names := Equiv.swap 1 2

/-- The set-up of the example with two pools: the exchange of the accounts 1 and 2 is allowed, and
after it the account 2 is the one that has provided the liquidity. -/
example : (∀ t ∈ Example.setup ++ Example.liquidity, KeepsOrder exSwap t.call)
    ∧ (run (host exSwap Example.host) (world exSwap Example.start)
        ((Example.setup ++ Example.liquidity).map (tx exSwap))).led.bal 20 2 = 4000000
    ∧ (run Example.host Example.start (Example.setup ++ Example.liquidity)).led.bal 20 1 = 4000000
    ∧ (run Example.host Example.start (Example.setup ++ Example.liquidity)).led.bal 20 2 = 5000000 := by
  refine ⟨?_, ?_, by decide +kernel, by decide +kernel⟩
  · intro t ht
    simp only [Example.setup, Example.liquidity, List.cons_append, List.nil_append, List.mem_cons, List.not_mem_nil,
      or_false] at ht
    rcases ht with rfl | rfl | rfl | rfl | rfl | rfl | rfl <;> trivial
  · decide +kernel

/-- hand-out of addresses that does not look at accounts -/
def exHost : Host := ⟨fun _ _ _ => 1000, fun _ _ => 1001, fun _ _ _ => 1002, fun _ => 1003⟩

/-- The accounts 1 and 2 are twins at the start of the example: a call
that either of them can make, here a transfer to account 3, is open to the other. -/
example : host exSwap exHost = exHost ∧ world exSwap Example.start = Example.start
    ∧ (∃ w', step exHost Example.start (Example.by' 1) (.token 20 (.transfer 1 3 1000000)) = .ok w' ∧ w'.led.bal 20 1 = 4000000)
    := by
  refine ⟨rfl, ?_, ?_⟩
  rotate_left
  · obtain ⟨w', e, p⟩ := exists_of_okAnd
      (x := step exHost Example.start (Example.by' 1) (.token 20 (.transfer 1 3 1000000)))
      (P := fun w' => decide (w'.led.bal 20 1 = 4000000)) (by decide +kernel)
    exact ⟨w', e, of_decide_eq_true p⟩
  have h1 : ∀ a b : Nat, b ≠ 1 → b ≠ 2 → ((Equiv.symm exSwap) a = b ↔ a = b) := fun a b x y => by
    rw [Equiv.symm_apply_eq, Equiv.swap_apply_of_ne_of_ne x y]
  have h2 : ∀ a : Nat, ((Equiv.symm exSwap) a = 1 ∨ (Equiv.symm exSwap) a = 2) ↔ (a = 1 ∨ a = 2) := fun a => by
    rw [Equiv.symm_apply_eq, Equiv.symm_apply_eq, Equiv.swap_apply_left, Equiv.swap_apply_right]; exact or_comm
  have h9 : exSwap 9 = 9 := by decide
  unfold world
  congr 1
  · funext t
    simp only [ledger, token, Example.start, h9, h1 t 20 (by decide) (by decide), h1 t 21 (by decide) (by decide),
      h1 t 22 (by decide) (by decide), h2]
  · funext t
    simp only [Example.start, h1 t 20 (by decide) (by decide), h1 t 21 (by decide) (by decide),
      h1 t 22 (by decide) (by decide), h1 t 50 (by decide) (by decide), h1 t 60 (by decide) (by decide),
      h1 t 70 (by decide) (by decide), h1 t 80 (by decide) (by decide)]

/-- C137: the condition on the order of the two tokens cannot be dropped: a pool of the tokens 20
and 21 can be created, but under names that exchange the two the same call fails. -/
theorem C137_order_matters :
    ∃ w', step Example.host (exec Example.host Example.start ⟨Example.by' 8, .facInit 50 8 1 2 3 4 [8] 7⟩) (Example.by' 8)
        (.create 50 8 (Example.info 20 21) .xyk none 100 1000) = .ok w'
      ∧ step (host (Equiv.swap 20 21) Example.host)
          (world (Equiv.swap 20 21) (exec Example.host Example.start ⟨Example.by' 8, .facInit 50 8 1 2 3 4 [8] 7⟩))
          (ctx (Equiv.swap 20 21) (Example.by' 8))
          (call (Equiv.swap 20 21) (.create 50 8 (Example.info 20 21) .xyk none 100 1000)) = .error (.code 5) := by
  obtain ⟨w', e, -⟩ := exists_of_okAnd (x := step Example.host
    (exec Example.host Example.start ⟨Example.by' 8, .facInit 50 8 1 2 3 4 [8] 7⟩) (Example.by' 8)
    (.create 50 8 (Example.info 20 21) .xyk none 100 1000)) (P := fun _ => true) (by decide +kernel)
  exact ⟨w', e, eq_of_failsWith (by decide +kernel)⟩

end Phoenix.Props.Rename
