import Verif.Spec.Later
import Verif.Lemmas.Rename
/-! Every function of the model commutes with a shift of the time. -/
namespace Phoenix.Later
open Rename (map_ok map_error bind_map map_bind map_ite)

variable (d : Nat)

@[simp] theorem now_ctx (c : Ctx) : (ctx d c).now = c.now + d := rfl
@[simp] theorem as_ctx (c : Ctx) (a : Addr) : (ctx d c).as a = ctx d (c.as a) := rfl
@[simp] theorem auth_ctx (c : Ctx) (a : Addr) : requireAuth (ctx d c) a = requireAuth c a := rfl
@[simp] theorem ledger_call (c : Ctx) (L : Ledger) (t : Addr) (op : TokenOp) : L.call (ctx d c) t op = L.call c t op := by
  cases op <;> rfl
@[simp] theorem ledger_transfer (c : Ctx) (L : Ledger) (t a b : Addr) (x : Int) :
    L.transfer (ctx d c) t a b x = L.transfer c t a b x := rfl
@[simp] theorem ledger_mint (c : Ctx) (L : Ledger) (t a : Addr) (x : Int) : L.mint (ctx d c) t a x = L.mint c t a x := rfl
@[simp] theorem ledger_burn (c : Ctx) (L : Ledger) (t a : Addr) (x : Int) : L.burn (ctx d c) t a x = L.burn c t a x := rfl
@[simp] theorem subU_add (a b : Nat) : subU (a + d) (b + d) = subU a b := by
  unfold subU
  rcases Nat.lt_or_ge a b with h | h
  · rw [if_neg (by omega), if_neg (by omega)]
  · rw [if_pos (by omega), if_pos (by omega)]; congr 1; omega

/-! ### Constant product pools -/

@[simp] theorem pool_deadline (c : Ctx) (t : Option Nat) : Pool.checkDeadline (ctx d c) (deadline d t) = Pool.checkDeadline c t := by
  cases t <;> simp [Pool.checkDeadline, deadline, whenSome]

theorem pool_swap (P : Addr) (c : Ctx) (p : Pool.State) (L : Ledger) (s o : Addr) (x : Int) (a b : Option Int) (t : Option Nat)
    (e : Option Int) : Pool.swap P (ctx d c) p L s o x a b (deadline d t) e = Pool.swap P c p L s o x a b t e := by
  simp only [Pool.swap, pool_deadline]; rfl

theorem pool_provide (P : Addr) (c : Ctx) (p : Pool.State) (L : Ledger) (s : Addr) (a b e f g : Option Int) (t : Option Nat) :
    Pool.provide P (ctx d c) p L s a b e f g (deadline d t) = Pool.provide P c p L s a b e f g t := by
  simp only [Pool.provide, pool_deadline]; rfl

theorem pool_withdraw (P : Addr) (c : Ctx) (p : Pool.State) (L : Ledger) (s : Addr) (x a b : Int) (t : Option Nat) :
    Pool.withdraw P (ctx d c) p L s x a b (deadline d t) = Pool.withdraw P c p L s x a b t := by
  simp only [Pool.withdraw, pool_deadline]; rfl

theorem pool_step (P : Addr) (s : Pool.Sys) (c : Ctx) (k : Pool.Call) :
    Pool.step P s (.pool (ctx d c) (poolCall d k)) = Pool.step P s (.pool c k) := by
  cases k <;> simp only [poolCall, Pool.step, pool_swap, pool_provide, pool_withdraw] <;> rfl

/-! ### Stable pools -/

/-- state and tokens -/
def stableLed (x : Stable.State × Ledger) : Stable.State × Ledger := (stable d x.1, x.2)

@[simp] theorem stable_deadline (c : Ctx) (t : Option Nat) :
    Stable.checkDeadline (ctx d c) (deadline d t) = Stable.checkDeadline c t := by
  cases t <;> simp [Stable.checkDeadline, deadline, whenSome]

@[simp] theorem stable_loaded (p : Option Stable.State) : Stable.loaded (p.map (stable d)) = (Stable.loaded p).map (stable d) := by
  cases p <;> rfl

@[simp] theorem stable_amp (n : Nat) (p : Stable.State) : Stable.currentAmp (n + d) (stable d p).amp = Stable.currentAmp n p.amp := by
  simp only [Stable.currentAmp, stable, Nat.add_lt_add_iff_right, Nat.add_sub_add_right]

@[simp] theorem stable_quote (n : Nat) (p : Stable.State) (a b : Stable.Side) (x : Int) :
    Stable.quote (n + d) (stable d p) a b x = Stable.quote n p a b x := by
  simp only [Stable.quote, Stable.computeSwap, stable_amp]; rfl

@[simp] theorem stable_reserves (p : Stable.State) (o : Addr) (x : Int) (r : Stable.Quote) :
    Stable.swapReserves (stable d p) o x r = (Stable.swapReserves p o x r).map (stable d) := by
  simp [Stable.swapReserves, stable]
  rfl

@[simp] theorem stable_cfg (p : Stable.State) : (stable d p).cfg = p.cfg := rfl
@[simp] theorem stable_limits (p : Stable.State) (o : Addr) (a b : Option Int) :
    Stable.swapLimits (stable d p) o a b = Stable.swapLimits p o a b := rfl
@[simp] theorem stable_sides (p : Stable.State) (o : Addr) : Stable.sides (stable d p) o = Stable.sides p o := rfl

theorem stable_swap (P : Addr) (c : Ctx) (p : Stable.State) (L : Ledger) (s o : Addr) (x : Int) (a b : Option Int) (t : Option Nat)
    (e : Option Int) : Stable.swap P (ctx d c) (stable d p) L s o x a b (deadline d t) e
      = (Stable.swap P c p L s o x a b t e).map (fun y => (stable d y.1, y.2)) := by
  simp [Stable.swap, Stable.doSwap]

theorem stable_mintShares (P : Addr) (c : Ctx) (p : Stable.State) (L : Ledger) (a : Addr) (x : Int) :
    Stable.mintShares P (ctx d c) (stable d p) L a x = (Stable.mintShares P c p L a x).map (stableLed d) := by
  simp [Stable.mintShares, stableLed]; rfl

theorem stable_burnShares (P : Addr) (c : Ctx) (p : Stable.State) (L : Ledger) (x : Int) :
    Stable.burnShares P (ctx d c) (stable d p) L x = (Stable.burnShares P c p L x).map (stableLed d) := by
  simp [Stable.burnShares, stableLed]; rfl

@[simp] theorem stable_newShares (p : Stable.State) (a b e f : Nat) : Stable.newShares (stable d p) a b e f = Stable.newShares p a b e f := rfl

theorem stable_provide (P : Addr) (c : Ctx) (p : Stable.State) (L : Ledger) (s : Addr) (a b : Int) (e : Option Int) (t m : Option Nat) :
    Stable.provide P (ctx d c) (stable d p) L s a b e (deadline d t) m
      = (Stable.provide P c p L s a b e t m).map (stableLed d) := by
  have hA : (stable d p).resA = p.resA := rfl
  have hB : (stable d p).resB = p.resB := rfl
  simp [Stable.provide, stable_mintShares, stableLed, hA, hB]
  rfl

theorem stable_withdraw (P : Addr) (c : Ctx) (p : Stable.State) (L : Ledger) (s : Addr) (x a b : Int) (t : Option Nat) :
    Stable.withdraw P (ctx d c) (stable d p) L s x a b (deadline d t)
      = (Stable.withdraw P c p L s x a b t).map (fun y => (stable d y.1, y.2)) := by
  have hA : (stable d p).resA = p.resA := rfl
  have hB : (stable d p).resB = p.resB := rfl
  have hT : (stable d p).total = p.total := rfl
  simp [Stable.withdraw, stable_burnShares, stableLed, hA, hB, hT]
  rfl

theorem stable_init (P : Addr) (c : Ctx) (p : Option Stable.State) (L : Ledger) (i : Stable.InitArgs) :
    Stable.init P (ctx d c) (p.map (stable d)) L i = (Stable.init P c p L i).map (stableLed d) := by
  cases p <;> simp [Stable.init, stableLed, stable]

theorem stable_updateConfig (p : Stable.State) (s : Addr) (u : Stable.ConfigUpdate) :
    Stable.updateConfig (stable d p) s u = (Stable.updateConfig p s u).map (stable d) := by
  simp [Stable.updateConfig]
  rfl

/-- stable pool and tokens -/
def stableSys (s : Stable.Sys) : Stable.Sys := ⟨s.pool.map (stable d), s.led⟩

theorem stable_step (P : Addr) (s : Stable.Sys) (c : Ctx) (k : Stable.Call) :
    Stable.step P (stableSys d s) (.pool (ctx d c) (stableCall d k)) = (Stable.step P s (.pool c k)).map (stableSys d) := by
  cases k <;> simp [Stable.step, stableCall, stableSys, stable_init, stable_provide, stable_swap, stable_withdraw,
    stable_updateConfig, stableLed]

/-! ### Stake contracts -/

theorem set_times (m : SMap) (k v : Nat) : SMap.set (times d m) (k + d) v = times d (m.set k v) := by
  induction m with
  | nil => rfl
  | cons x m ih =>
    obtain ⟨k', v'⟩ := x
    simp only [times, List.map_cons, SMap.set, Nat.add_lt_add_iff_right, Nat.add_right_cancel_iff]
    split
    · rfl
    · split
      · rfl
      · simp only [List.map_cons, List.cons.injEq, true_and]; exact ih

theorem get_times (m : SMap) (k : Nat) : SMap.get (times d m) (k + d) = m.get k := by
  induction m with
  | nil => rfl
  | cons x m ih =>
    obtain ⟨k', v'⟩ := x
    simp only [times, List.map_cons, SMap.get, Nat.add_right_cancel_iff]
    split
    · rfl
    · exact ih

theorem keys_times (m : SMap) : SMap.keys (times d m) = m.keys.map (· + d) := by simp [SMap.keys, times]

theorem removeStake_later (x : Int) (t : Nat) (l : List Stake.Entry) :
    Stake.removeStake x (t + d) (l.map (entry d)) = (Stake.removeStake x t l).map (List.map (entry d)) := by
  induction l with
  | nil => rfl
  | cons e l ih => simp [Stake.removeStake, entry, ih]

@[simp] theorem stakeReward_later (n r t : Nat) (e : Stake.Entry) :
    Stake.stakeReward (n + d) r t (entry d e) = Stake.stakeReward n r t e := by simp [Stake.stakeReward, entry]

theorem stakesLoop_later (n r t : Nat) (l : List Stake.Entry) (acc : Int) :
    Stake.stakesLoop (n + d) r t (l.map (entry d)) acc = Stake.stakesLoop n r t l acc := by
  induction l generalizing acc with
  | nil => rfl
  | cons e l ih => simp [Stake.stakesLoop, ih]

theorem daysLoop_later (m h : SMap) (l : List Stake.Entry) (ds : List Nat) (acc : Int) :
    Stake.daysLoop (times d m) (times d h) (l.map (entry d)) (ds.map (· + d)) acc = Stake.daysLoop m h l ds acc := by
  induction ds generalizing acc with
  | nil => rfl
  | cons n ds ih => simp [Stake.daysLoop, Stake.dayReward, ih, get_times, stakesLoop_later]

theorem relevant_later (keys : List Nat) (last now : Nat) (hk : ∀ k ∈ keys, 0 < k) :
    Stake.relevant (keys.map (· + d)) (if last = 0 then 0 else last + d) (now + d) = (Stake.relevant keys last now).map (· + d) := by
  have hf : (keys.map (· + d)).find? (fun x => decide ((if last = 0 then 0 else last + d) < x))
      = (keys.find? (fun x => decide (last < x))).map (· + d) := by
    induction keys with
    | nil => rfl
    | cons k keys ih =>
      have h0 := hk k (by simp)
      have e : ((if last = 0 then 0 else last + d) < k + d) ↔ last < k := by split <;> omega
      simp only [List.map_cons, List.find?_cons, e]
      split
      · rfl
      · exact ih fun x hx => hk x (by simp [hx])
  unfold Stake.relevant
  rw [hf]
  cases keys.find? (fun x => decide (last < x)) with
  | none => rfl
  | some f =>
    simp only [Option.map_some, List.dropWhile_map, List.takeWhile_map, Function.comp_def, Nat.add_lt_add_iff_right,
      Nat.add_le_add_iff_right]

/-- all distributions of a stake contract were made after time zero -/
def KeysPos (s : Stake.State) : Prop := ∀ t m, s.rewards t = some m → ∀ k ∈ m.keys, 0 < k

@[simp] theorem history_later (s : Stake.State) (t : Addr) :
    Stake.rewardHistory (stake d s) t = (Stake.rewardHistory s t).map (times d) := by
  simp only [Stake.rewardHistory, stake]; cases s.rewards t <;> rfl

theorem pending_later {s : Stake.State} (hs : KeysPos s) (c : Ctx) (t : Addr) (i : Stake.Info) :
    Stake.pending (ctx d c) (stake d s) t (stakes d i) = Stake.pending c s t i := by
  have hh : (stake d s).hist = times d s.hist := rfl
  simp only [Stake.pending, history_later, hh, bind_map, keys_times, now_ctx]
  unfold Stake.rewardHistory
  cases e : s.rewards t with
  | none => rfl
  | some m =>
    show Stake.daysLoop _ _ (i.stakes.map (entry d)) (Stake.relevant (m.keys.map (· + d)) (if i.last = 0 then 0 else i.last + d) (c.now + d)) 0 = _
    rw [relevant_later d _ _ _ (hs t m e), daysLoop_later]
    rfl

@[simp] theorem stake_cfg (s : Stake.State) : Stake.getConfig (stake d s) = Stake.getConfig s := rfl
@[simp] theorem stake_info (s : Stake.State) (a : Addr) : (stake d s).info a = stakes d (s.info a) := rfl

theorem payLoop_later {s : Stake.State} (hs : KeysPos s) (K : Addr) (c : Ctx) (a : Addr) (l : List Addr) (L : Ledger) :
    Stake.payLoop K (ctx d c) (stake d s) a l L = Stake.payLoop K c s a l L := by
  induction l generalizing L with
  | nil => rfl
  | cons b l ih => simp [Stake.payLoop, ih, pending_later d hs]

theorem queryLoop_later {s : Stake.State} (hs : KeysPos s) (c : Ctx) (a : Addr) (l : List Addr) :
    Stake.queryLoop (ctx d c) (stake d s) a l = Stake.queryLoop c s a l := by
  induction l with
  | nil => rfl
  | cons b l ih => simp [Stake.queryLoop, ih, pending_later d hs]

theorem upd_later {α β : Type} (g : α → β) (f : Addr → α) (a : Addr) (v : α) :
    upd (fun x => g (f x)) a (g v) = fun x => g (upd f a v x) := by
  funext x; simp only [upd]; split <;> rfl

/-- state and tokens -/
def stakeLed (x : Stake.State × Ledger) : Stake.State × Ledger := (stake d x.1, x.2)

theorem stake_setInfo (s : Stake.State) (a : Addr) (i : Stake.Info) (t : Int) :
    { stake d s with info := upd (stake d s).info a (stakes d i), total := t } = stake d { s with info := upd s.info a i, total := t } := by
  simp only [stake, Stake.State.mk.injEq, true_and, and_true]
  exact upd_later (stakes d) s.info a i

theorem stake_bond (K : Addr) (c : Ctx) (s : Stake.State) (L : Ledger) (a : Addr) (x : Int) :
    Stake.bond K (ctx d c) (stake d s) L a x = (Stake.bond K c s L a x).map (stakeLed d) := by
  have ht : (stake d s).total = s.total := rfl
  simp only [Stake.bond, auth_ctx, stake_cfg, as_ctx, ledger_transfer, map_bind, map_ok, ht, now_ctx, stake_info, stakeLed]
  simp only [← stake_setInfo d s a]
  simp [stakes, entry]

theorem stake_unbond (K : Addr) (c : Ctx) (s : Stake.State) (L : Ledger) (a : Addr) (x : Int) (t : Nat) :
    Stake.unbond K (ctx d c) (stake d s) L a x (t + d) = (Stake.unbond K c s L a x t).map (stakeLed d) := by
  have ht : (stake d s).total = s.total := rfl
  have hs : (stakes d (s.info a)).stakes = (s.info a).stakes.map (entry d) := rfl
  simp only [Stake.unbond, auth_ctx, stake_cfg, as_ctx, ledger_transfer, map_bind, map_ok, ht, stake_info, stakeLed, hs,
    removeStake_later, bind_map]
  simp only [← stake_setInfo d s a]
  simp [stakes]

theorem stake_createFlow (c : Ctx) (s : Stake.State) (a b : Addr) :
    Stake.createFlow (ctx d c) (stake d s) a b = (Stake.createFlow c s a b).map (stake d) := by
  have hd : (stake d s).dists = s.dists := rfl
  simp only [Stake.createFlow, auth_ctx, stake_cfg, map_bind, map_ok, hd]
  have : ({ stake d s with dists := s.dists ++ [b], rewards := upd (stake d s).rewards b (some []) } : Stake.State)
      = stake d { s with dists := s.dists ++ [b], rewards := upd s.rewards b (some []) } := by
    simp only [stake, Stake.State.mk.injEq, true_and, and_true]
    exact upd_later (Option.map (times d)) s.rewards b (some [])
  rw [← this]

theorem stake_distribute (K : Addr) (c : Ctx) (s : Stake.State) (L : Ledger) (a : Addr) (x : Int) (t : Addr) :
    Stake.distribute K (ctx d c) (stake d s) L a x t = (Stake.distribute K c s L a x t).map (stakeLed d) := by
  have hd : (stake d s).dists = s.dists := rfl
  have ht : (stake d s).total = s.total := rfl
  simp only [Stake.distribute, auth_ctx, stake_cfg, map_bind, map_ok, hd, ht, history_later, bind_map, as_ctx, ledger_transfer, now_ctx, stakeLed]
  have : ∀ m, ({ stake d s with hist := (stake d s).hist.set (c.now + d) (asU128 s.total), rewards := upd (stake d s).rewards t (some ((times d m).set (c.now + d) (asU128 x))) } : Stake.State)
      = stake d { s with hist := s.hist.set c.now (asU128 s.total), rewards := upd s.rewards t (some (m.set c.now (asU128 x))) } := by
    intro m
    simp only [stake, Stake.State.mk.injEq, true_and, and_true, set_times]
    exact upd_later (Option.map (times d)) s.rewards t (some _)
  simp only [← this]
  rfl

theorem stake_withdraw {s : Stake.State} (hs : KeysPos s) {c : Ctx} (hn : 0 < c.now) (K : Addr) (L : Ledger) (a : Addr) :
    Stake.withdraw K (ctx d c) (stake d s) L a = (Stake.withdraw K c s L a).map (stakeLed d) := by
  have hd : (stake d s).dists = s.dists := rfl
  simp only [Stake.withdraw, hd, payLoop_later d hs, map_bind, map_ok, stakeLed, now_ctx, stake_info]
  have : stake d { s with info := upd s.info a ⟨(s.info a).stakes, c.now, (s.info a).total⟩ }
      = { stake d s with info := upd (stake d s).info a ⟨(stakes d (s.info a)).stakes, c.now + d, (stakes d (s.info a)).total⟩ } := by
    have h := stake_setInfo d s a ⟨(s.info a).stakes, c.now, (s.info a).total⟩ s.total
    simp only [stakes, hn.ne', if_false] at h
    exact h.symm
  simp only [this]
  rfl

/-- stake contract and tokens -/
def stakeSys (s : Stake.Sys) : Stake.Sys := ⟨stake d s.st, s.led⟩

theorem stake_init (s : Stake.State) (a lp : Addr) (mb mr : Int) (m o : Addr) (mc : Nat) :
    Stake.init (stake d s) a lp mb mr m o mc = (Stake.init s a lp mb mr m o mc).map (stake d) := by
  simp [Stake.init, stake, times]
  rfl

theorem stake_step {s : Stake.Sys} (hs : KeysPos s.st) {c : Ctx} (hn : 0 < c.now) (K : Addr) (k : Stake.Call) :
    Stake.step K (stakeSys d s) (.stake (ctx d c) (stakeCall d k)) = (Stake.step K s (.stake c k)).map (stakeSys d) := by
  cases k <;> simp [Stake.step, stakeCall, stakeSys, stake_init, stake_bond, stake_unbond, stake_createFlow, stake_distribute,
      stake_withdraw d hs hn, stakeLed]

/-! ### Schedules -/

@[simp] theorem interpolate_later (x0 y0 x1 y1 x : Nat) :
    Curve.interpolate (x0 + d) y0 (x1 + d) y1 (x + d) = Curve.interpolate x0 y0 x1 y1 x := by simp [Curve.interpolate]

theorem plScan_later (p : Step) (l : List Step) (x : Nat) :
    Curve.plScan (point d p) (l.map (point d)) (x + d) = Curve.plScan p l x := by
  induction l generalizing p with
  | nil => rfl
  | cons n l ih => simp only [List.map_cons, Curve.plScan, ih]; simp [point]

theorem lastStep_later (p : Step) (l : List Step) : Curve.lastStep (point d p) (l.map (point d)) = point d (Curve.lastStep p l) := by
  induction l generalizing p with
  | nil => rfl
  | cons n l ih => simp only [List.map_cons, Curve.lastStep, ih]

@[simp] theorem plValue_later (l : List Step) (x : Nat) : Curve.plValue (l.map (point d)) (x + d) = Curve.plValue l x := by
  cases l with
  | nil => rfl
  | cons p l => simp only [List.map_cons, Curve.plValue, lastStep_later, plScan_later]; simp [point]

@[simp] theorem value_later (k : Curve) (x : Nat) : (curve d k).value (x + d) = k.value x := by
  cases k with
  | constant y => rfl
  | sl a b e f => simp [Curve.value, curve, Curve.slValue]
  | pl l => simp [Curve.value, curve]

@[simp] theorem size_later (k : Curve) : (curve d k).size = k.size := by cases k <;> simp [Curve.size, curve]

theorem rangeFrom_later (a b : Nat) (l : List Step) : Curve.rangeFrom a b (l.map (point d)) = Curve.rangeFrom a b l := by
  induction l generalizing a b with
  | nil => rfl
  | cons n l ih => simp only [List.map_cons, Curve.rangeFrom, ih]; rfl

@[simp] theorem range_later (k : Curve) : (curve d k).range = k.range := by
  cases k <;> simp [Curve.range, curve, rangeFrom_later]

theorem checkTimes_later (t : Nat) (l : List Step) : Curve.checkTimes (t + d) (l.map (point d)) = Curve.checkTimes t l := by
  induction l generalizing t with
  | nil => rfl
  | cons n l ih =>
    have := ih n.time
    simp only [List.map_cons, Curve.checkTimes]
    simp [point] at *
    rw [this]

theorem plValidate_later (l : List Step) (h : ∀ s ∈ l, 0 < s.time) : Curve.plValidate (l.map (point d)) = Curve.plValidate l := by
  cases l with
  | nil => rfl
  | cons n l =>
    have h0 := h n (by simp)
    have := checkTimes_later d n.time l
    simp only [List.map_cons, Curve.plValidate, Curve.checkTimes]
    rw [if_pos (by simp [point]; omega), if_pos (by omega)]
    exact this

theorem classifyFrom_later (t : Nat) (x : Curve.Shape) (l : List Step) :
    Curve.classifyFrom t x (l.map (point d)) = Curve.classifyFrom t x l := by
  induction l generalizing t x with
  | nil => rfl
  | cons n l ih => simp only [List.map_cons, Curve.classifyFrom, ih]; rfl

theorem classify_later (l : List Step) : Curve.classify (l.map (point d)) = Curve.classify l := by
  cases l with
  | nil => rfl
  | cons n l => simp only [List.map_cons, Curve.classify, classifyFrom_later]; rfl

theorem validateDec_later (k : Curve) (h : AfterZero k) : (curve d k).validateDec = k.validateDec := by
  cases k with
  | constant y => rfl
  | sl a b e f => simp [Curve.validateDec, curve, Curve.slDec, Curve.slValidate]
  | pl l => simp only [Curve.validateDec, curve, Curve.plDec, plValidate_later d l h, classify_later]

@[simp] theorem end_later (k : Curve) : (curve d k).end = k.end.map (· + d) := by
  cases k with
  | constant y => rfl
  | sl a b e f => rfl
  | pl l => simp [Curve.end, curve, List.getLast?_map, Function.comp_def, point]

theorem shiftSteps_later (y : Nat) (l : List Step) :
    Curve.shiftSteps y (l.map (point d)) = (Curve.shiftSteps y l).map (List.map (point d)) := by
  induction l with
  | nil => rfl
  | cons n l ih => simp only [List.map_cons, Curve.shiftSteps, ih, map_bind, bind_map]; rfl

theorem combineConst_later (k : Curve) (y : Nat) : (curve d k).combineConst y = (k.combineConst y).map (curve d) := by
  cases k with
  | constant z => simp [Curve.combineConst, curve]
  | sl a b e f => simp [Curve.combineConst, curve]
  | pl l => simp only [Curve.combineConst, curve, shiftSteps_later, map_bind, bind_map]; rfl

theorem bubblePass_later (n : Nat) (l : List Nat) : Curve.bubblePass n (l.map (· + d)) = (Curve.bubblePass n l).map (· + d) := by
  induction n generalizing l with
  | zero => cases l <;> rfl
  | succ n ih =>
    match l with
    | [] => rfl
    | [a] => rfl
    | a :: b :: l =>
      have h1 := ih (a :: l)
      have h2 := ih (b :: l)
      simp only [List.map_cons] at h1 h2
      simp only [List.map_cons, Curve.bubblePass, h1, h2, gt_iff_lt, Nat.add_lt_add_iff_right]
      split <;> rfl

theorem bubbleLoop_later (n : Nat) (l : List Nat) : Curve.bubbleLoop n (l.map (· + d)) = (Curve.bubbleLoop n l).map (· + d) := by
  induction n generalizing l with
  | zero => rfl
  | succ n ih => simp only [Curve.bubbleLoop, bubblePass_later, ih]

theorem dedupFrom_later (o : Option Nat) (l : List Nat) :
    Curve.dedupFrom (o.map (· + d)) (l.map (· + d)) = (Curve.dedupFrom o l).map (· + d) := by
  induction l generalizing o with
  | nil => rfl
  | cons n l ih =>
    have h1 := ih (some n)
    simp only [Option.map_some] at h1
    have e : (some (n + d) = o.map (· + d)) ↔ some n = o := by cases o <;> simp
    simp only [List.map_cons, Curve.dedupFrom, ne_eq, e, h1, ih]
    split <;> rfl

theorem sumSteps_later (f g : List Step) (l : List Nat) :
    Curve.sumSteps (f.map (point d)) (g.map (point d)) (l.map (· + d)) = (Curve.sumSteps f g l).map (List.map (point d)) := by
  induction l with
  | nil => rfl
  | cons n l ih => simp only [List.map_cons, Curve.sumSteps, plValue_later, ih, map_bind, bind_map]; rfl

theorem plCombined_later (f g : List Step) :
    Curve.plCombined (f.map (point d)) (g.map (point d)) = (Curve.plCombined f g).map (curve d) := by
  have e : (f.map (point d) ++ g.map (point d)).map Step.time = ((f ++ g).map Step.time).map (· + d) := by simp [Function.comp_def, point]
  have h := dedupFrom_later d none (Curve.bubbleSort ((f ++ g).map Step.time))
  simp only [Option.map_none] at h
  simp only [Curve.plCombined, Curve.plCombine, e, Curve.bubbleSort, List.length_map, bubbleLoop_later] at h ⊢
  rw [h, sumSteps_later]
  simp only [bind_map, map_bind]
  rfl

theorem combine_later (k l : Curve) : (curve d k).combine (curve d l) = (k.combine l).map (curve d) := by
  have f : ∀ a b e f, Curve.fromSl (a + d) b (e + d) f = (Curve.fromSl a b e f).map (point d) := fun _ _ _ _ => rfl
  cases k <;> cases l <;> simp only [Curve.combine, curve, f, plCombined_later]
  · exact combineConst_later d (.constant _) _
  · exact combineConst_later d (.sl _ _ _ _) _
  · exact combineConst_later d (.pl _) _
  · exact combineConst_later d (.sl _ _ _ _) _
  · exact combineConst_later d (.pl _) _

/-! ### Vesting contracts -/

/-- state and tokens -/
def vestLed (x : Vesting.State × Ledger) : Vesting.State × Ledger := (vest d x.1, x.2)

@[simp] theorem vest_loaded (v : Option Vesting.State) : Vesting.loaded (v.map (vest d)) = (Vesting.loaded v).map (vest d) := by
  cases v <;> rfl

theorem vest_init (v : Option Vesting.State) (a t : Addr) (m : Nat) (mi : Option Vesting.Minter) :
    Vesting.init (v.map (vest d)) a t m mi = (Vesting.init v a t m mi).map (vest d) := by
  simp [Vesting.init, vest]

theorem checkDup_later (seen : List Addr) (l : List (Addr × Curve)) :
    Vesting.checkDup seen (l.map fun x => (x.1, curve d x.2)) = Vesting.checkDup seen l := by
  induction l generalizing seen with
  | nil => rfl
  | cons x l ih => obtain ⟨a, k⟩ := x; simp only [List.map_cons, Vesting.checkDup, ih]

theorem firstFree_later (f : Nat → Option Vesting.Info) (i n : Nat) :
    Vesting.firstFree (fun j => (f j).map (vestInfo d)) i n = Vesting.firstFree f i n := by
  induction n generalizing i with
  | zero => rfl
  | succ n ih =>
    simp only [Vesting.firstFree]
    cases f i with
    | none => rfl
    | some x => simpa using ih (i + 1)

@[simp] theorem putInfo_later (v : Vesting.State) (a : Addr) (i : Nat) (x : Vesting.Info) :
    Vesting.putInfo (vest d v) a i (vestInfo d x) = vest d (Vesting.putInfo v a i x) := by
  simp only [Vesting.putInfo, vest, Vesting.State.mk.injEq, true_and, and_true]
  funext y j
  simp only [upd]
  split
  · show (if j = i then _ else _) = Option.map _ (if j = i then _ else _)
    split <;> rfl
  · rfl

theorem saveVesting_later (v : Vesting.State) (a : Addr) (x : Vesting.Info) :
    Vesting.saveVesting (vest d v) a (vestInfo d x) = (Vesting.saveVesting v a x).map (vest d) := by
  have h1 : (vest d v).sched a = fun j => (v.sched a j).map (vestInfo d) := rfl
  have h2 : (vest d v).entries = v.entries := rfl
  simp [Vesting.saveVesting, h1, h2, firstFree_later]
  rfl

theorem vestedAmount_later (k : Curve) : Vesting.vestedAmount (curve d k) = Vesting.vestedAmount k := by
  cases k with
  | constant y => rfl
  | sl a b e f => rfl
  | pl l => simp [Vesting.vestedAmount, curve, Curve.endValue, Curve.firstValue, List.getLast?_map, List.head?_map, Function.comp_def, point]

theorem createLoop_later (v : Vesting.State) (n : Nat) (l : List (Addr × Curve)) (hl : ∀ x ∈ l, AfterZero x.2) :
    Vesting.createLoop (vest d v) n (l.map fun x => (x.1, curve d x.2))
      = (Vesting.createLoop v n l).map fun x => (vest d x.1, x.2) := by
  induction l generalizing v n with
  | nil => rfl
  | cons x l ih =>
    obtain ⟨a, k⟩ := x
    have hk := hl (a, k) (by simp)
    have ih := fun v n => ih v n fun x hx => hl x (by simp [hx])
    have hm : (vest d v).maxComplexity = v.maxComplexity := rfl
    have hs : ∀ y, Vesting.saveVesting (vest d v) a ⟨y, a, curve d k⟩ = (Vesting.saveVesting v a ⟨y, a, k⟩).map (vest d) :=
      fun y => saveVesting_later d v a ⟨y, a, k⟩
    simp only [List.map_cons, Vesting.createLoop, Vesting.validateSchedule, validateDec_later d k hk, vestedAmount_later, size_later,
      hm, hs, ih, map_bind, bind_map]

theorem vest_create (V : Addr) (c : Ctx) (v : Vesting.State) (L : Ledger) (l : List (Addr × Curve)) (hl : ∀ x ∈ l, AfterZero x.2) :
    Vesting.create V (ctx d c) (vest d v) L (l.map fun x => (x.1, curve d x.2)) = (Vesting.create V c v L l).map (vestLed d) := by
  have h1 : (vest d v).admin = v.admin := rfl
  have h2 : (vest d v).token = v.token := rfl
  simp [Vesting.create, h1, h2, checkDup_later, createLoop_later d v 0 l hl, vestLed]

@[simp] theorem getVesting_later (v : Vesting.State) (a : Addr) (i : Nat) :
    Vesting.getVesting (vest d v) a i = (Vesting.getVesting v a i).map (vestInfo d) := by
  simp only [Vesting.getVesting, vest]
  cases v.sched a i <;> rfl

@[simp] theorem available_later (c : Ctx) (v : Vesting.State) (a : Addr) (i : Nat) :
    Vesting.available (ctx d c) (vest d v) a i = Vesting.available c v a i := by
  simp [Vesting.available, vestInfo]

theorem vest_claim (V : Addr) (c : Ctx) (v : Vesting.State) (L : Ledger) (a : Addr) (i : Nat) :
    Vesting.claim V (ctx d c) (vest d v) L a i = (Vesting.claim V c v L a i).map (vestLed d) := by
  have h2 : (vest d v).token = v.token := rfl
  have h3 : ∀ (x : Vesting.Info) (n : Nat),
      Vesting.putInfo (vest d v) a i ⟨n, (vestInfo d x).recipient, curve d x.schedule⟩
        = vest d (Vesting.putInfo v a i ⟨n, x.recipient, x.schedule⟩) := fun x n => putInfo_later d v a i ⟨n, x.recipient, x.schedule⟩
  have h4 : ∀ x, (vestInfo d x).schedule = curve d x.schedule := fun _ => rfl
  have h5 : ∀ x, (vestInfo d x).balance = x.balance := fun _ => rfl
  simp only [Vesting.claim, auth_ctx, available_later, getVesting_later, bind_map, map_bind, map_ok, now_ctx, as_ctx, h2, h3,
    h4, h5, ledger_transfer, vestLed, value_later]

/-- vesting contract and tokens -/
def vestSys (s : Vesting.Sys) : Vesting.Sys := ⟨s.vest.map (vest d), s.led⟩

theorem vest_burn (V : Addr) (c : Ctx) (v : Vesting.State) (L : Ledger) (a : Addr) (x : Nat) :
    Vesting.burn V (ctx d c) (vest d v) L a x = Vesting.burn V c v L a x := rfl

theorem vest_mint (V : Addr) (c : Ctx) (v : Vesting.State) (L : Ledger) (a : Addr) (x : Int) :
    Vesting.mint V (ctx d c) (vest d v) L a x = (Vesting.mint V c v L a x).map (vestLed d) := by
  have h2 : (vest d v).token = v.token := rfl
  have h3 : Vesting.needMinter (vest d v) = Vesting.needMinter v := rfl
  simp [Vesting.mint, h2, h3, vestLed]
  rfl

theorem vest_updateMinter (c : Ctx) (v : Vesting.State) (a b : Addr) :
    Vesting.updateMinter (ctx d c) (vest d v) a b = (Vesting.updateMinter c v a b).map (vest d) := by
  have h2 : Vesting.minterOwner (vest d v) = Vesting.minterOwner v := rfl
  simp [Vesting.updateMinter, h2]
  rfl

theorem vest_updateCapacity (c : Ctx) (v : Vesting.State) (a : Addr) (n : Nat) :
    Vesting.updateCapacity (ctx d c) (vest d v) a n = (Vesting.updateCapacity c v a n).map (vest d) := by
  have h1 : (vest d v).admin = v.admin := rfl
  have h3 : Vesting.needMinter (vest d v) = Vesting.needMinter v := rfl
  simp [Vesting.updateCapacity, h1, h3]
  rfl

/-- the schedules of a call are in range -/
def VestRange : Vesting.Call → Prop
  | .create l => ∀ x ∈ l, AfterZero x.2
  | _ => True

theorem vest_step (V : Addr) (s : Vesting.Sys) (c : Ctx) (k : Vesting.Call) (hk : VestRange k) :
    Vesting.step V (vestSys d s) (.vest (ctx d c) (vestCall d k)) = (Vesting.step V s (.vest c k)).map (vestSys d) := by
  cases k
  case create l => simp [Vesting.step, vestCall, vestSys, vestLed, fun v => vest_create d V c v s.led l hk]
  all_goals
    simp [Vesting.step, vestCall, vestSys, vest_init, vest_claim, vest_burn, vest_mint, vest_updateMinter, vest_updateCapacity, vestLed]

/-! ### Reward contracts -/

/-- state and tokens -/
def rewLed (x : Rewards.State × Ledger) : Rewards.State × Ledger := (rewards d x.1, x.2)

@[simp] theorem rew_config (s : Rewards.State) : Rewards.getConfig (rewards d s) = Rewards.getConfig s := rfl
@[simp] theorem rew_total (i : Stake.Info) : (stakes d i).total = i.total := rfl
@[simp] theorem rew_stakes (i : Stake.Info) : (stakes d i).stakes = i.stakes.map (entry d) := rfl
@[simp] theorem rew_dist (s : Rewards.State) : (rewards d s).dist = s.dist := rfl
@[simp] theorem rew_adj (s : Rewards.State) : (rewards d s).adj = s.adj := rfl
@[simp] theorem rew_admin (s : Rewards.State) : (rewards d s).admin = s.admin := rfl
@[simp] theorem rew_curve (s : Rewards.State) : (rewards d s).curve = curve d s.curve := rfl

theorem rew_init (s : Rewards.State) (a st t : Addr) (mc : Nat) (mr mb : Int) :
    Rewards.init (rewards d s) a st t mc mr mb = (Rewards.init s a st t mc mr mb).map (rewards d) := by
  simp [Rewards.init, rewards, curve]
  rfl

@[simp] theorem rew_update (s : Rewards.State) (a : Addr) (x y : Int) :
    Rewards.updateRewards (rewards d s) a x y = (Rewards.updateRewards s a x y).map (rewards d) := by
  simp [Rewards.updateRewards]
  rfl

theorem rew_addUser (c : Ctx) (s : Rewards.State) (a : Addr) (i : Stake.Info) :
    Rewards.addUser (ctx d c) (rewards d s) a (stakes d i) = (Rewards.addUser c s a i).map (rewards d) := by
  simp [Rewards.addUser]

@[simp] theorem lastEntry_later (l : List Stake.Entry) :
    Rewards.lastEntry (l.map (entry d)) = (Rewards.lastEntry l).map (entry d) := by
  simp only [Rewards.lastEntry, List.getLast?_map]; cases l.getLast? <;> rfl

theorem rew_calcBond (c : Ctx) (s : Rewards.State) (a : Addr) (i : Stake.Info) :
    Rewards.calcBond (ctx d c) (rewards d s) a (stakes d i) = (Rewards.calcBond c s a i).map (rewards d) := by
  have h : ∀ e, (entry d e).amount = e.amount := fun _ => rfl
  simp [Rewards.calcBond, h]

theorem weigh_later (n : Nat) (l : List Stake.Entry) (acc : Nat × Nat) :
    Rewards.weigh (n + d) (l.map (entry d)) acc = Rewards.weigh n l acc := by
  induction l generalizing acc with
  | nil => rfl
  | cons e l ih => simp [Rewards.weigh, ih, Rewards.daysCounted, entry]

@[simp] theorem rew_payable (c : Ctx) (k : Rewards.Config) (s : Rewards.State) (a : Addr) (i : Stake.Info) :
    Rewards.payable (ctx d c) k (rewards d s) a (stakes d i) = Rewards.payable c k s a i := by
  simp [Rewards.payable, Rewards.claim, Rewards.withdrawPower, weigh_later]

theorem rew_withdraw (R : Addr) (c : Ctx) (s : Rewards.State) (L : Ledger) (a : Addr) (i : Stake.Info) :
    Rewards.withdraw R (ctx d c) (rewards d s) L a (stakes d i) = (Rewards.withdraw R c s L a i).map (rewLed d) := by
  simp [Rewards.withdraw, rewLed]
  rfl

theorem rew_withdrawIfAny (R : Addr) (c : Ctx) (s : Rewards.State) (L : Ledger) (a : Addr) (i : Stake.Info) :
    Rewards.withdrawIfAny R (ctx d c) (rewards d s) L a (stakes d i) = (Rewards.withdrawIfAny R c s L a i).map (rewLed d) := by
  simp [Rewards.withdrawIfAny, Rewards.queryWithdrawable, rew_withdraw]
  rfl

theorem rew_calcUnbond (R : Addr) (c : Ctx) (s : Rewards.State) (L : Ledger) (a : Addr) (i : Stake.Info) (x : Int) :
    Rewards.calcUnbond R (ctx d c) (rewards d s) L a (stakes d i) x = (Rewards.calcUnbond R c s L a i x).map (rewLed d) := by
  simp [Rewards.calcUnbond, rew_withdrawIfAny, rewLed]

theorem rew_distribute (R : Addr) (c : Ctx) (s : Rewards.State) (L : Ledger) (x : Int) :
    Rewards.distribute R (ctx d c) (rewards d s) L x = (Rewards.distribute R c s L x).map (rewards d) := by
  simp [Rewards.distribute, Rewards.unlocked]
  rfl

theorem joinCurves_later (n m : Nat) (k l : Curve) :
    Rewards.joinCurves (n + d) m (curve d k) (curve d l) = (Rewards.joinCurves n m k l).map (curve d) := by
  have hc : ∀ q, Rewards.checkComplexity (curve d q) m = Rewards.checkComplexity q m := fun q => by
    simp [Rewards.checkComplexity, Curve.validateComplexity]
  simp only [Rewards.joinCurves, end_later]
  cases k.end with
  | none => simp [combine_later, hc]
  | some e => simp [combine_later, hc]

theorem add64_later {a b : Nat} (h : a + b + d < U64_LIM) : add64 (a + d) b = (add64 a b).map (· + d) := by
  unfold add64 u64
  rw [if_pos (by omega), if_pos (by omega)]
  simp; omega

theorem rew_fund (R : Addr) (c : Ctx) (s : Rewards.State) (L : Ledger) (a n : Nat) (x : Int) (h : c.now + n + d < U64_LIM) :
    Rewards.fund R (ctx d c) (rewards d s) L (a + d) n x = (Rewards.fund R c s L a n x).map (rewLed d) := by
  have hr : ∀ y z, Rewards.checkRange (.sl (a + d) y (z + d) 0) y = Rewards.checkRange (.sl a y z 0) y := fun _ _ => rfl
  have hj : ∀ m y z, Rewards.joinCurves (c.now + d) m (curve d s.curve) (.sl (a + d) y (z + d) 0)
      = (Rewards.joinCurves c.now m s.curve (.sl a y z 0)).map (curve d) := fun m y z => joinCurves_later d c.now m s.curve (.sl a y z 0)
  simp [Rewards.fund, rewLed, add64_later d h, hr, hj]
  rfl

/-- reward contract and tokens -/
def rewSys (s : Rewards.Sys) : Rewards.Sys := ⟨rewards d s.st, s.led⟩

/-- the end of a schedule is in range -/
def RewRange (c : Ctx) : Rewards.Call → Prop
  | .fund _ n _ => c.now + n + d < U64_LIM
  | _ => True

theorem rew_step (R : Addr) (s : Rewards.Sys) (c : Ctx) (k : Rewards.Call) (hk : RewRange d c k) :
    Rewards.step R (rewSys d s) (.rewards (ctx d c) (rewardsCall d k)) = (Rewards.step R s (.rewards c k)).map (rewSys d) := by
  cases k
  case fund a n x => simp [Rewards.step, rewardsCall, rewSys, rewLed, rew_fund d R c s.st s.led a n x hk]
  all_goals
    simp [Rewards.step, rewardsCall, rewSys, rew_init, rew_addUser, rew_calcBond, rew_calcUnbond, rew_distribute,
      rew_withdraw, rewLed]

/-! ### The whole ledger -/

open World

@[simp] theorem w_code (w : World) : (world d w).code = w.code := rfl
@[simp] theorem w_led (w : World) : (world d w).led = w.led := rfl
@[simp] theorem w_xyk (w : World) : (world d w).xyk = w.xyk := rfl
@[simp] theorem w_fac (w : World) : (world d w).fac = w.fac := rfl
@[simp] theorem w_hop (w : World) : (world d w).hop = w.hop := rfl
@[simp] theorem w_trd (w : World) : (world d w).trd = w.trd := rfl
@[simp] theorem w_stable (w : World) (a : Addr) : (world d w).stable a = (w.stable a).map (stable d) := rfl
@[simp] theorem w_stake (w : World) (a : Addr) : (world d w).stake a = stake d (w.stake a) := rfl
@[simp] theorem w_vest (w : World) (a : Addr) : (world d w).vest a = (w.vest a).map (vest d) := rfl
@[simp] theorem w_rew (w : World) (a : Addr) : (world d w).rew a = rewards d (w.rew a) := rfl
@[simp] theorem w_expect (w : World) (a : Addr) (k : Code) : expect (world d w) a k = expect w a k := rfl
@[simp] theorem w_deploy (w : World) (a : Addr) (k : Code) : deploy (world d w) a k = (deploy w a k).map (world d) := by
  simp [deploy]; rfl

theorem w_putStable (w : World) (P : Addr) (p : Option Stable.State) (L : Ledger) :
    { world d w with stable := upd (world d w).stable P (p.map (stable d)), led := L }
      = world d { w with stable := upd w.stable P p, led := L } := by
  simp only [world, World.World.mk.injEq, true_and, and_true]
  exact upd_later (Option.map (stable d)) w.stable P p

theorem w_putStake (w : World) (K : Addr) (s : Stake.State) (L : Ledger) :
    { world d w with stake := upd (world d w).stake K (stake d s), led := L }
      = world d { w with stake := upd w.stake K s, led := L } := by
  simp only [world, World.World.mk.injEq, true_and, and_true]
  exact upd_later (stake d) w.stake K s

theorem w_putVest (w : World) (V : Addr) (v : Option Vesting.State) (L : Ledger) :
    { world d w with vest := upd (world d w).vest V (v.map (vest d)), led := L }
      = world d { w with vest := upd w.vest V v, led := L } := by
  simp only [world, World.World.mk.injEq, true_and, and_true]
  exact upd_later (Option.map (vest d)) w.vest V v

theorem w_putRew (w : World) (R : Addr) (s : Rewards.State) (L : Ledger) :
    { world d w with rew := upd (world d w).rew R (rewards d s), led := L }
      = world d { w with rew := upd w.rew R s, led := L } := by
  simp only [world, World.World.mk.injEq, true_and]
  exact upd_later (rewards d) w.rew R s

theorem initXyk_later (h : Host) (w : World) (P : Addr) (i : Info) (o : Addr) (n : Nat) (s m : Int) :
    initXyk h (world d w) P i o n s m = (initXyk h w P i o n s m).map (world d) := by
  simp only [initXyk, w_xyk, w_led, w_deploy, bind_map, map_bind, map_ok, w_stake, stake_init]
  refine bind_congr fun x => bind_congr fun w1 => bind_congr fun w2 => bind_congr fun st => ?_
  have := w_putStake d { w2 with xyk := upd w2.xyk P (some x.1) } (h.stakeAddr P) st x.2
  exact congrArg Except.ok this

theorem initStable_later (h : Host) (w : World) (c : Ctx) (P : Addr) (i : Info) (o : Addr) (n : Nat) (m : Int) :
    initStable h (world d w) (ctx d c) P i o n m = (initStable h w c P i o n m).map (world d) := by
  simp only [initStable, w_expect, w_stable, w_led, w_deploy, bind_map, map_bind, map_ok, w_stake, stake_init, stable_init, stableLed]
  refine bind_congr fun _ => bind_congr fun _ => bind_congr fun x => bind_congr fun w1 => bind_congr fun w2 => bind_congr fun st => ?_
  have e1 := w_putStake d { w2 with stable := upd w2.stable P (some x.1) } (h.stakeAddr P) st x.2
  have e2 := w_putStable d w2 P (some x.1) w2.led
  rw [← e1]
  have e3 : (world d { w2 with stable := upd w2.stable P (some x.1) }) =
    { world d w2 with stable := upd (world d w2).stable P (some (stable d x.1)) } := e2.symm
  rw [e3]

theorem facInit_later (h : Host) (w : World) (F a : Addr) (lp stb stk tok : Nat) (wl : List Addr) (n : Nat) :
    facInit h (world d w) F a lp stb stk tok wl n = (facInit h w F a lp stb stk tok wl n).map (world d) := by
  simp only [facInit, w_fac, w_deploy, bind_map, map_bind, map_ok, w_hop]
  rfl

theorem create_later (h : Host) (w : World) (c : Ctx) (F s : Addr) (i : Info) (k : Kind) (a : Option Nat) (sl m : Int) :
    World.create h (world d w) (ctx d c) F s i k a sl m = (World.create h w c F s i k a sl m).map (fun x => (world d x.1, x.2)) := by
  have hp : ∀ w n, initPool h (world d w) (ctx d c) F (h.poolAddr F i.tokenA i.tokenB) i n sl m a k
      = (initPool h w c F (h.poolAddr F i.tokenA i.tokenB) i n sl m a k).map (world d) := fun w n => by
    cases k
    · exact initXyk_later d h w _ i F n sl m
    · exact initStable_later d h w (c.as F) _ i F _ m
  simp only [World.create, auth_ctx, w_fac, w_deploy, bind_map, map_bind, map_ok, hp]
  rfl

theorem poolSwap_later (w : World) (c : Ctx) (P s o : Addr) (x : Int) (a b : Option Int) (t : Option Nat) (e : Option Int) :
    poolSwap (world d w) (ctx d c) P s o x a b (deadline d t) e = (poolSwap w c P s o x a b t e).map (fun y => (world d y.1, y.2)) := by
  simp only [poolSwap, w_code]
  cases w.code P <;> simp only [map_error]
  · simp only [w_xyk, w_led, pool_swap, map_bind, map_ok]
    rfl
  · simp only [w_stable, w_led, stable_swap, stable_loaded, bind_map, map_bind, map_ok]
    refine bind_congr fun p => bind_congr fun x => ?_
    have := w_putStable d w P (some x.1) x.2.1
    exact congrArg (fun z => Except.ok (z, x.2.2)) this

theorem hopLoop_later (w : World) (c : Ctx) (F r : Addr) (sp : Option Int) (t : Option Nat) (e : Option Int) (l : List Multihop.Op) (x : Int) :
    hopLoop (world d w) (ctx d c) F r sp (deadline d t) e l x = (hopLoop w c F r sp t e l x).map (fun y => (world d y.1, y.2)) := by
  induction l generalizing w x with
  | nil => rfl
  | cons op l ih =>
    have hf : ∀ a b, findPool (world d w) F a b = findPool w F a b := fun _ _ => rfl
    simp only [hopLoop, hf, poolSwap_later, ih, bind_map, map_bind]

theorem keysPos_step {K : Addr} {s s' : Stake.Sys} {c : Ctx} {k : Stake.Call} (hs : KeysPos s.st) (hn : 0 < c.now)
    (h : Stake.step K s (.stake c k) = .ok s') : KeysPos s'.st := by
  have set_keys : ∀ (m : SMap) (k v x : Nat), x ∈ (m.set k v).keys → x = k ∨ x ∈ m.keys := by
    intro m k v x
    induction m with
    | nil => simp [SMap.set, SMap.keys]
    | cons y m ih =>
      obtain ⟨k', v'⟩ := y
      simp only [SMap.set]
      split
      · simp [SMap.keys]
      · split
        · rename_i e; subst e; simp [SMap.keys]
        · simp only [SMap.keys, List.map_cons, List.mem_cons] at ih ⊢
          rintro (e | e)
          · exact .inr (.inl e)
          · rcases ih e with q | q
            · exact .inl q
            · exact .inr (.inr q)
  cases k with
  | init a lp mb mr m o mc =>
    simp only [Stake.step, Stake.init, bind_ok, ok_inj] at h
    obtain ⟨_, ⟨_, -, _, -, _, -, _, -, rfl⟩, rfl⟩ := h
    exact hs
  | bond a x =>
    simp only [Stake.step, Stake.bond, bind_ok, ok_inj, Prod.exists, Prod.mk.injEq] at h
    obtain ⟨_, _, ⟨_, -, _, -, _, -, _, -, _, -, _, -, rfl, rfl⟩, rfl⟩ := h
    exact hs
  | unbond a x t =>
    simp only [Stake.step, Stake.unbond, bind_ok, ok_inj, Prod.exists, Prod.mk.injEq] at h
    obtain ⟨_, _, ⟨_, -, _, -, _, -, _, -, _, -, _, -, rfl, rfl⟩, rfl⟩ := h
    exact hs
  | createFlow a b =>
    simp only [Stake.step, Stake.createFlow, bind_ok, ok_inj] at h
    obtain ⟨_, ⟨_, -, _, -, _, -, _, -, rfl⟩, rfl⟩ := h
    intro t m e k hk
    simp only [upd] at e
    split at e
    · cases e; simp [SMap.keys] at hk
    · exact hs t m e k hk
  | distribute a x t =>
    simp only [Stake.step, Stake.distribute, bind_ok, ok_inj, Prod.exists, Prod.mk.injEq] at h
    obtain ⟨_, _, ⟨_, -, _, -, _, -, _, -, m0, hm, _, -, rfl, rfl⟩, rfl⟩ := h
    intro u m e k hk
    simp only [upd] at e
    split at e
    · cases e
      rcases set_keys _ _ _ _ hk with q | q
      · omega
      · unfold Stake.rewardHistory at hm
        split at hm
        · cases hm; rename_i e'; exact hs _ _ e' k q
        · cases hm
    · exact hs u m e k hk
  | withdraw a =>
    simp only [Stake.step, Stake.withdraw, bind_ok, ok_inj, Prod.exists, Prod.mk.injEq] at h
    obtain ⟨_, _, ⟨_, -, rfl, rfl⟩, rfl⟩ := h
    exact hs

theorem step_later (h : Host) {w : World} (hw : ∀ K, KeysPos (w.stake K)) {t : Tx} (ht : InRange d t) :
    World.step h (world d w) (ctx d t.ctx) (call d t.call) = (World.step h w t.ctx t.call).map (world d) := by
  obtain ⟨c, k⟩ := t
  obtain ⟨hn, hr⟩ := ht
  simp only at hn hr ⊢
  cases k with
  | token tok op =>
    simp only [call, World.step, w_expect, w_led, ledger_call, map_bind, map_ok]; rfl
  | xykInit P i o n s m =>
    simp only [call, World.step, w_expect, initXyk_later, map_bind]
  | xyk P k =>
    have hx : ∀ k' : Pool.Call, (∀ i, k' ≠ .init i) → (do
        expect w P .xyk
        let s ← Pool.step P ⟨w.xyk P, w.led⟩ (.pool (ctx d c) (poolCall d k'))
        Except.ok { world d w with xyk := upd w.xyk P s.pool, led := s.led } : Res World)
        = (do
        expect w P .xyk
        let s ← Pool.step P ⟨w.xyk P, w.led⟩ (.pool c k')
        Except.ok { w with xyk := upd w.xyk P s.pool, led := s.led } : Res World).map (world d) := fun k' _ => by
      simp only [pool_step, map_bind, map_ok]; rfl
    cases k with
    | init i => rfl
    | _ => exact hx _ (by simp)
  | stableInit P i o n m =>
    simp only [call, World.step, w_expect, initStable_later, map_bind]
  | stable P k =>
    have hx : ∀ k' : Stable.Call, (∀ i, k' ≠ .init i) → (do
        expect w P .stable
        let s ← Stable.step P ⟨(w.stable P).map (stable d), w.led⟩ (.pool (ctx d c) (stableCall d k'))
        Except.ok { world d w with stable := upd (world d w).stable P s.pool, led := s.led } : Res World)
        = (do
        expect w P .stable
        let s ← Stable.step P ⟨w.stable P, w.led⟩ (.pool c k')
        Except.ok { w with stable := upd w.stable P s.pool, led := s.led } : Res World).map (world d) := fun k' _ => by
      have e := stable_step d P ⟨w.stable P, w.led⟩ c k'
      simp only [stableSys] at e
      simp only [e, map_bind, bind_map, map_ok]
      refine bind_congr fun _ => bind_congr fun s => ?_
      exact congrArg Except.ok (w_putStable d w P s.pool s.led)
    cases k with
    | init i => rfl
    | _ => exact hx _ (by simp)
  | stake K k =>
    have e := stake_step d (s := ⟨w.stake K, w.led⟩) (hw K) hn K k
    simp only [stakeSys] at e
    simp only [call, World.step, w_expect, w_stake, w_led, e, map_bind, bind_map, map_ok]
    refine bind_congr fun _ => bind_congr fun s => ?_
    exact congrArg Except.ok (w_putStake d w K s.st s.led)
  | vest V k =>
    have e : ∀ k, VestRange k → _ := fun k hk => vest_step d V ⟨w.vest V, w.led⟩ c k hk
    simp only [vestSys] at e
    have hx : ∀ k' : Vesting.Call, VestRange k' → (do
        expect w V .vesting
        let s ← Vesting.step V ⟨(w.vest V).map (vest d), w.led⟩ (.vest (ctx d c) (vestCall d k'))
        Except.ok { world d w with vest := upd (world d w).vest V s.vest, led := s.led } : Res World)
        = (do
        expect w V .vesting
        let s ← Vesting.step V ⟨w.vest V, w.led⟩ (.vest c k')
        Except.ok { w with vest := upd w.vest V s.vest, led := s.led } : Res World).map (world d) := fun k' hk => by
      simp only [e k' hk, map_bind, bind_map, map_ok]
      refine bind_congr fun _ => bind_congr fun s => ?_
      exact congrArg Except.ok (w_putVest d w V s.vest s.led)
    cases k with
    | mint s x =>
      have e := e (.mint s x) trivial
      have ht : ∀ v, (vest d v).token = v.token := fun _ => rfl
      simp only [vestCall] at e
      simp only [call, vestCall, World.step, w_expect, w_vest, w_led, vest_loaded, ht, e, map_bind, bind_map, map_ok]
      refine bind_congr fun _ => bind_congr fun _ => bind_congr fun _ => bind_congr fun s => ?_
      exact congrArg Except.ok (w_putVest d w V s.vest s.led)
    | create l => exact hx _ hr
    | _ => exact hx _ trivial
  | facInit F a lp stb stk tok wl n =>
    simp only [call, World.step, w_expect, facInit_later, map_bind]
  | create F s i k a sl m =>
    simp only [call, World.step, w_expect, create_later, map_bind, bind_map, map_ok]
  | whitelist F s a b => simp only [call, World.step, w_expect, w_fac, map_bind, map_ok]; rfl
  | hashes F a b e => simp only [call, World.step, w_expect, w_fac, map_bind, map_ok]; rfl
  | facUpdate F x => simp only [call, World.step, w_expect, w_fac, map_bind, map_ok]; rfl
  | hopInit H a F => simp only [call, World.step, w_expect, w_hop, map_bind, map_ok]; rfl
  | hopSwap H r ops sp x dl mf =>
    simp only [call, World.step, World.hopSwap, w_expect, w_hop, as_ctx, auth_ctx, hopLoop_later, map_bind, bind_map, map_ok, bind_assoc]
  | trdInit T a x y o => simp only [call, World.step, w_expect, w_trd, map_bind, map_ok]; rfl
  | trade T s t p x sp dl mi mf =>
    simp only [call, World.step, World.trade, w_expect, w_trd, w_led, as_ctx, auth_ctx, poolSwap_later, map_bind, bind_map, map_ok, bind_assoc]
  | trdTransfer T s r x t => simp only [call, World.step, w_expect, w_trd, w_led, map_bind, map_ok]; rfl
  | rewards R k =>
    have e := rew_step d R ⟨w.rew R, w.led⟩ c k (by cases k <;> exact hr)
    simp only [rewSys] at e
    simp only [call, World.step, w_expect, w_rew, w_led, e, map_bind, bind_map, map_ok]
    refine bind_congr fun _ => bind_congr fun s => ?_
    exact congrArg Except.ok (w_putRew d w R s.st s.led)

end Phoenix.Later
