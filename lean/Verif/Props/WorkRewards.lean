import Verif.Lemmas.WorkRewards
import Verif.Lemmas.RewardsSys
import Verif.Props.Rewards
/-!
C166: how much work the calls of the reward distribution contract do.  Distributing costs the same however many stakers there
are and however long the history is; a withdrawal looks only at the stakes that are reported with it; a funding costs at most
the square of the complexity limit.
-/
namespace Phoenix.Props.WorkRewards
open Phoenix Rewards Rewards.Spec Curve WorkR
open Phoenix.Stake (Info Entry)

/-- **C166** Counting does not change what a call does. -/
theorem C166_same (me : Addr) (s : Sys) (t : Tx) : (WorkR.step me s t).map Prod.fst = Rewards.step me s t := step_fst me s t

theorem plScan_work {p : Step} {l : List Step} {x v n : Nat} (h : WorkV.plScan p l x = .ok (v, n)) : n ≤ l.length := by
  induction l generalizing p v n with
  | nil => simp only [WorkV.plScan, ok_inj, Prod.mk.injEq] at h; omega
  | cons a l ih =>
    simp only [WorkV.plScan] at h
    split at h
    · simp only [bind_ok, ok_inj, Prod.mk.injEq] at h
      obtain ⟨w, -, -, rfl⟩ := h
      simp
    · simp only [bind_ok, ok_inj, Prod.mk.injEq, Prod.exists] at h
      obtain ⟨w, k, h1, -, rfl⟩ := h
      have := ih h1
      simp only [List.length_cons]; omega

theorem plValue_work {l : List Step} {x v n : Nat} (h : WorkV.plValue l x = .ok (v, n)) : n ≤ l.length + 2 := by
  cases l with
  | nil => simp [WorkV.plValue] at h
  | cons a l =>
    simp only [WorkV.plValue] at h
    split at h
    · simp only [ok_inj, Prod.mk.injEq] at h; omega
    · split at h
      · simp only [ok_inj, Prod.mk.injEq] at h; omega
      · simp only [bind_ok, ok_inj, Prod.mk.injEq, Prod.exists] at h
        obtain ⟨w, k, h1, -, rfl⟩ := h
        have := plScan_work h1
        simp only [List.length_cons]; omega

theorem value_work {k : Curve} {x v n : Nat} (h : WorkV.value k x = .ok (v, n)) : n ≤ k.size + 2 := by
  cases k with
  | constant y => simp only [WorkV.value, ok_inj, Prod.mk.injEq] at h; omega
  | sl a b c d =>
    simp only [WorkV.value, bind_ok, ok_inj, Prod.mk.injEq] at h
    obtain ⟨w, -, -, rfl⟩ := h
    omega
  | pl s => exact plValue_work h

/-- the stored schedule respects the limit -/
def Small (s : State) : Prop := ∀ cfg, s.cfg = some cfg → (∃ y, s.curve = .constant y) ∨ (2 ≤ cfg.maxComplexity ∧ s.curve.size ≤ cfg.maxComplexity)

theorem check_size {k : Curve} {m : Nat} {u : Unit} (h : checkComplexity k m = .ok u) : k.size ≤ m := by
  unfold checkComplexity validateComplexity at h
  by_cases hk : k.size ≤ m
  · exact hk
  · rw [if_neg hk] at h; simp at h

theorem join_small {now m a X b : Nat} {k k' : Curve} (hk : (∃ y, k = .constant y) ∨ (2 ≤ m ∧ k.size ≤ m))
    (h : Rewards.joinCurves now m k (.sl a X b 0) = .ok k') : 2 ≤ m ∧ k'.size ≤ m := by
  rcases hk with ⟨y, rfl⟩ | ⟨h1, h2⟩
  · simp only [Rewards.joinCurves, Curve.end, Curve.combine, Curve.combineConst, bind_ok, ok_inj] at h
    obtain ⟨_, ⟨p, -, q, -, rfl⟩, _, hc, rfl⟩ := h
    have := check_size hc
    simp only [Curve.size] at this ⊢
    omega
  · refine ⟨h1, ?_⟩
    unfold Rewards.joinCurves at h
    split at h
    · split at h
      · rw [ok_inj] at h; subst h; exact h1
      · simp only [bind_ok, ok_inj] at h
        obtain ⟨_, -, _, hc, rfl⟩ := h
        exact check_size hc
    · simp only [bind_ok, ok_inj] at h
      obtain ⟨_, -, _, hc, rfl⟩ := h
      exact check_size hc

theorem step_small {me : Addr} {s s' : Sys} {t : Tx} (h : Rewards.step me s t = .ok s') (hS : Small s.st) : Small s'.st := by
  have keep : ∀ {v : State}, v.curve = s.st.curve → v.cfg = s.st.cfg → Small v := by
    intro v h1 h2; unfold Small; rw [h1, h2]; exact hS
  cases t with
  | token c tok op =>
    simp only [Rewards.step, bind_ok, ok_inj] at h
    obtain ⟨L, hL, rfl⟩ := h
    exact hS
  | rewards c k =>
    rcases step_kinds h with ⟨hled, hp, hf⟩ | ⟨cfg, u, i, x, e1, e2, e3, e4, e5, e6, e7, ⟨e8, e9, e10, e11, e12⟩, e13, e14, e15⟩ |
        ⟨cfg, a, d, x, kv, e1, rfl, e2, e3, e4, e5, e6, e7, e8, e9, e10, e11⟩
    · cases k with
      | init a st tok mc mr mb =>
        simp only [Rewards.step, bind_ok, ok_inj] at h
        obtain ⟨v, hi, rfl⟩ := h
        obtain ⟨_, rfl⟩ := init_inv hi
        exact fun cfg _ => .inl ⟨0, rfl⟩
      | addUser u i =>
        simp only [Rewards.step, bind_ok, ok_inj] at h
        obtain ⟨v, hi, rfl⟩ := h
        obtain ⟨_, _, _, rfl⟩ := addUser_inv hi
        exact hS
      | calcBond u i =>
        simp only [Rewards.step, bind_ok, ok_inj] at h
        obtain ⟨v, hi, rfl⟩ := h
        obtain ⟨_, _, _, _, _, rfl⟩ := calcBond_inv hi
        exact hS
      | distribute T =>
        simp only [Rewards.step, bind_ok, ok_inj] at h
        obtain ⟨v, hi, rfl⟩ := h
        obtain ⟨cfg', h1, _, _, ⟨rfl, -⟩ | ⟨x, d, h2, h3, h4, h5, rfl⟩⟩ := distribute_inv hi
        · exact hS
        · exact hS
      | calcUnbond u i y => simp [payee] at hp
      | withdraw u i => simp [payee] at hp
      | fund a d x => exact absurd rfl (hf a d x)
    · exact keep e12 e10
    · rw [e9]
      intro cfg' hc
      have hc' : s.st.cfg = some cfg' := hc
      rw [e1] at hc'; cases hc'
      exact .inr (join_small (hS cfg e1) e8)

theorem run_small {me : Addr} {s : Sys} (h0 : Rewards.Spec.Genesis me s) (ts : List Tx) : Small (Rewards.run me s ts).st := by
  have gen : ∀ (ts : List Tx) (s : Sys), Small s.st → Small (Rewards.run me s ts).st := by
    intro ts
    induction ts with
    | nil => intro s h; exact h
    | cons t ts ih =>
      intro s h
      refine ih _ ?_
      unfold exec
      cases hst : Rewards.step me s t with
      | ok s' => exact step_small hst h
      | error e => exact h
  refine gen ts s ?_
  rw [h0.1]
  intro cfg hc
  simp [Rewards.fresh] at hc

theorem small_size {s : State} (h : Small s) {cfg : Config} (hc : s.cfg = some cfg) : s.curve.size ≤ max 1 cfg.maxComplexity := by
  rcases h cfg hc with ⟨y, hy⟩ | ⟨-, h⟩
  · rw [hy]; exact le_max_left _ _
  · exact h.trans (le_max_right _ _)

/-- **C166** A distribution costs at most a number fixed when the contract is set up, however many stakers there are, however many
fundings, distributions and withdrawals came before. -/
theorem C166_distribute {me : Addr} {s : Sys} (h0 : Rewards.Spec.Genesis me s) (ts : List Tx) {c : Ctx} {T : Int} {s' : Sys}
    {n : Nat} {cfg : Config} (hc : queryConfig (Rewards.run me s ts).st = .ok cfg)
    (h : WorkR.step me (Rewards.run me s ts) (.rewards c (.distribute T)) = .ok (s', n)) :
    n ≤ 2 * max 1 cfg.maxComplexity + 2 := by
  have hz := small_size (run_small h0 ts) (getConfig_ok.mp hc)
  have hc' : (Rewards.run me s ts).st.cfg = some cfg := getConfig_ok.mp hc
  generalize Rewards.run me s ts = z at *
  simp only [WorkR.step, bind_ok, ok_inj, Prod.exists, Prod.mk.injEq] at h
  obtain ⟨v, m, h, -, rfl⟩ := h
  simp only [WorkR.distribute, bind_ok] at h
  obtain ⟨cfg', -, _, -, p, -, total, -, h⟩ := h
  split at h
  · simp only [ok_inj, Prod.mk.injEq] at h; omega
  · simp only [bind_ok, Prod.exists] at h
    obtain ⟨x, k, hu, h⟩ := h
    have hk : k ≤ 2 * max 1 cfg.maxComplexity + 2 := by
      simp only [WorkR.unlocked, bind_ok, Prod.exists, ok_inj, Prod.mk.injEq] at hu
      obtain ⟨_, -, w, j, hv, _, -, _, -, -, rfl⟩ := hu
      have := value_work hv
      omega
    split at h
    · simp only [ok_inj, Prod.mk.injEq] at h; omega
    · simp only [bind_ok, ok_inj, Prod.mk.injEq] at h
      obtain ⟨_, -, -, rfl⟩ := h
      exact hk

theorem weigh_work {now : Nat} {l : List Entry} {acc r : Nat × Nat} {n : Nat} (h : WorkR.weigh now l acc = .ok (r, n)) : n = l.length := by
  induction l generalizing acc r n with
  | nil => simp only [WorkR.weigh, ok_inj, Prod.mk.injEq] at h; simp [← h.2]
  | cons e l ih =>
    simp only [WorkR.weigh, bind_ok, Prod.exists, ok_inj, Prod.mk.injEq] at h
    obtain ⟨_, -, _, -, _, -, _, -, _, -, _, -, a, b, k, h1, -, rfl⟩ := h
    rw [ih h1]; simp

theorem payable_work {c : Ctx} {cfg : Config} {s : State} {u : Addr} {i : Info} {x : Int} {n : Nat}
    (h : WorkR.payable c cfg s u i = .ok (x, n)) : n = i.stakes.length := by
  simp only [WorkR.payable, WorkR.withdrawPower, bind_ok, Prod.exists, ok_inj, Prod.mk.injEq] at h
  obtain ⟨_, -, m, k, ⟨a, b, j, hw, h1⟩, _, -, _, -, -, rfl⟩ := h
  have := weigh_work hw
  split at h1
  · simp only [bind_ok, ok_inj, Prod.mk.injEq] at h1
    obtain ⟨_, -, _, -, _, -, -, rfl⟩ := h1
    exact this
  · simp only [ok_inj, Prod.mk.injEq] at h1
    rw [← h1.2]; exact this

theorem withdraw_work {me : Addr} {c : Ctx} {s : State} {L : Ledger} {u : Addr} {i : Info} {v : State × Ledger} {n : Nat}
    (h : WorkR.withdraw me c s L u i = .ok (v, n)) : n = i.stakes.length := by
  simp only [WorkR.withdraw, bind_ok, Prod.exists] at h
  obtain ⟨cfg, -, _, -, x, k, hp, h⟩ := h
  rw [← payable_work hp]
  split at h
  · simp only [ok_inj, Prod.mk.injEq] at h; exact h.2.symm
  · simp only [bind_ok, ok_inj, Prod.mk.injEq] at h
    obtain ⟨_, -, _, -, _, -, -, rfl⟩ := h
    rfl

/-- **C166** A withdrawal looks at every stake reported with it once, and at nothing else that can grow: the number of past
distributions, of fundings and of other users plays no role. -/
theorem C166_withdraw {me : Addr} {s s' : Sys} {c : Ctx} {u : Addr} {i : Info} {n : Nat}
    (h : WorkR.step me s (.rewards c (.withdraw u i)) = .ok (s', n)) : n = i.stakes.length := by
  simp only [WorkR.step, bind_ok, ok_inj, Prod.exists, Prod.mk.injEq] at h
  obtain ⟨v, L, m, h, -, rfl⟩ := h
  exact withdraw_work h

/-- **C166** Unbonding looks at every reported stake once, and a second time exactly if a reward is paid. -/
theorem C166_unbond {me : Addr} {s s' : Sys} {c : Ctx} {u : Addr} {i : Info} {x : Int} {n : Nat}
    (h : WorkR.step me s (.rewards c (.calcUnbond u i x)) = .ok (s', n)) :
    ∃ r, Rewards.queryWithdrawable c s.st u i = .ok r ∧ n = (if r = 0 then 1 else 2) * i.stakes.length := by
  simp only [WorkR.step, WorkR.calcUnbond, WorkR.withdrawIfAny, bind_ok, ok_inj, Prod.exists, Prod.mk.injEq] at h
  obtain ⟨v, L, m, ⟨_, -, cfg, -, _, -, v1, L1, k, ⟨r, j, hq, h⟩, _, -, _, -, _, -, _, -, -, rfl⟩, -, rfl⟩ := h
  have hj : j = i.stakes.length := by
    simp only [WorkR.queryWithdrawable, bind_ok, Prod.exists, ok_inj, Prod.mk.injEq] at hq
    obtain ⟨_, -, _, _, hp, _, -, -, rfl⟩ := hq
    exact payable_work hp
  refine ⟨r, by rw [← queryWithdrawable_fst, hq]; rfl, ?_⟩
  split at h
  · rename_i hr
    simp only [bind_ok, ok_inj, Prod.exists, Prod.mk.injEq] at h
    obtain ⟨_, _, y, hw, -, rfl⟩ := h
    rw [if_neg hr, withdraw_work hw]; omega
  · rename_i hr
    simp only [ok_inj, Prod.mk.injEq] at h
    rw [if_pos (by simpa using hr)]; omega

theorem bubblePass_work (n : Nat) (l : List Nat) : (WorkR.bubblePass n l).2 ≤ n := by
  induction n generalizing l with
  | zero => simp [WorkR.bubblePass]
  | succ n ih =>
    match l with
    | [] => simp [WorkR.bubblePass]
    | [a] => simp [WorkR.bubblePass]
    | a :: b :: rest =>
      simp only [WorkR.bubblePass]
      split <;> exact Nat.succ_le_succ (ih _)

theorem bubbleLoop_work (n : Nat) (l : List Nat) : 2 * (WorkR.bubbleLoop n l).2 ≤ n * n := by
  induction n generalizing l with
  | zero => simp [WorkR.bubbleLoop]
  | succ n ih =>
    simp only [WorkR.bubbleLoop]
    have h1 := bubblePass_work n l
    have h2 := ih (WorkR.bubblePass n l).1
    nlinarith

theorem dedup_length (o : Option Nat) (l : List Nat) : (dedupFrom o l).length ≤ l.length := by
  induction l generalizing o with
  | nil => simp [dedupFrom]
  | cons a l ih =>
    simp only [dedupFrom]
    split
    · exact Nat.succ_le_succ (ih _)
    · exact (ih _).trans (Nat.le_succ _)

theorem sumSteps_work {f g : List Step} {l : List Nat} {r : List Step} {n : Nat} (h : WorkR.sumSteps f g l = .ok (r, n)) :
    n ≤ l.length * (f.length + g.length + 5) := by
  induction l generalizing r n with
  | nil => simp only [WorkR.sumSteps, ok_inj, Prod.mk.injEq] at h; omega
  | cons t l ih =>
    simp only [WorkR.sumSteps, bind_ok, Prod.exists, ok_inj, Prod.mk.injEq] at h
    obtain ⟨a, j, h1, b, k, h2, v, -, r', m, h3, -, rfl⟩ := h
    have := plValue_work h1
    have := plValue_work h2
    have := ih h3
    rw [List.length_cons, Nat.succ_mul]
    omega

theorem bubbleLoop_length (n : Nat) (l : List Nat) : (WorkR.bubbleLoop n l).1.length = l.length := by
  have hp : ∀ (n : Nat) (l : List Nat), (WorkR.bubblePass n l).1.length = l.length := by
    intro n
    induction n with
    | zero => intro l; simp [WorkR.bubblePass]
    | succ n ih =>
      intro l
      match l with
      | [] => simp [WorkR.bubblePass]
      | [a] => simp [WorkR.bubblePass]
      | a :: b :: rest =>
        simp only [WorkR.bubblePass]
        split <;> simp [ih]
  induction n generalizing l with
  | zero => rfl
  | succ n ih => simp only [WorkR.bubbleLoop]; rw [ih, hp]

theorem plCombined_work {f g : List Step} {k : Curve} {n : Nat} (h : WorkR.plCombined f g = .ok (k, n)) :
    2 * n ≤ 3 * (f.length + g.length) ^ 2 + 14 * (f.length + g.length) := by
  simp only [WorkR.plCombined, WorkR.plCombine, bind_ok, Prod.exists, ok_inj, Prod.mk.injEq] at h
  obtain ⟨r, m, ⟨r', j, h, -, rfl⟩, -, rfl⟩ := h
  have h1 := sumSteps_work h
  have h2 := bubbleLoop_work ((f ++ g).map Step.time).length ((f ++ g).map Step.time)
  have h3 := bubbleLoop_length ((f ++ g).map Step.time).length ((f ++ g).map Step.time)
  have h4 := dedup_length none (WorkR.bubbleLoop ((f ++ g).map Step.time).length ((f ++ g).map Step.time)).1
  have h5 : ((f ++ g).map Step.time).length = f.length + g.length := by simp
  rw [h3] at h4 ⊢
  rw [← h5] at h1 ⊢
  generalize (f ++ g).map Step.time = tl at *
  have h6 := Nat.mul_le_mul_right (tl.length + 5) h4
  nlinarith

theorem combine_work {a X b : Nat} {old k : Curve} {n : Nat} (h : WorkR.combine old (.sl a X b 0) = .ok (k, n)) :
    2 * n ≤ 3 * (old.size + 2) ^ 2 + 14 * (old.size + 2) := by
  cases old with
  | constant y =>
    simp only [WorkR.combine, WorkR.combineConst, bind_ok, ok_inj, Prod.mk.injEq] at h
    obtain ⟨_, -, -, rfl⟩ := h
    omega
  | sl p q r s =>
    have := plCombined_work h
    simpa [fromSl, Curve.size] using this
  | pl l =>
    have := plCombined_work h
    simp only [fromSl, List.length_cons, List.length_nil] at this
    simp only [Curve.size]
    rw [add_comm l.length 2]
    exact this

theorem joinCurves_work {now m a X b : Nat} {old k : Curve} {n : Nat} (h : WorkR.joinCurves now m old (.sl a X b 0) = .ok (k, n)) :
    2 * n ≤ 3 * (old.size + 2) ^ 2 + 14 * (old.size + 2) := by
  unfold WorkR.joinCurves at h
  split at h
  · split at h
    · simp only [ok_inj, Prod.mk.injEq] at h; omega
    · simp only [bind_ok, Prod.exists, ok_inj, Prod.mk.injEq] at h
      obtain ⟨_, _, hc, _, -, rfl, rfl⟩ := h
      exact combine_work hc
  · simp only [bind_ok, Prod.exists, ok_inj, Prod.mk.injEq] at h
    obtain ⟨_, _, hc, _, -, rfl, rfl⟩ := h
    exact combine_work hc

/-- **C166** A funding costs at most about one and a half times the square of the complexity limit, however many fundings came
before. -/
theorem C166_fund {me : Addr} {s : Sys} (h0 : Rewards.Spec.Genesis me s) (ts : List Tx) {c : Ctx} {a d : Nat} {x : Int} {s' : Sys}
    {n : Nat} {cfg : Config} (hc : queryConfig (Rewards.run me s ts).st = .ok cfg)
    (h : WorkR.step me (Rewards.run me s ts) (.rewards c (.fund a d x)) = .ok (s', n)) :
    2 * n ≤ 3 * (cfg.maxComplexity + 2) ^ 2 + 18 * (cfg.maxComplexity + 2) := by
  have hS := run_small h0 ts
  have hc' : (Rewards.run me s ts).st.cfg = some cfg := getConfig_ok.mp hc
  generalize Rewards.run me s ts = z at *
  simp only [WorkR.step, WorkR.fund, bind_ok, ok_inj, Prod.exists, Prod.mk.injEq] at h
  obtain ⟨v, L, m, ⟨cfg', h1, _, -, _, -, _, -, _, -, L', -, stop, -, y, -, _, -, k, j, hj, -, rfl⟩, -, rfl⟩ := h
  rw [getConfig_ok, hc'] at h1; cases h1
  have hw := joinCurves_work hj
  have hjoin : Rewards.joinCurves c.now cfg.maxComplexity z.st.curve (.sl a y stop 0) = .ok k := by
    rw [← joinCurves_fst, hj]; rfl
  obtain ⟨hm, hk⟩ := join_small (hS cfg hc') hjoin
  have hz : z.st.curve.size ≤ cfg.maxComplexity := by
    rcases hS cfg hc' with ⟨w, hw⟩ | ⟨-, h⟩
    · rw [hw]; simp only [Curve.size]; omega
    · exact h
  have := Nat.pow_le_pow_left (show z.st.curve.size + 2 ≤ cfg.maxComplexity + 2 by omega) 2
  omega

/-! The example history: on day 30, and after everything else that happened. -/
example : ∃ s' n, WorkR.step 100 (Rewards.run 100 rExStart (rExHist.take 4)) (.rewards (rBy 3 30) (.distribute 15000)) = .ok (s', n) ∧
    n ≤ 22 := by
  have hs : Rewards.Spec.succeeds 100 (Rewards.run 100 rExStart (rExHist.take 4)) (.rewards (rBy 3 30) (.distribute 15000)) = true := by
    decide +kernel
  have hsame := C166_same 100 (Rewards.run 100 rExStart (rExHist.take 4)) (.rewards (rBy 3 30) (.distribute 15000))
  cases h : WorkR.step 100 (Rewards.run 100 rExStart (rExHist.take 4)) (.rewards (rBy 3 30) (.distribute 15000)) with
  | error e =>
    rw [h] at hsame
    simp [Rewards.Spec.succeeds, ← hsame, Except.map, Except.toOption] at hs
  | ok p =>
    exact ⟨p.1, p.2, rfl, C166_distribute (cfg := ⟨50, 40, 10, 1000, 1000⟩) rExStart_genesis _ (by decide +kernel) h⟩

example : ((WorkR.step 100 (Rewards.run 100 rExStart (rExHist.take 4)) (.rewards (rBy 3 30) (.distribute 15000))).toOption.map Prod.snd) =
    some 2 := by decide +kernel
/-- a second funding while the first runs: 6 comparisons, 4 dates -/
example : ((WorkR.step 100 (Rewards.run 100 rExStart (rExHist.take 4)) (.rewards (rBy 9 1) (.fund 86400 864000 1000))).toOption.map Prod.snd) =
    some 44 := by decide +kernel
example : ((WorkR.step 100 (Rewards.run 100 rExStart (rExHist.take 5)) (.rewards (rBy 2 30) (.withdraw 2 (rInfo 5000 0)))).toOption.map Prod.snd) =
    some 1 := by decide +kernel
example : ((WorkR.step 100 (Rewards.run 100 rExStart (rExHist.take 8)) (.rewards (rBy 1 61) (.calcUnbond 1 (rInfo 10000 0) 4000))).toOption.map Prod.snd) =
    some 1 := by decide +kernel

end Phoenix.Props.WorkRewards
