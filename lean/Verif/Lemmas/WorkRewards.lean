import Verif.Model.WorkRewards
import Verif.Lemmas.WorkVesting
import Verif.Lemmas.Rewards
/-! The counted calls of the reward contract do what the plain ones do (helpers only). -/
namespace Phoenix.WorkR
open Phoenix Phoenix.Rewards Phoenix.Curve
open Phoenix.Stake (Info Entry)

theorem fst_bind {α β : Type} {x : Res (α × Nat)} {y : Res α} (h : x.map Prod.fst = y) {f : α × Nat → Res (β × Nat)} {g : α → Res β}
    (hf : ∀ a n, (f (a, n)).map Prod.fst = g a) : (x >>= f).map Prod.fst = y >>= g := by
  subst h
  cases x with
  | error e => rfl
  | ok p => exact hf p.1 p.2

theorem fst_bind' {α β : Type} {x : Res α} {f : α → Res (β × Nat)} {g : α → Res β}
    (hf : ∀ a, (f a).map Prod.fst = g a) : (x >>= f).map Prod.fst = x >>= g := by
  cases x with
  | error e => rfl
  | ok p => exact hf p

theorem fst_ok {α : Type} {x : Res α} {n : Nat} : (x >>= fun a => (.ok (a, n) : Res (α × Nat))).map Prod.fst = x := by
  cases x <;> rfl

theorem plValue_fst (l : List Step) (x : Nat) : (WorkV.plValue l x).map Prod.fst = Curve.plValue l x := WorkV.value_fst (.pl l) x

theorem weigh_fst (now : Nat) (l : List Entry) (acc : Nat × Nat) : (weigh now l acc).map Prod.fst = Rewards.weigh now l acc := by
  induction l generalizing acc with
  | nil => rfl
  | cons e l ih =>
    simp only [weigh, Rewards.weigh]
    refine fst_bind' fun d => fst_bind' fun x => fst_bind' fun p => fst_bind' fun a => fst_bind' fun q => fst_bind' fun b => ?_
    rw [← ih]
    cases weigh now l (a, b) <;> rfl

theorem withdrawPower_fst (now : Nat) (l : List Entry) : (withdrawPower now l).map Prod.fst = Rewards.withdrawPower now l := by
  unfold withdrawPower Rewards.withdrawPower
  refine fst_bind (weigh_fst _ _ _) fun w n => ?_
  dsimp only
  split
  · exact fst_bind' fun a => fst_bind' fun b => fst_ok
  · rfl

theorem payable_fst (c : Ctx) (cfg : Config) (s : State) (u : Addr) (i : Info) :
    (payable c cfg s u i).map Prod.fst = Rewards.payable c cfg s u i := by
  unfold payable Rewards.payable
  exact fst_bind' fun r => fst_bind (withdrawPower_fst _ _) fun m n => fst_bind' fun r' => fst_ok

theorem withdraw_fst (me : Addr) (c : Ctx) (s : State) (L : Ledger) (u : Addr) (i : Info) :
    (withdraw me c s L u i).map Prod.fst = Rewards.withdraw me c s L u i := by
  unfold withdraw Rewards.withdraw
  refine fst_bind' fun cfg => fst_bind' fun _ => fst_bind (payable_fst _ _ _ _ _) fun x n => ?_
  dsimp only
  split
  · rfl
  · exact fst_bind' fun w => fst_bind' fun t => fst_bind' fun L' => rfl

theorem queryWithdrawable_fst (c : Ctx) (s : State) (u : Addr) (i : Info) :
    (queryWithdrawable c s u i).map Prod.fst = Rewards.queryWithdrawable c s u i := by
  unfold queryWithdrawable Rewards.queryWithdrawable
  exact fst_bind' fun cfg => fst_bind (payable_fst _ _ _ _ _) fun x n => fst_ok

theorem withdrawIfAny_fst (me : Addr) (c : Ctx) (s : State) (L : Ledger) (u : Addr) (i : Info) :
    (withdrawIfAny me c s L u i).map Prod.fst = Rewards.withdrawIfAny me c s L u i := by
  unfold withdrawIfAny Rewards.withdrawIfAny
  refine fst_bind (queryWithdrawable_fst _ _ _ _) fun r n => ?_
  dsimp only
  split
  · rw [← withdraw_fst]
    cases withdraw me c s L u i <;> rfl
  · rfl

theorem calcUnbond_fst (me : Addr) (c : Ctx) (s : State) (L : Ledger) (u : Addr) (i : Info) (x : Int) :
    (calcUnbond me c s L u i x).map Prod.fst = Rewards.calcUnbond me c s L u i x := by
  unfold calcUnbond Rewards.calcUnbond
  exact fst_bind' fun _ => fst_bind' fun cfg => fst_bind' fun _ => fst_bind (withdrawIfAny_fst _ _ _ _ _ _) fun w n =>
    fst_bind' fun old => fst_bind' fun t => fst_bind' fun new => fst_bind' fun s' => rfl

theorem unlocked_fst (me : Addr) (c : Ctx) (cfg : Config) (s : State) (L : Ledger) :
    (unlocked me c cfg s L).map Prod.fst = Rewards.unlocked me c cfg s L := by
  unfold unlocked Rewards.unlocked
  exact fst_bind' fun b => fst_bind (WorkV.value_fst _ _) fun v n => fst_bind' fun a => fst_ok

theorem distribute_fst (me : Addr) (c : Ctx) (s : State) (L : Ledger) (T : Int) :
    (distribute me c s L T).map Prod.fst = Rewards.distribute me c s L T := by
  unfold distribute Rewards.distribute
  refine fst_bind' fun cfg => fst_bind' fun _ => fst_bind' fun p => fst_bind' fun total => ?_
  split
  · rfl
  · refine fst_bind (unlocked_fst _ _ _ _ _) fun a n => ?_
    dsimp only
    split
    · rfl
    · exact fst_bind' fun d => rfl

theorem bubblePass_fst (n : Nat) (l : List Nat) : (bubblePass n l).1 = Curve.bubblePass n l := by
  induction n generalizing l with
  | zero => simp [bubblePass, Curve.bubblePass]
  | succ n ih =>
    match l with
    | [] => simp [bubblePass, Curve.bubblePass]
    | [a] => simp [bubblePass, Curve.bubblePass]
    | a :: b :: rest =>
      simp only [bubblePass, Curve.bubblePass]
      split <;> simp [ih]

theorem bubbleLoop_fst (n : Nat) (l : List Nat) : (bubbleLoop n l).1 = Curve.bubbleLoop n l := by
  induction n generalizing l with
  | zero => rfl
  | succ n ih => simp only [bubbleLoop, Curve.bubbleLoop]; rw [ih, bubblePass_fst]

theorem sumSteps_fst (f g : List Step) (l : List Nat) : (sumSteps f g l).map Prod.fst = Curve.sumSteps f g l := by
  induction l with
  | nil => rfl
  | cons t l ih =>
    simp only [sumSteps, Curve.sumSteps]
    exact fst_bind (plValue_fst _ _) fun a n => fst_bind (plValue_fst _ _) fun b k => fst_bind' fun v => fst_bind ih fun r m => rfl

theorem plCombine_fst (f g : List Step) : (plCombine f g).map Prod.fst = Curve.plCombine f g := by
  unfold plCombine Curve.plCombine bubbleSort
  dsimp only
  rw [bubbleLoop_fst, ← sumSteps_fst]
  cases sumSteps f g (dedupFrom none (Curve.bubbleLoop ((f ++ g).map Step.time).length ((f ++ g).map Step.time))) <;> rfl

theorem plCombined_fst (f g : List Step) : (plCombined f g).map Prod.fst = Curve.plCombined f g := by
  unfold plCombined Curve.plCombined
  exact fst_bind (plCombine_fst _ _) fun s n => rfl

theorem combineConst_fst (c : Curve) (y : Nat) : (combineConst c y).map Prod.fst = Curve.combineConst c y := by
  unfold combineConst
  cases h : Curve.combineConst c y with
  | error e => rfl
  | ok k => cases c <;> rfl

theorem combine_fst (c d : Curve) : (combine c d).map Prod.fst = Curve.combine c d := by
  cases c <;> cases d <;> first | exact combineConst_fst _ _ | exact plCombined_fst _ _

theorem joinCurves_fst (now m : Nat) (old new : Curve) : (joinCurves now m old new).map Prod.fst = Rewards.joinCurves now m old new := by
  unfold joinCurves Rewards.joinCurves
  cases old.end with
  | none => exact fst_bind (combine_fst _ _) fun k n => fst_bind' fun _ => rfl
  | some e =>
    dsimp only
    split
    · rfl
    · exact fst_bind (combine_fst _ _) fun k n => fst_bind' fun _ => rfl

theorem fund_fst (me : Addr) (c : Ctx) (s : State) (L : Ledger) (a d : Nat) (x : Int) :
    (fund me c s L a d x).map Prod.fst = Rewards.fund me c s L a d x := by
  unfold fund Rewards.fund
  exact fst_bind' fun cfg => fst_bind' fun _ => fst_bind' fun _ => fst_bind' fun _ => fst_bind' fun _ => fst_bind' fun L' =>
    fst_bind' fun stop => fst_bind' fun y => fst_bind' fun _ => fst_bind (joinCurves_fst _ _ _ _) fun k n => rfl

theorem step_fst (me : Addr) (s : Sys) (t : Tx) : (step me s t).map Prod.fst = Rewards.step me s t := by
  cases t with
  | token c tok op => exact fst_ok
  | rewards c k =>
    cases k with
    | calcUnbond u i x => exact fst_bind (calcUnbond_fst _ _ _ _ _ _ _) fun v n => rfl
    | distribute x => exact fst_bind (distribute_fst _ _ _ _ _) fun v n => rfl
    | withdraw u i => exact fst_bind (withdraw_fst _ _ _ _ _ _) fun v n => rfl
    | fund a d x => exact fst_bind (fund_fst _ _ _ _ _ _ _) fun v n => rfl
    | init a st tok mc mr mb => exact fst_ok
    | addUser u i => exact fst_ok
    | calcBond u i => exact fst_ok

end Phoenix.WorkR
