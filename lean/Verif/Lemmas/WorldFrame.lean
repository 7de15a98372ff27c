import Verif.Model.World
import Verif.Lemmas.Events
import Verif.Lemmas.Order
/-! A transaction that does not concern a factory, router or trader does the same whatever its variables
are. -/
namespace Phoenix.World
open Phoenix

/-- the protocol with some variables of factories, routers and traders changed -/
def view (f : (Addr → Option Factory.State) → Addr → Option Factory.State)
    (g : (Addr → Option Multihop.State) → Addr → Option Multihop.State)
    (t : (Addr → Option Trader.State) → Addr → Option Trader.State) (w : World) : World :=
  { w with fac := f w.fac, hop := g w.hop, trd := t w.trd }

/-- the change does not concern this address -/
structure Free {α : Type} (f : (Addr → α) → Addr → α) (a : Addr) : Prop where
  read : ∀ m, f m a = m a
  write : ∀ m x, upd (f m) a x = f (upd m a x)

theorem free_id {α : Type} (a : Addr) : Free (id : (Addr → α) → Addr → α) a := ⟨fun _ => rfl, fun _ _ => rfl⟩
theorem free_upd {α : Type} {a b : Addr} (h : b ≠ a) (v : α) : Free (fun m => upd m a v) b :=
  ⟨fun m => upd_ne m v h, fun m x => upd_comm m (Ne.symm h) v x⟩

variable {f : (Addr → Option Factory.State) → Addr → Option Factory.State}
    {g : (Addr → Option Multihop.State) → Addr → Option Multihop.State}
    {t : (Addr → Option Trader.State) → Addr → Option Trader.State} {h : Host}

theorem map_req {p : Prop} [Decidable p] (e : Err) (φ : Unit → Unit) : (req p e).map φ = req p e := by
  unfold req; split <;> rfl

theorem bind_map {α β γ : Type} (x : Res α) (φ : α → β) (k : β → Res γ) : (x.map φ >>= k) = x >>= fun a => k (φ a) := by
  cases x <;> rfl

theorem deploy_view (w : World) (a : Addr) (k : Code) : deploy (view f g t w) a k = (deploy w a k).map (view f g t) := by
  unfold deploy; simp only [Except.map_bind]; rfl

theorem initXyk_view (w : World) (P : Addr) (i : Info) (o : Addr) (d : Nat) (sl mf : Int) :
    initXyk h (view f g t w) P i o d sl mf = (initXyk h w P i o d sl mf).map (view f g t) := by
  unfold initXyk; simp only [Except.map_bind, deploy_view, bind_map]; rfl

theorem initStable_view (w : World) (c : Ctx) (P : Addr) (i : Info) (o : Addr) (a : Nat) (mf : Int) :
    initStable h (view f g t w) c P i o a mf = (initStable h w c P i o a mf).map (view f g t) := by
  unfold initStable; simp only [Except.map_bind, deploy_view, bind_map]; rfl

theorem initPool_view (w : World) (c : Ctx) (F P : Addr) (i : Info) (d : Nat) (sl mf : Int) (a : Option Nat) (k : Kind) :
    initPool h (view f g t w) c F P i d sl mf a k = (initPool h w c F P i d sl mf a k).map (view f g t) := by
  cases k
  · exact initXyk_view ..
  · exact initStable_view ..

theorem poolSwap_view (w : World) (c : Ctx) (P s o : Addr) (x : Int) (mi sp : Option Int) (dl : Option Nat) (mf : Option Int) :
    poolSwap (view f g t w) c P s o x mi sp dl mf = (poolSwap w c P s o x mi sp dl mf).map (fun r => (view f g t r.1, r.2)) := by
  unfold poolSwap
  show (match w.code P with | .xyk => _ | .stable => _ | _ => _) = _
  cases w.code P <;> first | rfl | (simp only [Except.map_bind]; rfl)

theorem findPool_view (w : World) {F : Addr} (hF : Free f F) (a b : Addr) : findPool (view f g t w) F a b = findPool w F a b := by
  unfold findPool
  have : (view f g t w).fac F = w.fac F := hF.read w.fac
  rw [this]; rfl

theorem hopLoop_view (w : World) (c : Ctx) {F : Addr} (hF : Free f F) (r : Addr) (sp : Option Int) (dl : Option Nat) (mf : Option Int)
    (ops : List Multihop.Op) (x : Int) :
    hopLoop (view f g t w) c F r sp dl mf ops x = (hopLoop w c F r sp dl mf ops x).map (fun r => (view f g t r.1, r.2)) := by
  induction ops generalizing w x with
  | nil => rfl
  | cons op ops ih =>
    unfold hopLoop
    simp only [Except.map_bind, findPool_view w hF, poolSwap_view, bind_map, ih]

/-- the transaction does not concern what was changed -/
def Indep (f : (Addr → Option Factory.State) → Addr → Option Factory.State)
    (g : (Addr → Option Multihop.State) → Addr → Option Multihop.State)
    (t : (Addr → Option Trader.State) → Addr → Option Trader.State) (h : Host) (w : World) : Call → Prop
  | .facInit F admin _ _ _ _ _ _ => Free f F ∧ Free g (h.hopAddr F admin)
  | .create F _ _ _ _ _ _ => Free f F
  | .whitelist F _ _ _ => Free f F
  | .hashes F _ _ _ => Free f F
  | .facUpdate F _ => Free f F
  | .hopInit H _ _ => Free g H
  | .hopSwap H _ _ _ _ _ _ => Free g H ∧ ∀ m, w.hop H = some m → Free f m.factory
  | .trdInit T _ _ _ _ => Free t T
  | .trade T _ _ _ _ _ _ _ _ => Free t T
  | .trdTransfer T _ _ _ _ => Free t T
  | _ => True

theorem facInit_view (w : World) {F admin : Addr} (hF : Free f F) (hH : Free g (h.hopAddr F admin)) (lp stb stk tok : Nat) (wl : List Addr) (dec : Nat) :
    facInit h (view f g t w) F admin lp stb stk tok wl dec = (facInit h w F admin lp stb stk tok wl dec).map (view f g t) := by
  unfold facInit
  simp only [Except.map_bind, deploy_view, bind_map, Except.map_ok]
  have e1 : ∀ w : World, (view f g t w).fac F = w.fac F := fun w => hF.read w.fac
  have e2 : ∀ w : World, (view f g t w).hop (h.hopAddr F admin) = w.hop (h.hopAddr F admin) := fun w => hH.read w.hop
  simp only [e1, e2]
  congr 1; funext _; congr 1; funext _; congr 1; funext w1; congr 1; funext m
  simp only [view, hF.write, hH.write]

theorem create_view (w : World) (c : Ctx) {F : Addr} (hF : Free f F) (s : Addr) (i : Info) (k : Kind) (a : Option Nat) (sl mf : Int) :
    create h (view f g t w) c F s i k a sl mf = (create h w c F s i k a sl mf).map (fun r => (view f g t r.1, r.2)) := by
  unfold create
  simp only [Except.map_bind, deploy_view, initPool_view, bind_map, Except.map_ok]
  simp only [view, hF.read, hF.write]

theorem hopSwap_view (w : World) (c : Ctx) {H : Addr} (hH : Free g H) (hF : ∀ m, w.hop H = some m → Free f m.factory) (r : Addr)
    (ops : List Multihop.Op) (sp : Option Int) (x : Int) (dl : Option Nat) (mf : Option Int) :
    hopSwap (view f g t w) c H r ops sp x dl mf = (hopSwap w c H r ops sp x dl mf).map (fun r => (view f g t r.1, r.2)) := by
  unfold hopSwap
  simp only [Except.map_bind]
  have e1 : (view f g t w).hop H = w.hop H := hH.read w.hop
  rw [e1]
  congr 1; funext _; congr 1; funext _; congr 1; funext _
  cases hm : w.hop H with
  | none => rfl
  | some m => exact hopLoop_view w _ (hF m hm) ..

theorem trade_view (w : World) (c : Ctx) {T : Addr} (hT : Free t T) (s tok P : Addr) (a : Option Nat) (sp : Option Int) (dl : Option Nat)
    (mi mf : Option Int) :
    trade (view f g t w) c T s tok P a sp dl mi mf = (trade w c T s tok P a sp dl mi mf).map (fun r => (view f g t r.1, r.2)) := by
  unfold trade
  simp only [Except.map_bind, poolSwap_view]
  have e1 : (view f g t w).trd T = w.trd T := hT.read w.trd
  rw [e1]; rfl

theorem expect_view (w : World) (a : Addr) (k : Code) : expect (view f g t w) a k = expect w a k := rfl

theorem step_view (w : World) (c : Ctx) (k : Call) (hi : Indep f g t h w k) :
    step h (view f g t w) c k = (step h w c k).map (view f g t) := by
  cases k with
  | token tok op => simp only [step, Except.map_bind, expect_view]; rfl
  | xykInit P i o d sl mf => simp only [step, Except.map_bind, expect_view, initXyk_view]
  | xyk P k => cases k <;> first | rfl | (simp only [step, Except.map_bind, expect_view]; rfl)
  | stableInit P i o a mf => simp only [step, Except.map_bind, expect_view, initStable_view]
  | stable P k => cases k <;> first | rfl | (simp only [step, Except.map_bind, expect_view]; rfl)
  | stake K k => simp only [step, Except.map_bind, expect_view]; rfl
  | vest V k => cases k <;> (simp only [step, Except.map_bind, expect_view]; rfl)
  | facInit F admin lp stb stk tok wl dec =>
    simp only [step, Except.map_bind, expect_view, facInit_view w hi.1 hi.2]
  | create F s i k a sl mf =>
    simp only [step, Except.map_bind, expect_view, create_view w c hi, bind_map]; rfl
  | whitelist F s a r =>
    have hF : Free f F := hi
    simp only [step, Except.map_bind, Except.map_ok, view, hF.read, hF.write]; rfl
  | hashes F a b d =>
    have hF : Free f F := hi
    simp only [step, Except.map_bind, Except.map_ok, view, hF.read, hF.write]; rfl
  | facUpdate F a =>
    have hF : Free f F := hi
    simp only [step, Except.map_bind, Except.map_ok, view, hF.read, hF.write]; rfl
  | hopInit H a F =>
    have hH : Free g H := hi
    simp only [step, Except.map_bind, Except.map_ok, view, hH.read, hH.write]; rfl
  | hopSwap H r ops sp x dl mf =>
    simp only [step, Except.map_bind, expect_view, hopSwap_view w c hi.1 hi.2, bind_map]; rfl
  | trdInit T a x y o =>
    have hT : Free t T := hi
    simp only [step, Except.map_bind, Except.map_ok, view, hT.read, hT.write]; rfl
  | trade T s tok P a sp dl mi mf =>
    simp only [step, Except.map_bind, expect_view, trade_view w c (show Free t T from hi), bind_map]; rfl
  | trdTransfer T s r x tok =>
    have hT : Free t T := hi
    have e1 : (view f g t w).trd T = w.trd T := hT.read w.trd
    simp only [step, Except.map_bind, expect_view, e1]; rfl
  | rewards R k => simp only [step, Except.map_bind, expect_view]; rfl

end Phoenix.World
