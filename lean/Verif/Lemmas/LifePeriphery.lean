import Verif.Spec.LifePeriphery
import Verif.Lemmas.LifeFactory
import Verif.Lemmas.Deployed
/-! Router and trader with their storage against the record model. -/
namespace Phoenix.World
open Phoenix Phoenix.World.Spec
variable {h : Host} {w w' : World} {c : Ctx}

theorem initXyk_code {P : Addr} {i : Info} {owner : Addr} {dec : Nat} {sl mf : Int} (e : initXyk h w P i owner dec sl mf = .ok w') {a : Addr}
    (ha : w.code a ≠ .none) : w'.code a = w.code a := by
  unfold initXyk at e
  simp only [bind_ok, ok_inj, deploy_ok, Prod.exists] at e
  obtain ⟨p, L', hi, w1, ⟨hS, rfl⟩, w2, ⟨hK, rfl⟩, st, hst, rfl⟩ := e
  simp only at hK ⊢
  have n1 : a ≠ h.shareAddr P i.tokenA i.tokenB := fun k => ha (k ▸ hS)
  have n2 : a ≠ h.stakeAddr P := fun k => ha (by rw [← k, upd_ne _ _ n1] at hK; exact hK)
  rw [upd_ne _ _ n2, upd_ne _ _ n1]

theorem initStable_code {P : Addr} {i : Info} {owner : Addr} {amp : Nat} {mf : Int} (e : initStable h w c P i owner amp mf = .ok w') {a : Addr}
    (ha : w.code a ≠ .none) : w'.code a = w.code a := by
  unfold initStable at e
  simp only [bind_ok, ok_inj, deploy_ok, Prod.exists] at e
  obtain ⟨_, _, _, _, p, L', hi, w1, ⟨hS, rfl⟩, w2, ⟨hK, rfl⟩, st, hst, rfl⟩ := e
  simp only at hK ⊢
  have n1 : a ≠ h.shareAddr P i.tokenA i.tokenB := fun k => ha (k ▸ hS)
  have n2 : a ≠ h.stakeAddr P := fun k => ha (by rw [← k, upd_ne _ _ n1] at hK; exact hK)
  rw [upd_ne _ _ n2, upd_ne _ _ n1]

/-- the code at an address in use never changes -/
theorem step_code {k : Call} (e : step h w c k = .ok w') {a : Addr} (ha : w.code a ≠ .none) : w'.code a = w.code a := by
  cases k with
  | xykInit P i owner dec sl mf =>
    simp only [step, bind_ok, expect_ok] at e
    obtain ⟨_, h1, h2⟩ := e
    exact initXyk_code h2 ha
  | stableInit P i owner amp mf =>
    simp only [step, bind_ok, expect_ok] at e
    obtain ⟨_, h1, h2⟩ := e
    exact initStable_code h2 ha
  | create F sender i k amp sl mf =>
    simp only [step, bind_ok, ok_inj, expect_ok, Prod.exists] at e
    obtain ⟨_, hF, w1, P, h2, rfl⟩ := e
    simp only [create, bind_ok, ok_inj, deploy_ok, Prod.mk.injEq] at h2
    obtain ⟨_, _, _, _, f, hf, _, _, _, _, w1, ⟨hP, rfl⟩, _, _, _, _, _, _, _, _, _, _, _, _, w2, h2, rfl, rfl⟩ := h2
    have n : a ≠ h.poolAddr F i.tokenA i.tokenB := fun k => ha (k ▸ hP)
    have e1 : upd w.code (h.poolAddr F i.tokenA i.tokenB) k.code a = w.code a := upd_ne _ _ n
    have h3 : w2.code a = upd w.code (h.poolAddr F i.tokenA i.tokenB) k.code a := by
      cases k with
      | xyk => exact (initXyk_code h2 (a := a) (by simp only; rw [e1]; exact ha) :)
      | stable => exact (initStable_code h2 (a := a) (by simp only; rw [e1]; exact ha) :)
    exact h3.trans e1
  | facInit F admin lp stb stk tok wl dec =>
    simp only [step, bind_ok, expect_ok] at e
    obtain ⟨_, h1, e⟩ := e
    unfold facInit at e
    simp only [bind_ok, req_ok, ok_inj, deploy_ok, Multihop.init] at e
    obtain ⟨_, _, _, _, w1, ⟨h3, rfl⟩, m, ⟨_, h4, rfl⟩, rfl⟩ := e
    exact upd_ne _ _ (fun k => ha (k ▸ h3))
  | hopSwap H recipient ops sp x dl mf =>
    simp only [step, bind_ok, ok_inj, expect_ok, Prod.exists, hopSwap] at e
    obtain ⟨_, _, w1, _, e, rfl⟩ := e
    obtain ⟨_, _, _, _, _, _, _, _, e⟩ := e
    rw [hopLoop_codes e]
  | trade T sender token pool amount sp dl min mf =>
    simp only [step, bind_ok, ok_inj, expect_ok, Prod.exists, trade] at e
    obtain ⟨_, _, w1, _, e, rfl⟩ := e
    obtain ⟨_, _, _, _, _, _, _, _, _, _, e⟩ := e
    rw [poolSwap_codes e]
  | xyk P k =>
    cases k with
    | init i => simp [step] at e
    | _ =>
      simp only [step, bind_ok, ok_inj, expect_ok] at e
      obtain ⟨_, _, _, _, rfl⟩ := e
      rfl
  | stable P k =>
    cases k with
    | init i => simp [step] at e
    | _ =>
      simp only [step, bind_ok, ok_inj, expect_ok] at e
      obtain ⟨_, _, _, _, rfl⟩ := e
      rfl
  | vest V k =>
    cases k with
    | mint s a =>
      simp only [step, bind_ok, ok_inj, expect_ok] at e
      obtain ⟨_, _, _, _, _, _, _, _, rfl⟩ := e
      rfl
    | _ =>
      simp only [step, bind_ok, ok_inj, expect_ok] at e
      obtain ⟨_, _, _, _, rfl⟩ := e
      rfl
  | token _ _ | stake _ _ | hopInit _ _ _ | trdInit _ _ _ _ _ | rewards _ _ =>
    simp only [step, bind_ok, ok_inj, expect_ok] at e
    obtain ⟨_, _, _, _, rfl⟩ := e
    rfl
  | whitelist _ _ _ _ | hashes _ _ _ _ | facUpdate _ _ | trdTransfer _ _ _ _ _ =>
    simp only [step, bind_ok, ok_inj, expect_ok] at e
    obtain ⟨_, _, _, _, _, _, rfl⟩ := e
    rfl

end Phoenix.World

namespace Phoenix.Life
open Phoenix Phoenix.Store Phoenix.Life.Spec
theorem upd_self {β : Type} {f : Addr → β} {a : Addr} : upd f a (f a) = f := by
  funext b; rw [upd_apply]; split
  · rename_i e; rw [e]
  · rfl
section
variable {α : Type} {σ : Store} {k : Key} {as : Cell → Option α} {e : Err} {c : Cell} {x : α}
theorem gotInst (h : Store.get σ .inst k = some c) (hx : as c = some x) :
    plain (fetch .inst k as e >>= fun c => keepInstLong >>= fun _ => pure c) σ = .ok (x, σ) := by
  have := reads_fetchInst_long k as e σ
  simp only [load_of h hx] at this
  exact this
theorem gotInst_none (h : Store.get σ .inst k = none) :
    plain (fetch .inst k as e >>= fun c => keepInstLong >>= fun _ => pure c) σ = .error e := by
  have := reads_fetchInst_long k as e σ
  simp only [load_none h] at this
  exact this
end
end Phoenix.Life

namespace Phoenix.Life.Router
open Phoenix Phoenix.Store Phoenix.Life Phoenix.Life.Spec
open Phoenix.World (World Tx Call view Indep Free Host)

theorem others_view (H : Addr) (w : World) : others H w = view id (fun m => upd m H none) id w := rfl

/-- the store holds the router's variables, and all else is the same -/
def Rel (H : Addr) (a : Store × World) (w : World) : Prop := w.code H = .multihop ∧ Stores a.1 (w.hop H) ∧ a.2 = others H w

section
variable {h : Host} {H : Addr} {σ : Store} {w : World} {c : Ctx}

theorem holds_new (hb : Blank σ) (admin F : Addr) :
    Holds (Store.set (Store.set (Store.set σ .pers kInit (.bool true)) .inst kAdmin (.addr admin)) .inst kFactory (.addr F)) ⟨admin, F⟩ where
  factory := by simp [kFactory]
  admin := by simp [kFactory, kAdmin]
  inited := by simp [kFactory, kAdmin, kInit]
  only := by
    refine every_set (every_set (every_set (fun d k hk => absurd (hb d k) hk) _ ?_) _ ?_) _ ?_
    · exact .inr ⟨rfl, rfl⟩
    · exact .inl ⟨rfl, by simp [kAdmin]⟩
    · exact .inl ⟨rfl, by simp [kFactory]⟩

theorem poolSwap_hop {w w' : World} {c : Ctx} {P s o : Addr} {x r : Int} {mi sp : Option Int} {dl : Option Nat} {mf : Option Int}
    (h : World.poolSwap w c P s o x mi sp dl mf = .ok (w', r)) : w'.hop = w.hop := by
  unfold World.poolSwap at h
  split at h
  · simp only [bind_ok] at h
    obtain ⟨_, _, ⟨_, _, _⟩, _, h⟩ := h
    cases h; rfl
  · simp only [bind_ok] at h
    obtain ⟨_, _, ⟨_, _, _⟩, _, h⟩ := h
    cases h; rfl
  · cases h

theorem hopLoop_hop {w : World} {c : Ctx} {G r : Addr} {sp : Option Int} {dl : Option Nat} {mf : Option Int} {ops : List Multihop.Op} {x : Int}
    {q : World × Int} (h : World.hopLoop w c G r sp dl mf ops x = .ok q) : q.1.hop = w.hop := by
  induction ops generalizing w x with
  | nil => cases h; rfl
  | cons op ops ih =>
    unfold World.hopLoop at h
    simp only [bind_ok] at h
    obtain ⟨_, _, ⟨w1, y⟩, h1, h2⟩ := h
    exact (ih h2).trans (poolSwap_hop h1)

theorem others_hop (m : Multihop.State) : others H { w with hop := upd w.hop H (some m) } = others H w := by
  unfold others
  simp only [World.upd_upd]

theorem other_alike (hc : w.code H = .multihop) (hs : Stores σ (w.hop H)) {k : Call} (hi : ∀ v, Indep id (fun m => upd m H v) id h w k) :
    Alike (fun r w' => Rel H (r.2, r.1) w') (plain (lift (World.step h (others H w) c k)) σ) (World.step h w c k) := by
  rw [plain_lift, others_view, World.step_view w c k (hi none)]
  cases hw : World.step h w c k with
  | error e => exact trivial
  | ok w' =>
    refine ⟨(World.step_code hw (by rw [hc]; simp)).trans hc, ?_, rfl⟩
    have e := World.step_view w c k (hi (w.hop H))
    have e0 : view id (fun m => upd m H (w.hop H)) id w = w := by
      unfold view
      simp only [upd_self, id]
    rw [e0, hw] at e
    have e1 : w' = view id (fun m => upd m H (w.hop H)) id w' := by injection e
    have e2 : w'.hop H = w.hop H := by
      rw [e1]
      exact upd_same _ _ _
    simp only [e2]
    exact hs

theorem expect_others (h' : World.Code) (A : Addr) : World.expect (others H w) A h' = World.expect w A h' := rfl

theorem prog_alike (hc : w.code H = .multihop) (hs : Stores σ (w.hop H)) (t : Tx) :
    Alike (fun r w' => Rel H (r.2, r.1) w') (plain (prog h H t (others H w)) σ) (World.step h w t.ctx t.call) := by
  obtain ⟨c, k⟩ := t
  unfold prog
  simp only
  cases k with
  | hopInit H' admin F =>
    simp only
    by_cases e : H' = H
    · subst e
      rw [if_pos rfl]
      simp only [World.step, plain_bind, plain_liftM, plain_pure, bind_assoc, ok_bind', expect_others, init, Multihop.init]
      refine Alike.bind_same fun _ _ => ?_
      cases hm : w.hop H' with
      | none =>
        rw [hm] at hs
        have p1 : plain isInit σ = .ok (false, σ) := readOr_none (hs _ _)
        have p2 : ∀ σ, plain setInit σ = .ok ((), Store.set σ .pers kInit (.bool true)) := writes_keep _ _
        have p3 : ∀ σ, plain (saveAdmin admin) σ = .ok ((), Store.set σ .inst kAdmin (.addr admin)) := writes_instLong _ _
        have p4 : ∀ σ, plain (saveFactory F) σ = .ok ((), Store.set σ .inst kFactory (.addr F)) := writes_instLong _ _
        simp only [p1, p2, p3, p4, ok_bind']
        refine ⟨hc, ?_, (others_hop _).symm⟩
        simp only [upd_same]
        exact holds_new hs _ _
      | some m =>
        rw [hm] at hs
        have hs : Holds σ m := hs
        have p1 : plain isInit σ = .ok (true, σ) := readOr hs.inited rfl
        rw [p1]
        exact .fail _ _
    · rw [if_neg e]
      exact other_alike hc hs fun v => World.free_upd e v
  | hopSwap H' r ops sp x dl mf =>
    simp only
    by_cases e : H' = H
    · subst e
      rw [if_pos rfl]
      simp only [World.step, World.hopSwap, swap, plain_bind, plain_liftM, plain_keepInst, plain_pure, bind_assoc, ok_bind', expect_others]
      refine Alike.bind_same fun _ _ => Alike.bind_same fun _ _ => Alike.bind_same fun _ _ => Alike.bind_same fun _ _ => ?_
      cases hm : w.hop H' with
      | none =>
        rw [hm] at hs
        have p1 : plain getFactory σ = .error .panic := gotInst_none (hs _ _)
        rw [p1]
        exact .fail _ _
      | some m =>
        rw [hm] at hs
        have hs : Holds σ m := hs
        have p1 : plain getFactory σ = .ok (m.factory, σ) := gotInst hs.factory rfl
        simp only [p1, ok_bind', Multihop.loaded, others_view, World.hopLoop_view w _ (World.free_id _)]
        refine Alike.bind_map fun q hq => ⟨?_, ?_, rfl⟩
        · rw [World.hopLoop_codes hq]; exact hc
        · have : q.1.hop = w.hop := hopLoop_hop hq
          rw [this, hm]
          exact hs
    · rw [if_neg e]
      exact other_alike hc hs fun v => ⟨World.free_upd e v, fun _ _ => World.free_id _⟩
  | facInit F admin lp stb stk tok wl dec =>
    by_cases e : h.hopAddr F admin = H
    · simp only [plain_lift]
      have : ∀ w' : World, w'.code H = .multihop → ∃ e, World.step h w' c (.facInit F admin lp stb stk tok wl dec) = .error e := by
        intro w' hc
        cases hx : World.step h w' c (.facInit F admin lp stb stk tok wl dec) with
        | error e => exact ⟨e, rfl⟩
        | ok w2 =>
          exfalso
          simp only [World.step, World.facInit, bind_ok, World.expect_ok, World.deploy_ok] at hx
          obtain ⟨_, _, _, _, _, _, _, ⟨h1, _⟩, _⟩ := hx
          rw [e, hc] at h1
          cases h1
      obtain ⟨e1, h1⟩ := this w hc
      obtain ⟨e2, h2⟩ := this (others H w) hc
      rw [h1, h2]
      exact .fail _ _
    · exact other_alike hc hs fun v => ⟨World.free_id _, World.free_upd e v⟩
  | create F s i k a sl mf => exact other_alike hc hs fun v => World.free_id _
  | whitelist F s a r => exact other_alike hc hs fun v => World.free_id _
  | hashes F a b d => exact other_alike hc hs fun v => World.free_id _
  | facUpdate F a => exact other_alike hc hs fun v => World.free_id _
  | trdInit T a x y o => exact other_alike hc hs fun v => World.free_id _
  | trade T a b d e f g i j => exact other_alike hc hs fun v => World.free_id _
  | trdTransfer T a b d e => exact other_alike hc hs fun v => World.free_id _
  | token _ _ => exact other_alike hc hs fun v => trivial
  | xykInit _ _ _ _ _ _ => exact other_alike hc hs fun v => trivial
  | xyk _ _ => exact other_alike hc hs fun v => trivial
  | stableInit _ _ _ _ _ => exact other_alike hc hs fun v => trivial
  | stable _ _ => exact other_alike hc hs fun v => trivial
  | stake _ _ => exact other_alike hc hs fun v => trivial
  | vest _ _ => exact other_alike hc hs fun v => trivial
  | rewards _ _ => exact other_alike hc hs fun v => trivial

theorem u_init (admin F : Addr) : Uses (init admin F) [kInit] := by
  refine Uses.congr (S := [kInit] ++ ([kInit] ++ [])) ?_ (fun k => by simp)
  exact (Uses.fetchOr (.read kInit)).bind fun _ => .skip (.liftM _) fun _ => (Uses.save kInit _).bind fun _ => .skip (uses_instLong _ _) fun _ =>
    uses_instLong _ _

theorem u_swap (w : World) (c : Ctx) (H r : Addr) (ops : List Multihop.Op) (sp : Option Int) (x : Int) (dl : Option Nat) (mf : Option Int) :
    Uses (swap w c H r ops sp x dl mf) [] :=
  .skip (.liftM _) fun _ => .skip (.liftM _) fun _ => .skip (.liftM _) fun _ => .skip .keepInst fun _ => .skip (uses_fetchInst_long _ _ _) fun _ =>
    .skip (.liftM _) fun _ => .pure _

theorem u_prog (h : Host) (H : Addr) (t : Tx) (w : World) : Uses (prog h H t w) (uses H t) := by
  obtain ⟨c, k⟩ := t
  unfold prog uses
  cases k with
  | hopInit H' admin F =>
    simp only
    by_cases e : H' = H
    · rw [if_pos e, if_pos e]
      exact Uses.skip (.liftM _) fun _ => (u_init _ _).bind (S' := []) fun _ => .pure _
    · rw [if_neg e, if_neg e]
      exact .lift _
  | hopSwap H' r ops sp x dl mf =>
    simp only
    split
    · exact Uses.skip (.liftM _) fun _ => u_swap _ _ _ _ _ _ _ _ _
    · exact .lift _
  | _ => exact .lift _

theorem keeps (h : Host) (H : Addr) (t : Tx) (w : World) : Keeps (fun _ => False) ((contract h H).prog t w) := by
  obtain ⟨c, k⟩ := t
  show Keeps _ (prog h H ⟨c, k⟩ w)
  unfold prog
  cases k with
  | hopInit H' admin F =>
    simp only
    split
    · exact (Keeps.liftM _).bind fun _ => Keeps.bind (Keeps.absorb (k := kInit) (.fetchOr' (.read (.inr rfl)))
        (fun _ => (Keeps.liftM _).bind fun _ => (keeps_save kInit _).bind fun _ => (Keeps.of_uses (uses_instLong _ _)).bind fun _ => .of_uses (uses_instLong _ _))
        (fun _ => .right fun _ => Touches.left (.right fun _ => .keep kInit))) fun _ => .pure _
    · exact .lift _
  | hopSwap H' r ops sp x dl mf =>
    simp only
    split
    · exact (Keeps.liftM _).bind fun _ => .of_uses (u_swap _ _ _ _ _ _ _ _ _)
    · exact .lift _
  | _ => exact .lift _

theorem keepsInst (h : Host) (H : Addr) (t : Tx) (w : World) (ht : callsOf H t = true) : KeepsInstLong ((contract h H).prog t w) := by
  obtain ⟨c, k⟩ := t
  show KeepsInstLong (prog h H ⟨c, k⟩ w)
  unfold prog
  unfold callsOf at ht
  cases k with
  | hopInit H' admin F =>
    simp only [decide_eq_true_eq] at ht ⊢
    rw [if_pos ht]
    exact .right fun _ => .left (.right fun _ => .right fun _ => .right fun _ => .left (long_inst _ _))
  | hopSwap H' r ops sp x dl mf =>
    simp only [decide_eq_true_eq] at ht ⊢
    rw [if_pos ht]
    exact .right fun _ => .right fun _ => .right fun _ => .right fun _ => .right fun _ => .left (.right fun _ => .left .keepInstLong)
  | _ => simp at ht

end
end Phoenix.Life.Router

namespace Phoenix.Life.Trader
open Phoenix Phoenix.Store Phoenix.Life Phoenix.Life.Spec
open Phoenix.World (World Tx Call view Indep Free Host)

theorem others_view (T : Addr) (w : World) : others T w = view id id (fun m => upd m T none) w := rfl

/-- the store holds the trader's variables, and all else is the same -/
def Rel (T : Addr) (a : Store × World) (w : World) : Prop := Stores a.1 (w.trd T) ∧ a.2 = others T w

section
variable {h : Host} {T : Addr} {σ : Store} {w : World} {c : Ctx}

theorem holds_new (hb : Blank σ) (admin a b o : Addr) :
    Holds (Store.set (Store.set (Store.set (Store.set (Store.set σ .pers kAdmin (.addr admin)) .pers kName (.text "")) .pers kPair (.addrPair a b))
      .pers kToken (.addr o)) .pers kInit (.bool true)) ⟨admin, a, b, o⟩ where
  admin := by simp [kAdmin, kName, kPair, kToken, kInit]
  name := by simp [kName, kPair, kToken, kInit]
  pair := by simp [kPair, kToken, kInit]
  token := by simp [kToken, kInit]
  inited := by simp [kInit]
  only := by
    refine every_set (every_set (every_set (every_set (every_set (fun d k hk => absurd (hb d k) hk) _ ?_) _ ?_) _ ?_) _ ?_) _ ?_
    all_goals exact ⟨rfl, by simp [kAdmin, kName, kPair, kToken, kInit]⟩

theorem others_trd (m : Phoenix.Trader.State) : others T { w with trd := upd w.trd T (some m) } = others T w := by
  unfold others
  simp only [World.upd_upd]

theorem other_alike (hs : Stores σ (w.trd T)) {k : Call} (hi : ∀ v, Indep id id (fun m => upd m T v) h w k) :
    Alike (fun r w' => Rel T (r.2, r.1) w') (plain (lift (World.step h (others T w) c k)) σ) (World.step h w c k) := by
  rw [plain_lift, others_view, World.step_view w c k (hi none)]
  cases hw : World.step h w c k with
  | error e => exact trivial
  | ok w' =>
    refine ⟨?_, rfl⟩
    have e := World.step_view w c k (hi (w.trd T))
    have e0 : view id id (fun m => upd m T (w.trd T)) w = w := by
      unfold view
      simp only [upd_self, id]
    rw [e0, hw] at e
    have e1 : w' = view id id (fun m => upd m T (w.trd T)) w' := by injection e
    have e2 : w'.trd T = w.trd T := by
      rw [e1]
      exact upd_same _ _ _
    simp only [e2]
    exact hs

theorem expect_others (h' : World.Code) (A : Addr) : World.expect (others T w) A h' = World.expect w A h' := rfl

theorem poolSwap_trd {w w' : World} {c : Ctx} {P s o : Addr} {x r : Int} {mi sp : Option Int} {dl : Option Nat} {mf : Option Int}
    (h : World.poolSwap w c P s o x mi sp dl mf = .ok (w', r)) : w'.trd = w.trd := by
  unfold World.poolSwap at h
  split at h
  · simp only [bind_ok] at h
    obtain ⟨_, _, ⟨_, _, _⟩, _, h⟩ := h
    cases h; rfl
  · simp only [bind_ok] at h
    obtain ⟨_, _, ⟨_, _, _⟩, _, h⟩ := h
    cases h; rfl
  · cases h

section reads
variable {t : Phoenix.Trader.State}
theorem p_getAdmin (h : Holds σ t) : plain getAdmin σ = .ok (t.admin, σ) := got h.admin rfl
theorem p_getPair (h : Holds σ t) : plain getPair σ = .ok ((t.tokenA, t.tokenB), σ) := got h.pair rfl
theorem p_getToken (h : Holds σ t) : plain getToken σ = .ok (t.output, σ) := got h.token rfl
theorem p_tokenOf (h : Holds σ t) (o : Option Addr) : plain (tokenOf o) σ = .ok (o.getD t.output, σ) := by
  cases o with
  | none => exact p_getToken h
  | some a => rfl
theorem b_getAdmin (h : Blank σ) : plain getAdmin σ = .error (.code 1) := got_none (h _ _)
end reads

theorem prog_alike (hs : Stores σ (w.trd T)) (t : Tx) :
    Alike (fun r w' => Rel T (r.2, r.1) w') (plain (prog h T t (others T w)) σ) (World.step h w t.ctx t.call) := by
  obtain ⟨c, k⟩ := t
  unfold prog
  simp only
  cases k with
  | trdInit T' admin a b o =>
    simp only
    by_cases e : T' = T
    · subst e
      rw [if_pos rfl]
      simp only [World.step, plain_bind, plain_liftM, plain_pure, bind_assoc, ok_bind', expect_others, init, Phoenix.Trader.init]
      refine Alike.bind_same fun _ _ => Alike.bind_same fun _ _ => ?_
      cases hm : w.trd T' with
      | none =>
        rw [hm] at hs
        have p1 : plain isInit σ = .ok (false, σ) := readOr_none (hs _ _)
        have p2 : ∀ σ, plain (saveAdmin admin) σ = .ok ((), Store.set σ .pers kAdmin (.addr admin)) := writes_keep _ _
        have p3 : ∀ σ, plain saveName σ = .ok ((), Store.set σ .pers kName (.text "")) := writes_keep _ _
        have p4 : ∀ σ, plain (savePair a b) σ = .ok ((), Store.set σ .pers kPair (.addrPair a b)) := writes_keep _ _
        have p5 : ∀ σ, plain (saveToken o) σ = .ok ((), Store.set σ .pers kToken (.addr o)) := writes_keep _ _
        have p6 : ∀ σ, plain setInit σ = .ok ((), Store.set σ .pers kInit (.bool true)) := writes_keep _ _
        simp only [p1, p2, p3, p4, p5, p6, ok_bind']
        refine ⟨?_, (others_trd _).symm⟩
        simp only [upd_same]
        exact holds_new hs _ _ _ _
      | some m =>
        rw [hm] at hs
        have hs : Holds σ m := hs
        have p1 : plain isInit σ = .ok (true, σ) := readOr hs.inited rfl
        rw [p1]
        exact .fail _ _
    · rw [if_neg e]
      exact other_alike hs fun v => World.free_upd e v
  | trade T' s tok P x sp dl mi mf =>
    simp only
    by_cases e : T' = T
    · subst e
      rw [if_pos rfl]
      simp only [World.step, World.trade, trade, plain_bind, plain_liftM, plain_keepInst, plain_pure, bind_assoc, ok_bind', expect_others]
      refine Alike.bind_same fun _ _ => Alike.bind_same fun _ _ => ?_
      cases hm : w.trd T' with
      | none =>
        rw [hm] at hs
        rw [b_getAdmin hs]
        exact .fail _ _
      | some m =>
        rw [hm] at hs
        have hs : Holds σ m := hs
        simp only [p_getAdmin hs, p_getPair hs, ok_bind', Phoenix.Trader.loaded, others_view, World.poolSwap_view]
        refine Alike.bind_same fun _ _ => Alike.bind_same fun _ _ => Alike.bind_same fun _ _ => Alike.bind_map fun q hq => ⟨?_, rfl⟩
        have : q.1.trd = w.trd := poolSwap_trd (r := q.2) hq
        rw [this, hm]
        exact hs
    · rw [if_neg e]
      exact other_alike hs fun v => World.free_upd e v
  | trdTransfer T' s r x tok =>
    simp only
    by_cases e : T' = T
    · subst e
      rw [if_pos rfl]
      simp only [World.step, Phoenix.Trader.transfer, transfer, plain_bind, plain_liftM, plain_keepInst, plain_pure, bind_assoc, ok_bind', expect_others]
      refine Alike.bind_same fun _ _ => ?_
      cases hm : w.trd T' with
      | none =>
        rw [hm] at hs
        rw [b_getAdmin hs]
        cases requireAuth c s <;> exact .fail _ _
      | some m =>
        rw [hm] at hs
        have hs : Holds σ m := hs
        simp only [p_getAdmin hs, p_tokenOf hs, ok_bind', Phoenix.Trader.loaded]
        refine Alike.bind_same fun _ _ => Alike.bind_same fun _ _ => Alike.bind_same fun L _ => ⟨?_, rfl⟩
        simp only [hm]
        exact hs
    · rw [if_neg e]
      exact other_alike hs fun v => World.free_upd e v
  | hopInit H a F => exact other_alike hs fun v => World.free_id _
  | hopSwap H r ops sp x dl mf => exact other_alike hs fun v => ⟨World.free_id _, fun _ _ => World.free_id _⟩
  | facInit F admin lp stb stk tok wl dec => exact other_alike hs fun v => ⟨World.free_id _, World.free_id _⟩
  | create F s i k a sl mf => exact other_alike hs fun v => World.free_id _
  | whitelist F s a r => exact other_alike hs fun v => World.free_id _
  | hashes F a b d => exact other_alike hs fun v => World.free_id _
  | facUpdate F a => exact other_alike hs fun v => World.free_id _
  | token _ _ => exact other_alike hs fun v => trivial
  | xykInit _ _ _ _ _ _ => exact other_alike hs fun v => trivial
  | xyk _ _ => exact other_alike hs fun v => trivial
  | stableInit _ _ _ _ _ => exact other_alike hs fun v => trivial
  | stable _ _ => exact other_alike hs fun v => trivial
  | stake _ _ => exact other_alike hs fun v => trivial
  | vest _ _ => exact other_alike hs fun v => trivial
  | rewards _ _ => exact other_alike hs fun v => trivial

theorem u_init (c : Ctx) (admin a b o : Addr) : Uses (init c admin a b o) [kAdmin, kName, kPair, kToken, kInit] := by
  refine Uses.congr (S := [kInit] ++ ([kAdmin] ++ ([kName] ++ ([kPair] ++ ([kToken] ++ [kInit]))))) ?_ (fun k => by simp; tauto)
  exact .skip (.liftM _) fun _ => (Uses.fetchOr (.read kInit)).bind fun _ => .skip (.liftM _) fun _ => (Uses.save kAdmin _).bind fun _ =>
    (Uses.save kName _).bind fun _ => (Uses.save kPair _).bind fun _ => (Uses.save kToken _).bind fun _ => Uses.save kInit _

theorem u_trade (w : World) (c : Ctx) (T s tok P : Addr) (x : Option Nat) (sp : Option Int) (dl : Option Nat) (mi mf : Option Int) :
    Uses (trade w c T s tok P x sp dl mi mf) [kAdmin, kPair] :=
  .skip (.liftM _) fun _ => .skip .keepInst fun _ => (Uses.get kAdmin _ _).bind (S' := [kPair]) fun _ => .skip (.liftM _) fun _ => .skip (.liftM _) fun _ =>
    (Uses.get kPair _ _).bind (S' := []) fun _ => .skip (.liftM _) fun _ => .skip (.liftM _) fun _ => .pure _

theorem u_tokenOf (o : Option Addr) : Uses (tokenOf o) (if o = none then [kToken] else []) := by
  cases o with
  | none => exact Uses.get kToken _ _
  | some a => exact .pure _

theorem u_transfer (w : World) (c : Ctx) (T s r : Addr) (x : Int) (tok : Option Addr) :
    Uses (transfer w c T s r x tok) (kAdmin :: (if tok = none then [kToken] else [])) := by
  refine Uses.congr (S := [kAdmin] ++ ((if tok = none then [kToken] else []) ++ [])) ?_ (fun k => by simp)
  exact .skip (.liftM _) fun _ => .skip .keepInst fun _ => (Uses.get kAdmin _ _).bind fun _ => .skip (.liftM _) fun _ =>
    (u_tokenOf tok).bind fun _ => .skip (.liftM _) fun _ => .pure _

theorem u_prog (h : Host) (T : Addr) (t : Tx) (w : World) : Uses (prog h T t w) (uses T t) := by
  obtain ⟨c, k⟩ := t
  unfold prog uses
  cases k with
  | trdInit T' admin a b o =>
    simp only
    by_cases e : T' = T
    · rw [if_pos e, if_pos e]
      exact Uses.skip (.liftM _) fun _ => (u_init _ _ _ _ _).bind (S' := []) fun _ => .pure _
    · rw [if_neg e, if_neg e]
      exact .lift _
  | trade T' s tok P x sp dl mi mf =>
    simp only
    by_cases e : T' = T
    · rw [if_pos e, if_pos e]
      exact Uses.skip (.liftM _) fun _ => u_trade _ _ _ _ _ _ _ _ _ _ _
    · rw [if_neg e, if_neg e]
      exact .lift _
  | trdTransfer T' s r x tok =>
    simp only
    by_cases e : T' = T
    · rw [if_pos e, if_pos e]
      exact Uses.skip (.liftM _) fun _ => u_transfer _ _ _ _ _ _ _
    · rw [if_neg e, if_neg e]
      exact .lift _
  | _ => exact .lift _

theorem keeps (h : Host) (T : Addr) (t : Tx) (w : World) : Keeps (fun _ => False) ((contract h T).prog t w) := by
  obtain ⟨c, k⟩ := t
  show Keeps _ (prog h T ⟨c, k⟩ w)
  unfold prog
  cases k with
  | trdInit T' admin a b o =>
    simp only
    split
    · exact (Keeps.liftM _).bind fun _ => Keeps.bind ((Keeps.liftM _).bind fun _ => Keeps.absorb (k := kInit) (.fetchOr' (.read (.inr rfl)))
        (fun _ => (Keeps.liftM _).bind fun _ => (keeps_save kAdmin _).bind fun _ => (keeps_save kName _).bind fun _ => (keeps_save kPair _).bind fun _ =>
          (keeps_save kToken _).bind fun _ => keeps_save kInit _)
        (fun _ => .right fun _ => .right fun _ => .right fun _ => .right fun _ => .right fun _ => .right fun _ => .keep kInit)) fun _ => .pure _
    · exact .lift _
  | trade T' s tok P x sp dl mi mf =>
    simp only
    split
    · exact (Keeps.liftM _).bind fun _ => (Keeps.liftM _).bind fun _ => Keeps.keepInst.bind fun _ => (keeps_get kAdmin _ _).bind fun _ =>
        (Keeps.liftM _).bind fun _ => (Keeps.liftM _).bind fun _ => (keeps_get kPair _ _).bind fun _ => (Keeps.liftM _).bind fun _ =>
        (Keeps.liftM _).bind fun _ => .pure _
    · exact .lift _
  | trdTransfer T' s r x tok =>
    simp only
    split
    · refine (Keeps.liftM _).bind fun _ => (Keeps.liftM _).bind fun _ => Keeps.keepInst.bind fun _ => (keeps_get kAdmin _ _).bind fun _ =>
        (Keeps.liftM _).bind fun _ => Keeps.bind ?_ fun _ => (Keeps.liftM _).bind fun _ => .pure _
      cases tok with
      | none => exact keeps_get kToken _ _
      | some a => exact .pure _
    · exact .lift _
  | _ => exact .lift _

theorem keepsInst (h : Host) (T : Addr) (t : Tx) (w : World) (ht : extendsInst T t = true) : KeepsInst ((contract h T).prog t w) := by
  obtain ⟨c, k⟩ := t
  show KeepsInst (prog h T ⟨c, k⟩ w)
  unfold prog
  unfold extendsInst callsOf at ht
  cases k with
  | trade T' s tok P x sp dl mi mf =>
    simp only [decide_eq_true_eq] at ht ⊢
    rw [if_pos ht]
    exact .right fun _ => .right fun _ => .left .keepInst
  | trdTransfer T' s r x tok =>
    simp only [decide_eq_true_eq] at ht ⊢
    rw [if_pos ht]
    exact .right fun _ => .right fun _ => .left .keepInst
  | _ => simp at ht

end
end Phoenix.Life.Trader
