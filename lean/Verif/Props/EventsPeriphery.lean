import Verif.Spec.EventsPeriphery
import Verif.Lemmas.Events
import Verif.Lemmas.LifePeriphery
import Verif.Props.Trader
/-!
Property theorems about the events of routers and traders: C133.
-/
namespace Phoenix.Props.EventsLog
open Phoenix Phoenix.World Phoenix.World.Spec

variable {h : Host} {acct : Accounts} {w0 : World}

theorem stepP_eq (h : Host) (w : World) (c : Ctx) (k : Call) : step h w c k = (stepP h w c k).map (·.1) := by
  have gen : ∀ (k : Call) (l : List (Addr × Event)), step h w c k = (step h w c k >>= fun w' => (.ok (w', l) : Res _)).map (·.1) := by
    intro k l; cases step h w c k <;> rfl
  cases k with
  | trade T sender token pool amount spread dl min mf =>
    simp only [stepP, step, Except.map_bind, Except.map_ok]
  | _ => exact gen _ _

/-- No call changes the setup of the trader at `x`, but its `initialize`. -/
theorem trd_kept {w w' : World} {c : Ctx} {k : Call} {x : Addr} (e : step h w c k = .ok w')
    (hk : ∀ admin a b o, k ≠ .trdInit x admin a b o) : w'.trd x = w.trd x := by
  have go : (∀ v, Indep id id (fun m => upd m x v) h w k) → w'.trd x = w.trd x := by
    intro hi
    have e1 := World.step_view w c k (hi (w.trd x))
    have e0 : view id id (fun m => upd m x (w.trd x)) w = w := by
      unfold view
      simp only [Life.upd_self, id]
    rw [e0, e] at e1
    have e2 : w' = view id id (fun m => upd m x (w.trd x)) w' := by injection e1
    rw [e2]
    exact upd_same _ _ _
  cases k with
  | trdInit T admin a b o =>
    exact go fun v => World.free_upd (fun q => hk admin a b o (by rw [q])) v
  | trade T s tok P y sp dl mi mf =>
    simp only [step, trade, bind_ok, ok_inj, Prod.exists] at e
    obtain ⟨_, -, w1, r, ⟨_, _, _, _, _, _, _, _, _, _, h2⟩, rfl⟩ := e
    rw [Life.Trader.poolSwap_trd h2]
  | trdTransfer T s r y tok =>
    simp only [step, bind_ok, ok_inj] at e
    obtain ⟨_, -, _, -, L, -, rfl⟩ := e
    rfl
  | facInit _ _ _ _ _ _ _ _ => exact go fun v => ⟨World.free_id _, World.free_id _⟩
  | hopSwap _ _ _ _ _ _ _ => exact go fun v => ⟨World.free_id _, fun _ _ => World.free_id _⟩
  | create _ _ _ _ _ _ _ => exact go fun v => World.free_id _
  | whitelist _ _ _ _ => exact go fun v => World.free_id _
  | hashes _ _ _ _ => exact go fun v => World.free_id _
  | facUpdate _ _ => exact go fun v => World.free_id _
  | hopInit _ _ _ => exact go fun v => World.free_id _
  | _ => exact go fun v => trivial

/-- No call changes the setup of the router at `x`, but its `initialize`, called by the factory that deploys it or from
outside. -/
theorem hop_kept {w w' : World} {c : Ctx} {k : Call} {x : Addr} (e : step h w c k = .ok w')
    (hk : ∀ admin F, k ≠ .hopInit x admin F) (hf : ∀ F admin lp stb stk tok wl dec, k = .facInit F admin lp stb stk tok wl dec → h.hopAddr F admin ≠ x) :
    w'.hop x = w.hop x := by
  have go : (∀ v, Indep id (fun m => upd m x v) id h w k) → w'.hop x = w.hop x := by
    intro hi
    have e1 := World.step_view w c k (hi (w.hop x))
    have e0 : view id (fun m => upd m x (w.hop x)) id w = w := by
      unfold view
      simp only [Life.upd_self, id]
    rw [e0, e] at e1
    have e2 : w' = view id (fun m => upd m x (w.hop x)) id w' := by injection e1
    rw [e2]
    exact upd_same _ _ _
  cases k with
  | hopInit H admin F =>
    exact go fun v => World.free_upd (fun q => hk admin F (by rw [q])) v
  | facInit F admin lp stb stk tok wl dec => exact go fun v => ⟨World.free_id _, World.free_upd (hf _ _ _ _ _ _ _ _ rfl) v⟩
  | hopSwap H r ops sp y dl mf =>
    simp only [step, hopSwap, bind_ok, ok_inj, Prod.exists] at e
    obtain ⟨_, -, w1, out, ⟨_, _, _, _, _, _, h2⟩, rfl⟩ := e
    obtain ⟨m, -, h2⟩ := h2
    rw [show w1.hop = w.hop from Life.Router.hopLoop_hop h2]
  | create _ _ _ _ _ _ _ => exact go fun v => World.free_id _
  | whitelist _ _ _ _ => exact go fun v => World.free_id _
  | hashes _ _ _ _ => exact go fun v => World.free_id _
  | facUpdate _ _ => exact go fun v => World.free_id _
  | trdInit _ _ _ _ _ => exact go fun v => World.free_id _
  | trade _ _ _ _ _ _ _ _ _ => exact go fun v => World.free_id _
  | trdTransfer _ _ _ _ _ => exact go fun v => World.free_id _
  | _ => exact go fun v => trivial

/-- what the contract at `x` has said, by its setup -/
def story (w : World) (x : Addr) : List Event := routerStory (w.hop x) ++ traderStory (w.trd x)

theorem story_step (hh : HostOK h acct) {w w' : World} {t : Tx} (I : Inv h acct w) (hp : Possible acct t)
    (ht : ∀ T s tok P am sp dl mi mf, t.call = .trade T s tok P am sp dl mi mf → ∀ w', step h w t.ctx t.call ≠ .ok w')
    {ev : List (Addr × Event)} (e : stepP h w t.ctx t.call = .ok (w', ev)) (x : Addr) :
    story w x ++ publishedBy x ev = story w' x := by
  have hs := (ok_of_map (stepP_eq h w t.ctx t.call)).mpr ⟨_, e, rfl⟩
  simp only at hs
  obtain ⟨c, k⟩ := t
  have quiet : ev = [] → w'.trd x = w.trd x → w'.hop x = w.hop x → story w x ++ publishedBy x ev = story w' x := by
    rintro rfl e1 e2
    simp [story, publishedBy, e1, e2]
  cases k with
  | trade T s tok P am sp dl mi mf => exact absurd hs (ht T s tok P am sp dl mi mf rfl w')
  | facInit F admin lp stb stk tok wl dec =>
    simp only [stepP, bind_ok, ok_inj, Prod.mk.injEq] at e
    obtain ⟨_, -, rfl, rfl⟩ := e
    have e1 := trd_kept (x := x) hs (fun _ _ _ _ => by simp)
    by_cases hx : h.hopAddr F admin = x
    · subst hx
      simp only [step, facInit, bind_ok, ok_inj, deploy_ok, Multihop.init, req_ok] at hs
      obtain ⟨_, -, _, -, _, -, w1, ⟨h1, rfl⟩, m, ⟨_, hn, rfl⟩, rfl⟩ := hs
      have hr : w.hop (h.hopAddr F admin) = none := by simpa using hn
      have hq : w.trd (h.hopAddr F admin) = none := by
        cases q : w.trd (h.hopAddr F admin) with
        | none => rfl
        | some t => have := I.refs.trd _ _ q; rw [h1] at this; cases this
      simp [story, publishedBy, hr, hq, routerStory, traderStory, routerInit, upd_same]
    · have e2 := hop_kept (x := x) hs (fun _ _ => by simp) (fun _ _ _ _ _ _ _ _ q => by cases q; exact hx)
      simp [story, publishedBy, e1, e2, hx]
  | hopInit H admin F =>
    simp only [stepP, bind_ok, ok_inj, Prod.mk.injEq] at e
    obtain ⟨_, -, rfl, rfl⟩ := e
    have e1 := trd_kept (x := x) hs (fun _ _ _ _ => by simp)
    by_cases hx : H = x
    · subst hx
      simp only [step, bind_ok, ok_inj, Multihop.init, req_ok, expect_ok] at hs
      obtain ⟨_, h1, m, ⟨_, hn, rfl⟩, rfl⟩ := hs
      have hr : w.hop H = none := by simpa using hn
      have hq : w.trd H = none := by
        cases q : w.trd H with
        | none => rfl
        | some t => have := I.refs.trd _ _ q; rw [h1] at this; cases this
      simp [story, publishedBy, hr, hq, routerStory, traderStory, routerInit, upd_same]
    · have e2 := hop_kept (x := x) hs (fun _ _ q => by cases q; exact hx rfl) (fun _ _ _ _ _ _ _ _ q => by cases q)
      simp [story, publishedBy, e1, e2, hx]
  | trdInit T admin a b o =>
    simp only [stepP, bind_ok, ok_inj, Prod.mk.injEq] at e
    obtain ⟨_, -, rfl, rfl⟩ := e
    have e2 := hop_kept (x := x) hs (fun _ _ q => by cases q) (fun _ _ _ _ _ _ _ _ q => by cases q)
    by_cases hx : T = x
    · subst hx
      obtain ⟨hn, -, hw⟩ := Trader.C48_init hs
      simp [story, publishedBy, hn, hw, e2, traderStory, traderInit]
    · have e1 := trd_kept (x := x) hs (fun _ _ _ _ q => by cases q; exact hx rfl)
      simp [story, publishedBy, e1, e2, hx, traderInit]
  | _ =>
    simp only [stepP, bind_ok, ok_inj, Prod.mk.injEq] at e
    obtain ⟨_, -, rfl, rfl⟩ := e
    exact quiet rfl (trd_kept hs (fun _ _ _ _ => by simp)) (hop_kept hs (fun _ _ => by simp) (fun _ _ _ _ _ _ _ _ => by simp))

theorem story_run (hh : HostOK h acct) (g : Genesis acct w0) (x : Addr) : ∀ (us ts : List Tx), (∀ t ∈ ts, Possible acct t) → (∀ t ∈ us, Possible acct t) →
    story (run h w0 ts) x ++ publishedBy x (periLog h (run h w0 ts) us) = story (run h (run h w0 ts) us) x
  | [], ts, _, _ => by simp [periLog, publishedBy, run]
  | t :: us, ts, hp, hu => by
    obtain ⟨I, -⟩ := run_inv hh (Phoenix.World.genesis_inv (h := h) g) hp
    have ht := hu t (by simp)
    have hp' : ∀ u ∈ ts ++ [t], Possible acct u := by
      intro u hm
      rcases List.mem_append.mp hm with q | q
      · exact hp u q
      · rw [List.mem_singleton.mp q]; exact ht
    have ih := story_run hh g x us (ts ++ [t]) hp' (fun u hm => hu u (by simp [hm]))
    have er : run h w0 (ts ++ [t]) = exec h (run h w0 ts) t := by simp [run, List.foldl_append]
    rw [er] at ih
    have e := stepP_eq h (run h w0 ts) t.ctx t.call
    have l : periLog h (run h w0 ts) (t :: us) = match stepP h (run h w0 ts) t.ctx t.call with
      | .ok (w', ev) => ev ++ periLog h w' us
      | .error _ => periLog h (run h w0 ts) us := rfl
    have r : run h (run h w0 ts) (t :: us) = run h (exec h (run h w0 ts) t) us := rfl
    rw [l, r]
    cases hE : stepP h (run h w0 ts) t.ctx t.call with
    | error e' =>
      rw [hE] at e; simp only [Except.map] at e
      have ex : exec h (run h w0 ts) t = run h w0 ts := by unfold exec; rw [e]
      rw [ex] at ih ⊢
      exact ih
    | ok q =>
      obtain ⟨w', ev⟩ := q
      rw [hE] at e; simp only [Except.map] at e
      have ex : exec h (run h w0 ts) t = w' := by unfold exec; rw [e]
      rw [ex] at ih ⊢
      rw [← ih, ← story_step hh I ht ?_ hE x]
      · simp [publishedBy]
      · intro T s tok P am sp dl mi mf hk w2 hw2
        obtain ⟨c, k⟩ := t
        simp only at hk hw2
        subst hk
        obtain ⟨er, q⟩ := Trader.C81_trade_never_succeeds hh g hp ht
        rw [q] at hw2; cases hw2

/-- **C133** What a router or a trader has published, in every history of the whole protocol, is exactly what its stored setup
says: a router has named its admin once, when it was set up; a trader has told its admin, its pair and the token it pays out once,
when it was set up; nothing else has been published, and nothing before. -/
theorem C133_story (hh : HostOK h acct) (g : Genesis acct w0) {ts : List Tx} (hp : ∀ t ∈ ts, Possible acct t) (x : Addr) :
    publishedBy x (periLog h w0 ts) = routerStory ((run h w0 ts).hop x) ++ traderStory ((run h w0 ts).trd x) := by
  have := story_run hh g x ts [] (by simp) hp
  have e0 : story (run h w0 []) x = [] := by simp [story, run, g.hop, g.trd, routerStory, traderStory]
  rw [e0, List.nil_append] at this
  exact this

/-- **C133** No log ever shows a trade or a payment of a trader: who follows a trader by its events learns of none of the payments
its admin makes with `transfer`. -/
theorem C133_traders_tell_no_trade (hh : HostOK h acct) (g : Genesis acct w0) {ts : List Tx} (hp : ∀ t ∈ ts, Possible acct t)
    {e : Addr × Event} (he : e ∈ periLog h w0 ts) : e.2.name = "initialize" ∨ e.2.name = "Trader: Initialize" := by
  have hm : e.2 ∈ publishedBy e.1 (periLog h w0 ts) := List.mem_filterMap.mpr ⟨e, he, by simp⟩
  rw [C133_story hh g hp] at hm
  rcases List.mem_append.mp hm with q | q
  · left
    cases hq : (run h w0 ts).hop e.1 with
    | none => rw [hq] at q; simp [routerStory] at q
    | some m => rw [hq] at q; simp only [routerStory, List.mem_singleton] at q; rw [q]
  · right
    cases hq : (run h w0 ts).trd e.1 with
    | none => rw [hq] at q; simp [traderStory] at q
    | some m =>
      rw [hq] at q
      simp only [traderStory, List.mem_cons, List.not_mem_nil, or_false] at q
      rcases q with q | q | q <;> rw [q]

example : (∀ t ∈ Trader.exTs, Possible Example.acct t) ∧ Genesis Example.acct Example.start ∧ HostOK Example.host Example.acct :=
  ⟨Trader.ex_possible, Props.World.ex_genesis, Props.World.ex_host⟩

example : publishedBy 60 (periLog Example.host Example.start Trader.exTs) =
      [⟨"Trader: Initialize", "admin: ", .addr 2⟩, ⟨"Trader: Initialize", "pairs: ", .pair 20 21⟩, ⟨"Trader: Initialize", "PHO token: ", .addr 21⟩] ∧
    publishedBy (Example.host.hopAddr 50 8) (periLog Example.host Example.start Trader.exTs) =
      [⟨"initialize", "Multihop factory with admin: ", .addr 8⟩] := by
  decide +kernel

/-- If the trader's own signature is simulated, as the project's tests do, a trade goes through and is published. -/
example : (publishedBy 60 (periLog Example.host Example.start (Trader.exTs ++ [
      ⟨{ now := 10, seq := 20, signed := fun x => x == 2 || x == 60 }, .trade 60 2 20 Example.pool1 (some 500) none none none none⟩]))).drop 3 =
    [⟨"Trader: Trade Token", "user: ", .addr 2⟩, ⟨"Trader: Trade Token", "offer asset: ", .addr 20⟩,
     ⟨"Trader: Trade Token", "amount received: ", .int 997⟩] := by
  decide +kernel

end Phoenix.Props.EventsLog
