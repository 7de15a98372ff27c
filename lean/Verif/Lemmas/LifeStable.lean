import Verif.Spec.LifeStable
import Verif.Lemmas.Life
/-! The stable pool with lifetimes against the one without. -/
namespace Phoenix.Life.Stable
open Phoenix Phoenix.Store Phoenix.Life Phoenix.Life.Spec
open Phoenix.Store.Stable (kTotal kResA kResB kAdmin kInit kAmp kMaxPrec kPrec kConfig newShares sides swapReserves)

theorem r_getConfig : Reads getConfig Store.Stable.getConfig := reads_fetchInst_long _ _ _
theorem w_saveConfig (c) : Writes (saveConfig c) (fun σ => Store.Stable.saveConfig σ c) := writes_instLong _ _
theorem r_getMaxPrec : Reads getMaxPrec Store.Stable.getMaxPrec := reads_fetchInst_long _ _ _
theorem r_getPrec (t) : Reads (getPrec t) (fun σ => Store.Stable.getPrec σ t) := reads_fetchInst_long _ _ _
theorem w_savePrecs (L t1 t2) : Writes (savePrecs L t1 t2) (fun σ => Store.Stable.savePrecs σ L t1 t2) := fun _ => rfl
theorem r_getAmp : Reads getAmp Store.Stable.getAmp := reads_fetchInst_long _ _ _
theorem w_saveAmp (a) : Writes (saveAmp a) (fun σ => Store.Stable.saveAmp σ a) := writes_instLong _ _
theorem w_saveAdmin (a) : Writes (saveAdmin a) (fun σ => Store.Stable.saveAdmin σ a) := writes_instLong _ _
theorem w_saveTotal (x) : Writes (saveTotal x) (fun σ => Store.Stable.saveTotal σ x) := writes_inst _ _
theorem w_saveResA (x) : Writes (saveResA x) (fun σ => Store.Stable.saveResA σ x) := writes_inst _ _
theorem w_saveResB (x) : Writes (saveResB x) (fun σ => Store.Stable.saveResB σ x) := writes_inst _ _
theorem r_getAdmin : Reads getAdmin Store.Stable.getAdmin := reads_fetchInst_long _ _ _
theorem r_getTotal : Reads getTotal Store.Stable.getTotal := reads_fetchInst _ _ _
theorem r_getResA : Reads getResA Store.Stable.getResA := reads_fetchInst _ _ _
theorem r_getResB : Reads getResB Store.Stable.getResB := reads_fetchInst_long _ _ _
theorem r_isInit : Reads isInit Store.Stable.isInit := plain_fetchOr _ _ _ _
theorem w_setInit : Writes setInit Store.Stable.setInit := writes_keep _ _

theorem p_mint (me c L tok to_ x) (σ : Store) : plain (mintShares me c L tok to_ x) σ =
    Store.Stable.mintShares me c σ L tok to_ x >>= fun r => .ok (r.2, r.1) := by
  simp only [mintShares, Store.Stable.mintShares, plain_bind, r_getTotal _, plain_liftM, w_saveTotal _ _, plain_pure, bind_assoc]
  rfl

theorem p_burn (me c L tok x) (σ : Store) : plain (burnShares me c L tok x) σ =
    Store.Stable.burnShares me c σ L tok x >>= fun r => .ok (r.2, r.1) := by
  simp only [burnShares, Store.Stable.burnShares, plain_bind, r_getTotal _, plain_liftM, w_saveTotal _ _, plain_pure, bind_assoc]
  rfl

theorem r_computeSwap (now a b c d x rate) : Reads (computeSwap now a b c d x rate) (fun σ => Store.Stable.computeSwap now σ a b c d x rate) := by
  unfold computeSwap Store.Stable.computeSwap
  exact r_getAmp.andThen fun _ => (reads_lift _).andThen fun _ => r_getMaxPrec.andThen fun _ => (reads_lift _).andThen fun _ =>
    (reads_lift _).andThen fun _ => (reads_lift _).andThen fun _ => (reads_lift _).andThen fun _ => (reads_lift _).andThen fun _ =>
    (reads_lift _).andThen fun _ => (reads_lift _).andThen fun _ => (reads_lift _).andThen fun _ => (reads_lift _).andThen fun _ =>
    (reads_lift _).andThen fun _ => .done _

theorem r_quote (now cfg st sr bt br x) : Reads (quote now cfg st sr bt br x) (fun σ => Store.Stable.quote now σ cfg st sr bt br x) := by
  unfold quote Store.Stable.quote
  exact (reads_lift _).andThen fun _ => (r_getPrec _).andThen fun _ => (reads_lift _).andThen fun _ => (r_getPrec _).andThen fun _ =>
    (reads_lift _).andThen fun _ => (reads_lift _).andThen fun _ => r_computeSwap _ _ _ _ _ _ _

theorem w_putAdmin (a) : Writes (putAdmin a) (fun σ => Store.Stable.putAdmin σ a) := by
  cases a with
  | none => intro σ; rfl
  | some a => exact w_saveAdmin a

/-- without lifetimes, the program of a transaction is the transaction of Verif.Model.StoreStable -/
theorem plainStep_eq (me : Addr) (s : Store × Ledger) (t : Phoenix.Stable.Tx) : plainStep (contract me) s t = Store.Stable.step me s t := by
  obtain ⟨σ, L⟩ := s
  unfold plainStep contract
  simp only
  cases t with
  | token c tok op =>
    simp only [prog, Store.Stable.step, plain_lift, bind_assoc]
    rfl
  | pool c op =>
    cases op with
    | init i =>
      simp only [prog, Store.Stable.step, init, Store.Stable.init, plain_bind, r_isInit _, plain_liftM, w_setInit _, w_saveConfig _ _, w_saveAdmin _ _,
        w_savePrecs _ _ _ _, r_getMaxPrec _, w_saveAmp _ _, w_saveTotal _ _, w_saveResA _ _, w_saveResB _ _, plain_pure, bind_assoc]
      rfl
    | provide sender a b cu dl ms =>
      simp only [prog, Store.Stable.step, provide, Store.Stable.provide, plain_bind, plain_keepInst, r_getConfig _, r_getMaxPrec _, r_getResA _,
        r_getResB _, r_getAmp _, r_getTotal _, p_mint, w_saveResA _ _, w_saveResB _ _, plain_liftM, plain_pure, bind_assoc]
      rfl
    | swap sender offer amount mo ms dl mf =>
      simp only [prog, Store.Stable.step, swap, Store.Stable.swap, plain_bind, plain_keepInst, r_getConfig _, r_getResA _, r_getResB _,
        r_quote _ _ _ _ _ _ _ _, w_saveResA _ _, w_saveResB _ _, plain_liftM, plain_pure, bind_assoc]
      rfl
    | withdraw sender sh mA mB dl =>
      simp only [prog, Store.Stable.step, withdraw, Store.Stable.withdraw, plain_bind, plain_keepInst, r_getConfig _, r_getResA _, r_getResB _, r_getTotal _,
        p_burn, w_saveResA _ _, w_saveResB _ _, plain_liftM, plain_pure, bind_assoc]
      rfl
    | updateConfig sender u =>
      simp only [prog, Store.Stable.step, updateConfig, Store.Stable.updateConfig, plain_bind, plain_keepInst, r_getConfig _, r_getAdmin _, w_putAdmin _ _,
        w_saveConfig _ _, plain_liftM, plain_pure, bind_assoc]
      rfl

theorem u_getConfig : Uses getConfig [] := uses_fetchInst_long _ _ _
theorem u_saveConfig (c) : Uses (saveConfig c) [] := uses_instLong _ _
theorem u_getMaxPrec : Uses getMaxPrec [] := uses_fetchInst_long _ _ _
theorem u_getPrec (t) : Uses (getPrec t) [] := uses_fetchInst_long _ _ _
theorem u_savePrecs (L t1 t2) : Uses (savePrecs L t1 t2) [] := fun _ _ _ _ _ => Iff.rfl
theorem u_getAmp : Uses getAmp [] := uses_fetchInst_long _ _ _
theorem u_saveAmp (a) : Uses (saveAmp a) [] := uses_instLong _ _
theorem u_saveAdmin (a) : Uses (saveAdmin a) [] := uses_instLong _ _
theorem u_saveTotal (x) : Uses (saveTotal x) [] := uses_inst _ _
theorem u_saveResA (x) : Uses (saveResA x) [] := uses_inst _ _
theorem u_saveResB (x) : Uses (saveResB x) [] := uses_inst _ _
theorem u_getAdmin : Uses getAdmin [] := uses_fetchInst_long _ _ _
theorem u_getTotal : Uses getTotal [] := uses_fetchInst _ _ _
theorem u_getResA : Uses getResA [] := uses_fetchInst _ _ _
theorem u_getResB : Uses getResB [] := uses_fetchInst_long _ _ _
theorem u_isInit : Uses isInit [kInit] := Uses.fetchOr (.read _)
theorem u_setInit : Uses setInit [kInit] := Uses.save _ _
theorem u_putAdmin (a) : Uses (putAdmin a) [] := by
  cases a with
  | none => exact .pure _
  | some a => exact u_saveAdmin a

/-- walks through a program that touches nothing persistent -/
local macro "walk" : tactic => `(tactic| repeat' (first
  | exact Uses.pure _ | exact Uses.liftM _ | exact Uses.keepInst
  | exact u_getConfig | exact u_saveConfig _ | exact u_getMaxPrec | exact u_getPrec _ | exact u_savePrecs _ _ _ | exact u_getAmp | exact u_saveAmp _
  | exact u_saveAdmin _ | exact u_saveTotal _ | exact u_saveResA _ | exact u_saveResB _ | exact u_getAdmin | exact u_getTotal | exact u_getResA
  | exact u_getResB | exact u_putAdmin _ | refine Uses.skip ?_ (fun _ => ?_)))

theorem u_mint (me c L tok to_ x) : Uses (mintShares me c L tok to_ x) [] := by unfold mintShares; walk
theorem u_burn (me c L tok x) : Uses (burnShares me c L tok x) [] := by unfold burnShares; walk
theorem u_computeSwap (now a b c d x rate) : Uses (computeSwap now a b c d x rate) [] := by unfold computeSwap; walk
theorem u_quote (now cfg st sr bt br x) : Uses (quote now cfg st sr bt br x) [] := by
  unfold quote
  refine .skip (.liftM _) fun _ => .skip (u_getPrec _) fun _ => .skip (.liftM _) fun _ => .skip (u_getPrec _) fun _ => .skip (.liftM _) fun _ =>
    .skip (.liftM _) fun _ => u_computeSwap _ _ _ _ _ _ _
theorem u_provide (me c L s a b cu dl ms) : Uses (provide me c L s a b cu dl ms) [] := by
  unfold provide
  walk
theorem u_swap (me c L s o x mo ms dl mf) : Uses (swap me c L s o x mo ms dl mf) [] := by
  unfold swap
  walk
theorem u_withdraw (me c L s x a b dl) : Uses (withdraw me c L s x a b dl) [] := by
  unfold withdraw
  walk
theorem u_updateConfig (s u) : Uses (updateConfig s u) [] := by unfold updateConfig; walk

theorem quiet {me : Addr} {t : Phoenix.Stable.Tx} (L : Ledger) (ht : ∀ c i, t ≠ .pool c (.init i)) : Uses (prog me t L) [] := by
  cases t with
  | token c tok op => exact .lift _
  | pool c op =>
    cases op with
    | init i => exact absurd rfl (ht c i)
    | provide sender a b cu dl ms => exact u_provide _ _ _ _ _ _ _ _ _
    | swap sender offer amount mo ms dl mf => exact .skip (u_swap _ _ _ _ _ _ _ _ _ _) fun ⟨L', _⟩ => .pure L'
    | withdraw sender sh mA mB dl => exact .skip (u_withdraw _ _ _ _ _ _ _ _) fun ⟨L', _, _⟩ => .pure L'
    | updateConfig sender u => exact .skip (u_updateConfig _ _) fun _ => .pure _

theorem u_init (me c L i) : Uses (init me c L i) [kInit] := by
  refine Uses.congr (S := [kInit] ++ ([kInit] ++ [])) ?_ (fun k => by simp)
  unfold init
  refine u_isInit.bind fun _ => .skip (.liftM _) fun _ => .skip (.liftM _) fun _ => .skip (.liftM _) fun _ => .skip (.liftM _) fun _ =>
    .skip (.liftM _) fun _ => .skip (.liftM _) fun _ => .skip (.liftM _) fun _ => u_setInit.bind fun _ => ?_
  walk

/-- the entries a successful transaction touches -/
theorem touched_iff {me : Addr} {t : Phoenix.Stable.Tx} {L : Ledger} {σ : Store}
    {r : Ledger × Store} (h : plain (prog me t L) σ = .ok r) (k : Key) : k ∈ touched (prog me t L) σ ↔ k ∈ uses t := by
  by_cases ht : ∃ c i, t = .pool c (.init i)
  · obtain ⟨c, i, rfl⟩ := ht
    exact u_init _ _ _ _ _ _ _ h k
  · have ht' : ∀ c i, t ≠ .pool c (.init i) := fun c i e => ht ⟨c, i, e⟩
    have hu : uses t = [] := by
      unfold uses
      split
      · exact absurd rfl (ht' _ _)
      · rfl
    rw [hu]
    exact quiet L ht' _ _ _ h k

theorem keeps (me : Addr) (t : Phoenix.Stable.Tx) (L : Ledger) : Keeps (fun _ => False) (prog me t L) := by
  by_cases ht : ∃ c i, t = .pool c (.init i)
  · obtain ⟨c, i, rfl⟩ := ht
    show Keeps _ (init ..)
    unfold init
    refine Keeps.absorb (k := kInit) (.fetchOr' (.read (.inr rfl))) (fun _ => ?_) (fun _ => ?_)
    · refine (Keeps.liftM _).bind fun _ => (Keeps.liftM _).bind fun _ => (Keeps.liftM _).bind fun _ => (Keeps.liftM _).bind fun _ =>
        (Keeps.liftM _).bind fun _ => (Keeps.liftM _).bind fun _ => (Keeps.liftM _).bind fun _ => (keeps_save _ _).bind fun _ => .of_uses ?_
      walk
    · exact .right fun _ => .right fun _ => .right fun _ => .right fun _ => .right fun _ => .right fun _ => .right fun _ =>
        .left (.right fun _ => .keep _)
  · exact .of_uses (quiet L fun c i e => ht ⟨c, i, e⟩)

/-- every call of the pool leaves the instance twenty-nine days -/
theorem keepsInst (me : Addr) (t : Phoenix.Stable.Tx) (ht : callsOf t = true) (L : Ledger) : KeepsInstLong (prog me t L) := by
  cases t with
  | token c tok op => cases ht
  | pool c op =>
    cases op with
    | init i =>
      have h : KeepsInstLong (savePrecs L i.tokenA i.tokenB) := .right fun _ => KeepsInstLong.keepInstLong.left
      exact .right fun _ => .right fun _ => .right fun _ => .right fun _ => .right fun _ => .right fun _ => .right fun _ => .right fun _ =>
        .right fun _ => .right fun _ => h.left
    | provide sender a b cu dl ms =>
      exact .right fun _ => .right fun _ => .right fun _ => .right fun _ => .right fun _ => (long_fetchInst _ _ _).left
    | swap sender offer amount mo ms dl mf =>
      have h : KeepsInstLong (swap me c L sender offer amount mo ms dl mf) :=
        .right fun _ => .right fun _ => .right fun _ => .right fun _ => (long_fetchInst _ _ _).left
      exact h.left
    | withdraw sender sh mA mB dl =>
      have h : KeepsInstLong (withdraw me c L sender sh mA mB dl) :=
        .right fun _ => .right fun _ => .right fun _ => .right fun _ => .right fun _ => .right fun _ => (long_fetchInst _ _ _).left
      exact h.left
    | updateConfig sender u =>
      have h : KeepsInstLong (updateConfig sender u) := (long_fetchInst _ _ _).left
      exact h.left

end Phoenix.Life.Stable
