import Verif.Spec.LifePool
import Verif.Lemmas.Life
/-! The pool with lifetimes against the one without. -/
namespace Phoenix.Life.Pool
open Phoenix Phoenix.Store Phoenix.Life Phoenix.Life.Spec
open Phoenix.Store.Pool (kTotal kResA kResB kAdmin kInit kConfig kSlippage)

theorem w_saveSlippage (x) : Writes (saveSlippage x) (fun σ => Store.Pool.saveSlippage σ x) := writes_keep _ _
theorem r_getSlippage : Reads getSlippage Store.Pool.getSlippage := reads_fetch_keep _ _ _
theorem r_getConfig : Reads getConfig Store.Pool.getConfig := reads_fetch_keep _ _ _
theorem w_saveConfig (c) : Writes (saveConfig c) (fun σ => Store.Pool.saveConfig σ c) := writes_keep _ _
theorem w_saveAdmin (a) : Writes (saveAdmin a) (fun σ => Store.Pool.saveAdmin σ a) := writes_keep _ _
theorem w_saveTotal (x) : Writes (saveTotal x) (fun σ => Store.Pool.saveTotal σ x) := writes_keep _ _
theorem w_saveResA (x) : Writes (saveResA x) (fun σ => Store.Pool.saveResA σ x) := writes_keep _ _
theorem w_saveResB (x) : Writes (saveResB x) (fun σ => Store.Pool.saveResB σ x) := writes_keep _ _
theorem r_getAdmin : Reads getAdmin Store.Pool.getAdmin := reads_fetch_keep _ _ _
theorem r_getTotal : Reads getTotal Store.Pool.getTotal := reads_fetch_keep _ _ _
theorem r_getResA : Reads getResA Store.Pool.getResA := reads_fetch_keep _ _ _
theorem r_getResB : Reads getResB Store.Pool.getResB := reads_fetch_keep _ _ _
theorem r_isInit : Reads isInit Store.Pool.isInit := plain_fetchOr _ _ _ _
theorem w_setInit : Writes setInit Store.Pool.setInit := writes_keep _ _

theorem p_mint (me c L tok to_ x) (σ : Store) : plain (mintShares me c L tok to_ x) σ =
    Store.Pool.mintShares me c σ L tok to_ x >>= fun r => .ok (r.2, r.1) := by
  simp only [mintShares, Store.Pool.mintShares, plain_bind, r_getTotal _, plain_liftM, w_saveTotal _ _, plain_pure, bind_assoc]
  rfl

theorem p_burn (me c L tok x) (σ : Store) : plain (burnShares me c L tok x) σ =
    Store.Pool.burnShares me c σ L tok x >>= fun r => .ok (r.2, r.1) := by
  simp only [burnShares, Store.Pool.burnShares, plain_bind, r_getTotal _, plain_liftM, w_saveTotal _ _, plain_pure, bind_assoc]
  rfl

theorem r_choose (resA resB dA mA dB mB cu) : Reads (chooseAmounts resA resB dA mA dB mB cu)
    (fun σ => Store.Pool.chooseAmounts σ resA resB dA mA dB mB cu) := by
  intro σ
  cases dA with
  | none => rfl
  | some a =>
    cases dB with
    | none => rfl
    | some b =>
      simp only [chooseAmounts, Store.Pool.chooseAmounts]
      split
      · simp only [plain_bind, r_getSlippage _, plain_liftM, bind_assoc]
        rfl
      · rfl

theorem p_newShares (me c L tok aA aB bA bB rA rB tot) (σ : Store) : plain (newShares me c L tok aA aB bA bB rA rB tot) σ =
    Store.Pool.newShares me c σ L tok aA aB bA bB rA rB tot >>= fun r => .ok ((r.1, r.2.2), r.2.1) := by
  simp only [newShares, Store.Pool.newShares]
  split
  · simp only [plain_bind, plain_liftM, plain_pure, bind_assoc]
    rfl
  · simp only [plain_bind, plain_liftM, p_mint, plain_pure, bind_assoc]
    rfl

theorem w_putAdmin (a) : Writes (putAdmin a) (fun σ => Store.Pool.putAdmin σ a) := by
  cases a with
  | none => intro σ; rfl
  | some a => exact w_saveAdmin a

/-- without lifetimes, the program of a transaction is the transaction of Verif.Model.StorePool -/
theorem plainStep_eq (me : Addr) (s : Store × Ledger) (t : Phoenix.Pool.Tx) : plainStep (contract me) s t = Store.Pool.step me s t := by
  obtain ⟨σ, L⟩ := s
  unfold plainStep contract
  simp only
  cases t with
  | token c tok op =>
    simp only [prog, Store.Pool.step, plain_lift, bind_assoc]
    rfl
  | pool c op =>
    cases op with
    | init i =>
      simp only [prog, Store.Pool.step, init, Store.Pool.init, plain_bind, r_isInit _, plain_liftM, w_setInit _, w_saveConfig _ _, w_saveAdmin _ _,
        w_saveSlippage _ _, w_saveTotal _ _, w_saveResA _ _, w_saveResB _ _, plain_pure, bind_assoc]
      rfl
    | provide sender dA mA dB mB cu dl =>
      simp only [prog, Store.Pool.step, provide, Store.Pool.provide, plain_bind, plain_keepInst, r_getConfig _, r_getResA _, r_getResB _, r_getTotal _,
        r_choose _ _ _ _ _ _ _ _, p_newShares, p_mint, w_saveResA _ _, w_saveResB _ _, plain_liftM, plain_pure, bind_assoc]
      rfl
    | swap sender offer amount mo ms dl mf =>
      simp only [prog, Store.Pool.step, swap, Store.Pool.swap, plain_bind, plain_keepInst, r_getConfig _, r_getResA _, r_getResB _,
        w_saveResA _ _, w_saveResB _ _, plain_liftM, plain_pure, bind_assoc]
      rfl
    | withdraw sender sh mA mB dl =>
      simp only [prog, Store.Pool.step, withdraw, Store.Pool.withdraw, plain_bind, plain_keepInst, r_getConfig _, r_getResA _, r_getResB _, r_getTotal _,
        p_burn, w_saveResA _ _, w_saveResB _ _, plain_liftM, plain_pure, bind_assoc]
      rfl
    | updateConfig u =>
      simp only [prog, Store.Pool.step, updateConfig, Store.Pool.updateConfig, plain_bind, plain_keepInst, r_getConfig _, r_getAdmin _, w_putAdmin _ _,
        w_saveConfig _ _, plain_liftM, plain_pure, bind_assoc]
      rfl
    | upgrade x =>
      simp only [prog, Store.Pool.step, upgrade, Store.Pool.upgrade, plain_bind, r_getAdmin _, w_saveSlippage _ _, plain_liftM, plain_pure, bind_assoc]
      rfl


theorem u_saveSlippage (x) : Uses (saveSlippage x) [kSlippage] := Uses.save _ _
theorem u_getSlippage : Uses getSlippage [kSlippage] := Uses.get _ _ _
theorem u_getConfig : Uses getConfig [kConfig] := Uses.get _ _ _
theorem u_saveConfig (c) : Uses (saveConfig c) [kConfig] := Uses.save _ _
theorem u_saveAdmin (a) : Uses (saveAdmin a) [kAdmin] := Uses.save _ _
theorem u_saveTotal (x) : Uses (saveTotal x) [kTotal] := Uses.save _ _
theorem u_saveResA (x) : Uses (saveResA x) [kResA] := Uses.save _ _
theorem u_saveResB (x) : Uses (saveResB x) [kResB] := Uses.save _ _
theorem u_getAdmin : Uses getAdmin [kAdmin] := Uses.get _ _ _
theorem u_getTotal : Uses getTotal [kTotal] := Uses.get _ _ _
theorem u_getResA : Uses getResA [kResA] := Uses.get _ _ _
theorem u_getResB : Uses getResB [kResB] := Uses.get _ _ _
theorem u_isInit : Uses isInit [kInit] := Uses.fetchOr (.read _)
theorem u_setInit : Uses setInit [kInit] := Uses.save _ _

/-- walks through a program -/
macro "walk" : tactic => `(tactic| repeat' (first
  | exact Uses.pure _ | exact Uses.liftM _ | exact Uses.keepInst
  | exact u_saveSlippage _ | exact u_getSlippage | exact u_getConfig | exact u_saveConfig _ | exact u_saveAdmin _ | exact u_saveTotal _
  | exact u_saveResA _ | exact u_saveResB _ | exact u_getAdmin | exact u_getTotal | exact u_getResA | exact u_getResB | exact u_isInit | exact u_setInit
  | refine Uses.skip (Uses.liftM _) (fun _ => ?_) | refine Uses.skip Uses.keepInst (fun _ => ?_) | refine Uses.bind ?_ (fun _ => ?_)))

theorem u_mint (me c L tok to_ x) : Uses (mintShares me c L tok to_ x) [kTotal] := by
  refine Uses.congr (S := [kTotal] ++ ([kTotal] ++ [])) ?_ (fun k => by simp)
  walk
theorem u_burn (me c L tok x) : Uses (burnShares me c L tok x) [kTotal] := by
  refine Uses.congr (S := [kTotal] ++ ([kTotal] ++ [])) ?_ (fun k => by simp)
  walk
theorem u_choose (resA resB dA mA dB mB cu) : Uses (chooseAmounts resA resB dA mA dB mB cu) [kSlippage] := by
  cases dA with
  | none => exact .fail _ _
  | some a =>
    cases dB with
    | none => exact .fail _ _
    | some b =>
      simp only [chooseAmounts]
      split
      · refine Uses.congr (S := [kSlippage] ++ []) ?_ (fun k => by simp)
        walk
      · exact .fail _ _

/-- a call that uses some more of entries used anyway -/
theorem u_newShares_bind {β : Type} (me c L tok aA aB bA bB rA rB tot) {f : Int × Ledger → Prog β} {S : List Key} (hk : kTotal ∈ S)
    (hf : ∀ a, Uses (f a) S) : Uses (newShares me c L tok aA aB bA bB rA rB tot >>= f) S := by
  unfold newShares
  split
  · refine Uses.skip ?_ hf
    walk
  · refine Uses.congr (S := ([kTotal] ++ []) ++ S) ?_ (fun k => by simp; intro h; exact h ▸ hk)
    refine Uses.bind ?_ hf
    refine Uses.skip (Uses.liftM _) fun _ => Uses.skip (Uses.liftM _) fun _ => Uses.skip (Uses.liftM _) fun _ => ?_
    refine (u_mint _ _ _ _ _ _).bind fun _ => ?_
    walk


theorem u_provide (me c L sender dA mA dB mB cu dl) : Uses (provide me c L sender dA mA dB mB cu dl)
    ([kConfig] ++ ([kResA] ++ ([kResB] ++ ([kSlippage] ++ ([kResA] ++ ([kResB] ++ ([kTotal] ++ ([kTotal] ++ ([kResA] ++ ([kResB] ++ [])))))))))) := by
  unfold provide
  refine Uses.skip (Uses.liftM _) fun _ => Uses.skip (Uses.liftM _) fun _ => Uses.skip (Uses.liftM _) fun _ => Uses.skip (Uses.liftM _) fun _ =>
    Uses.skip (Uses.liftM _) fun _ => Uses.skip (Uses.liftM _) fun _ => Uses.keepInst.skip fun _ => u_getConfig.bind fun _ => u_getResA.bind fun _ =>
    u_getResB.bind fun _ => Uses.skip (Uses.liftM _) fun _ => (u_choose _ _ _ _ _ _ _).bind fun ⟨a, b⟩ => ?_
  refine Uses.skip (Uses.liftM _) fun _ => Uses.skip (Uses.liftM _) fun _ => Uses.skip (Uses.liftM _) fun _ => Uses.skip (Uses.liftM _) fun _ =>
    u_getResA.bind fun _ => u_getResB.bind fun _ => u_getTotal.bind fun _ => u_newShares_bind _ _ _ _ _ _ _ _ _ _ _ (by simp) fun ⟨a, b⟩ => ?_
  exact Uses.skip (Uses.liftM _) fun _ => (u_mint _ _ _ _ _ _).bind fun _ => (u_saveResA _).bind fun _ => (u_saveResB _).bind fun _ => .pure _

theorem u_swap (me c L sender offer amount mo ms dl mf) : Uses (swap me c L sender offer amount mo ms dl mf)
    ([kConfig] ++ ([kResA] ++ ([kResB] ++ ([kResA] ++ ([kResB] ++ []))))) := by
  unfold swap
  refine Uses.skip (Uses.liftM _) fun _ => Uses.skip (Uses.liftM _) fun _ => Uses.skip (Uses.liftM _) fun _ => Uses.keepInst.skip fun _ =>
    u_getConfig.bind fun _ => Uses.skip (Uses.liftM _) fun _ => Uses.skip (Uses.liftM _) fun _ => Uses.skip (Uses.liftM _) fun _ =>
    u_getResA.bind fun _ => u_getResB.bind fun _ => Uses.skip (Uses.liftM _) fun ⟨a, b⟩ => ?_
  refine Uses.skip (Uses.liftM _) fun _ => Uses.skip (Uses.liftM _) fun _ => Uses.skip (Uses.liftM _) fun _ => Uses.skip (Uses.liftM _) fun _ =>
    Uses.skip (Uses.liftM _) fun _ => Uses.skip (Uses.liftM _) fun _ => Uses.skip (Uses.liftM _) fun _ => Uses.skip (Uses.liftM _) fun _ =>
    Uses.skip (Uses.liftM _) fun _ => Uses.skip (Uses.liftM _) fun _ => Uses.skip (Uses.liftM _) fun ⟨a, b⟩ => ?_
  exact (u_saveResA _).bind fun _ => (u_saveResB _).bind fun _ => .pure _

theorem u_withdraw (me c L sender sh mA mB dl) : Uses (withdraw me c L sender sh mA mB dl)
    ([kConfig] ++ ([kResA] ++ ([kResB] ++ ([kTotal] ++ ([kTotal] ++ ([kResA] ++ ([kResB] ++ []))))))) := by
  unfold withdraw
  exact Uses.skip (Uses.liftM _) fun _ => Uses.skip (Uses.liftM _) fun _ => Uses.skip (Uses.liftM _) fun _ => Uses.skip (Uses.liftM _) fun _ =>
    Uses.skip (Uses.liftM _) fun _ => Uses.keepInst.skip fun _ => u_getConfig.bind fun _ => Uses.skip (Uses.liftM _) fun _ => u_getResA.bind fun _ =>
    u_getResB.bind fun _ => u_getTotal.bind fun _ => Uses.skip (Uses.liftM _) fun _ => Uses.skip (Uses.liftM _) fun _ => Uses.skip (Uses.liftM _) fun _ =>
    Uses.skip (Uses.liftM _) fun _ => Uses.skip (Uses.liftM _) fun _ => (u_burn _ _ _ _ _).bind fun _ => Uses.skip (Uses.liftM _) fun _ =>
    Uses.skip (Uses.liftM _) fun _ => Uses.skip (Uses.liftM _) fun _ => (u_saveResA _).bind fun _ => Uses.skip (Uses.liftM _) fun _ =>
    (u_saveResB _).bind fun _ => .pure _

theorem u_update (c u) : Uses (updateConfig c u) [kAdmin, kConfig] := by
  have key : ∀ {p : Prog Unit} {S}, Uses p S → putAdmin u.newAdmin = p → Uses (updateConfig c u) ([kAdmin] ++ ([kConfig] ++ (S ++ [kConfig]))) := by
    intro p S hp he
    unfold updateConfig
    rw [he]
    exact u_getAdmin.bind fun _ => Uses.skip (Uses.liftM _) fun _ => Uses.keepInst.skip fun _ => u_getConfig.bind fun _ => hp.bind fun _ =>
      Uses.skip (Uses.liftM _) fun _ => Uses.skip (Uses.liftM _) fun _ => Uses.skip (Uses.liftM _) fun _ => Uses.skip (Uses.liftM _) fun _ => u_saveConfig _
  cases hu : u.newAdmin with
  | none => exact (key (Uses.pure ()) (by rw [hu]; rfl)).congr (fun k => by simp)
  | some a => exact (key (u_saveAdmin a) (by rw [hu]; rfl)).congr (fun k => by simp; tauto)

/-- exactly the entries of the specification -/
theorem touched_iff {me : Addr} {t : Phoenix.Pool.Tx} {L : Ledger} {σ : Store}
    {r : Ledger × Store} (h : plain (prog me t L) σ = .ok r) (k : Key) : k ∈ touched (prog me t L) σ ↔ k ∈ uses t := by
  cases t with
  | token c tok op => exact Uses.lift _ _ _ _ h k
  | pool c op =>
    cases op with
    | init i =>
      refine Uses.congr (S := [kInit] ++ ([kInit] ++ ([kConfig] ++ ([kSlippage] ++ ([kAdmin] ++ ([kTotal] ++ ([kResA] ++ ([kResB] ++ [])))))))) ?_
        (fun k => by simp [uses, kConfig, kAdmin, kTotal, kInit, kSlippage, kResA, kResB]) _ _ _ h k
      exact u_isInit.bind fun _ => Uses.skip (Uses.liftM _) fun _ => Uses.skip (Uses.liftM _) fun _ => Uses.skip (Uses.liftM _) fun _ => Uses.skip (Uses.liftM _) fun _ =>
        Uses.skip (Uses.liftM _) fun _ => Uses.skip (Uses.liftM _) fun _ => Uses.skip (Uses.liftM _) fun _ => Uses.skip (Uses.liftM _) fun _ => u_setInit.bind fun _ =>
        Uses.skip (Uses.liftM _) fun _ => Uses.skip (Uses.liftM _) fun _ => Uses.skip (Uses.liftM _) fun _ => Uses.skip (Uses.liftM _) fun _ => Uses.skip (Uses.liftM _) fun _ =>
        (u_saveConfig _).bind fun _ => (u_saveSlippage _).bind fun _ => (u_saveAdmin _).bind fun _ => (u_saveTotal _).bind fun _ => (u_saveResA _).bind fun _ =>
        (u_saveResB _).bind fun _ => .pure _
    | provide sender dA mA dB mB cu dl =>
      exact (u_provide _ _ _ _ _ _ _ _ _ _).congr (fun k => by simp [uses, kConfig, kTotal, kSlippage, kResA, kResB]; tauto) _ _ _ h k
    | swap sender offer amount mo ms dl mf =>
      refine Uses.congr (Uses.bind (S' := []) (u_swap _ _ _ _ _ _ _ _ _ _) fun ⟨L', _⟩ => Uses.pure L') (fun k => ?_) _ _ _ h k
      simp [uses, kConfig, kResA, kResB]; tauto
    | withdraw sender sh mA mB dl =>
      refine Uses.congr (Uses.bind (S' := []) (u_withdraw _ _ _ _ _ _ _ _) fun ⟨L', _, _⟩ => Uses.pure L') (fun k => ?_) _ _ _ h k
      simp [uses, kConfig, kResA, kResB, kTotal]; tauto
    | updateConfig u =>
      exact ((u_update c u).bind fun _ => .pure _).congr (fun k => by simp [uses, kConfig, kAdmin]) _ _ _ h k
    | upgrade x =>
      have hi : Uses (upgrade c x) ([kAdmin] ++ [kSlippage]) := u_getAdmin.bind fun _ => Uses.skip (Uses.liftM _) fun _ => u_saveSlippage _
      exact (hi.bind fun _ => .pure _).congr (fun k => by simp [uses, kSlippage, kAdmin]) _ _ _ h k

theorem k_saveSlippage {X} (x) : Keeps X (saveSlippage x) := keeps_save _ _
theorem k_getSlippage {X} : Keeps X getSlippage := keeps_get _ _ _
theorem k_getConfig {X} : Keeps X getConfig := keeps_get _ _ _
theorem k_saveConfig {X} (c) : Keeps X (saveConfig c) := keeps_save _ _
theorem k_saveAdmin {X} (a) : Keeps X (saveAdmin a) := keeps_save _ _
theorem k_saveTotal {X} (x) : Keeps X (saveTotal x) := keeps_save _ _
theorem k_saveResA {X} (x) : Keeps X (saveResA x) := keeps_save _ _
theorem k_saveResB {X} (x) : Keeps X (saveResB x) := keeps_save _ _
theorem k_getAdmin {X} : Keeps X getAdmin := keeps_get _ _ _
theorem k_getTotal {X} : Keeps X getTotal := keeps_get _ _ _
theorem k_getResA {X} : Keeps X getResA := keeps_get _ _ _
theorem k_getResB {X} : Keeps X getResB := keeps_get _ _ _
theorem k_setInit {X} : Keeps X setInit := keeps_save _ _

theorem k_mint {X} (me c L tok to_ x) : Keeps X (mintShares me c L tok to_ x) :=
  k_getTotal.bind fun _ => (Keeps.liftM _).bind fun _ => (Keeps.liftM _).bind fun _ => (k_saveTotal _).bind fun _ => .pure _
theorem k_burn {X} (me c L tok x) : Keeps X (burnShares me c L tok x) :=
  k_getTotal.bind fun _ => (Keeps.liftM _).bind fun _ => (Keeps.liftM _).bind fun _ => (k_saveTotal _).bind fun _ => .pure _
theorem k_choose {X} (resA resB dA mA dB mB cu) : Keeps X (chooseAmounts resA resB dA mA dB mB cu) := by
  cases dA with
  | none => exact .fail _
  | some a =>
    cases dB with
    | none => exact .fail _
    | some b =>
      simp only [chooseAmounts]
      split
      · exact k_getSlippage.bind fun _ => (Keeps.liftM _).bind fun _ => .liftM _
      · exact .fail _
theorem k_newShares {X} (me c L tok aA aB bA bB rA rB tot) : Keeps X (newShares me c L tok aA aB bA bB rA rB tot) := by
  unfold newShares
  split
  · exact (Keeps.liftM _).bind fun _ => (Keeps.liftM _).bind fun _ => (Keeps.liftM _).bind fun _ => (Keeps.liftM _).bind fun _ => .pure _
  · exact (Keeps.liftM _).bind fun _ => (Keeps.liftM _).bind fun _ => (Keeps.liftM _).bind fun _ => (k_mint _ _ _ _ _ _).bind fun _ => (Keeps.liftM _).bind fun _ => .pure _
theorem k_putAdmin {X} (a) : Keeps X (putAdmin a) := by
  cases a with
  | none => exact .pure _
  | some a => exact k_saveAdmin a

/-- every call keeps everything it touches -/
theorem keeps (me : Addr) (t : Phoenix.Pool.Tx) (L : Ledger) : Keeps (fun _ => False) (prog me t L) := by
  cases t with
  | token c tok op => exact .lift _
  | pool c op =>
    cases op with
    | init i =>
      refine Keeps.absorb (k := kInit) (.fetchOr' (.read (.inr rfl))) (fun b => ?_) (fun b => ?_)
      · exact (Keeps.liftM _).bind fun _ => (Keeps.liftM _).bind fun _ => (Keeps.liftM _).bind fun _ => (Keeps.liftM _).bind fun _ =>
          (Keeps.liftM _).bind fun _ => (Keeps.liftM _).bind fun _ => (Keeps.liftM _).bind fun _ => (Keeps.liftM _).bind fun _ => k_setInit.bind fun _ =>
          (Keeps.liftM _).bind fun _ => (Keeps.liftM _).bind fun _ => (Keeps.liftM _).bind fun _ => (Keeps.liftM _).bind fun _ => (Keeps.liftM _).bind fun _ =>
          (k_saveConfig _).bind fun _ => (k_saveSlippage _).bind fun _ => (k_saveAdmin _).bind fun _ => (k_saveTotal _).bind fun _ => (k_saveResA _).bind fun _ =>
          (k_saveResB _).bind fun _ => .pure _
      · exact .right fun _ => .right fun _ => .right fun _ => .right fun _ => .right fun _ => .right fun _ => .right fun _ => .right fun _ =>
          .left (.right fun _ => .keep _)
    | provide sender dA mA dB mB cu dl =>
      show Keeps _ (provide ..)
      unfold provide
      refine (Keeps.liftM _).bind fun _ => (Keeps.liftM _).bind fun _ => (Keeps.liftM _).bind fun _ => (Keeps.liftM _).bind fun _ =>
        (Keeps.liftM _).bind fun _ => (Keeps.liftM _).bind fun _ => Keeps.keepInst.bind fun _ => k_getConfig.bind fun _ => k_getResA.bind fun _ =>
        k_getResB.bind fun _ => (Keeps.liftM _).bind fun _ => (k_choose _ _ _ _ _ _ _).bind fun ⟨a, b⟩ => ?_
      refine (Keeps.liftM _).bind fun _ => (Keeps.liftM _).bind fun _ => (Keeps.liftM _).bind fun _ => (Keeps.liftM _).bind fun _ =>
        k_getResA.bind fun _ => k_getResB.bind fun _ => k_getTotal.bind fun _ => (k_newShares _ _ _ _ _ _ _ _ _ _ _).bind fun ⟨a, b⟩ => ?_
      exact (Keeps.liftM _).bind fun _ => (k_mint _ _ _ _ _ _).bind fun _ => (k_saveResA _).bind fun _ => (k_saveResB _).bind fun _ => .pure _
    | swap sender offer amount mo ms dl mf =>
      refine Keeps.bind ?_ (fun ⟨_, _⟩ => .pure _)
      unfold swap
      refine (Keeps.liftM _).bind fun _ => (Keeps.liftM _).bind fun _ => (Keeps.liftM _).bind fun _ => Keeps.keepInst.bind fun _ =>
        k_getConfig.bind fun _ => (Keeps.liftM _).bind fun _ => (Keeps.liftM _).bind fun _ => (Keeps.liftM _).bind fun _ =>
        k_getResA.bind fun _ => k_getResB.bind fun _ => (Keeps.liftM _).bind fun ⟨a, b⟩ => ?_
      refine (Keeps.liftM _).bind fun _ => (Keeps.liftM _).bind fun _ => (Keeps.liftM _).bind fun _ => (Keeps.liftM _).bind fun _ =>
        (Keeps.liftM _).bind fun _ => (Keeps.liftM _).bind fun _ => (Keeps.liftM _).bind fun _ => (Keeps.liftM _).bind fun _ =>
        (Keeps.liftM _).bind fun _ => (Keeps.liftM _).bind fun _ => (Keeps.liftM _).bind fun ⟨a, b⟩ => ?_
      exact (k_saveResA _).bind fun _ => (k_saveResB _).bind fun _ => .pure _
    | withdraw sender sh mA mB dl =>
      refine Keeps.bind ?_ (fun ⟨_, _, _⟩ => .pure _)
      unfold withdraw
      exact (Keeps.liftM _).bind fun _ => (Keeps.liftM _).bind fun _ => (Keeps.liftM _).bind fun _ => (Keeps.liftM _).bind fun _ =>
        (Keeps.liftM _).bind fun _ => Keeps.keepInst.bind fun _ => k_getConfig.bind fun _ => (Keeps.liftM _).bind fun _ => k_getResA.bind fun _ =>
        k_getResB.bind fun _ => k_getTotal.bind fun _ => (Keeps.liftM _).bind fun _ => (Keeps.liftM _).bind fun _ => (Keeps.liftM _).bind fun _ =>
        (Keeps.liftM _).bind fun _ => (Keeps.liftM _).bind fun _ => (k_burn _ _ _ _ _).bind fun _ => (Keeps.liftM _).bind fun _ =>
        (Keeps.liftM _).bind fun _ => (Keeps.liftM _).bind fun _ => (k_saveResA _).bind fun _ => (Keeps.liftM _).bind fun _ =>
        (k_saveResB _).bind fun _ => .pure _
    | updateConfig u =>
      refine Keeps.bind ?_ (fun _ => .pure _)
      exact k_getAdmin.bind fun _ => (Keeps.liftM _).bind fun _ => Keeps.keepInst.bind fun _ => k_getConfig.bind fun _ => (k_putAdmin _).bind fun _ =>
        (Keeps.liftM _).bind fun _ => (Keeps.liftM _).bind fun _ => (Keeps.liftM _).bind fun _ => (Keeps.liftM _).bind fun _ => k_saveConfig _
    | upgrade x =>
      refine Keeps.bind ?_ (fun _ => .pure _)
      exact k_getAdmin.bind fun _ => (Keeps.liftM _).bind fun _ => k_saveSlippage _

/-- the calls of the specification keep the instance -/
theorem keepsInst (me : Addr) (t : Phoenix.Pool.Tx) (ht : extendsInst t = true) (L : Ledger) : KeepsInst (prog me t L) := by
  cases t with
  | token c tok op => cases ht
  | pool c op =>
    cases op with
    | init i => cases ht
    | provide sender dA mA dB mB cu dl =>
      exact .right fun _ => .right fun _ => .right fun _ => .right fun _ => .right fun _ => .right fun _ => KeepsInst.keepInst.left
    | swap sender offer amount mo ms dl mf =>
      have h : KeepsInst (swap me c L sender offer amount mo ms dl mf) := .right fun _ => .right fun _ => .right fun _ => KeepsInst.keepInst.left
      exact h.left
    | withdraw sender sh mA mB dl =>
      have h : KeepsInst (withdraw me c L sender sh mA mB dl) := .right fun _ => .right fun _ => .right fun _ => .right fun _ => .right fun _ => KeepsInst.keepInst.left
      exact h.left
    | updateConfig u =>
      have h : KeepsInst (updateConfig c u) := .right fun _ => .right fun _ => KeepsInst.keepInst.left
      exact h.left
    | upgrade x => cases ht

end Phoenix.Life.Pool
