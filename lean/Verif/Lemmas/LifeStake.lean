import Verif.Spec.LifeStake
import Verif.Lemmas.Life
/-! The stake contract with lifetimes against the one without. -/
namespace Phoenix.Life
open Phoenix Phoenix.Store Phoenix.Life.Spec

namespace Stake
open Phoenix.Store.Stake (kConfig kAdmin kTotal kDists kInit kUser kReward kHist)

theorem r_getConfig : Reads getConfig Store.Stake.getConfig := reads_fetch_keep _ _ _
theorem w_saveConfig (c) : Writes (saveConfig c) (fun σ => Store.Stake.saveConfig σ c) := writes_keep _ _
theorem r_getStakes (a) : Reads (getStakes a) (fun σ => Store.Stake.getStakes σ a) := reads_fetchOr_keep _ _ _
theorem w_saveStakes (a b) : Writes (saveStakes a b) (fun σ => Store.Stake.saveStakes σ a b) := writes_keep _ _
theorem r_isInit : Reads isInit Store.Stake.isInit := plain_fetchOr _ _ _ _
theorem w_setInit : Writes setInit Store.Stake.setInit := fun _ => rfl
theorem w_saveAdmin (a) : Writes (saveAdmin a) (fun σ => Store.Stake.saveAdmin σ a) := writes_keep _ _
theorem w_saveTotal (x) : Writes (saveTotal x) (fun σ => Store.Stake.saveTotal σ x) := writes_keep _ _
theorem r_getTotal : Reads getTotal Store.Stake.getTotal := reads_fetch_keep _ _ _
theorem r_getDists : Reads getDists Store.Stake.getDists := reads_fetchOr_keep _ _ _
theorem w_saveReward (a m) : Writes (saveReward a m) (fun σ => Store.Stake.saveReward σ a m) := writes_keep _ _
theorem r_getReward (a) : Reads (getReward a) (fun σ => Store.Stake.getReward σ a) := reads_fetch_keep _ _ _
theorem w_saveHist (m) : Writes (saveHist m) (fun σ => Store.Stake.saveHist σ m) := writes_keep _ _
theorem r_getHist : Reads getHist Store.Stake.getHist := reads_fetch_keep _ _ _

theorem p_increase (x : Int) (σ : Store) : plain (increaseTotal x) σ = Store.Stake.increaseTotal σ x >>= fun σ => .ok ((), σ) := by
  unfold increaseTotal Store.Stake.increaseTotal
  rw [r_getTotal.bind, bind_assoc]
  refine bind_congr fun t => ?_
  rw [(reads_lift _).bind, bind_assoc]
  refine bind_congr fun t => ?_
  rw [w_saveTotal]; rfl

theorem p_decrease (x : Int) (σ : Store) : plain (decreaseTotal x) σ = Store.Stake.decreaseTotal σ x >>= fun σ => .ok ((), σ) := by
  unfold decreaseTotal Store.Stake.decreaseTotal
  rw [r_getTotal.bind, bind_assoc]
  refine bind_congr fun t => ?_
  rw [(reads_lift _).bind, bind_assoc]
  refine bind_congr fun t => ?_
  rw [w_saveTotal]; rfl

theorem p_addDist (a : Addr) (σ : Store) : plain (addDist a) σ = Store.Stake.addDist σ a >>= fun σ => .ok ((), σ) := by
  unfold addDist Store.Stake.addDist
  rw [r_getDists.bind, bind_assoc]
  refine bind_congr fun t => ?_
  rw [(reads_lift _).bind, bind_assoc]
  refine bind_congr fun _ => ?_
  rw [writes_keep]; rfl

theorem r_pending (c : Ctx) (tok : Addr) (i : Bonding) : Reads (pending c tok i) (fun σ => Store.Stake.pending c σ tok i) := by
  intro σ
  unfold pending Store.Stake.pending
  rw [(r_getReward tok).bind, bind_assoc]
  refine bind_congr fun t => ?_
  rw [r_getHist.bind, bind_assoc]
  refine bind_congr fun _ => ?_
  exact plain_liftM _ _

theorem r_payLoop (me : Addr) (c : Ctx) (sender : Addr) (i : Bonding) (l : List Addr) (L : Ledger) :
    Reads (payLoop me c sender i l L) (fun σ => Store.Stake.payLoop me c σ sender i l L) := by
  intro σ
  induction l generalizing L with
  | nil => rfl
  | cons a l ih =>
    unfold payLoop Store.Stake.payLoop
    rw [(r_pending c a i).bind, bind_assoc]
    refine bind_congr fun p => ?_
    rw [(reads_lift _).bind, bind_assoc]
    refine bind_congr fun L' => ?_
    exact ih L'

/-- without lifetimes, the program of a transaction is the transaction of Verif.Model.StoreStake -/
theorem plainStep_eq (me : Addr) (s : Store × Ledger) (t : Phoenix.Stake.Tx) : plainStep (contract me) s t = Store.Stake.step me s t := by
  obtain ⟨σ, L⟩ := s
  unfold plainStep contract
  simp only
  cases t with
  | token c tok op =>
    simp only [prog, Store.Stake.step, plain_lift, bind_assoc]
    rfl
  | stake c op =>
    cases op with
    | init a lp mb mr m o mc =>
      simp only [prog, Store.Stake.step, init, Store.Stake.init, plain_bind, r_isInit _, plain_liftM, w_setInit _, w_saveConfig _ _, w_saveAdmin _ _,
        w_saveTotal _ _, w_saveHist _ _, plain_pure, bind_assoc]
      rfl
    | bond sender x =>
      simp only [prog, Store.Stake.step, bond, Store.Stake.bond, plain_bind, plain_keepInst, r_getConfig _, plain_liftM, r_getStakes _ _, w_saveStakes _ _ _,
        p_increase, plain_pure, bind_assoc]
      rfl
    | unbond sender x ts =>
      simp only [prog, Store.Stake.step, unbond, Store.Stake.unbond, plain_bind, plain_keepInst, r_getConfig _, plain_liftM, r_getStakes _ _, w_saveStakes _ _ _,
        p_decrease, plain_pure, bind_assoc]
      rfl
    | createFlow sender asset =>
      simp only [prog, Store.Stake.step, createFlow, Store.Stake.createFlow, plain_bind, plain_keepInst, r_getConfig _, plain_liftM, p_addDist, w_saveReward _ _ _,
        plain_pure, bind_assoc]
      rfl
    | distribute sender x tok =>
      simp only [prog, Store.Stake.step, distribute, Store.Stake.distribute, plain_bind, plain_keepInst, r_getConfig _, plain_liftM, r_getDists _, r_getTotal _, r_getHist _,
        w_saveHist _ _, r_getReward _ _, w_saveReward _ _ _, plain_pure, bind_assoc]
      rfl
    | withdraw sender =>
      simp only [prog, Store.Stake.step, withdraw, Store.Stake.withdraw, plain_bind, plain_keepInst, r_getStakes _ _, r_getDists _, r_payLoop _ _ _ _ _ _ _,
        w_saveStakes _ _ _, plain_pure, bind_assoc]
      rfl

theorem u_getConfig : Uses getConfig [kConfig] := Uses.get _ _ _
theorem u_saveConfig (c) : Uses (saveConfig c) [kConfig] := Uses.save _ _
theorem u_getStakes (a) : Uses (getStakes a) [kUser a] := Uses.getOr _ _ _
theorem u_saveStakes (a b) : Uses (saveStakes a b) [kUser a] := Uses.save _ _
theorem u_isInit : Uses isInit [] := Uses.fetchOr (.readInst _)
theorem u_setInit : Uses setInit [] := (Uses.writeInst _ _).bind fun _ => .keepInstLong
theorem u_saveAdmin (a) : Uses (saveAdmin a) [kAdmin] := Uses.save _ _
theorem u_saveTotal (x) : Uses (saveTotal x) [kTotal] := Uses.save _ _
theorem u_getTotal : Uses getTotal [kTotal] := Uses.get _ _ _
theorem u_increase (x) : Uses (increaseTotal x) [kTotal] :=
  (u_getTotal.bind fun _ => (Uses.liftM _).skip fun _ => u_saveTotal _).congr (fun k => by simp)
theorem u_decrease (x) : Uses (decreaseTotal x) [kTotal] :=
  (u_getTotal.bind fun _ => (Uses.liftM _).skip fun _ => u_saveTotal _).congr (fun k => by simp)
theorem u_getDists : Uses getDists [kDists] := Uses.getOr _ _ _
theorem u_addDist (a) : Uses (addDist a) [kDists] :=
  (u_getDists.bind fun _ => (Uses.liftM _).skip fun _ => Uses.save _ _).congr (fun k => by simp)
theorem u_saveReward (a m) : Uses (saveReward a m) [kReward a] := Uses.save _ _
theorem u_getReward (a) : Uses (getReward a) [kReward a] := Uses.get _ _ _
theorem u_saveHist (m) : Uses (saveHist m) [kHist] := Uses.save _ _
theorem u_getHist : Uses getHist [kHist] := Uses.get _ _ _
theorem u_pending (c a i) : Uses (pending c a i) [kReward a, kHist] :=
  (u_getReward a).bind fun _ => u_getHist.bind fun _ => .liftM _

theorem u_payLoop (me c sender i) (l : List Addr) (L : Ledger) :
    Uses (payLoop me c sender i l L) (l.flatMap (fun a => [kReward a, kHist])) := by
  induction l generalizing L with
  | nil => exact .pure _
  | cons a l ih =>
    rw [List.flatMap_cons]
    exact (u_pending c a i).bind fun _ => (Uses.liftM _).skip fun _ => ih _

theorem u_withdraw {me c L sender} {σ : Store} {dists : List Addr} (hd : Store.Stake.getDists σ = .ok dists) {r : Ledger × Store}
    (h : plain (withdraw me c L sender) σ = .ok r) (k : Key) :
    k ∈ touched (withdraw me c L sender) σ ↔ k ∈ [kUser sender, kDists] ++ dists.flatMap (fun a => [kReward a, kHist]) := by
  unfold withdraw at h ⊢
  have h0 := h
  rw [plain_bind, plain_keepInst, ok_bind'] at h0
  rw [touched_bind _ _ _ (plain_keepInst σ)]
  rw [(r_getStakes sender).bind, bind_ok] at h0
  obtain ⟨i, h1, h2⟩ := h0
  have e1 : plain (getStakes sender) σ = .ok (i, σ) := by rw [r_getStakes]; simp only [h1]; rfl
  rw [touched_bind _ _ _ e1]
  rw [r_getDists.bind, hd, ok_bind'] at h2
  have e2 : plain getDists σ = .ok (dists, σ) := by rw [r_getDists, hd]; rfl
  rw [touched_bind _ _ _ e2]
  have e3 := ((u_payLoop me c sender i dists L).bind (f := fun L' => saveStakes sender { i with lastRewardTime := c.now } >>= fun _ => pure L')
    (fun _ => (u_saveStakes _ _).bind fun _ => .pure _)) σ _ _ h2 k
  simp only [List.mem_append, u_getStakes _ _ _ _ e1, u_getDists _ _ _ e2]
  rw [e3]
  simp only [keepInst, touched, List.mem_append, List.mem_cons, List.not_mem_nil, or_false, false_or]
  tauto

/-- exactly the entries of the specification -/
theorem touched_iff {me : Addr} {t : Phoenix.Stake.Tx} {L : Ledger} {σ : Store} {dists : List Addr} (hd : Store.Stake.getDists σ = .ok dists)
    {r : Ledger × Store} (h : plain (prog me t L) σ = .ok r) (k : Key) : k ∈ touched (prog me t L) σ ↔ k ∈ uses dists t := by
  cases t with
  | token c tok op => exact Uses.lift _ _ _ _ h k
  | stake c op =>
    cases op with
    | init a lp mb mr m o mc =>
      refine Uses.congr (S := [] ++ [kConfig] ++ [kAdmin] ++ [kTotal] ++ [kHist] ++ []) ?_ (fun k => by simp [uses, kConfig, kAdmin, kTotal, kHist]) _ _ _ h k
      simp only [List.append_assoc]
      have hi : Uses (init a lp mb mr m o mc) ([kConfig] ++ ([kAdmin] ++ ([kTotal] ++ [kHist]))) :=
        u_isInit.skip fun _ => (Uses.liftM _).skip fun _ => u_setInit.skip fun _ => (Uses.liftM _).skip fun _ => (Uses.liftM _).skip fun _ =>
          (Uses.liftM _).skip fun _ => (u_saveConfig _).bind fun _ => (u_saveAdmin _).bind fun _ => (u_saveTotal _).bind fun _ => u_saveHist _
      exact (hi.bind fun _ => .pure _).congr (fun k => by simp)
    | bond sender x =>
      refine Uses.congr (S := [kConfig] ++ ([kUser sender] ++ ([kUser sender] ++ ([kTotal] ++ [])))) ?_
        (fun k => by simp [uses, kConfig, kUser, kTotal]) _ _ _ h k
      exact (Uses.liftM _).skip fun _ => Uses.keepInst.skip fun _ => u_getConfig.bind fun _ => (Uses.liftM _).skip fun _ => (Uses.liftM _).skip fun _ =>
        (u_getStakes _).bind fun _ => (Uses.liftM _).skip fun _ => (u_saveStakes _ _).bind fun _ => (u_increase _).bind fun _ => .pure _
    | unbond sender x ts =>
      refine Uses.congr (S := [kConfig] ++ ([kUser sender] ++ ([kUser sender] ++ ([kTotal] ++ [])))) ?_
        (fun k => by simp [uses, kConfig, kUser, kTotal]) _ _ _ h k
      exact (Uses.liftM _).skip fun _ => Uses.keepInst.skip fun _ => u_getConfig.bind fun _ => (u_getStakes _).bind fun _ => (Uses.liftM _).skip fun _ =>
        (Uses.liftM _).skip fun _ => (Uses.liftM _).skip fun _ => (u_saveStakes _ _).bind fun _ => (u_decrease _).bind fun _ => .pure _
    | createFlow sender asset =>
      refine Uses.congr (S := [kConfig] ++ ([kDists] ++ [kReward asset]) ++ []) ?_ (fun k => by simp [uses, kConfig, kDists, kReward]) _ _ _ h k
      have hi : Uses (createFlow c sender asset) ([kConfig] ++ ([kDists] ++ [kReward asset])) :=
        (Uses.liftM _).skip fun _ => Uses.keepInst.skip fun _ => u_getConfig.bind fun _ => (Uses.liftM _).skip fun _ => (u_addDist _).bind fun _ => u_saveReward _ _
      exact hi.bind fun _ => .pure _
    | distribute sender x tok =>
      refine Uses.congr (S := [kConfig] ++ ([kDists] ++ ([kTotal] ++ ([kHist] ++ ([kHist] ++ ([kReward tok] ++ ([kReward tok] ++ []))))))) ?_
        (fun k => by simp [uses, kConfig, kDists, kTotal, kHist, kReward]) _ _ _ h k
      exact (Uses.liftM _).skip fun _ => Uses.keepInst.skip fun _ => u_getConfig.bind fun _ => (Uses.liftM _).skip fun _ => u_getDists.bind fun _ =>
        (Uses.liftM _).skip fun _ => u_getTotal.bind fun _ => u_getHist.bind fun _ => (u_saveHist _).bind fun _ => (u_getReward _).bind fun _ =>
        (u_saveReward _ _).bind fun _ => .liftM _
    | withdraw sender => exact u_withdraw hd h k

theorem k_getConfig {X} : Keeps X getConfig := keeps_get _ _ _
theorem k_saveConfig {X} (c) : Keeps X (saveConfig c) := keeps_save _ _
theorem k_getStakes {X} (a) : Keeps X (getStakes a) := keeps_getOr _ _ _
theorem k_saveStakes {X} (a b) : Keeps X (saveStakes a b) := keeps_save _ _
theorem k_isInit {X} : Keeps X isInit := Keeps.fetchOr' (.readInst _)
theorem k_setInit {X} : Keeps X setInit := (Keeps.writeInst _ _).bind fun _ => .keepInstLong
theorem k_saveAdmin {X} (a) : Keeps X (saveAdmin a) := keeps_save _ _
theorem k_saveTotal {X} (x) : Keeps X (saveTotal x) := keeps_save _ _
theorem k_getTotal {X} : Keeps X getTotal := keeps_get _ _ _
theorem k_increase {X} (x) : Keeps X (increaseTotal x) := k_getTotal.bind fun _ => (Keeps.liftM _).bind fun _ => k_saveTotal _
theorem k_decrease {X} (x) : Keeps X (decreaseTotal x) := k_getTotal.bind fun _ => (Keeps.liftM _).bind fun _ => k_saveTotal _
theorem k_getDists {X} : Keeps X getDists := keeps_getOr _ _ _
theorem k_addDist {X} (a) : Keeps X (addDist a) := k_getDists.bind fun _ => (Keeps.liftM _).bind fun _ => keeps_save _ _
theorem k_saveReward {X} (a m) : Keeps X (saveReward a m) := keeps_save _ _
theorem k_getReward {X} (a) : Keeps X (getReward a) := keeps_get _ _ _
theorem k_saveHist {X} (m) : Keeps X (saveHist m) := keeps_save _ _
theorem k_getHist {X} : Keeps X getHist := keeps_get _ _ _
theorem k_pending {X} (c a i) : Keeps X (pending c a i) := (k_getReward a).bind fun _ => k_getHist.bind fun _ => .liftM _
theorem k_payLoop {X} (me c sender i) (l : List Addr) (L : Ledger) : Keeps X (payLoop me c sender i l L) := by
  induction l generalizing L with
  | nil => exact .pure _
  | cons a l ih => exact (k_pending c a i).bind fun _ => (Keeps.liftM _).bind fun _ => ih _

/-- every call keeps everything it touches -/
theorem keeps (me : Addr) (t : Phoenix.Stake.Tx) (L : Ledger) : Keeps (fun _ => False) (prog me t L) := by
  cases t with
  | token c tok op => exact .lift _
  | stake c op =>
    cases op with
    | init a lp mb mr m o mc =>
      have hi : Keeps (fun _ => False) (init a lp mb mr m o mc) :=
        k_isInit.bind fun _ => (Keeps.liftM _).bind fun _ => k_setInit.bind fun _ => (Keeps.liftM _).bind fun _ => (Keeps.liftM _).bind fun _ =>
          (Keeps.liftM _).bind fun _ => (k_saveConfig _).bind fun _ => (k_saveAdmin _).bind fun _ => (k_saveTotal _).bind fun _ => k_saveHist _
      exact hi.bind fun _ => .pure _
    | bond sender x =>
      exact (Keeps.liftM _).bind fun _ => Keeps.keepInst.bind fun _ => k_getConfig.bind fun _ => (Keeps.liftM _).bind fun _ => (Keeps.liftM _).bind fun _ =>
        (k_getStakes _).bind fun _ => (Keeps.liftM _).bind fun _ => (k_saveStakes _ _).bind fun _ => (k_increase _).bind fun _ => .pure _
    | unbond sender x ts =>
      exact (Keeps.liftM _).bind fun _ => Keeps.keepInst.bind fun _ => k_getConfig.bind fun _ => (k_getStakes _).bind fun _ => (Keeps.liftM _).bind fun _ =>
        (Keeps.liftM _).bind fun _ => (Keeps.liftM _).bind fun _ => (k_saveStakes _ _).bind fun _ => (k_decrease _).bind fun _ => .pure _
    | createFlow sender asset =>
      have hi : Keeps (fun _ => False) (createFlow c sender asset) :=
        (Keeps.liftM _).bind fun _ => Keeps.keepInst.bind fun _ => k_getConfig.bind fun _ => (Keeps.liftM _).bind fun _ => (k_addDist _).bind fun _ => k_saveReward _ _
      exact hi.bind fun _ => .pure _
    | distribute sender x tok =>
      exact (Keeps.liftM _).bind fun _ => Keeps.keepInst.bind fun _ => k_getConfig.bind fun _ => (Keeps.liftM _).bind fun _ => k_getDists.bind fun _ =>
        (Keeps.liftM _).bind fun _ => k_getTotal.bind fun _ => k_getHist.bind fun _ => (k_saveHist _).bind fun _ => (k_getReward _).bind fun _ =>
        (k_saveReward _ _).bind fun _ => .liftM _
    | withdraw sender =>
      exact Keeps.keepInst.bind fun _ => (k_getStakes _).bind fun _ => k_getDists.bind fun _ => (k_payLoop _ _ _ _ _ _).bind fun _ =>
        (k_saveStakes _ _).bind fun _ => .pure _

/-- every call of the contract keeps the instance -/
theorem keepsInst (me : Addr) (t : Phoenix.Stake.Tx) (ht : callsOf t = true) (L : Ledger) : KeepsInst (prog me t L) := by
  cases t with
  | token c tok op => cases ht
  | stake c op =>
    cases op with
    | init a lp mb mr m o mc =>
      have hi : KeepsInst (init a lp mb mr m o mc) := .right fun _ => .right fun _ => .left (.right fun _ => KeepsInst.keepInstLong)
      exact hi.left
    | bond sender x => exact .right fun _ => KeepsInst.keepInst.left
    | unbond sender x ts => exact .right fun _ => KeepsInst.keepInst.left
    | createFlow sender asset =>
      have hi : KeepsInst (createFlow c sender asset) := .right fun _ => KeepsInst.keepInst.left
      exact hi.left
    | distribute sender x tok => exact .right fun _ => KeepsInst.keepInst.left
    | withdraw sender => exact KeepsInst.keepInst.left

end Stake
end Phoenix.Life
