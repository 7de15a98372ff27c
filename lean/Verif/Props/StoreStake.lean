import Verif.Props.Stake
import Verif.Lemmas.Store
import Verif.Spec.StoreStake
/-! C120 for the stake contract: run on the key-value store that its source uses, it behaves
exactly as the record model. -/
namespace Phoenix.Store.Stake
open Phoenix Phoenix.Store

variable {σ : Store} {s : Phoenix.Stake.State} {me : Addr} {c : Ctx} {L : Ledger} {cfg : Phoenix.Stake.Config}

theorem main_of (h : Holds σ s) (hc : s.cfg = some cfg) : Main σ s cfg := by
  have := h.main; rw [hc] at this; exact this

theorem noMain_of (h : Holds σ s) (hc : s.cfg = none) : NoMain σ := by
  have := h.main; rw [hc] at this; exact this

theorem getConfig_eq (h : Holds σ s) : getConfig σ = Phoenix.Stake.getConfig s := by
  unfold getConfig Phoenix.Stake.getConfig
  cases hc : s.cfg with
  | none => exact load_none (noMain_of h hc).cfg
  | some cfg => exact load_of (main_of h hc).cfg rfl

theorem getStakes_eq (h : Holds σ s) (a : Addr) : getStakes σ a = .ok (stored (s.info a)) := by
  rcases h.users a with hu | ⟨hu, hn⟩
  · exact loadOr_of hu rfl
  · rw [hn]; exact loadOr_none hu

theorem getDists_eq (h : Holds σ s) : getDists σ = .ok s.dists := by
  rcases h.dists with hu | ⟨hu, hn⟩
  · exact loadOr_of hu rfl
  · rw [hn]; exact loadOr_none hu

theorem getReward_eq (h : Holds σ s) (a : Addr) : getReward σ a = Phoenix.Stake.rewardHistory s a := by
  unfold getReward Phoenix.Stake.rewardHistory
  have hr := h.rewards a
  cases hc : s.rewards a with
  | none => rw [hc] at hr; exact load_none hr
  | some m => rw [hc] at hr; exact load_of hr rfl

theorem getTotal_eq (h : Main σ s cfg) : getTotal σ = .ok s.total := load_of h.total rfl
theorem getHist_eq (h : Main σ s cfg) : getHist σ = .ok s.hist := load_of h.hist rfl

/-- a write to the stakes of a user -/
theorem saveStakes_holds (h : Holds σ s) (a : Addr) (i : Phoenix.Stake.Info) :
    Holds (saveStakes σ a (stored i)) { s with info := upd s.info a i } := by
  refine ⟨?_, ?_, ?_, ?_, ?_⟩
  · have hm := h.main
    cases hc : s.cfg with
    | none =>
      simp only [hc] at hm ⊢
      exact ⟨by simp [saveStakes, kUser, hm.cfg], by simp [saveStakes, kUser, hm.admin], by simp [saveStakes, kUser, hm.total],
        by simp [saveStakes, kUser, hm.dists], by simp [saveStakes, kUser, hm.hist], by simp [saveStakes, kUser, hm.inited]⟩
    | some cfg =>
      simp only [hc] at hm ⊢
      exact ⟨by simp [saveStakes, kUser, hm.cfg], by simp [saveStakes, kUser, hm.admin], by simp [saveStakes, kUser, hm.total],
        by simp [saveStakes, kUser, hm.hist], by simp [saveStakes, kUser, hm.inited]⟩
  · intro b
    by_cases hb : b = a
    · subst hb; left; simp [saveStakes, kUser, upd]
    · have hu := h.users b
      simpa [saveStakes, kUser, upd, hb] using hu
  · have hd := h.dists
    simpa [saveStakes, kUser] using hd
  · intro b; have hr := h.rewards b; simpa [saveStakes, kUser] using hr
  · intro d k hk
    simp only [saveStakes, kUser, get_set] at hk
    split at hk
    · rename_i he; right; exact ⟨he.1, Or.inr ⟨a, Or.inl he.2⟩⟩
    · exact h.only d k hk

/-- a write to the total -/
theorem saveTotal_holds (h : Holds σ s) (hc : s.cfg = some cfg) (x : Int) : Holds (saveTotal σ x) { s with total := x } := by
  refine ⟨?_, ?_, ?_, ?_, ?_⟩
  · have hm := main_of h hc
    simp only [hc]
    exact ⟨by simp [saveTotal, kTotal, hm.cfg], by simp [saveTotal, kTotal, hm.admin], by simp [saveTotal, kTotal],
      by simp [saveTotal, kTotal, hm.hist], by simp [saveTotal, kTotal, hm.inited]⟩
  · intro b; have hu := h.users b; simpa [saveTotal, kTotal] using hu
  · have hd := h.dists; simpa [saveTotal, kTotal] using hd
  · intro b; have hr := h.rewards b; simpa [saveTotal, kTotal] using hr
  · intro d k hk
    simp only [saveTotal, kTotal, get_set] at hk
    split at hk
    · rename_i he; right; exact ⟨he.1, Or.inl (by simp [he.2])⟩
    · exact h.only d k hk

/-- a write to the total staked history -/
theorem saveHist_holds (h : Holds σ s) (hc : s.cfg = some cfg) (x : SMap) : Holds (saveHist σ x) { s with hist := x } := by
  refine ⟨?_, ?_, ?_, ?_, ?_⟩
  · have hm := main_of h hc
    simp only [hc]
    exact ⟨by simp [saveHist, kHist, hm.cfg], by simp [saveHist, kHist, hm.admin], by simp [saveHist, kHist, hm.total],
      by simp [saveHist, kHist], by simp [saveHist, kHist, hm.inited]⟩
  · intro b; have hu := h.users b; simpa [saveHist, kHist] using hu
  · have hd := h.dists; simpa [saveHist, kHist] using hd
  · intro b; have hr := h.rewards b; simpa [saveHist, kHist] using hr
  · intro d k hk
    simp only [saveHist, kHist, get_set] at hk
    split at hk
    · rename_i he; right; exact ⟨he.1, Or.inl (by simp [he.2])⟩
    · exact h.only d k hk

/-- a write to a reward history -/
theorem saveReward_holds (h : Holds σ s) (a : Addr) (x : SMap) :
    Holds (saveReward σ a x) { s with rewards := upd s.rewards a (some x) } := by
  refine ⟨?_, ?_, ?_, ?_, ?_⟩
  · have hm := h.main
    cases hc : s.cfg with
    | none =>
      simp only [hc] at hm ⊢
      exact ⟨by simp [saveReward, kReward, hm.cfg], by simp [saveReward, kReward, hm.admin], by simp [saveReward, kReward, hm.total],
        by simp [saveReward, kReward, hm.dists], by simp [saveReward, kReward, hm.hist], by simp [saveReward, kReward, hm.inited]⟩
    | some cfg =>
      simp only [hc] at hm ⊢
      exact ⟨by simp [saveReward, kReward, hm.cfg], by simp [saveReward, kReward, hm.admin], by simp [saveReward, kReward, hm.total],
        by simp [saveReward, kReward, hm.hist], by simp [saveReward, kReward, hm.inited]⟩
  · intro b; have hu := h.users b; simpa [saveReward, kReward] using hu
  · have hd := h.dists; simpa [saveReward, kReward] using hd
  · intro b
    by_cases hb : b = a
    · subst hb; simp [saveReward, kReward, upd]
    · have hr := h.rewards b; simpa [saveReward, kReward, upd, hb] using hr
  · intro d k hk
    simp only [saveReward, kReward, get_set] at hk
    split at hk
    · rename_i he; right; exact ⟨he.1, Or.inr ⟨a, Or.inr he.2⟩⟩
    · exact h.only d k hk

/-- a write to the list of reward tokens -/
theorem saveDists_holds (h : Holds σ s) (hc : s.cfg = some cfg) (x : List Addr) :
    Holds (set σ .pers kDists (.addrs x)) { s with dists := x } := by
  refine ⟨?_, ?_, ?_, ?_, ?_⟩
  · have hm := main_of h hc
    simp only [hc]
    exact ⟨by simp [kDists, hm.cfg], by simp [kDists, hm.admin], by simp [kDists, hm.total],
      by simp [kDists, hm.hist], by simp [kDists, hm.inited]⟩
  · intro b; have hu := h.users b; simpa [kDists] using hu
  · left; simp [kDists]
  · intro b; have hr := h.rewards b; simpa [kDists] using hr
  · intro d k hk
    simp only [kDists, get_set] at hk
    split at hk
    · rename_i he; right; exact ⟨he.1, Or.inl (by simp [he.2])⟩
    · exact h.only d k hk

/-- The same store and the same ledger. -/
def R2 (a : Store × Ledger) (b : Phoenix.Stake.State × Ledger) : Prop := Holds a.1 b.1 ∧ a.2 = b.2

theorem cfg_of_get {g : Phoenix.Stake.Config} (h : Phoenix.Stake.getConfig s = .ok g) : s.cfg = some g := by
  unfold Phoenix.Stake.getConfig at h
  cases hc : s.cfg with
  | none => rw [hc] at h; cases h
  | some x => rw [hc] at h; cases h; rfl

theorem init_same (h : Holds σ s) (admin lp : Addr) (mb mr : Int) (mg ow : Addr) (mc : Nat) :
    Same Holds (init σ admin lp mb mr mg ow mc) (Phoenix.Stake.init s admin lp mb mr mg ow mc) := by
  unfold init Phoenix.Stake.init
  cases hc : s.cfg with
  | some cfg =>
    have hi : isInit σ = .ok true := loadOr_of (main_of h hc).inited rfl
    rw [hi]
    exact rfl
  | none =>
    have hn := noMain_of h hc
    have hi : isInit σ = .ok false := loadOr_none hn.inited
    have hd : s.dists = [] := by
      rcases h.dists with hu | ⟨_, hu⟩
      · rw [hn.dists] at hu; cases hu
      · exact hu
    simp only [hi, ok_bind']
    refine Same.bind (Q := fun _ _ => True) (by exact trivial) fun _ _ _ => ?_
    refine Same.bind_same fun _ _ => Same.bind_same fun _ _ => Same.bind_same fun _ _ => ?_
    refine ⟨?_, ?_, ?_, ?_, ?_⟩
    · exact ⟨by simp [saveHist, saveTotal, saveAdmin, saveConfig, setInit, kHist, kTotal, kAdmin, kConfig, kInit],
        by simp [saveHist, saveTotal, saveAdmin, saveConfig, setInit, kHist, kTotal, kAdmin, kConfig, kInit],
        by simp [saveHist, saveTotal, saveAdmin, saveConfig, setInit, kHist, kTotal, kAdmin, kConfig, kInit],
        by simp [saveHist, saveTotal, saveAdmin, saveConfig, setInit, kHist, kTotal, kAdmin, kConfig, kInit],
        by simp [saveHist, saveTotal, saveAdmin, saveConfig, setInit, kHist, kTotal, kAdmin, kConfig, kInit]⟩
    · intro b; have hu := h.users b
      simpa [saveHist, saveTotal, saveAdmin, saveConfig, setInit, kHist, kTotal, kAdmin, kConfig, kInit] using hu
    · have hd := h.dists
      simpa [saveHist, saveTotal, saveAdmin, saveConfig, setInit, kHist, kTotal, kAdmin, kConfig, kInit] using hd
    · intro b; have hr := h.rewards b
      simpa [saveHist, saveTotal, saveAdmin, saveConfig, setInit, kHist, kTotal, kAdmin, kConfig, kInit] using hr
    · intro d k hk
      simp only [saveHist, saveTotal, saveAdmin, saveConfig, setInit, kHist, kTotal, kAdmin, kConfig, kInit, get_set] at hk
      by_cases h1 : d = .inst ∧ k = .u32 3
      · exact Or.inl h1
      · by_cases h2 : d = .pers ∧ k ∈ [Key.sym "CONFIG", .u32 0, .u32 1, .u32 2, .cons (.sym "TotalStakedHistory") .nil]
        · exact Or.inr ⟨h2.1, Or.inl h2.2⟩
        · refine h.only d k ?_
          have e : ∀ k', k' ∈ [Key.sym "CONFIG", .u32 0, .u32 1, .u32 2, .cons (.sym "TotalStakedHistory") .nil] →
              ¬ (d = .pers ∧ k = k') := by
            rintro k' hk' ⟨rfl, rfl⟩; exact h2 ⟨rfl, hk'⟩
          rw [if_neg (e _ (by simp)), if_neg (e _ (by simp)), if_neg (e _ (by simp)), if_neg (e _ (by simp)),
            if_neg h1] at hk
          exact hk

theorem bond_same (h : Holds σ s) (sender : Addr) (x : Int) :
    Same R2 (bond me c σ L sender x) (Phoenix.Stake.bond me c s L sender x) := by
  unfold bond Phoenix.Stake.bond
  simp only [getConfig_eq h, getStakes_eq h, ok_bind']
  refine Same.bind_same fun _ _ => Same.bind_same fun g hg => Same.bind_same fun _ _ => Same.bind_same fun L' _ =>
    Same.bind_same fun t _ => ?_
  have hc := cfg_of_get hg
  have h1 := saveStakes_holds h sender { s.info sender with stakes := (s.info sender).stakes ++ [⟨x, c.now⟩], total := t }
  have ht : getTotal (saveStakes σ sender (stored { s.info sender with stakes := (s.info sender).stakes ++ [⟨x, c.now⟩], total := t })) =
      .ok s.total := by
    have hm := main_of h1 (cfg := g) hc
    have ht := getTotal_eq hm
    exact ht
  show Same R2 (increaseTotal (saveStakes σ sender (stored { s.info sender with stakes := (s.info sender).stakes ++ [⟨x, c.now⟩], total := t })) x
    >>= fun σ2 => .ok (σ2, L')) _
  unfold increaseTotal
  simp only [ht, ok_bind', bind_assoc]
  exact Same.bind_same fun t' _ => ⟨saveTotal_holds h1 hc t', rfl⟩

theorem unbond_same (h : Holds σ s) (sender : Addr) (x : Int) (ts : Nat) :
    Same R2 (unbond me c σ L sender x ts) (Phoenix.Stake.unbond me c s L sender x ts) := by
  unfold unbond Phoenix.Stake.unbond
  simp only [getConfig_eq h, getStakes_eq h, ok_bind']
  refine Same.bind_same fun _ _ => Same.bind_same fun g hg => ?_
  have hc := cfg_of_get hg
  show Same R2 (Phoenix.Stake.removeStake x ts (s.info sender).stakes >>= _) _
  refine Same.bind_same fun l _ => ?_
  show Same R2 (subI (s.info sender).total x >>= _) _
  refine Same.bind_same fun t _ => Same.bind_same fun L' _ => ?_
  have h1 := saveStakes_holds h sender { s.info sender with stakes := l, total := t }
  have ht : getTotal (saveStakes σ sender (stored { s.info sender with stakes := l, total := t })) =
      .ok s.total := by
    have hm := main_of h1 (cfg := g) hc
    have ht := getTotal_eq hm
    exact ht
  show Same R2 (decreaseTotal (saveStakes σ sender (stored { s.info sender with stakes := l, total := t })) x
    >>= fun σ2 => .ok (σ2, L')) _
  unfold decreaseTotal
  simp only [ht, ok_bind', bind_assoc]
  exact Same.bind_same fun t' _ => ⟨saveTotal_holds h1 hc t', rfl⟩

theorem createFlow_same (h : Holds σ s) (sender asset : Addr) :
    Same Holds (createFlow c σ sender asset) (Phoenix.Stake.createFlow c s sender asset) := by
  unfold createFlow Phoenix.Stake.createFlow addDist
  simp only [getConfig_eq h, getDists_eq h, ok_bind', bind_assoc]
  refine Same.bind_same fun _ _ => Same.bind_same fun g hg => Same.bind_same fun _ _ => Same.bind_same fun _ _ => ?_
  exact saveReward_holds (saveDists_holds h (cfg_of_get hg) _) asset []

theorem distribute_same (h : Holds σ s) (sender : Addr) (x : Int) (tok : Addr) :
    Same R2 (distribute me c σ L sender x tok) (Phoenix.Stake.distribute me c s L sender x tok) := by
  unfold distribute Phoenix.Stake.distribute
  simp only [getConfig_eq h, getDists_eq h, ok_bind']
  refine Same.bind_same fun _ _ => Same.bind_same fun g hg => Same.bind_same fun _ _ => Same.bind_same fun _ _ => ?_
  have hc := cfg_of_get hg
  have hm := main_of h hc
  simp only [getTotal_eq hm, getHist_eq hm, ok_bind']
  have h1 := saveHist_holds h hc (s.hist.set c.now (asU128 s.total))
  have hr : getReward (saveHist σ (s.hist.set c.now (asU128 s.total))) tok = Phoenix.Stake.rewardHistory s tok :=
    getReward_eq h1 tok
  rw [hr]
  refine Same.bind_same fun m _ => Same.bind_same fun L' _ => ?_
  exact ⟨saveReward_holds h1 tok _, rfl⟩

theorem payLoop_eq (h : Holds σ s) (hc : s.cfg = some cfg) (sender : Addr) (l : List Addr) (L : Ledger) :
    payLoop me c σ sender (stored (s.info sender)) l L = Phoenix.Stake.payLoop me c s sender l L := by
  induction l generalizing L with
  | nil => rfl
  | cons a l ih =>
    unfold payLoop Phoenix.Stake.payLoop pending Phoenix.Stake.pending
    simp only [getReward_eq h, getHist_eq (main_of h hc), ok_bind', ih]
    rfl

theorem withdraw_same (h : Holds σ s) (sender : Addr) :
    Same R2 (withdraw me c σ L sender) (Phoenix.Stake.withdraw me c s L sender) := by
  unfold withdraw Phoenix.Stake.withdraw
  simp only [getStakes_eq h, getDists_eq h, ok_bind']
  have he : payLoop me c σ sender (stored (s.info sender)) s.dists L = Phoenix.Stake.payLoop me c s sender s.dists L := by
    cases hc : s.cfg with
    | some cfg => exact payLoop_eq h hc sender _ _
    | none =>
      have hn := noMain_of h hc
      have hd : s.dists = [] := by
        rcases h.dists with hu | ⟨_, hu⟩
        · rw [hn.dists] at hu; cases hu
        · exact hu
      rw [hd]; rfl
  rw [he]
  refine Same.bind_same fun L' _ => ?_
  exact ⟨saveStakes_holds h sender { s.info sender with last := c.now }, rfl⟩

theorem step_same (h : Holds σ s) (L : Ledger) (t : Phoenix.Stake.Tx) :
    Same (fun (a : Store × Ledger) (b : Phoenix.Stake.Sys) => Holds a.1 b.st ∧ a.2 = b.led)
      (step me (σ, L) t) (Phoenix.Stake.step me ⟨s, L⟩ t) := by
  cases t with
  | token c tok op =>
    simp only [step, Phoenix.Stake.step]
    exact Same.bind_same fun L' _ => ⟨h, rfl⟩
  | stake c k =>
    cases k with
    | init a lp mb mr m o mc =>
      simp only [step, Phoenix.Stake.step]
      exact Same.bind (init_same h a lp mb mr m o mc) fun _ _ h1 => ⟨h1, rfl⟩
    | bond sender x =>
      simp only [step, Phoenix.Stake.step]
      rw [← bind_pure (bond me c σ L sender x)]
      refine Same.bind (bond_same h sender x) ?_
      rintro ⟨σ', L'⟩ ⟨p', L''⟩ ⟨h1, h2⟩
      exact ⟨h1, h2⟩
    | unbond sender x ts =>
      simp only [step, Phoenix.Stake.step]
      rw [← bind_pure (unbond me c σ L sender x ts)]
      refine Same.bind (unbond_same h sender x ts) ?_
      rintro ⟨σ', L'⟩ ⟨p', L''⟩ ⟨h1, h2⟩
      exact ⟨h1, h2⟩
    | createFlow sender asset =>
      simp only [step, Phoenix.Stake.step]
      exact Same.bind (createFlow_same h sender asset) fun _ _ h1 => ⟨h1, rfl⟩
    | distribute sender x tok =>
      simp only [step, Phoenix.Stake.step]
      rw [← bind_pure (distribute me c σ L sender x tok)]
      refine Same.bind (distribute_same h sender x tok) ?_
      rintro ⟨σ', L'⟩ ⟨p', L''⟩ ⟨h1, h2⟩
      exact ⟨h1, h2⟩
    | withdraw sender =>
      simp only [step, Phoenix.Stake.step]
      rw [← bind_pure (withdraw me c σ L sender)]
      refine Same.bind (withdraw_same h sender) ?_
      rintro ⟨σ', L'⟩ ⟨p', L''⟩ ⟨h1, h2⟩
      exact ⟨h1, h2⟩

theorem run_holds (ts : List Phoenix.Stake.Tx) (h : Holds σ s) (L : Ledger) :
    Holds (run me (σ, L) ts).1 (Phoenix.Stake.run me ⟨s, L⟩ ts).st ∧
      (run me (σ, L) ts).2 = (Phoenix.Stake.run me ⟨s, L⟩ ts).led := by
  induction ts generalizing σ s L with
  | nil => exact ⟨h, rfl⟩
  | cons t ts ih =>
    have hs := step_same (me := me) h L t
    have e1 : run me (σ, L) (t :: ts) = run me (exec me (σ, L) t) ts := rfl
    have e2 : Phoenix.Stake.run me ⟨s, L⟩ (t :: ts) = Phoenix.Stake.run me (Phoenix.Stake.exec me ⟨s, L⟩ t) ts := rfl
    rw [e1, e2]
    unfold exec Phoenix.Stake.exec
    cases h1 : step me (σ, L) t with
    | error e =>
      cases h2 : Phoenix.Stake.step me ⟨s, L⟩ t with
      | error e' => exact ih h L
      | ok s => rw [h1, h2] at hs; exact hs.elim
    | ok a =>
      cases h2 : Phoenix.Stake.step me ⟨s, L⟩ t with
      | error e' => rw [h1, h2] at hs; exact hs.elim
      | ok b =>
        rw [h1, h2] at hs
        obtain ⟨σ', L'⟩ := a
        obtain ⟨s', L''⟩ := b
        obtain ⟨hh, hl⟩ := hs
        simp only at hl hh
        subst hl
        exact ih hh L'

theorem holds_fresh : Holds [] Phoenix.Stake.fresh :=
  ⟨⟨rfl, rfl, rfl, rfl, rfl, rfl⟩, fun _ => Or.inr ⟨rfl, rfl⟩, Or.inr ⟨rfl, rfl⟩, fun _ => rfl,
    fun _ _ h => absurd rfl h⟩

end Phoenix.Store.Stake

namespace Phoenix.Props
open Phoenix Phoenix.Store

/-- C120: every call of the stake contract, made against the key-value store of its source, has the
outcome of the record model: the same failure, or success with the same tokens and a store that
again holds exactly the new record. -/
theorem C120_stake_call {me : Addr} {σ : Store} {s : Phoenix.Stake.State} (h : Store.Stake.Holds σ s) (L : Ledger)
    (t : Phoenix.Stake.Tx) :
    Same (fun (a : Store × Ledger) (b : Phoenix.Stake.Sys) => Store.Stake.Holds a.1 b.st ∧ a.2 = b.led)
      (Store.Stake.step me (σ, L) t) (Phoenix.Stake.step me ⟨s, L⟩ t) := Store.Stake.step_same h L t

/-- C120: over any history, starting with an empty store, the stake contract's store holds exactly the
record of the model, and the tokens are the same. -/
theorem C120_stake_history (me : Addr) (L : Ledger) (ts : List Phoenix.Stake.Tx) :
    Store.Stake.Holds (Store.Stake.run me ([], L) ts).1 (Phoenix.Stake.run me ⟨Phoenix.Stake.fresh, L⟩ ts).st ∧
      (Store.Stake.run me ([], L) ts).2 = (Phoenix.Stake.run me ⟨Phoenix.Stake.fresh, L⟩ ts).led :=
  Store.Stake.run_holds ts Store.Stake.holds_fresh L

/-! The history of Props/Stake, run on a store: bonds, unbonds, rewards. -/
example : (Store.Stake.getStakes (Store.Stake.run 100 ([], sExStart.led) sExHist).1 1).toOption.map (·.stakes) =
      some [⟨20, sDay 78⟩] ∧
    Store.Stake.getReward (Store.Stake.run 100 ([], sExStart.led) sExHist).1 40 =
      .ok [(sDay 70, 4000), (sDay 75, 300)] := by decide +kernel
example : ∃ s : Phoenix.Stake.State, Store.Stake.Holds (Store.Stake.run 100 ([], sExStart.led) sExHist).1 s ∧
    s.cfg ≠ none := by
  refine ⟨_, (C120_stake_history 100 sExStart.led sExHist).1, ?_⟩
  decide +kernel

end Phoenix.Props
