import Verif.Lemmas.LifeRewards
import Verif.Props.LifeStake
import Verif.Props.Rewards
/-
C123: the storage of the rewards contract and its lifetimes.  The entries of the users, the totals and the
schedule are never kept alive by the contract, so that its calls stop to work some days after these were
created, until somebody restores them; what is owed is not affected.
-/
namespace Phoenix.Props.Life
open Phoenix Phoenix.Store Phoenix.Life Phoenix.Life.Spec
open Phoenix.Ttl (Net)
open Phoenix.Life.Rewards (Holds Loose Alone)

section
variable {n : Net} {me : Addr}

/-- what the contract is after the transactions of a history that succeeded -/
def rewardsAfter (n : Net) (me : Addr) (seq0 : Nat) (L : Ledger) (as : List (Act Phoenix.Rewards.Tx)) : Phoenix.Rewards.Sys :=
  Phoenix.Rewards.run me ⟨Phoenix.Rewards.fresh, L⟩ (effective n (Life.Rewards.contract me) (deployed n seq0 L) as)

theorem rewards_sim (me : Addr) : Sim (Life.Rewards.contract me) (Phoenix.Rewards.step me) (Phoenix.Rewards.exec me) Life.Rewards.Rel
    (fun b t => Life.Rewards.uses b.st t) where
  exec := fun s t s' h => by unfold Phoenix.Rewards.exec; rw [h]
  alike := by
    rintro ⟨σ, L⟩ ⟨s, L'⟩ t ⟨h1, h2⟩
    simp only at h1 h2
    subst h2
    exact Life.Rewards.step_alike me h1 L t
  uses := by
    rintro ⟨σ, L⟩ ⟨s, L'⟩ t r ⟨h1, h2⟩ hp k
    exact Life.Rewards.touched_iff h1 hp k

/-- **C123** From its deployment on, whatever is called and however long nobody uses it, the store of the
rewards contract holds exactly what the calls which succeeded produce in a world without lifetimes, in which
all of them succeed, key by key and nothing else; and so do the tokens. -/
theorem C123_history (n : Net) (me : Addr) (seq0 : Nat) (L : Ledger) (as : List (Act Phoenix.Rewards.Tx)) :
    AllOk (Phoenix.Rewards.step me) ⟨Phoenix.Rewards.fresh, L⟩ (effective n (Life.Rewards.contract me) (deployed n seq0 L) as) ∧
    Holds (run n (Life.Rewards.contract me) (deployed n seq0 L) as).cs.st (rewardsAfter n me seq0 L as).st ∧
    (run n (Life.Rewards.contract me) (deployed n seq0 L) as).led = (rewardsAfter n me seq0 L as).led :=
  (rewards_sim me).history (s := deployed n seq0 L) (b := ⟨Phoenix.Rewards.fresh, L⟩) ⟨⟨blank_nil, fun _ => rfl⟩, rfl⟩ as

/-- **C123** A call that succeeds without lifetimes fails exactly if it finds the contract's instance
archived, or one of the few entries the call uses. -/
theorem C123_fails_iff (hn : NetOK n) {seq0 : Nat} {L : Ledger} {as : List (Act Phoenix.Rewards.Tx)} {t : Phoenix.Rewards.Tx}
    {r : Phoenix.Rewards.Sys} (h : Phoenix.Rewards.step me (rewardsAfter n me seq0 L as) t = .ok r) :
    (∃ e, step n (Life.Rewards.contract me) (run n (Life.Rewards.contract me) (deployed n seq0 L) as) (.call t false) = .error e) ↔
    (Life.Rewards.callsOf t = true ∧ (run n (Life.Rewards.contract me) (deployed n seq0 L) as).cs.inst < Life.Rewards.seqOf t) ∨
      ∃ k ∈ Life.Rewards.uses (rewardsAfter n me seq0 L as).st t,
        (run n (Life.Rewards.contract me) (deployed n seq0 L) as).cs.archived (Life.Rewards.seqOf t) k = true :=
  (rewards_sim me).fails_iff hn (C123_history n me seq0 L as).2 h

/-- **C123** Once somebody has restored what the call uses, it goes through, with the outcome it has
without lifetimes: no reward is lost. -/
theorem C123_restorable (hn : NetOK n) {seq0 : Nat} {L : Ledger} {as : List (Act Phoenix.Rewards.Tx)} {t : Phoenix.Rewards.Tx}
    {r : Phoenix.Rewards.Sys} (h : Phoenix.Rewards.step me (rewardsAfter n me seq0 L as) t = .ok r) :
    ∃ s, step n (Life.Rewards.contract me) (run n (Life.Rewards.contract me) (deployed n seq0 L)
        (as ++ restores (Life.Rewards.seqOf t) (Life.Rewards.uses (rewardsAfter n me seq0 L as).st t))) (.call t false) = .ok s ∧
      Holds s.cs.st r.st ∧ s.led = r.led := by
  rw [Life.run_append]
  exact (rewards_sim me).restorable hn (C123_history n me seq0 L as).2 h

/-- **C123** After a successful call, whatever happens next, the configuration, the mark of the
initialisation and the administrator, as far as the call used them, are not archived for twenty-nine days;
nor is the instance for six days, except that `initialize` leaves the instance's lifetime alone. -/
theorem C123_upkeep (hn : NetOK n) {seq0 : Nat} {L : Ledger} {as : List (Act Phoenix.Rewards.Tx)} {t : Phoenix.Rewards.Tx} {s : LSys}
    (h : step n (Life.Rewards.contract me) (run n (Life.Rewards.contract me) (deployed n seq0 L) as) (.call t false) = .ok s)
    (bs : List (Act Phoenix.Rewards.Tx)) :
    (Life.Rewards.extendsInst t = true → Life.Rewards.seqOf t + 6 * 17280 ≤ (run n (Life.Rewards.contract me) s bs).cs.inst) ∧
    ∀ k ∈ [Key.sym "CONFIG", .u32 0, .u32 1], k ∈ Life.Rewards.uses (rewardsAfter n me seq0 L as).st t →
      Store.get s.cs.st .pers k ≠ none → ∀ seq ≤ Life.Rewards.seqOf t + 29 * 17280, ¬ (run n (Life.Rewards.contract me) s bs).cs.archived seq k = true :=
  ⟨fun ht => upkeep_inst hn (Life.Rewards.keepsInst me t ht) h bs, fun k hk hu =>
    (rewards_sim me).upkeep hn (C123_history n me seq0 L as).2 (Life.Rewards.keeps me t) h bs k hu (by
      rintro ⟨h1, h2, h3⟩
      simp only [List.mem_cons, List.not_mem_nil, or_false] at hk
      rcases hk with rfl | rfl | rfl <;> contradiction)⟩

/-- **C123** Every other entry (the totals, the schedule, the entry of a user) lives for the network's
minimal lifetime and no longer, however often the contract uses it: once it was created by a call, and
nobody restores or extends it from outside, every call that uses it after that time fails. -/
theorem C123_not_kept (hn : NetOK n) {seq0 : Nat} {L : Ledger} {as : List (Act Phoenix.Rewards.Tx)} {t : Phoenix.Rewards.Tx} {b : Bool} {s : LSys}
    (h : step n (Life.Rewards.contract me) (run n (Life.Rewards.contract me) (deployed n seq0 L) as) (.call t b) = .ok s)
    {k : Key} (hk : Loose k) (h0 : Store.get (run n (Life.Rewards.contract me) (deployed n seq0 L) as).cs.st .pers k = none)
    (h1 : Store.get s.cs.st .pers k ≠ none) {bs : List (Act Phoenix.Rewards.Tx)} (hb : Alone k bs)
    {t' : Phoenix.Rewards.Tx} {b' : Bool} (hu : k ∈ Life.Rewards.uses (rewardsAfter n me seq0 L (as ++ .call t b :: bs)).st t')
    (hl : Life.Rewards.seqOf t + n.minPers ≤ Life.Rewards.seqOf t') :
    ∃ e, step n (Life.Rewards.contract me) (run n (Life.Rewards.contract me) (deployed n seq0 L) (as ++ .call t b :: bs)) (.call t' b') = .error e := by
  have e1 : run n (Life.Rewards.contract me) (deployed n seq0 L) (as ++ .call t b :: bs) = run n (Life.Rewards.contract me) s bs := by
    rw [Life.run_append]
    show run n _ (exec n _ _ _) bs = _
    rw [exec_ok h]
  have hh := (C123_history n me seq0 L (as ++ .call t b :: bs)).2
  rw [e1] at hh ⊢
  have hs1 : (Store.get s.cs.st .pers k).isSome = true := by rwa [← Option.isSome_iff_ne_none] at h1
  have l1 := Life.Rewards.alone_live hk hn (me := me) bs hb s hs1
  obtain ⟨-, -, ht⟩ := step_call h
  have l2 := (Life.Rewards.leaves hk me t _ n _ _ _ _ ht).2 (by rw [h0]; rfl) hs1
  have hthere := (run_grows n hn (Life.Rewards.contract me) s bs).there k hs1
  cases hx : step n (Life.Rewards.contract me) (run n (Life.Rewards.contract me) s bs) (.call t' b') with
  | error e => exact ⟨e, rfl⟩
  | ok s' =>
    exfalso
    obtain ⟨-, -, h2⟩ := step_call hx
    refine timed_live h2 ((Life.Rewards.touched_iff hh.1 (timed_plain h2) k).mpr hu) ?_
    rw [archived_iff]
    refine ⟨hthere, ?_⟩
    rw [l1, l2]
    have := hn.pers
    show Life.Rewards.seqOf t + n.minPers - 1 < Life.Rewards.seqOf t'
    omega

end

/-! An example: a user stakes on day 1, rewards are handed out on day 5.  On day 40 the user's rewards are
there, but the totals were created on day 0 and are archived since day 7, whatever happened in between. -/

/-- called by the staking contract 50, in ledger `seq`, signed by `a` -/
def rLBy (a : Addr) (seq : Nat) : Ctx := { now := seq * 5, seq := seq, signed := fun x => x == a, invoker := some 50 }
/-- the history up to day 5 -/
def exRewardActs : List (Act Phoenix.Rewards.Tx) :=
  [ .call (.rewards (rLBy 9 (lDay 0)) (.init 9 50 40 10 1000 1000)) false,
    .call (.rewards (rLBy 1 (lDay 1)) (.addUser 1 ⟨[⟨10000, lDay 1 * 5⟩], 0, 10000⟩)) false,
    .call (.rewards (rLBy 9 (lDay 1)) (.fund (lDay 1 * 5) 345600 1000000)) false,
    .call (.rewards (rLBy 3 (lDay 5)) (.distribute 10000)) false,
    .restoreInst (lDay 40) ]
/-- the user collects -/
def exCollect : Phoenix.Rewards.Tx := .rewards (rLBy 1 (lDay 40)) (.withdraw 1 ⟨[⟨10000, lDay 1 * 5⟩], 0, 10000⟩)

example : (effective Props.Ttl.exNet (Life.Rewards.contract 100) (deployed Props.Ttl.exNet 900 rExStart.led) exRewardActs).length = 4 ∧
    (Phoenix.Rewards.step 100 (rewardsAfter Props.Ttl.exNet 100 900 rExStart.led exRewardActs) exCollect).isOk = true ∧
    (run Props.Ttl.exNet (Life.Rewards.contract 100) (deployed Props.Ttl.exNet 900 rExStart.led) exRewardActs).cs.archived (lDay 40)
      (Life.Rewards.totalsOf 40) = true ∧
    (run Props.Ttl.exNet (Life.Rewards.contract 100) (deployed Props.Ttl.exNet 900 rExStart.led) exRewardActs).cs.archived (lDay 34)
      (.sym "CONFIG") = false ∧
    (step Props.Ttl.exNet (Life.Rewards.contract 100) (run Props.Ttl.exNet (Life.Rewards.contract 100) (deployed Props.Ttl.exNet 900 rExStart.led)
      exRewardActs) (.call exCollect false)).isOk = false ∧
    (step Props.Ttl.exNet (Life.Rewards.contract 100) (run Props.Ttl.exNet (Life.Rewards.contract 100) (deployed Props.Ttl.exNet 900 rExStart.led)
      (exRewardActs ++ restores (lDay 40) (Life.Rewards.uses (rewardsAfter Props.Ttl.exNet 100 900 rExStart.led exRewardActs).st exCollect)))
      (.call exCollect false)).isOk = true := by decide +kernel

/-- the totals are created by the first call of the history, and used by the last one: `C123_not_kept` applies -/
example : Loose (Life.Rewards.totalsOf 40) ∧ Alone (Life.Rewards.totalsOf 40) exRewardActs.tail ∧
    Life.Rewards.totalsOf 40 ∈ Life.Rewards.uses (rewardsAfter Props.Ttl.exNet 100 900 rExStart.led exRewardActs).st exCollect ∧
    lDay 0 + Props.Ttl.exNet.minPers ≤ lDay 40 := by
  refine ⟨⟨by decide, by decide, by decide⟩, ⟨?_, ?_⟩, by decide +kernel, by decide⟩
  · intro q h
    simp [exRewardActs] at h
  · intro q x h
    simp [exRewardActs] at h

end Phoenix.Props.Life
