import Verif.Lemmas.LifeVesting
import Verif.Props.Vesting
import Verif.Props.LifePool
/-
C122 for the vesting contract: the lifetimes of its entries never change a schedule or what was paid; they
can only make a transaction fail, until somebody restores what it uses.
-/
namespace Phoenix.Props.Life
open Phoenix Phoenix.Store Phoenix.Life Phoenix.Life.Spec
open Phoenix.Ttl (Net)

section
variable {n : Net} {me : Addr}

/-- what the vesting contract is after the transactions of a history that succeeded -/
def vestingAfter (n : Net) (me : Addr) (seq0 : Nat) (L : Ledger) (as : List (Act Phoenix.Vesting.Tx)) : Phoenix.Vesting.Sys :=
  Phoenix.Vesting.run me ⟨none, L⟩ (effective n (Life.Vesting.contract me) (deployed n seq0 L) as)

/-- the store holds the record, and the tokens are the same -/
def VestingRel (a : Store × Ledger) (b : Phoenix.Vesting.Sys) : Prop := Store.Vesting.Rel? a.1 b.vest ∧ a.2 = b.led

theorem vesting_sim (me : Addr) : Sim (Life.Vesting.contract me) (Phoenix.Vesting.step me) (Phoenix.Vesting.exec me) VestingRel
    (fun b t => Life.Vesting.uses b.vest t) where
  exec := fun s t s' h => by unfold Phoenix.Vesting.exec; rw [h]
  alike := by
    rintro ⟨σ, L⟩ ⟨s, L'⟩ t ⟨h1, h2⟩
    simp only at h1 h2
    subst h2
    rw [Life.Vesting.plainStep_eq]
    exact (Store.Vesting.step_alike h1 L t).1
  uses := fun a b t r h hp k => Life.Vesting.touched_iff h.1 hp k

theorem vesting_rel (n : Net) (me : Addr) (seq0 : Nat) (L : Ledger) (as : List (Act Phoenix.Vesting.Tx)) :
    AllOk (Phoenix.Vesting.step me) ⟨none, L⟩ (effective n (Life.Vesting.contract me) (deployed n seq0 L) as) ∧
    VestingRel ((run n (Life.Vesting.contract me) (deployed n seq0 L) as).cs.st, (run n (Life.Vesting.contract me) (deployed n seq0 L) as).led)
      (vestingAfter n me seq0 L as) :=
  (vesting_sim me).history (s := deployed n seq0 L) (b := ⟨none, L⟩) ⟨blank_nil, rfl⟩ as

/-- **C122** From its deployment on, whatever is called and however long nobody uses it, the contract
holds exactly the schedules, minter and settings that the calls which succeeded produce in a world
without lifetimes, in which all of them succeed; and so do the tokens. -/
theorem C122_vesting_history (n : Net) (me : Addr) (seq0 : Nat) (L : Ledger) (as : List (Act Phoenix.Vesting.Tx)) :
    AllOk (Phoenix.Vesting.step me) ⟨none, L⟩ (effective n (Life.Vesting.contract me) (deployed n seq0 L) as) ∧
    Store.Vesting.Stores (run n (Life.Vesting.contract me) (deployed n seq0 L) as).cs.st (vestingAfter n me seq0 L as).vest ∧
    (run n (Life.Vesting.contract me) (deployed n seq0 L) as).led = (vestingAfter n me seq0 L as).led :=
  have h := vesting_rel n me seq0 L as
  ⟨h.1, h.2.1.stores, h.2.2⟩

/-- **C122** A call that succeeds without lifetimes fails exactly if it finds the contract's instance
archived, or an entry the call uses: the administrator's, or a schedule of one of the recipients. -/
theorem C122_vesting_fails_iff (hn : NetOK n) {seq0 : Nat} {L : Ledger} {as : List (Act Phoenix.Vesting.Tx)} {t : Phoenix.Vesting.Tx}
    {r : Phoenix.Vesting.Sys} (h : Phoenix.Vesting.step me (vestingAfter n me seq0 L as) t = .ok r) :
    (∃ e, step n (Life.Vesting.contract me) (run n (Life.Vesting.contract me) (deployed n seq0 L) as) (.call t false) = .error e) ↔
    (Life.Vesting.callsOf t = true ∧ (run n (Life.Vesting.contract me) (deployed n seq0 L) as).cs.inst < Life.Vesting.seqOf t) ∨
      ∃ k ∈ Life.Vesting.uses (vestingAfter n me seq0 L as).vest t,
        (run n (Life.Vesting.contract me) (deployed n seq0 L) as).cs.archived (Life.Vesting.seqOf t) k = true :=
  (vesting_sim me).fails_iff hn (vesting_rel n me seq0 L as).2 h

/-- **C122** Once somebody has restored what the call uses, it goes through, with the outcome it has
without lifetimes: no schedule is ever lost. -/
theorem C122_vesting_restorable (hn : NetOK n) {seq0 : Nat} {L : Ledger} {as : List (Act Phoenix.Vesting.Tx)} {t : Phoenix.Vesting.Tx}
    {r : Phoenix.Vesting.Sys} (h : Phoenix.Vesting.step me (vestingAfter n me seq0 L as) t = .ok r) :
    ∃ s, step n (Life.Vesting.contract me) (run n (Life.Vesting.contract me) (deployed n seq0 L)
        (as ++ restores (Life.Vesting.seqOf t) (Life.Vesting.uses (vestingAfter n me seq0 L as).vest t))) (.call t false) = .ok s ∧
      Store.Vesting.Stores s.cs.st r.vest ∧ s.led = r.led := by
  rw [Life.run_append]
  obtain ⟨s, h1, h2, h3⟩ := (vesting_sim me).restorable hn (vesting_rel n me seq0 L as).2 h
  exact ⟨s, h1, h2.stores, h3⟩

/-- **C122** After a successful call, whatever happens next, the instance is not archived for twenty-nine
days, and neither are the administrator's entry, the schedule claimed from and the schedules created, as
far as the call used them.  Earlier schedules of a recipient are not kept alive by the creation of another. -/
theorem C122_vesting_upkeep (hn : NetOK n) {seq0 : Nat} {L : Ledger} {as : List (Act Phoenix.Vesting.Tx)} {t : Phoenix.Vesting.Tx} {s : LSys}
    (ht : Life.Vesting.callsOf t = true)
    (h : step n (Life.Vesting.contract me) (run n (Life.Vesting.contract me) (deployed n seq0 L) as) (.call t false) = .ok s)
    (bs : List (Act Phoenix.Vesting.Tx)) :
    Life.Vesting.seqOf t + 29 * 17280 ≤ (run n (Life.Vesting.contract me) s bs).cs.inst ∧
    ∀ k ∈ Life.Vesting.keepsAlive (vestingAfter n me seq0 L as).vest t, Store.get s.cs.st .pers k ≠ none ∧
      ∀ seq ≤ Life.Vesting.seqOf t + 29 * 17280, ¬ (run n (Life.Vesting.contract me) s bs).cs.archived seq k = true :=
  ⟨upkeep_instLong hn (Life.Vesting.keepsInst me t ht) h bs,
    (vesting_sim me).upkeep' hn (fun _ hp k hk => Life.Vesting.keeps (vesting_rel n me seq0 L as).2.1 hp k hk) h bs⟩

end

/-! An example: account 1 gets a schedule on day 1 and does not claim; account 2 gets one on day 20.  On
day 40 account 1 should get another one: the contract is in use, but the first schedule is archived, and
the search for a free index fails until somebody restores it. -/

/-- initialisation and two schedules -/
def exVestActs : List (Act Phoenix.Vesting.Tx) :=
  [ .call (.vest (lBy 8 1000) (.init 8 30 10 none)) false,
    .call (.vest (lBy 8 (lDay 1)) (.create [(1, vExSl)])) false,
    .call (.vest (lBy 8 (lDay 20)) (.create [(2, vExPl)])) false ]
/-- another schedule for account 1 -/
def exAgain : Phoenix.Vesting.Tx := .vest (lBy 8 (lDay 40)) (.create [(1, vExPl)])

example : (effective Props.Ttl.exNet (Life.Vesting.contract 100) (deployed Props.Ttl.exNet 900 vExStart.led) exVestActs).length = 3 ∧
    (Phoenix.Vesting.step 100 (vestingAfter Props.Ttl.exNet 100 900 vExStart.led exVestActs) exAgain).isOk = true ∧
    Life.Vesting.uses (vestingAfter Props.Ttl.exNet 100 900 vExStart.led exVestActs).vest exAgain =
      [.u32 1, Life.Vesting.schedule 1 0, Life.Vesting.schedule 1 1] ∧
    Life.Vesting.keepsAlive (vestingAfter Props.Ttl.exNet 100 900 vExStart.led exVestActs).vest exAgain = [.u32 1, Life.Vesting.schedule 1 1] ∧
    (run Props.Ttl.exNet (Life.Vesting.contract 100) (deployed Props.Ttl.exNet 900 vExStart.led) exVestActs).cs.archived (lDay 40)
      (Life.Vesting.schedule 1 0) = true ∧
    (step Props.Ttl.exNet (Life.Vesting.contract 100) (run Props.Ttl.exNet (Life.Vesting.contract 100) (deployed Props.Ttl.exNet 900 vExStart.led)
      exVestActs) (.call (.vest (lBy 8 (lDay 40)) (.create [(2, vExPl)])) false)).isOk = true ∧
    (step Props.Ttl.exNet (Life.Vesting.contract 100) (run Props.Ttl.exNet (Life.Vesting.contract 100) (deployed Props.Ttl.exNet 900 vExStart.led)
      exVestActs) (.call exAgain false)).isOk = false ∧
    (step Props.Ttl.exNet (Life.Vesting.contract 100) (run Props.Ttl.exNet (Life.Vesting.contract 100) (deployed Props.Ttl.exNet 900 vExStart.led)
      (exVestActs ++ restores (lDay 40) [Life.Vesting.schedule 1 0])) (.call exAgain false)).isOk = true := by
  decide +kernel

end Phoenix.Props.Life
