import Verif.Lemmas.LifeStake
import Verif.Props.StoreStake
import Verif.Props.Ttl
/-
C122 for the stake contract: the lifetimes of its entries never change a stake or a reward; they can
only make a transaction fail, until somebody restores what it uses.
-/
namespace Phoenix.Props.Life
open Phoenix Phoenix.Store Phoenix.Life Phoenix.Life.Spec
open Phoenix.Ttl (Net)

section
variable {n : Net} {me : Addr}

/-- what the stake contract is after the transactions of a history that succeeded -/
def stakeAfter (n : Net) (me : Addr) (seq0 : Nat) (L : Ledger) (as : List (Act Phoenix.Stake.Tx)) : Phoenix.Stake.Sys :=
  Phoenix.Stake.run me ⟨Phoenix.Stake.fresh, L⟩ (effective n (Life.Stake.contract me) (deployed n seq0 L) as)

/-- the store holds the record, and the tokens are the same -/
def StakeRel (a : Store × Ledger) (b : Phoenix.Stake.Sys) : Prop := Store.Stake.Holds a.1 b.st ∧ a.2 = b.led

theorem stake_sim (me : Addr) : Sim (Life.Stake.contract me) (Phoenix.Stake.step me) (Phoenix.Stake.exec me) StakeRel
    (fun b t => Life.Stake.uses b.st.dists t) where
  exec := fun s t s' h => by unfold Phoenix.Stake.exec; rw [h]
  alike := by
    rintro ⟨σ, L⟩ ⟨s, L'⟩ t ⟨h1, h2⟩
    simp only at h1 h2
    subst h2
    rw [Life.Stake.plainStep_eq]
    exact (C120_stake_call h1 _ t).alike
  uses := fun a b t r h hp k => Life.Stake.touched_iff (Store.Stake.getDists_eq h.1) hp k

/-- **C122** From its deployment on, whatever is called and however long nobody uses it, the stake
contract holds exactly the stakes, totals and histories that the calls which succeeded produce in a
world without lifetimes, in which all of them succeed; and so do the tokens. -/
theorem C122_stake_history (n : Net) (me : Addr) (seq0 : Nat) (L : Ledger) (as : List (Act Phoenix.Stake.Tx)) :
    AllOk (Phoenix.Stake.step me) ⟨Phoenix.Stake.fresh, L⟩ (effective n (Life.Stake.contract me) (deployed n seq0 L) as) ∧
    Store.Stake.Holds (run n (Life.Stake.contract me) (deployed n seq0 L) as).cs.st (stakeAfter n me seq0 L as).st ∧
    (run n (Life.Stake.contract me) (deployed n seq0 L) as).led = (stakeAfter n me seq0 L as).led :=
  (stake_sim me).history (b := ⟨Phoenix.Stake.fresh, L⟩) ⟨Store.Stake.holds_fresh, rfl⟩ as

/-- **C122** A call that succeeds without lifetimes fails exactly if it finds the contract's instance
archived, or one of the few entries the call uses: besides what all share, only the caller's own stakes. -/
theorem C122_stake_fails_iff (hn : NetOK n) {seq0 : Nat} {L : Ledger} {as : List (Act Phoenix.Stake.Tx)} {t : Phoenix.Stake.Tx}
    {r : Phoenix.Stake.Sys} (h : Phoenix.Stake.step me (stakeAfter n me seq0 L as) t = .ok r) :
    (∃ e, step n (Life.Stake.contract me) (run n (Life.Stake.contract me) (deployed n seq0 L) as) (.call t false) = .error e) ↔
    (Life.Stake.callsOf t = true ∧ (run n (Life.Stake.contract me) (deployed n seq0 L) as).cs.inst < Life.Stake.seqOf t) ∨
      ∃ k ∈ Life.Stake.uses (stakeAfter n me seq0 L as).st.dists t,
        (run n (Life.Stake.contract me) (deployed n seq0 L) as).cs.archived (Life.Stake.seqOf t) k = true :=
  (stake_sim me).fails_iff hn (C122_stake_history n me seq0 L as).2 h

/-- **C122** Once somebody has restored what the call uses, it goes through, with the outcome it has
without lifetimes. -/
theorem C122_stake_restorable (hn : NetOK n) {seq0 : Nat} {L : Ledger} {as : List (Act Phoenix.Stake.Tx)} {t : Phoenix.Stake.Tx}
    {r : Phoenix.Stake.Sys} (h : Phoenix.Stake.step me (stakeAfter n me seq0 L as) t = .ok r) :
    ∃ s, step n (Life.Stake.contract me) (run n (Life.Stake.contract me) (deployed n seq0 L)
        (as ++ restores (Life.Stake.seqOf t) (Life.Stake.uses (stakeAfter n me seq0 L as).st.dists t))) (.call t false) = .ok s ∧
      Store.Stake.Holds s.cs.st r.st ∧ s.led = r.led := by
  rw [Life.run_append]
  exact (stake_sim me).restorable hn (C122_stake_history n me seq0 L as).2 h

/-- **C122** After a successful call of the contract, whatever happens next, the instance is not archived
for six days, and no entry the call used for twenty-nine days. -/
theorem C122_stake_upkeep (hn : NetOK n) {seq0 : Nat} {L : Ledger} {as : List (Act Phoenix.Stake.Tx)} {t : Phoenix.Stake.Tx} {s : LSys}
    (ht : Life.Stake.callsOf t = true)
    (h : step n (Life.Stake.contract me) (run n (Life.Stake.contract me) (deployed n seq0 L) as) (.call t false) = .ok s)
    (bs : List (Act Phoenix.Stake.Tx)) :
    Life.Stake.seqOf t + 6 * 17280 ≤ (run n (Life.Stake.contract me) s bs).cs.inst ∧
    ∀ k ∈ Life.Stake.uses (stakeAfter n me seq0 L as).st.dists t, Store.get s.cs.st .pers k ≠ none →
      ∀ seq ≤ Life.Stake.seqOf t + 29 * 17280, ¬ (run n (Life.Stake.contract me) s bs).cs.archived seq k = true :=
  ⟨upkeep_inst hn (Life.Stake.keepsInst me t ht) h bs, fun k hk =>
    (stake_sim me).upkeep hn (C122_stake_history n me seq0 L as).2 (Life.Stake.keeps me t) h bs k hk not_false⟩

end

/-! An example: somebody bonds and comes back after forty days, when others have kept the contract busy. -/

/-- signed by `a` in ledger `seq` -/
def lBy (a : Addr) (seq : Nat) : Ctx := { now := seq * 5, seq := seq, signed := fun x => x == a }
/-- every day in which `exActs` has a call, in ledgers -/
def lDay (d : Nat) : Nat := 1000 + d * 17280
/-- initialisation, two bonds, and another user who bonds again and again -/
def exActs : List (Act Phoenix.Stake.Tx) :=
  [ .call (.stake (lBy 9 1000) (.init 9 30 10 1 7 9 5)) false,
    .call (.stake (lBy 1 (lDay 1)) (.bond 1 300)) false,
    .call (.stake (lBy 2 (lDay 1)) (.bond 2 100)) false,
    .call (.stake (lBy 2 (lDay 20)) (.bond 2 50)) false,
    .restoreInst (lDay 40),
    .call (.stake (lBy 2 (lDay 40)) (.bond 2 20)) false ]
/-- the call of the user who waited -/
def exUnbond : Phoenix.Stake.Tx := .stake (lBy 1 (lDay 41)) (.unbond 1 300 (lDay 1 * 5))

theorem exNet_ok : NetOK Props.Ttl.exNet := ⟨by decide, by decide⟩

/-- the last bond of the others succeeded after the restoration; the stake of the user who waited is archived, the
unbond fails; without lifetimes it succeeds; after the restorations it succeeds -/
example : (effective Props.Ttl.exNet (Life.Stake.contract 100) (deployed Props.Ttl.exNet 900 sExStart.led) exActs).length = 5 ∧
    (Phoenix.Stake.step 100 (stakeAfter Props.Ttl.exNet 100 900 sExStart.led exActs) exUnbond).isOk = true ∧
    (run Props.Ttl.exNet (Life.Stake.contract 100) (deployed Props.Ttl.exNet 900 sExStart.led) exActs).cs.archived (lDay 41) (.addr 1) = true ∧
    (run Props.Ttl.exNet (Life.Stake.contract 100) (deployed Props.Ttl.exNet 900 sExStart.led) exActs).cs.archived (lDay 41) (.addr 2) = false ∧
    (step Props.Ttl.exNet (Life.Stake.contract 100) (run Props.Ttl.exNet (Life.Stake.contract 100) (deployed Props.Ttl.exNet 900 sExStart.led) exActs)
      (.call exUnbond false)).isOk = false ∧
    (step Props.Ttl.exNet (Life.Stake.contract 100) (run Props.Ttl.exNet (Life.Stake.contract 100) (deployed Props.Ttl.exNet 900 sExStart.led)
      (exActs ++ restores (lDay 41) [.addr 1])) (.call exUnbond false)).isOk = true := by decide +kernel

end Phoenix.Props.Life
