import Verif.Lemmas.LifeStable
import Verif.Props.StoreStable
import Verif.Props.LifePool
/-
C122 for the stable pool: the lifetimes of its entries never change a price, a reserve or a
share; they can only make a transaction fail, until somebody restores what it uses.
-/
namespace Phoenix.Props.Life
open Phoenix Phoenix.Store Phoenix.Life Phoenix.Life.Spec
open Phoenix.Ttl (Net)

section
variable {n : Net} {me : Addr}

/-- what the pool is after the transactions of a history that succeeded -/
def stableAfter (n : Net) (me : Addr) (seq0 : Nat) (L : Ledger) (as : List (Act Phoenix.Stable.Tx)) : Phoenix.Stable.Sys :=
  Phoenix.Stable.run me ⟨none, L⟩ (effective n (Life.Stable.contract me) (deployed n seq0 L) as)

/-- the store holds the record, and the tokens are the same -/
def StableRel (a : Store × Ledger) (b : Phoenix.Stable.Sys) : Prop := Store.Stable.Stores a.1 b.pool ∧ a.2 = b.led

theorem stable_sim (me : Addr) : Sim (Life.Stable.contract me) (Phoenix.Stable.step me) (Phoenix.Stable.exec me) StableRel
    (fun _ t => Life.Stable.uses t) where
  exec := fun s t s' h => by unfold Phoenix.Stable.exec; rw [h]
  alike := by
    rintro ⟨σ, L⟩ ⟨s, L'⟩ t ⟨h1, h2⟩
    simp only at h1 h2
    subst h2
    rw [Life.Stable.plainStep_eq]
    exact Store.Stable.step_alike h1 L t
  uses := fun a b t r h hp k => Life.Stable.touched_iff hp k

/-- **C122** From its deployment on, whatever is called and however long nobody uses it, the pool holds
exactly the reserves, shares and settings that the calls which succeeded produce in a world without
lifetimes, in which all of them succeed; and so do the tokens. -/
theorem C122_stable_history (n : Net) (me : Addr) (seq0 : Nat) (L : Ledger) (as : List (Act Phoenix.Stable.Tx)) :
    AllOk (Phoenix.Stable.step me) ⟨none, L⟩ (effective n (Life.Stable.contract me) (deployed n seq0 L) as) ∧
    Store.Stable.Stores (run n (Life.Stable.contract me) (deployed n seq0 L) as).cs.st (stableAfter n me seq0 L as).pool ∧
    (run n (Life.Stable.contract me) (deployed n seq0 L) as).led = (stableAfter n me seq0 L as).led :=
  (stable_sim me).history (s := deployed n seq0 L) (b := ⟨none, L⟩) ⟨blank_nil, rfl⟩ as

/-- **C122** A call that succeeds without lifetimes fails exactly if it finds the pool's instance archived
(or, for `initialize`, its mark, the only persistent entry). -/
theorem C122_stable_fails_iff (hn : NetOK n) {seq0 : Nat} {L : Ledger} {as : List (Act Phoenix.Stable.Tx)} {t : Phoenix.Stable.Tx}
    {r : Phoenix.Stable.Sys} (h : Phoenix.Stable.step me (stableAfter n me seq0 L as) t = .ok r) :
    (∃ e, step n (Life.Stable.contract me) (run n (Life.Stable.contract me) (deployed n seq0 L) as) (.call t false) = .error e) ↔
    (Life.Stable.callsOf t = true ∧ (run n (Life.Stable.contract me) (deployed n seq0 L) as).cs.inst < Life.Stable.seqOf t) ∨
      ∃ k ∈ Life.Stable.uses t, (run n (Life.Stable.contract me) (deployed n seq0 L) as).cs.archived (Life.Stable.seqOf t) k = true :=
  (stable_sim me).fails_iff hn (C122_stable_history n me seq0 L as).2 h

/-- **C122** Once somebody has restored what the call uses, it goes through, with the outcome it has
without lifetimes. -/
theorem C122_stable_restorable (hn : NetOK n) {seq0 : Nat} {L : Ledger} {as : List (Act Phoenix.Stable.Tx)} {t : Phoenix.Stable.Tx}
    {r : Phoenix.Stable.Sys} (h : Phoenix.Stable.step me (stableAfter n me seq0 L as) t = .ok r) :
    ∃ s, step n (Life.Stable.contract me) (run n (Life.Stable.contract me) (deployed n seq0 L)
        (as ++ restores (Life.Stable.seqOf t) (Life.Stable.uses t))) (.call t false) = .ok s ∧
      Store.Stable.Stores s.cs.st r.pool ∧ s.led = r.led := by
  rw [Life.run_append]
  exact (stable_sim me).restorable hn (C122_stable_history n me seq0 L as).2 h

/-- **C122** After a successful call of the pool, whatever happens next, neither the instance nor the
mark of the initialisation, if the call used it, is archived for twenty-nine days. -/
theorem C122_stable_upkeep (hn : NetOK n) {seq0 : Nat} {L : Ledger} {as : List (Act Phoenix.Stable.Tx)} {t : Phoenix.Stable.Tx} {s : LSys}
    (ht : Life.Stable.callsOf t = true)
    (h : step n (Life.Stable.contract me) (run n (Life.Stable.contract me) (deployed n seq0 L) as) (.call t false) = .ok s)
    (bs : List (Act Phoenix.Stable.Tx)) :
    Life.Stable.seqOf t + 29 * 17280 ≤ (run n (Life.Stable.contract me) s bs).cs.inst ∧
    ∀ k ∈ Life.Stable.uses t, Store.get s.cs.st .pers k ≠ none →
      ∀ seq ≤ Life.Stable.seqOf t + 29 * 17280, ¬ (run n (Life.Stable.contract me) s bs).cs.archived seq k = true :=
  ⟨upkeep_instLong hn (Life.Stable.keepsInst me t ht) h bs, fun k hk =>
    (stable_sim me).upkeep hn (C122_stable_history n me seq0 L as).2 (Life.Stable.keeps me t) h bs k hk not_false⟩

end

/-! An example: the instance lives for a month after a deposit, not only for the week that the calls ask
for first; after six weeks it is archived and a swap fails until somebody restores it. -/

/-- initialisation and a deposit -/
def exStableActs : List (Act Phoenix.Stable.Tx) :=
  [ .call (.pool (lBy 8 1000) (.init (Props.Stable.exInit 100))) false,
    .call (.pool (lBy 1 (lDay 1)) (.provide 1 20000000 20000000 none none none)) false ]
/-- a swap on a later day -/
def exStableSwap (d : Nat) : Phoenix.Stable.Tx := .pool (lBy 2 (lDay d)) (.swap 2 10 1000000 none none none none)

example : (effective Props.Ttl.exNet (Life.Stable.contract 100) (deployed Props.Ttl.exNet 900 (Props.Stable.exStart 7 7).led) exStableActs).length = 2 ∧
    (Phoenix.Stable.step 100 (stableAfter Props.Ttl.exNet 100 900 (Props.Stable.exStart 7 7).led exStableActs) (exStableSwap 42)).isOk = true ∧
    (step Props.Ttl.exNet (Life.Stable.contract 100) (run Props.Ttl.exNet (Life.Stable.contract 100)
      (deployed Props.Ttl.exNet 900 (Props.Stable.exStart 7 7).led) exStableActs) (.call (exStableSwap 30) false)).isOk = true ∧
    (run Props.Ttl.exNet (Life.Stable.contract 100) (deployed Props.Ttl.exNet 900 (Props.Stable.exStart 7 7).led) exStableActs).cs.inst < lDay 42 ∧
    (step Props.Ttl.exNet (Life.Stable.contract 100) (run Props.Ttl.exNet (Life.Stable.contract 100)
      (deployed Props.Ttl.exNet 900 (Props.Stable.exStart 7 7).led) exStableActs) (.call (exStableSwap 42) false)).isOk = false ∧
    (step Props.Ttl.exNet (Life.Stable.contract 100) (run Props.Ttl.exNet (Life.Stable.contract 100)
      (deployed Props.Ttl.exNet 900 (Props.Stable.exStart 7 7).led) (exStableActs ++ restores (lDay 42) [])) (.call (exStableSwap 42) false)).isOk = true := by
  decide +kernel

end Phoenix.Props.Life
