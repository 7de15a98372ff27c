import Verif.Lemmas.LifePool
import Verif.Props.StorePool
import Verif.Props.LifeStake
/-
C122 for the constant-product pool: the lifetimes of its entries never change a price, a reserve or a
share; they can only make a transaction fail, until somebody restores what it uses.
-/
namespace Phoenix.Props.Life
open Phoenix Phoenix.Store Phoenix.Life Phoenix.Life.Spec
open Phoenix.Ttl (Net)

section
variable {n : Net} {me : Addr}

/-- what the pool is after the transactions of a history that succeeded -/
def poolAfter (n : Net) (me : Addr) (seq0 : Nat) (L : Ledger) (as : List (Act Phoenix.Pool.Tx)) : Phoenix.Pool.Sys :=
  Phoenix.Pool.run me ⟨none, L⟩ (effective n (Life.Pool.contract me) (deployed n seq0 L) as)

/-- the store holds the record, and the tokens are the same -/
def PoolRel (a : Store × Ledger) (b : Phoenix.Pool.Sys) : Prop := Store.Pool.Stores a.1 b.pool ∧ a.2 = b.led

theorem pool_sim (me : Addr) : Sim (Life.Pool.contract me) (Phoenix.Pool.step me) (Phoenix.Pool.exec me) PoolRel
    (fun _ t => Life.Pool.uses t) where
  exec := fun s t s' h => by unfold Phoenix.Pool.exec; rw [h]
  alike := by
    rintro ⟨σ, L⟩ ⟨s, L'⟩ t ⟨h1, h2⟩
    simp only at h1 h2
    subst h2
    rw [Life.Pool.plainStep_eq]
    exact Store.Pool.step_alike h1 L t
  uses := fun a b t r h hp k => Life.Pool.touched_iff hp k

/-- **C122** From its deployment on, whatever is called and however long nobody uses it, the pool holds
exactly the reserves, shares and settings that the calls which succeeded produce in a world without
lifetimes, in which all of them succeed; and so do the tokens. -/
theorem C122_pool_history (n : Net) (me : Addr) (seq0 : Nat) (L : Ledger) (as : List (Act Phoenix.Pool.Tx)) :
    AllOk (Phoenix.Pool.step me) ⟨none, L⟩ (effective n (Life.Pool.contract me) (deployed n seq0 L) as) ∧
    Store.Pool.Stores (run n (Life.Pool.contract me) (deployed n seq0 L) as).cs.st (poolAfter n me seq0 L as).pool ∧
    (run n (Life.Pool.contract me) (deployed n seq0 L) as).led = (poolAfter n me seq0 L as).led :=
  (pool_sim me).history (s := deployed n seq0 L) (b := ⟨none, L⟩) ⟨blank_nil, rfl⟩ as

/-- **C122** A call that succeeds without lifetimes fails exactly if it finds the pool's instance archived,
or one of the few entries the call uses. -/
theorem C122_pool_fails_iff (hn : NetOK n) {seq0 : Nat} {L : Ledger} {as : List (Act Phoenix.Pool.Tx)} {t : Phoenix.Pool.Tx}
    {r : Phoenix.Pool.Sys} (h : Phoenix.Pool.step me (poolAfter n me seq0 L as) t = .ok r) :
    (∃ e, step n (Life.Pool.contract me) (run n (Life.Pool.contract me) (deployed n seq0 L) as) (.call t false) = .error e) ↔
    (Life.Pool.callsOf t = true ∧ (run n (Life.Pool.contract me) (deployed n seq0 L) as).cs.inst < Life.Pool.seqOf t) ∨
      ∃ k ∈ Life.Pool.uses t, (run n (Life.Pool.contract me) (deployed n seq0 L) as).cs.archived (Life.Pool.seqOf t) k = true :=
  (pool_sim me).fails_iff hn (C122_pool_history n me seq0 L as).2 h

/-- **C122** Once somebody has restored what the call uses, it goes through, with the outcome it has
without lifetimes. -/
theorem C122_pool_restorable (hn : NetOK n) {seq0 : Nat} {L : Ledger} {as : List (Act Phoenix.Pool.Tx)} {t : Phoenix.Pool.Tx}
    {r : Phoenix.Pool.Sys} (h : Phoenix.Pool.step me (poolAfter n me seq0 L as) t = .ok r) :
    ∃ s, step n (Life.Pool.contract me) (run n (Life.Pool.contract me) (deployed n seq0 L)
        (as ++ restores (Life.Pool.seqOf t) (Life.Pool.uses t))) (.call t false) = .ok s ∧
      Store.Pool.Stores s.cs.st r.pool ∧ s.led = r.led := by
  rw [Life.run_append]
  exact (pool_sim me).restorable hn (C122_pool_history n me seq0 L as).2 h

/-- **C122** After a successful call of the pool, whatever happens next, no entry the call used is archived
for twenty-nine days; nor is the instance for six days, except that `initialize` and `upgrade` leave the
instance's lifetime alone. -/
theorem C122_pool_upkeep (hn : NetOK n) {seq0 : Nat} {L : Ledger} {as : List (Act Phoenix.Pool.Tx)} {t : Phoenix.Pool.Tx} {s : LSys}
    (h : step n (Life.Pool.contract me) (run n (Life.Pool.contract me) (deployed n seq0 L) as) (.call t false) = .ok s)
    (bs : List (Act Phoenix.Pool.Tx)) :
    (Life.Pool.extendsInst t = true → Life.Pool.seqOf t + 6 * 17280 ≤ (run n (Life.Pool.contract me) s bs).cs.inst) ∧
    ∀ k ∈ Life.Pool.uses t, Store.get s.cs.st .pers k ≠ none →
      ∀ seq ≤ Life.Pool.seqOf t + 29 * 17280, ¬ (run n (Life.Pool.contract me) s bs).cs.archived seq k = true :=
  ⟨fun ht => upkeep_inst hn (Life.Pool.keepsInst me t ht) h bs, fun k hk =>
    (pool_sim me).upkeep hn (C122_pool_history n me seq0 L as).2 (Life.Pool.keeps me t) h bs k hk not_false⟩

end

/-! An example: a pool that only swaps for forty days; then the total of the shares is archived, and a
provider cannot withdraw until somebody restores it, although every swap goes through. -/

/-- initialisation, a deposit, and swaps ten days apart -/
def exPoolActs : List (Act Phoenix.Pool.Tx) :=
  [ .call (.pool (lBy 8 1000) (.init exInit)) false,
    .call (.pool (lBy 1 (lDay 1)) (.provide 1 (some 1000000) none (some 2000000) none none none)) false,
    .restoreInst (lDay 20),
    .call (.pool (lBy 2 (lDay 20)) (.swap 2 10 1000 none (some 5000) none none)) false,
    .restoreInst (lDay 40),
    .call (.pool (lBy 2 (lDay 40)) (.swap 2 10 1000 none (some 5000) none none)) false ]
/-- the call of the provider who waited -/
def exWithdraw : Phoenix.Pool.Tx := .pool (lBy 1 (lDay 41)) (.withdraw 1 500000 1 1 none)

example : (effective Props.Ttl.exNet (Life.Pool.contract 100) (deployed Props.Ttl.exNet 900 exStart.led) exPoolActs).length = 4 ∧
    (Phoenix.Pool.step 100 (poolAfter Props.Ttl.exNet 100 900 exStart.led exPoolActs) exWithdraw).isOk = true ∧
    (run Props.Ttl.exNet (Life.Pool.contract 100) (deployed Props.Ttl.exNet 900 exStart.led) exPoolActs).cs.archived (lDay 41) (.u32 0) = true ∧
    (run Props.Ttl.exNet (Life.Pool.contract 100) (deployed Props.Ttl.exNet 900 exStart.led) exPoolActs).cs.archived (lDay 41) (.u32 1) = false ∧
    (step Props.Ttl.exNet (Life.Pool.contract 100) (run Props.Ttl.exNet (Life.Pool.contract 100) (deployed Props.Ttl.exNet 900 exStart.led) exPoolActs)
      (.call exWithdraw false)).isOk = false ∧
    (step Props.Ttl.exNet (Life.Pool.contract 100) (run Props.Ttl.exNet (Life.Pool.contract 100) (deployed Props.Ttl.exNet 900 exStart.led)
      (exPoolActs ++ restores (lDay 41) [.u32 0])) (.call exWithdraw false)).isOk = true := by decide +kernel

end Phoenix.Props.Life
