import Verif.Lemmas.LifeFactory
import Verif.Props.LifeStake
import Verif.Spec.WorldExample
/-
C126: the storage of the factory, key by key, and its lifetimes, in histories of the whole protocol.
-/
namespace Phoenix.Props.Life
open Phoenix Phoenix.Store Phoenix.Life Phoenix.Life.Spec
open Phoenix.Ttl (Net)
open Phoenix.World (World Host Tx)
open Phoenix.Life.Factory (Stores others)

section
variable {n : Net} {h : Host} {F : Addr}

/-- what the protocol is after the transactions of a history that succeeded -/
def facAfter (n : Net) (h : Host) (F : Addr) (seq0 : Nat) (w0 : World) (as : List (Act Tx)) : World :=
  World.run h w0 (effective n (Life.Factory.contract h F) (deployed n seq0 w0) as)

theorem factory_sim (h : Host) (F : Addr) : Sim (Life.Factory.contract h F) (fun w t => World.step h w t.ctx t.call) (World.exec h)
    (Life.Factory.Rel F) (Life.Factory.uses F) where
  exec := fun s t s' e => by unfold World.exec; rw [e]
  alike := by
    rintro ⟨σ, E⟩ w t ⟨h1, h2⟩
    simp only at h1 h2
    subst h2
    exact Life.Factory.step_alike h1 t
  uses := by
    rintro ⟨σ, E⟩ w t r ⟨h1, h2⟩ hp k
    simp only at h1 h2
    subst h2
    exact Life.Factory.touched_iff h1 hp k

/-- **C126** From the deployment of a factory on, whatever happens in the protocol and however long nobody
uses the factory, its store holds exactly what the transactions which succeeded produce in a world without
lifetimes, in which all of them succeed, key by key and nothing else; and the rest of the protocol is what
they make of it. -/
theorem C126_factory_history (n : Net) (h : Host) (F : Addr) (seq0 : Nat) {w0 : World} (hF : w0.fac F = none) (as : List (Act Tx)) :
    AllOk (fun w t => World.step h w t.ctx t.call) w0 (effective n (Life.Factory.contract h F) (deployed n seq0 w0) as) ∧
    Stores (run n (Life.Factory.contract h F) (deployed n seq0 w0) as).cs.st ((facAfter n h F seq0 w0 as).fac F) ∧
    (run n (Life.Factory.contract h F) (deployed n seq0 w0) as).led = others F (facAfter n h F seq0 w0 as) :=
  (factory_sim h F).history (s := deployed n seq0 w0) (b := w0) ⟨by
    show Stores [] (w0.fac F)
    rw [hF]
    exact blank_nil, by
    show w0 = others F w0
    unfold others
    rw [← hF, Life.Factory.upd_self]⟩ as

/-- **C126** A transaction that succeeds without lifetimes fails exactly if it calls the factory, directly
or through a router, and finds its instance archived, or one of the few entries of the factory it uses. -/
theorem C126_factory_fails_iff (hn : NetOK n) {seq0 : Nat} {w0 : World} (hF : w0.fac F = none) {as : List (Act Tx)} {t : Tx} {w : World}
    (hw : World.step h (facAfter n h F seq0 w0 as) t.ctx t.call = .ok w) :
    (∃ e, step n (Life.Factory.contract h F) (run n (Life.Factory.contract h F) (deployed n seq0 w0) as) (.call t false) = .error e) ↔
    (Life.Factory.callsOf F t (facAfter n h F seq0 w0 as) = true ∧
        (run n (Life.Factory.contract h F) (deployed n seq0 w0) as).cs.inst < t.ctx.seq) ∨
      ∃ k ∈ Life.Factory.uses F (facAfter n h F seq0 w0 as) t,
        (run n (Life.Factory.contract h F) (deployed n seq0 w0) as).cs.archived t.ctx.seq k = true := by
  have hh := (C126_factory_history n h F seq0 hF as).2
  have e : Life.Factory.callsOf F t (run n (Life.Factory.contract h F) (deployed n seq0 w0) as).led =
      Life.Factory.callsOf F t (facAfter n h F seq0 w0 as) := by rw [hh.2]; rfl
  have := (factory_sim h F).fails_iff hn hh hw
  rw [← e]
  exact this

/-- **C126** Once somebody has restored what the transaction uses, it goes through, with the outcome it has
without lifetimes: no pool is forgotten. -/
theorem C126_factory_restorable (hn : NetOK n) {seq0 : Nat} {w0 : World} (hF : w0.fac F = none) {as : List (Act Tx)} {t : Tx} {w : World}
    (hw : World.step h (facAfter n h F seq0 w0 as) t.ctx t.call = .ok w) :
    ∃ s, step n (Life.Factory.contract h F) (run n (Life.Factory.contract h F) (deployed n seq0 w0)
        (as ++ restores t.ctx.seq (Life.Factory.uses F (facAfter n h F seq0 w0 as) t))) (.call t false) = .ok s ∧
      Stores s.cs.st (w.fac F) ∧ s.led = others F w := by
  rw [Life.run_append]
  exact (factory_sim h F).restorable hn (C126_factory_history n h F seq0 hF as).2 hw

/-- **C126** After a successful transaction, whatever happens next, the entries of the factory it used are
not archived for twenty-nine days, nor is the instance for six days, except that `initialize` and `update`
leave the instance's lifetime alone. -/
theorem C126_factory_upkeep (hn : NetOK n) {seq0 : Nat} {w0 : World} (hF : w0.fac F = none) {as : List (Act Tx)} {t : Tx} {s : LSys World}
    (hs : step n (Life.Factory.contract h F) (run n (Life.Factory.contract h F) (deployed n seq0 w0) as) (.call t false) = .ok s)
    (bs : List (Act Tx)) :
    (Life.Factory.extendsInst F (facAfter n h F seq0 w0 as) t = true → t.ctx.seq + 6 * 17280 ≤ (run n (Life.Factory.contract h F) s bs).cs.inst) ∧
    ∀ k ∈ Life.Factory.uses F (facAfter n h F seq0 w0 as) t, Store.get s.cs.st .pers k ≠ none →
      ∀ seq ≤ t.ctx.seq + 29 * 17280, ¬ (run n (Life.Factory.contract h F) s bs).cs.archived seq k = true := by
  have hh := (C126_factory_history n h F seq0 hF as).2
  refine ⟨fun ht => upkeep_inst_at (C := Life.Factory.contract h F) hn (Life.Factory.keepsInst h F t _ ?_) hs bs, fun k hk =>
    (factory_sim h F).upkeep hn hh (Life.Factory.keeps h F t) hs bs k hk (fun h => h)⟩
  rw [hh.2, ← ht]
  rfl

end

/-! An example: the pool for the tokens 20 and 21 is created on day 0.  Forty days later its entry is
archived: a route through it fails although pool and router are there, and the factory cannot be initialised
again, until somebody restores the entry. -/

/-- account `a` signs, in ledger `seq` -/
def fBy (a : Addr) (seq : Nat) : Ctx := { now := seq * 5, seq := seq, signed := fun x => x == a }
/-- the history: day 0, then the instance is restored on day 40 -/
def exFacActs : List (Act Tx) :=
  [ .call ⟨fBy 8 (lDay 0), .facInit 50 8 1 2 3 4 [8] 7⟩ false,
    .call ⟨fBy 8 (lDay 0), .create 50 8 (World.Example.info 20 21) .xyk none 100 1000⟩ false,
    .call ⟨fBy 1 (lDay 0), .xyk World.Example.pool1 (.provide 1 (some 1000000) none (some 2000000) none none none)⟩ false,
    .restoreInst (lDay 40) ]
/-- a route in either direction -/
def exRoute (offer ask : Addr) (d : Nat) : Tx := ⟨fBy 2 (lDay d), .hopSwap World.Example.router 2 [⟨offer, ask, none⟩] none 1000 none none⟩

example : (effective Props.Ttl.exNet (Life.Factory.contract World.Example.host 50) (deployed Props.Ttl.exNet 900 World.Example.start) exFacActs).length = 3 ∧
    (facAfter Props.Ttl.exNet World.Example.host 50 900 World.Example.start exFacActs).fac 50 ≠ none ∧
    (World.step World.Example.host (facAfter Props.Ttl.exNet World.Example.host 50 900 World.Example.start exFacActs)
      (exRoute 20 21 40).ctx (exRoute 20 21 40).call).isOk = true ∧
    (step Props.Ttl.exNet (Life.Factory.contract World.Example.host 50)
      (run Props.Ttl.exNet (Life.Factory.contract World.Example.host 50) (deployed Props.Ttl.exNet 900 World.Example.start) exFacActs)
      (.call (exRoute 20 21 20) false)).isOk = true ∧
    (step Props.Ttl.exNet (Life.Factory.contract World.Example.host 50)
      (run Props.Ttl.exNet (Life.Factory.contract World.Example.host 50) (deployed Props.Ttl.exNet 900 World.Example.start) exFacActs)
      (.call (exRoute 20 21 40) false)).isOk = false ∧
    (step Props.Ttl.exNet (Life.Factory.contract World.Example.host 50)
      (run Props.Ttl.exNet (Life.Factory.contract World.Example.host 50) (deployed Props.Ttl.exNet 900 World.Example.start)
        (exFacActs ++ [.restore (lDay 40) (Life.Factory.pairKey 20 21)]))
      (.call (exRoute 21 20 40) false)).isOk = true ∧
    (step Props.Ttl.exNet (Life.Factory.contract World.Example.host 50)
      (run Props.Ttl.exNet (Life.Factory.contract World.Example.host 50) (deployed Props.Ttl.exNet 900 World.Example.start) exFacActs)
      (.call ⟨fBy 3 (lDay 40), .facInit 50 3 1 2 3 4 [3] 7⟩ false)).isOk = false := by
  refine ⟨by decide +kernel, ?_, by decide +kernel, by decide +kernel, by decide +kernel, by decide +kernel, by decide +kernel⟩
  rw [← Option.isSome_iff_ne_none]
  decide +kernel

end Phoenix.Props.Life
