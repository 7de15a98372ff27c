import Verif.Lemmas.LifePeriphery
import Verif.Props.LifeFactory
/-
C126: the storage of the router and of the trader, key by key, and its lifetimes, in histories of the whole
protocol.
-/
namespace Phoenix.Props.Life
open Phoenix Phoenix.Store Phoenix.Life Phoenix.Life.Spec
open Phoenix.Ttl (Net)
open Phoenix.World (World Host Tx)

section
variable {n : Net} {h : Host} {H : Addr}
open Phoenix.Life.Router (Stores others Begins)

/-- what the protocol is after the transactions of a history that succeeded -/
def hopAfter (n : Net) (h : Host) (H : Addr) (s0 : LSys World) (w0 : World) (as : List (Act Tx)) : World :=
  World.run h w0 (effective n (Life.Router.contract h H) s0 as)

theorem router_sim (h : Host) (H : Addr) : Sim (Life.Router.contract h H) (fun w t => World.step h w t.ctx t.call) (World.exec h)
    (Life.Router.Rel H) (fun _ t => Life.Router.uses H t) where
  exec := fun s t s' e => by unfold World.exec; rw [e]
  alike := by
    rintro ⟨σ, E⟩ w t ⟨h0, h1, h2⟩
    simp only at h1 h2
    subst h2
    have := Life.Router.prog_alike (h := h) h0 h1 t
    show Alike (Life.Router.Rel H) (plain (Life.Router.prog h H t (others H w)) σ >>= fun r => .ok (r.2, r.1)) _
    revert this
    cases plain (Life.Router.prog h H t (others H w)) σ <;> cases World.step h w t.ctx t.call <;> exact id
  uses := fun a b t r _ hp k => Life.Router.u_prog h H t a.2 _ _ _ hp k

/-- **C126** From any moment at which a router stands at `H`, initialised or not, whatever happens in the
protocol and however long nobody uses the router, its store holds exactly what the transactions which
succeeded produce in a world without lifetimes, in which all of them succeed; and the rest of the protocol is
what they make of it. -/
theorem C126_router_history (n : Net) (h : Host) {s0 : LSys World} {w0 : World} (h0 : Begins H s0 w0) (as : List (Act Tx)) :
    AllOk (fun w t => World.step h w t.ctx t.call) w0 (effective n (Life.Router.contract h H) s0 as) ∧
    Begins H (run n (Life.Router.contract h H) s0 as) (hopAfter n h H s0 w0 as) := by
  obtain ⟨h1, h2, h3, h4⟩ := (router_sim h H).history (n := n) (s := s0) (b := w0) ⟨h0.there, h0.store, h0.rest⟩ as
  exact ⟨h1, h2, h3, h4⟩

/-- **C126** A transaction that succeeds without lifetimes fails exactly if it calls the router and finds its
instance archived, or the mark that it is initialised, which only `initialize` looks at. -/
theorem C126_router_fails_iff (hn : NetOK n) {s0 : LSys World} {w0 : World} (h0 : Begins H s0 w0) {as : List (Act Tx)} {t : Tx} {w : World}
    (hw : World.step h (hopAfter n h H s0 w0 as) t.ctx t.call = .ok w) :
    (∃ e, step n (Life.Router.contract h H) (run n (Life.Router.contract h H) s0 as) (.call t false) = .error e) ↔
    (Life.Router.callsOf H t = true ∧ (run n (Life.Router.contract h H) s0 as).cs.inst < t.ctx.seq) ∨
      ∃ k ∈ Life.Router.uses H t, (run n (Life.Router.contract h H) s0 as).cs.archived t.ctx.seq k = true := by
  obtain ⟨-, hh⟩ := C126_router_history n h h0 as
  exact (router_sim h H).fails_iff hn (b := hopAfter n h H s0 w0 as) ⟨hh.there, hh.store, hh.rest⟩ hw

/-- **C126** Once somebody has restored what the transaction uses, it goes through, with the outcome it has
without lifetimes. -/
theorem C126_router_restorable (hn : NetOK n) {s0 : LSys World} {w0 : World} (h0 : Begins H s0 w0) {as : List (Act Tx)} {t : Tx} {w : World}
    (hw : World.step h (hopAfter n h H s0 w0 as) t.ctx t.call = .ok w) :
    ∃ s, step n (Life.Router.contract h H) (run n (Life.Router.contract h H) s0 (as ++ restores t.ctx.seq (Life.Router.uses H t)))
        (.call t false) = .ok s ∧ Begins H s w := by
  rw [Life.run_append]
  obtain ⟨-, hh⟩ := C126_router_history n h h0 as
  obtain ⟨s, h1, h2, h3, h4⟩ := (router_sim h H).restorable hn (b := hopAfter n h H s0 w0 as) ⟨hh.there, hh.store, hh.rest⟩ hw
  exact ⟨s, h1, h2, h3, h4⟩

/-- **C126** Every call of the router that succeeds keeps its instance, in which the address of the factory
lives, for twenty-nine days, whatever happens next; the mark set by `initialize` is not archived as long. -/
theorem C126_router_upkeep (hn : NetOK n) {s0 : LSys World} {w0 : World} (h0 : Begins H s0 w0) {as : List (Act Tx)} {t : Tx} {s : LSys World}
    (hs : step n (Life.Router.contract h H) (run n (Life.Router.contract h H) s0 as) (.call t false) = .ok s) (bs : List (Act Tx)) :
    (Life.Router.callsOf H t = true → t.ctx.seq + 29 * 17280 ≤ (run n (Life.Router.contract h H) s bs).cs.inst) ∧
    ∀ k ∈ Life.Router.uses H t, Store.get s.cs.st .pers k ≠ none →
      ∀ seq ≤ t.ctx.seq + 29 * 17280, ¬ (run n (Life.Router.contract h H) s bs).cs.archived seq k = true := by
  obtain ⟨-, hh⟩ := C126_router_history n h h0 as
  exact ⟨fun ht => upkeep_instLong_at (C := Life.Router.contract h H) hn (Life.Router.keepsInst h H t _ ht) hs bs, fun k hk =>
    (router_sim h H).upkeep hn (b := hopAfter n h H s0 w0 as) ⟨hh.there, hh.store, hh.rest⟩ (Life.Router.keeps h H t) hs bs k hk (fun h => h)⟩

/-- A router that is deployed on its own and not initialised yet is such a beginning. -/
theorem C126_router_begins (n : Net) (seq0 : Nat) {w0 : World} (hc : w0.code H = .multihop) (hH : w0.hop H = none) :
    Begins H (deployed n seq0 w0) w0 where
  there := hc
  store := by
    show Stores [] (w0.hop H)
    rw [hH]
    exact blank_nil
  rest := by
    show w0 = others H w0
    unfold others
    rw [← hH, upd_self]

end

section
variable {n : Net} {h : Host} {T : Addr}
open Phoenix.Life.Trader (Stores others)

/-- what the protocol is after the transactions of a history that succeeded -/
def trdAfter (n : Net) (h : Host) (T : Addr) (seq0 : Nat) (w0 : World) (as : List (Act Tx)) : World :=
  World.run h w0 (effective n (Life.Trader.contract h T) (deployed n seq0 w0) as)

theorem trader_sim (h : Host) (T : Addr) : Sim (Life.Trader.contract h T) (fun w t => World.step h w t.ctx t.call) (World.exec h)
    (Life.Trader.Rel T) (fun _ t => Life.Trader.uses T t) where
  exec := fun s t s' e => by unfold World.exec; rw [e]
  alike := by
    rintro ⟨σ, E⟩ w t ⟨h1, h2⟩
    simp only at h1 h2
    subst h2
    have := Life.Trader.prog_alike (h := h) h1 t
    show Alike (Life.Trader.Rel T) (plain (Life.Trader.prog h T t (others T w)) σ >>= fun r => .ok (r.2, r.1)) _
    revert this
    cases plain (Life.Trader.prog h T t (others T w)) σ <;> cases World.step h w t.ctx t.call <;> exact id
  uses := fun a b t r _ hp k => Life.Trader.u_prog h T t a.2 _ _ _ hp k

/-- **C126** From the deployment of a trader on, whatever happens in the protocol and however long nobody
uses the trader, its store holds exactly what the transactions which succeeded produce in a world without
lifetimes, in which all of them succeed; and the rest of the protocol is what they make of it. -/
theorem C126_trader_history (n : Net) (h : Host) (T : Addr) (seq0 : Nat) {w0 : World} (hT : w0.trd T = none) (as : List (Act Tx)) :
    AllOk (fun w t => World.step h w t.ctx t.call) w0 (effective n (Life.Trader.contract h T) (deployed n seq0 w0) as) ∧
    Stores (run n (Life.Trader.contract h T) (deployed n seq0 w0) as).cs.st ((trdAfter n h T seq0 w0 as).trd T) ∧
    (run n (Life.Trader.contract h T) (deployed n seq0 w0) as).led = others T (trdAfter n h T seq0 w0 as) :=
  (trader_sim h T).history (s := deployed n seq0 w0) (b := w0) ⟨by
    show Stores [] (w0.trd T)
    rw [hT]
    exact blank_nil, by
    show w0 = others T w0
    unfold others
    rw [← hT, upd_self]⟩ as

/-- **C126** A transaction that succeeds without lifetimes fails exactly if it calls the trader and finds its
instance archived, or one of the trader's entries it uses. -/
theorem C126_trader_fails_iff (hn : NetOK n) {seq0 : Nat} {w0 : World} (hT : w0.trd T = none) {as : List (Act Tx)} {t : Tx} {w : World}
    (hw : World.step h (trdAfter n h T seq0 w0 as) t.ctx t.call = .ok w) :
    (∃ e, step n (Life.Trader.contract h T) (run n (Life.Trader.contract h T) (deployed n seq0 w0) as) (.call t false) = .error e) ↔
    (Life.Trader.callsOf T t = true ∧ (run n (Life.Trader.contract h T) (deployed n seq0 w0) as).cs.inst < t.ctx.seq) ∨
      ∃ k ∈ Life.Trader.uses T t, (run n (Life.Trader.contract h T) (deployed n seq0 w0) as).cs.archived t.ctx.seq k = true :=
  (trader_sim h T).fails_iff hn (C126_trader_history n h T seq0 hT as).2 hw

/-- **C126** Once somebody has restored what the transaction uses, it goes through, with the outcome it has
without lifetimes: the admin keeps their hold on what the trader owns. -/
theorem C126_trader_restorable (hn : NetOK n) {seq0 : Nat} {w0 : World} (hT : w0.trd T = none) {as : List (Act Tx)} {t : Tx} {w : World}
    (hw : World.step h (trdAfter n h T seq0 w0 as) t.ctx t.call = .ok w) :
    ∃ s, step n (Life.Trader.contract h T) (run n (Life.Trader.contract h T) (deployed n seq0 w0)
        (as ++ restores t.ctx.seq (Life.Trader.uses T t))) (.call t false) = .ok s ∧
      Stores s.cs.st (w.trd T) ∧ s.led = others T w := by
  rw [Life.run_append]
  exact (trader_sim h T).restorable hn (C126_trader_history n h T seq0 hT as).2 hw

/-- **C126** After a successful transaction, whatever happens next, the entries of the trader it used are not
archived for twenty-nine days, nor is the instance for six days, except that `initialize` leaves the
instance's lifetime alone. -/
theorem C126_trader_upkeep (hn : NetOK n) {seq0 : Nat} {w0 : World} (hT : w0.trd T = none) {as : List (Act Tx)} {t : Tx} {s : LSys World}
    (hs : step n (Life.Trader.contract h T) (run n (Life.Trader.contract h T) (deployed n seq0 w0) as) (.call t false) = .ok s)
    (bs : List (Act Tx)) :
    (Life.Trader.extendsInst T t = true → t.ctx.seq + 6 * 17280 ≤ (run n (Life.Trader.contract h T) s bs).cs.inst) ∧
    ∀ k ∈ Life.Trader.uses T t, Store.get s.cs.st .pers k ≠ none →
      ∀ seq ≤ t.ctx.seq + 29 * 17280, ¬ (run n (Life.Trader.contract h T) s bs).cs.archived seq k = true :=
  ⟨fun ht => upkeep_inst_at (C := Life.Trader.contract h T) hn (Life.Trader.keepsInst h T t _ ht) hs bs, fun k hk =>
    (trader_sim h T).upkeep hn (C126_trader_history n h T seq0 hT as).2 (Life.Trader.keeps h T t) hs bs k hk (fun h => h)⟩

end

/-! An example: a router of its own at 55, a factory at 50 and a trader at 60, and a pool for the tokens 20
and 21.  Forty days later the router still serves, its instance restored, although the mark that it is
initialised is archived; the trader does not, until its admin's entry is restored. -/

/-- the protocol: `World.Example.start` with a router at 55 -/
def exPeri : World := { World.Example.start with code := upd World.Example.start.code 55 .multihop }
/-- day 0, then the instance is restored on day 40 -/
def exPeriActs : List (Act Tx) :=
  [ .call ⟨fBy 8 (lDay 0), .facInit 50 8 1 2 3 4 [8] 7⟩ false,
    .call ⟨fBy 8 (lDay 0), .create 50 8 (World.Example.info 20 21) .xyk none 100 1000⟩ false,
    .call ⟨fBy 1 (lDay 0), .xyk World.Example.pool1 (.provide 1 (some 1000000) none (some 2000000) none none none)⟩ false,
    .call ⟨fBy 4 (lDay 0), .hopInit 55 4 50⟩ false,
    .call ⟨fBy 5 (lDay 0), .trdInit 60 5 20 21 20⟩ false,
    .call ⟨fBy 1 (lDay 0), .token 20 (.transfer 1 60 5000)⟩ false,
    .restoreInst (lDay 40) ]
/-- a route over the router at 55 -/
def exHop (d : Nat) : Tx := ⟨fBy 2 (lDay d), .hopSwap 55 2 [⟨20, 21, none⟩] none 1000 none none⟩
/-- the admin takes tokens out of the trader -/
def exTake (d : Nat) : Tx := ⟨fBy 5 (lDay d), .trdTransfer 60 5 5 700 (some 20)⟩

example : Life.Router.Begins 55 (deployed Props.Ttl.exNet 900 exPeri) exPeri := C126_router_begins _ _ rfl rfl

example : (effective Props.Ttl.exNet (Life.Router.contract World.Example.host 55) (deployed Props.Ttl.exNet 900 exPeri) exPeriActs).length = 6 ∧
    (World.step World.Example.host (hopAfter Props.Ttl.exNet World.Example.host 55 (deployed Props.Ttl.exNet 900 exPeri) exPeri exPeriActs)
      (exHop 40).ctx (exHop 40).call).isOk = true ∧
    (run Props.Ttl.exNet (Life.Router.contract World.Example.host 55) (deployed Props.Ttl.exNet 900 exPeri) exPeriActs).cs.archived (lDay 40)
      Life.Router.kInit = true ∧
    (step Props.Ttl.exNet (Life.Router.contract World.Example.host 55)
      (run Props.Ttl.exNet (Life.Router.contract World.Example.host 55) (deployed Props.Ttl.exNet 900 exPeri) exPeriActs)
      (.call (exHop 40) false)).isOk = true ∧
    (step Props.Ttl.exNet (Life.Router.contract World.Example.host 55)
      (run Props.Ttl.exNet (Life.Router.contract World.Example.host 55) (deployed Props.Ttl.exNet 900 exPeri) (exPeriActs.take 6))
      (.call (exHop 40) false)).isOk = false ∧
    (step Props.Ttl.exNet (Life.Router.contract World.Example.host 55)
      (run Props.Ttl.exNet (Life.Router.contract World.Example.host 55) (deployed Props.Ttl.exNet 900 exPeri) exPeriActs)
      (.call ⟨fBy 3 (lDay 40), .hopInit 55 3 51⟩ false)).isOk = false := by
  refine ⟨by decide +kernel, by decide +kernel, by decide +kernel, by decide +kernel, by decide +kernel, by decide +kernel⟩

example : exPeri.trd 60 = none ∧
    (effective Props.Ttl.exNet (Life.Trader.contract World.Example.host 60) (deployed Props.Ttl.exNet 900 exPeri) exPeriActs).length = 6 ∧
    (World.step World.Example.host (trdAfter Props.Ttl.exNet World.Example.host 60 900 exPeri exPeriActs) (exTake 40).ctx (exTake 40).call).isOk = true ∧
    (step Props.Ttl.exNet (Life.Trader.contract World.Example.host 60)
      (run Props.Ttl.exNet (Life.Trader.contract World.Example.host 60) (deployed Props.Ttl.exNet 900 exPeri) exPeriActs)
      (.call (exTake 20) false)).isOk = true ∧
    (step Props.Ttl.exNet (Life.Trader.contract World.Example.host 60)
      (run Props.Ttl.exNet (Life.Trader.contract World.Example.host 60) (deployed Props.Ttl.exNet 900 exPeri) exPeriActs)
      (.call (exTake 40) false)).isOk = false ∧
    (step Props.Ttl.exNet (Life.Trader.contract World.Example.host 60)
      (run Props.Ttl.exNet (Life.Trader.contract World.Example.host 60) (deployed Props.Ttl.exNet 900 exPeri)
        (exPeriActs ++ [.restore (lDay 40) (.u32 0)]))
      (.call (exTake 40) false)).isOk = true ∧
    (step Props.Ttl.exNet (Life.Trader.contract World.Example.host 60)
      (run Props.Ttl.exNet (Life.Trader.contract World.Example.host 60) (deployed Props.Ttl.exNet 900 exPeri)
        (exPeriActs ++ [.restore (lDay 40) (.u32 0)]))
      (.call ⟨fBy 5 (lDay 40), .trdTransfer 60 5 5 700 none⟩ false)).isOk = false := by
  refine ⟨rfl, by decide +kernel, by decide +kernel, by decide +kernel, by decide +kernel, by decide +kernel, by decide +kernel⟩

end Phoenix.Props.Life
