import Verif.Lemmas.Route
import Verif.Props.World
/-!
Property theorems about routes over several pools: C45 (a route is the chain of its single
swaps), C46 (forward quotes of routes), C47 (a failed hop undoes everything), C80 (reverse quotes
of routes).
-/
namespace Phoenix.Props.Multihop
open Phoenix Phoenix.World Phoenix.World.Spec Phoenix.Spec

variable {h : Host} {acct : Accounts} {w0 : World}

theorem verify_ok : ∀ {ops : List Multihop.Op}, Phoenix.Multihop.verifySwap ops = .ok () ↔ Linked ops
  | [] => by simp [Phoenix.Multihop.verifySwap, Linked]
  | [a] => by simp [Phoenix.Multihop.verifySwap, Linked]
  | a :: b :: l => by
    have ih := verify_ok (ops := b :: l)
    simp only [Phoenix.Multihop.verifySwap, bind_ok, req_ok, Linked, List.isChain_cons_cons]
    unfold Linked at ih
    rw [ih]
    constructor
    · rintro ⟨_, h1, h2⟩; exact ⟨h1, h2⟩
    · rintro ⟨h1, h2⟩; exact ⟨(), h1, h2⟩

theorem hop_loaded {s : Option Phoenix.Multihop.State} {m : Phoenix.Multihop.State} :
    Phoenix.Multihop.loaded s = .ok m ↔ s = some m := by
  cases s <;> simp [Phoenix.Multihop.loaded]

theorem hopSwap_ok {w w' : World} {c : Ctx} {H r : Addr} {ops : List Multihop.Op} {sp mf : Option Int} {dl : Option Nat}
    {amount y : Int} : hopSwap w c H r ops sp amount dl mf = .ok (w', y) ↔
      ops ≠ [] ∧ Linked ops ∧ c.auth r = true ∧ ∃ m, w.hop H = some m ∧
        hopLoop w (c.as H) m.factory r sp dl mf ops amount = .ok (w', y) := by
  unfold hopSwap
  simp only [bind_ok, req_ok, requireAuth_ok, hop_loaded]
  constructor
  · rintro ⟨_, h1, _, h2, _, h3, m, hm, hl⟩
    exact ⟨h1, verify_ok.mp h2, h3, m, hm, hl⟩
  · rintro ⟨h1, h2, h3, m, hm, hl⟩
    exact ⟨(), h1, (), verify_ok.mpr h2, (), h3, m, hm, hl⟩

theorem net_sum {r t : Addr} : ∀ {legs : List Leg} {x y : Int} (hne : legs ≠ []), Passes x legs y →
    legs.IsChain (fun a b => a.ask = b.offer) → (∀ l ∈ legs, l.pool ≠ r) →
    ((legs.flatMap (Leg.flows r)).map (fun f => f.delta t r)).sum =
      (if (legs.getLast hne).ask = t then y else 0) - (if (legs.head hne).offer = t then x else 0) +
        (legs.map (fun l => if l.feeTo = r ∧ l.ask = t then l.fee else 0)).sum
  | [], _, _, hne, _, _, _ => absurd rfl hne
  | [l], x, y, _, hp, _, hr => by
    have h1 := hr l (by simp)
    simp only [Passes] at hp
    obtain ⟨rfl, rfl⟩ := hp
    simp only [List.flatMap_cons, List.flatMap_nil, List.append_nil, Leg.flows, Flow.delta, List.map_cons, List.map_nil,
      List.sum_cons, List.sum_nil, List.getLast_singleton, List.head_cons, h1, and_false, if_false, and_true]
    by_cases k1 : l.ask = t <;> by_cases k2 : l.offer = t <;> by_cases k3 : l.feeTo = r <;> simp [k1, k2, k3] <;> ring
  | l :: l2 :: ls, x, y, _, hp, hl, hr => by
    have h1 := hr l (by simp)
    obtain ⟨rfl, hp⟩ := hp
    rw [List.isChain_cons_cons] at hl
    have ih : (((l2 :: ls).flatMap (Leg.flows r)).map (fun f => f.delta t r)).sum =
        (if ((l2 :: ls).getLast (List.cons_ne_nil l2 ls)).ask = t then y else 0) - (if l2.offer = t then l.out else 0) +
        ((l2 :: ls).map (fun l => if l.feeTo = r ∧ l.ask = t then l.fee else 0)).sum :=
      net_sum (r := r) (t := t) (legs := l2 :: ls) (List.cons_ne_nil l2 ls) hp hl.2 (fun k hk => hr k (by simp [hk]))
    simp only [← hl.1] at ih
    rw [List.flatMap_cons, List.map_append, List.sum_append, ih, List.getLast_cons (List.cons_ne_nil l2 ls)]
    simp only [List.map_cons (f := fun l : Leg => if l.feeTo = r ∧ l.ask = t then l.fee else 0), List.sum_cons, List.head_cons]
    generalize (if ((l2 :: ls).getLast _).ask = t then y else 0) = A
    generalize (if l2.feeTo = r ∧ l2.ask = t then l2.fee else 0) = B
    generalize (List.map (fun l : Leg => if l.feeTo = r ∧ l.ask = t then l.fee else 0) ls).sum = C
    simp only [Leg.flows, Flow.delta, List.map_cons, List.map_nil, List.sum_cons, List.sum_nil, h1, and_false, if_false, and_true]
    by_cases k1 : l.ask = t <;> by_cases k2 : l.offer = t <;> by_cases k3 : l.feeTo = r <;> simp [k1, k2, k3] <;> ring

theorem legs_linked {w : World} {F : Addr} {ops : List Multihop.Op} {legs : List Leg} (k : List.Forall₂ (Serves w F) ops legs)
    (hl : Linked ops) : legs.IsChain (fun a b => a.ask = b.offer) := by
  unfold Linked at hl
  induction k with
  | nil => simp
  | @cons o l os ls h1 k ih =>
    cases k with
    | nil => simp
    | cons h2 h3 =>
      rw [List.isChain_cons_cons] at hl ⊢
      exact ⟨by rw [h1.2.1, h2.1, hl.1], ih hl.2⟩

theorem legs_ends {w : World} {F : Addr} {ops : List Multihop.Op} {legs : List Leg} (k : List.Forall₂ (Serves w F) ops legs)
    (ho : ops ≠ []) : ∃ (hl : legs ≠ []), (legs.head hl).offer = (ops.head ho).offer ∧
      (legs.getLast hl).ask = (ops.getLast ho).ask := by
  induction k with
  | nil => exact absurd rfl ho
  | @cons o l os ls h1 k ih =>
    cases k with
    | nil => exact ⟨by simp, h1.1, h1.2.1⟩
    | @cons o2 l2 os ls h2 h3 =>
      obtain ⟨h4, _, k⟩ := ih (by simp)
      refine ⟨by simp, h1.1, ?_⟩
      rw [List.getLast_cons h4, List.getLast_cons (List.cons_ne_nil o2 os)]
      exact k

/-! ### C45 -/

/-- **C45** If a route succeeds in a reachable state, it is not empty, each operation offers what
the previous one asked for, and the recipient signed.  It consists of one hop for every operation,
in the pool the factory has registered for the pair; the first hop puts in `amount`, every later
one exactly what the previous one paid out, every hop pays at least its minimum, and the last one
pays the value returned.  All balances of all tokens change by exactly these movements and nothing
else about the tokens changes.  The state afterwards is the state after the recipient's own direct
swaps, all of which succeed. -/
theorem C45_route_is_chain (hh : HostOK h acct) (g : Genesis acct w0) {ts : List Tx} (hp : ∀ t ∈ ts, Possible acct t)
    {w : World} (hw : w = run h w0 ts) {c : Ctx} {H r : Addr} {ops : List Multihop.Op} {sp mf : Option Int} {dl : Option Nat}
    {amount out : Int} {w' : World} (hc : Possible acct ⟨c, .hopSwap H r ops sp amount dl mf⟩)
    (e : hopSwap w c H r ops sp amount dl mf = .ok (w', out)) :
    ops ≠ [] ∧ Linked ops ∧ c.signed r = true ∧ ∃ m, w.hop H = some m ∧ ∃ legs : List Leg,
      List.Forall₂ (Serves w m.factory) ops legs ∧ Passes amount legs out ∧
      Settles w.led w'.led (legs.flatMap (Leg.flows r)) ∧ SameRights w.led w'.led ∧
      Succeed h w (directly w c r sp dl mf ops legs) w' := by
  subst hw
  obtain ⟨I, -⟩ := run_inv hh (Phoenix.World.genesis_inv (h := h) g) hp
  obtain ⟨h1, h2, h3, m, hm, hl⟩ := hopSwap_ok.mp e
  have hs : c.signed r = true := by
    have hi : c.invoker = none := hc.1
    simpa [Ctx.auth, hi] using h3
  rw [hopLoop_as hs] at hl
  obtain ⟨legs, a1, a2, a3, a4, a5, -⟩ := hopLoop_legs I hc.2 hc.1 hl
  exact ⟨h1, h2, hs, m, hm, legs, a1, a2, a3, a4, a5⟩

/-- **C45** Conversely, a route succeeds, with the same result, whenever the recipient could
perform the chain of direct swaps.  (`Chain` is the sequence of the single swaps.) -/
theorem C45_route_iff {w w' : World} {c : Ctx} {H r : Addr} {ops : List Multihop.Op} {sp mf : Option Int} {dl : Option Nat}
    {amount out : Int} (hs : c.signed r = true) :
    hopSwap w c H r ops sp amount dl mf = .ok (w', out) ↔
      ops ≠ [] ∧ Linked ops ∧ ∃ m, w.hop H = some m ∧ Chain c m.factory r sp dl mf w ops amount w' out := by
  rw [hopSwap_ok]
  have ha : c.auth r = true := by simp [Ctx.auth, hs]
  simp only [hopLoop_as hs, hopLoop_chain, ha, true_and]

/-- **C45** The net effect for the recipient: they pay `amount` of the first offered asset and
receive the final return of the last asset; all other assets on the way net to zero.  (Should the
recipient also be the fee recipient of pools on the way, they get those fees on top.) -/
theorem C45_net_effect (hh : HostOK h acct) (g : Genesis acct w0) {ts : List Tx} (hp : ∀ t ∈ ts, Possible acct t)
    {w : World} (hw : w = run h w0 ts) {c : Ctx} {H r : Addr} {ops : List Multihop.Op} {sp mf : Option Int} {dl : Option Nat}
    {amount out : Int} {w' : World} (hc : Possible acct ⟨c, .hopSwap H r ops sp amount dl mf⟩)
    (e : hopSwap w c H r ops sp amount dl mf = .ok (w', out)) :
    0 < amount ∧ 0 ≤ out ∧ ∃ hne : ops ≠ [],
      (∀ m, (ops.getLast hne).min = some m → m ≤ out) ∧
      ∃ legs : List Leg, Passes amount legs out ∧
      ∀ t, w'.led.bal t r = w.led.bal t r
        - (if (ops.head hne).offer = t then amount else 0)
        + (if (ops.getLast hne).ask = t then out else 0)
        + (legs.map (fun l => if l.feeTo = r ∧ l.ask = t then l.fee else 0)).sum := by
  obtain ⟨h1, h2, hs, m, hm, legs, a1, a2, a3, -⟩ := C45_route_is_chain hh g hp hw hc e
  subst hw
  obtain ⟨I, -⟩ := run_inv hh (Phoenix.World.genesis_inv (h := h) g) hp
  obtain ⟨hl, e1, e2⟩ := legs_ends a1 h1
  have hr : acct r := hc.2 r hs
  have hpool : ∀ l ∈ legs, l.pool ≠ r := by
    intro l hl
    obtain ⟨op, -, hop⟩ : ∃ op ∈ ops, Serves (run h w0 ts) m.factory op l := by
      clear * - a1 hl
      induction a1 with
      | nil => simp at hl
      | cons k _ ih =>
        rcases List.mem_cons.mp hl with rfl | hl
        · exact ⟨_, by simp, k⟩
        · obtain ⟨op, ho, h⟩ := ih hl; exact ⟨op, by simp [ho], h⟩
    intro hx
    have : ¬ acct l.pool := I.core.contracts _ (by
      rcases hop.2.2.2.1 with ⟨k, -⟩ | ⟨k, -⟩ <;> rw [k] <;> simp)
    exact this (hx ▸ hr)
  have fst : 0 < amount := by
    cases a1 with
    | nil => exact absurd rfl h1
    | cons k _ => obtain ⟨rfl, -⟩ := a2; exact k.2.2.2.2.2.1
  have lst : ∀ {ops : List Multihop.Op} {legs : List Leg} {x y : Int}, List.Forall₂ (Serves (run h w0 ts) m.factory) ops legs →
      Passes x legs y → ∀ hne : ops ≠ [], 0 ≤ y ∧ ∀ m, (ops.getLast hne).min = some m → m ≤ y := by
    intro ops legs x y k
    induction k generalizing x y with
    | nil => intro _ hne; exact absurd rfl hne
    | @cons o l os ls k ks ih =>
      intro hps hne
      obtain ⟨rfl, hps⟩ := hps
      cases ks with
      | nil => simp only [Passes] at hps; subst hps; exact ⟨k.2.2.2.2.2.2.1, by simpa using k.2.2.2.2.1⟩
      | cons k' ks' =>
        rw [List.getLast_cons (by simp)]
        exact ih hps (by simp)
  obtain ⟨b1, b2⟩ := lst a1 a2 h1
  refine ⟨fst, b1, h1, b2, legs, a2, fun t => ?_⟩
  rw [a3 t r, net_sum hl a2 (legs_linked a1 h2) hpool, e1, e2]
  ring

/-- The state of the example with two pools. -/
def exW : World := run Example.host Example.start (Example.setup ++ Example.liquidity)

/-- A route of account 2 from token 20 over 21 to 22, through an XYK and a stable pool: all
hypotheses of the C45 and C46 theorems hold. -/
theorem ex_route : ∃ w', hopSwap exW (Example.by' 2) Example.router 2 [⟨21, 20, some 1990⟩, ⟨22, 21, some 1980⟩] none 1000 none none =
      .ok (w', 1989) ∧ (w'.led.bal 20 2, w'.led.bal 21 2, w'.led.bal 22 2) = (4999000, 5000000, 5001989) := by
  obtain ⟨q, h1, h2⟩ := exists_of_okAnd (x := hopSwap exW (Example.by' 2) Example.router 2
    [⟨21, 20, some 1990⟩, ⟨22, 21, some 1980⟩] none 1000 none none)
    (P := fun q => q.2 == 1989 && decide ((q.1.led.bal 20 2, q.1.led.bal 21 2, q.1.led.bal 22 2) = (4999000, 5000000, 5001989)))
    (by decide +kernel)
  simp only [Bool.and_eq_true, beq_iff_eq, decide_eq_true_eq] at h2
  exact ⟨q.1, by rw [h1, ← h2.1], h2.2⟩

example : ∃ (w' : World) (out : Int), ∃ legs : List Leg, exW.hop Example.router = some ⟨8, 50⟩ ∧
    List.Forall₂ (Serves exW 50) [⟨21, 20, some 1990⟩, ⟨22, 21, some 1980⟩] legs ∧ Passes 1000 legs out ∧
    Settles exW.led w'.led (legs.flatMap (Leg.flows 2)) := by
  obtain ⟨w', e, -⟩ := ex_route
  obtain ⟨-, -, -, m, hm, legs, h1, h2, h3, -⟩ := C45_route_is_chain World.ex_host World.ex_genesis World.ex_setup rfl
    (World.possible_by (by decide)) e
  have hm' : exW.hop Example.router = some ⟨8, 50⟩ := by decide +kernel
  have : m = ⟨8, 50⟩ := Option.some.inj (hm.symm.trans hm')
  subst this
  exact ⟨w', _, legs, hm', h1, h2, h3⟩

/-! ### C46 -/

/-- **C46** If a route succeeds and no pool occurs twice in it, `simulate_swap` on the state before
returns exactly the amount that was paid out, with one commission and one spread per hop. -/
theorem C46_simulation_exact (hh : HostOK h acct) (g : Genesis acct w0) {ts : List Tx} (hp : ∀ t ∈ ts, Possible acct t)
    {w : World} (hw : w = run h w0 ts) {c : Ctx} {H r : Addr} {ops : List Multihop.Op} {sp mf : Option Int} {dl : Option Nat}
    {amount out : Int} {w' : World} (hc : Possible acct ⟨c, .hopSwap H r ops sp amount dl mf⟩)
    (e : hopSwap w c H r ops sp amount dl mf = .ok (w', out))
    (once : ∀ m, w.hop H = some m → (ops.map (fun op => findPool w m.factory op.offer op.ask)).Nodup) :
    ∃ q, hopSimulate w c.now H ops amount = .ok q ∧ q.amount = out ∧
      ∃ legs : List Leg, Passes amount legs out ∧ Settles w.led w'.led (legs.flatMap (Leg.flows r)) ∧
        q.commissions = legs.map (·.fee) ∧ legs.length = ops.length := by
  subst hw
  obtain ⟨I, -⟩ := run_inv hh (Phoenix.World.genesis_inv (h := h) g) hp
  obtain ⟨h1, h2, h3, m, hm, hl⟩ := hopSwap_ok.mp e
  have hs : c.signed r = true := by
    have hi : c.invoker = none := hc.1
    simpa [Ctx.auth, hi] using h3
  rw [hopLoop_as hs] at hl
  obtain ⟨legs, a1, a2, a3, a4, a5, a6⟩ := hopLoop_legs I hc.2 hc.1 hl
  obtain ⟨spreads, k⟩ := a6 (once m hm) ⟨0, [], []⟩
  have k2 : hopSimulate (run h w0 ts) c.now H ops amount = .ok ⟨if ops = [] then 0 else out, [] ++ legs.map (·.fee), [] ++ spreads⟩ := by
    unfold hopSimulate
    simp only [bind_ok, req_ok, hop_loaded]
    exact ⟨(), h1, (), verify_ok.mpr h2, m, hm, k⟩
  exact ⟨_, k2, if_neg h1, legs, a2, a3, rfl, a1.length_eq.symm⟩

example : (hopSimulate exW 10 Example.router [⟨21, 20, none⟩, ⟨22, 21, none⟩] 1000) = .ok ⟨1989, [5, 5], [1, 0]⟩ ∧
    (([⟨21, 20, none⟩, ⟨22, 21, none⟩] : List Multihop.Op).map (fun op => findPool exW 50 op.offer op.ask)) =
      [.ok Example.pool1, .ok Example.pool2] := by decide +kernel

/-- **C46** The condition is needed: with a pool used twice the quote can be wrong.  Here a round
trip through one pool is quoted as 82856 but pays 99429. -/
theorem C46_repeated_pool_differs : ∃ (h : Host) (acct : Accounts) (w0 : World) (ts : List Tx), HostOK h acct ∧ Genesis acct w0 ∧
    (∀ t ∈ ts, Possible acct t) ∧ ∃ (c : Ctx) (H r : Addr) (ops : List Multihop.Op) (w' : World) (q : Quote),
      Possible acct ⟨c, .hopSwap H r ops none 100000 none none⟩ ∧
      hopSwap (run h w0 ts) c H r ops none 100000 none none = .ok (w', 99429) ∧
      hopSimulate (run h w0 ts) c.now H ops 100000 = .ok q ∧ q.amount = 82856 := by
  obtain ⟨q, h1, h2⟩ := exists_of_okAnd (x := hopSwap exW (Example.by' 2) Example.router 2
    [⟨21, 20, none⟩, ⟨20, 21, none⟩] none 100000 none none) (P := fun q => q.2 == 99429) (by decide +kernel)
  rw [beq_iff_eq] at h2
  refine ⟨Example.host, Example.acct, Example.start, Example.setup ++ Example.liquidity, World.ex_host, World.ex_genesis,
    World.ex_setup, Example.by' 2, Example.router, 2, [⟨21, 20, none⟩, ⟨20, 21, none⟩], q.1, ⟨82856, [545, 249], [18181, 7532]⟩,
    World.possible_by (by decide), ?_, ?_, rfl⟩
  · rw [← h2]; exact h1
  · decide +kernel

/-! ### C47 -/

/-- **C47** A route that does not succeed, for whatever reason and at whichever hop, leaves the
state of all contracts and all balances as they were. -/
theorem C47_failed_unchanged {w : World} {c : Ctx} {H r : Addr} {ops : List Multihop.Op} {sp mf : Option Int}
    {dl : Option Nat} {amount : Int} {er : Err} (e : hopSwap w c H r ops sp amount dl mf = .error er) :
    exec h w ⟨c, .hopSwap H r ops sp amount dl mf⟩ = w := by
  unfold exec
  split
  · rename_i w1 k
    simp only [step, bind_ok, Prod.exists, e] at k
    obtain ⟨_, _, _, _, k, _⟩ := k
    simp at k
  · rfl

/-- **C47** If the single swaps before some hop succeed and that hop fails (its pool is not found,
or the pool refuses the swap), the whole route leaves everything as it was, including the effects
of the earlier hops. -/
theorem C47_failed_hop_undoes {w w1 : World} {c : Ctx} {H r : Addr} {pre post : List Multihop.Op} {op : Multihop.Op}
    {sp mf : Option Int} {dl : Option Nat} {amount x : Int} {m : Phoenix.Multihop.State} (hs : c.signed r = true)
    (hm : w.hop H = some m) (before : Chain c m.factory r sp dl mf w pre amount w1 x)
    (fails : ∀ P, findPool w1 m.factory op.offer op.ask = .ok P →
      ∀ w2 y, ¬ Trades w1 c P r op.offer x op.min sp dl mf w2 y) :
    exec h w ⟨c, .hopSwap H r (pre ++ op :: post) sp amount dl mf⟩ = w := by
  cases e : hopSwap w c H r (pre ++ op :: post) sp amount dl mf with
  | error er => exact C47_failed_unchanged e
  | ok q =>
    exfalso
    obtain ⟨w2, out⟩ := q
    obtain ⟨-, -, m', hm', k⟩ := (C45_route_iff hs).mp e
    rw [hm] at hm'; obtain rfl := Option.some.inj hm'
    clear e hm
    generalize hl : pre ++ op :: post = l at k
    induction before generalizing l with
    | done w x =>
      subst hl
      cases k with
      | hop f s _ => exact fails _ f _ _ s
    | hop f s _ ih =>
      subst hl
      cases k with
      | hop f' s' rest =>
        rw [f] at f'; obtain rfl := Except.ok.inj f'
        have s := trades_iff.mpr s
        rw [trades_iff.mpr s'] at s
        obtain ⟨rfl, rfl⟩ := Prod.mk.inj (Except.ok.inj s)
        exact ih fails _ rfl rest

/-- **C47** Without the recipient's authorisation, with an empty list of operations, or with
operations that do not link up, a route never does anything. -/
theorem C47_refused {w : World} {c : Ctx} {H r : Addr} {ops : List Multihop.Op} {sp mf : Option Int} {dl : Option Nat}
    {amount : Int} (k : c.auth r = false ∨ ops = [] ∨ ¬ Linked ops) :
    exec h w ⟨c, .hopSwap H r ops sp amount dl mf⟩ = w := by
  cases e : hopSwap w c H r ops sp amount dl mf with
  | error er => exact C47_failed_unchanged e
  | ok q =>
    exfalso
    obtain ⟨h1, h2, h3, -⟩ := hopSwap_ok.mp e
    rcases k with k | k | k
    · rw [k] at h3; simp at h3
    · exact h1 k
    · exact k h2

/-- The second hop of this route asks for more than the pool pays; the first one alone succeeds. -/
example : (hopSwap exW (Example.by' 2) Example.router 2 [⟨21, 20, none⟩, ⟨22, 21, some 1990⟩] none 1000 none none).isOk = false ∧
    (hopSwap exW (Example.by' 2) Example.router 2 [⟨21, 20, none⟩] none 1000 none none).isOk = true := by
  decide +kernel

/-! ### C80 -/

/-- All pools on a route are XYK pools. -/
def AllXyk (w : World) (F : Addr) (ops : List Multihop.Op) : Prop :=
  ∀ op ∈ ops, ∀ P, findPool w F op.offer op.ask = .ok P → w.code P = .xyk

/-- Reverse quotes of XYK pools, chained: `x` is wanted from the first operation of the list, each
quote becomes the amount wanted from the next one, and `y` is the last quote. -/
inductive Backwards (w : World) (F : Addr) : List Multihop.Op → Int → Int → Prop where
  | done (x : Int) : Backwards w F [] x x
  | hop {op : Multihop.Op} {ops : List Multihop.Op} {x y z com spread : Int} {P : Addr} {p : Pool.State}
      (find : findPool w F op.offer op.ask = .ok P) (pool : w.xyk P = some p)
      (quote : Pool.simulateReverseSwap p op.ask x = .ok (y, spread, com)) (rest : Backwards w F ops y z) :
      Backwards w F (op :: ops) x z

theorem revLoop_back {w : World} {now : Nat} {F : Addr} : ∀ {ops : List Multihop.Op} {x : Int} {q q' : Quote},
    AllXyk w F ops → revLoop w now F ops x q = .ok q' → ops ≠ [] → Backwards w F ops x q'.amount
  | [], _, _, _, _, _, hne => absurd rfl hne
  | op :: ops, x, q, q', hx, e, _ => by
    simp only [revLoop, bind_ok, Prod.exists] at e
    obtain ⟨P, hP, a, com, spread, hq, e⟩ := e
    have hcode := hx op (by simp) P hP
    simp only [poolSimulateReverse, hcode, bind_ok, Prod.exists, ok_inj, Prod.mk.injEq] at hq
    obtain ⟨p, hp, a', spread', com', hq, rfl, rfl, rfl⟩ := hq
    have hp := pool_loaded hp
    cases ops with
    | nil =>
      simp only [revLoop, ok_inj] at e
      subst e
      exact .hop hP hp hq (.done _)
    | cons o os =>
      exact .hop hP hp hq (revLoop_back (fun o' ho P' hP' => hx o' (by simp [ho]) P' hP') e (by simp))

/-- **C80** For routes of XYK pools `simulate_reverse_swap` chains the reverse quotes of the pools,
each asking for the amount the one before it must be offered. -/
theorem C80_xyk_reverse_chain {w : World} {now : Nat} {H : Addr} {m : Phoenix.Multihop.State} {ops : List Multihop.Op}
    {x : Int} {q : Quote} (hm : w.hop H = some m) (hx : AllXyk w m.factory ops)
    (e : hopSimulateReverse w now H ops x = .ok q) : Backwards w m.factory ops x q.amount := by
  unfold hopSimulateReverse at e
  simp only [bind_ok, req_ok, hop_loaded] at e
  obtain ⟨_, h1, _, -, m', hm', e⟩ := e
  rw [hm] at hm'; obtain rfl := Option.some.inj hm'
  exact revLoop_back hx e h1

/-- **C80** Through a stable pool the quote is for the wrong direction: the amount returned for an
operation that offers `op.offer` is the pool's quote for offering `op.ask`. -/
theorem C80_stable_wrong_side {w : World} {now : Nat} {H P : Addr} {m : Phoenix.Multihop.State} {op : Multihop.Op}
    {p : Stable.State} {x : Int} {q : Quote} (hm : w.hop H = some m) (hf : findPool w m.factory op.offer op.ask = .ok P)
    (hcode : w.code P = .stable) (hp : w.stable P = some p) (e : hopSimulateReverse w now H [op] x = .ok q) :
    ∃ spread com, Stable.simulateReverseSwap now p op.ask x = .ok (q.amount, spread, com) := by
  unfold hopSimulateReverse at e
  simp only [bind_ok, req_ok, hop_loaded] at e
  obtain ⟨_, h1, _, -, m', hm', e⟩ := e
  rw [hm] at hm'; obtain rfl := Option.some.inj hm'
  simp only [revLoop, bind_ok, Prod.exists] at e
  obtain ⟨P', hP, a, com, spread, hq, e⟩ := e
  rw [hf] at hP; obtain rfl := Except.ok.inj hP
  simp only [poolSimulateReverse, hcode, hp, Stable.loaded, bind_ok, Prod.exists, ok_inj, Prod.mk.injEq] at hq
  obtain ⟨p', rfl, a', spread', com', hq, rfl, rfl, rfl⟩ := hq
  obtain rfl := Except.ok.inj e
  exact ⟨_, _, hq⟩

/-- The example after account 2 has sold 900000 of token 21 to the stable pool. -/
def exTs : List Tx := Example.setup ++ Example.liquidity ++
  [⟨Example.by' 2, .stable Example.pool2 (.swap 2 21 900000 none (some 5000) none none)⟩]

/-- **C80** Users expect that offering the quoted amount yields about the amount asked for.  In this
reachable state the router quotes 33632 of token 21 for 10000 of token 22, but swapping that much
pays only 1720; the pool's own quote in the right direction, 44587, pays exactly 10000. -/
theorem C80_reverse_quote_wrong : ∃ (h : Host) (acct : Accounts) (w0 : World) (ts : List Tx), HostOK h acct ∧ Genesis acct w0 ∧
    (∀ t ∈ ts, Possible acct t) ∧ ∃ (H P a b : Addr) (q : Quote) (c s c' s' c2 s2 : Int),
      findPool (run h w0 ts) 50 a b = .ok P ∧
      hopSimulateReverse (run h w0 ts) 10 H [⟨b, a, none⟩] 10000 = .ok q ∧ q.amount = 33632 ∧
      poolSimulate (run h w0 ts) 10 P a 33632 = .ok (1720, c, s) ∧
      poolSimulateReverse (run h w0 ts) 10 P a 10000 = .ok (44587, c', s') ∧
      poolSimulate (run h w0 ts) 10 P a 44587 = .ok (10000, c2, s2) := by
  refine ⟨Example.host, Example.acct, Example.start, exTs, World.ex_host, World.ex_genesis, ?_, Example.router, Example.pool2, 21, 22,
    ⟨33632, [30], [23632]⟩, 5, 31907, 30, 34587, 30, 34557, ?_⟩
  · intro t ht
    rcases List.mem_append.mp ht with k | k
    · exact World.ex_setup t k
    · rw [List.mem_singleton] at k; subst k; exact World.possible_by (by decide)
  · decide +kernel

example : hopSimulateReverse exW 10 Example.router [⟨21, 20, none⟩] 10000 = .ok ⟨5040, [30], [50]⟩ ∧
    findPool exW 50 20 21 = .ok Example.pool1 ∧ exW.code Example.pool1 = .xyk := by decide +kernel

end Phoenix.Props.Multihop
