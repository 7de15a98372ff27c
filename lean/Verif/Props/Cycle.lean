import Verif.Spec.Cycle
import Verif.Props.Multihop
/-!
C148: a tour through constant product pools brings a gain only if the prices of the pools differ.
-/
namespace Phoenix.Props.Cycle
open Phoenix Phoenix.World Phoenix.World.Spec Phoenix.Spec

variable {h : Host} {acct : Accounts} {w0 : World}

/-- What one stop pays is at most the value at the price before (helper). -/
theorem stop_spot {w w1 : World} {s : Stop} {x y : Int} {c : Ctx} {r : Addr} {mi sp mf : Option Int} {dl : Option Nat}
    (hx : w.code s.pool = .xyk) (hself : c.auth s.pool = false)
    (hne : ∀ p, w.xyk s.pool = some p → p.cfg.tokenA ≠ p.cfg.tokenB)
    (k : Trades w c s.pool r s.offer x mi sp dl mf w1 y) :
    0 < x ∧ 0 ≤ y ∧ 0 < s.offered w ∧ 0 ≤ s.asked w ∧ y * s.offered w ≤ x * s.asked w ∧ w1.code = w.code ∧
      ∀ P, P ≠ s.pool → w1.xyk P = w.xyk P := by
  rcases k with ⟨-, p, p', L, hp, e, rfl⟩ | ⟨k, -⟩
  · obtain ⟨rate, lim, q, h1, h2, h3, h4, h5, h6, h7, h8, h9, rfl, -⟩ := Pool.swap_inv e hself (hne p hp)
    obtain ⟨q1, q2, q3, q4, q5, q6, q7, -⟩ := quote_core h9
    have b := (C02_never_beats_spot h9).1
    have e1 : s.offered w = reserve p s.offer := by simp [Stop.offered, hp]
    have e2 : s.asked w = reserve p (other p s.offer) := by simp [Stop.asked, hp]
    rw [e1, e2]
    refine ⟨h2, q5, q1, q2, ?_, rfl, fun P hP => upd_ne _ _ hP⟩
    unfold grossOf at b
    nlinarith
  · rw [hx] at k; cases k

theorem tour_spot {w w' : World} {l : List Stop} {x z : Int} (T : Tour acct w l x w' z)
    (hs : ∀ c : Ctx, (∀ a, c.signed a = true → acct a) → c.invoker = none → ∀ s ∈ l, c.auth s.pool = false)
    (hx : ∀ s ∈ l, w.code s.pool = .xyk)
    (hne : ∀ s ∈ l, ∀ p, w.xyk s.pool = some p → p.cfg.tokenA ≠ p.cfg.tokenB)
    (once : (l.map (·.pool)).Nodup) :
    z * (l.map (Stop.offered w)).prod ≤ x * (l.map (Stop.asked w)).prod ∧
    0 < (l.map (Stop.offered w)).prod ∧ 0 ≤ (l.map (Stop.asked w)).prod ∧ (l ≠ [] → 0 < x ∧ 0 ≤ z) := by
  induction T with
  | done w x => simp
  | @hop w w1 w' s l x y z c r mi sp dl mf po k T ih =>
    rw [List.map_cons, List.nodup_cons] at once
    obtain ⟨a1, a2, a3, a4, a5, a6, a7⟩ := stop_spot (hx s (by simp)) (hs c po.2 po.1 s (by simp)) (hne s (by simp)) k
    have other : ∀ t ∈ l, w1.xyk t.pool = w.xyk t.pool := fun t ht => a7 _ (fun e => once.1 (e ▸ List.mem_map_of_mem ht))
    have e1 : l.map (Stop.offered w1) = l.map (Stop.offered w) :=
      List.map_congr_left (fun t ht => by simp only [Stop.offered, other t ht])
    have e2 : l.map (Stop.asked w1) = l.map (Stop.asked w) :=
      List.map_congr_left (fun t ht => by simp only [Stop.asked, other t ht])
    obtain ⟨b1, b2, b3, b4⟩ := ih (fun c p q t ht => hs c p q t (by simp [ht])) (fun t ht => by rw [a6]; exact hx t (by simp [ht]))
      (fun t ht p hp => hne t (by simp [ht]) p (by rw [← other t ht]; exact hp)) once.2
    rw [e1, e2] at b1
    rw [e1] at b2
    rw [e2] at b3
    have hz : 0 ≤ z := by
      by_cases hl : l = []
      · subst hl; cases T; exact a2
      · exact (b4 hl).2
    rw [List.map_cons, List.map_cons, List.prod_cons, List.prod_cons]
    refine ⟨?_, mul_pos a3 b2, mul_nonneg a4 b3, fun _ => ⟨a1, hz⟩⟩
    calc z * (s.offered w * (l.map (Stop.offered w)).prod)
        = s.offered w * (z * (l.map (Stop.offered w)).prod) := by ring
      _ ≤ s.offered w * (y * (l.map (Stop.asked w)).prod) := mul_le_mul_of_nonneg_left b1 a3.le
      _ = (y * s.offered w) * (l.map (Stop.asked w)).prod := by ring
      _ ≤ (x * s.asked w) * (l.map (Stop.asked w)).prod := mul_le_mul_of_nonneg_right a5 b3
      _ = x * (s.asked w * (l.map (Stop.asked w)).prod) := by ring

theorem reachable {w w' : World} {l : List Stop} {x z : Int} (hh : HostOK h acct) (g : Genesis acct w0) {ts : List Tx}
    (hp : ∀ t ∈ ts, Possible acct t) (hw : w = run h w0 ts) (T : Tour acct w l x w' z)
    (hx : ∀ s ∈ l, w.code s.pool = .xyk) (once : (l.map (·.pool)).Nodup) :
    z * (l.map (Stop.offered w)).prod ≤ x * (l.map (Stop.asked w)).prod ∧
    0 < (l.map (Stop.offered w)).prod ∧ 0 ≤ (l.map (Stop.asked w)).prod ∧ (l ≠ [] → 0 < x ∧ 0 ≤ z) := by
  subst hw
  obtain ⟨I, -⟩ := run_inv hh (Phoenix.World.genesis_inv (h := h) g) hp
  have hn : ∀ s ∈ l, (run h w0 ts).code s.pool ≠ .none := fun s hs => by rw [hx s hs]; simp
  refine tour_spot T (fun c hc hi s hs => ?_) hx (fun s hs p hq => ?_) once
  · exact I.core.auth_false hc (hn s hs) (by rw [hi]; simp)
  · exact ((I.core.at_ _ (I.core.contracts _ (hn s hs))).xyk.pool p hq).distinct.1

/-- **C148** In whatever state of the protocol: a tour through constant product pools, none of them visited twice, pays at most
what its input is worth at the prices that the pools report before it starts: the output is at most the input times the product of
the reserves asked for, divided by the product of the reserves offered. -/
theorem C148_tour_at_spot (hh : HostOK h acct) (g : Genesis acct w0) {ts : List Tx} (hp : ∀ t ∈ ts, Possible acct t)
    {w : World} (hw : w = run h w0 ts) {l : List Stop} {x z : Int} {w' : World} (T : Tour acct w l x w' z)
    (hx : ∀ s ∈ l, w.code s.pool = .xyk) (once : (l.map (·.pool)).Nodup) :
    z * (l.map (Stop.offered w)).prod ≤ x * (l.map (Stop.asked w)).prod ∧ 0 < (l.map (Stop.offered w)).prod := by
  obtain ⟨a, b, -⟩ := reachable hh g hp hw T hx once
  exact ⟨a, b⟩

/-- **C148** If the prices along the tour multiply to at most one, as they do on a cycle through pools that agree on the prices, the
tour returns at most what was put in. -/
theorem C148_no_gain_without_difference (hh : HostOK h acct) (g : Genesis acct w0) {ts : List Tx} (hp : ∀ t ∈ ts, Possible acct t)
    {w : World} (hw : w = run h w0 ts) {l : List Stop} {x z : Int} {w' : World} (T : Tour acct w l x w' z)
    (hx : ∀ s ∈ l, w.code s.pool = .xyk) (once : (l.map (·.pool)).Nodup)
    (agree : (l.map (Stop.asked w)).prod ≤ (l.map (Stop.offered w)).prod) : z ≤ x := by
  obtain ⟨a, b, c, d⟩ := reachable hh g hp hw T hx once
  by_cases hl : l = []
  · subst hl; cases T; exact le_refl _
  · have := mul_le_mul_of_nonneg_left agree (d hl).1.le
    exact le_of_mul_le_mul_right (by linarith) b

/-- The stops of a route: the pools registered with the factory. -/
theorem chain_tour {w w' : World} {c : Ctx} {F r : Addr} {sp mf : Option Int} {dl : Option Nat} {ops : List Multihop.Op} {x z : Int}
    (hi : c.invoker = none) (hc : ∀ a, c.signed a = true → acct a) (k : Chain c F r sp dl mf w ops x w' z) :
    ∃ l : List Stop, List.Forall₂ (fun op s => s.offer = op.offer ∧ findPool w F op.offer op.ask = .ok s.pool) ops l ∧
      Tour acct w l x w' z := by
  induction k with
  | done w x => exact ⟨[], .nil, .done w x⟩
  | @hop w w1 w' op ops x y z P f s k ih =>
    obtain ⟨l, a, b⟩ := ih
    have hf : ∀ a b, findPool w1 F a b = findPool w F a b := by
      rcases s with ⟨-, _, _, _, -, -, rfl⟩ | ⟨-, _, _, _, -, -, rfl⟩ <;> exact fun _ _ => rfl
    refine ⟨⟨P, op.offer⟩ :: l, .cons ⟨rfl, f⟩ (a.imp (fun _ _ e => ⟨e.1, by rw [← hf]; exact e.2⟩)), ?_⟩
    exact .hop ⟨hi, hc⟩ s b

/-- **C148** The same for routes: the router returns at most what the prices of the registered pools say before the swap. -/
theorem C148_route_at_spot (hh : HostOK h acct) (g : Genesis acct w0) {ts : List Tx} (hp : ∀ t ∈ ts, Possible acct t)
    {w : World} (hw : w = run h w0 ts) {c : Ctx} {H r : Addr} {ops : List Multihop.Op} {sp mf : Option Int} {dl : Option Nat}
    {amount out : Int} {w' : World} (hc : Possible acct ⟨c, .hopSwap H r ops sp amount dl mf⟩)
    (e : hopSwap w c H r ops sp amount dl mf = .ok (w', out)) :
    ∃ (m : Multihop.State) (l : List Stop), w.hop H = some m ∧
      List.Forall₂ (fun op s => s.offer = op.offer ∧ findPool w m.factory op.offer op.ask = .ok s.pool) ops l ∧
      ((∀ s ∈ l, w.code s.pool = .xyk) → (l.map (·.pool)).Nodup →
        out * (l.map (Stop.offered w)).prod ≤ amount * (l.map (Stop.asked w)).prod ∧
        ((l.map (Stop.asked w)).prod ≤ (l.map (Stop.offered w)).prod → out ≤ amount)) := by
  have hs : c.signed r = true := by
    obtain ⟨-, -, h3, -⟩ := Multihop.hopSwap_ok.mp e
    have hi : c.invoker = none := hc.1
    simpa [Ctx.auth, hi] using h3
  obtain ⟨-, -, m, hm, k⟩ := (Multihop.C45_route_iff hs).mp e
  obtain ⟨l, a, T⟩ := chain_tour (acct := acct) hc.1 hc.2 k
  exact ⟨m, l, hm, a, fun hx once => ⟨(C148_tour_at_spot hh g hp hw T hx once).1, C148_no_gain_without_difference hh g hp hw T hx once⟩⟩

/-- three constant product pools between the tokens 20, 21 and 22; the first two prices, 2 and 1, do not fit to the third, 1 -/
def exHistory (third : Int) : List Tx :=
  [ ⟨Example.by' 8, .facInit 50 8 1 2 3 4 [8] 7⟩,
    ⟨Example.by' 8, .create 50 8 (Example.info 20 21) .xyk none 100 1000⟩,
    ⟨Example.by' 8, .create 50 8 (Example.info 21 22) .xyk none 100 1000⟩,
    ⟨Example.by' 8, .create 50 8 (Example.info 20 22) .xyk none 100 1000⟩,
    ⟨Example.by' 1, .xyk 602021 (.provide 1 (some 1000000) none (some 2000000) none none none)⟩,
    ⟨Example.by' 1, .xyk 602122 (.provide 1 (some 1000000) none (some 1000000) none none none)⟩,
    ⟨Example.by' 1, .xyk 602022 (.provide 1 (some 1000000) none (some third) none none none)⟩ ]

theorem ex_possible {n : Int} : ∀ t ∈ exHistory n, Possible Example.acct t := by
  intro t ht
  simp only [exHistory, List.mem_cons, List.not_mem_nil, or_false] at ht
  rcases ht with rfl | rfl | rfl | rfl | rfl | rfl | rfl <;> exact World.possible_by (by decide)

/-- the cycle from token 20 over 21 and 22 back to 20 -/
def exCycle : List Multihop.Op := [⟨21, 20, none⟩, ⟨22, 21, none⟩, ⟨20, 22, none⟩]

/-- **C148** A difference can pay: with prices 2, 1 and 1, account 2 puts in 1000 units, and the cycle returns 1978. -/
theorem C148_difference_pays : ∃ (h : Host) (acct : Accounts) (w0 : World) (ts : List Tx), HostOK h acct ∧ Genesis acct w0 ∧
    (∀ t ∈ ts, Possible acct t) ∧ ∃ (c : Ctx) (H r : Addr) (ops : List Multihop.Op) (w' : World),
      Possible acct ⟨c, .hopSwap H r ops none 1000 none none⟩ ∧
      hopSwap (run h w0 ts) c H r ops none 1000 none none = .ok (w', 1978) := by
  obtain ⟨q, h1, h2⟩ := exists_of_okAnd (x := hopSwap (run Example.host Example.start (exHistory 1000000)) (Example.by' 2) Example.router 2
    exCycle none 1000 none none) (P := fun q => q.2 == 1978) (by decide +kernel)
  rw [beq_iff_eq] at h2
  exact ⟨_, _, _, exHistory 1000000, World.ex_host, World.ex_genesis, ex_possible, Example.by' 2, Example.router, 2, exCycle, q.1,
    World.possible_by (by decide), by rw [← h2]; exact h1⟩

/-- With a third price that fits, 2, the same cycle returns 991 of 1000 units. -/
theorem ex_cycle : ∃ w', hopSwap (run Example.host Example.start (exHistory 2000000)) (Example.by' 2) Example.router 2
    exCycle none 1000 none none = .ok (w', 991) := by
  obtain ⟨q, h1, h2⟩ := exists_of_okAnd (x := hopSwap (run Example.host Example.start (exHistory 2000000)) (Example.by' 2) Example.router 2
    exCycle none 1000 none none) (P := fun q => q.2 == 991) (by decide +kernel)
  rw [beq_iff_eq] at h2
  exact ⟨q.1, by rw [← h2]; exact h1⟩

/-- the stops of that cycle -/
def exStops : List Stop := [⟨602021, 20⟩, ⟨602122, 21⟩, ⟨602022, 22⟩]

/-- All hypotheses are met: three different constant product pools whose prices fit. -/
example : (let w := run Example.host Example.start (exHistory 2000000)
    exCycle.map (fun op => findPool w 50 op.offer op.ask) = exStops.map (fun s => .ok s.pool) ∧
    (∀ s ∈ exStops, w.code s.pool = .xyk) ∧ (exStops.map (·.pool)).Nodup ∧
    exStops.map (Stop.offered w) = [1000000, 1000000, 2000000] ∧
    exStops.map (Stop.asked w) = [2000000, 1000000, 1000000] ∧
    (exStops.map (Stop.asked w)).prod ≤ (exStops.map (Stop.offered w)).prod) := by decide +kernel

end Phoenix.Props.Cycle
