import Verif.Lemmas.Signed
import Verif.Props.PoolSys
import Verif.Props.StableSys
import Verif.Props.Stake
import Verif.Props.Vesting
import Verif.Props.Multihop
/-!
Property theorems about signatures that cover a tree of invocations (Verif.Model.Signed):
C110 (which transfers the caller signs), C111 (signatures for routes).
-/
namespace Phoenix.Props
open Phoenix Phoenix.Spec

/-! ### C110 -/

/-- **C110** A swap with an XYK pool succeeds exactly if it would with a signature for
everything and the sender signed the transfer of exactly the offered amount to the pool.  The
result is the same, and only this transfer is used up. -/
theorem C110_swap {me : Addr} {c : Ctx} {p p' : Pool.State} {L L' : Ledger} {s s' : Signed} {sender offer : Addr} {amount ret : Int}
    {mo ms mf : Option Int} {dl : Option Nat} (hne : sender ≠ me) (hs : c.signed sender = true) :
    Pool.swapX signedTokens me c p (L, s) sender offer amount mo ms dl mf = .ok (p', (L', s'), ret) ↔
      Pool.swap me c p L sender offer amount mo ms dl mf = .ok (p', L', ret) ∧
      .transfer offer sender me amount ∈ s sender ∧ s' = s.use sender (.transfer offer sender me amount) :=
  Pool.swapS_ok hne hs

/-- **C110** The same for a stable pool. -/
theorem C110_stable_swap {me : Addr} {c : Ctx} {p p' : Stable.State} {L L' : Ledger} {s s' : Signed} {sender offer : Addr}
    {amount ret : Int} {mo ms mf : Option Int} {dl : Option Nat} (hne : sender ≠ me) (hs : c.signed sender = true) :
    Stable.swapX signedTokens me c p (L, s) sender offer amount mo ms dl mf = .ok (p', (L', s'), ret) ↔
      Stable.swap me c p L sender offer amount mo ms dl mf = .ok (p', L', ret) ∧
      .transfer offer sender me amount ∈ s sender ∧ s' = s.use sender (.transfer offer sender me amount) :=
  Stable.swapS_ok hne hs

/-- **C110** A withdrawal from an XYK pool needs the signature for the transfer of the shares that
are given back, and for nothing else. -/
theorem C110_withdraw {me : Addr} {c : Ctx} {p p' : Pool.State} {L L' : Ledger} {s s' : Signed} {sender : Addr}
    {sh mA mB ra rb : Int} {dl : Option Nat} (hne : sender ≠ me) (hs : c.signed sender = true) :
    Pool.withdrawX signedTokens me c p (L, s) sender sh mA mB dl = .ok (p', (L', s'), ra, rb) ↔
      Pool.withdraw me c p L sender sh mA mB dl = .ok (p', L', ra, rb) ∧
      .transfer p.cfg.shareToken sender me sh ∈ s sender ∧ s' = s.use sender (.transfer p.cfg.shareToken sender me sh) :=
  Pool.withdrawS_ok hne hs

/-- **C110** The same for a stable pool. -/
theorem C110_stable_withdraw {me : Addr} {c : Ctx} {p p' : Stable.State} {L L' : Ledger} {s s' : Signed} {sender : Addr}
    {sh mA mB ra rb : Int} {dl : Option Nat} (hne : sender ≠ me) (hs : c.signed sender = true) :
    Stable.withdrawX signedTokens me c p (L, s) sender sh mA mB dl = .ok (p', (L', s'), ra, rb) ↔
      Stable.withdraw me c p L sender sh mA mB dl = .ok (p', L', ra, rb) ∧
      .transfer p.cfg.shareToken sender me sh ∈ s sender ∧ s' = s.use sender (.transfer p.cfg.shareToken sender me sh) :=
  Stable.withdrawS_ok hne hs

/-- **C110** A deposit into an XYK pool needs signatures for the two transfers with exactly the
amounts by which the pool's balances grow.  The pool computes these amounts from its reserves at
the time of the call: they are not arguments of the call. -/
theorem C110_deposit {me : Addr} {g : Pool.Sys} (h0 : Spec.Genesis me g) (ts : List Pool.Tx) (ht : ∀ t ∈ ts, Spec.Possible me t)
    {p p' : Pool.State} (hp : (Pool.run me g ts).pool = some p) {c : Ctx} {L L' : Ledger} (hL : L = (Pool.run me g ts).led)
    {s s' : Signed} {sender : Addr} {dA mA dB mB cu : Option Int} {dl : Option Nat} (hne : sender ≠ me)
    (hs : c.signed sender = true) (hme : c.auth me = false) :
    Pool.provideX signedTokens me c p (L, s) sender dA mA dB mB cu dl = .ok (p', (L', s')) ↔
      Pool.provide me c p L sender dA mA dB mB cu dl = .ok (p', L') ∧
      ∃ a b, L'.bal p.cfg.tokenA me = L.bal p.cfg.tokenA me + a ∧ L'.bal p.cfg.tokenB me = L.bal p.cfg.tokenB me + b ∧
        .transfer p.cfg.tokenA sender me a ∈ s sender ∧ .transfer p.cfg.tokenB sender me b ∈ s sender ∧
        s' = (s.use sender (.transfer p.cfg.tokenA sender me a)).use sender (.transfer p.cfg.tokenB sender me b) := by
  have hP := (Pool.run_keeps ts ht (genesis_inv h0)).pool p hp
  subst hL
  rw [Pool.provideS_ok hne hs hP.distinct.1 hP.admin]
  have key : Pool.provide me c p (Pool.run me g ts).led sender dA mA dB mB cu dl = .ok (p', L') →
      ∃ a b, Pool.chooseAmounts p dA mA dB mB cu = .ok (a, b) ∧
        L'.bal p.cfg.tokenA me = (Pool.run me g ts).led.bal p.cfg.tokenA me + a ∧
        L'.bal p.cfg.tokenB me = (Pool.run me g ts).led.bal p.cfg.tokenB me + b := by
    intro h
    obtain ⟨a, b, m, lock, -, -, -, h1, -, -, -, -, -, -, h2, -⟩ := Pool.provide_inv h hme hP.distinct
    obtain ⟨d1, d2, d3⟩ := hP.distinct
    refine ⟨a, b, h1, ?_, ?_⟩
    · rw [h2]; simp [Flow.delta, d2, Ne.symm d1, hne]
    · rw [h2]; simp [Flow.delta, d1, d3, hne]
  constructor
  · rintro ⟨h, a, b, h1, h2⟩
    obtain ⟨a', b', h3, h4, h5⟩ := key h
    rw [h1] at h3
    simp only [ok_inj, Prod.mk.injEq] at h3
    obtain ⟨rfl, rfl⟩ := h3
    exact ⟨h, a, b, h4, h5, h2⟩
  · rintro ⟨h, a, b, h1, h2, h3⟩
    obtain ⟨a', b', h4, h5, h6⟩ := key h
    have e1 : a' = a := by omega
    have e2 : b' = b := by omega
    subst e1 e2
    exact ⟨h, a', b', h4, h3⟩

/-- **C110** A deposit into a stable pool moves exactly the amounts given as arguments, so the two
signatures are known in advance. -/
theorem C110_stable_deposit {me : Addr} {g : Stable.Sys} (h0 : Stable.Spec.Genesis me g) (ts : List Stable.Tx)
    (ht : ∀ t ∈ ts, Stable.Spec.Possible me t) {p p' : Stable.State} (hp : (Stable.run me g ts).pool = some p) {c : Ctx} {L L' : Ledger}
    (hL : L = (Stable.run me g ts).led) {s s' : Signed} {sender : Addr} {a b : Int} {cu : Option Int} {dl mn : Option Nat}
    (hne : sender ≠ me) (hs : c.signed sender = true) :
    Stable.provideX signedTokens me c p (L, s) sender a b cu dl mn = .ok (p', (L', s')) ↔
      Stable.provide me c p L sender a b cu dl mn = .ok (p', L') ∧
        .transfer p.cfg.tokenA sender me a ∈ s sender ∧ .transfer p.cfg.tokenB sender me b ∈ s sender ∧
        s' = (s.use sender (.transfer p.cfg.tokenA sender me a)).use sender (.transfer p.cfg.tokenB sender me b) := by
  have hP := (Stable.run_keeps ts ht (Stable.genesis_inv h0)).pool p hp
  subst hL
  exact Stable.provideS_ok hne hs hP.distinct.1 hP.admin

/-- **C110** Bonding needs the signature for the transfer of the bonded amount of LP tokens. -/
theorem C110_bond {me : Addr} {c : Ctx} {v v' : Stake.State} {L L' : Ledger} {s s' : Signed} {sender : Addr} {x : Int}
    (hne : sender ≠ me) (hs : c.signed sender = true) :
    Stake.bondX signedTokens me c v (L, s) sender x = .ok (v', (L', s')) ↔ Stake.bond me c v L sender x = .ok (v', L') ∧
      ∃ cfg, v.cfg = some cfg ∧ .transfer cfg.lpToken sender me x ∈ s sender ∧
        s' = s.use sender (.transfer cfg.lpToken sender me x) :=
  Stake.bondS_ok hne hs

/-- **C110** Distributing rewards needs the signature for the transfer of the distributed amount. -/
theorem C110_distribute {me : Addr} {c : Ctx} {v v' : Stake.State} {L L' : Ledger} {s s' : Signed} {sender tok : Addr} {x : Int}
    (hne : sender ≠ me) (hs : c.signed sender = true) :
    Stake.distributeX signedTokens me c v (L, s) sender x tok = .ok (v', (L', s')) ↔
      Stake.distribute me c v L sender x tok = .ok (v', L') ∧
      .transfer tok sender me x ∈ s sender ∧ s' = s.use sender (.transfer tok sender me x) :=
  Stake.distributeS_ok hne hs

/-- **C110** Unbonding, withdrawing rewards and claiming vested tokens need no signature beyond the
one for the call itself. -/
theorem C110_no_further_signature :
    (∀ {me : Addr} {c : Ctx} {v v' : Stake.State} {L L' : Ledger} {s s' : Signed} {a : Addr} {x : Int} {at' : Nat},
      Stake.unbondX signedTokens me c v (L, s) a x at' = .ok (v', (L', s')) ↔ Stake.unbond me c v L a x at' = .ok (v', L') ∧ s' = s) ∧
    (∀ {me : Addr} {c : Ctx} {v v' : Stake.State} {L L' : Ledger} {s s' : Signed} {a : Addr},
      Stake.withdrawX signedTokens me c v (L, s) a = .ok (v', (L', s')) ↔ Stake.withdraw me c v L a = .ok (v', L') ∧ s' = s) ∧
    (∀ {me : Addr} {c : Ctx} {v v' : Vesting.State} {L L' : Ledger} {s s' : Signed} {a : Addr} {i : Nat},
      Vesting.claimX signedTokens me c v (L, s) a i = .ok (v', (L', s')) ↔ Vesting.claim me c v L a i = .ok (v', L') ∧ s' = s) :=
  ⟨Stake.unbondS_ok, Stake.withdrawS_ok, Vesting.claimS_ok⟩

/-- **C110** Creating vesting schedules needs the administrator's signature for one transfer, of
exactly the amount by which the contract's balance grows. -/
theorem C110_create {me : Addr} {c : Ctx} {v v' : Vesting.State} {L L' : Ledger} {s s' : Signed} {l : List (Addr × Curve)}
    (hne : v.admin ≠ me) (hs : c.signed v.admin = true) :
    Vesting.createX signedTokens me c v (L, s) l = .ok (v', (L', s')) ↔ Vesting.create me c v L l = .ok (v', L') ∧
      ∃ x, L'.bal v.token me = L.bal v.token me + x ∧ .transfer v.token v.admin me x ∈ s v.admin ∧
        s' = s.use v.admin (.transfer v.token v.admin me x) := by
  rw [Vesting.createS_ok hne hs]
  have key : Vesting.create me c v L l = .ok (v', L') → ∃ T : Nat, Vesting.createLoop v 0 l = .ok (v', T) ∧
      L'.bal v.token me = L.bal v.token me + T := by
    intro h
    obtain ⟨-, -, -, T, h1, -, -, h2, -⟩ := Vesting.create_inv h
    refine ⟨T, h1, ?_⟩
    rw [h2]; simp [Flow.delta, hne]
  constructor
  · rintro ⟨h, T, h1, h2⟩
    obtain ⟨T', h3, h4⟩ := key h
    rw [h1] at h3
    simp only [ok_inj, Prod.mk.injEq, true_and] at h3
    subst h3
    exact ⟨h, T, h4, h2⟩
  · rintro ⟨h, x, h1, h2⟩
    obtain ⟨T, h3, h4⟩ := key h
    have e : x = T := by omega
    subst e
    exact ⟨h, T, h3, h2⟩

/-- the two transfers account 2 signs for a deposit of at most 100000 : 200500 after `exHist` -/
def exSigned : Signed := fun a => if a = 2 then [.transfer 10 2 100 100000, .transfer 11 2 100 199600] else []
/-- the deposit with these signatures in the state after `ts`: amounts taken, or the error -/
def exDeposit (ts : List Pool.Tx) : Res (Int × Int) := do
  let p ← Pool.loaded (Pool.run 100 exStart ts).pool
  let L := (Pool.run 100 exStart ts).led
  let (_, S) ← Pool.provideX signedTokens 100 (by' 2) p (L, exSigned) 2 (some 100000) (some 50000) (some 200500) (some 50000) none none
  .ok (L.bal 10 2 - S.1.bal 10 2, L.bal 11 2 - S.1.bal 11 2)
/-- the same deposit with a signature for everything -/
def exPlain (ts : List Pool.Tx) : Res (Int × Int) := do
  let p ← Pool.loaded (Pool.run 100 exStart ts).pool
  let L := (Pool.run 100 exStart ts).led
  let (_, L') ← Pool.provide 100 (by' 2) p L 2 (some 100000) (some 50000) (some 200500) (some 50000) none none
  .ok (L.bal 10 2 - L'.bal 10 2, L.bal 11 2 - L'.bal 11 2)

/-- **C110** The signature for an XYK deposit expires with the price: here a deposit of at most 100000 :
200500 and at least 50000 : 50000 is signed for the amounts 100000 : 199600 it would move, and
accepted.  If another account swaps 1000 units first, the deposit would be well within these
limits, moving 100000 : 198985, but the signed one is refused. -/
theorem C110_deposit_signature_expires :
    let sw : Pool.Tx := .pool (by' 1) (.swap 1 10 1000 none none none none)
    exPlain exHist = .ok (100000, 199600) ∧ exDeposit exHist = .ok (100000, 199600) ∧
    exPlain (exHist ++ [sw]) = .ok (100000, 198985) ∧ exDeposit (exHist ++ [sw]) = .error .auth := by
  decide +kernel

/-- Swaps and withdrawals in the example: with the signature for exactly the amount of the call they
go through, whatever else was signed, and with another amount they do not. -/
example : ∃ p, (Pool.run 100 exStart exHist).pool = some p ∧
    let L := (Pool.run 100 exStart exHist).led
    let one (i : Inv) : Signed := fun a => if a = 1 then [i] else []
    (Pool.swapX signedTokens 100 (by' 1) p (L, one (.transfer 10 1 100 1000)) 1 10 1000 none none none none).map (·.2.2) = .ok 1988 ∧
    (Pool.swapX signedTokens 100 (by' 1) p (L, one (.transfer 10 1 100 1001)) 1 10 1000 none none none none).map (·.2.2) = .error .auth ∧
    (Pool.withdrawX signedTokens 100 (by' 1) p (L, one (.transfer 12 1 100 1000)) 1 1000 1 1 none).map (·.2.2) = .ok (707, 1412) ∧
    (Pool.withdrawX signedTokens 100 (by' 1) p (L, one (.transfer 12 1 100 999)) 1 1000 1 1 none).map (·.2.2) = .error .auth := by
  decide +kernel

/-- A stable deposit with the signatures known in advance. -/
example : ∃ p, (Stable.run 100 (Stable.exStart 7 7) Stable.exLong).pool = some p ∧
    let L := (Stable.run 100 (Stable.exStart 7 7) Stable.exLong).led
    (Stable.provideX signedTokens 100 (by' 2) p (L, fun a => if a = 2 then [.transfer 10 2 100 1000, .transfer 11 2 100 900] else [])
      2 1000 900 none none none).toOption.isSome = true := by
  decide +kernel

/-- Staking in the example: bonding and distributing go through with the signature for exactly the amount; unbonding and
withdrawing need none. -/
example :
    let z := Stake.run 100 sExStart sExHist
    let one (a : Addr) (i : Inv) : Signed := fun b => if b = a then [i] else []
    (Stake.bondX signedTokens 100 (sBy 2 (sDay 80)) z.st (z.led, one 2 (.transfer 30 2 100 40)) 2 40).toOption.isSome = true ∧
    (Stake.bondX signedTokens 100 (sBy 2 (sDay 80)) z.st (z.led, one 2 (.transfer 30 2 100 41)) 2 40).toOption.isSome = false ∧
    (Stake.distributeX signedTokens 100 (sBy 7 (sDay 80)) z.st (z.led, one 7 (.transfer 40 7 100 50)) 7 50 40).toOption.isSome = true ∧
    (Stake.distributeX signedTokens 100 (sBy 7 (sDay 80)) z.st (z.led, one 7 (.transfer 41 7 100 50)) 7 50 40).toOption.isSome = false ∧
    (Stake.unbondX signedTokens 100 (sBy 2 (sDay 80)) z.st (z.led, fun _ => []) 2 100 (sDay 40)).toOption.isSome = true ∧
    (let y := Stake.run 100 sExStart (sExHist.take 5)
     (Stake.withdrawX signedTokens 100 (sBy 3 (sDay 71)) y.st (y.led, fun _ => []) 1).toOption.isSome = true) := by
  decide +kernel

/-- Vesting in the example: a schedule of 120 tokens needs the signature for the transfer of 120 tokens;
claiming needs none. -/
example : ∃ v, (Vesting.run 100 vExStart (vExHist.take 3)).vest = some v ∧
    let L := (Vesting.run 100 vExStart (vExHist.take 3)).led
    let one (i : Inv) : Signed := fun b => if b = 8 then [i] else []
    (Vesting.createX signedTokens 100 (vBy 8 4) v (L, one (.transfer 30 8 100 120)) [(3, vExSl)]).toOption.isSome = true ∧
    (Vesting.createX signedTokens 100 (vBy 8 4) v (L, one (.transfer 30 8 100 119)) [(3, vExSl)]).toOption.isSome = false ∧
    (Vesting.claimX signedTokens 100 (vBy 1 30) v (L, fun _ => []) 1 0).toOption.isSome = true := by
  decide +kernel

end Phoenix.Props

namespace Phoenix.Props.Multihop
open Phoenix Phoenix.World Phoenix.World.Spec Phoenix.Spec

/-! ### C111 -/

/-- **C111** A route that succeeds with signatures for single invocations is a chain of swaps that
succeeds with the same result under a signature for everything, and the recipient signed
different nodes for its hops, each with exactly the pool and the amount of the hop, and below it
the transfer of this amount. -/
theorem C111_route_signed {w w' : World} {c : Ctx} {H r : Addr} {ops : List Multihop.Op} {sp mf : Option Int} {dl : Option Nat}
    {amount out : Int} {s : List Node} (hs : c.signed r = true) (hr : NoPool w r)
    (e : hopSwapS w c H r ops sp amount dl mf s = .ok (w', out)) :
    hopSwap w c H r ops sp amount dl mf = .ok (w', out) ∧
    ∃ m hops, w.hop H = some m ∧ Via c m.factory r sp dl mf w ops amount w' out hops ∧
      ∃ ns : List Node, List.Subperm ns s ∧
        List.Forall₂ (fun n k : Node => n.inv = k.inv ∧ k.subs ⊆ n.subs) ns (treeFor r sp dl mf ops hops) := by
  unfold hopSwapS at e
  simp only [bind_ok, req_ok, requireAuth_ok, hop_loaded] at e
  obtain ⟨_, h1, _, h2, _, h3, m, hm, hl⟩ := e
  obtain ⟨hops, k1, ns, k2, k3⟩ := hopLoopS_via (c' := c) (by rfl) hs hr hl
  refine ⟨?_, m, hops, hm, k1, ns, k2, k3⟩
  rw [C45_route_iff hs]
  exact ⟨h1, verify_ok.mp h2, m, hm, via_chain.mpr ⟨hops, k1⟩⟩

/-- **C111** Signing the nodes for the pools and amounts that will occur is enough. -/
theorem C111_exact_tree_suffices {w w' : World} {c : Ctx} {H r : Addr} {ops : List Multihop.Op} {sp mf : Option Int} {dl : Option Nat}
    {amount out : Int} {m : Phoenix.Multihop.State} {hops : List (Addr × Int)} (hs : c.signed r = true) (hr : NoPool w r)
    (e : hopSwap w c H r ops sp amount dl mf = .ok (w', out)) (hm : w.hop H = some m)
    (hv : Via c m.factory r sp dl mf w ops amount w' out hops) :
    hopSwapS w c H r ops sp amount dl mf (treeFor r sp dl mf ops hops) = .ok (w', out) := by
  obtain ⟨h1, h2, h3, m', hm', -⟩ := hopSwap_ok.mp e
  rw [hm] at hm'; cases hm'
  unfold hopSwapS
  simp only [bind_ok, req_ok, requireAuth_ok, hop_loaded]
  exact ⟨(), h1, (), verify_ok.mpr h2, (), h3, m, hm, hopLoopS_exact (by rfl) hs hv hr⟩

theorem tree_invs {r : Addr} {sp mf : Option Int} {dl : Option Nat} : ∀ {ops : List Multihop.Op} {k l : List (Addr × Int)},
    (ops.map (·.offer)).Nodup → k.length = ops.length → l.length = ops.length →
    (∀ i ∈ (treeFor r sp dl mf ops k).map (·.inv), i ∈ (treeFor r sp dl mf ops l).map (·.inv)) → k = l
  | [], k, l, _, hk, hl, _ => by simp_all
  | op :: ops, [], _, _, hk, _, _ => by simp at hk
  | op :: ops, _ :: _, [], _, _, hl, _ => by simp at hl
  | op :: ops, a :: k, b :: l, hn, hk, hl, h => by
    have hin : ∀ {o : List Multihop.Op} {q : List (Addr × Int)} {n}, n ∈ (treeFor r sp dl mf o q).map (·.inv) →
        ∃ P x mi, ∃ op' ∈ o, n = .swap P r op'.offer x mi sp dl mf := by
      intro o
      induction o with
      | nil => intro q n hx; simp [treeFor] at hx
      | cons o1 os ih =>
        intro q n hx
        cases q with
        | nil => simp [treeFor] at hx
        | cons q1 qs =>
          simp only [treeFor, List.map_cons, List.mem_cons] at hx
          rcases hx with rfl | hx
          · exact ⟨_, _, _, o1, by simp, rfl⟩
          · obtain ⟨P, x, mi, op', h1, h2⟩ := ih hx
            exact ⟨P, x, mi, op', by simp [h1], h2⟩
    simp only [List.map_cons, List.nodup_cons, List.mem_map, not_exists, not_and] at hn
    have e : a = b := by
      have := h (.swap a.1 r op.offer a.2 op.min sp dl mf) (by simp [treeFor])
      simp only [treeFor, List.map_cons, List.mem_cons] at this
      rcases this with h1 | h1
      · injection h1 with e1 _ _ e2
        exact Prod.ext e1 e2
      · obtain ⟨P, x, mi, op', h2, h3⟩ := hin h1
        injection h3 with _ _ e3
        exact absurd e3.symm (hn.1 op' h2)
    subst e
    congr 1
    refine tree_invs (r := r) (sp := sp) (dl := dl) (mf := mf) (ops := ops) (by simpa using hn.2) (by simpa using hk) (by simpa using hl) (fun i hi => ?_)
    have := h i (by simp only [treeFor, List.map_cons, List.mem_cons]; exact Or.inr hi)
    simp only [treeFor, List.map_cons, List.mem_cons] at this
    rcases this with rfl | h1
    · obtain ⟨P, x, mi, op', h2, h3⟩ := hin hi
      injection h3 with _ _ e3
      exact absurd e3.symm (hn.1 op' h2)
    · exact h1

/-- **C111** A signature made for the pools and amounts `hops` (as a simulation announced them, say)
is good only in a state where the route uses exactly these pools and these amounts: it succeeds
precisely if the route goes through there with `hops`.  (No asset is offered twice on the route.) -/
theorem C111_signature_fixes_amounts {w w' : World} {c : Ctx} {H r : Addr} {ops : List Multihop.Op} {sp mf : Option Int}
    {dl : Option Nat} {amount out : Int} {hops : List (Addr × Int)} (hs : c.signed r = true) (hr : NoPool w r)
    (hn : (ops.map (·.offer)).Nodup) (hlen : hops.length = ops.length) :
    hopSwapS w c H r ops sp amount dl mf (treeFor r sp dl mf ops hops) = .ok (w', out) ↔
      hopSwap w c H r ops sp amount dl mf = .ok (w', out) ∧
      ∃ m, w.hop H = some m ∧ Via c m.factory r sp dl mf w ops amount w' out hops := by
  constructor
  · intro e
    obtain ⟨h1, m, k, hm, hv, ns, h2, h3⟩ := C111_route_signed hs hr e
    have e1 : ns.map (·.inv) = (treeFor r sp dl mf ops k).map (·.inv) := by
      clear h2
      generalize treeFor r sp dl mf ops k = q at h3
      induction h3 with
      | nil => rfl
      | cons a _ ih => simp [a.1, ih]
    have e2 : k = hops := by
      refine tree_invs (r := r) (sp := sp) (dl := dl) (mf := mf) hn (via_length hv) hlen (fun i hi => ?_)
      rw [← e1] at hi
      simp only [List.mem_map] at hi ⊢
      obtain ⟨n, hn', rfl⟩ := hi
      exact ⟨n, h2.subset hn', rfl⟩
    subst e2
    exact ⟨h1, m, hm, hv⟩
  · rintro ⟨e, m, hm, hv⟩
    exact C111_exact_tree_suffices hs hr e hm hv

/-- **C111** A route over one pool does not expire this way: whatever the reserves, if the route goes
through, it does so with the one node for the registered pool and the amount of the call. -/
theorem C111_single_hop {w w' : World} {c : Ctx} {H r P : Addr} {op : Multihop.Op} {sp mf : Option Int} {dl : Option Nat}
    {amount out : Int} {m : Phoenix.Multihop.State} (hs : c.signed r = true) (hr : NoPool w r)
    (e : hopSwap w c H r [op] sp amount dl mf = .ok (w', out)) (hm : w.hop H = some m)
    (hP : findPool w m.factory op.offer op.ask = .ok P) :
    hopSwapS w c H r [op] sp amount dl mf (treeFor r sp dl mf [op] [(P, amount)]) = .ok (w', out) := by
  obtain ⟨-, -, m', hm', hc⟩ := (C45_route_iff hs).mp e
  rw [hm] at hm'; cases hm'
  obtain ⟨hops, hv⟩ := via_chain.mp hc
  have : hops = [(P, amount)] := by
    cases hv with
    | hop f s k =>
      rw [hP] at f; cases f
      cases k; rfl
  subst this
  exact C111_exact_tree_suffices hs hr e hm hv

/-- what account 2 signs for the route of `ex_route` -/
def exTree : List Node :=
  treeFor 2 none none none [⟨21, 20, some 1900⟩, ⟨22, 21, some 1900⟩] [(Example.pool1, 1000), (Example.pool2, 1994)]
/-- its result after the transactions `ts`, with these signatures -/
def exSignedRoute (ts : List Tx) : Res Int := do
  let (_, y) ← hopSwapS (run Example.host exW ts) (Example.by' 2) Example.router 2
    [⟨21, 20, some 1900⟩, ⟨22, 21, some 1900⟩] none 1000 none none exTree
  .ok y
/-- the same with a signature for everything -/
def exPlainRoute (ts : List Tx) : Res Int := do
  let (_, y) ← hopSwap (run Example.host exW ts) (Example.by' 2) Example.router 2
    [⟨21, 20, some 1900⟩, ⟨22, 21, some 1900⟩] none 1000 none none
  .ok y

/-- **C111** The signature for a route over two pools expires with the price of the first: the route
over 20, 21 and 22 with minima 1900 and 1900 is signed for the amounts it would move, and accepted.  If another
account swaps first, the route would still pay 1985, far above the minimum, but the signed one is
refused. -/
theorem C111_route_signature_expires :
    let sw : Tx := ⟨Example.by' 1, .xyk Example.pool1 (.swap 1 20 1000 none none none none)⟩
    exPlainRoute [] = .ok 1989 ∧ exSignedRoute [] = .ok 1989 ∧
    exPlainRoute [sw] = .ok 1985 ∧ exSignedRoute [sw] = .error .auth := by
  decide +kernel

/-- The hypotheses of the C111 theorems hold for this route. -/
example : NoPool exW 2 ∧ (Example.by' 2).signed 2 = true ∧
    ([⟨21, 20, some 1900⟩, ⟨22, 21, some 1900⟩] : List Multihop.Op).map (·.offer) = [20, 21] ∧
    ∃ w' m, hopSwap exW (Example.by' 2) Example.router 2 [⟨21, 20, some 1900⟩, ⟨22, 21, some 1900⟩] none 1000 none none = .ok (w', 1989) ∧
      exW.hop Example.router = some m ∧
      Via (Example.by' 2) m.factory 2 none none none exW [⟨21, 20, some 1900⟩, ⟨22, 21, some 1900⟩] 1000 w' 1989
        [(Example.pool1, 1000), (Example.pool2, 1994)] := by
  have hr : NoPool exW 2 := ⟨by decide +kernel, by decide +kernel⟩
  have hs : (Example.by' 2).signed 2 = true := rfl
  refine ⟨hr, hs, rfl, ?_⟩
  obtain ⟨q, h1, h2⟩ := exists_of_okAnd (x := hopSwapS exW (Example.by' 2) Example.router 2
    [⟨21, 20, some 1900⟩, ⟨22, 21, some 1900⟩] none 1000 none none exTree) (P := fun q => q.2 == 1989) (by decide +kernel)
  simp only [beq_iff_eq] at h2
  have e : hopSwapS exW (Example.by' 2) Example.router 2 [⟨21, 20, some 1900⟩, ⟨22, 21, some 1900⟩] none 1000 none none exTree =
      .ok (q.1, 1989) := by rw [h1, ← h2]
  obtain ⟨h3, m, hm, hv⟩ := (C111_signature_fixes_amounts hs hr (by decide) rfl).mp e
  exact ⟨q.1, m, h3, hm, hv⟩

end Phoenix.Props.Multihop
