import Verif.Lemmas.WorldFac
import Verif.Spec.Multihop
import Verif.Props.PoolSwap
import Verif.Props.StableSwap
/-! Routes over several pools (helpers only). -/
namespace Phoenix.World
open Phoenix Phoenix.World.Spec Phoenix.Spec

variable {h : Host} {acct : Accounts} {w w' : World} {c : Ctx}

theorem settles_append {L1 L2 L3 : Ledger} {fs gs : List Flow} (h1 : Settles L1 L2 fs) (h2 : Settles L2 L3 gs) :
    Settles L1 L3 (fs ++ gs) := by
  intro t a
  rw [h2 t a, h1 t a, List.map_append, List.sum_append]; ring

theorem sameRights_trans {L1 L2 L3 : Ledger} (h1 : SameRights L1 L2) (h2 : SameRights L2 L3) : SameRights L1 L3 :=
  fun t => ⟨(h2 t).1.trans (h1 t).1, (h2 t).2.1.trans (h1 t).2.1, (h2 t).2.2.trans (h1 t).2.2⟩

/-- The registered pool for a pair. -/
theorem findPool_for (I : Inv h acct w) {F a b P : Addr} (e : findPool w F a b = .ok P) :
    PoolFor w P (min a b) (max a b) ∧ a ≠ b := by
  unfold findPool at e
  simp only [bind_ok, expect_ok] at e
  obtain ⟨_, -, f, hf, hl⟩ := e
  have ho := I.refs.fac F f (fac_loaded hf)
  unfold Factory.lookup Factory.lookupReverted at hl
  split at hl
  · rename_i hq
    rw [ok_inj] at hl; subst hl
    obtain ⟨h1, -, h2, -⟩ := ho.pair _ _ _ hq
    rw [Nat.min_eq_left (Nat.le_of_lt h1), Nat.max_eq_right (Nat.le_of_lt h1)]
    exact ⟨h2, Nat.ne_of_lt h1⟩
  · split at hl
    · rename_i hq
      rw [ok_inj] at hl; subst hl
      obtain ⟨h1, -, h2, -⟩ := ho.pair _ _ _ hq
      rw [Nat.min_eq_right (Nat.le_of_lt h1), Nat.max_eq_left (Nat.le_of_lt h1)]
      exact ⟨h2, Nat.ne_of_gt h1⟩
    · simp at hl

theorem other_of {a b x y t u : Addr} (hne : x ≠ y) (h1 : t = min x y) (h2 : u = max x y) (hab : a = x ∧ b = y) :
    (if a = t then u else t) = b := by
  obtain ⟨rfl, rfl⟩ := hab
  rcases Nat.lt_or_gt_of_ne hne with k | k
  · rw [Nat.min_eq_left (Nat.le_of_lt k)] at h1
    rw [Nat.max_eq_right (Nat.le_of_lt k)] at h2
    subst h1; subst h2; simp
  · rw [Nat.min_eq_right (Nat.le_of_lt k)] at h1
    rw [Nat.max_eq_left (Nat.le_of_lt k)] at h2
    subst h1; subst h2; simp [Nat.ne_of_gt k]

/-- What one swap inside the protocol does. -/
theorem poolSwap_leg {F P r offer ask : Addr} {x y : Int} {mi sp mf : Option Int} {dl : Option Nat} (I : Inv h acct w)
    (hc : Signed acct c) (hi : c.invoker ≠ some P) (hf : findPool w F offer ask = .ok P)
    (e : poolSwap w c P r offer x mi sp dl mf = .ok (w', y)) :
    ∃ fee feeTo spread, Settles w.led w'.led (Leg.flows r ⟨P, offer, ask, x, y, fee, feeTo⟩) ∧ SameRights w.led w'.led ∧
      poolSimulate w c.now P offer x = .ok (y, fee, spread) ∧ (∀ m, mi = some m → m ≤ y) ∧ 0 < x ∧ 0 ≤ y ∧ 0 ≤ fee := by
  obtain ⟨hpf, hne⟩ := findPool_for I hf
  unfold poolSwap at e
  split at e
  · rename_i hcode
    simp only [bind_ok, ok_inj, Prod.exists, Prod.mk.injEq] at e
    obtain ⟨p, hp, p', L, r', hk, rfl, rfl⟩ := e
    have hp' := pool_loaded hp
    have nP := I.core.contracts P (by rw [hcode]; simp)
    have K := (I.core.at_ P nP).xyk.pool p hp'
    have hau := I.core.auth_false hc (P := P) (by rw [hcode]; simp) hi
    have hty : Props.PoolTyped p := by
      refine ⟨K.aB.trans (I.core.typed _ _), K.bB.trans (I.core.typed _ _), K.cfg.spread.2⟩
    obtain ⟨com, spread, hsim, hset, -⟩ := Props.C05_simulation_exact hk hau K.distinct.1 hty
    obtain ⟨rate, lim, q, h1, h2, h3, h4, h5, h6, h7, h8, h9, h10, h11, h12, h13, h14, h15, -⟩ :=
      Pool.swap_inv hk hau K.distinct.1
    have hoth : Phoenix.Spec.other p offer = ask := by
      rcases hpf with ⟨-, p0, hp0, ha, hb⟩ | ⟨k, -⟩
      · rw [hp'] at hp0; cases hp0
        exact other_of hne ha hb ⟨rfl, rfl⟩
      · rw [hcode] at k; simp at k
    obtain ⟨-, -, -, -, hr0, hc0, -⟩ := Props.quote_core h9
    rw [hoth] at hset
    refine ⟨com, p.cfg.feeRecipient, spread, hset, h15, ?_, h11, h2, ?_, ?_⟩
    · unfold poolSimulate; rw [hcode, hp']
      simp only [Pool.loaded, bind_ok, ok_inj, Prod.exists]
      exact ⟨p, rfl, _, _, _, _, hsim, rfl⟩
    · rw [h10]; exact hr0
    · have : com = q.commission := by
        unfold Pool.simulateSwap at hsim
        simp only [bind_ok, h8, h7, ok_inj] at hsim
        obtain ⟨_, rfl, _, rfl, r', h9', _, -, _, -, he⟩ := hsim
        rw [h9] at h9'; cases h9'
        simp only [Prod.mk.injEq] at he
        exact he.2.1.symm
      rw [this]; exact hc0
  · rename_i hcode
    simp only [bind_ok, ok_inj, Prod.exists, Prod.mk.injEq] at e
    obtain ⟨p, hp, p', L, r', hk, rfl, rfl⟩ := e
    have hp' := stable_loaded hp
    have nP := I.core.contracts P (by rw [hcode]; simp)
    have K := (I.core.at_ P nP).stable.pool p hp'
    have hau := I.core.auth_false hc (P := P) (by rw [hcode]; simp) hi
    obtain ⟨lim, q, h1, h2, h3, h4, h5, h6, h7, h8, h9, h10, h11, h12, -⟩ :=
      Stable.swap_inv hk hau K.distinct.1
    obtain ⟨com, spread, hsim, -, hc0, hr0, hset, hsr, -⟩ :=
      Props.Stable.simulation_core K hau (h12.trans (I.core.typed _ _)) hk
    have hoth : Phoenix.Stable.Spec.other p offer = ask := by
      rcases hpf with ⟨k, -⟩ | ⟨-, p0, hp0, ha, hb⟩
      · rw [hcode] at k; simp at k
      · rw [hp'] at hp0; cases hp0
        exact other_of hne ha hb ⟨rfl, rfl⟩
    rw [hoth] at hset
    refine ⟨com, p.cfg.feeRecipient, spread, hset, hsr, ?_, h10, h2, hr0, hc0⟩
    unfold poolSimulate; rw [hcode, hp']
    simp only [Stable.loaded, bind_ok, ok_inj, Prod.exists]
    exact ⟨p, rfl, _, _, _, _, hsim, rfl⟩
  · simp at e

/-- Whoever signs is authenticated whichever contract calls. -/
theorem requireAuth_as {H r : Addr} (hs : c.signed r = true) : requireAuth (c.as H) r = requireAuth c r := by
  simp [requireAuth, Ctx.auth, Ctx.as, hs]

theorem poolSwap_as {H P r offer : Addr} {x : Int} {mi sp mf : Option Int} {dl : Option Nat} (hs : c.signed r = true) :
    poolSwap w (c.as H) P r offer x mi sp dl mf = poolSwap w c P r offer x mi sp dl mf := by
  have k1 : ∀ p L, Pool.swap P (c.as H) p L r offer x mi sp dl mf = Pool.swap P c p L r offer x mi sp dl mf := by
    intro p L
    unfold Pool.swap
    rw [requireAuth_as hs]; rfl
  have k2 : ∀ p L, Stable.swap P (c.as H) p L r offer x mi sp dl mf = Stable.swap P c p L r offer x mi sp dl mf := by
    intro p L
    unfold Stable.swap
    rw [requireAuth_as hs]; rfl
  unfold poolSwap
  simp only [k1, k2]

theorem hopLoop_as {H F r : Addr} {sp mf : Option Int} {dl : Option Nat} (hs : c.signed r = true) :
    ∀ {ops : List Multihop.Op} {w : World} {x : Int},
    hopLoop w (c.as H) F r sp dl mf ops x = hopLoop w c F r sp dl mf ops x
  | [], w, x => rfl
  | op :: ops, w, x => by
    simp only [hopLoop, poolSwap_as hs]
    congr 1
    funext P
    congr 1
    funext q
    exact hopLoop_as hs

theorem trades_iff {P r offer : Addr} {x y : Int} {mi sp mf : Option Int} {dl : Option Nat} :
    poolSwap w c P r offer x mi sp dl mf = .ok (w', y) ↔ Trades w c P r offer x mi sp dl mf w' y := by
  have hp : ∀ {p : Option Pool.State} {q : Pool.State}, Pool.loaded p = .ok q ↔ p = some q := by
    intro p q; cases p <;> simp [Pool.loaded]
  have hs : ∀ {p : Option Stable.State} {q : Stable.State}, Stable.loaded p = .ok q ↔ p = some q := by
    intro p q; cases p <;> simp [Stable.loaded]
  unfold poolSwap Trades
  cases hc : w.code P <;> simp only [reduceCtorEq, false_and, or_false, false_or, true_and]
  · rw [bind_ok]
    simp only [hp, bind_ok, Prod.exists, ok_inj, Prod.mk.injEq]
    constructor
    · rintro ⟨p, h1, p', L, r', h2, rfl, rfl⟩; exact ⟨p, p', L, h1, h2, rfl⟩
    · rintro ⟨p, p', L, h1, h2, rfl⟩; exact ⟨p, h1, p', L, _, h2, rfl, rfl⟩
  · rw [bind_ok]
    simp only [hs, bind_ok, Prod.exists, ok_inj, Prod.mk.injEq]
    constructor
    · rintro ⟨p, h1, p', L, r', h2, rfl, rfl⟩; exact ⟨p, p', L, h1, h2, rfl⟩
    · rintro ⟨p, p', L, h1, h2, rfl⟩; exact ⟨p, h1, p', L, _, h2, rfl, rfl⟩

theorem hopLoop_chain {F r : Addr} {sp mf : Option Int} {dl : Option Nat} : ∀ {ops : List Multihop.Op} {w w' : World} {x y : Int},
    hopLoop w c F r sp dl mf ops x = .ok (w', y) ↔ Chain c F r sp dl mf w ops x w' y
  | [], w, w', x, y => by
    simp only [hopLoop, ok_inj, Prod.mk.injEq]
    constructor
    · rintro ⟨rfl, rfl⟩; exact .done _ _
    · intro k; cases k; exact ⟨rfl, rfl⟩
  | op :: ops, w, w', x, y => by
    simp only [hopLoop, bind_ok, Prod.exists]
    constructor
    · rintro ⟨P, hP, w1, r1, h1, h2⟩
      exact .hop hP (trades_iff.mp h1) (hopLoop_chain.mp h2)
    · intro k
      cases k with
      | hop a b d => exact ⟨_, a, _, _, trades_iff.mpr b, hopLoop_chain.mpr d⟩

theorem poolSwap_direct {P r offer : Addr} {x y : Int} {mi sp mf : Option Int} {dl : Option Nat}
    (e : poolSwap w c P r offer x mi sp dl mf = .ok (w', y)) :
    step h w c (swapCall w P r offer x mi sp dl mf) = .ok w' := by
  unfold poolSwap at e
  split at e
  · rename_i hc
    simp only [bind_ok, ok_inj, Prod.exists, Prod.mk.injEq] at e
    obtain ⟨p, hp, p', L, r', hk, rfl, rfl⟩ := e
    unfold swapCall
    rw [if_pos hc]
    simp only [step, bind_ok, expect_ok, ok_inj]
    refine ⟨(), hc, ⟨some p', L⟩, ?_, rfl⟩
    simp only [Pool.step, hp, bind_ok, ok_inj]
    exact ⟨p, rfl, _, hk, rfl⟩
  · rename_i hc
    simp only [bind_ok, ok_inj, Prod.exists, Prod.mk.injEq] at e
    obtain ⟨p, hp, p', L, r', hk, rfl, rfl⟩ := e
    unfold swapCall
    rw [if_neg (by rw [hc]; simp)]
    simp only [step, bind_ok, expect_ok, ok_inj]
    refine ⟨(), hc, ⟨some p', L⟩, ?_, rfl⟩
    simp only [Stable.step, hp, bind_ok, ok_inj]
    exact ⟨p, rfl, _, hk, rfl⟩
  · simp at e

theorem swapCall_code {u v : World} (e : v.code = u.code) (P r offer : Addr) (x : Int) (mi sp : Option Int) (dl : Option Nat)
    (mf : Option Int) : swapCall v P r offer x mi sp dl mf = swapCall u P r offer x mi sp dl mf := by
  unfold swapCall; rw [e]

theorem directly_code {u v : World} (e : v.code = u.code) (r : Addr) (sp : Option Int) (dl : Option Nat)
    (mf : Option Int) : ∀ (ops : List Multihop.Op) (ls : List Leg), directly v c r sp dl mf ops ls = directly u c r sp dl mf ops ls
  | [], _ => by simp [directly]
  | _ :: _, [] => by simp [directly]
  | op :: ops, l :: ls => by
    simp only [directly, swapCall_code e, directly_code e r sp dl mf ops ls]

theorem serves_swap {F P s o : Addr} {x y : Int} {mi sp mf : Option Int} {dl : Option Nat} {w1 : World}
    (I : Inv h acct w) (e : poolSwap w c P s o x mi sp dl mf = .ok (w1, y)) {op : Multihop.Op} {l : Leg}
    (k : Serves w1 F op l) : Serves w F op l := by
  obtain ⟨k1, k2, k3, k4, k5, k6⟩ := k
  rw [findPool_swap e] at k3
  exact ⟨k1, k2, k3, (findPool_for I k3).1, k5, k6⟩

/-- Everything about a successful chain of swaps. -/
theorem hopLoop_legs {F r : Addr} {sp mf : Option Int} {dl : Option Nat} : ∀ {ops : List Multihop.Op} {w w' : World} {x y : Int},
    Inv h acct w → Signed acct c → c.invoker = none → hopLoop w c F r sp dl mf ops x = .ok (w', y) →
    ∃ legs : List Leg, List.Forall₂ (Serves w F) ops legs ∧ Passes x legs y ∧
      Settles w.led w'.led (legs.flatMap (Leg.flows r)) ∧ SameRights w.led w'.led ∧
      Succeed h w (directly w c r sp dl mf ops legs) w' ∧
      ((ops.map (fun op => findPool w F op.offer op.ask)).Nodup → ∀ q : Quote, ∃ spreads,
        simLoop w c.now F ops x q = .ok
          ⟨if ops = [] then q.amount else y, q.commissions ++ legs.map (·.fee), q.spreads ++ spreads⟩)
  | [], w, w', x, y, I, hc, hi, e => by
    simp only [hopLoop, ok_inj, Prod.mk.injEq] at e
    obtain ⟨rfl, rfl⟩ := e
    exact ⟨[], .nil, rfl, fun t a => by simp, fun t => ⟨rfl, rfl, rfl⟩, rfl, fun _ q => ⟨[], by simp [simLoop]⟩⟩
  | op :: ops, w, w', x, y, I, hc, hi, e => by
    simp only [hopLoop, bind_ok, Prod.exists] at e
    obtain ⟨P, hP, w1, r1, h1, h2⟩ := e
    have hne : c.invoker ≠ some P := by rw [hi]; simp
    obtain ⟨I1, -⟩ := poolSwap_step I hc hne h1
    obtain ⟨fee, feeTo, spread, s1, s2, s3, s4, s5, s6, s7⟩ := poolSwap_leg I hc hne hP h1
    obtain ⟨legs, l1, l2, l3, l4, l5, l6⟩ := hopLoop_legs I1 hc hi h2
    refine ⟨⟨P, op.offer, op.ask, x, r1, fee, feeTo⟩ :: legs, .cons ?_ ?_, ⟨rfl, l2⟩, ?_, sameRights_trans s2 l4, ?_, ?_⟩
    · exact ⟨rfl, rfl, hP, (findPool_for I hP).1, s4, s5, s6, s7⟩
    · exact l1.imp (fun op l k => serves_swap I h1 k)
    · rw [List.flatMap_cons]; exact settles_append s1 l3
    · refine ⟨w1, poolSwap_direct h1, ?_⟩
      rw [directly_code (poolSwap_codes h1)] at l5
      exact l5
    · intro hn q
      simp only [List.map_cons, List.nodup_cons] at hn
      have hn' : (ops.map (fun op => findPool w1 F op.offer op.ask)).Nodup := by
        simp only [findPool_swap h1]; exact hn.2
      obtain ⟨sps, hq⟩ := l6 hn' ⟨r1, q.commissions ++ [fee], q.spreads ++ [spread]⟩
      refine ⟨spread :: sps, ?_⟩
      simp only [simLoop, hP, bind_ok, ok_inj, Prod.exists]
      refine ⟨P, rfl, r1, fee, spread, s3, ?_⟩
      have hsame : simLoop w c.now F ops r1 ⟨r1, q.commissions ++ [fee], q.spreads ++ [spread]⟩ =
          simLoop w1 c.now F ops r1 ⟨r1, q.commissions ++ [fee], q.spreads ++ [spread]⟩ := by
        refine sim_same h1 (fun o ho k => hn.1 ?_)
        rw [hP, ← k]
        exact List.mem_map.mpr ⟨o, ho, rfl⟩
      rw [hsame, hq]
      have hy : ops = [] → r1 = y := by
        rintro rfl
        simp only [hopLoop, ok_inj, Prod.mk.injEq] at h2
        exact h2.2
      simp only [List.map_cons, List.append_assoc, List.cons_append, List.nil_append, reduceCtorEq, if_false]
      by_cases e0 : ops = []
      · simp only [e0, if_true, hy e0]
      · simp only [e0, if_false]
where
  sim_same {w w1 : World} {c : Ctx} {F P r offer : Addr} {x y : Int} {mi sp mf : Option Int} {dl : Option Nat} {now : Nat}
      (e : poolSwap w c P r offer x mi sp dl mf = .ok (w1, y)) : ∀ {ops : List Multihop.Op} {z : Int} {q : Quote},
      (∀ o ∈ ops, findPool w F o.offer o.ask ≠ .ok P) → simLoop w now F ops z q = simLoop w1 now F ops z q
    | [], _, _, _ => rfl
    | o :: ops, z, q, hn => by
      have hn1 := hn o (by simp)
      simp only [simLoop, findPool_swap e]
      cases hQ : findPool w F o.offer o.ask with
      | error er => rfl
      | ok Q =>
        have hne : Q ≠ P := by rintro rfl; exact hn1 hQ
        have hs := poolSwap_same hne e
        have : poolSimulate w1 now Q o.offer z = poolSimulate w now Q o.offer z := by
          unfold poolSimulate
          rw [hs.code, hs.xyk, hs.stable]
        simp only [this, Except.bind, bind]
        cases poolSimulate w now Q o.offer z with
        | error er => rfl
        | ok t => exact sim_same e (fun o' ho' => hn o' (by simp [ho']))

end Phoenix.World
