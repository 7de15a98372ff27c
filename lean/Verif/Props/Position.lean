import Verif.Spec.Position
import Verif.Props.Value
import Verif.Props.World
import Verif.Props.Stake
import Verif.Lemmas.Admin
import Verif.Props.Rights
/-!
C128: a liquidity provider who does nothing keeps their shares, in the wallet and in the stake
contract, and the value behind them, whatever everybody else does anywhere in the protocol.
-/
namespace Phoenix.Props.World
open Phoenix Phoenix.World Phoenix.World.Spec

variable {h : Host} {acct : Accounts} {w0 w w' : World} {c : Ctx}

/-- From `p` to `q` the product of the reserves per squared share falls at most by `k` parts in `m + 1`. -/
structure Link (m : Int) (k : Nat) (p q : Pool.State) : Prop where
  val : p.resA * p.resB * q.total ^ 2 * (m + 1 - k) ≤ q.resA * q.resB * p.total ^ 2 * (m + 1)
  pv : 0 ≤ p.resA * p.resB
  qv : 0 ≤ q.resA * q.resB
  emp : p.total = 0 → p.resA * p.resB = 0
  pos : p.total ≠ 0 → q.total ≠ 0

theorem Link.refl {P : Addr} {L : Ledger} {m : Int} {p : Pool.State} (hs : Pool.SysInv P ⟨some p, L⟩) (k : Nat) :
    Link m k p p := by
  have hP := hs.pool p rfl
  have A0 := mul_nonneg hP.a0 hP.b0
  have B0 := mul_nonneg A0 (sq_nonneg p.total)
  refine ⟨?_, A0, A0, fun hT => ?_, fun h => h⟩
  · have := mul_nonneg B0 (Int.natCast_nonneg k)
    nlinarith
  · rcases hP.phase with hE | hE
    · rw [hE.2.1]; simp
    · have := hE.1; omega

theorem Link.trans {m : Int} {k l : Nat} {p q r : Pool.State} (hm : 0 ≤ m) (a : Link m k p q) (b : Link m l q r) :
    Link m (k + l) p r := by
  refine ⟨?_, a.pv, b.qv, a.emp, fun h => b.pos (a.pos h)⟩
  by_cases hT : p.total = 0
  · rw [a.emp hT, hT]; simp
  have hq := a.pos hT
  have va := a.val
  have vb := b.val
  have pv := a.pv
  have qv := a.qv
  have rv := b.qv
  generalize p.resA * p.resB = V at *
  generalize q.resA * q.resB = W at *
  generalize r.resA * r.resB = X at *
  have q2 : 0 < q.total ^ 2 := by positivity
  have p2 : 0 ≤ p.total ^ 2 := sq_nonneg _
  have r2 : 0 ≤ r.total ^ 2 := sq_nonneg _
  generalize p.total ^ 2 = x at *
  generalize q.total ^ 2 = y at *
  generalize r.total ^ 2 = z at *
  have hk : (0 : Int) ≤ k := Int.natCast_nonneg k
  have hl : (0 : Int) ≤ l := Int.natCast_nonneg l
  push_cast
  generalize (k : Int) = k at *
  generalize (l : Int) = l at *
  have rhs : 0 ≤ X * x * (m + 1) := mul_nonneg (mul_nonneg rv p2) (by omega)
  by_cases hc : m + 1 - (k + l) ≤ 0
  · have := mul_nonpos_of_nonneg_of_nonpos (mul_nonneg pv r2) hc
    linarith
  · have e1 := mul_le_mul_of_nonneg_right va (mul_nonneg r2 (show 0 ≤ m + 1 - l by omega))
    have e2 := mul_le_mul_of_nonneg_right vb (mul_nonneg p2 (show 0 ≤ m + 1 by omega))
    have e3 : V * z * ((m + 1 - k) * (m + 1 - l)) * y ≤ X * x * (m + 1) * (m + 1) * y := by nlinarith
    have e4 := le_of_mul_le_mul_right e3 q2
    have e5 : (m + 1) * (m + 1 - (k + l)) ≤ (m + 1 - k) * (m + 1 - l) := by nlinarith
    have e6 := mul_le_mul_of_nonneg_left e5 (mul_nonneg pv r2)
    have e7 : V * z * (m + 1 - (k + l)) * (m + 1) ≤ X * x * (m + 1) * (m + 1) := by nlinarith
    exact le_of_mul_le_mul_right e7 (by omega)

/-- One call of the pool. -/
theorem pool_link {P : Addr} {k : Pool.Call} {s' : Pool.Sys} {L : Ledger} {m : Int} {p q : Pool.State} (hm : 0 ≤ m)
    (hs : Pool.SysInv P ⟨some p, L⟩) (hposs : Phoenix.Spec.Possible P (.pool c k))
    (e : Pool.step P ⟨some p, L⟩ (.pool c k) = .ok s') (hq : s'.pool = some q)
    (hd : Phoenix.Spec.isSwap (.pool c k) = true → m ≤ q.resA ∧ m ≤ q.resB) :
    Link m (if Phoenix.Spec.isSwap (.pool c k) then 1 else 0) p q := by
  have hs' := Pool.step_keeps e hposs hs
  have hP := hs.pool p rfl
  have hQ := hs'.pool q hq
  have ex : Pool.exec P ⟨some p, L⟩ (.pool c k) = s' := by unfold Pool.exec; rw [e]
  obtain ⟨q', hq', -, -, -, -, hl, hb, -⟩ := Pool.step_pool e hposs hs rfl
  rw [hq] at hq'; cases hq'
  have v := Value.value_run (me := P) (s := ⟨some p, L⟩) (p := p) (p' := q) hm [.pool c k] hs (by simpa using hposs)
    ⟨fun hsw r hr => by rw [ex, hq] at hr; cases hr; exact hd hsw, trivial⟩ rfl (by simp [Pool.run, ex, hq])
  refine ⟨?_, mul_nonneg hP.a0 hP.b0, mul_nonneg hQ.a0 hQ.b0, fun hT => ?_, fun hT => ?_⟩
  · cases hsw : Phoenix.Spec.isSwap (.pool c k) <;> simpa [hsw] using v
  · rcases hP.phase with hE | hE
    · rw [hE.2.1]; simp
    · have := hE.1; omega
  · rcases hP.phase with hE | hE
    · exact absurd hE.1 hT
    · have := (hl hE).1; omega

theorem inv_pool (I : Inv h acct w) {P : Addr} {p : Pool.State} (hp : w.xyk P = some p) :
    w.code P = .xyk ∧ Pool.SysInv P ⟨some p, w.led⟩ := by
  have hP := (I.refs.xyk P p hp).1
  have := (I.core.at_ P (I.core.contracts P (by rw [hP]; simp))).xyk
  rw [hp] at this
  exact ⟨hP, this⟩

theorem poss_of (I : Inv h acct w) (hc : Signed acct c) {P : Addr} (hP : w.code P = .xyk) (hi : c.invoker ≠ some P)
    {k : Pool.Call} (hk : ∀ j, k ≠ .init j) : Phoenix.Spec.Possible P (.pool c k) := by
  refine ⟨I.core.auth_false hc (by rw [hP]; simp) hi, ?_⟩
  cases k with
  | init j => exact absurd rfl (hk j)
  | _ => trivial

/-- A call of the pool at `P`, in the world. -/
theorem xyk_link {P : Addr} {k : Pool.Call} {s' : Pool.Sys} {m : Int} {p : Pool.State} (hm : 0 ≤ m) (I : Inv h acct w)
    (hc : Signed acct c) (hi : c.invoker ≠ some P) (hk : ∀ j, k ≠ .init j) (hp : w.xyk P = some p)
    (e : Pool.step P ⟨w.xyk P, w.led⟩ (.pool c k) = .ok s')
    (hd : Phoenix.Spec.isSwap (.pool c k) = true → ∀ q, s'.pool = some q → m ≤ q.resA ∧ m ≤ q.resB) :
    ∃ q, s'.pool = some q ∧ Link m (if Phoenix.Spec.isSwap (.pool c k) then 1 else 0) p q := by
  obtain ⟨hP, hs⟩ := inv_pool I hp
  have hposs := poss_of I hc hP hi hk
  rw [hp] at e
  obtain ⟨q, hq, -⟩ := Pool.step_pool e hposs hs rfl
  exact ⟨q, hq, pool_link hm hs hposs e hq (fun hsw => hd hsw q hq)⟩

/-- A swap that a router or a trader makes. -/
theorem poolSwap_link {P Q sender offer : Addr} {x r : Int} {mi sp mf : Option Int} {dl : Option Nat} {m : Int}
    {p : Pool.State} (hm : 0 ≤ m) (I : Inv h acct w) (hc : Signed acct c) (hi : c.invoker ≠ some Q)
    (hp : w.xyk P = some p) (e : poolSwap w c Q sender offer x mi sp dl mf = .ok (w', r)) (hd : Q = P → Deep P m w') :
    ∃ q, w'.xyk P = some q ∧ Link m (if Q = P then 1 else 0) p q := by
  obtain ⟨hP, hs⟩ := inv_pool I hp
  by_cases hQ : Q = P
  · subst hQ
    unfold poolSwap at e
    rw [hP] at e
    simp only [bind_ok, ok_inj, Prod.exists, Prod.mk.injEq] at e
    obtain ⟨p0, hp0, p', L, r', hk, rfl, rfl⟩ := e
    have hstep : Pool.step Q ⟨w.xyk Q, w.led⟩ (.pool c (.swap sender offer x mi sp dl mf)) = .ok ⟨some p', L⟩ := by
      simp only [Pool.step, bind_ok, ok_inj, Prod.exists]
      exact ⟨p0, hp0, p', L, r', hk, rfl⟩
    obtain ⟨q, hq, l⟩ := xyk_link hm I hc hi (by simp) hp hstep (fun _ q hq => hd rfl q (by simp only [upd_same]; exact hq))
    refine ⟨q, by simp only [upd_same]; exact hq, ?_⟩
    simpa [Phoenix.Spec.isSwap] using l
  · have := (poolSwap_same (Ne.symm hQ) e).xyk
    exact ⟨p, this.trans hp, .refl hs _⟩

theorem hopLoop_link {P H F recipient : Addr} {sp mf : Option Int} {dl : Option Nat} {m : Int} (hm : 0 ≤ m) :
    ∀ {ops : List Multihop.Op} {w w' : World} {x r : Int} {p : Pool.State}, Inv h acct w → Signed acct c →
    w.code H = .multihop → w.xyk P = some p → hopLoop w (c.as H) F recipient sp dl mf ops x = .ok (w', r) →
    (∀ i op, ops[i]? = some op → findPool w F op.offer op.ask = .ok P → ∀ u y,
      hopLoop w (c.as H) F recipient sp dl mf (ops.take (i + 1)) x = .ok (u, y) → Deep P m u) →
    ∃ q, w'.xyk P = some q ∧ Link m (ops.countP (fun op => decide (findPool w F op.offer op.ask = .ok P))) p q
  | [], w, w', x, r, p, I, hc, hH, hp, e, hd => by
    simp only [hopLoop, ok_inj, Prod.mk.injEq] at e
    obtain ⟨rfl, rfl⟩ := e
    exact ⟨p, hp, .refl (inv_pool I hp).2 _⟩
  | op :: ops, w, w', x, r, p, I, hc, hH, hp, e, hd => by
    simp only [hopLoop, bind_ok, Prod.exists] at e
    obtain ⟨Q, hQ, w1, r1, h1, h2⟩ := e
    have hne : (c.as H).invoker ≠ some Q := by
      simp only [Ctx.as, ne_eq, Option.some.injEq]
      rintro rfl
      rcases poolSwap_code h1 with k | k <;> rw [hH] at k <;> simp at k
    obtain ⟨I1, g1⟩ := poolSwap_step I (c := c.as H) hc hne h1
    obtain ⟨p1, hp1, l1⟩ := poolSwap_link (c := c.as H) hm I hc hne hp h1 (fun hQP => by
      subst hQP
      refine hd 0 op (by simp) hQ w1 r1 ?_
      simp only [List.take, hopLoop, bind_ok, Prod.exists]
      exact ⟨Q, hQ, w1, r1, h1, rfl⟩)
    obtain ⟨q, hq, l2⟩ := hopLoop_link hm I1 hc (code_keep g1 hH (by simp)) hp1 h2 (fun i o ho hf u y hu => by
      rw [findPool_swap h1] at hf
      refine hd (i + 1) o (by simpa using ho) hf u y ?_
      simp only [List.take, hopLoop, bind_ok, Prod.exists]
      exact ⟨Q, hQ, w1, r1, h1, hu⟩)
    refine ⟨q, hq, ?_⟩
    have l := l1.trans hm l2
    simp only [findPool_swap h1] at l
    rw [List.countP_cons, add_comm]
    simpa [hQ] using l

/-- One transaction of the protocol, seen from the pool at `P`. -/
theorem step_link {P : Addr} {k : Call} {m : Int} {p : Pool.State} (hm : 0 ≤ m) (I : Inv h acct w) (hc : Signed acct c)
    (hi : c.invoker = none) (hp : w.xyk P = some p) (e : step h w c k = .ok w') (hd : Leaves P m w w' ⟨c, k⟩) :
    ∃ q, w'.xyk P = some q ∧ Link m (swapsAt w P k) p q := by
  obtain ⟨hP, hs⟩ := inv_pool I hp
  by_cases hT : Touches w k P
  swap
  · exact ⟨p, (step_same e hT).xyk.trans hp, .refl hs _⟩
  have hno : w.code P ≠ .none := by rw [hP]; simp
  cases k with
  | xyk Q k =>
    have hT : P = Q := hT
    subst hT
    cases k with
    | init i => simp [step] at e
    | swap a o x mi sp dl mf =>
      simp only [step, bind_ok, ok_inj, expect_ok] at e
      obtain ⟨_, h1, s, h2, rfl⟩ := e
      obtain ⟨q, hq, l⟩ := xyk_link hm I hc (by rw [hi]; simp) (by simp) hp h2 (fun _ q hq => hd rfl q (by simp only [upd_same]; exact hq))
      exact ⟨q, by simp only [upd_same]; exact hq, by simpa [Phoenix.Spec.isSwap, swapsAt] using l⟩
    | _ =>
      simp only [step, bind_ok, ok_inj, expect_ok] at e
      obtain ⟨_, h1, s, h2, rfl⟩ := e
      obtain ⟨q, hq, l⟩ := xyk_link hm I hc (by rw [hi]; simp) (by simp) hp h2 (fun hsw => by simp [Phoenix.Spec.isSwap] at hsw)
      exact ⟨q, by simp only [upd_same]; exact hq, by simpa [Phoenix.Spec.isSwap, swapsAt] using l⟩
  | hopSwap H recipient ops sp amount dl mf =>
    simp only [step, hopSwap, bind_ok, ok_inj, expect_ok, Prod.exists] at e
    obtain ⟨_, h1, w1, r, ⟨_, _, _, _, _, _, hm', hl, h2⟩, rfl⟩ := e
    have hl : w.hop H = some hm' := by
      cases hh : w.hop H with
      | none => rw [hh] at hl; simp [Multihop.loaded] at hl
      | some v => rw [hh] at hl; simp [Multihop.loaded] at hl; rw [hl]
    obtain ⟨q, hq, l⟩ := hopLoop_link hm I hc h1 hp h2 (hd hm' hl)
    exact ⟨q, hq, by simpa only [swapsAt, hl] using l⟩
  | trade T sender token pool amount sp dl mi mf =>
    have hT : P = pool := hT
    subst hT
    simp only [step, trade, bind_ok, ok_inj, expect_ok, Prod.exists] at e
    obtain ⟨_, h1, w1, r, ⟨_, _, t, ht, _, _, _, _, _, _, h2⟩, rfl⟩ := e
    have hne : (c.as T).invoker ≠ some P := by
      simp only [Ctx.as, ne_eq, Option.some.injEq]
      rintro rfl
      rw [h1] at hP; simp at hP
    exact poolSwap_link (c := c.as T) hm I hc hne hp h2 hd
  | xykInit Q i owner dec sl mf =>
    exfalso
    rcases hT with rfl | hT
    · simp only [step, initXyk, bind_ok, Prod.exists, expect_ok] at e
      obtain ⟨_, h1, p', L', hi', -⟩ := e
      have := (Pool.init_inv hi').1
      rw [hp] at this; simp at this
    · exact hno hT
  | token tok op => exact absurd hT (by simp [Touches])
  | trdTransfer T sender recipient amount token => exact absurd hT (by simp [Touches])
  | _ =>
    exfalso
    simp only [Touches] at hT
    first
      | (rcases hT with rfl | hT
         · simp only [step, bind_ok, expect_ok] at e
           obtain ⟨_, h1, -⟩ := e
           rw [hP] at h1; simp at h1
         · exact hno hT)
      | (subst hT
         simp only [step, bind_ok, expect_ok] at e
         obtain ⟨_, h1, -⟩ := e
         rw [hP] at h1; simp at h1)
      | (subst hT
         rename_i k
         cases k <;> simp only [step, bind_ok, expect_ok] at e <;>
           first
             | (obtain ⟨_, h1, -⟩ := e
                rw [hP] at h1; simp at h1)
             | simp at e)

theorem exec_link {P : Addr} {t : Tx} {m : Int} {p : Pool.State} (hm : 0 ≤ m) (I : Inv h acct w)
    (ht : Possible acct t) (hp : w.xyk P = some p)
    (hd : ∀ w', step h w t.ctx t.call = .ok w' → Leaves P m w w' t) :
    ∃ q, (exec h w t).xyk P = some q ∧ Link m (if (step h w t.ctx t.call).isOk then swapsAt w P t.call else 0) p q := by
  unfold exec
  cases e : step h w t.ctx t.call with
  | ok w1 => exact step_link hm I ht.2 ht.1 hp e (hd w1 e)
  | error _ => exact ⟨p, hp, .refl (inv_pool I hp).2 _⟩

theorem run_link (hh : HostOK h acct) {P : Addr} {m : Int} (hm : 0 ≤ m) : ∀ {ts : List Tx} {w : World} {p : Pool.State},
    Inv h acct w → (∀ t ∈ ts, Possible acct t) → w.xyk P = some p → AllLeave h P m w ts →
    ∃ q, (run h w ts).xyk P = some q ∧ Link m (swapsIn h P w ts) p q
  | [], w, p, I, _, hp, _ => ⟨p, hp, .refl (inv_pool I hp).2 _⟩
  | t :: ts, w, p, I, hu, hp, hd => by
    have ht := hu t (by simp)
    obtain ⟨p1, hp1, l1⟩ := exec_link hm I ht hp hd.1
    obtain ⟨q, hq, l2⟩ := run_link hh hm (exec_inv hh I ht).1 (fun u q => hu u (by simp [q])) hp1 hd.2
    exact ⟨q, hq, l1.trans hm l2⟩

/-! ### Stakes -/

/-- The stakes of an account change only in transactions it signs. -/
theorem stakes_step {K : Addr} {k : Call} (hi : c.invoker = none) (hK : w.code K = .stake) (e : step h w c k = .ok w')
    {a : Addr} (hs : c.signed a = false) (I : Inv h acct w) :
    (Stake.queryStaked (w'.stake K) a).stakes = (Stake.queryStaked (w.stake K) a).stakes := by
  by_cases hT : Touches w k K
  swap
  · rw [(step_same e hT).stake]
  have hno : w.code K ≠ .none := by rw [hK]; simp
  have hau : c.auth a = false := by simp [Ctx.auth, hs, hi]
  cases k with
  | stake Q k =>
    have hT : K = Q := hT
    subst hT
    simp only [step, bind_ok, ok_inj, expect_ok] at e
    obtain ⟨_, h1, s, h2, rfl⟩ := e
    simp only [upd_same]
    by_contra hne
    have := Phoenix.Props.C36_only_owner (a := a) h2 hne
    simp only [Stake.Tx.ctx] at this
    rw [hau] at this; simp at this
  | hopSwap H recipient ops sp amount dl mf =>
    exfalso
    obtain ⟨m, hm, op, ho, hf⟩ := hT
    rcases findPool_pool I hf with k | k <;> rw [hK] at k <;> simp at k
  | trade T sender token pool amount sp dl mi mf =>
    exfalso
    have hT : K = pool := hT
    subst hT
    simp only [step, trade, bind_ok, ok_inj, expect_ok, Prod.exists] at e
    obtain ⟨_, h1, w1, r, ⟨_, _, t, ht, _, _, _, _, _, _, h2⟩, rfl⟩ := e
    rcases poolSwap_code h2 with k | k <;> rw [hK] at k <;> simp at k
  | token tok op => exact absurd hT (by simp [Touches])
  | trdTransfer T sender recipient amount token => exact absurd hT (by simp [Touches])
  | _ =>
    exfalso
    simp only [Touches] at hT
    first
      | (rcases hT with rfl | hT
         · simp only [step, bind_ok, expect_ok] at e
           obtain ⟨_, h1, -⟩ := e
           rw [hK] at h1; simp at h1
         · exact hno hT)
      | (subst hT
         simp only [step, bind_ok, expect_ok] at e
         obtain ⟨_, h1, -⟩ := e
         rw [hK] at h1; simp at h1)
      | (subst hT
         rename_i k
         cases k <;> simp only [step, bind_ok, expect_ok] at e <;>
           first
             | (obtain ⟨_, h1, -⟩ := e
                rw [hK] at h1; simp at h1)
             | simp at e)

theorem stakes_run (hh : HostOK h acct) {K a : Addr} : ∀ {ts : List Tx} {w : World}, Inv h acct w →
    (∀ t ∈ ts, Possible acct t) → w.code K = .stake → (∀ t ∈ ts, t.ctx.signed a = false) →
    (Stake.queryStaked ((run h w ts).stake K) a).stakes = (Stake.queryStaked (w.stake K) a).stakes
  | [], w, I, _, _, _ => rfl
  | t :: ts, w, I, hu, hK, hs => by
    have ht := hu t (by simp)
    obtain ⟨I1, g1⟩ := exec_inv hh I ht
    have e1 : (Stake.queryStaked ((exec h w t).stake K) a).stakes = (Stake.queryStaked (w.stake K) a).stakes := by
      unfold exec
      split
      · rename_i w1 e; exact stakes_step ht.1 hK e (hs t (by simp)) I
      · rfl
    exact (stakes_run hh (ts := ts) I1 (fun u q => hu u (by simp [q])) (code_keep g1 hK (by simp))
      (fun u q => hs u (by simp [q]))).trans e1

/-! ### C128 -/

/-- **C128** Whatever happens in the protocol, a pool never disappears, and the product of its
reserves per squared share falls at most by `k` parts in `m + 1`, where `k` counts the swaps made in
this pool, directly or as part of a route, and each of them leaves both reserves at `m` or more. -/
theorem C128_value_in_protocol (hh : HostOK h acct) (g : Genesis acct w0) {ts us : List Tx} (hp : ∀ t ∈ ts, Possible acct t)
    (hu : ∀ t ∈ us, Possible acct t) {P : Addr} {p : Pool.State} (hP : (run h w0 ts).xyk P = some p) {m : Int} (hm : 0 ≤ m)
    (hd : AllLeave h P m (run h w0 ts) us) :
    ∃ p', (run h (run h w0 ts) us).xyk P = some p' ∧
      p.resA * p.resB * p'.total ^ 2 * (m + 1 - swapsIn h P (run h w0 ts) us) ≤ p'.resA * p'.resB * p.total ^ 2 * (m + 1) := by
  obtain ⟨I, -⟩ := run_inv hh (Phoenix.World.genesis_inv (h := h) g) hp
  obtain ⟨q, hq, l⟩ := run_link hh hm I hu hP hd
  exact ⟨q, hq, l.val⟩

/-- **C128** An account that signs nothing and has granted no allowance keeps all its shares of a
pool, in the wallet and in the stake contract of the pool, whatever everybody else does; and the
product of the two amounts of tokens behind these shares, `(resA * b / total) * (resB * b / total)`,
falls at most by `k` parts in `m + 1`. -/
theorem C128_silent_provider (hh : HostOK h acct) (g : Genesis acct w0) {ts us : List Tx} (hp : ∀ t ∈ ts, Possible acct t)
    (hu : ∀ t ∈ us, Possible acct t) {P : Addr} {p : Pool.State} (hP : (run h w0 ts).xyk P = some p) {m : Int} (hm : 0 ≤ m)
    (hd : AllLeave h P m (run h w0 ts) us) {a : Addr} (ha : acct a) (hno : Phoenix.Spec.NoAllowance a (run h w0 ts).led)
    (hs : ∀ t ∈ us, t.ctx.signed a = false) :
    ∃ p', (run h (run h w0 ts) us).xyk P = some p' ∧
      0 ≤ position (run h w0 ts) p a ∧
      position (run h w0 ts) p a ≤ position (run h (run h w0 ts) us) p' a ∧
      (p.resA * p.resB * position (run h w0 ts) p a ^ 2) * p'.total ^ 2 * (m + 1 - swapsIn h P (run h w0 ts) us) ≤
        (p'.resA * p'.resB * position (run h (run h w0 ts) us) p' a ^ 2) * p.total ^ 2 * (m + 1) := by
  have keep := C77_silent_account_keeps hh g hp hu ha hno hs p.cfg.shareToken
  obtain ⟨I, -⟩ := run_inv hh (Phoenix.World.genesis_inv (h := h) g) hp
  generalize run h w0 ts = w at *
  obtain ⟨I', gr⟩ := run_inv hh I hu
  obtain ⟨q, hq, l⟩ := run_link hh hm I hu hP hd
  obtain ⟨-, -, hK, -⟩ := I.refs.xyk P p hP
  have st := stakes_run hh I hu hK hs
  obtain ⟨q', hq', -, -, e3, e4⟩ := gr.xyk P p hP
  rw [hq] at hq'; cases hq'
  have hb : position w p a ≤ position (run h w us) q a := by
    unfold position
    rw [e3, e4, st]
    omega
  have nK := I.core.contracts p.cfg.stakeContract (by rw [hK]; simp)
  have b0 : 0 ≤ position w p a := by
    unfold position
    have k1 := (I.core.at_ _ nK).led.nonneg p.cfg.shareToken a
    have k2 : 0 ≤ ((Stake.queryStaked (w.stake p.cfg.stakeContract) a).stakes.map Stake.Entry.amount).sum := by
      apply List.sum_nonneg
      intro x hx
      obtain ⟨y, hy, rfl⟩ := List.mem_map.1 hx
      exact le_of_lt ((I.core.at_ _ nK).stake.pos a y hy)
    omega
  refine ⟨q, hq, b0, hb, ?_⟩
  have v := l.val
  have hsq : position w p a ^ 2 ≤ position (run h w us) q a ^ 2 := by
    apply pow_le_pow_left₀ b0 hb
  have n1 := mul_le_mul_of_nonneg_right v (sq_nonneg (position w p a))
  have n2 := mul_le_mul_of_nonneg_left hsq (mul_nonneg (mul_nonneg l.qv (sq_nonneg p.total)) (show 0 ≤ m + 1 by omega))
  nlinarith

/-- account 1 provides liquidity and stakes a part of its shares -/
def exP : World := run Example.host Example.start (Example.setup ++ Example.liquidity ++
  [⟨Example.by' 1, .stake 20602021 (.bond 1 400000)⟩])

/-- account 2 trades through both pools, back through both pools, and directly in the first one; a last attempt fails -/
def exTrades : List Tx :=
  [ ⟨Example.by' 2, .hopSwap Example.router 2 [⟨21, 20, none⟩, ⟨22, 21, none⟩] none 1000 none none⟩,
    ⟨Example.by' 2, .hopSwap Example.router 2 [⟨21, 22, none⟩, ⟨20, 21, none⟩] none 1900 none none⟩,
    ⟨Example.by' 2, .xyk Example.pool1 (.swap 2 20 1000 none none none none)⟩,
    ⟨Example.by' 2, .xyk Example.pool1 (.swap 2 20 1000 (some 5000) none none none)⟩ ]

theorem deep_of {P : Addr} {m : Int} {r : Res (World × Int)} {u : World} {y : Int}
    (h : (match r with
      | .ok (u, _) => (match u.xyk P with | some p => decide (m ≤ p.resA ∧ m ≤ p.resB) | none => true)
      | .error _ => true) = true) (e : r = .ok (u, y)) : Deep P m u := by
  intro p hp
  rw [e] at h
  simp only [hp] at h
  exact of_decide_eq_true h

theorem deep_of' {P : Addr} {m : Int} {r : Res World} {u : World}
    (h : (match r with
      | .ok u => (match u.xyk P with | some p => decide (m ≤ p.resA ∧ m ≤ p.resB) | none => true)
      | .error _ => true) = true) (e : r = .ok u) : Deep P m u := by
  intro p hp
  rw [e] at h
  simp only [hp] at h
  exact of_decide_eq_true h

theorem exTrades_leave : AllLeave Example.host Example.pool1 999000 exP exTrades := by
  refine ⟨fun w' _ hm hr i op hop _ u y hu => ?_, fun w' _ hm hr i op hop _ u y hu => ?_, fun w' e _ => ?_, fun w' e _ => ?_, trivial⟩
  · rw [show hm = ⟨8, 50⟩ from Option.some.inj (hr.symm.trans (by decide +kernel))] at hu
    match i, hop with
    | 0, _ => exact deep_of (by decide +kernel) hu
    | 1, _ => exact deep_of (by decide +kernel) hu
  · rw [show hm = ⟨8, 50⟩ from Option.some.inj (hr.symm.trans (by decide +kernel))] at hu
    match i, hop with
    | 0, _ => exact deep_of (by decide +kernel) hu
    | 1, _ => exact deep_of (by decide +kernel) hu
  · exact deep_of' (by decide +kernel) e
  · exact deep_of' (by decide +kernel) e

/-- three swaps are made in the first pool; account 1 owns the same shares before and after, most of them in the wallet -/
example : swapsIn Example.host Example.pool1 exP exTrades = 3 ∧
    (exP.xyk Example.pool1).map (fun p => (p.resA, p.resB, p.total, exP.led.bal p.cfg.shareToken 1, position exP p 1)) =
      some (1000000, 2000000, 1414213, 1013213, 1413213) ∧
    ((run Example.host exP exTrades).xyk Example.pool1).map
      (fun p => (p.resA, p.resB, p.total, position (run Example.host exP exTrades) p 1)) = some (1001051, 1997898, 1414213, 1413213) ∧
    (∀ t ∈ exTrades, Possible Example.acct t) ∧ (∀ t ∈ exTrades, t.ctx.signed 1 = false) ∧
    Phoenix.Spec.NoAllowance 1 exP.led := by
  refine ⟨by decide +kernel, by decide +kernel, by decide +kernel, ?_, by decide, ?_⟩
  · intro t ht
    simp only [exTrades, List.mem_cons, List.not_mem_nil, or_false] at ht
    rcases ht with rfl | rfl | rfl | rfl <;> exact possible_by (by decide)
  · refine C129_never_approved (acct := Example.acct) ?_ (fun _ _ => le_refl _) ?_
    · intro t ht
      rcases List.mem_append.1 ht with k | k
      · exact ex_setup t k
      · simp only [List.mem_singleton] at k
        subst k; exact possible_by (by decide)
    · intro t ht tok b x hx
      rcases List.mem_append.1 ht with k | k
      · exact ex_never t k tok b x hx
      · simp only [List.mem_singleton] at k
        subst k
        rintro ⟨-, e, h⟩
        simp at h

end Phoenix.Props.World
