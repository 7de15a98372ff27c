import Verif.Spec.PositionStable
import Verif.Props.Position
import Verif.Props.ValueStable
/-!
C131: the same as C128 for stable pools.
-/
namespace Phoenix.Props.World
open Phoenix Phoenix.World Phoenix.World.Spec

variable {h : Host} {acct : Accounts} {w0 w w' : World} {c : Ctx}

/-- From `p` to `q` the total of the reserves per share falls at most by `k` parts in `m`. -/
structure SLink (m : Int) (k : Nat) (p q : Stable.State) : Prop where
  val : (p.resA + p.resB) * q.total * (m - k) ≤ (q.resA + q.resB) * p.total * m
  pv : 0 ≤ p.resA + p.resB
  qv : 0 ≤ q.resA + q.resB
  pt : 0 ≤ p.total
  qt : 0 ≤ q.total
  emp : p.total = 0 → q.total = 0

theorem SLink.refl {P : Addr} {L : Ledger} {m : Int} {p : Stable.State} (hs : Stable.SysInv P ⟨some p, L⟩) (k : Nat) :
    SLink m k p p := by
  have hP := hs.pool p rfl
  have A0 := add_nonneg hP.a0 hP.b0
  refine ⟨?_, A0, A0, hP.t0, hP.t0, id⟩
  have := mul_nonneg (mul_nonneg A0 hP.t0) (Int.natCast_nonneg k)
  nlinarith

theorem SLink.trans {m : Int} {k l : Nat} {p q r : Stable.State} (hm : 1 ≤ m) (a : SLink m k p q) (b : SLink m l q r) :
    SLink m (k + l) p r := by
  refine ⟨?_, a.pv, b.qv, a.pt, b.qt, fun h => b.emp (a.emp h)⟩
  have va := a.val
  have vb := b.val
  have pv := a.pv
  have qv := a.qv
  have rv := b.qv
  have pt := a.pt
  have qt := a.qt
  have rt := b.qt
  have emp := b.emp
  generalize p.resA + p.resB = V at *
  generalize q.resA + q.resB = W at *
  generalize r.resA + r.resB = X at *
  generalize p.total = x at *
  generalize q.total = y at *
  generalize r.total = z at *
  have hk : (0 : Int) ≤ k := Int.natCast_nonneg k
  have hl : (0 : Int) ≤ l := Int.natCast_nonneg l
  push_cast
  generalize (k : Int) = k at *
  generalize (l : Int) = l at *
  have rhs : 0 ≤ X * x * m := mul_nonneg (mul_nonneg rv pt) (by omega)
  rcases eq_or_lt_of_le qt with hy | hy
  · rw [emp hy.symm]; simpa using rhs
  by_cases hc : m - (k + l) ≤ 0
  · have := mul_nonpos_of_nonneg_of_nonpos (mul_nonneg pv rt) hc
    linarith
  · have e1 := mul_le_mul_of_nonneg_right va (mul_nonneg rt (show 0 ≤ m - l by omega))
    have e2 := mul_le_mul_of_nonneg_right vb (mul_nonneg pt (show 0 ≤ m by omega))
    have e3 : V * z * ((m - k) * (m - l)) * y ≤ X * x * m * m * y := by nlinarith
    have e4 := le_of_mul_le_mul_right e3 hy
    have e5 : m * (m - (k + l)) ≤ (m - k) * (m - l) := by nlinarith
    have e6 := mul_le_mul_of_nonneg_left e5 (mul_nonneg pv rt)
    have e7 : V * z * (m - (k + l)) * m ≤ X * x * m * m := by nlinarith
    exact le_of_mul_le_mul_right e7 (by omega)

/-- Swap or deposit. -/
def uses : Stable.Call → Bool
  | .swap .. => true
  | .provide .. => true
  | _ => false

/-- One call of the pool. -/
theorem spool_link {P : Addr} {k : Stable.Call} {s' : Stable.Sys} {L : Ledger} {m : Int} {p q : Stable.State} (hm : 1 ≤ m)
    (hs : Stable.SysInv P ⟨some p, L⟩) (hposs : Stable.Spec.Possible P (.pool c k))
    (e : Stable.step P ⟨some p, L⟩ (.pool c k) = .ok s') (hq : s'.pool = some q)
    (hd : uses k = true → Stable.Spec.Fair m p) :
    SLink m (if uses k then 1 else 0) p q := by
  have hs' := Stable.step_keeps e hposs hs
  have hP := hs.pool p rfl
  have hQ := hs'.pool q hq
  have ex : Stable.exec P ⟨some p, L⟩ (.pool c k) = s' := by unfold Stable.exec; rw [e]
  have hu : uses k = (Stable.Spec.isSwap (.pool c k) || Stable.Spec.isDeposit (.pool c k)) := by
    cases k <;> rfl
  obtain ⟨v1, -, v3⟩ := Phoenix.Props.Stable.value_step hs hposs hm rfl (by rw [ex]; exact hq)
    (fun k1 => hd (by rw [hu]; simpa using k1))
  rw [← hu] at v1
  refine ⟨?_, add_nonneg hP.a0 hP.b0, add_nonneg hQ.a0 hQ.b0, hP.t0, hQ.t0, v3⟩
  have pt := hP.t0
  have qt := hQ.t0
  cases hk : uses k with
  | false =>
    simp only [hk, Bool.false_eq_true, if_false] at v1 ⊢
    push_cast
    nlinarith
  | true =>
    have hF := (hd hk).2.2.1
    simp only [hk, if_true] at v1 ⊢
    push_cast
    have e1 : (p.resA + p.resB) * (m - 1) ≤ (p.resA + p.resB - 1) * m := by nlinarith
    have e2 := mul_le_mul_of_nonneg_right e1 qt
    have e3 := mul_le_mul_of_nonneg_right v1 (show 0 ≤ m by omega)
    nlinarith

theorem inv_spool (I : Inv h acct w) {P : Addr} {p : Stable.State} (hp : w.stable P = some p) :
    w.code P = .stable ∧ Stable.SysInv P ⟨some p, w.led⟩ := by
  have hP := (I.refs.stable P p hp).1
  have := (I.core.at_ P (I.core.contracts P (by rw [hP]; simp))).stable
  rw [hp] at this
  exact ⟨hP, this⟩

theorem sposs_of (I : Inv h acct w) (hc : Signed acct c) {P : Addr} (hP : w.code P = .stable) (hi : c.invoker ≠ some P)
    {k : Stable.Call} (hk : ∀ j, k ≠ .init j) : Stable.Spec.Possible P (.pool c k) := by
  refine ⟨I.core.auth_false hc (by rw [hP]; simp) hi, ?_⟩
  cases k with
  | init j => exact absurd rfl (hk j)
  | _ => trivial

/-- A call of the pool at `P`, in the world. -/
theorem stable_link {P : Addr} {k : Stable.Call} {s' : Stable.Sys} {m : Int} {p : Stable.State} (hm : 1 ≤ m) (I : Inv h acct w)
    (hc : Signed acct c) (hi : c.invoker ≠ some P) (hk : ∀ j, k ≠ .init j) (hp : w.stable P = some p)
    (e : Stable.step P ⟨w.stable P, w.led⟩ (.pool c k) = .ok s') (hd : uses k = true → FairAt P m w) :
    ∃ q, s'.pool = some q ∧ SLink m (if uses k then 1 else 0) p q := by
  obtain ⟨hP, hs⟩ := inv_spool I hp
  have hposs := sposs_of I hc hP hi hk
  rw [hp] at e
  obtain ⟨q, hq, -⟩ := Stable.step_pool e hposs hs rfl
  exact ⟨q, hq, spool_link hm hs hposs e hq (fun hu => hd hu p hp)⟩

/-- A swap that a router or a trader makes. -/
theorem poolSwap_slink {P Q sender offer : Addr} {x r : Int} {mi sp mf : Option Int} {dl : Option Nat} {m : Int}
    {p : Stable.State} (hm : 1 ≤ m) (I : Inv h acct w) (hc : Signed acct c) (hi : c.invoker ≠ some Q)
    (hp : w.stable P = some p) (e : poolSwap w c Q sender offer x mi sp dl mf = .ok (w', r)) (hd : Q = P → FairAt P m w) :
    ∃ q, w'.stable P = some q ∧ SLink m (if Q = P then 1 else 0) p q := by
  obtain ⟨hP, hs⟩ := inv_spool I hp
  by_cases hQ : Q = P
  · subst hQ
    unfold poolSwap at e
    rw [hP] at e
    simp only [bind_ok, ok_inj, Prod.exists, Prod.mk.injEq] at e
    obtain ⟨p0, hp0, p', L, r', hk, rfl, rfl⟩ := e
    have hstep : Stable.step Q ⟨w.stable Q, w.led⟩ (.pool c (.swap sender offer x mi sp dl mf)) = .ok ⟨some p', L⟩ := by
      simp only [Stable.step, bind_ok, ok_inj, Prod.exists]
      exact ⟨p0, hp0, p', L, r', hk, rfl⟩
    obtain ⟨q, hq, l⟩ := stable_link hm I hc hi (by simp) hp hstep (fun _ => hd rfl)
    refine ⟨q, by simp only [upd_same]; exact hq, ?_⟩
    simpa [uses] using l
  · have := (poolSwap_same (Ne.symm hQ) e).stable
    exact ⟨p, this.trans hp, .refl hs _⟩

theorem hopLoop_slink {P H F recipient : Addr} {sp mf : Option Int} {dl : Option Nat} {m : Int} (hm : 1 ≤ m) :
    ∀ {ops : List Multihop.Op} {w w' : World} {x r : Int} {p : Stable.State}, Inv h acct w → Signed acct c →
    w.code H = .multihop → w.stable P = some p → hopLoop w (c.as H) F recipient sp dl mf ops x = .ok (w', r) →
    (∀ i op, ops[i]? = some op → findPool w F op.offer op.ask = .ok P → ∀ u y,
      hopLoop w (c.as H) F recipient sp dl mf (ops.take i) x = .ok (u, y) → FairAt P m u) →
    ∃ q, w'.stable P = some q ∧ SLink m (ops.countP (fun op => decide (findPool w F op.offer op.ask = .ok P))) p q
  | [], w, w', x, r, p, I, hc, hH, hp, e, hd => by
    simp only [hopLoop, ok_inj, Prod.mk.injEq] at e
    obtain ⟨rfl, rfl⟩ := e
    exact ⟨p, hp, .refl (inv_spool I hp).2 _⟩
  | op :: ops, w, w', x, r, p, I, hc, hH, hp, e, hd => by
    simp only [hopLoop, bind_ok, Prod.exists] at e
    obtain ⟨Q, hQ, w1, r1, h1, h2⟩ := e
    have hne : (c.as H).invoker ≠ some Q := by
      simp only [Ctx.as, ne_eq, Option.some.injEq]
      rintro rfl
      rcases poolSwap_code h1 with k | k <;> rw [hH] at k <;> simp at k
    obtain ⟨I1, g1⟩ := poolSwap_step I (c := c.as H) hc hne h1
    obtain ⟨p1, hp1, l1⟩ := poolSwap_slink (c := c.as H) hm I hc hne hp h1 (fun hQP => by
      subst hQP
      exact hd 0 op (by simp) hQ w x rfl)
    obtain ⟨q, hq, l2⟩ := hopLoop_slink hm I1 hc (code_keep g1 hH (by simp)) hp1 h2 (fun i o ho hf u y hu => by
      rw [findPool_swap h1] at hf
      refine hd (i + 1) o (by simpa using ho) hf u y ?_
      simp only [List.take, hopLoop, bind_ok, Prod.exists]
      exact ⟨Q, hQ, w1, r1, h1, hu⟩)
    refine ⟨q, hq, ?_⟩
    have l := l1.trans hm l2
    simp only [findPool_swap h1] at l
    rw [List.countP_cons, add_comm]
    simpa [hQ] using l

/-- One transaction of the protocol, seen from the stable pool at `P`. -/
theorem step_slink {P : Addr} {k : Call} {m : Int} {p : Stable.State} (hm : 1 ≤ m) (I : Inv h acct w) (hc : Signed acct c)
    (hi : c.invoker = none) (hp : w.stable P = some p) (e : step h w c k = .ok w') (hd : MeetsFair P m w ⟨c, k⟩) :
    ∃ q, w'.stable P = some q ∧ SLink m (stableUses w P k) p q := by
  obtain ⟨hP, hs⟩ := inv_spool I hp
  by_cases hT : Touches w k P
  swap
  · exact ⟨p, (step_same e hT).stable.trans hp, .refl hs _⟩
  have hno : w.code P ≠ .none := by rw [hP]; simp
  cases k with
  | stable Q k =>
    have hT : P = Q := hT
    subst hT
    cases k with
    | init i => simp [step] at e
    | swap a o x mi sp dl mf =>
      simp only [step, bind_ok, ok_inj, expect_ok] at e
      obtain ⟨_, h1, s, h2, rfl⟩ := e
      obtain ⟨q, hq, l⟩ := stable_link hm I hc (by rw [hi]; simp) (by simp) hp h2 (fun _ => hd rfl)
      exact ⟨q, by simp only [upd_same]; exact hq, by simpa [uses, stableUses] using l⟩
    | provide a x y cu dl ms =>
      simp only [step, bind_ok, ok_inj, expect_ok] at e
      obtain ⟨_, h1, s, h2, rfl⟩ := e
      obtain ⟨q, hq, l⟩ := stable_link hm I hc (by rw [hi]; simp) (by simp) hp h2 (fun _ => hd rfl)
      exact ⟨q, by simp only [upd_same]; exact hq, by simpa [uses, stableUses] using l⟩
    | _ =>
      simp only [step, bind_ok, ok_inj, expect_ok] at e
      obtain ⟨_, h1, s, h2, rfl⟩ := e
      obtain ⟨q, hq, l⟩ := stable_link hm I hc (by rw [hi]; simp) (by simp) hp h2
        (fun hu => by simp [uses] at hu)
      exact ⟨q, by simp only [upd_same]; exact hq, by simpa [uses, stableUses] using l⟩
  | hopSwap H recipient ops sp amount dl mf =>
    simp only [step, hopSwap, bind_ok, ok_inj, expect_ok, Prod.exists] at e
    obtain ⟨_, h1, w1, r, ⟨_, _, _, _, _, _, hm', hl, h2⟩, rfl⟩ := e
    have hl : w.hop H = some hm' := by
      cases hh : w.hop H with
      | none => rw [hh] at hl; simp [Multihop.loaded] at hl
      | some v => rw [hh] at hl; simp [Multihop.loaded] at hl; rw [hl]
    obtain ⟨q, hq, l⟩ := hopLoop_slink hm I hc h1 hp h2 (hd hm' hl)
    exact ⟨q, hq, by simpa only [stableUses, hl] using l⟩
  | trade T sender token pool amount sp dl mi mf =>
    have hT : P = pool := hT
    subst hT
    simp only [step, trade, bind_ok, ok_inj, expect_ok, Prod.exists] at e
    obtain ⟨_, h1, w1, r, ⟨_, _, t, ht, _, _, _, _, _, _, h2⟩, rfl⟩ := e
    have hne : (c.as T).invoker ≠ some P := by
      simp only [Ctx.as, ne_eq, Option.some.injEq]
      rintro rfl
      rw [h1] at hP; simp at hP
    exact poolSwap_slink (c := c.as T) hm I hc hne hp h2 hd
  | stableInit Q i owner amp mf =>
    exfalso
    rcases hT with rfl | hT
    · simp only [step, initStable, bind_ok, Prod.exists, expect_ok] at e
      obtain ⟨_, h1, _, _, _, _, p', L', hi', -⟩ := e
      have := (Stable.init_inv hi').1
      rw [hp] at this; simp at this
    · exact hno hT
  | token tok op => exact absurd hT (by simp [Touches])
  | trdTransfer T sender recipient amount token => exact absurd hT (by simp [Touches])
  | _ =>
    exfalso
    simp only [Touches] at hT
    first
      | (rcases hT with rfl | hT
         · simp only [step, bind_ok, expect_ok] at e
           obtain ⟨_, h1, -⟩ := e
           rw [hP] at h1; simp at h1
         · exact hno hT)
      | (subst hT
         simp only [step, bind_ok, expect_ok] at e
         obtain ⟨_, h1, -⟩ := e
         rw [hP] at h1; simp at h1)
      | (subst hT
         rename_i k
         cases k <;> simp only [step, bind_ok, expect_ok] at e <;>
           first
             | (obtain ⟨_, h1, -⟩ := e
                rw [hP] at h1; simp at h1)
             | simp at e)

theorem exec_slink {P : Addr} {t : Tx} {m : Int} {p : Stable.State} (hm : 1 ≤ m) (I : Inv h acct w)
    (ht : Possible acct t) (hp : w.stable P = some p) (hd : (step h w t.ctx t.call).isOk → MeetsFair P m w t) :
    ∃ q, (exec h w t).stable P = some q ∧ SLink m (if (step h w t.ctx t.call).isOk then stableUses w P t.call else 0) p q := by
  unfold exec
  cases e : step h w t.ctx t.call with
  | ok w1 => exact step_slink hm I ht.2 ht.1 hp e (hd (by rw [e]; rfl))
  | error _ => exact ⟨p, hp, .refl (inv_spool I hp).2 _⟩

theorem run_slink (hh : HostOK h acct) {P : Addr} {m : Int} (hm : 1 ≤ m) : ∀ {ts : List Tx} {w : World} {p : Stable.State},
    Inv h acct w → (∀ t ∈ ts, Possible acct t) → w.stable P = some p → AllFair h P m w ts →
    ∃ q, (run h w ts).stable P = some q ∧ SLink m (stableUsesIn h P w ts) p q
  | [], w, p, I, _, hp, _ => ⟨p, hp, .refl (inv_spool I hp).2 _⟩
  | t :: ts, w, p, I, hu, hp, hd => by
    have ht := hu t (by simp)
    obtain ⟨p1, hp1, l1⟩ := exec_slink hm I ht hp hd.1
    obtain ⟨q, hq, l2⟩ := run_slink hh hm (exec_inv hh I ht).1 (fun u q => hu u (by simp [q])) hp1 hd.2
    exact ⟨q, hq, l1.trans hm l2⟩

/-! ### C131 -/

/-- **C131** Whatever happens in the protocol, a stable pool never disappears, and the total of its
reserves per share falls at most by `k` parts in `m`, where `k` counts the deposits and the swaps made
in this pool, directly or as part of a route, and each of them finds the pool in fair condition with at
least `m` units of the two tokens together. -/
theorem C131_value_in_protocol (hh : HostOK h acct) (g : Genesis acct w0) {ts us : List Tx} (hp : ∀ t ∈ ts, Possible acct t)
    (hu : ∀ t ∈ us, Possible acct t) {P : Addr} {p : Stable.State} (hP : (run h w0 ts).stable P = some p) {m : Int} (hm : 1 ≤ m)
    (hd : AllFair h P m (run h w0 ts) us) :
    ∃ p', (run h (run h w0 ts) us).stable P = some p' ∧
      (p.resA + p.resB) * p'.total * (m - stableUsesIn h P (run h w0 ts) us) ≤ (p'.resA + p'.resB) * p.total * m := by
  obtain ⟨I, -⟩ := run_inv hh (Phoenix.World.genesis_inv (h := h) g) hp
  obtain ⟨q, hq, l⟩ := run_slink hh hm I hu hP hd
  exact ⟨q, hq, l.val⟩

/-- **C131** An account that signs nothing and has granted no allowance keeps all its shares of a
stable pool, in the wallet and in the stake contract of the pool, whatever everybody else does; and
the number of tokens behind these shares, `(resA + resB) * b / total`, falls at most by `k` parts in
`m`. -/
theorem C131_silent_provider (hh : HostOK h acct) (g : Genesis acct w0) {ts us : List Tx} (hp : ∀ t ∈ ts, Possible acct t)
    (hu : ∀ t ∈ us, Possible acct t) {P : Addr} {p : Stable.State} (hP : (run h w0 ts).stable P = some p) {m : Int} (hm : 1 ≤ m)
    (hd : AllFair h P m (run h w0 ts) us) {a : Addr} (ha : acct a) (hno : Phoenix.Spec.NoAllowance a (run h w0 ts).led)
    (hs : ∀ t ∈ us, t.ctx.signed a = false) :
    ∃ p', (run h (run h w0 ts) us).stable P = some p' ∧
      0 ≤ positionStable (run h w0 ts) p a ∧
      positionStable (run h w0 ts) p a ≤ positionStable (run h (run h w0 ts) us) p' a ∧
      ((p.resA + p.resB) * positionStable (run h w0 ts) p a) * p'.total * (m - stableUsesIn h P (run h w0 ts) us) ≤
        ((p'.resA + p'.resB) * positionStable (run h (run h w0 ts) us) p' a) * p.total * m := by
  have keep := C77_silent_account_keeps hh g hp hu ha hno hs p.cfg.shareToken
  obtain ⟨I, -⟩ := run_inv hh (Phoenix.World.genesis_inv (h := h) g) hp
  generalize run h w0 ts = w at *
  obtain ⟨I', gr⟩ := run_inv hh I hu
  obtain ⟨q, hq, l⟩ := run_slink hh hm I hu hP hd
  obtain ⟨-, -, hK, -⟩ := I.refs.stable P p hP
  have st := stakes_run hh I hu hK.1 hs
  obtain ⟨q', hq', -, -, e3, e4⟩ := gr.stable P p hP
  rw [hq] at hq'; cases hq'
  have hb : positionStable w p a ≤ positionStable (run h w us) q a := by
    unfold positionStable
    rw [e3, e4, st]
    omega
  have nK := I.core.contracts p.cfg.stakeContract (by rw [hK.1]; simp)
  have b0 : 0 ≤ positionStable w p a := by
    unfold positionStable
    have k1 := (I.core.at_ _ nK).led.nonneg p.cfg.shareToken a
    have k2 : 0 ≤ ((Stake.queryStaked (w.stake p.cfg.stakeContract) a).stakes.map Stake.Entry.amount).sum := by
      apply List.sum_nonneg
      intro x hx
      obtain ⟨y, hy, rfl⟩ := List.mem_map.1 hx
      exact le_of_lt ((I.core.at_ _ nK).stake.pos a y hy)
    omega
  refine ⟨q, hq, b0, hb, ?_⟩
  have v := l.val
  have n1 := mul_le_mul_of_nonneg_right v b0
  have n2 := mul_le_mul_of_nonneg_left hb (mul_nonneg (mul_nonneg l.qv l.pt) (show 0 ≤ m by omega))
  nlinarith

instance (m : Int) (p : Stable.State) : Decidable (Stable.Spec.Fair m p) := by
  unfold Stable.Spec.Fair; infer_instance

/-- account 2 trades through both pools, provides liquidity to the stable pool, trades back through both
pools and directly in the stable one; account 3 is refused a deposit that it cannot pay -/
def exStableTrades : List Tx :=
  [ ⟨Example.by' 2, .hopSwap Example.router 2 [⟨21, 20, none⟩, ⟨22, 21, none⟩] none 1000 none none⟩,
    ⟨Example.by' 2, .stable Example.pool2 (.provide 2 5000 6000 none none none)⟩,
    ⟨Example.by' 2, .hopSwap Example.router 2 [⟨21, 22, none⟩, ⟨20, 21, none⟩] none 1900 none none⟩,
    ⟨Example.by' 2, .stable Example.pool2 (.swap 2 22 1000 none none none none)⟩,
    ⟨Example.by' 3, .stable Example.pool2 (.provide 3 (10 ^ 30) (10 ^ 30) none none none)⟩ ]

theorem fair_of {P : Addr} {m : Int} {r : Res (World × Int)} {u : World} {y : Int}
    (h : (match r with
      | .ok (u, _) => (match u.stable P with | some p => decide (Stable.Spec.Fair m p) | none => true)
      | .error _ => true) = true) (e : r = .ok (u, y)) : FairAt P m u := by
  intro p hp
  rw [e] at h
  simp only [hp] at h
  exact of_decide_eq_true h

theorem fair_of' {P : Addr} {m : Int} {u : World}
    (h : (match u.stable P with | some p => decide (Stable.Spec.Fair m p) | none => true) = true) : FairAt P m u := by
  intro p hp
  rw [hp] at h
  exact of_decide_eq_true h

theorem exStableTrades_fair : AllFair Example.host Example.pool2 1990000 exP exStableTrades := by
  refine ⟨fun _ hm hr i op hop _ u y hu => ?_, fun _ _ => ?_, fun _ hm hr i op hop _ u y hu => ?_, fun _ _ => ?_,
    fun e => absurd e (by decide +kernel), trivial⟩
  · rw [show hm = ⟨8, 50⟩ from Option.some.inj (hr.symm.trans (by decide +kernel))] at hu
    match i, hop with
    | 0, _ => exact fair_of (by decide +kernel) hu
    | 1, _ => exact fair_of (by decide +kernel) hu
  · exact fair_of' (by decide +kernel)
  · rw [show hm = ⟨8, 50⟩ from Option.some.inj (hr.symm.trans (by decide +kernel))] at hu
    match i, hop with
    | 0, _ => exact fair_of (by decide +kernel) hu
    | 1, _ => exact fair_of (by decide +kernel) hu
  · exact fair_of' (by decide +kernel)

/-- the stable pool is used four times; account 1 owns the same shares before and after -/
example : stableUsesIn Example.host Example.pool2 exP exStableTrades = 4 ∧
    (exP.stable Example.pool2).map (fun p => (p.resA, p.resB, p.total, positionStable exP p 1)) =
      some (1000000, 1000000, 1999000, 1999000) ∧
    ((run Example.host exP exStableTrades).stable Example.pool2).map
      (fun p => (p.resA, p.resB, p.total, positionStable (run Example.host exP exStableTrades) p 1)) = some (1004094, 1006906, 2009994, 1999000) ∧
    (∀ t ∈ exStableTrades, Possible Example.acct t) ∧ (∀ t ∈ exStableTrades, t.ctx.signed 1 = false) := by
  refine ⟨by decide +kernel, by decide +kernel, by decide +kernel, ?_, by decide⟩
  intro t ht
  simp only [exStableTrades, List.mem_cons, List.not_mem_nil, or_false] at ht
  rcases ht with rfl | rfl | rfl | rfl | rfl <;> exact possible_by (by decide)

end Phoenix.Props.World
