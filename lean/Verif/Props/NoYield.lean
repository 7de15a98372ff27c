import Verif.Props.Position
/-!
C136: trading earns the liquidity providers of an XYK pool nothing.
-/
namespace Phoenix.Props.World
open Phoenix Phoenix.World Phoenix.World.Spec

variable {h : Host} {acct : Accounts} {w0 w w' : World} {c : Ctx}

/-- A relation between an earlier and a later state of a pool that every call of the pool allowed by `ok` respects. -/
structure Respects (ok : Pool.Call → Prop) (R : Pool.State → Pool.State → Prop) : Prop where
  refl : ∀ p, R p p
  trans : ∀ {p q r}, R p q → R q r → R p r
  swap : ∀ a o x mi sp dl mf, ok (.swap a o x mi sp dl mf)
  step : ∀ {P : Addr} {c : Ctx} {k : Pool.Call} {L : Ledger} {p q : Pool.State} {s' : Pool.Sys}, Pool.SysInv P ⟨some p, L⟩ →
    Phoenix.Spec.Possible P (.pool c k) → ok k → Pool.step P ⟨some p, L⟩ (.pool c k) = .ok s' → s'.pool = some q → R p q

/-- The transaction makes no direct call of the pool at `P` other than the allowed ones. -/
def Allowed (ok : Pool.Call → Prop) (P : Addr) (k : Call) : Prop := ∀ j, k = .xyk P j → ok j

section
variable {ok : Pool.Call → Prop} {R : Pool.State → Pool.State → Prop}

theorem xyk_rel (hR : Respects ok R) {P : Addr} {k : Pool.Call} {s' : Pool.Sys} {p : Pool.State} (I : Inv h acct w)
    (hc : Signed acct c) (hi : c.invoker ≠ some P) (hk : ∀ j, k ≠ .init j) (hp : w.xyk P = some p)
    (e : Pool.step P ⟨w.xyk P, w.led⟩ (.pool c k) = .ok s') (ho : ok k) : ∃ q, s'.pool = some q ∧ R p q := by
  obtain ⟨hP, hs⟩ := inv_pool I hp
  have hposs := poss_of I hc hP hi hk
  rw [hp] at e
  obtain ⟨q, hq, -⟩ := Pool.step_pool e hposs hs rfl
  exact ⟨q, hq, hR.step hs hposs ho e hq⟩

theorem poolSwap_rel (hR : Respects ok R) {P Q sender offer : Addr} {x r : Int} {mi sp mf : Option Int} {dl : Option Nat}
    {p : Pool.State} (I : Inv h acct w) (hc : Signed acct c) (hi : c.invoker ≠ some Q)
    (hp : w.xyk P = some p) (e : poolSwap w c Q sender offer x mi sp dl mf = .ok (w', r)) :
    ∃ q, w'.xyk P = some q ∧ R p q := by
  obtain ⟨hP, hs⟩ := inv_pool I hp
  by_cases hQ : Q = P
  · subst hQ
    unfold poolSwap at e
    rw [hP] at e
    simp only [bind_ok, ok_inj, Prod.exists, Prod.mk.injEq] at e
    obtain ⟨p0, hp0, p', L, r', hk, rfl, rfl⟩ := e
    have hstep : Pool.step Q ⟨w.xyk Q, w.led⟩ (.pool c (.swap sender offer x mi sp dl mf)) = .ok ⟨some p', L⟩ := by
      simp only [Pool.step, bind_ok, ok_inj, Prod.exists]
      exact ⟨p0, hp0, p', L, r', hk, rfl⟩
    obtain ⟨q, hq, l⟩ := xyk_rel hR I hc hi (by simp) hp hstep (hR.swap ..)
    exact ⟨q, by simp only [upd_same]; exact hq, l⟩
  · have := (poolSwap_same (Ne.symm hQ) e).xyk
    exact ⟨p, this.trans hp, hR.refl p⟩

theorem hopLoop_rel (hR : Respects ok R) {P H F recipient : Addr} {sp mf : Option Int} {dl : Option Nat} :
    ∀ {ops : List Multihop.Op} {w w' : World} {x r : Int} {p : Pool.State}, Inv h acct w → Signed acct c →
    w.code H = .multihop → w.xyk P = some p → hopLoop w (c.as H) F recipient sp dl mf ops x = .ok (w', r) →
    ∃ q, w'.xyk P = some q ∧ R p q
  | [], w, w', x, r, p, I, hc, hH, hp, e => by
    simp only [hopLoop, ok_inj, Prod.mk.injEq] at e
    obtain ⟨rfl, rfl⟩ := e
    exact ⟨p, hp, hR.refl p⟩
  | op :: ops, w, w', x, r, p, I, hc, hH, hp, e => by
    simp only [hopLoop, bind_ok, Prod.exists] at e
    obtain ⟨Q, hQ, w1, r1, h1, h2⟩ := e
    have hne : (c.as H).invoker ≠ some Q := by
      simp only [Ctx.as, ne_eq, Option.some.injEq]
      rintro rfl
      rcases poolSwap_code h1 with k | k <;> rw [hH] at k <;> simp at k
    obtain ⟨I1, g1⟩ := poolSwap_step I (c := c.as H) hc hne h1
    obtain ⟨p1, hp1, l1⟩ := poolSwap_rel (c := c.as H) hR I hc hne hp h1
    obtain ⟨q, hq, l2⟩ := hopLoop_rel hR I1 hc (code_keep g1 hH (by simp)) hp1 h2
    exact ⟨q, hq, hR.trans l1 l2⟩

/-- One transaction of the protocol, seen from the pool at `P`. -/
theorem step_rel (hR : Respects ok R) {P : Addr} {k : Call} {p : Pool.State} (I : Inv h acct w) (hc : Signed acct c)
    (hi : c.invoker = none) (hp : w.xyk P = some p) (e : step h w c k = .ok w') (ha : Allowed ok P k) :
    ∃ q, w'.xyk P = some q ∧ R p q := by
  obtain ⟨hP, hs⟩ := inv_pool I hp
  by_cases hT : Touches w k P
  swap
  · exact ⟨p, (step_same e hT).xyk.trans hp, hR.refl p⟩
  have hno : w.code P ≠ .none := by rw [hP]; simp
  cases k with
  | xyk Q k =>
    have hT : P = Q := hT
    subst hT
    cases k with
    | init i => simp [step] at e
    | _ =>
      simp only [step, bind_ok, ok_inj, expect_ok] at e
      obtain ⟨_, h1, s, h2, rfl⟩ := e
      obtain ⟨q, hq, l⟩ := xyk_rel hR I hc (by rw [hi]; simp) (by simp) hp h2 (ha _ rfl)
      exact ⟨q, by simp only [upd_same]; exact hq, l⟩
  | hopSwap H recipient ops sp amount dl mf =>
    simp only [step, hopSwap, bind_ok, ok_inj, expect_ok, Prod.exists] at e
    obtain ⟨_, h1, w1, r, ⟨_, _, _, _, _, _, hm', hl, h2⟩, rfl⟩ := e
    exact hopLoop_rel hR I hc h1 hp h2
  | trade T sender token pool amount sp dl mi mf =>
    have hT : P = pool := hT
    subst hT
    simp only [step, trade, bind_ok, ok_inj, expect_ok, Prod.exists] at e
    obtain ⟨_, h1, w1, r, ⟨_, _, t, ht, _, _, _, _, _, _, h2⟩, rfl⟩ := e
    have hne : (c.as T).invoker ≠ some P := by
      simp only [Ctx.as, ne_eq, Option.some.injEq]
      rintro rfl
      rw [h1] at hP; simp at hP
    exact poolSwap_rel (c := c.as T) hR I hc hne hp h2
  | xykInit Q i owner dec sl mf =>
    exfalso
    rcases hT with rfl | hT
    · simp only [step, initXyk, bind_ok, Prod.exists, expect_ok] at e
      obtain ⟨_, h1, p', L', hi', -⟩ := e
      have := (Pool.init_inv hi').1
      rw [hp] at this; simp at this
    · exact hno hT
  | token tok op => exact absurd hT (by simp [Touches])
  | trdTransfer T sender recipient amount token => exact absurd hT (by simp [Touches])
  | _ =>
    exfalso
    simp only [Touches] at hT
    first
      | (rcases hT with rfl | hT
         · simp only [step, bind_ok, expect_ok] at e
           obtain ⟨_, h1, -⟩ := e
           rw [hP] at h1; simp at h1
         · exact hno hT)
      | (subst hT
         simp only [step, bind_ok, expect_ok] at e
         obtain ⟨_, h1, -⟩ := e
         rw [hP] at h1; simp at h1)
      | (subst hT
         rename_i k
         cases k <;> simp only [step, bind_ok, expect_ok] at e <;>
           first
             | (obtain ⟨_, h1, -⟩ := e
                rw [hP] at h1; simp at h1)
             | simp at e)

theorem run_rel (hh : HostOK h acct) (hR : Respects ok R) {P : Addr} : ∀ {ts : List Tx} {w : World} {p : Pool.State},
    Inv h acct w → (∀ t ∈ ts, Possible acct t) → w.xyk P = some p → (∀ t ∈ ts, Allowed ok P t.call) →
    ∃ q, (run h w ts).xyk P = some q ∧ R p q
  | [], w, p, I, _, hp, _ => ⟨p, hp, hR.refl p⟩
  | t :: ts, w, p, I, hu, hp, ha => by
    have ht := hu t (by simp)
    have : ∃ q, (exec h w t).xyk P = some q ∧ R p q := by
      unfold exec
      split
      · rename_i w1 e; exact step_rel hR I ht.2 ht.1 hp e (ha t (by simp))
      · exact ⟨p, hp, hR.refl p⟩
    obtain ⟨p1, hp1, l1⟩ := this
    obtain ⟨q, hq, l2⟩ := run_rel hh hR (ts := ts) (exec_inv hh I ht).1 (fun u q => hu u (by simp [q])) hp1 (fun u q => ha u (by simp [q]))
    exact ⟨q, hq, hR.trans l1 l2⟩
end

/-- Not a deposit and not a withdrawal. -/
def NoLiquidity : Pool.Call → Prop
  | .provide .. => False
  | .withdraw .. => False
  | _ => True

theorem noYield : Respects NoLiquidity (fun p q => q.resA * q.resB ≤ p.resA * p.resB ∧ q.total = p.total) := by
  refine ⟨fun p => ⟨le_refl _, rfl⟩, fun a b => ⟨b.1.trans a.1, b.2.trans a.2⟩, fun _ _ _ _ _ _ _ => trivial, ?_⟩
  intro P c k L p q s' hs hposs ho e hq
  cases k with
  | provide => exact ho.elim
  | withdraw => exact ho.elim
  | init i =>
    simp only [Pool.step, bind_ok, ok_inj] at e
    obtain ⟨⟨p', L'⟩, hi, rfl⟩ := e
    have := (Pool.init_inv hi).1
    simp at this
  | swap a o x mi sp dl mf =>
    simp only [Pool.step, bind_ok, ok_inj, Prod.exists, Pool.loaded] at e
    obtain ⟨_, rfl, p', L', r, e, rfl⟩ := e
    cases hq
    refine ⟨(C03_swap_product e hposs.1 (hs.pool p rfl).distinct.1).1, ?_⟩
    obtain ⟨rate, lim, r, h1, h2, h3, h4, h5, h6, h7, h8, h9, rfl, h11, h12, h13, h14, h15, h16, h17, h18, h19, h20, h21⟩ :=
      Pool.swap_inv e hposs.1 (hs.pool p rfl).distinct.1
    exact h18
  | updateConfig u =>
    simp only [Pool.step, bind_ok, ok_inj, Pool.loaded] at e
    obtain ⟨_, rfl, p', e, rfl⟩ := e
    cases hq
    unfold Pool.updateConfig at e
    simp only [bind_ok, ok_inj] at e
    obtain ⟨_, -, _, -, _, -, _, -, _, -, rfl⟩ := e
    exact ⟨le_refl _, rfl⟩
  | upgrade sl =>
    simp only [Pool.step, Pool.upgrade, bind_ok, ok_inj, Pool.loaded] at e
    obtain ⟨_, rfl, p', ⟨_, _, rfl⟩, rfl⟩ := e
    cases hq
    exact ⟨le_refl _, rfl⟩

/-- **C136** Whatever is traded in an XYK pool, directly, on routes or by traders, by anybody and at any volume, and whatever else
happens in the protocol: as long as nobody deposits or withdraws there, the number of shares stays and the product of the reserves does
not grow.  No part of the fees accrues to the shares (all of it goes to the fee recipient, C01, C20). -/
theorem C136_trading_earns_nothing (hh : HostOK h acct) (g : Genesis acct w0) {ts us : List Tx} (hp : ∀ t ∈ ts, Possible acct t)
    (hu : ∀ t ∈ us, Possible acct t) {P : Addr} {p : Pool.State} (hP : (run h w0 ts).xyk P = some p)
    (hd : ∀ t ∈ us, ∀ a dA mA dB mB cu dl, t.call ≠ .xyk P (.provide a dA mA dB mB cu dl))
    (hw : ∀ t ∈ us, ∀ a sh mA mB dl, t.call ≠ .xyk P (.withdraw a sh mA mB dl)) :
    ∃ p', (run h (run h w0 ts) us).xyk P = some p' ∧ p'.resA * p'.resB ≤ p.resA * p.resB ∧ p'.total = p.total := by
  obtain ⟨I, -⟩ := run_inv hh (Phoenix.World.genesis_inv (h := h) g) hp
  refine run_rel hh noYield I hu hP fun t ht j hj => ?_
  cases j with
  | provide => exact hd t ht _ _ _ _ _ _ _ hj
  | withdraw => exact hw t ht _ _ _ _ _ hj
  | _ => trivial

/-- account 2 trades back and forth in the pool and over a route -/
def exVolume : List Tx :=
  [ ⟨Example.by' 2, .xyk Example.pool1 (.swap 2 20 300000 none none none none)⟩,
    ⟨Example.by' 2, .xyk Example.pool1 (.swap 2 21 500000 none none none none)⟩,
    ⟨Example.by' 2, .hopSwap Example.router 2 [⟨21, 20, none⟩, ⟨22, 21, none⟩] none 100000 none none⟩ ]

/-- Of a volume of about a fifth of the pool's depth in each direction the recipient got 956, 1949 and 562 units of fees, while the
product of the reserves fell. -/
example : let w := run Example.host Example.start (Example.setup ++ Example.liquidity)
    let w' := run Example.host w exVolume
    (w.xyk Example.pool1).map (fun p => (p.resA * p.resB, p.total)) = some (2000000000000, 1414213) ∧
    (w'.xyk Example.pool1).map (fun p => (p.resA * p.resB, p.total)) = some (1999997210472, 1414213) ∧
    (w'.led.bal 20 7, w'.led.bal 21 7, w'.led.bal 22 7) = (956, 1949, 562) := by decide +kernel

example : (∀ t ∈ exVolume, Possible Example.acct t) ∧ (∀ t ∈ exVolume, ∀ a dA mA dB mB cu dl,
    t.call ≠ .xyk Example.pool1 (.provide a dA mA dB mB cu dl)) := by
  refine ⟨fun t k => ?_, fun t k => ?_⟩ <;> simp only [exVolume, List.mem_cons, List.not_mem_nil, or_false] at k
  · rcases k with rfl | rfl | rfl <;> exact possible_by (by decide)
  · rcases k with rfl | rfl | rfl <;> simp

end Phoenix.Props.World
