import Verif.Spec.Mirror
import Verif.Props.PoolSys
import Verif.Props.StableSys
/-!
C138: neither token of a pair is favoured.
-/
namespace Phoenix.Props.Mirror
open Phoenix Phoenix.Mirror

/-- Transfers of two different tokens can change places. -/
theorem transfers_comm {c : Ctx} {A B s d s' d' : Addr} {x y : Int} {L L1 L2 : Ledger} (hne : A ≠ B)
    (h1 : L.transfer c A s d x = .ok L1) (h2 : L1.transfer c B s' d' y = .ok L2) :
    ∃ L1', L.transfer c B s' d' y = .ok L1' ∧ L1'.transfer c A s d x = .ok L2 := by
  unfold Ledger.transfer Ledger.call at *
  simp only [bind_ok, ok_inj] at *
  obtain ⟨t, ht, rfl⟩ := h1
  obtain ⟨u, hu, rfl⟩ := h2
  have e : upd L A t B = L B := by simp [upd, Ne.symm hne]
  rw [e] at hu
  refine ⟨upd L B u, ⟨u, hu, rfl⟩, t, ?_, ?_⟩
  · rw [show upd L B u A = L A by simp [upd, hne]]; exact ht
  · funext z
    simp only [upd]
    by_cases h1 : z = A
    · subst h1; simp [hne]
    · simp [h1]

variable {P : Addr} {c : Ctx} {p : Pool.State} {L : Ledger}

theorem sides (hne : p.cfg.tokenA ≠ p.cfg.tokenB) (o : Addr) : Pool.sides (pool p) o = Pool.sides p o := by
  simp only [Pool.sides, pool]
  by_cases h1 : o = p.cfg.tokenA
  · subst h1; simp [hne]
  · simp [h1]

theorem reverseSides (hne : p.cfg.tokenA ≠ p.cfg.tokenB) (o : Addr) :
    Pool.reverseSides (pool p) o = Pool.reverseSides p o := by
  simp only [Pool.reverseSides, pool]
  by_cases h1 : o = p.cfg.tokenA
  · subst h1; simp [hne]
  · simp only [h1, if_false]; rfl

theorem swapReserves {o : Addr} (hne : p.cfg.tokenA ≠ p.cfg.tokenB) (ho : o = p.cfg.tokenA ∨ o = p.cfg.tokenB) (x : Int)
    (r : Pool.ComputeSwap) (q : Pool.State) (e : Pool.swapReserves p o x r = .ok q) :
    Pool.swapReserves (pool p) o x r = .ok (pool q) := by
  unfold Pool.swapReserves at *
  rcases ho with rfl | rfl
  · have h2 : ¬ p.cfg.tokenA = (pool p).cfg.tokenA := hne
    simp only [if_true, bind_ok, ok_inj] at e
    obtain ⟨a, ha, b1, hb1, b2, hb2, b, hb, rfl⟩ := e
    simp only [if_neg h2, bind_ok, ok_inj]
    exact ⟨b1, hb1, b2, hb2, b, hb, a, ha, rfl⟩
  · have h1 : ¬ p.cfg.tokenB = p.cfg.tokenA := Ne.symm hne
    have h2 : p.cfg.tokenB = (pool p).cfg.tokenA := rfl
    simp only [if_neg h1, bind_ok, ok_inj] at e
    obtain ⟨a1, ha1, a2, ha2, a, ha, b, hb, rfl⟩ := e
    simp only [if_pos h2, bind_ok, ok_inj]
    exact ⟨b, hb, a1, ha1, a2, ha2, a, ha, rfl⟩

theorem swap {s o : Addr} {x : Int} {mo ms : Option Int} {dl : Option Nat} {mf : Option Int} {q : Pool.State} {L' : Ledger}
    {r : Int} (hne : p.cfg.tokenA ≠ p.cfg.tokenB) (e : Pool.swap P c p L s o x mo ms dl mf = .ok (q, L', r)) :
    Pool.swap P c (pool p) L s o x mo ms dl mf = .ok (pool q, L', r) := by
  unfold Pool.swap Pool.doSwap at *
  simp only [bind_ok, ok_inj, Prod.mk.injEq, Prod.exists] at *
  obtain ⟨_, h1, _, h2, _, h3, l, hl, a, b, hs, fee, hf, k, hk, _, hm, g1, hg1, g, hg, _, hms, L1, t1, rc, hrc, L2, t2, L3, t3,
    q', hq, rfl, rfl, rfl⟩ := e
  have ho : o = p.cfg.tokenA ∨ o = p.cfg.tokenB := by
    unfold Pool.sides at hs
    split at hs
    · left; assumption
    · split at hs
      · right; assumption
      · simp at hs
  have ht : Pool.tokensOf (pool p) o = Pool.tokensOf p o := by
    unfold Pool.tokensOf
    rcases ho with rfl | rfl
    · rw [if_pos rfl, if_neg (show ¬ p.cfg.tokenA = (pool p).cfg.tokenA from hne)]; rfl
    · rw [if_neg (Ne.symm hne), if_pos (show p.cfg.tokenB = (pool p).cfg.tokenA from rfl)]; rfl
  rw [ht]
  exact ⟨_, h1, _, h2, _, h3, l, hl, a, b, (sides hne o).trans hs, fee, hf, k, hk, _, hm, g1, hg1, g, hg, _, hms, L1, t1, rc, hrc,
    L2, t2, L3, t3, pool q', swapReserves hne ho _ _ _ hq, rfl, rfl, rfl⟩

theorem whenSome_code {o : Option Int} {f : Int → Prop} [∀ x, Decidable (f x)] {e e' : Err} {u : Unit}
    (h : whenSome o (fun m => req (f m) e) = .ok u) : whenSome o (fun m => req (f m) e') = .ok u := by
  cases o with
  | none => exact h
  | some m => exact req_ok.mpr (req_ok.mp h)

theorem depositSide {d o x y : Int} {m : Option Int} {sl a : Int} {n k : Nat} (n' k' : Nat)
    (e : Pool.depositSide d o x y m sl n k = .ok a) : Pool.depositSide d o x y m sl n' k' = .ok a := by
  unfold Pool.depositSide at *
  simp only [bind_ok, ok_inj] at *
  obtain ⟨v, hv, w, hw, z, hz, _, hm, rfl⟩ := e
  refine ⟨v, hv, w, hw, z, ?_, (), whenSome_code hm, rfl⟩
  unfold Pool.capAmount at *
  split at hz
  · rename_i hlt
    simp only [bind_ok, ok_inj] at hz
    obtain ⟨r, hr, q, hq, _, hc, rfl⟩ := hz
    rw [if_pos hlt]
    simp only [bind_ok]
    exact ⟨r, hr, q, hq, (), req_ok.mpr (req_ok.mp hc), trivial⟩
  · rename_i hlt
    rw [if_neg hlt]; exact hz

theorem depositAmounts {dA dB : Int} {mA mB : Option Int} {x y sl a b : Int}
    (e : Pool.depositAmounts dA mA dB mB x y sl = .ok (a, b)) : Pool.depositAmounts dB mB dA mA y x sl = .ok (b, a) := by
  unfold Pool.depositAmounts at *
  simp only [bind_ok] at *
  obtain ⟨_, h1, _, h2, h3⟩ := e
  refine ⟨(), req_ok.mpr (fun h => (req_ok.mp h1) h.symm), (), ?_, ?_⟩
  · cases mA with
    | none => cases mB <;> rfl
    | some u =>
      cases mB with
      | none => rfl
      | some v => exact req_ok.mpr (fun h => (req_ok.mp h2) h.symm)
  · by_cases hz : x = 0 ∧ y = 0
    · rw [if_pos hz] at h3
      rw [if_pos hz.symm]
      simp only [ok_inj, Prod.mk.injEq] at h3
      rw [h3.1, h3.2]
    · rw [if_neg hz] at h3
      rw [if_neg (fun h => hz h.symm)]
      simp only [bind_ok, ok_inj, Prod.mk.injEq] at *
      obtain ⟨_, h4, _, h5, a', h6, b', h7, rfl, rfl⟩ := h3
      exact ⟨(), whenSome_code h5, (), whenSome_code h4, _, depositSide 9 10 h7, _, depositSide 11 12 h6, rfl, rfl⟩

theorem chooseAmounts {dA mA dB mB cu : Option Int} {a b : Int} (e : Pool.chooseAmounts p dA mA dB mB cu = .ok (a, b)) :
    Pool.chooseAmounts (pool p) dB mB dA mA cu = .ok (b, a) := by
  cases dA with
  | none => simp [Pool.chooseAmounts] at e
  | some x =>
    cases dB with
    | none => simp [Pool.chooseAmounts] at e
    | some y =>
      simp only [Pool.chooseAmounts] at *
      by_cases h : 0 < x ∧ 0 < y
      · rw [if_pos h] at e
        rw [if_pos h.symm]
        simp only [bind_ok] at *
        obtain ⟨sl, hs, hd⟩ := e
        exact ⟨sl, hs, depositAmounts hd⟩
      · rw [if_neg h] at e; simp at e

theorem mintShares {a : Addr} {x : Int} {q : Pool.State} {L' : Ledger} (e : Pool.mintShares P c p L a x = .ok (q, L')) :
    Pool.mintShares P c (pool p) L a x = .ok (pool q, L') := by
  unfold Pool.mintShares at *
  simp only [bind_ok, ok_inj, Prod.mk.injEq] at *
  obtain ⟨L1, h1, t, h2, rfl, rfl⟩ := e
  exact ⟨L1, h1, t, h2, rfl, rfl⟩

theorem burnShares {x : Int} {q : Pool.State} {L' : Ledger} (e : Pool.burnShares P c p L x = .ok (q, L')) :
    Pool.burnShares P c (pool p) L x = .ok (pool q, L') := by
  unfold Pool.burnShares at *
  simp only [bind_ok, ok_inj, Prod.mk.injEq] at *
  obtain ⟨L1, h1, t, h2, rfl, rfl⟩ := e
  exact ⟨L1, h1, t, h2, rfl, rfl⟩

theorem newShares {a b x y n : Int} {q : Pool.State} {L' : Ledger} (e : Pool.newShares P c p L a b x y = .ok (n, q, L')) :
    Pool.newShares P c (pool p) L b a y x = .ok (n, pool q, L') := by
  unfold Pool.newShares at *
  by_cases h : 0 < p.resA ∧ 0 < p.resB
  · rw [if_pos h] at e
    rw [if_pos (show 0 < (pool p).resA ∧ 0 < (pool p).resB from h.symm)]
    simp only [bind_ok, ok_inj, Prod.mk.injEq] at *
    obtain ⟨ma, h1, sa, h2, mb, h3, sb, h4, rfl, rfl, rfl⟩ := e
    exact ⟨mb, h3, sb, h4, ma, h1, sa, h2, min_comm _ _, rfl, rfl⟩
  · rw [if_neg h] at e
    rw [if_neg (show ¬ (0 < (pool p).resA ∧ 0 < (pool p).resB) from fun x => h x.symm)]
    simp only [bind_ok, ok_inj, Prod.mk.injEq, Prod.exists] at *
    obtain ⟨m, h1, r, h2, _, h3, q', L1, h4, k, h5, rfl, rfl, rfl⟩ := e
    exact ⟨m, by rw [← h1]; unfold mulI; rw [mul_comm], r, h2, (), h3, _, _, mintShares h4, k, h5, rfl, rfl, rfl⟩

theorem provide {s : Addr} {dA mA dB mB cu : Option Int} {dl : Option Nat} {q : Pool.State} {L' : Ledger}
    (hne : p.cfg.tokenA ≠ p.cfg.tokenB) (e : Pool.provide P c p L s dA mA dB mB cu dl = .ok (q, L')) :
    Pool.provide P c (pool p) L s dB mB dA mA cu dl = .ok (pool q, L') := by
  unfold Pool.provide at *
  simp only [bind_ok, ok_inj, Prod.mk.injEq, Prod.exists] at *
  obtain ⟨_, h1, _, h2, _, h3, _, h4, _, h5, _, h6, _, h7, a, b, h8, L1, h9, L2, h10, u, h11, v, h12, n, p1, L3, h13, m, h14, p2, L4,
    h15, rfl, rfl⟩ := e
  obtain ⟨L1', h9', h10'⟩ := transfers_comm hne h9 h10
  exact ⟨_, h1, _, h4, _, h5, _, h2, _, h3, _, h6, _, h7, b, a, chooseAmounts h8, L1', h9', L2, h10', v, h12, u, h11, n, pool p1, L3,
    newShares h13, m, h14, pool p2, L4, mintShares h15, rfl, rfl⟩

theorem withdraw {s : Addr} {x mA mB : Int} {dl : Option Nat} {q : Pool.State} {L' : Ledger} {ra rb : Int}
    (hne : p.cfg.tokenA ≠ p.cfg.tokenB) (e : Pool.withdraw P c p L s x mA mB dl = .ok (q, L', ra, rb)) :
    Pool.withdraw P c (pool p) L s x mB mA dl = .ok (pool q, L', rb, ra) := by
  unfold Pool.withdraw at *
  simp only [bind_ok, ok_inj, Prod.mk.injEq, Prod.exists] at *
  obtain ⟨_, h1, _, h2, _, h3, _, h4, _, h5, L1, h6, _, h7, r, h8, a, h9, b, h10, _, h11, p1, L2, h12, L3, h13, L4, h14, u, h15, v, h16,
    rfl, rfl, rfl, rfl⟩ := e
  obtain ⟨L3', h13', h14'⟩ := transfers_comm hne h13 h14
  exact ⟨_, h1, _, h2, _, h4, _, h3, _, h5, L1, h6, _, h7, r, h8, b, h10, a, h9, (), req_ok.mpr (fun h => (req_ok.mp h11) h.symm),
    pool p1, L2, burnShares h12, L3', h13', L4, h14', v, h16, u, h15, rfl, rfl, rfl, rfl⟩

theorem step_one {k : Pool.Call} (hk : ∀ i, k ≠ .init i) {s' : Pool.Sys} (hne : p.cfg.tokenA ≠ p.cfg.tokenB)
    (e : Pool.step P ⟨some p, L⟩ (.pool c k) = .ok s') :
    Pool.step P ⟨some (pool p), L⟩ (.pool c (call k)) = .ok ⟨s'.pool.map pool, s'.led⟩ := by
  cases k
  case init i => exact absurd rfl (hk i)
  case provide s dA mA dB mB cu dl =>
    simp only [Pool.step, call, Pool.loaded, bind_ok, ok_inj, Prod.exists] at *
    obtain ⟨_, rfl, q, L', h, rfl⟩ := e
    exact ⟨_, rfl, _, _, provide hne h, rfl⟩
  case swap s o x mo ms dl mf =>
    simp only [Pool.step, call, Pool.loaded, bind_ok, ok_inj, Prod.exists] at *
    obtain ⟨_, rfl, q, L', r, h, rfl⟩ := e
    exact ⟨_, rfl, _, _, _, swap hne h, rfl⟩
  case withdraw s x mA mB dl =>
    simp only [Pool.step, call, Pool.loaded, bind_ok, ok_inj, Prod.exists] at *
    obtain ⟨_, rfl, q, L', a, b, h, rfl⟩ := e
    exact ⟨_, rfl, _, _, _, _, withdraw hne h, rfl⟩
  case updateConfig u =>
    simp only [Pool.step, call, Pool.loaded, bind_ok, ok_inj] at *
    obtain ⟨_, rfl, q, h, rfl⟩ := e
    refine ⟨_, rfl, pool q, ?_, rfl⟩
    unfold Pool.updateConfig at *
    simp only [bind_ok, ok_inj] at *
    obtain ⟨_, h1, _, h2, _, h3, _, h4, _, h5, rfl⟩ := h
    exact ⟨_, h1, _, h2, _, h3, _, h4, _, h5, rfl⟩
  case upgrade x =>
    simp only [Pool.step, call, Pool.loaded, bind_ok, ok_inj] at *
    obtain ⟨_, rfl, q, h, rfl⟩ := e
    refine ⟨_, rfl, pool q, ?_, rfl⟩
    unfold Pool.upgrade at *
    simp only [bind_ok, ok_inj] at *
    obtain ⟨_, h1, rfl⟩ := h
    exact ⟨_, h1, rfl⟩

theorem pool_pool (p : Pool.State) : pool (pool p) = p := rfl
theorem call_call (k : Pool.Call) : call (call k) = k := by cases k <;> rfl

/-! ### Stable pools -/

section Stable
variable {p : Stable.State}

theorem dLoop (lev sum a b n d : Nat) : Stable.dLoop lev sum a b n d = Stable.dLoop lev sum b a n d := by
  induction n generalizing d with
  | zero => rfl
  | succ n ih => simp only [Stable.dLoop, ih, mul128, Nat.mul_comm a b]

theorem computeD {amp x y d : Nat} (e : Stable.computeD amp x y = .ok d) : Stable.computeD amp y x = .ok d := by
  unfold Stable.computeD at *
  simp only [bind_ok] at *
  obtain ⟨lev, h1, a, h2, b, h3, sm, h4, h5⟩ := e
  refine ⟨lev, h1, b, h3, a, h2, sm, by rw [← h4]; unfold add128; rw [Nat.add_comm], ?_⟩
  rw [dLoop]; exact h5

theorem invariantOf {amp x y m n d : Nat} (e : Stable.invariantOf amp x y m n = .ok d) :
    Stable.invariantOf amp y x n m = .ok d := by
  unfold Stable.invariantOf at *
  simp only [bind_ok] at *
  obtain ⟨a, h1, b, h2, h3⟩ := e
  exact ⟨b, h2, a, h1, computeD h3⟩

theorem stable_sides (hne : p.cfg.tokenA ≠ p.cfg.tokenB) (o : Addr) : Stable.sides (stable p) o = Stable.sides p o := by
  simp only [Stable.sides, stable]
  by_cases h1 : o = p.cfg.tokenA
  · subst h1; simp [hne]
  · simp only [h1, if_false]

theorem stable_swapReserves {o : Addr} (hne : p.cfg.tokenA ≠ p.cfg.tokenB) (ho : o = p.cfg.tokenA ∨ o = p.cfg.tokenB) (x : Int)
    (r : Stable.Quote) (q : Stable.State) (e : Stable.swapReserves p o x r = .ok q) :
    Stable.swapReserves (stable p) o x r = .ok (stable q) := by
  unfold Stable.swapReserves at *
  rcases ho with rfl | rfl
  · have h2 : ¬ p.cfg.tokenA = (stable p).cfg.tokenA := hne
    simp only [if_true, bind_ok, ok_inj] at e
    obtain ⟨a, ha, b1, hb1, b, hb, rfl⟩ := e
    simp only [if_neg h2, bind_ok, ok_inj]
    exact ⟨b1, hb1, b, hb, a, ha, rfl⟩
  · have h1 : ¬ p.cfg.tokenB = p.cfg.tokenA := Ne.symm hne
    have h2 : p.cfg.tokenB = (stable p).cfg.tokenA := rfl
    simp only [if_neg h1, bind_ok, ok_inj] at e
    obtain ⟨a1, ha1, a, ha, b, hb, rfl⟩ := e
    simp only [if_pos h2, bind_ok, ok_inj]
    exact ⟨b, hb, a1, ha1, a, ha, rfl⟩

theorem stable_swap {s o : Addr} {x : Int} {mo ms : Option Int} {dl : Option Nat} {mf : Option Int} {q : Stable.State}
    {L' : Ledger} {r : Int} (hne : p.cfg.tokenA ≠ p.cfg.tokenB) (e : Stable.swap P c p L s o x mo ms dl mf = .ok (q, L', r)) :
    Stable.swap P c (stable p) L s o x mo ms dl mf = .ok (stable q, L', r) := by
  unfold Stable.swap Stable.doSwap at *
  simp only [bind_ok, ok_inj, Prod.mk.injEq, Prod.exists] at *
  obtain ⟨_, h1, _, h2, _, h3, l, hl, a, b, hs, k, hk, _, hm, g, hg, _, hms, L1, t1, rc, hrc, L2, t2, L3, t3, q', hq, rfl, rfl,
    rfl⟩ := e
  have ho : o = p.cfg.tokenA ∨ o = p.cfg.tokenB := by
    unfold Stable.sides at hs
    split at hs
    · left; assumption
    · split at hs
      · right; assumption
      · simp at hs
  have hl' : Stable.swapLimits (stable p) o ms mf = .ok l := by
    unfold Stable.swapLimits at *
    simp only [bind_ok] at *
    obtain ⟨_, e1, _, e2, _, e3, e4⟩ := hl
    exact ⟨_, e1, (), req_ok.mpr (req_ok.mp e2).symm, _, e3, e4⟩
  exact ⟨_, h1, _, h2, _, h3, l, hl', a, b, (stable_sides hne o).trans hs, k, hk, _, hm, g, hg, _, hms, L1, t1, rc, hrc,
    L2, t2, L3, t3, stable q', stable_swapReserves hne ho _ _ _ hq, rfl, rfl, rfl⟩

theorem stable_mintShares {a : Addr} {x : Int} {q : Stable.State} {L' : Ledger} (e : Stable.mintShares P c p L a x = .ok (q, L')) :
    Stable.mintShares P c (stable p) L a x = .ok (stable q, L') := by
  unfold Stable.mintShares at *
  simp only [bind_ok, ok_inj, Prod.mk.injEq] at *
  obtain ⟨L1, h1, t, h2, rfl, rfl⟩ := e
  exact ⟨L1, h1, t, h2, rfl, rfl⟩

theorem stable_burnShares {x : Int} {q : Stable.State} {L' : Ledger} (e : Stable.burnShares P c p L x = .ok (q, L')) :
    Stable.burnShares P c (stable p) L x = .ok (stable q, L') := by
  unfold Stable.burnShares at *
  simp only [bind_ok, ok_inj, Prod.mk.injEq] at *
  obtain ⟨L1, h1, t, h2, rfl, rfl⟩ := e
  exact ⟨L1, h1, t, h2, rfl, rfl⟩

theorem stable_newShares {amp m n d s : Nat} (e : Stable.newShares p amp m n d = .ok s) :
    Stable.newShares (stable p) amp n m d = .ok s := by
  unfold Stable.newShares at *
  have ht : (stable p).total = p.total := rfl
  rw [ht]
  by_cases h : p.total = 0
  · rw [if_pos h] at *; exact e
  · rw [if_neg h] at *
    simp only [bind_ok] at *
    obtain ⟨oa, h1, ob, h2, d0, h3, e0, h4, d1, h5, dd, h6, de, h7, ini, h8, r, h9, s', h10, h11⟩ := e
    exact ⟨ob, h2, oa, h1, d0, invariantOf h3, e0, h4, d1, h5, dd, h6, de, h7, ini, h8, r, h9, s', h10, h11⟩

theorem stable_provide {s : Addr} {a b : Int} {cu : Option Int} {dl ms : Option Nat} {q : Stable.State} {L' : Ledger}
    (hne : p.cfg.tokenA ≠ p.cfg.tokenB) (e : Stable.provide P c p L s a b cu dl ms = .ok (q, L')) :
    Stable.provide P c (stable p) L s b a cu dl ms = .ok (stable q, L') := by
  unfold Stable.provide at *
  simp only [bind_ok, ok_inj, Prod.mk.injEq, Prod.exists] at *
  obtain ⟨_, h1, _, h2, _, h3, _, h4, _, h5, amp, h6, L1, h7, L2, h8, ra, h9, rb, h10, na, h11, nb, h12, ua, h13, ub, h14, d, h15, sh,
    h16, _, h17, s', h18, p1, L3, h19, rfl, rfl⟩ := e
  obtain ⟨L1', h7', h8'⟩ := transfers_comm hne h7 h8
  exact ⟨_, h1, _, h3, _, h2, _, h4, _, h5, amp, h6, L1', h7', L2, h8', rb, h10, ra, h9, nb, h12, na, h11, ub, h14, ua, h13, d,
    invariantOf h15, sh, stable_newShares h16, _, h17, s', h18, stable p1, L3, stable_mintShares h19, rfl, rfl⟩

theorem stable_withdraw {s : Addr} {x mA mB : Int} {dl : Option Nat} {q : Stable.State} {L' : Ledger} {ra rb : Int}
    (hne : p.cfg.tokenA ≠ p.cfg.tokenB) (e : Stable.withdraw P c p L s x mA mB dl = .ok (q, L', ra, rb)) :
    Stable.withdraw P c (stable p) L s x mB mA dl = .ok (stable q, L', rb, ra) := by
  unfold Stable.withdraw at *
  simp only [bind_ok, ok_inj, Prod.mk.injEq, Prod.exists] at *
  obtain ⟨_, h1, _, h2, _, h3, _, h4, _, h5, L1, h6, _, h7, r, h8, a, h9, b, h10, _, h11, p1, L2, h12, L3, h13, L4, h14, u, h15, v, h16,
    rfl, rfl, rfl, rfl⟩ := e
  obtain ⟨L3', h13', h14'⟩ := transfers_comm hne h13 h14
  exact ⟨_, h1, _, h2, _, h4, _, h3, _, h5, L1, h6, _, h7, r, h8, b, h10, a, h9, (), req_ok.mpr (fun h => (req_ok.mp h11) h.symm),
    stable p1, L2, stable_burnShares h12, L3', h13', L4, h14', v, h16, u, h15, rfl, rfl, rfl, rfl⟩

theorem stable_step {k : Stable.Call} (hk : ∀ i, k ≠ .init i) {s' : Stable.Sys} (hne : p.cfg.tokenA ≠ p.cfg.tokenB)
    (e : Stable.step P ⟨some p, L⟩ (.pool c k) = .ok s') :
    Stable.step P ⟨some (stable p), L⟩ (.pool c (stableCall k)) = .ok ⟨s'.pool.map stable, s'.led⟩ := by
  cases k
  case init i => exact absurd rfl (hk i)
  case provide s a b cu dl ms =>
    simp only [Stable.step, stableCall, Stable.loaded, bind_ok, ok_inj, Prod.exists] at *
    obtain ⟨_, rfl, q, L', h, rfl⟩ := e
    exact ⟨_, rfl, _, _, stable_provide hne h, rfl⟩
  case swap s o x mo ms dl mf =>
    simp only [Stable.step, stableCall, Stable.loaded, bind_ok, ok_inj, Prod.exists] at *
    obtain ⟨_, rfl, q, L', r, h, rfl⟩ := e
    exact ⟨_, rfl, _, _, _, stable_swap hne h, rfl⟩
  case withdraw s x mA mB dl =>
    simp only [Stable.step, stableCall, Stable.loaded, bind_ok, ok_inj, Prod.exists] at *
    obtain ⟨_, rfl, q, L', a, b, h, rfl⟩ := e
    exact ⟨_, rfl, _, _, _, _, stable_withdraw hne h, rfl⟩
  case updateConfig s u =>
    simp only [Stable.step, stableCall, Stable.loaded, bind_ok, ok_inj] at *
    obtain ⟨_, rfl, q, h, rfl⟩ := e
    refine ⟨_, rfl, stable q, ?_, rfl⟩
    unfold Stable.updateConfig at *
    simp only [bind_ok, ok_inj] at *
    obtain ⟨_, h1, _, h2, _, h3, _, h4, rfl⟩ := h
    exact ⟨_, h1, _, h2, _, h3, _, h4, rfl⟩

theorem stable_stable (p : Stable.State) : stable (stable p) = p := rfl
theorem stableCall_call (k : Stable.Call) : stableCall (stableCall k) = k := by cases k <;> rfl

end Stable

/-- C138: with the two tokens of a pool exchanged, and the amounts of the call with them, a call of
the pool succeeds exactly when it did before; it moves the same tokens between the same accounts,
and the reserves come out exchanged. -/
theorem C138_neither_token_favoured {P : Addr} {c : Ctx} {p : Pool.State} {L : Ledger} {k : Pool.Call} {s' : Pool.Sys}
    (hk : ∀ i, k ≠ .init i) (hne : p.cfg.tokenA ≠ p.cfg.tokenB) :
    Pool.step P ⟨some p, L⟩ (.pool c k) = .ok s'
      ↔ Pool.step P ⟨some (pool p), L⟩ (.pool c (call k)) = .ok ⟨s'.pool.map pool, s'.led⟩ := by
  refine ⟨step_one hk hne, fun e => ?_⟩
  have hk' : ∀ i, call k ≠ .init i := by
    intro i hi; cases k <;> simp [call] at hi; exact hk _ rfl
  have := step_one hk' (p := pool p) (Ne.symm hne) e
  rw [call_call, pool_pool] at this
  rw [this]
  obtain ⟨po, le⟩ := s'
  cases po <;> rfl

/-- C138: the same for stable pools. -/
theorem C138_neither_token_favoured_stable {P : Addr} {c : Ctx} {p : Stable.State} {L : Ledger} {k : Stable.Call}
    {s' : Stable.Sys} (hk : ∀ i, k ≠ .init i) (hne : p.cfg.tokenA ≠ p.cfg.tokenB) :
    Stable.step P ⟨some p, L⟩ (.pool c k) = .ok s'
      ↔ Stable.step P ⟨some (stable p), L⟩ (.pool c (stableCall k)) = .ok ⟨s'.pool.map stable, s'.led⟩ := by
  refine ⟨stable_step hk hne, fun e => ?_⟩
  have hk' : ∀ i, stableCall k ≠ .init i := by
    intro i hi; cases k <;> simp [stableCall] at hi; exact hk _ rfl
  have := stable_step hk' (p := stable p) (Ne.symm hne) e
  rw [stableCall_call, stable_stable] at this
  rw [this]
  obtain ⟨po, le⟩ := s'
  cases po <;> rfl

/-- C138: quotes do not depend on which of the two tokens is the first one. -/
theorem C138_same_quotes {p : Pool.State} {q : Stable.State} (hp : p.cfg.tokenA ≠ p.cfg.tokenB)
    (hq : q.cfg.tokenA ≠ q.cfg.tokenB) (o : Addr) (x : Int) (now : Nat) :
    Pool.simulateSwap (pool p) o x = Pool.simulateSwap p o x
    ∧ Pool.simulateReverseSwap (pool p) o x = Pool.simulateReverseSwap p o x
    ∧ Stable.simulateSwap now (stable q) o x = Stable.simulateSwap now q o x
    ∧ Stable.simulateReverseSwap now (stable q) o x = Stable.simulateReverseSwap now q o x := by
  refine ⟨?_, ?_, ?_, ?_⟩
  · simp only [Pool.simulateSwap, sides hp]; rfl
  · simp only [Pool.simulateReverseSwap, reverseSides hp]; rfl
  · simp only [Stable.simulateSwap, stable_sides hq]; rfl
  · simp only [Stable.simulateReverseSwap, stable_sides hq]; rfl

/-- C138: `query_share` gives the same two amounts, in the other order. -/
theorem C138_same_share {p : Pool.State} {x a b : Int} :
    Pool.queryShare p x = .ok (a, b) ↔ Pool.queryShare (pool p) x = .ok (b, a) := by
  unfold Pool.queryShare
  simp only [bind_ok, ok_inj, Prod.mk.injEq]
  constructor
  · rintro ⟨r, h, u, hu, v, hv, rfl, rfl⟩
    exact ⟨r, h, v, hv, u, hu, rfl, rfl⟩
  · rintro ⟨r, h, u, hu, v, hv, rfl, rfl⟩
    exact ⟨r, h, v, hv, u, hu, rfl, rfl⟩

/-- C138: the same for stable pools. -/
theorem C138_same_share_stable {p : Stable.State} {x a b : Int} :
    Stable.queryShare p x = .ok (a, b) ↔ Stable.queryShare (stable p) x = .ok (b, a) := by
  unfold Stable.queryShare
  simp only [bind_ok, ok_inj, Prod.mk.injEq]
  constructor
  · rintro ⟨r, h, u, hu, v, hv, rfl, rfl⟩
    exact ⟨r, h, v, hv, u, hu, rfl, rfl⟩
  · rintro ⟨r, h, u, hu, v, hv, rfl, rfl⟩
    exact ⟨r, h, v, hv, u, hu, rfl, rfl⟩

theorem exec_pool {me : Addr} {s : Pool.Sys} {t : Pool.Tx} (ht : Spec.Possible me t) (hs : Pool.SysInv me s)
    (hp : s.pool.isSome) : Pool.exec me (sys s) (tx t) = sys (Pool.exec me s t) := by
  obtain ⟨po, L⟩ := s
  cases po with
  | none => simp at hp
  | some p =>
    have hne : p.cfg.tokenA ≠ p.cfg.tokenB := (hs.pool p rfl).distinct.1
    cases t with
    | token c tok op =>
      simp only [Pool.exec, sys, tx, Pool.step]
      cases L.call c tok op <;> rfl
    | pool c k =>
      by_cases hk : ∃ i, k = .init i
      · obtain ⟨i, rfl⟩ := hk
        rfl
      · have hk' : ∀ i, k ≠ .init i := fun i h => hk ⟨i, h⟩
        show Pool.exec me ⟨some (pool p), L⟩ (.pool c (call k)) = _
        simp only [Pool.exec]
        cases e : Pool.step me ⟨some p, L⟩ (.pool c k) with
        | ok s' => rw [(C138_neither_token_favoured hk' hne).mp e]; rfl
        | error x =>
          cases e' : Pool.step me ⟨some (pool p), L⟩ (.pool c (call k)) with
          | error _ => rfl
          | ok s' =>
            have h2 : s' = ⟨(sys s').pool.map pool, (sys s').led⟩ := by obtain ⟨po, le⟩ := s'; cases po <;> rfl
            rw [h2] at e'
            rw [(C138_neither_token_favoured hk' hne).mpr e'] at e
            cases e

/-- C138: a whole history of deposits, withdrawals, swaps, configuration changes and token calls,
from any state a pool can reach, ends with the same balances and with exchanged reserves when the
two tokens are exchanged in the pool and in all calls. -/
theorem C138_whole_histories {me : Addr} {s0 : Pool.Sys} (h0 : Spec.Genesis me s0) (ts us : List Pool.Tx)
    (ht : ∀ t ∈ ts ++ us, Spec.Possible me t) (hp : (Pool.run me s0 ts).pool.isSome) :
    Pool.run me (sys (Pool.run me s0 ts)) (us.map tx) = sys (Pool.run me s0 (ts ++ us)) := by
  rw [show Pool.run me s0 (ts ++ us) = Pool.run me (Pool.run me s0 ts) us from List.foldl_append]
  have hs := Pool.run_keeps ts (fun t h => ht t (by simp [h])) (genesis_inv h0)
  have hu : ∀ t ∈ us, Spec.Possible me t := fun t h => ht t (by simp [h])
  clear ht h0
  generalize Pool.run me s0 ts = s at *
  clear ts
  induction us generalizing s with
  | nil => rfl
  | cons t us ih =>
    have h1 := hu t (by simp)
    show Pool.run me (Pool.exec me (sys s) (tx t)) (us.map tx) = sys (Pool.run me (Pool.exec me s t) us)
    rw [exec_pool h1 hs hp]
    refine ih (fun t h => hu t (by simp [h])) _ ?_ (Pool.exec_keeps h1 hs)
    unfold Pool.exec
    split
    · rename_i s' e
      obtain ⟨p, hp⟩ := Option.isSome_iff_exists.mp hp
      obtain ⟨p', h, -⟩ := Pool.step_pool e h1 hs hp
      rw [h]; rfl
    · exact hp

theorem exec_stable {me : Addr} {s : Stable.Sys} {t : Stable.Tx} (hs : Stable.SysInv me s)
    (hp : s.pool.isSome) : Stable.exec me (stableSys s) (stableTx t) = stableSys (Stable.exec me s t) := by
  obtain ⟨po, L⟩ := s
  cases po with
  | none => simp at hp
  | some p =>
    have hne : p.cfg.tokenA ≠ p.cfg.tokenB := (hs.pool p rfl).distinct.1
    cases t with
    | token c tok op =>
      simp only [Stable.exec, stableSys, stableTx, Stable.step]
      cases L.call c tok op <;> rfl
    | pool c k =>
      by_cases hk : ∃ i, k = .init i
      · obtain ⟨i, rfl⟩ := hk
        rfl
      · have hk' : ∀ i, k ≠ .init i := fun i h => hk ⟨i, h⟩
        show Stable.exec me ⟨some (stable p), L⟩ (.pool c (stableCall k)) = _
        simp only [Stable.exec]
        cases e : Stable.step me ⟨some p, L⟩ (.pool c k) with
        | ok s' => rw [(C138_neither_token_favoured_stable hk' hne).mp e]; rfl
        | error x =>
          cases e' : Stable.step me ⟨some (stable p), L⟩ (.pool c (stableCall k)) with
          | error _ => rfl
          | ok s' =>
            have h2 : s' = ⟨(stableSys s').pool.map stable, (stableSys s').led⟩ := by
              obtain ⟨po, le⟩ := s'; cases po <;> rfl
            rw [h2] at e'
            rw [(C138_neither_token_favoured_stable hk' hne).mpr e'] at e
            cases e

/-- C138: the same for stable pools. -/
theorem C138_whole_histories_stable {me : Addr} {s0 : Stable.Sys} (h0 : Stable.Spec.Genesis me s0) (ts us : List Stable.Tx)
    (ht : ∀ t ∈ ts ++ us, Stable.Spec.Possible me t) (hp : (Stable.run me s0 ts).pool.isSome) :
    Stable.run me (stableSys (Stable.run me s0 ts)) (us.map stableTx) = stableSys (Stable.run me s0 (ts ++ us)) := by
  rw [show Stable.run me s0 (ts ++ us) = Stable.run me (Stable.run me s0 ts) us from List.foldl_append]
  have hs := Stable.run_keeps ts (fun t h => ht t (by simp [h])) (Stable.genesis_inv h0)
  have hu : ∀ t ∈ us, Stable.Spec.Possible me t := fun t h => ht t (by simp [h])
  clear ht h0
  generalize Stable.run me s0 ts = s at *
  clear ts
  induction us generalizing s with
  | nil => rfl
  | cons t us ih =>
    have h1 := hu t (by simp)
    show Stable.run me (Stable.exec me (stableSys s) (stableTx t)) (us.map stableTx)
      = stableSys (Stable.run me (Stable.exec me s t) us)
    rw [exec_stable hs hp]
    refine ih (fun t h => hu t (by simp [h])) _ ?_ (Stable.exec_keeps h1 hs)
    unfold Stable.exec
    split
    · rename_i s' e
      obtain ⟨p, hp⟩ := Option.isSome_iff_exists.mp hp
      obtain ⟨p', h, -⟩ := Props.Stable.step_pool e h1 hs hp
      rw [h]; rfl
    · exact hp

/-- in the example history a deposit of 1000000 and 2000000 and a swap of the first token give, the
other way round, a deposit of 2000000 and 1000000 and the same trade -/
example :
    let s := Pool.run 100 exStart (exHist.take 1)
    s.pool.isSome = true
    ∧ ((Pool.run 100 s (exHist.drop 1)).pool.map fun p => (p.cfg.tokenA, p.resA, p.resB)) = some (10, 647093, 1291601)
    ∧ ((Pool.run 100 (sys s) ((exHist.drop 1).map tx)).pool.map fun p => (p.cfg.tokenA, p.resA, p.resB))
        = some (11, 1291601, 647093)
    ∧ (Pool.run 100 (sys s) ((exHist.drop 1).map tx)).led.bal 11 2 = (Pool.run 100 exStart exHist).led.bal 11 2
    ∧ (Pool.run 100 exStart exHist).led.bal 11 2 = 5001994 := by
  decide +kernel

/-- the same for a stable pool, whose second deposit is lopsided -/
example :
    let s := Stable.run 100 (Stable.exStart 7 7) ((Stable.exHist 100 20000000 20000000).take 1)
    let us := Stable.exLong.drop 1 ++ [.pool (by' 1) (.provide 1 3000000 1000000 none none none)]
    s.pool.isSome = true
    ∧ ((Stable.run 100 s us).pool.map fun p => (p.cfg.tokenA, p.resA, p.resB)) = some (10, 23738271, 19762984)
    ∧ ((Stable.run 100 (stableSys s) (us.map stableTx)).pool.map fun p => (p.cfg.tokenA, p.resA, p.resB))
        = some (11, 19762984, 23738271) := by
  decide +kernel

end Phoenix.Props.Mirror
