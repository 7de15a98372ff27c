import Verif.Lemmas.WorldSys
import Verif.Spec.Supply
import Verif.Props.Token
/-!
# Total supplies (helpers only)

`Net L L' t d`: between `L` and `L'` only finitely many balances of `t` change and the changes add
up to `d`.
-/
namespace Phoenix
open Phoenix.Spec (Settles SameRights Flow Issues supplyChange parties)
open Phoenix.Props (C21_supply C21_others_unchanged sum_indicator)

def Net (L L' : Ledger) (t : Addr) (d : Int) : Prop :=
  ∃ S : Finset Addr, (∀ a, a ∉ S → L'.bal t a = L.bal t a) ∧ ∑ a ∈ S, L'.bal t a = ∑ a ∈ S, L.bal t a + d

namespace Net
variable {L L1 L2 : Ledger} {t : Addr} {d d1 d2 : Int}

theorem refl (L : Ledger) (t : Addr) : Net L L t 0 := ⟨∅, by simp, by simp⟩

theorem of_bal (h : ∀ a, L1.bal t a = L.bal t a) : Net L L1 t 0 := ⟨∅, fun a _ => h a, by simp⟩

/-- A larger set will do. -/
theorem grow {S T : Finset Addr} (h1 : ∀ a, a ∉ S → L1.bal t a = L.bal t a)
    (h2 : ∑ a ∈ S, L1.bal t a = ∑ a ∈ S, L.bal t a + d) (h : S ⊆ T) :
    ∑ a ∈ T, L1.bal t a = ∑ a ∈ T, L.bal t a + d := by
  rw [← Finset.sum_sdiff h, ← Finset.sum_sdiff h, h2]
  have : ∑ a ∈ T \ S, L1.bal t a = ∑ a ∈ T \ S, L.bal t a :=
    Finset.sum_congr rfl (fun a ha => h1 a (Finset.mem_sdiff.mp ha).2)
  rw [this]; ring

theorem trans (h1 : Net L L1 t d1) (h2 : Net L1 L2 t d2) : Net L L2 t (d1 + d2) := by
  obtain ⟨S, a1, b1⟩ := h1
  obtain ⟨T, a2, b2⟩ := h2
  refine ⟨S ∪ T, fun a ha => ?_, ?_⟩
  · rw [Finset.notMem_union] at ha
    rw [a2 a ha.2, a1 a ha.1]
  · rw [grow a2 b2 Finset.subset_union_right, grow a1 b1 Finset.subset_union_left]; ring

theorem trans0 (h1 : Net L L1 t 0) (h2 : Net L1 L2 t d2) : Net L L2 t d2 := by
  have := h1.trans h2; rwa [zero_add] at this
theorem trans0' (h1 : Net L L1 t d) (h2 : Net L1 L2 t 0) : Net L L2 t d := by
  have := h1.trans h2; rwa [add_zero] at this

theorem call {c : Ctx} {tok : Addr} {op : TokenOp} (h : L.call c tok op = .ok L1) :
    Net L L1 t (if tok = t then supplyChange op else 0) := by
  rw [Ledger.call_ok] at h
  obtain ⟨t1, h1, rfl⟩ := h
  by_cases e : tok = t
  · subst e
    rw [if_pos rfl]
    refine ⟨(parties op).toFinset, fun a ha => ?_, ?_⟩
    · simp only [Ledger.bal, upd_same]
      exact C21_others_unchanged h1 a (by simpa using ha)
    · simp only [Ledger.bal, upd_same]
      exact C21_supply h1 _ (fun a ha => by simpa using ha)
  · rw [if_neg e]
    exact of_bal (fun a => by simp only [Ledger.bal, upd_ne _ _ (fun h => e h.symm)])

theorem transfer {c : Ctx} {tok s d : Addr} {x : Int} (h : L.transfer c tok s d x = .ok L1) : Net L L1 t 0 := by
  have := call (t := t) h
  simpa [supplyChange] using this
theorem mint {c : Ctx} {tok d : Addr} {x : Int} (h : L.mint c tok d x = .ok L1) : Net L L1 t (if tok = t then x else 0) :=
  call h
theorem burn {c : Ctx} {tok d : Addr} {x : Int} (h : L.burn c tok d x = .ok L1) : Net L L1 t (if tok = t then -x else 0) :=
  call h

end Net

namespace Pool
variable {me t : Addr} {c : Ctx} {p p' : State} {L L' : Ledger}

theorem mintShares_net {d : Addr} {x : Int} (h : mintShares me c p L d x = .ok (p', L')) :
    Net L L' t (if p.cfg.shareToken = t then p'.total - p.total else 0) ∧ p'.cfg = p.cfg := by
  simp only [mintShares, bind_ok, ok_inj, Prod.mk.injEq, addI_ok] at h
  obtain ⟨L1, h1, _, ⟨h2, rfl⟩, rfl, rfl⟩ := h
  refine ⟨?_, rfl⟩
  have := Net.mint (t := t) h1
  simpa using this

theorem burnShares_net {x : Int} (h : burnShares me c p L x = .ok (p', L')) :
    Net L L' t (if p.cfg.shareToken = t then p'.total - p.total else 0) ∧ p'.cfg = p.cfg := by
  simp only [burnShares, bind_ok, ok_inj, Prod.mk.injEq, subI_ok] at h
  obtain ⟨L1, h1, _, ⟨h2, rfl⟩, rfl, rfl⟩ := h
  refine ⟨?_, rfl⟩
  have := Net.burn (t := t) h1
  simpa using this

theorem newShares_net {a b x y n : Int} (h : newShares me c p L a b x y = .ok (n, p', L')) :
    Net L L' t (if p.cfg.shareToken = t then p'.total - p.total else 0) ∧ p'.cfg = p.cfg := by
  unfold newShares at h
  split at h
  · simp only [bind_ok, ok_inj, Prod.mk.injEq] at h
    obtain ⟨_, _, _, _, _, _, _, _, _, rfl, rfl⟩ := h
    refine ⟨?_, rfl⟩
    have := Net.refl L t
    simpa using this
  · simp only [bind_ok, ok_inj, Prod.mk.injEq, Prod.exists] at h
    obtain ⟨_, _, _, _, _, _, p1, L1, h1, _, _, _, rfl, rfl⟩ := h
    exact mintShares_net h1

theorem provide_net {sender : Addr} {x1 x2 x3 x4 x5 : Option Int} {dl : Option Nat}
    (h : provide me c p L sender x1 x2 x3 x4 x5 dl = .ok (p', L')) :
    Net L L' t (if p.cfg.shareToken = t then p'.total - p.total else 0) ∧ p'.cfg = p.cfg := by
  simp only [provide, bind_ok, ok_inj, Prod.mk.injEq, Prod.exists] at h
  obtain ⟨_, _, _, _, _, _, _, _, _, _, _, _, _, _, _, _, _, L1, h1, L2, h2, _, _, _, _, _, p1, L3, h3, _, _, p2, L4, h4, rfl, rfl⟩ := h
  obtain ⟨n3, e⟩ := newShares_net (t := t) h3
  obtain ⟨n4, e'⟩ := mintShares_net (t := t) h4
  have := (Net.transfer h1).trans0 ((Net.transfer h2).trans0 (n3.trans n4))
  simp only [e] at this
  refine ⟨?_, e'.trans e⟩
  convert this using 1
  split <;> simp

theorem withdraw_net {sender : Addr} {x1 x2 x3 r1 r2 : Int} {dl : Option Nat}
    (h : withdraw me c p L sender x1 x2 x3 dl = .ok (p', L', r1, r2)) :
    Net L L' t (if p.cfg.shareToken = t then p'.total - p.total else 0) ∧ p'.cfg = p.cfg := by
  simp only [withdraw, bind_ok, ok_inj, Prod.mk.injEq, Prod.exists] at h
  obtain ⟨_, _, _, _, _, _, _, _, _, _, L1, h1, _, _, _, _, _, _, _, _, _, _, p1, L2, h2, L3, h3, L4, h4, _, _, _, _, rfl, rfl, rfl, rfl⟩ := h
  obtain ⟨n2, e⟩ := burnShares_net (t := t) h2
  exact ⟨(Net.transfer h1).trans0 (n2.trans0' ((Net.transfer h3).trans0 (Net.transfer h4))), e⟩

theorem swap_net {sender offer : Addr} {x r : Int} {x1 x2 x3 : Option Int} {dl : Option Nat}
    (h : swap me c p L sender offer x x1 x2 dl x3 = .ok (p', L', r)) :
    Net L L' t 0 ∧ p'.total = p.total ∧ p'.cfg = p.cfg := by
  simp only [swap, doSwap, bind_ok, ok_inj, Prod.mk.injEq, Prod.exists] at h
  obtain ⟨_, _, _, _, _, _, _, _, _, _, _, _, _, _, _, _, _, _, _, _, _, _, _, L1, h1, _, _, L2, h2, L3, h3, p1, hp, rfl, rfl, rfl⟩ := h
  refine ⟨(Net.transfer h1).trans0 ((Net.transfer h2).trans0 (Net.transfer h3)), ?_⟩
  unfold swapReserves at hp
  split at hp
  all_goals
    simp only [bind_ok, ok_inj] at hp
    obtain ⟨_, _, _, _, _, _, _, _, rfl⟩ := hp
    exact ⟨rfl, rfl⟩

/-- Every call but `initialize`. -/
theorem step_net {s s' : Sys} {k : Call} (h : step me s (.pool c k) = .ok s') (hk : ∀ i, k ≠ .init i) :
    ∃ p p', s.pool = some p ∧ s'.pool = some p' ∧ p'.cfg.shareToken = p.cfg.shareToken ∧
      Net s.led s'.led t (if p.cfg.shareToken = t then p'.total - p.total else 0) := by
  have hq : ∀ {p}, loaded s.pool = .ok p → s.pool = some p := by
    intro p hp; revert hp; unfold loaded; split <;> simp_all
  cases k with
  | init i => exact absurd rfl (hk i)
  | provide =>
    simp only [step, bind_ok, ok_inj, Prod.exists] at h
    obtain ⟨p, hp, p', L, h, rfl⟩ := h
    exact ⟨p, p', hq hp, rfl, by rw [(provide_net (t := t) h).2], (provide_net h).1⟩
  | swap =>
    simp only [step, bind_ok, ok_inj, Prod.exists] at h
    obtain ⟨p, hp, p', L, r, h, rfl⟩ := h
    obtain ⟨n, e, e2⟩ := swap_net (t := t) h
    exact ⟨p, p', hq hp, rfl, by rw [e2], by simpa [e] using n⟩
  | withdraw =>
    simp only [step, bind_ok, ok_inj, Prod.exists] at h
    obtain ⟨p, hp, p', L, _, _, h, rfl⟩ := h
    exact ⟨p, p', hq hp, rfl, by rw [(withdraw_net (t := t) h).2], (withdraw_net h).1⟩
  | updateConfig =>
    simp only [step, updateConfig, bind_ok, ok_inj] at h
    obtain ⟨p, hp, p', ⟨_, _, _, _, _, _, _, _, _, _, rfl⟩, rfl⟩ := h
    exact ⟨p, _, hq hp, rfl, rfl, by simpa using Net.refl s.led t⟩
  | upgrade =>
    simp only [step, upgrade, bind_ok, ok_inj] at h
    obtain ⟨p, hp, p', ⟨_, _, rfl⟩, rfl⟩ := h
    exact ⟨p, _, hq hp, rfl, rfl, by simpa using Net.refl s.led t⟩

end Pool

namespace Stable
variable {me t : Addr} {c : Ctx} {p p' : State} {L L' : Ledger}

theorem provide_net {sender : Addr} {x y : Int} {x1 : Option Int} {dl m : Option Nat}
    (h : provide me c p L sender x y x1 dl m = .ok (p', L')) :
    Net L L' t (if p.cfg.shareToken = t then p'.total - p.total else 0) ∧ p'.cfg = p.cfg := by
  simp only [provide, mintShares, bind_ok, ok_inj, Prod.mk.injEq, Prod.exists, addI_ok] at h
  obtain ⟨_, _, _, _, _, _, _, _, _, _, _, _, L1, h1, L2, h2, _, _, _, _, _, _, _, _, _, _, _, _, _, _, _, _, _, _, _, _, p1, L3, ⟨L4, h3, _, ⟨_, rfl⟩, rfl, rfl⟩, rfl, rfl⟩ := h
  have := (Net.transfer (t := t) h1).trans0 ((Net.transfer h2).trans0 (Net.mint h3))
  exact ⟨by simpa using this, rfl⟩

theorem withdraw_net {sender : Addr} {x1 x2 x3 r1 r2 : Int} {dl : Option Nat}
    (h : withdraw me c p L sender x1 x2 x3 dl = .ok (p', L', r1, r2)) :
    Net L L' t (if p.cfg.shareToken = t then p'.total - p.total else 0) ∧ p'.cfg = p.cfg := by
  simp only [withdraw, burnShares, bind_ok, ok_inj, Prod.mk.injEq, Prod.exists] at h
  obtain ⟨_, _, _, _, _, _, _, _, _, _, L1, h1, _, _, _, _, _, _, _, _, _, _, p1, L2, ⟨L2', h2, _, hs, rfl, rfl⟩, L3, h3, L4, h4, _, _, _, _, rfl, rfl, rfl, rfl⟩ := h
  rw [subI_ok] at hs
  obtain ⟨-, rfl⟩ := hs
  have := (Net.transfer (t := t) h1).trans0 ((Net.burn h2).trans0' ((Net.transfer h3).trans0 (Net.transfer h4)))
  exact ⟨by simpa using this, rfl⟩

theorem swap_net {sender offer : Addr} {x r : Int} {x1 x2 x3 : Option Int} {dl : Option Nat}
    (h : swap me c p L sender offer x x1 x2 dl x3 = .ok (p', L', r)) :
    Net L L' t 0 ∧ p'.total = p.total ∧ p'.cfg = p.cfg := by
  simp only [swap, doSwap, bind_ok, ok_inj, Prod.mk.injEq, Prod.exists] at h
  obtain ⟨_, _, _, _, _, _, _, _, _, _, _, _, _, _, _, _, _, _, _, L1, h1, _, _, L2, h2, L3, h3, p1, hp, rfl, rfl, rfl⟩ := h
  refine ⟨(Net.transfer h1).trans0 ((Net.transfer h2).trans0 (Net.transfer h3)), ?_⟩
  unfold swapReserves at hp
  split at hp
  all_goals
    simp only [bind_ok, ok_inj] at hp
    obtain ⟨_, _, _, _, _, _, rfl⟩ := hp
    exact ⟨rfl, rfl⟩

/-- Every call but `initialize`. -/
theorem step_net {s s' : Sys} {k : Call} (h : step me s (.pool c k) = .ok s') (hk : ∀ i, k ≠ .init i) :
    ∃ p p', s.pool = some p ∧ s'.pool = some p' ∧ p'.cfg.shareToken = p.cfg.shareToken ∧
      Net s.led s'.led t (if p.cfg.shareToken = t then p'.total - p.total else 0) := by
  have hq : ∀ {p}, loaded s.pool = .ok p → s.pool = some p := by
    intro p hp; revert hp; unfold loaded; split <;> simp_all
  cases k with
  | init i => exact absurd rfl (hk i)
  | provide =>
    simp only [step, bind_ok, ok_inj, Prod.exists] at h
    obtain ⟨p, hp, p', L, h, rfl⟩ := h
    exact ⟨p, p', hq hp, rfl, by rw [(provide_net (t := t) h).2], (provide_net h).1⟩
  | swap =>
    simp only [step, bind_ok, ok_inj, Prod.exists] at h
    obtain ⟨p, hp, p', L, r, h, rfl⟩ := h
    obtain ⟨n, e, e2⟩ := swap_net (t := t) h
    exact ⟨p, p', hq hp, rfl, by rw [e2], by simpa [e] using n⟩
  | withdraw =>
    simp only [step, bind_ok, ok_inj, Prod.exists] at h
    obtain ⟨p, hp, p', L, _, _, h, rfl⟩ := h
    exact ⟨p, p', hq hp, rfl, by rw [(withdraw_net (t := t) h).2], (withdraw_net h).1⟩
  | updateConfig =>
    simp only [step, updateConfig, bind_ok, ok_inj] at h
    obtain ⟨p, hp, p', ⟨_, _, _, _, _, _, _, _, rfl⟩, rfl⟩ := h
    exact ⟨p, _, hq hp, rfl, rfl, by simpa using Net.refl s.led t⟩

end Stable

namespace Stake
variable {me t : Addr} {c : Ctx}

theorem payLoop_net {s : State} {sender : Addr} : ∀ {l : List Addr} {L L' : Ledger},
    payLoop me c s sender l L = .ok L' → Net L L' t 0
  | [], L, L', h => by simp only [payLoop, ok_inj] at h; subst h; exact .refl _ _
  | a :: l, L, L', h => by
    simp only [payLoop, bind_ok] at h
    obtain ⟨_, _, L1, h1, h2⟩ := h
    exact (Net.transfer h1).trans0 (payLoop_net h2)

theorem step_net {s s' : Sys} {k : Call} (h : step me s (.stake c k) = .ok s') : Net s.led s'.led t 0 := by
  cases k with
  | init =>
    simp only [step, bind_ok, ok_inj] at h
    obtain ⟨v, _, rfl⟩ := h; exact .refl _ _
  | bond =>
    simp only [step, bond, bind_ok, ok_inj, Prod.exists, Prod.mk.injEq] at h
    obtain ⟨v, L, ⟨_, _, _, _, _, _, L1, h1, _, _, _, _, rfl, rfl⟩, rfl⟩ := h
    exact .transfer h1
  | unbond =>
    simp only [step, unbond, bind_ok, ok_inj, Prod.exists, Prod.mk.injEq] at h
    obtain ⟨v, L, ⟨_, _, _, _, _, _, _, _, L1, h1, _, _, rfl, rfl⟩, rfl⟩ := h
    exact .transfer h1
  | createFlow =>
    simp only [step, bind_ok, ok_inj] at h
    obtain ⟨v, _, rfl⟩ := h; exact .refl _ _
  | distribute =>
    simp only [step, distribute, bind_ok, ok_inj, Prod.exists, Prod.mk.injEq] at h
    obtain ⟨v, L, ⟨_, _, _, _, _, _, _, _, _, _, L1, h1, rfl, rfl⟩, rfl⟩ := h
    exact .transfer h1
  | withdraw =>
    simp only [step, withdraw, bind_ok, ok_inj, Prod.exists, Prod.mk.injEq] at h
    obtain ⟨v, L, ⟨L1, h1, rfl, rfl⟩, rfl⟩ := h
    exact payLoop_net h1

end Stake

namespace Vesting
variable {me t : Addr} {c : Ctx}

/-- What a vesting call issues of `t`. -/
def callIssue (v : Option State) (t : Addr) : Call → Int
  | .mint _ x => match v with
    | some v => if v.token = t then x else 0
    | none => 0
  | .burn _ x => match v with
    | some v => if v.token = t then -(x : Int) else 0
    | none => 0
  | _ => 0

theorem step_net {s s' : Sys} {k : Call} (h : step me s (.vest c k) = .ok s') (hf : ∀ a x, k = .burn a x → x < U128_LIM) :
    Net s.led s'.led t (callIssue s.vest t k) := by
  have hq : ∀ {p}, loaded s.vest = .ok p → s.vest = some p := by
    intro p hp; revert hp; unfold loaded; split <;> simp_all
  cases k with
  | init =>
    simp only [step, bind_ok, ok_inj] at h
    obtain ⟨v, _, rfl⟩ := h; exact .refl _ _
  | create =>
    simp only [step, create, bind_ok, ok_inj, Prod.exists, Prod.mk.injEq] at h
    obtain ⟨_, _, v, L, ⟨_, _, _, _, _, _, _, _, _, _, _, _, _, L1, h1, rfl, rfl⟩, rfl⟩ := h
    exact .transfer h1
  | claim =>
    simp only [step, claim, bind_ok, ok_inj, Prod.exists, Prod.mk.injEq] at h
    obtain ⟨_, _, v, L, ⟨_, _, _, _, _, _, _, _, _, _, _, _, _, _, _, _, _, _, L1, h1, rfl, rfl⟩, rfl⟩ := h
    exact .transfer h1
  | burn a x =>
    simp only [step, burn, bind_ok, ok_inj] at h
    obtain ⟨v, hv, L, ⟨_, _, _, _, h1⟩, rfl⟩ := h
    obtain ⟨-, h0, -, -, -⟩ := Ledger.burn_inv h1
    have := Net.burn (t := t) h1
    have hx : castI128 x = x := by
      unfold castI128 at *
      split
      · rfl
      · rename_i k; rw [if_neg k] at h0
        have := hf a x rfl
        omega
    rw [hx] at this
    simpa only [callIssue, hq hv] using this
  | mint a x =>
    simp only [step, mint, bind_ok, ok_inj, Prod.exists, Prod.mk.injEq] at h
    obtain ⟨v0, hv, v, L, ⟨_, _, _, _, _, _, _, _, _, _, _, _, L1, h1, rfl, rfl⟩, rfl⟩ := h
    have := Net.mint (t := t) h1
    simpa only [callIssue, hq hv] using this
  | updateMinter =>
    simp only [step, bind_ok, ok_inj] at h
    obtain ⟨_, _, v, _, rfl⟩ := h; exact .refl _ _
  | updateCapacity =>
    simp only [step, bind_ok, ok_inj] at h
    obtain ⟨_, _, v, _, rfl⟩ := h; exact .refl _ _

end Vesting

namespace Rewards
variable {me t : Addr} {c : Ctx}

theorem withdraw_net {s v : State} {L L' : Ledger} {u : Addr} {i : Stake.Info}
    (h : withdraw me c s L u i = .ok (v, L')) : Net L L' t 0 := by
  unfold withdraw at h
  simp only [bind_ok] at h
  obtain ⟨cfg, h1, _, h2, x, h3, h4⟩ := h
  split at h4
  · simp only [ok_inj, Prod.mk.injEq] at h4
    obtain ⟨rfl, rfl⟩ := h4; exact .refl _ _
  · simp only [bind_ok, ok_inj, Prod.mk.injEq] at h4
    obtain ⟨_, _, _, _, L1, hL, rfl, rfl⟩ := h4
    exact .transfer hL

theorem step_net {s s' : Sys} {k : Call} (h : step me s (.rewards c k) = .ok s') : Net s.led s'.led t 0 := by
  cases k with
  | init =>
    simp only [step, bind_ok, ok_inj] at h
    obtain ⟨v, _, rfl⟩ := h; exact .refl _ _
  | addUser =>
    simp only [step, bind_ok, ok_inj] at h
    obtain ⟨v, _, rfl⟩ := h; exact .refl _ _
  | calcBond =>
    simp only [step, bind_ok, ok_inj] at h
    obtain ⟨v, _, rfl⟩ := h; exact .refl _ _
  | calcUnbond =>
    simp only [step, calcUnbond, withdrawIfAny, bind_ok, ok_inj, Prod.exists, Prod.mk.injEq] at h
    obtain ⟨v, L, ⟨_, _, _, _, _, _, v1, L1, ⟨r, _, h1⟩, _, _, _, _, _, _, _, _, rfl, rfl⟩, rfl⟩ := h
    split at h1
    · exact withdraw_net h1
    · simp only [ok_inj, Prod.mk.injEq] at h1
      obtain ⟨rfl, rfl⟩ := h1; exact .refl _ _
  | distribute =>
    simp only [step, bind_ok, ok_inj] at h
    obtain ⟨v, _, rfl⟩ := h; exact .refl _ _
  | withdraw =>
    simp only [step, bind_ok, ok_inj, Prod.exists] at h
    obtain ⟨v, L, h1, rfl⟩ := h
    exact withdraw_net h1
  | fund =>
    simp only [step, fund, bind_ok, ok_inj, Prod.exists, Prod.mk.injEq] at h
    obtain ⟨v, L, ⟨_, _, _, _, _, _, _, _, _, _, L1, h1, _, _, _, _, _, _, _, _, rfl, rfl⟩, rfl⟩ := h
    exact .transfer h1

end Rewards

namespace World
open Phoenix.World.Spec

variable {h : Host} {acct : Accounts} {w w' : World} {c : Ctx} {t : Addr}

theorem poolSwap_net {P sender offer : Addr} {x r : Int} {mi sp mf : Option Int} {dl : Option Nat}
    (e : poolSwap w c P sender offer x mi sp dl mf = .ok (w', r)) :
    Net w.led w'.led t 0 ∧ (∀ Q n, Reports w Q t n ↔ Reports w' Q t n) := by
  unfold poolSwap at e
  split at e
  · simp only [bind_ok, ok_inj, Prod.exists, Prod.mk.injEq] at e
    obtain ⟨p, hp, p', L, r', hk, rfl, rfl⟩ := e
    obtain ⟨n1, n2, n3⟩ := Pool.swap_net (t := t) hk
    have hp : w.xyk P = some p := by revert hp; unfold Pool.loaded; split <;> simp_all
    refine ⟨n1, fun Q n => ?_⟩
    unfold Reports
    by_cases eQ : Q = P
    · subst eQ; simp [hp, upd_same, n2, n3]
    · simp [upd_ne _ _ eQ]
  · simp only [bind_ok, ok_inj, Prod.exists, Prod.mk.injEq] at e
    obtain ⟨p, hp, p', L, r', hk, rfl, rfl⟩ := e
    obtain ⟨n1, n2, n3⟩ := Stable.swap_net (t := t) hk
    have hp : w.stable P = some p := by revert hp; unfold Stable.loaded; split <;> simp_all
    refine ⟨n1, fun Q n => ?_⟩
    unfold Reports
    by_cases eQ : Q = P
    · subst eQ; simp [hp, upd_same, n2, n3]
    · simp [upd_ne _ _ eQ]
  · simp at e

theorem hopLoop_net {F recipient : Addr} {sp mf : Option Int} {dl : Option Nat} : ∀ {ops : List Multihop.Op}
    {w w' : World} {x r : Int}, hopLoop w c F recipient sp dl mf ops x = .ok (w', r) →
    Net w.led w'.led t 0 ∧ (∀ Q n, Reports w Q t n ↔ Reports w' Q t n)
  | [], w, w', x, r, e => by
    simp only [hopLoop, ok_inj, Prod.mk.injEq] at e
    obtain ⟨rfl, rfl⟩ := e; exact ⟨.refl _ _, fun _ _ => Iff.rfl⟩
  | op :: ops, w, w', x, r, e => by
    simp only [hopLoop, bind_ok, Prod.exists] at e
    obtain ⟨P, hP, w1, r1, h1, h2⟩ := e
    obtain ⟨m1, e1⟩ := poolSwap_net (t := t) h1
    obtain ⟨m2, e2⟩ := hopLoop_net h2
    exact ⟨m1.trans0 m2, fun Q n => (e1 Q n).trans (e2 Q n)⟩

/-- The supply changes by what the call issues. -/
theorem step_net {k : Call} (hh : HostOK h acct) (I : Inv h acct w) (hf : Fits k) (e : step h w c k = .ok w') :
    Net w.led w'.led t (issued w w' t k) := by
  cases k with
  | token tok op =>
    simp only [step, bind_ok, ok_inj, expect_ok] at e
    obtain ⟨_, h1, L, h2, rfl⟩ := e
    exact .call h2
  | xykInit P i owner dec sl mf =>
    simp only [step, bind_ok, expect_ok] at e
    obtain ⟨_, h1, h2⟩ := e
    obtain ⟨-, -, -, -, p, -, -, -, -, -, -, -, S, fr⟩ := initXyk_step hh I h1 h2
    exact .of_bal (fr.bal t)
  | xyk P k =>
    cases k with
    | init i => simp [step] at e
    | _ =>
      simp only [step, bind_ok, ok_inj, expect_ok] at e
      obtain ⟨_, h1, s, h2, rfl⟩ := e
      obtain ⟨p, p', e1, e2, -, n⟩ := Pool.step_net (t := t) h2 (by simp)
      simp only at e1 n
      simpa only [issued, e1, upd_same, e2] using n
  | stableInit P i owner amp mf =>
    simp only [step, bind_ok, expect_ok] at e
    obtain ⟨_, h1, h2⟩ := e
    obtain ⟨-, -, -, -, p, -, -, -, -, -, -, -, S, fr⟩ := initStable_step hh I h1 h2
    exact .of_bal (fr.bal t)
  | stable P k =>
    cases k with
    | init i => simp [step] at e
    | _ =>
      simp only [step, bind_ok, ok_inj, expect_ok] at e
      obtain ⟨_, h1, s, h2, rfl⟩ := e
      obtain ⟨p, p', e1, e2, -, n⟩ := Stable.step_net (t := t) h2 (by simp)
      simp only at e1 n
      simpa only [issued, e1, upd_same, e2] using n
  | stake K k =>
    simp only [step, bind_ok, ok_inj, expect_ok] at e
    obtain ⟨_, h1, s, h2, rfl⟩ := e
    exact Stake.step_net h2
  | vest V k =>
    have key : ∀ s, Vesting.step V ⟨w.vest V, w.led⟩ (.vest c k) = .ok s → Net w.led s.led t (issued w w' t (.vest V k)) := by
      intro s hs
      have := Vesting.step_net (t := t) hs (by rintro a x rfl; exact hf)
      cases k <;> exact this
    cases k with
    | mint a x =>
      simp only [step, bind_ok, ok_inj, expect_ok] at e
      obtain ⟨_, h1, v, hv, _, ht, s, h2, rfl⟩ := e
      exact key s h2
    | _ =>
      simp only [step, bind_ok, ok_inj, expect_ok] at e
      obtain ⟨_, h1, s, h2, rfl⟩ := e
      exact key s h2
  | facInit F admin a b d e' wl dec =>
    simp only [step, facInit, bind_ok, expect_ok, deploy_ok, ok_inj] at e
    obtain ⟨_, h1, _, -, _, -, w1, ⟨-, rfl⟩, m, -, rfl⟩ := e
    exact .refl _ _
  | create F sender i k amp sl mf =>
    simp only [step, bind_ok, ok_inj, expect_ok, Prod.exists] at e
    obtain ⟨_, h1, w1, P, h2, rfl⟩ := e
    obtain ⟨-, -, f, a, -⟩ := create_step hh I h1 h2
    obtain ⟨S, fr⟩ := a.fresh
    exact .of_bal (fr.bal t)
  | whitelist F sender add rem =>
    simp only [step, bind_ok, ok_inj, expect_ok] at e
    obtain ⟨_, h1, f, hf, f', -, rfl⟩ := e
    exact .refl _ _
  | hashes F a b d =>
    simp only [step, bind_ok, ok_inj, expect_ok] at e
    obtain ⟨_, h1, f, hf, f', -, rfl⟩ := e
    exact .refl _ _
  | facUpdate F a =>
    simp only [step, bind_ok, ok_inj, expect_ok] at e
    obtain ⟨_, h1, f, hf, f', -, rfl⟩ := e
    exact .refl _ _
  | hopInit H admin F =>
    simp only [step, bind_ok, ok_inj, expect_ok] at e
    obtain ⟨_, h1, m, -, rfl⟩ := e
    exact .refl _ _
  | hopSwap H recipient ops sp amount dl mf =>
    simp only [step, hopSwap, bind_ok, ok_inj, expect_ok, Prod.exists] at e
    obtain ⟨_, h1, w1, r, ⟨_, _, _, _, _, _, m, hm, h2⟩, rfl⟩ := e
    exact (hopLoop_net h2).1
  | trdInit T admin a b o =>
    simp only [step, bind_ok, ok_inj, expect_ok] at e
    obtain ⟨_, h1, t, -, rfl⟩ := e
    exact .refl _ _
  | trade T sender token pool amount sp dl mi mf =>
    simp only [step, trade, bind_ok, ok_inj, expect_ok, Prod.exists] at e
    obtain ⟨_, h1, w1, r, ⟨_, _, t, ht, _, _, _, _, _, _, h2⟩, rfl⟩ := e
    exact (poolSwap_net h2).1
  | trdTransfer T sender recipient amount token =>
    simp only [step, bind_ok, ok_inj, expect_ok, Trader.transfer] at e
    obtain ⟨_, h1, t, ht, L, ⟨_, _, _, _, h2⟩, rfl⟩ := e
    exact .transfer h2
  | rewards R k =>
    simp only [step, bind_ok, ok_inj, expect_ok] at e
    obtain ⟨_, h1, s, h2, rfl⟩ := e
    exact Rewards.step_net h2

theorem Net.supply {L L' : Ledger} {n d : Int} (h : Net L L' t d) (hs : Supply L t n) : Supply L' t (n + d) := by
  obtain ⟨S, a1, b1⟩ := h
  obtain ⟨T, a2, b2⟩ := hs
  refine ⟨S ∪ T, fun a ha => ?_, ?_⟩
  · rw [Finset.notMem_union] at ha
    rw [a1 a ha.1, a2 a ha.2]
  · rw [Net.grow a1 b1 Finset.subset_union_left, ← b2]
    congr 1
    symm
    exact Finset.sum_subset Finset.subset_union_right (fun a _ ha => a2 a ha)

/-- `initialize` adds a pool without shares, with a share token that did not exist. -/
theorem initXyk_reports {P : Addr} {i : Info} {owner : Addr} {dec : Nat} {sl mf : Int}
    (e : initXyk h w P i owner dec sl mf = .ok w') {Q : Addr} {n : Int} (r : Reports w' Q t n) :
    Reports w Q t n ∨ (w.code t = .none ∧ n = 0) := by
  unfold initXyk at e
  simp only [bind_ok, ok_inj, deploy_ok, Prod.exists] at e
  obtain ⟨p, L', hi, w1, ⟨hS, rfl⟩, w2, ⟨hK, rfl⟩, st, hst, rfl⟩ := e
  obtain ⟨-, -, hE, -, -, -, eS, -⟩ := Pool.init_inv hi
  rcases r with ⟨q, hq, h1, h2⟩ | k
  · by_cases eQ : Q = P
    · subst eQ
      simp only [upd_same, Option.some.injEq] at hq
      subst hq
      right
      rw [← h1, eS, ← h2]
      exact ⟨hS, hE.1⟩
    · simp only [upd_ne _ _ eQ] at hq
      exact .inl (.inl ⟨q, hq, h1, h2⟩)
  · exact .inl (.inr k)

theorem initStable_reports {P : Addr} {i : Info} {owner : Addr} {amp : Nat} {mf : Int}
    (e : initStable h w c P i owner amp mf = .ok w') {Q : Addr} {n : Int} (r : Reports w' Q t n) :
    Reports w Q t n ∨ (w.code t = .none ∧ n = 0) := by
  unfold initStable at e
  simp only [bind_ok, ok_inj, deploy_ok, expect_ok, Prod.exists] at e
  obtain ⟨_, _, _, _, p, L', hi, w1, ⟨hS, rfl⟩, w2, ⟨hK, rfl⟩, st, hst, rfl⟩ := e
  obtain ⟨-, -, hE, -, -, -, eS, -⟩ := Stable.init_inv hi
  rcases r with k | ⟨q, hq, h1, h2⟩
  · exact .inl (.inl k)
  · by_cases eQ : Q = P
    · subst eQ
      simp only [upd_same, Option.some.injEq] at hq
      subst hq
      right
      rw [← h1, eS, ← h2]
      exact ⟨hS, hE.1⟩
    · simp only [upd_ne _ _ eQ] at hq
      exact .inl (.inr ⟨q, hq, h1, h2⟩)

theorem create_reports {F sender : Addr} {i : Info} {k : Kind} {amp : Option Nat} {sl mf : Int} {P : Addr}
    (e : create h w c F sender i k amp sl mf = .ok (w', P)) {Q : Addr} {n : Int} (r : Reports w' Q t n) :
    Reports w Q t n ∨ (w.code t = .none ∧ n = 0) := by
  simp only [create, bind_ok, ok_inj, deploy_ok, Prod.mk.injEq] at e
  obtain ⟨_, _, _, _, f, hf, _, _, _, _, w1, ⟨hP, rfl⟩, _, _, _, _, _, _, _, _, _, _, _, _, w2, h2, rfl, rfl⟩ := e
  have r2 : Reports w2 Q t n := r
  have key : Reports w Q t n ∨ (upd w.code (h.poolAddr F i.tokenA i.tokenB) k.code t = .none ∧ n = 0) := by
    cases k with
    | xyk => exact initXyk_reports h2 r2
    | stable => exact initStable_reports h2 r2
  refine key.imp_right fun ⟨a, b⟩ => ⟨?_, b⟩
  by_cases eQ : t = h.poolAddr F i.tokenA i.tokenB
  · rw [eQ]; exact hP
  · rwa [upd_ne _ _ eQ] at a

/-- The administrator of a share token is its pool, which is a contract. -/
theorem reports_admin {P : Addr} {n : Int} (I : Inv h acct w) (r : Reports w P t n) :
    (w.led t).admin = P ∧ ¬ acct P ∧ w.code t = .token ∧ (w.code P = .xyk ∨ w.code P = .stable) := by
  rcases r with ⟨p, hp, rfl, -⟩ | ⟨p, hp, rfl, -⟩
  · have k := I.refs.xyk P p hp
    have na := I.core.contracts P (by rw [k.1]; simp)
    exact ⟨((I.core.at_ P na).xyk.pool p hp).admin, na, k.2.1, .inl k.1⟩
  · have k := I.refs.stable P p hp
    have na := I.core.contracts P (by rw [k.1]; simp)
    exact ⟨((I.core.at_ P na).stable.pool p hp).admin, na, k.2.1, .inr k.1⟩

/-- The reported number of shares changes by what is issued and not burnt by holders. -/
theorem step_reports {k : Call} (hh : HostOK h acct) (I : Inv h acct w) (hc : ∀ a, c.signed a = true → acct a)
    (hi : c.invoker = none) (e : step h w c k = .ok w') {P : Addr} {n : Int} (r : Reports w' P t n) :
    (∃ m, Reports w P t m ∧ n = m + issued w w' t k + burnt w t k) ∨ (w.code t = .none ∧ n = 0 ∧ issued w w' t k = 0) := by
  have same : issued w w' t k = 0 → burnt w t k = 0 → (Reports w P t n ∨ (w.code t = .none ∧ n = 0)) →
      (∃ m, Reports w P t m ∧ n = m + issued w w' t k + burnt w t k) ∨ (w.code t = .none ∧ n = 0 ∧ issued w w' t k = 0) := by
    intro a b k
    exact k.imp (fun k => ⟨n, k, by rw [a, b]; ring⟩) (fun k => ⟨k.1, k.2, a⟩)
  cases k with
  | token tok op =>
    simp only [step, bind_ok, ok_inj, expect_ok] at e
    obtain ⟨_, h1, L, h2, rfl⟩ := e
    have r : Reports w P t n := r
    refine .inl ⟨n, r, ?_⟩
    obtain ⟨ad, na, -⟩ := reports_admin I r
    simp only [issued]
    by_cases e : tok = t
    · subst e
      cases op with
      | mint d x =>
        obtain ⟨k, -⟩ := Ledger.mint_inv h2
        simp only [Ctx.auth, hi, ad] at k
        simp at k
        exact absurd (hc P k) na
      | _ => simp [Phoenix.Spec.supplyChange, burnt]
    · cases op <;> simp [burnt, e]
  | xykInit Q i owner dec sl mf =>
    simp only [step, bind_ok, expect_ok] at e
    obtain ⟨_, h1, h2⟩ := e
    exact same rfl rfl (initXyk_reports h2 r)
  | xyk Q k =>
    cases k with
    | init i => simp [step] at e
    | _ =>
      simp only [step, bind_ok, ok_inj, expect_ok] at e
      obtain ⟨_, h1, s, h2, rfl⟩ := e
      obtain ⟨p, p', e1, e2, es, -⟩ := Pool.step_net (t := t) h2 (by simp)
      simp only at e1
      have other : Reports w P t n → P ≠ Q →
          (∃ m, Reports w P t m ∧ n = m + (if p.cfg.shareToken = t then p'.total - p.total else 0) + 0) := by
        intro r hne
        refine ⟨n, r, ?_⟩
        rw [if_neg]
        · ring
        · intro k
          exact hne ((reports_admin I r).1.symm.trans (reports_admin I (.inl ⟨p, e1, k, rfl⟩)).1)
      left
      simp only [issued, burnt, e1, e2, upd_same]
      rcases r with ⟨q, hq, k1, k2⟩ | k
      · by_cases eQ : P = Q
        · subst eQ
          simp only [upd_same, e2, Option.some.injEq] at hq
          subst hq
          rw [es] at k1
          exact ⟨p.total, .inl ⟨p, e1, k1, rfl⟩, by rw [if_pos k1, ← k2]; ring⟩
        · simp only [upd_ne _ _ eQ] at hq
          exact other (.inl ⟨q, hq, k1, k2⟩) eQ
      · refine other (.inr k) ?_
        rintro rfl
        obtain ⟨q, hq, -⟩ := k
        have := (I.refs.stable P q hq).1
        rw [h1] at this; simp at this
  | stableInit Q i owner amp mf =>
    simp only [step, bind_ok, expect_ok] at e
    obtain ⟨_, h1, h2⟩ := e
    exact same rfl rfl (initStable_reports h2 r)
  | stable Q k =>
    cases k with
    | init i => simp [step] at e
    | _ =>
      simp only [step, bind_ok, ok_inj, expect_ok] at e
      obtain ⟨_, h1, s, h2, rfl⟩ := e
      obtain ⟨p, p', e1, e2, es, -⟩ := Stable.step_net (t := t) h2 (by simp)
      simp only at e1
      have other : Reports w P t n → P ≠ Q →
          (∃ m, Reports w P t m ∧ n = m + (if p.cfg.shareToken = t then p'.total - p.total else 0) + 0) := by
        intro r hne
        refine ⟨n, r, ?_⟩
        rw [if_neg]
        · ring
        · intro k
          exact hne ((reports_admin I r).1.symm.trans (reports_admin I (.inr ⟨p, e1, k, rfl⟩)).1)
      left
      simp only [issued, burnt, e1, e2, upd_same]
      rcases r with k | ⟨q, hq, k1, k2⟩
      · refine other (.inl k) ?_
        rintro rfl
        obtain ⟨q, hq, -⟩ := k
        have := (I.refs.xyk P q hq).1
        rw [h1] at this; simp at this
      · by_cases eQ : P = Q
        · subst eQ
          simp only [upd_same, e2, Option.some.injEq] at hq
          subst hq
          rw [es] at k1
          exact ⟨p.total, .inr ⟨p, e1, k1, rfl⟩, by rw [if_pos k1, ← k2]; ring⟩
        · simp only [upd_ne _ _ eQ] at hq
          exact other (.inr ⟨q, hq, k1, k2⟩) eQ
  | stake K k =>
    simp only [step, bind_ok, ok_inj, expect_ok] at e
    obtain ⟨_, h1, s, h2, rfl⟩ := e
    exact same rfl rfl (.inl r)
  | vest V k =>
    cases k with
    | mint a x =>
      simp only [step, bind_ok, ok_inj, expect_ok] at e
      obtain ⟨_, h1, v, hv, _, ht, s, h2, rfl⟩ := e
      have r : Reports w P t n := r
      obtain ⟨ad, na, -, hP⟩ := reports_admin I r
      refine same ?_ rfl (.inl r)
      have hv : w.vest V = some v := by revert hv; unfold Vesting.loaded; split <;> simp_all
      simp only [issued, hv]
      rw [if_neg]
      rintro rfl
      simp only [Vesting.step, Vesting.mint, Vesting.loaded, hv, bind_ok, ok_inj, Prod.exists, Prod.mk.injEq] at h2
      obtain ⟨v0, rfl, v1, L, ⟨_, _, _, _, _, _, _, _, _, _, _, _, L1, h3, rfl, rfl⟩, rfl⟩ := h2
      obtain ⟨k, -⟩ := Ledger.mint_inv h3
      rw [ad, as_auth] at k
      rcases k with k | k
      · exact na (hc P k)
      · subst k; rw [h1] at hP; simp at hP
    | burn a x =>
      simp only [step, bind_ok, ok_inj, expect_ok] at e
      obtain ⟨_, h1, s, h2, rfl⟩ := e
      refine .inl ⟨n, r, ?_⟩
      simp only [issued, burnt]
      split
      · split <;> simp
      · simp
    | _ =>
      simp only [step, bind_ok, ok_inj, expect_ok] at e
      obtain ⟨_, h1, s, h2, rfl⟩ := e
      exact same rfl rfl (.inl r)
  | facInit F admin a b d e' wl dec =>
    simp only [step, facInit, bind_ok, expect_ok, deploy_ok, ok_inj] at e
    obtain ⟨_, h1, _, -, _, -, w1, ⟨-, rfl⟩, m, -, rfl⟩ := e
    exact same rfl rfl (.inl r)
  | create F sender i k amp sl mf =>
    simp only [step, bind_ok, ok_inj, expect_ok, Prod.exists] at e
    obtain ⟨_, h1, w1, P, h2, rfl⟩ := e
    exact same rfl rfl (create_reports h2 r)
  | whitelist F sender add rem =>
    simp only [step, bind_ok, ok_inj, expect_ok] at e
    obtain ⟨_, h1, f, hf, f', -, rfl⟩ := e
    exact same rfl rfl (.inl r)
  | hashes F a b d =>
    simp only [step, bind_ok, ok_inj, expect_ok] at e
    obtain ⟨_, h1, f, hf, f', -, rfl⟩ := e
    exact same rfl rfl (.inl r)
  | facUpdate F a =>
    simp only [step, bind_ok, ok_inj, expect_ok] at e
    obtain ⟨_, h1, f, hf, f', -, rfl⟩ := e
    exact same rfl rfl (.inl r)
  | hopInit H admin F =>
    simp only [step, bind_ok, ok_inj, expect_ok] at e
    obtain ⟨_, h1, m, -, rfl⟩ := e
    exact same rfl rfl (.inl r)
  | hopSwap H recipient ops sp amount dl mf =>
    simp only [step, hopSwap, bind_ok, ok_inj, expect_ok, Prod.exists] at e
    obtain ⟨_, h1, w1, _, ⟨_, _, _, _, _, _, m, hm, h2⟩, rfl⟩ := e
    exact same rfl rfl (.inl (((hopLoop_net h2).2 _ _).mpr r))
  | trdInit T admin a b o =>
    simp only [step, bind_ok, ok_inj, expect_ok] at e
    obtain ⟨_, h1, t, -, rfl⟩ := e
    exact same rfl rfl (.inl r)
  | trade T sender token pool amount sp dl mi mf =>
    simp only [step, trade, bind_ok, ok_inj, expect_ok, Prod.exists] at e
    obtain ⟨_, h1, w1, _, ⟨_, _, t, ht, _, _, _, _, _, _, h2⟩, rfl⟩ := e
    exact same rfl rfl (.inl (((poolSwap_net h2).2 _ _).mpr r))
  | trdTransfer T sender recipient amount token =>
    simp only [step, bind_ok, ok_inj, expect_ok, Trader.transfer] at e
    obtain ⟨_, h1, t, ht, L, ⟨_, _, _, _, h2⟩, rfl⟩ := e
    exact same rfl rfl (.inl r)
  | rewards R k =>
    simp only [step, bind_ok, ok_inj, expect_ok] at e
    obtain ⟨_, h1, s, h2, rfl⟩ := e
    exact same rfl rfl (.inl r)

/-- `initialize` leaves the tokens that exist alone. -/
theorem initXyk_led {P : Addr} {i : Info} {owner : Addr} {dec : Nat} {sl mf : Int}
    (e : initXyk h w P i owner dec sl mf = .ok w') (ht : w.code t ≠ .none) : w'.led t = w.led t := by
  unfold initXyk at e
  simp only [bind_ok, ok_inj, deploy_ok, Prod.exists] at e
  obtain ⟨p, L', hi, w1, ⟨hS, rfl⟩, w2, ⟨hK, rfl⟩, st, hst, rfl⟩ := e
  obtain ⟨-, -, -, -, -, -, -, -, u, -, -, -, rfl⟩ := Pool.init_inv hi
  exact upd_ne _ _ (by rintro rfl; exact ht hS)

theorem initStable_led {P : Addr} {i : Info} {owner : Addr} {amp : Nat} {mf : Int}
    (e : initStable h w c P i owner amp mf = .ok w') (ht : w.code t ≠ .none) : w'.led t = w.led t := by
  unfold initStable at e
  simp only [bind_ok, ok_inj, deploy_ok, expect_ok, Prod.exists] at e
  obtain ⟨_, _, _, _, p, L', hi, w1, ⟨hS, rfl⟩, w2, ⟨hK, rfl⟩, st, hst, rfl⟩ := e
  obtain ⟨-, -, -, -, -, -, -, -, -, -, -, u, -, -, -, rfl⟩ := Stable.init_inv hi
  exact upd_ne _ _ (by rintro rfl; exact ht hS)

theorem create_led {F sender : Addr} {i : Info} {k : Kind} {amp : Option Nat} {sl mf : Int} {P : Addr}
    (e : create h w c F sender i k amp sl mf = .ok (w', P)) (ht : w.code t ≠ .none) : w'.led t = w.led t := by
  simp only [create, bind_ok, ok_inj, deploy_ok, Prod.mk.injEq] at e
  obtain ⟨_, _, _, _, f, hf, _, _, _, _, w1, ⟨hP, rfl⟩, _, _, _, _, _, _, _, _, _, _, _, _, w2, h2, rfl, rfl⟩ := e
  have ht' : upd w.code (h.poolAddr F i.tokenA i.tokenB) k.code t ≠ .none := by
    rw [upd_ne _ _ (by rintro rfl; exact ht hP)]; exact ht
  cases k with
  | xyk => exact (initXyk_led (t := t) h2 ht' :)
  | stable => exact (initStable_led (t := t) h2 ht' :)

/-- Only the administrator of a token replaces the administrator. -/
theorem moves_admin {ok live : Addr → Prop} {L L' : Ledger} {A : Addr} (m : Moves ok live L L') (hA : ¬ ok A)
    (h : (L t).admin = A) : (L' t).admin = A := by
  induction m with
  | refl => exact h
  | @step L L1 L2 c tok op hc hk hp _ ih =>
    apply ih
    rw [Ledger.call_ok] at hc
    obtain ⟨t1, h1, rfl⟩ := hc
    by_cases e : t = tok
    · subst e
      rw [upd_same]
      have := (Phoenix.Props.token_call_inv h1).2.1
      cases op with
      | setAdmin a =>
        simp only [Token.call, Token.setAdmin, bind_ok, requireAuth_ok, ok_inj] at h1
        obtain ⟨_, h1, -⟩ := h1
        exact absurd (hk _ h1) (by rw [h]; exact hA)
      | _ => by_contra k; exact hA (hk A (h ▸ this (by rw [h]; exact k)))
    · rw [upd_ne _ _ e]; exact h

/-- An account that does not sign keeps its tokens under its administration. -/
theorem step_admin {k : Call} {A : Addr} (hh : HostOK h acct) (I : Inv h acct w) (hi : c.invoker = none)
    (e : step h w c k = .ok w') (hA : acct A) (hs : c.signed A = false) (ht : w.code t ≠ .none)
    (ha : (w.led t).admin = A) : (w'.led t).admin = A := by
  have hm : Moves (Active w c) (fun _ => True) w.led w'.led → (w'.led t).admin = A := fun m =>
    moves_admin m (by
      rintro (k | k)
      · rw [hs] at k; simp at k
      · exact I.core.contracts A k hA) ha
  cases k with
  | xykInit Q i owner dec sl mf =>
    simp only [step, bind_ok, expect_ok] at e
    obtain ⟨_, h1, h2⟩ := e
    rw [initXyk_led h2 ht]; exact ha
  | stableInit Q i owner amp mf =>
    simp only [step, bind_ok, expect_ok] at e
    obtain ⟨_, h1, h2⟩ := e
    rw [initStable_led h2 ht]; exact ha
  | create F sender i k amp sl mf =>
    simp only [step, bind_ok, ok_inj, expect_ok, Prod.exists] at e
    obtain ⟨_, h1, w1, P, h2, rfl⟩ := e
    rw [create_led h2 ht]; exact ha
  | _ => exact hm (step_moves hi (by simp [Deploys]) e)

/-- Without its administrator's signature nobody issues a token. -/
theorem step_issued {k : Call} {A : Addr} (I : Inv h acct w) (hi : c.invoker = none)
    (e : step h w c k = .ok w') (hA : acct A) (hs : c.signed A = false) (ha : (w.led t).admin = A) :
    issued w w' t k = -burnt w t k := by
  cases k with
  | token tok op =>
    simp only [step, bind_ok, ok_inj, expect_ok] at e
    obtain ⟨_, h1, L, h2, rfl⟩ := e
    simp only [issued]
    by_cases e : tok = t
    · subst e
      cases op with
      | mint d x =>
        obtain ⟨k, -⟩ := Ledger.mint_inv h2
        simp [Ctx.auth, hi, ha, hs] at k
      | _ => simp [Phoenix.Spec.supplyChange, burnt]
    · cases op <;> simp [burnt, e]
  | xyk Q k =>
    simp only [issued, burnt, neg_zero]
    split
    · rename_i p p' e1 e2
      rw [if_neg]
      intro k
      obtain ⟨a1, a2, -⟩ := reports_admin I (.inl ⟨p, e1, k, rfl⟩)
      exact a2 (a1 ▸ ha ▸ hA)
    · rfl
  | stable Q k =>
    simp only [issued, burnt, neg_zero]
    split
    · rename_i p p' e1 e2
      rw [if_neg]
      intro k
      obtain ⟨a1, a2, -⟩ := reports_admin I (.inr ⟨p, e1, k, rfl⟩)
      exact a2 (a1 ▸ ha ▸ hA)
    · rfl
  | vest V k =>
    cases k with
    | mint a x =>
      simp only [step, bind_ok, ok_inj, expect_ok] at e
      obtain ⟨_, h1, v, hv, _, ht, s, h2, rfl⟩ := e
      have hv : w.vest V = some v := by revert hv; unfold Vesting.loaded; split <;> simp_all
      simp only [issued, burnt, hv, neg_zero]
      rw [if_neg]
      rintro rfl
      simp only [Vesting.step, Vesting.mint, Vesting.loaded, hv, bind_ok, ok_inj, Prod.exists, Prod.mk.injEq] at h2
      obtain ⟨v0, rfl, v1, L, ⟨_, _, _, _, _, _, _, _, _, _, _, _, L1, h3, rfl, rfl⟩, rfl⟩ := h2
      obtain ⟨k, -⟩ := Ledger.mint_inv h3
      rw [ha, as_auth] at k
      rcases k with k | k
      · rw [hs] at k; simp at k
      · subst k; exact I.core.contracts A (by rw [h1]; simp) hA
    | burn a x =>
      simp only [issued, burnt]
      split
      · split <;> simp
      · simp
    | _ => rfl
  | _ => rfl

/-- Burns destroy, they do not create. -/
theorem burnt_nonneg {k : Call} (e : step h w c k = .ok w') : 0 ≤ burnt w t k := by
  cases k with
  | token tok op =>
    simp only [step, bind_ok, ok_inj, expect_ok] at e
    obtain ⟨_, h1, L, h2, rfl⟩ := e
    rw [Ledger.call_ok] at h2
    obtain ⟨t1, h3, rfl⟩ := h2
    cases op with
    | burn s x =>
      simp only [Token.call, Token.burn, Token.checkNonneg, bind_ok, requireAuth_ok, req_ok] at h3
      obtain ⟨_, h0, _, h1, -⟩ := h3
      simp only [burnt]; split <;> omega
    | burnFrom sp s x =>
      simp only [Token.call, Token.burnFrom, Token.checkNonneg, bind_ok, requireAuth_ok, req_ok] at h3
      obtain ⟨_, _, _, h1, -⟩ := h3
      simp only [burnt]; split <;> omega
    | _ => simp [burnt]
  | vest V k =>
    cases k with
    | burn a x =>
      simp only [burnt]
      split
      · split <;> simp
      · simp
    | _ => simp [burnt]
  | _ => simp [burnt]

/-- Nothing is burnt of a token that does not exist. -/
theorem burnt_none {k : Call} (I : Inv h acct w) (hf : Fits k) (e : step h w c k = .ok w') (ht : w.code t = .none) :
    burnt w t k = 0 := by
  cases k with
  | token tok op =>
    simp only [step, bind_ok, ok_inj, expect_ok] at e
    obtain ⟨_, h1, -⟩ := e
    have : tok ≠ t := by rintro rfl; rw [ht] at h1; simp at h1
    cases op <;> simp [burnt, this]
  | vest V k =>
    cases k with
    | burn a x =>
      simp only [step, bind_ok, ok_inj, expect_ok] at e
      obtain ⟨_, h1, s, h2, -⟩ := e
      simp only [burnt]
      split
      · rename_i v hv
        split
        · rename_i et
          subst et
          simp only [Vesting.step, Vesting.burn, Vesting.loaded, hv, bind_ok, ok_inj] at h2
          obtain ⟨_, rfl, L, ⟨_, _, _, _, h3⟩, rfl⟩ := h2
          obtain ⟨-, k0, k1, -⟩ := Ledger.burn_inv h3
          rw [I.core.blank _ ht] at k1
          have hf : x < U128_LIM := hf
          unfold Vesting.castI128 at k0 k1
          split at k0 <;> omega
        · rfl
      · rfl
    | _ => rfl
  | _ => rfl

end World
end Phoenix
