import Verif.Lemmas.WorldSys
import Verif.Spec.Order
/-! Calls whose order does not matter (helpers). -/
namespace Phoenix.World
open Phoenix Phoenix.World.Spec Phoenix.Spec

variable {h : Host} {acct : Accounts} {w : World}

/-- What a call does besides moving balances. -/
inductive Change where
  | none
  | xyk (P : Addr) (p : Pool.State)
  | stable (P : Addr) (p : Stable.State)
  | staker (K a : Addr) (i : Stake.Info) (d : Int)
  | schedule (V a : Addr) (i : Nat) (x : Vesting.Info)

def Change.slot : Change → Slot
  | .none => .balances
  | .xyk P _ => .xyk P
  | .stable P _ => .stable P
  | .staker K a _ _ => .staker K a
  | .schedule V a i _ => .schedule V a i

def Change.apply : Change → World → World
  | .none, w => w
  | .xyk P p, w => { w with xyk := upd w.xyk P (some p) }
  | .stable P p, w => { w with stable := upd w.stable P (some p) }
  | .staker K a i d, w =>
    { w with stake := upd w.stake K { w.stake K with info := upd (w.stake K).info a i, total := (w.stake K).total + d } }
  | .schedule V a i x, w => { w with vest := upd w.vest V ((w.vest V).map fun v => Vesting.putInfo v a i x) }

/-- `w'` is `w` with the change `ch` and the balance movements `d`. -/
structure Applies (ch : Change) (d : Addr → Addr → Int) (w w' : World) : Prop where
  bal : ∀ t a, w'.led.bal t a = w.led.bal t a + d t a
  rights : SameRights w.led w'.led
  rest : { w' with led := w.led } = ch.apply w

/-- `w'` looks like `w` to a call with the slot `s`. -/
def SameView : Slot → World → World → Prop
  | .balances, _, _ => True
  | .xyk P, w, w' => w'.xyk P = w.xyk P
  | .stable P, w, w' => w'.stable P = w.stable P
  | .staker K a, w, w' => (w'.stake K).cfg = (w.stake K).cfg ∧ (w'.stake K).dists = (w.stake K).dists ∧
      (w'.stake K).rewards = (w.stake K).rewards ∧ (w'.stake K).hist = (w.stake K).hist ∧
      (w'.stake K).info a = (w.stake K).info a
  | .schedule V a i, w, w' => (w'.vest V).map (fun v => (v.token, v.sched a i)) = (w.vest V).map (fun v => (v.token, v.sched a i))

theorem ledger_ext {L L' : Ledger} (hb : ∀ t a, L'.bal t a = L.bal t a) (hr : SameRights L L') : L' = L := by
  funext t
  have := hr t
  have h2 := hb t
  cases h1 : L t; cases h3 : L' t
  simp only [Ledger.bal, h1, h3] at this h2
  obtain ⟨e1, e2, e3⟩ := this
  have : ∀ (f g : Addr → Int), (∀ a, f a = g a) → f = g := fun f g => funext
  simp only [Token.mk.injEq]
  exact ⟨e1, e3, funext h2, e2⟩

theorem apply_led (ch : Change) (w : World) (L : Ledger) : ch.apply { w with led := L } = { ch.apply w with led := L } := by
  cases ch <;> rfl

theorem apply_led' (ch : Change) (w : World) : (ch.apply w).led = w.led := by
  cases ch <;> rfl

theorem Applies.eq {ch : Change} {d : Addr → Addr → Int} {w w' : World} (a : Applies ch d w w') :
    w' = { ch.apply w with led := w'.led } := by
  rw [← a.rest]

theorem Applies.eq₂ {ch ch' : Change} {d d' : Addr → Addr → Int} {w w' w'' : World} (b : Applies ch' d' w' w'') (a : Applies ch d w w') :
    w'' = { ch'.apply (ch.apply w) with led := w''.led } := by
  conv_lhs => rw [b.eq, a.eq, apply_led]

theorem upd_comm {α : Type} (f : Addr → α) {a b : Addr} (hne : a ≠ b) (x y : α) :
    upd (upd f a x) b y = upd (upd f b y) a x := by
  funext c
  simp only [upd_apply]
  by_cases h1 : c = a <;> by_cases h2 : c = b <;> simp [h1, h2]
  · exact absurd (h1.symm.trans h2) hne
  · exact fun e => absurd e hne
  · exact fun e => absurd e.symm hne

theorem upd_upd {α : Type} (f : Addr → α) (a : Addr) (x y : α) : upd (upd f a x) a y = upd f a y := by
  funext c
  simp only [upd_apply]
  split <;> rfl

theorem putInfo_comm {v : Vesting.State} {a b : Addr} {i j : Nat} {x y : Vesting.Info} (hne : ¬ (a = b ∧ i = j)) :
    Vesting.putInfo (Vesting.putInfo v a i x) b j y = Vesting.putInfo (Vesting.putInfo v b j y) a i x := by
  unfold Vesting.putInfo
  simp only [Vesting.State.mk.injEq, true_and, and_true]
  funext c k
  simp only [upd_apply]
  by_cases h1 : c = a <;> by_cases h2 : c = b
  · obtain rfl := h1.symm.trans h2
    subst h1
    have hij : i ≠ j := fun e => hne ⟨rfl, e⟩
    simp only [if_true]
    by_cases q1 : k = i <;> by_cases q2 : k = j <;> simp [q1, q2]
    · exact absurd (q1.symm.trans q2) hij
    · exact fun e => absurd e hij
    · exact fun e => absurd e.symm hij
  · subst h1
    have : ¬ b = c := fun e => h2 e.symm
    simp [h2, this]
  · subst h2
    have : ¬ a = c := fun e => h1 e.symm
    simp [h1, this]
  · simp [h1, h2]

theorem change_comm {c₁ c₂ : Change} (hne : c₁.slot ≠ c₂.slot ∨ c₁.slot = .balances) (w : World) :
    c₁.apply (c₂.apply w) = c₂.apply (c₁.apply w) := by
  cases c₁ <;> cases c₂ <;> try rfl
  all_goals simp only [Change.slot, ne_eq, reduceCtorEq, or_false, Slot.xyk.injEq, Slot.stable.injEq, Slot.staker.injEq,
    Slot.schedule.injEq] at hne
  · simp only [Change.apply]; rw [upd_comm _ hne]
  · simp only [Change.apply]; rw [upd_comm _ hne]
  · rename_i K a i d K' a' i' d'
    simp only [Change.apply]
    by_cases e : K = K'
    · subst e
      have ha : a ≠ a' := fun e => hne ⟨rfl, e⟩
      simp only [upd_same, upd_upd]
      rw [upd_comm _ ha]
      have : (w.stake K).total + d' + d = (w.stake K).total + d + d' := by ring
      rw [this]
    · rw [upd_ne _ _ e, upd_ne _ _ (Ne.symm e), upd_comm _ e]
  · rename_i V a i x V' a' i' x'
    simp only [Change.apply]
    by_cases e : V = V'
    · subst e
      simp only [upd_same, upd_upd, Option.map_map]
      congr 3
      funext v
      exact putInfo_comm (fun q => hne ⟨rfl, q.1.symm, q.2.symm⟩)
    · rw [upd_ne _ _ e, upd_ne _ _ (Ne.symm e), upd_comm _ e]

theorem view_keep {ch : Change} {d : Addr → Addr → Int} {w w' : World} (ap : Applies ch d w w') {s : Slot}
    (hne : ch.slot ≠ s ∨ ch.slot = .balances) : SameView s w w' := by
  rw [ap.eq]
  clear ap
  cases s <;> cases ch <;> simp only [Change.slot, ne_eq, reduceCtorEq, or_false, Slot.xyk.injEq, Slot.stable.injEq, Slot.staker.injEq,
    Slot.schedule.injEq] at hne <;> simp only [SameView, Change.apply, and_self]
  · rw [upd_ne _ _ (Ne.symm hne)]
  · rw [upd_ne _ _ (Ne.symm hne)]
  · rename_i K a K' a' i' d'
    by_cases e : K = K'
    · subst e
      have ha : a ≠ a' := fun e => hne ⟨rfl, e.symm⟩
      simp [upd_same, upd_ne _ _ ha]
    · simp [upd_ne _ _ e]
  · rename_i V a i V' a' i' x'
    by_cases e : V = V'
    · subst e
      simp only [upd_same, Option.map_map]
      congr 1
      funext v
      simp only [Function.comp, Vesting.putInfo, Prod.mk.injEq, true_and, upd_apply]
      by_cases q : a = a'
      · subst q
        have : i ≠ i' := fun q' => hne ⟨rfl, rfl, q'.symm⟩
        simp [this]
      · simp [q]
    · rw [upd_ne _ _ e]

/-- The call does, in every world that looks the same to it, the same. -/
def Local (h : Host) (c : Ctx) (k : Call) (s : Slot) (w w' : World) : Prop :=
  ∃ ch d, ch.slot = s ∧ Applies ch d w w' ∧
    ∀ w₂ w₂', SameView s w w₂ → step h w₂ c k = .ok w₂' → Applies ch d w₂ w₂'

theorem commute {c₁ c₂ : Ctx} {k₁ k₂ : Call} {s₁ s₂ : Slot} {w w₁ w₂ w₁₂ w₂₁ : World}
    (L₁ : Local h c₁ k₁ s₁ w w₁) (L₂ : Local h c₂ k₂ s₂ w w₂) (hne : s₁ ≠ s₂ ∨ s₁ = .balances)
    (e₁₂ : step h w₁ c₂ k₂ = .ok w₁₂) (e₂₁ : step h w₂ c₁ k₁ = .ok w₂₁) : w₁₂ = w₂₁ := by
  obtain ⟨ch₁, d₁, rfl, a₁, f₁⟩ := L₁
  obtain ⟨ch₂, d₂, rfl, a₂, f₂⟩ := L₂
  have hne' : ch₂.slot ≠ ch₁.slot ∨ ch₂.slot = .balances := by
    by_cases e : ch₂.slot = ch₁.slot
    · rcases hne with q | q
      · exact absurd e.symm q
      · exact .inr (e.trans q)
    · exact .inl e
  have b₂ := f₂ w₁ w₁₂ (view_keep a₁ hne) e₁₂
  have b₁ := f₁ w₂ w₂₁ (view_keep a₂ hne') e₂₁
  have hl : w₁₂.led = w₂₁.led := by
    refine ledger_ext (fun t a => ?_) (fun t => ?_)
    · rw [b₂.bal, a₁.bal, b₁.bal, a₂.bal]; ring
    · have r1 := a₁.rights t
      have r2 := b₂.rights t
      have r3 := a₂.rights t
      have r4 := b₁.rights t
      exact ⟨by rw [r2.1, r1.1, r4.1, r3.1], by rw [r2.2.1, r1.2.1, r4.2.1, r3.2.1], by rw [r2.2.2, r1.2.2, r4.2.2, r3.2.2]⟩
  rw [b₂.eq₂ a₁, b₁.eq₂ a₂, hl, change_comm hne']

/-! ### The calls -/

/-- effect of a step on a pool that only depends on the pool, not on the balances -/
theorem local_of {c : Ctx} {k : Call} {s : Slot} {w w' : World} (e : step h w c k = .ok w')
    (H : ∃ ch d, ch.slot = s ∧ ∀ w₂ w₂', SameView s w w₂ → step h w₂ c k = .ok w₂' → Applies ch d w₂ w₂') :
    Local h c k s w w' := by
  obtain ⟨ch, d, hs, f⟩ := H
  exact ⟨ch, d, hs, f w w' (by cases s <;> simp [SameView]) e, f⟩

theorem loadedX {p : Option Pool.State} {q : Pool.State} : Pool.loaded p = .ok q ↔ p = some q := by
  cases p <;> simp [Pool.loaded]

theorem loadedS {p : Option Stable.State} {q : Stable.State} : Stable.loaded p = .ok q ↔ p = some q := by
  cases p <;> simp [Stable.loaded]

theorem local_transfer {c : Ctx} {t a b : Addr} {x : Int} {w w' : World} (e : step h w c (.token t (.transfer a b x)) = .ok w') :
    Local h c (.token t (.transfer a b x)) .balances w w' := by
  refine local_of e ⟨.none, fun t' u => Flow.delta ⟨t, a, b, x⟩ t' u, rfl, fun w₂ w₂' _ e₂ => ?_⟩
  simp only [step, bind_ok, ok_inj] at e₂
  obtain ⟨_, -, L, e₂, rfl⟩ := e₂
  obtain ⟨-, -, -, h1, h2⟩ := Ledger.transfer_inv (c := c) (show w₂.led.transfer c t a b x = .ok L from e₂)
  exact ⟨fun t' u => by rw [h1 t' u]; simp, h2, rfl⟩

theorem local_mint {c : Ctx} {t b : Addr} {x : Int} {w w' : World} (e : step h w c (.token t (.mint b x)) = .ok w') :
    Local h c (.token t (.mint b x)) .balances w w' := by
  refine local_of e ⟨.none, fun t' u => if t = t' ∧ b = u then x else 0, rfl, fun w₂ w₂' _ e₂ => ?_⟩
  simp only [step, bind_ok, ok_inj] at e₂
  obtain ⟨_, -, L, e₂, rfl⟩ := e₂
  obtain ⟨-, -, h1, h2⟩ := Ledger.mint_inv (c := c) (show w₂.led.mint c t b x = .ok L from e₂)
  exact ⟨fun t' u => h1 t' u, h2, rfl⟩

theorem local_burn {c : Ctx} {t b : Addr} {x : Int} {w w' : World} (e : step h w c (.token t (.burn b x)) = .ok w') :
    Local h c (.token t (.burn b x)) .balances w w' := by
  refine local_of e ⟨.none, fun t' u => if t = t' ∧ b = u then -x else 0, rfl, fun w₂ w₂' _ e₂ => ?_⟩
  simp only [step, bind_ok, ok_inj] at e₂
  obtain ⟨_, -, L, e₂, rfl⟩ := e₂
  obtain ⟨-, -, -, h1, h2⟩ := Ledger.burn_inv (c := c) (show w₂.led.burn c t b x = .ok L from e₂)
  exact ⟨fun t' u => h1 t' u, h2, rfl⟩

theorem local_bond {c : Ctx} {K a : Addr} {x : Int} {w w' : World} (e : step h w c (.stake K (.bond a x)) = .ok w') :
    Local h c (.stake K (.bond a x)) (.staker K a) w w' := by
  have e0 := e
  simp only [step, Stake.step, bind_ok, ok_inj] at e0
  obtain ⟨_, -, _, ⟨⟨v, L⟩, e0, rfl⟩, rfl⟩ := e0
  obtain ⟨-, cfg, hcfg, -⟩ := Stake.bond_inv e0
  refine local_of e ⟨.staker K a { (w.stake K).info a with stakes := ((w.stake K).info a).stakes ++ [⟨x, c.now⟩], total := ((w.stake K).info a).total + x } x,
    fun t' u => Flow.delta ⟨cfg.lpToken, a, K, x⟩ t' u, rfl, fun w₂ w₂' hv e₂ => ?_⟩
  simp only [step, Stake.step, bind_ok, ok_inj] at e₂
  obtain ⟨_, -, _, ⟨⟨v, L⟩, e₂, rfl⟩, rfl⟩ := e₂
  obtain ⟨-, cfg', hcfg', -, -, -, -, -, rfl, h1, h2⟩ := Stake.bond_inv e₂
  obtain ⟨v1, v2, v3, v4, v5⟩ := hv
  rw [v1, hcfg] at hcfg'
  cases hcfg'
  exact ⟨fun t' u => by simp only; rw [h1 t' u]; simp, h2, by simp only [Change.apply, v5]⟩

theorem local_unbond {c : Ctx} {K a : Addr} {x : Int} {tm : Nat} {w w' : World}
    (e : step h w c (.stake K (.unbond a x tm)) = .ok w') :
    Local h c (.stake K (.unbond a x tm)) (.staker K a) w w' := by
  have e0 := e
  simp only [step, Stake.step, Stake.unbond, bind_ok, ok_inj, subI_ok, Stake.getConfig_ok] at e0
  obtain ⟨_, -, _, ⟨⟨_, _⟩, ⟨_, -, cfg, hcfg, l, hl, -⟩, -⟩, -⟩ := e0
  refine local_of e ⟨.staker K a { (w.stake K).info a with stakes := l, total := ((w.stake K).info a).total - x } (-x),
    fun t' u => Flow.delta ⟨cfg.lpToken, K, a, x⟩ t' u, rfl, fun w₂ w₂' hv e₂ => ?_⟩
  simp only [step, Stake.step, Stake.unbond, bind_ok, ok_inj, subI_ok, Stake.getConfig_ok] at e₂
  obtain ⟨_, -, _, ⟨⟨_, _⟩, ⟨_, -, cfg', hcfg', l', hl', _, ⟨-, rfl⟩, L, hL, _, ⟨-, rfl⟩, e2⟩, rfl⟩, rfl⟩ := e₂
  simp only [Prod.mk.injEq] at e2
  obtain ⟨rfl, rfl⟩ := e2
  obtain ⟨v1, v2, v3, v4, v5⟩ := hv
  rw [v1, hcfg] at hcfg'
  cases hcfg'
  rw [v5, hl] at hl'
  cases hl'
  obtain ⟨-, -, -, h1, h2⟩ := Ledger.transfer_inv hL
  exact ⟨fun t' u => by simp only; rw [h1 t' u]; simp, h2, by simp only [Change.apply, v5]; rfl⟩

theorem pending_congr {c : Ctx} {s s' : Stake.State} (h1 : s'.rewards = s.rewards) (h2 : s'.hist = s.hist) (t : Addr) (i : Stake.Info) :
    Stake.pending c s' t i = Stake.pending c s t i := by
  unfold Stake.pending Stake.rewardHistory
  rw [h1, h2]

theorem pays_unique {c : Ctx} {s : Stake.State} {i : Stake.Info} {ps qs : List (Addr × Int)} (hm : ps.map Prod.fst = qs.map Prod.fst)
    (hp : ∀ p ∈ ps, Stake.pending c s p.1 i = .ok p.2) (hq : ∀ p ∈ qs, Stake.pending c s p.1 i = .ok p.2) : ps = qs := by
  induction ps generalizing qs with
  | nil => cases qs <;> simp_all
  | cons p ps ih =>
    cases qs with
    | nil => simp at hm
    | cons q qs =>
      simp only [List.map_cons, List.cons.injEq] at hm
      have h1 := hp p List.mem_cons_self
      have h2 := hq q List.mem_cons_self
      rw [hm.1, h2] at h1
      simp only [Except.ok.injEq] at h1
      rw [ih hm.2 (fun x hx => hp x (List.mem_cons_of_mem _ hx)) (fun x hx => hq x (List.mem_cons_of_mem _ hx))]
      congr 1
      exact Prod.ext hm.1 h1.symm

theorem local_rewards {c : Ctx} {K a : Addr} {w w' : World} (e : step h w c (.stake K (.withdraw a)) = .ok w') :
    Local h c (.stake K (.withdraw a)) (.staker K a) w w' := by
  have e0 := e
  simp only [step, Stake.step, Stake.withdraw, bind_ok, ok_inj] at e0
  obtain ⟨_, -, _, ⟨⟨_, _⟩, ⟨L, e0, -⟩, -⟩, -⟩ := e0
  obtain ⟨ps, hm, hp, -, -⟩ := Stake.payLoop_inv e0
  refine local_of e ⟨.staker K a { (w.stake K).info a with last := c.now } 0,
    fun t' u => ((Stake.pays K a ps).map (fun f => f.delta t' u)).sum, rfl, fun w₂ w₂' hv e₂ => ?_⟩
  simp only [step, Stake.step, Stake.withdraw, bind_ok, ok_inj] at e₂
  obtain ⟨_, -, _, ⟨⟨_, _⟩, ⟨L, e₂, e3⟩, rfl⟩, rfl⟩ := e₂
  simp only [Prod.mk.injEq] at e3
  obtain ⟨rfl, rfl⟩ := e3
  obtain ⟨qs, hm', hq, h1, h2⟩ := Stake.payLoop_inv e₂
  obtain ⟨v1, v2, v3, v4, v5⟩ := hv
  obtain rfl : ps = qs := by
    refine pays_unique (c := c) (s := w.stake K) (i := (w.stake K).info a) (by rw [hm, hm', v2]) (fun p hx => (hp p hx).1) (fun p hx => ?_)
    have := (hq p hx).1
    rw [pending_congr v3 v4, v5] at this
    exact this
  exact ⟨fun t' u => by simp only; rw [h1 t' u], h2, by simp only [Change.apply, v5, add_zero]⟩

theorem local_claim {c : Ctx} {V a : Addr} {i : Nat} {w w' : World} (e : step h w c (.vest V (.claim a i)) = .ok w') :
    Local h c (.vest V (.claim a i)) (.schedule V a i) w w' := by
  have e0 := e
  simp only [step, Vesting.step, bind_ok, ok_inj, Vesting.loaded_ok] at e0
  obtain ⟨_, -, _, ⟨v, hv0, ⟨_, _⟩, e0, rfl⟩, -⟩ := e0
  obtain ⟨-, x, n, hx, hn, -⟩ := Vesting.claim_inv e0
  refine local_of e ⟨.schedule V a i { x with balance := n },
    fun t' u => Flow.delta ⟨v.token, V, a, (x.balance : Int) - n⟩ t' u, rfl, fun w₂ w₂' hv e₂ => ?_⟩
  simp only [step, Vesting.step, bind_ok, ok_inj, Vesting.loaded_ok] at e₂
  obtain ⟨_, -, _, ⟨v₂, hv2, ⟨_, _⟩, e₂, rfl⟩, rfl⟩ := e₂
  obtain ⟨-, x', n', hx', hn', -, rfl, -, h1, h2⟩ := Vesting.claim_inv e₂
  simp only [SameView, hv0, hv2, Option.map_some, Option.some.injEq, Prod.mk.injEq] at hv
  obtain ⟨q1, q2⟩ := hv
  rw [q2, hx] at hx'
  cases hx'
  rw [hn] at hn'
  cases hn'
  rw [q1] at h1
  exact ⟨fun t' u => by simp only; rw [h1 t' u]; simp, h2, by simp only [Change.apply, hv2, Option.map_some]⟩


theorem reserves_eq {p q q' : Pool.State} {o : Addr} (hne : p.cfg.tokenA ≠ p.cfg.tokenB) (ho : Phoenix.Spec.IsPoolToken p o)
    (h1 : q.cfg = p.cfg) (h2 : q'.cfg = p.cfg) (h3 : Phoenix.Spec.reserve q o = Phoenix.Spec.reserve q' o)
    (h4 : Phoenix.Spec.reserve q (Phoenix.Spec.other p o) = Phoenix.Spec.reserve q' (Phoenix.Spec.other p o)) :
    q.resA = q'.resA ∧ q.resB = q'.resB := by
  rcases ho with rfl | rfl
  · simp only [Phoenix.Spec.reserve, Phoenix.Spec.other, h1, h2, if_true, Ne.symm hne, if_false] at h3 h4
    exact ⟨h3, h4⟩
  · simp only [Phoenix.Spec.reserve, Phoenix.Spec.other, h1, h2, if_true, Ne.symm hne, if_false] at h3 h4
    exact ⟨h4, h3⟩

theorem local_swap {c : Ctx} {P sender offer : Addr} {x : Int} {mo ms : Option Int} {dl : Option Nat} {mf : Option Int} {w w' : World}
    (hc : c.auth P = false) (hd : ∀ p, w.xyk P = some p → p.cfg.tokenA ≠ p.cfg.tokenB)
    (e : step h w c (.xyk P (.swap sender offer x mo ms dl mf)) = .ok w') :
    Local h c (.xyk P (.swap sender offer x mo ms dl mf)) (.xyk P) w w' := by
  have e0 := e
  simp only [step, Pool.step, bind_ok, ok_inj, loadedX] at e0
  obtain ⟨_, -, _, ⟨p, hp, ⟨p', _, _⟩, e0, rfl⟩, rfl⟩ := e0
  have hne := hd p hp
  obtain ⟨rate, _, r, -, -, -, -, ho, -, hrate, -, hr, -, -, -, -, -, -, k1, k2, k3, k4, k5, k6⟩ := Pool.swap_inv e0 hc hne
  refine local_of e ⟨.xyk P p', fun t u => (([⟨offer, sender, P, x⟩, ⟨Phoenix.Spec.other p offer, P, sender, r.ret⟩,
        ⟨Phoenix.Spec.other p offer, P, p.cfg.feeRecipient, r.commission⟩] : List Flow).map (fun f => f.delta t u)).sum, rfl, fun w₂ w₂' hv e₂ => ?_⟩
  simp only [step, Pool.step, bind_ok, ok_inj, loadedX] at e₂
  obtain ⟨_, -, _, ⟨p₂, hp₂, ⟨p₂', _, _⟩, e₂, rfl⟩, rfl⟩ := e₂
  obtain rfl : p₂ = p := by
    have : w₂.xyk P = w.xyk P := hv
    rw [this, hp] at hp₂
    cases hp₂; rfl
  obtain ⟨rate', _, r', -, -, -, -, -, -, hrate', -, hr', -, -, -, -, hS, hR, q1, q2, q3, q4, q5, q6⟩ := Pool.swap_inv e₂ hc hne
  rw [hrate] at hrate'
  cases hrate'
  rw [hr] at hr'
  cases hr'
  have hpp : p₂' = p' := by
    obtain ⟨z1, z2⟩ := reserves_eq hne ho q1 k1 (q5.trans k5.symm) (q6.trans k6.symm)
    cases p₂'; cases p'
    simp only at *
    simp only [Pool.State.mk.injEq]
    exact ⟨q1.trans k1.symm, q2.trans k2.symm, q3.trans k3.symm, z1, z2, q4.trans k4.symm⟩
  exact ⟨fun t u => by simp only; rw [hS t u], hR, by simp only [Change.apply, hpp]⟩

theorem local_withdraw {c : Ctx} {P sender : Addr} {x mA mB : Int} {dl : Option Nat} {w w' : World}
    (hc : c.auth P = false) (hd : ∀ p, w.xyk P = some p → Phoenix.Spec.DistinctTokens p)
    (e : step h w c (.xyk P (.withdraw sender x mA mB dl)) = .ok w') :
    Local h c (.xyk P (.withdraw sender x mA mB dl)) (.xyk P) w w' := by
  have e0 := e
  simp only [step, Pool.step, bind_ok, ok_inj, loadedX] at e0
  obtain ⟨_, -, _, ⟨p, hp, ⟨p', _, ra, rb⟩, e0, rfl⟩, rfl⟩ := e0
  obtain ⟨-, -, -, -, -, -, -, -, -, -, -, hra, hrb, -, -, hp'⟩ := Pool.withdraw_inv e0 hc (hd p hp)
  refine local_of e ⟨.xyk P p', fun t u => (Flow.delta ⟨p.cfg.tokenA, P, sender, ra⟩ t u) +
      (Flow.delta ⟨p.cfg.tokenB, P, sender, rb⟩ t u) - (if p.cfg.shareToken = t ∧ sender = u then x else 0), rfl,
      fun w₂ w₂' hv e₂ => ?_⟩
  simp only [step, Pool.step, bind_ok, ok_inj, loadedX] at e₂
  obtain ⟨_, -, _, ⟨p₂, hp₂, ⟨p₂', _, ra', rb'⟩, e₂, rfl⟩, rfl⟩ := e₂
  obtain rfl : p₂ = p := by
    have : w₂.xyk P = w.xyk P := hv
    rw [this, hp] at hp₂
    cases hp₂; rfl
  obtain ⟨-, -, -, -, -, -, -, -, -, -, -, hra', hrb', hS, hR, hp₂'⟩ := Pool.withdraw_inv e₂ hc (hd p₂ hp)
  rw [← hra] at hra'
  rw [← hrb] at hrb'
  subst hra' hrb'
  exact ⟨fun t u => by simp only; rw [hS t u]; ring, hR, by simp only [Change.apply, hp₂', hp']⟩

theorem reserves_eqS {p q q' : Stable.State} {o : Addr} (hne : p.cfg.tokenA ≠ p.cfg.tokenB) (ho : Stable.Spec.IsPoolToken p o)
    (h1 : q.cfg = p.cfg) (h2 : q'.cfg = p.cfg) (h3 : Stable.Spec.reserve q o = Stable.Spec.reserve q' o)
    (h4 : Stable.Spec.reserve q (Stable.Spec.other p o) = Stable.Spec.reserve q' (Stable.Spec.other p o)) :
    q.resA = q'.resA ∧ q.resB = q'.resB := by
  rcases ho with rfl | rfl
  · simp only [Stable.Spec.reserve, Stable.Spec.other, h1, h2, if_true, Ne.symm hne, if_false] at h3 h4
    exact ⟨h3, h4⟩
  · simp only [Stable.Spec.reserve, Stable.Spec.other, h1, h2, if_true, Ne.symm hne, if_false] at h3 h4
    exact ⟨h4, h3⟩

theorem local_stableSwap {c : Ctx} {P sender offer : Addr} {x : Int} {mo ms : Option Int} {dl : Option Nat} {mf : Option Int} {w w' : World}
    (hc : c.auth P = false) (hd : ∀ p, w.stable P = some p → p.cfg.tokenA ≠ p.cfg.tokenB)
    (e : step h w c (.stable P (.swap sender offer x mo ms dl mf)) = .ok w') :
    Local h c (.stable P (.swap sender offer x mo ms dl mf)) (.stable P) w w' := by
  have e0 := e
  simp only [step, Stable.step, bind_ok, ok_inj, loadedS] at e0
  obtain ⟨_, -, _, ⟨p, hp, ⟨p', _, _⟩, e0, rfl⟩, rfl⟩ := e0
  have hne := hd p hp
  obtain ⟨_, r, -, -, -, -, ho, -, -, hr, -, -, -, -, -, -, k1, k5, k6⟩ := Stable.swap_inv e0 hc hne
  refine local_of e ⟨.stable P p', fun t u => (([⟨offer, sender, P, x⟩, ⟨Stable.Spec.other p offer, P, sender, r.ret⟩,
        ⟨Stable.Spec.other p offer, P, p.cfg.feeRecipient, r.commission⟩] : List Flow).map (fun f => f.delta t u)).sum, rfl, fun w₂ w₂' hv e₂ => ?_⟩
  simp only [step, Stable.step, bind_ok, ok_inj, loadedS] at e₂
  obtain ⟨_, -, _, ⟨p₂, hp₂, ⟨p₂', _, _⟩, e₂, rfl⟩, rfl⟩ := e₂
  obtain rfl : p₂ = p := by
    have : w₂.stable P = w.stable P := hv
    rw [this, hp] at hp₂
    cases hp₂; rfl
  obtain ⟨_, r', -, -, -, -, -, -, -, hr', -, -, -, -, hS, hR, q1, q5, q6⟩ := Stable.swap_inv e₂ hc hne
  rw [hr] at hr'
  cases hr'
  have hpp : p₂' = p' := by
    obtain ⟨z1, z2⟩ := reserves_eqS hne ho (by rw [q1]) (by rw [k1]) (q5.trans k5.symm) (q6.trans k6.symm)
    rw [q1, k1, z1, z2]
  exact ⟨fun t u => by simp only; rw [hS t u], hR, by simp only [Change.apply, hpp]⟩

theorem local_stableWithdraw {c : Ctx} {P sender : Addr} {x mA mB : Int} {dl : Option Nat} {w w' : World}
    (hc : c.auth P = false) (hd : ∀ p, w.stable P = some p → Stable.Spec.DistinctTokens p)
    (e : step h w c (.stable P (.withdraw sender x mA mB dl)) = .ok w') :
    Local h c (.stable P (.withdraw sender x mA mB dl)) (.stable P) w w' := by
  have e0 := e
  simp only [step, Stable.step, bind_ok, ok_inj, loadedS] at e0
  obtain ⟨_, -, _, ⟨p, hp, ⟨p', _, ra, rb⟩, e0, rfl⟩, rfl⟩ := e0
  obtain ⟨-, -, -, -, -, -, -, -, -, -, -, hra, hrb, -, -, hp'⟩ := Stable.withdraw_inv e0 hc (hd p hp)
  refine local_of e ⟨.stable P p', fun t u => (Flow.delta ⟨p.cfg.tokenA, P, sender, ra⟩ t u) +
      (Flow.delta ⟨p.cfg.tokenB, P, sender, rb⟩ t u) - (if p.cfg.shareToken = t ∧ sender = u then x else 0), rfl,
      fun w₂ w₂' hv e₂ => ?_⟩
  simp only [step, Stable.step, bind_ok, ok_inj, loadedS] at e₂
  obtain ⟨_, -, _, ⟨p₂, hp₂, ⟨p₂', _, ra', rb'⟩, e₂, rfl⟩, rfl⟩ := e₂
  obtain rfl : p₂ = p := by
    have : w₂.stable P = w.stable P := hv
    rw [this, hp] at hp₂
    cases hp₂; rfl
  obtain ⟨-, -, -, -, -, -, -, -, -, -, -, hra', hrb', hS, hR, hp₂'⟩ := Stable.withdraw_inv e₂ hc (hd p₂ hp)
  rw [← hra] at hra'
  rw [← hrb] at hrb'
  subst hra' hrb'
  exact ⟨fun t u => by simp only; rw [hS t u]; ring, hR, by simp only [Change.apply, hp₂', hp']⟩

theorem local_of_step {c : Ctx} {k : Call} {s : Slot} {w' : World} (I : Core acct w) (hp : Possible acct ⟨c, k⟩) (hs : slotOf k = some s)
    (e : step h w c k = .ok w') : Local h c k s w w' := by
  have hau : ∀ P, w.code P ≠ .none → c.auth P = false := fun P hP =>
    I.auth_false (fun a ha => hp.2 a ha) hP (by simp [show c.invoker = none from hp.1])
  cases k <;> simp only [slotOf, reduceCtorEq] at hs
  · rename_i t op
    cases op <;> simp only [slotOf, Option.some.injEq, reduceCtorEq] at hs <;> subst hs
    · exact local_mint e
    · exact local_transfer e
    · exact local_burn e
  · rename_i P k
    have hP : w.code P = .xyk := by
      cases k <;> simp only [slotOf, reduceCtorEq] at hs <;> simp only [step, bind_ok, expect_ok] at e <;> exact e.choose_spec.1
    have hne : w.code P ≠ .none := by rw [hP]; simp
    have hd : ∀ p, w.xyk P = some p → Phoenix.Spec.DistinctTokens p :=
      fun p q => ((I.at_ P (I.contracts P hne)).xyk.pool p q).distinct
    cases k <;> simp only [slotOf, Option.some.injEq, reduceCtorEq] at hs <;> subst hs
    · exact local_swap (hau P hne) (fun p q => (hd p q).1) e
    · exact local_withdraw (hau P hne) hd e
  · rename_i P k
    have hP : w.code P = .stable := by
      cases k <;> simp only [slotOf, reduceCtorEq] at hs <;> simp only [step, bind_ok, expect_ok] at e <;> exact e.choose_spec.1
    have hne : w.code P ≠ .none := by rw [hP]; simp
    have hd : ∀ p, w.stable P = some p → Stable.Spec.DistinctTokens p :=
      fun p q => ((I.at_ P (I.contracts P hne)).stable.pool p q).distinct
    cases k <;> simp only [slotOf, Option.some.injEq, reduceCtorEq] at hs <;> subst hs
    · exact local_stableSwap (hau P hne) (fun p q => (hd p q).1) e
    · exact local_stableWithdraw (hau P hne) hd e
  · rename_i K k
    cases k <;> simp only [slotOf, Option.some.injEq, reduceCtorEq] at hs <;> subst hs
    · exact local_bond e
    · exact local_unbond e
    · exact local_rewards e
  · rename_i V k
    cases k <;> simp only [slotOf, Option.some.injEq, reduceCtorEq] at hs <;> subst hs
    exact local_claim e

end Phoenix.World
