import Verif.Props.Token
import Verif.Spec.Pool
import Mathlib.Algebra.Order.BigOperators.Group.Finset
/-! What a token call by others can and cannot do to a contract's holdings (helpers). -/
namespace Phoenix
open Spec Ledger Props

/-- All balances non-negative and no allowance granted by `self`. -/
structure LedInv (me : Addr) (L : Ledger) : Prop where
  nonneg : ∀ t a, 0 ≤ L.bal t a
  noAllow : NoAllowance me L

theorem spend_nonneg {t t' : Token} {s : Addr} {x : Int} (h : ∀ a, 0 ≤ t.bal a)
    (hc : t.spend s x = .ok t') : ∀ a, 0 ≤ t'.bal a := by
  rw [Token.spend_ok] at hc
  obtain ⟨h1, _, rfl⟩ := hc
  intro a
  simp only [upd_apply]
  split
  · omega
  · exact h a

theorem receive_nonneg {t t' : Token} {s : Addr} {x : Int} (h : ∀ a, 0 ≤ t.bal a) (hx : 0 ≤ x)
    (hc : t.receive s x = .ok t') : ∀ a, 0 ≤ t'.bal a := by
  rw [Token.receive_ok] at hc
  obtain ⟨_, rfl⟩ := hc
  intro a
  simp only [upd_apply]
  have := h s
  split
  · omega
  · exact h a

theorem spendAllowance_none {t t' : Token} {self : Addr} {seq o s : Nat} {x : Int}
    (h : ∀ sp, (t.allow self sp).amount ≤ 0)
    (hc : t.spendAllowance seq o s x = .ok t') :
    (∀ sp, (t'.allow self sp).amount ≤ 0) ∧ t'.bal = t.bal ∧ (o = self → x ≤ 0) := by
  obtain ⟨h1, hb, _, _, h2⟩ := Token.spendAllowance_ok hc
  have hr : (t.readAllowance seq self s).amount ≤ 0 := by
    unfold Token.readAllowance; simp only; split
    · exact le_refl _
    · exact h s
  refine ⟨?_, hb, ?_⟩
  · rcases h2 with ⟨rfl, _⟩ | ⟨hx, ha⟩
    · exact h
    · intro sp
      rw [ha, upd2_apply]
      split
      · rename_i he; obtain ⟨rfl, rfl⟩ := he; simp only; omega
      · exact h sp
  · rintro rfl; omega

/-- A token call not signed by `self` keeps balances non-negative, creates no
allowance of `self` and takes nothing from `self`. -/
theorem token_call_others {self : Addr} {c : Ctx} {t t' : Token} {op : TokenOp}
    (hc : t.call c op = .ok t') (hs : c.auth self = false) (hn : ∀ a, 0 ≤ t.bal a)
    (hal : ∀ sp, (t.allow self sp).amount ≤ 0) :
    (∀ a, 0 ≤ t'.bal a) ∧ (∀ sp, (t'.allow self sp).amount ≤ 0) ∧ t.bal self ≤ t'.bal self := by
  have heff := C21_exact_effect hc self
  cases op with
  | mint d x =>
    simp only [Token.call, Token.mint, Token.checkNonneg, bind_ok, requireAuth_ok, req_ok] at hc
    obtain ⟨_, h1, _, _, h2⟩ := hc
    have := receive_nonneg hn h1 h2
    rw [Token.receive_ok] at h2
    obtain ⟨_, rfl⟩ := h2
    refine ⟨this, hal, ?_⟩
    rw [heff]; simp only [effect]; split <;> omega
  | setAdmin n =>
    simp only [Token.call, Token.setAdmin, bind_ok, requireAuth_ok, ok_inj] at hc
    obtain ⟨_, _, rfl⟩ := hc
    exact ⟨hn, hal, le_refl _⟩
  | approve o s x e =>
    simp only [Token.call, Token.approve, Token.checkNonneg, bind_ok, requireAuth_ok, req_ok,
      Token.writeAllowance_ok] at hc
    obtain ⟨_, h0, _, h1, _, rfl⟩ := hc
    refine ⟨hn, fun sp => ?_, le_refl _⟩
    simp only
    rw [upd2_apply]
    split
    · rename_i he; rw [← he.1] at h0; simp [h0] at hs
    · exact hal sp
  | transfer s d x =>
    simp only [Token.call, Token.transfer, Token.checkNonneg, bind_ok, requireAuth_ok, req_ok] at hc
    obtain ⟨_, h0, _, h1, t1, h2, h3⟩ := hc
    have n1 := spend_nonneg hn h2
    have n2 := receive_nonneg n1 h1 h3
    rw [Token.spend_ok] at h2
    obtain ⟨_, _, rfl⟩ := h2
    rw [Token.receive_ok] at h3
    obtain ⟨_, rfl⟩ := h3
    refine ⟨n2, hal, ?_⟩
    rw [heff]
    have : s ≠ self := by rintro rfl; simp [h0] at hs
    simp only [effect, this, if_false]; split <;> omega
  | transferFrom sp s d x =>
    simp only [Token.call, Token.transferFrom, Token.checkNonneg, bind_ok, requireAuth_ok, req_ok] at hc
    obtain ⟨_, _, _, h1, t0, h0, t1, h2, h3⟩ := hc
    obtain ⟨a1, a2, a3⟩ := spendAllowance_none hal h0
    have n1 := spend_nonneg (by rw [a2]; exact hn) h2
    have n2 := receive_nonneg n1 h1 h3
    rw [Token.spend_ok] at h2
    obtain ⟨_, _, rfl⟩ := h2
    rw [Token.receive_ok] at h3
    obtain ⟨_, rfl⟩ := h3
    refine ⟨n2, a1, ?_⟩
    rw [heff]
    simp only [effect]
    by_cases hss : s = self
    · have := a3 hss; have : x = 0 := by omega
      subst this; simp
    · simp only [hss, if_false]; split <;> omega
  | burn s x =>
    simp only [Token.call, Token.burn, Token.checkNonneg, bind_ok, requireAuth_ok, req_ok] at hc
    obtain ⟨_, h0, _, h1, h2⟩ := hc
    have n1 := spend_nonneg hn h2
    rw [Token.spend_ok] at h2
    obtain ⟨_, _, rfl⟩ := h2
    refine ⟨n1, hal, ?_⟩
    rw [heff]
    have : s ≠ self := by rintro rfl; simp [h0] at hs
    simp [effect, this]
  | burnFrom sp s x =>
    simp only [Token.call, Token.burnFrom, Token.checkNonneg, bind_ok, requireAuth_ok, req_ok] at hc
    obtain ⟨_, _, _, h1, t0, h0, h2⟩ := hc
    obtain ⟨a1, a2, a3⟩ := spendAllowance_none hal h0
    have n1 := spend_nonneg (by rw [a2]; exact hn) h2
    rw [Token.spend_ok] at h2
    obtain ⟨_, _, rfl⟩ := h2
    refine ⟨n1, a1, ?_⟩
    rw [heff]
    simp only [effect]
    by_cases hss : s = self
    · have := a3 hss; have : x = 0 := by omega
      subst this; simp
    · simp [hss]

/-- Same for the whole ledger. -/
theorem ledger_call_others {self : Addr} {c : Ctx} {L L' : Ledger} {tok : Addr} {op : TokenOp}
    (hc : L.call c tok op = .ok L') (hs : c.auth self = false) (h : LedInv self L) :
    LedInv self L' ∧ (∀ t, L.bal t self ≤ L'.bal t self) ∧
    (∀ t, (L t).admin = self → (L' t).admin = self) := by
  rw [call_ok] at hc
  obtain ⟨t1, ht, rfl⟩ := hc
  obtain ⟨k1, k2, k3⟩ := token_call_others ht hs (h.nonneg tok) (h.noAllow tok)
  refine ⟨⟨fun t a => ?_, fun t sp => ?_⟩, fun t => ?_, fun t ha => ?_⟩
  · simp only [bal, upd_apply]; split
    · exact k1 a
    · exact h.nonneg t a
  · simp only [upd_apply]; split
    · exact k2 sp
    · exact h.noAllow t sp
  · simp only [bal, upd_apply]; split
    · rename_i e; rw [e]; exact k3
    · exact le_refl _
  · simp only [upd_apply]; split
    · rename_i e; rw [e] at ha
      by_contra hne
      have := C24_admin_change_authorised ht (by rw [ha]; exact hne)
      rw [ha, hs] at this; simp at this
    · exact ha

/-- If `self` is the admin of `tok`, a token call not signed by `self` cannot push
the sum of balances of any set above a bound on all of them. -/
theorem ledger_call_cover {self : Addr} {c : Ctx} {L L' : Ledger} {tok : Addr} {op : TokenOp} {T : Int}
    (hc : L.call c tok op = .ok L') (hs : c.auth self = false) (h : LedInv self L) (lp : Addr)
    (had : (L lp).admin = self) (hT : ∀ S : Finset Addr, ∑ a ∈ S, L.bal lp a ≤ T) (S : Finset Addr) :
    ∑ a ∈ S, L'.bal lp a ≤ T := by
  have h' := (ledger_call_others hc hs h).1
  rw [call_ok] at hc
  obtain ⟨t1, ht, rfl⟩ := hc
  by_cases e : lp = tok
  · subst e
    let S' := S ∪ (parties op).toFinset
    have hsub : ∑ a ∈ S, Ledger.bal (upd L lp t1) lp a ≤ ∑ a ∈ S', Ledger.bal (upd L lp t1) lp a :=
      Finset.sum_le_sum_of_subset_of_nonneg Finset.subset_union_left
        (fun a _ _ => h'.nonneg lp a)
    refine hsub.trans (le_trans ?_ (hT S'))
    by_contra hlt
    have := C24_supply_growth_authorised ht S' (fun a ha => by simp [S', ha])
      (by unfold supply; simpa [bal, upd_same] using hlt)
    rw [had, hs] at this; simp at this
  · have : ∀ a, Ledger.bal (upd L tok t1) lp a = L.bal lp a := fun a => by
      simp only [bal, upd_ne _ _ e]
    simp only [this]
    exact hT S

/-- Sum of an indicator over any set is at most the (non-negative) value. -/
theorem sum_ind_le (S : Finset Addr) (d : Addr) {x : Int} (hx : 0 ≤ x) :
    ∑ a ∈ S, (if d = a then x else 0) ≤ x := by
  rw [Finset.sum_ite_eq]; split
  · exact le_refl _
  · exact hx

end Phoenix
