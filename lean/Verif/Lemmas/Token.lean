import Verif.Lemmas.Basic
import Verif.Spec.Ledger
/-! Inversion lemmas for token and ledger calls (helpers only). -/
namespace Phoenix
open Spec

namespace Token

theorem receive_ok {t t' : Token} {a : Addr} {x : Int} :
    t.receive a x = .ok t' ↔ InI128 (t.bal a + x) ∧ { t with bal := upd t.bal a (t.bal a + x) } = t' := by
  unfold receive
  simp only [bind_ok, addI_ok, ok_inj]
  constructor
  · rintro ⟨_, ⟨h, rfl⟩, h2⟩; exact ⟨h, h2⟩
  · rintro ⟨h, h2⟩; exact ⟨_, ⟨h, rfl⟩, h2⟩

theorem spend_ok {t t' : Token} {a : Addr} {x : Int} :
    t.spend a x = .ok t' ↔
      x ≤ t.bal a ∧ InI128 (t.bal a - x) ∧ { t with bal := upd t.bal a (t.bal a - x) } = t' := by
  unfold spend
  simp only [bind_ok, req_ok, subI_ok, ok_inj]
  constructor
  · rintro ⟨_, h0, _, ⟨h, rfl⟩, h2⟩; exact ⟨h0, h, h2⟩
  · rintro ⟨h0, h, h2⟩; exact ⟨(), h0, _, ⟨h, rfl⟩, h2⟩

theorem writeAllowance_ok {t t' : Token} {seq o s : Nat} {x : Int} {e : Nat} :
    t.writeAllowance seq o s x e = .ok t' ↔ ¬ (0 < x ∧ e < seq) ∧
      { t with allow := upd t.allow o (upd (t.allow o) s ⟨x, e⟩) } = t' := by
  unfold writeAllowance
  simp only [bind_ok, req_ok, ok_inj]
  constructor
  · rintro ⟨_, h, h2⟩; exact ⟨h, h2⟩
  · rintro ⟨h, h2⟩; exact ⟨(), h, h2⟩

/-- `spend_allowance` leaves balances, admin and decimals alone, and lowers the one
allowance by exactly the amount (in the sense of what can still be read). -/
theorem spendAllowance_ok {t t' : Token} {seq o s : Nat} {x : Int}
    (h : t.spendAllowance seq o s x = .ok t') :
    x ≤ (t.readAllowance seq o s).amount ∧ t'.bal = t.bal ∧ t'.admin = t.admin ∧
    t'.decimals = t.decimals ∧
    (t' = t ∧ x ≤ 0 ∨ 0 < x ∧ t'.allow = upd t.allow o (upd (t.allow o) s
        ⟨(t.readAllowance seq o s).amount - x, (t.readAllowance seq o s).exp⟩)) := by
  unfold spendAllowance at h
  simp only [bind_ok, req_ok] at h
  obtain ⟨_, h1, h⟩ := h
  split at h
  · rename_i hx
    simp only [bind_ok, subI_ok, writeAllowance_ok] at h
    obtain ⟨_, ⟨_, rfl⟩, _, rfl⟩ := h
    exact ⟨h1, rfl, rfl, rfl, .inr ⟨hx, rfl⟩⟩
  · rename_i hx
    rw [ok_inj] at h
    subst h
    exact ⟨h1, rfl, rfl, rfl, .inl ⟨rfl, by omega⟩⟩

theorem mint_ok {c : Ctx} {t t' : Token} {d : Addr} {x : Int} :
    t.mint c d x = .ok t' ↔ 0 ≤ x ∧ c.auth t.admin = true ∧ InI128 (t.bal d + x) ∧
      { t with bal := upd t.bal d (t.bal d + x) } = t' := by
  unfold mint checkNonneg
  simp only [bind_ok, req_ok, requireAuth_ok, receive_ok]
  constructor
  · rintro ⟨_, h0, _, h1, h⟩; exact ⟨h0, h1, h⟩
  · rintro ⟨h0, h1, h⟩; exact ⟨(), h0, (), h1, h⟩

theorem burn_ok {c : Ctx} {t t' : Token} {s : Addr} {x : Int} :
    t.burn c s x = .ok t' ↔ c.auth s = true ∧ 0 ≤ x ∧ x ≤ t.bal s ∧ InI128 (t.bal s - x) ∧
      { t with bal := upd t.bal s (t.bal s - x) } = t' := by
  unfold burn checkNonneg
  simp only [bind_ok, req_ok, requireAuth_ok, spend_ok]
  constructor
  · rintro ⟨_, h0, _, h1, h⟩; exact ⟨h0, h1, h⟩
  · rintro ⟨h0, h1, h⟩; exact ⟨(), h0, (), h1, h⟩

theorem transfer_ok {c : Ctx} {t t' : Token} {s d : Addr} {x : Int} :
    t.transfer c s d x = .ok t' ↔ c.auth s = true ∧ 0 ≤ x ∧ x ≤ t.bal s ∧ InI128 (t.bal s - x) ∧
      InI128 (upd t.bal s (t.bal s - x) d + x) ∧
      { t with bal := upd (upd t.bal s (t.bal s - x)) d (upd t.bal s (t.bal s - x) d + x) } = t' := by
  unfold transfer checkNonneg
  simp only [bind_ok, req_ok, requireAuth_ok, spend_ok, receive_ok]
  constructor
  · rintro ⟨_, h0, _, h1, _, ⟨h2, h3, rfl⟩, h4⟩; exact ⟨h0, h1, h2, h3, h4⟩
  · rintro ⟨h0, h1, h2, h3, h4⟩; exact ⟨(), h0, (), h1, _, ⟨h2, h3, rfl⟩, h4⟩

/-- Double update of balances written additively, valid also when `s = d`. -/
theorem move_apply (f : Addr → Int) (s d a : Addr) (x : Int) :
    upd (upd f s (f s - x)) d (upd f s (f s - x) d + x) a =
      f a + ((if d = a then x else 0) - (if s = a then x else 0)) := by
  unfold upd
  by_cases h1 : a = d <;> by_cases h2 : a = s
  · subst h1; subst h2; simp
  · subst h1; simp [h2, Ne.symm h2]
  · subst h2
    have : d ≠ a := fun h => h1 h.symm
    simp [h1, this]; ring
  · have h3 : d ≠ a := fun h => h1 h.symm
    have h4 : s ≠ a := fun h => h2 h.symm
    simp [h1, h2, h3, h4]

end Token

namespace Ledger

theorem call_ok {c : Ctx} {L L' : Ledger} {tok : Addr} {op : TokenOp} :
    L.call c tok op = .ok L' ↔ ∃ t, (L tok).call c op = .ok t ∧ upd L tok t = L' := by
  unfold call
  simp only [bind_ok, ok_inj]

theorem settles_nil (L : Ledger) : Settles L L [] := by intro t a; simp

theorem settles_trans {L1 L2 L3 : Ledger} {fs gs : List Flow}
    (h1 : Settles L1 L2 fs) (h2 : Settles L2 L3 gs) : Settles L1 L3 (fs ++ gs) := by
  intro t a
  rw [h2 t a, h1 t a, List.map_append, List.sum_append]; ring

theorem sameRights_refl (L : Ledger) : SameRights L L := fun _ => ⟨rfl, rfl, rfl⟩
theorem sameRights_trans {L1 L2 L3 : Ledger} (h1 : SameRights L1 L2) (h2 : SameRights L2 L3) :
    SameRights L1 L3 := fun t =>
  ⟨(h2 t).1.trans (h1 t).1, (h2 t).2.1.trans (h1 t).2.1, (h2 t).2.2.trans (h1 t).2.2⟩

theorem transfer_inv {c : Ctx} {L L' : Ledger} {tok s d : Addr} {x : Int}
    (h : L.transfer c tok s d x = .ok L') :
    c.auth s = true ∧ 0 ≤ x ∧ x ≤ L.bal tok s ∧ Settles L L' [⟨tok, s, d, x⟩] ∧ SameRights L L' := by
  unfold transfer at h
  rw [call_ok] at h
  obtain ⟨t, ht, rfl⟩ := h
  simp only [Token.call] at ht
  rw [Token.transfer_ok] at ht
  obtain ⟨h0, h1, h2, _, _, rfl⟩ := ht
  refine ⟨h0, h1, h2, ?_, ?_⟩
  · intro t a
    simp only [bal, Flow.delta, List.map_cons, List.map_nil, List.sum_cons, List.sum_nil, add_zero]
    by_cases ht : t = tok
    · subst ht
      rw [upd_same]
      simp only [true_and]
      exact Token.move_apply _ _ _ _ _
    · have : ¬ tok = t := fun h => ht h.symm
      simp [upd_ne _ _ ht, this]
  · intro t
    by_cases ht : t = tok
    · subst ht; rw [upd_same]; exact ⟨rfl, rfl, rfl⟩
    · rw [upd_ne _ _ ht]; exact ⟨rfl, rfl, rfl⟩

theorem mint_inv {c : Ctx} {L L' : Ledger} {tok d : Addr} {x : Int}
    (h : L.mint c tok d x = .ok L') :
    c.auth (L tok).admin = true ∧ 0 ≤ x ∧ Issues L L' tok d x ∧ SameRights L L' := by
  unfold mint at h
  rw [call_ok] at h
  obtain ⟨t, ht, rfl⟩ := h
  simp only [Token.call] at ht
  rw [Token.mint_ok] at ht
  obtain ⟨h0, h1, _, rfl⟩ := ht
  refine ⟨h1, h0, ?_, ?_⟩
  · intro t a
    simp only [bal]
    by_cases ht : t = tok
    · subst ht
      rw [upd_same]
      by_cases ha : a = d
      · subst ha; simp [upd_same]
      · have : ¬ d = a := fun h => ha h.symm
        simp [upd_ne _ _ ha, this]
    · have : ¬ tok = t := fun h => ht h.symm
      simp [upd_ne _ _ ht, this]
  · intro t
    by_cases ht : t = tok
    · subst ht; rw [upd_same]; exact ⟨rfl, rfl, rfl⟩
    · rw [upd_ne _ _ ht]; exact ⟨rfl, rfl, rfl⟩

theorem burn_inv {c : Ctx} {L L' : Ledger} {tok s : Addr} {x : Int}
    (h : L.burn c tok s x = .ok L') :
    c.auth s = true ∧ 0 ≤ x ∧ x ≤ L.bal tok s ∧ Issues L L' tok s (-x) ∧ SameRights L L' := by
  unfold burn at h
  rw [call_ok] at h
  obtain ⟨t, ht, rfl⟩ := h
  simp only [Token.call] at ht
  rw [Token.burn_ok] at ht
  obtain ⟨h0, h1, h2, _, rfl⟩ := ht
  refine ⟨h0, h1, h2, ?_, ?_⟩
  · intro t a
    simp only [bal]
    by_cases ht : t = tok
    · subst ht
      rw [upd_same]
      by_cases ha : a = s
      · subst ha; simp [upd_same]; ring
      · have : ¬ s = a := fun h => ha h.symm
        simp [upd_ne _ _ ha, this]
    · have : ¬ tok = t := fun h => ht h.symm
      simp [upd_ne _ _ ht, this]
  · intro t
    by_cases ht : t = tok
    · subst ht; rw [upd_same]; exact ⟨rfl, rfl, rfl⟩
    · rw [upd_ne _ _ ht]; exact ⟨rfl, rfl, rfl⟩

end Ledger
end Phoenix
