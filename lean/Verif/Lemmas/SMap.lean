import Verif.Model.Cast
import Verif.Lemmas.Basic
/-! Ordered maps and casts (helpers only). -/
namespace Phoenix

theorem asU128_nonneg {x : Int} (h : 0 ≤ x) (h2 : x ≤ I128_MAX) : (asU128 x : Int) = x := by
  unfold asU128
  have : x % (U128_LIM : Int) = x := by
    apply Int.emod_eq_of_lt h
    simp only [I128_MAX, U128_LIM] at *; omega
  rw [this]; omega

theorem asI128_small {x : Nat} (h : (x : Int) ≤ I128_MAX) : asI128 x = x := by
  unfold asI128; rw [if_pos h]

namespace SMap

/-- keys strictly ascending -/
def Sorted (m : SMap) : Prop := m.Pairwise (fun p q => p.1 < q.1)

theorem get_set (m : SMap) (k v x : Nat) : (m.set k v).get x = if x = k then some v else m.get x := by
  induction m with
  | nil => simp only [set, get]
  | cons p m ih =>
    obtain ⟨a, b⟩ := p
    unfold set
    split
    · simp only [get]
    · split
      · rename_i h1 h2
        subst h2
        simp only [get]
        by_cases e : x = k
        · simp [e]
        · simp [e]
      · rename_i h1 h2
        simp only [get, ih]
        by_cases e : x = a
        · subst e
          have : x ≠ k := fun h => h2 h.symm
          simp [this]
        · simp [e]

theorem get_none_of_lt {m : SMap} {k : Nat} (h : ∀ p ∈ m, k < p.1) : m.get k = none := by
  induction m with
  | nil => rfl
  | cons p m ih =>
    obtain ⟨a, b⟩ := p
    have h1 := h (a, b) List.mem_cons_self
    simp only at h1
    rw [get, if_neg (by omega)]
    exact ih (fun q hq => h q (List.mem_cons_of_mem _ hq))

theorem get_eq_some {m : SMap} (hs : Sorted m) {k v : Nat} : m.get k = some v ↔ (k, v) ∈ m := by
  induction m with
  | nil => simp [get]
  | cons p m ih =>
    obtain ⟨a, b⟩ := p
    have hs' : Sorted m := (List.pairwise_cons.mp hs).2
    have hlt := (List.pairwise_cons.mp hs).1
    rw [get]
    by_cases e : k = a
    · subst e
      rw [if_pos rfl]
      constructor
      · intro h; cases h; exact List.mem_cons_self
      · intro h
        rcases List.mem_cons.mp h with h | h
        · cases h; rfl
        · have := hlt _ h; simp at this
    · rw [if_neg e, ih hs']
      simp [e]

theorem mem_keys_iff {m : SMap} {k : Nat} : k ∈ m.keys ↔ ∃ v, (k, v) ∈ m := by
  simp [keys]

theorem get_isSome {m : SMap} {k : Nat} : k ∈ m.keys ↔ m.get k ≠ none := by
  induction m with
  | nil => simp [keys, get]
  | cons p m ih =>
    obtain ⟨a, b⟩ := p
    simp only [keys, List.map_cons, List.mem_cons, get]
    by_cases e : k = a
    · simp [e]
    · simp only [e, false_or, if_false]; exact ih

theorem mem_set {m : SMap} {k v : Nat} {p : Nat × Nat} (h : p ∈ m.set k v) : p = (k, v) ∨ p ∈ m := by
  induction m with
  | nil => simpa [set] using h
  | cons q m ih =>
    obtain ⟨a, b⟩ := q
    unfold set at h
    split at h
    · rcases List.mem_cons.mp h with h | h
      · exact .inl h
      · exact .inr h
    · split at h
      · rcases List.mem_cons.mp h with h | h
        · exact .inl h
        · exact .inr (List.mem_cons_of_mem _ h)
      · rcases List.mem_cons.mp h with h | h
        · exact .inr (by rw [h]; exact List.mem_cons_self)
        · rcases ih h with h | h
          · exact .inl h
          · exact .inr (List.mem_cons_of_mem _ h)

theorem mem_keys_set {m : SMap} {k v x : Nat} : x ∈ (m.set k v).keys ↔ x = k ∨ x ∈ m.keys := by
  rw [get_isSome, get_isSome, get_set]
  by_cases e : x = k <;> simp [e]

theorem sorted_set {m : SMap} (hs : Sorted m) (k v : Nat) : Sorted (m.set k v) := by
  induction m with
  | nil => simp [set, Sorted]
  | cons p m ih =>
    obtain ⟨a, b⟩ := p
    have hs' : Sorted m := (List.pairwise_cons.mp hs).2
    have hlt := (List.pairwise_cons.mp hs).1
    unfold set
    split
    · rename_i h1
      refine List.pairwise_cons.mpr ⟨fun q hq => ?_, hs⟩
      rcases List.mem_cons.mp hq with h | h
      · rw [h]; exact h1
      · exact lt_trans h1 (hlt q h)
    · split
      · rename_i h1 h2
        subst h2
        exact List.pairwise_cons.mpr ⟨hlt, hs'⟩
      · rename_i h1 h2
        refine List.pairwise_cons.mpr ⟨fun q hq => ?_, ih hs'⟩
        rcases mem_set hq with h | h
        · rw [h]; simp only; omega
        · exact hlt q h

theorem set_append {m : SMap} {k v : Nat} (h : ∀ p ∈ m, p.1 < k) : m.set k v = m ++ [(k, v)] := by
  induction m with
  | nil => rfl
  | cons p m ih =>
    obtain ⟨a, b⟩ := p
    have h1 := h (a, b) List.mem_cons_self
    simp only at h1
    unfold set
    rw [if_neg (by omega), if_neg (by omega), ih (fun q hq => h q (List.mem_cons_of_mem _ hq))]
    rfl

theorem keys_sorted {m : SMap} (hs : Sorted m) : m.keys.Pairwise (· < ·) := by
  unfold keys
  rw [List.pairwise_map]
  exact hs

end SMap
end Phoenix
