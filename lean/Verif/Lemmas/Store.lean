import Verif.Spec.StorePool
import Verif.Lemmas.Basic
/-! Lemmas about key-value stores and about calls with the same outcome. -/
namespace Phoenix.Store
open Phoenix

@[simp] theorem get_set (σ : Store) (d d' : Dur) (k k' : Key) (v : Cell) :
    get (set σ d k v) d' k' = if d' = d ∧ k' = k then some v else get σ d' k' := by
  unfold get set
  rw [List.lookup_cons]
  by_cases h : (d', k') = (d, k)
  · have hb : ((d', k') == (d, k)) = true := by simp [h]
    rw [hb]; simp only [Prod.mk.injEq] at h; rw [if_pos h]
  · have hb : ((d', k') == (d, k)) = false := by simpa using h
    rw [hb]; simp only [Prod.mk.injEq] at h; rw [if_neg h]

theorem load_of {α : Type} {σ : Store} {d : Dur} {k : Key} {as : Cell → Option α} {e : Err} {c : Cell} {x : α}
    (h : get σ d k = some c) (hx : as c = some x) : load σ d k as e = .ok x := by
  unfold load; rw [h]; simp only [hx]

theorem load_none {α : Type} {σ : Store} {d : Dur} {k : Key} {as : Cell → Option α} {e : Err}
    (h : get σ d k = none) : load σ d k as e = .error e := by unfold load; rw [h]

theorem loadOr_of {α : Type} {σ : Store} {d : Dur} {k : Key} {as : Cell → Option α} {x0 : α} {c : Cell} {x : α}
    (h : get σ d k = some c) (hx : as c = some x) : loadOr σ d k as x0 = .ok x := by
  unfold loadOr; rw [h]; simp only [hx]

theorem loadOr_none {α : Type} {σ : Store} {d : Dur} {k : Key} {as : Cell → Option α} {x0 : α}
    (h : get σ d k = none) : loadOr σ d k as x0 = .ok x0 := by unfold loadOr; rw [h]

/-- what holds of every entry still holds after a write of such an entry -/
theorem every_set {P : Dur → Key → Prop} {σ : Store} (h : ∀ d k, get σ d k ≠ none → P d k) {d : Dur} {k : Key}
    (v : Cell) (hp : P d k) : ∀ d' k', get (set σ d k v) d' k' ≠ none → P d' k' := by
  intro d' k' hk
  rw [get_set] at hk
  split at hk
  · rename_i he; rw [he.1, he.2]; exact hp
  · exact h d' k' hk

theorem blank_nil : Blank [] := fun _ _ => rfl

section Same
variable {α β γ δ : Type}

theorem Same.ok {R : α → β → Prop} {a : α} {b : β} (h : R a b) : Same R (.ok a) (.ok b) := h

theorem Same.bind_same {R : γ → δ → Prop} {x : Res α} {f : α → Res γ} {g : α → Res δ}
    (h : ∀ a, x = .ok a → Same R (f a) (g a)) : Same R (x >>= f) (x >>= g) := by
  cases x with
  | error e => exact rfl
  | ok a => exact h a rfl

theorem Same.bind {Q : α → β → Prop} {R : γ → δ → Prop} {x : Res α} {y : Res β} {f : α → Res γ} {g : β → Res δ}
    (hq : Same Q x y) (h : ∀ a b, Q a b → Same R (f a) (g b)) : Same R (x >>= f) (y >>= g) := by
  cases x with
  | error e => cases y with
    | error e' => exact hq
    | ok b => exact hq.elim
  | ok a => cases y with
    | error e' => exact hq.elim
    | ok b => exact h a b hq

theorem Same.refl {R : α → α → Prop} (hR : ∀ a, R a a) (x : Res α) : Same R x x := by
  cases x with
  | error e => exact rfl
  | ok a => exact hR a

theorem Same.alike {R : α → β → Prop} {x : Res α} {y : Res β} (h : Same R x y) : Alike R x y := by
  cases x <;> cases y <;> first | trivial | exact h

theorem Same.ite {R : α → β → Prop} {p : Prop} [Decidable p] {x x' : Res α} {y y' : Res β}
    (h1 : p → Same R x y) (h2 : ¬ p → Same R x' y') :
    Same R (if p then x else x') (if p then y else y') := by
  by_cases h : p
  · rw [if_pos h, if_pos h]; exact h1 h
  · rw [if_neg h, if_neg h]; exact h2 h

theorem ok_bind' (a : α) (f : α → Res β) : ((Except.ok a : Res α) >>= f) = f a := rfl

/-- what fails first makes both fail -/
theorem Alike.errors {R : α → β → Prop} {x : Res α} {y : Res β} (h1 : ∀ a, x ≠ .ok a) (h2 : ∀ b, y ≠ .ok b) :
    Alike R x y := by
  cases x with
  | error e => cases y with
    | error e' => trivial
    | ok b => exact absurd rfl (h2 b)
  | ok a => exact absurd rfl (h1 a)

end Same

end Phoenix.Store
