import Verif.Model.Arith
import Verif.Model.Decimal
import Mathlib.Tactic.Linarith
import Mathlib.Tactic.Ring
import Mathlib.Algebra.Order.Ring.Int
/-! Inversion lemmas for the failure monad and checked arithmetic (helpers only). -/
namespace Phoenix

theorem bind_ok {α β : Type} {x : Res α} {f : α → Res β} {b : β} :
    (x >>= f) = .ok b ↔ ∃ a, x = .ok a ∧ f a = .ok b := by
  cases x with
  | error e => simp [bind, Except.bind]
  | ok a => simp [bind, Except.bind]

theorem ok_inj {α : Type} {a b : α} : (Except.ok a : Res α) = .ok b ↔ a = b := by
  constructor
  · intro h; cases h; rfl
  · rintro rfl; rfl

theorem error_ne_ok {α : Type} {e : Err} {a : α} : (Except.error e : Res α) = .ok a ↔ False := by
  simp

theorem pure_ok {α : Type} {a b : α} : (pure a : Res α) = .ok b ↔ a = b := ok_inj

theorem req_ok {c : Prop} [Decidable c] {e : Err} {u : Unit} : req c e = .ok u ↔ c := by
  unfold req; split <;> simp [*]

/-- Evaluate a call and a test of its result (for concrete examples). -/
def okAnd {α : Type} (x : Res α) (P : α → Bool) : Bool :=
  match x with
  | .ok a => P a
  | .error _ => false

theorem exists_of_okAnd {α : Type} {x : Res α} {P : α → Bool} (h : okAnd x P = true) :
    ∃ a, x = .ok a ∧ P a = true := by
  cases x with
  | ok a => exact ⟨a, rfl, h⟩
  | error e => simp [okAnd] at h

/-- Evaluate a call that fails (for concrete examples). -/
def failsWith {α : Type} (x : Res α) (e : Err) : Bool :=
  match x with
  | .ok _ => false
  | .error e' => e' == e

theorem eq_of_failsWith {α : Type} {x : Res α} {e : Err} (h : failsWith x e = true) : x = .error e := by
  cases x with
  | ok a => simp [failsWith] at h
  | error e' => simp [failsWith] at h; rw [h]

theorem tdiv_nonpos' {a b : Int} (ha : a ≤ 0) (hb : 0 ≤ b) : a.tdiv b ≤ 0 := by
  have h : 0 ≤ (-a).tdiv b := Int.tdiv_nonneg (by omega) hb
  rw [Int.neg_tdiv] at h; omega

theorem whenSome_ok {α : Type} {o : Option α} {f : α → Res Unit} {u : Unit} :
    whenSome o f = .ok u ↔ ∀ x, o = some x → f x = .ok () := by
  cases o <;> simp [whenSome]

theorem i128_ok {x y : Int} : i128 x = .ok y ↔ InI128 x ∧ x = y := by
  unfold i128; split <;> simp [*]
theorem addI_ok {a b y : Int} : addI a b = .ok y ↔ InI128 (a + b) ∧ a + b = y := i128_ok
theorem subI_ok {a b y : Int} : subI a b = .ok y ↔ InI128 (a - b) ∧ a - b = y := i128_ok
theorem mulI_ok {a b y : Int} : mulI a b = .ok y ↔ InI128 (a * b) ∧ a * b = y := i128_ok
theorem divI_ok {a b y : Int} :
    divI a b = .ok y ↔ b ≠ 0 ∧ InI128 (a.tdiv b) ∧ a.tdiv b = y := by
  unfold divI; split <;> simp [*, i128_ok]

theorem u64_ok {x y : Nat} : u64 x = .ok y ↔ x < U64_LIM ∧ x = y := by
  unfold u64; split <;> simp [*]
theorem u128_ok {x y : Nat} : u128 x = .ok y ↔ x < U128_LIM ∧ x = y := by
  unfold u128; split <;> simp [*]
theorem u256_ok {x y : Nat} : u256 x = .ok y ↔ x < U256_LIM ∧ x = y := by
  unfold u256; split <;> simp [*]
theorem subU_ok {a b y : Nat} : subU a b = .ok y ↔ b ≤ a ∧ a - b = y := by
  unfold subU; split <;> simp [*]
theorem divU_ok {a b y : Nat} : divU a b = .ok y ↔ b ≠ 0 ∧ a / b = y := by
  unfold divU; split <;> simp [*]
theorem add64_ok {a b y : Nat} : add64 a b = .ok y ↔ a + b < U64_LIM ∧ a + b = y := u64_ok
theorem mul64_ok {a b y : Nat} : mul64 a b = .ok y ↔ a * b < U64_LIM ∧ a * b = y := u64_ok
theorem add128_ok {a b y : Nat} : add128 a b = .ok y ↔ a + b < U128_LIM ∧ a + b = y := u128_ok
theorem mul128_ok {a b y : Nat} : mul128 a b = .ok y ↔ a * b < U128_LIM ∧ a * b = y := u128_ok
theorem add256_ok {a b y : Nat} : add256 a b = .ok y ↔ a + b < U256_LIM ∧ a + b = y := u256_ok
theorem mul256_ok {a b y : Nat} : mul256 a b = .ok y ↔ a * b < U256_LIM ∧ a * b = y := u256_ok

theorem toU128_ok {x : Int} {n : Nat} : toU128 x = .ok n ↔ (n : Int) = x := by
  unfold toU128; split
  · simp; omega
  · rw [ok_inj]; omega
theorem toI128_ok {x : Nat} {y : Int} : toI128 x = .ok y ↔ (x : Int) ≤ I128_MAX ∧ (x : Int) = y := by
  unfold toI128; split
  · simp; omega
  · rw [ok_inj]; constructor
    · intro h; exact ⟨by omega, h⟩
    · exact fun h => h.2

theorem validatePos_some {x : Int} {u : Unit} : validatePos (some x) = .ok u ↔ 0 < x := req_ok
theorem validatePos_ok {v : Option Int} {u : Unit} :
    validatePos v = .ok u ↔ ∀ x, v = some x → 0 < x := by
  cases v with
  | none => simp [validatePos, whenSome]
  | some x => simp [validatePos, whenSome, req_ok]
theorem validateBps_ok {x : Int} {u : Unit} : validateBps x = .ok u ↔ 0 ≤ x ∧ x ≤ 10000 := req_ok
theorem validateBpsOpt_ok {v : Option Int} {u : Unit} :
    validateBpsOpt v = .ok u ↔ ∀ x, v = some x → 0 ≤ x ∧ x ≤ 10000 := by
  cases v with
  | none => simp [validateBpsOpt, whenSome]
  | some x => simp [validateBpsOpt, whenSome, validateBps_ok]
theorem requireAuth_ok {c : Ctx} {a : Addr} {u : Unit} :
    requireAuth c a = .ok u ↔ c.auth a = true := req_ok

theorem upd_same {α : Type} (f : Addr → α) (a : Addr) (v : α) : upd f a v a = v := by simp [upd]
theorem upd_ne {α : Type} (f : Addr → α) {a b : Addr} (v : α) (h : b ≠ a) : upd f a v b = f b := by
  simp [upd, h]
theorem upd_apply {α : Type} (f : Addr → α) (a b : Addr) (v : α) :
    upd f a v b = if b = a then v else f b := rfl

theorem upd2_apply {α : Type} (f : Addr → Addr → α) (o s o' s' : Addr) (v : α) :
    upd f o (upd (f o) s v) o' s' = if o' = o ∧ s' = s then v else f o' s' := by
  unfold upd
  by_cases ho : o' = o
  · subst ho; by_cases hs : s' = s <;> simp [hs]
  · simp [ho]

theorem I128_MAX_nonneg : (0 : Int) ≤ I128_MAX := by decide

theorem as_auth_self (c : Ctx) (self : Addr) : (c.as self).auth self = true := by simp [Ctx.as, Ctx.auth]
theorem as_auth {c : Ctx} {self a : Addr} : (c.as self).auth a = true ↔ c.signed a = true ∨ a = self := by
  simp only [Ctx.as, Ctx.auth, Bool.or_eq_true, beq_iff_eq, Option.some.injEq]
  exact or_congr Iff.rfl ⟨Eq.symm, Eq.symm⟩
theorem auth_of_signed {c : Ctx} {a : Addr} (h : c.signed a = true) : c.auth a = true := by simp [Ctx.auth, h]
/-- In a call made by `self` nobody is authorised but `self` and the signers. -/
theorem as_auth_imp {c : Ctx} {self a : Addr} (h : (c.as self).auth a = true) : c.auth a = true ∨ a = self := by
  rcases as_auth.mp h with h | h
  · exact .inl (by simp [Ctx.auth, h])
  · exact .inr h
theorem as_auth_false {c : Ctx} {self a : Addr} (h : c.auth a = false) (hne : a ≠ self) : (c.as self).auth a = false := by
  simp only [Ctx.auth, Bool.or_eq_false_iff] at h
  simp [Ctx.as, Ctx.auth, h.1, Ne.symm hne]

namespace Dec

theorem bps_ok {x y : Int} : bps x = .ok y ↔ InI128 (x * 100000000000000) ∧ x * 100000000000000 = y :=
  mulI_ok

theorem fromRatio_ok {n d y : Int} : fromRatio n d = .ok y ↔
    d ≠ 0 ∧ InI128 (n * ONE) ∧ InI128 ((n * ONE).tdiv d) ∧ (n * ONE).tdiv d = y := by
  unfold fromRatio
  simp only [bind_ok, req_ok, mulI_ok, divI_ok]
  constructor
  · rintro ⟨_, h1, _, ⟨h2, rfl⟩, h3, h4, h5⟩; exact ⟨h1, h2, h4, h5⟩
  · rintro ⟨h1, h2, h3, h4⟩; exact ⟨(), h1, _, ⟨h2, rfl⟩, h1, h3, h4⟩

/-- On success `i128 * Decimal` is `trunc(x*d/10^18)`. -/
theorem mulInt_val {x d y : Int} (h : mulInt x d = .ok y) : y = (x * d).tdiv ONE := by
  unfold mulInt at h
  split at h
  · rename_i hz
    rw [ok_inj] at h; subst h
    rcases hz with rfl | rfl <;> simp
  · simp only [bind_ok, mulI_ok, divI_ok] at h
    obtain ⟨_, ⟨_, rfl⟩, _, _, h⟩ := h
    exact h.symm

theorem mul_ok {a b y : Int} : mul a b = .ok y ↔
    InI128 (a * b) ∧ InI128 ((a * b).tdiv ONE) ∧ (a * b).tdiv ONE = y := by
  unfold mul
  simp only [bind_ok, mulI_ok, divI_ok]
  constructor
  · rintro ⟨_, ⟨h1, rfl⟩, _, h2, h3⟩; exact ⟨h1, h2, h3⟩
  · rintro ⟨h1, h2, h3⟩; exact ⟨_, ⟨h1, rfl⟩, by decide, h2, h3⟩

end Dec

/-! Truncated division of non-negative numbers as a floor. -/

theorem tdiv_nonneg_eq {a b : Int} (ha : 0 ≤ a) : a.tdiv b = a / b := Int.tdiv_eq_ediv_of_nonneg ha

/-- `q = a / b` for `b > 0` characterised by two inequalities. -/
theorem ediv_bounds {a b : Int} (hb : 0 < b) : b * (a / b) ≤ a ∧ a < b * (a / b) + b :=
  ⟨Int.mul_ediv_self_le hb.ne', Int.lt_mul_ediv_self_add hb⟩

end Phoenix
