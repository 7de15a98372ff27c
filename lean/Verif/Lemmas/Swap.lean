import Verif.Lemmas.Basic
import Verif.Model.Pool
/-! Inversion of `computeSwap` into integer arithmetic (helpers only). -/
namespace Phoenix.Pool
open Phoenix

theorem u256ToI128_ok {x : Nat} {y : Int} :
    u256ToI128 x = .ok y ↔ (x : Int) ≤ I128_MAX ∧ (x : Int) = y := by
  unfold u256ToI128; split <;> simp [*]

/-- The integers computed by `compute_swap` with no referral. -/
theorem computeSwap_inv {x y a rate : Int} {r : ComputeSwap}
    (h : computeSwap x y a rate 0 = .ok r) :
    0 < x ∧ 0 ≤ y ∧ 0 ≤ a ∧ 0 ≤ rate ∧ r.referral = 0 ∧
    (let g := y - x * y / (x + a)
     0 ≤ g ∧ r.spread = a * y / x - g ∧ 0 ≤ r.spread ∧ r.commission = g * rate / Dec.ONE ∧
     r.ret = g - r.commission ∧ 0 ≤ r.commission ∧ 0 ≤ r.ret ∧
     r.ret ≤ I128_MAX ∧ r.commission ≤ I128_MAX ∧ r.spread ≤ I128_MAX) := by
  unfold computeSwap at h
  simp only [bind_ok, toU128_ok, mul256_ok, add256_ok, divU_ok, subU_ok, Dec.bps_ok, u256ToI128_ok,
    ok_inj] at h
  obtain ⟨op, hop, ap, hap, oa, hoa, cr, hcr, _, ⟨-, rfl⟩, _, ⟨-, rfl⟩, q, ⟨hq0, rfl⟩, g, ⟨hg, rfl⟩,
    _, ⟨-, rfl⟩, id, ⟨hx, rfl⟩, sp, ⟨hsp, rfl⟩, _, ⟨-, rfl⟩, com, ⟨-, rfl⟩, net, ⟨hnet, rfl⟩,
    _, ⟨-, rfl⟩, rf, hrf, _, ⟨-, rfl⟩, ref, ⟨-, rfl⟩, n2, ⟨hn2, rfl⟩, ret, ⟨hret, rfl⟩,
    spI, ⟨hspI, rfl⟩, comI, ⟨hcomI, rfl⟩, refI, ⟨hrefI, rfl⟩, rfl⟩ := h
  have hrf0 : rf = 0 := by simpa using hrf
  subst hop hap hoa hcr hrf0
  simp only [Nat.mul_zero, Nat.zero_div, Nat.sub_zero] at *
  have e1 : ((ap - op * ap / (op + oa) : Nat) : Int) = (ap : Int) - op * ap / (op + oa) := by
    push_cast [Nat.cast_sub hg]; ring
  have e2 : ((oa * ap / op - (ap - op * ap / (op + oa)) : Nat) : Int)
      = (oa : Int) * ap / op - ((ap : Int) - op * ap / (op + oa)) := by
    rw [Nat.cast_sub hsp, e1]; push_cast; ring
  have e3 : (((ap - op * ap / (op + oa)) * cr / 1000000000000000000 : Nat) : Int)
      = ((ap : Int) - op * ap / (op + oa)) * cr / Dec.ONE := by
    rw [Int.natCast_ediv, Nat.cast_mul, e1]; rfl
  have e4 : ((ap - op * ap / (op + oa) - (ap - op * ap / (op + oa)) * cr / 1000000000000000000 : Nat) : Int)
      = ((ap : Int) - op * ap / (op + oa)) -
        ((ap : Int) - op * ap / (op + oa)) * cr / Dec.ONE := by
    rw [Nat.cast_sub hnet, e3, e1]
  refine ⟨by omega, by omega, by omega, by omega, rfl, ?_⟩
  refine ⟨?_, e2, ?_, e3, ?_, ?_, ?_, hret, hcomI, hspI⟩
  · rw [← e1]; exact Int.natCast_nonneg _
  · exact Int.natCast_nonneg _
  · rw [e4, e3]
  · exact Int.natCast_nonneg _
  · exact Int.natCast_nonneg _

end Phoenix.Pool
