import Verif.Lemmas.StakeLive
import Verif.Props.PoolLp
/-! Helpers: when the token calls of a withdrawal succeed. -/
namespace Phoenix
open Phoenix Ledger
open Phoenix.Spec (Settles SameRights Flow Issues)

theorem burn_works {c : Ctx} {L : Ledger} {t src : Addr} {x : Int} (h1 : c.auth src = true) (h2 : 0 ≤ x)
    (h3 : x ≤ L.bal t src) (hs : L.bal t src ≤ I128_MAX) : ∃ L', L.burn c t src x = .ok L' := by
  refine ⟨_, Ledger.call_ok.mpr ⟨_, Token.burn_ok.mpr ⟨h1, h2, h3, ?_, rfl⟩, rfl⟩⟩
  simp only [InI128, I128_MIN]; simp only [Ledger.bal] at *; omega

/-- Shares go to the pool and are burned there, both tokens go to the sender. -/
theorem payout_works {me : Addr} {c : Ctx} {L : Ledger} {sender A B S : Addr} {sh ra rb : Int}
    (hAB : A ≠ B) (hSA : S ≠ A) (hSB : S ≠ B) (hne : sender ≠ me) (hau : c.signed sender = true)
    (hn : ∀ t a, 0 ≤ L.bal t a) (hfit : ∀ t a, L.bal t a ≤ I128_MAX)
    (h1 : 0 ≤ sh) (h2 : sh ≤ L.bal S sender) (h3 : L.bal S me + sh ≤ I128_MAX)
    (a0 : 0 ≤ ra) (ha : ra ≤ L.bal A me) (ha' : L.bal A sender + ra ≤ I128_MAX)
    (b0 : 0 ≤ rb) (hb : rb ≤ L.bal B me) (hb' : L.bal B sender + rb ≤ I128_MAX) :
    ∃ L1 L2 L3 L4, L.transfer (c.as me) S sender me sh = .ok L1 ∧ L1.burn (c.as me) S me sh = .ok L2 ∧
      L2.transfer (c.as me) A me sender ra = .ok L3 ∧ L3.transfer (c.as me) B me sender rb = .ok L4 := by
  obtain ⟨L1, e1⟩ := Stake.transfer_works (c := c.as me) (L := L) (t := S) (src := sender) (d := me) (x := sh)
    (as_auth.mpr (.inl hau)) h1 h2 (hfit _ _) (Ne.symm hne) (hn _ _) h3
  have t1 := (transfer_inv e1).2.2.2.1
  have b1 : L1.bal S me = L.bal S me + sh := by rw [t1]; simp [Flow.delta, hne]
  obtain ⟨L2, e2⟩ := burn_works (c := c.as me) (L := L1) (t := S) (src := me) (x := sh) (as_auth_self c me) h1
    (by rw [b1]; have := hn S me; omega) (by rw [b1]; exact h3)
  have t2 := (burn_inv e2).2.2.2.1
  have k2 : ∀ t a, t ≠ S → L2.bal t a = L.bal t a := by
    intro t a ht
    rw [t2, t1]; simp [Flow.delta, Ne.symm ht]
  obtain ⟨L3, e3⟩ := Stake.transfer_works (c := c.as me) (L := L2) (t := A) (src := me) (d := sender) (x := ra)
    (as_auth_self c me) a0 (by rw [k2 _ _ (Ne.symm hSA)]; exact ha) (by rw [k2 _ _ (Ne.symm hSA)]; exact hfit _ _) hne
    (by rw [k2 _ _ (Ne.symm hSA)]; exact hn _ _) (by rw [k2 _ _ (Ne.symm hSA)]; exact ha')
  have t3 := (transfer_inv e3).2.2.2.1
  have k3 : ∀ a, L3.bal B a = L.bal B a := by
    intro a
    rw [t3, k2 _ _ (Ne.symm hSB)]; simp [Flow.delta, hAB]
  obtain ⟨L4, e4⟩ := Stake.transfer_works (c := c.as me) (L := L3) (t := B) (src := me) (d := sender) (x := rb)
    (as_auth_self c me) b0 (by rw [k3]; exact hb) (by rw [k3]; exact hfit _ _) hne
    (by rw [k3]; exact hn _ _) (by rw [k3]; exact hb')
  exact ⟨L1, L2, L3, L4, e1, e2, e3, e4⟩

/-- The pro-rata computation does not overflow for amounts below 1.7·10^20 units. -/
theorem ratio_works {x sh T : Int} (hx : 0 ≤ x) (hs : 0 ≤ sh) (hsT : sh ≤ T) (hT : 0 < T)
    (kx : x ≤ 170141183460469231731) (ks : sh ≤ 170141183460469231731) :
    ∃ r, Dec.fromRatio sh T = .ok r ∧ 0 ≤ r ∧ r ≤ Dec.ONE ∧ ∃ y, Dec.mulInt x r = .ok y := by
  have hD : (0:Int) < Dec.ONE := by decide
  have hone : Dec.ONE = 1000000000000000000 := by decide
  have e : (sh * Dec.ONE).tdiv T = sh * Dec.ONE / T := tdiv_nonneg_eq (by positivity)
  have r0 : 0 ≤ sh * Dec.ONE / T := Int.ediv_nonneg (by positivity) hT.le
  have r1 : sh * Dec.ONE / T ≤ Dec.ONE := by
    apply Int.ediv_le_of_le_mul hT
    nlinarith
  refine ⟨sh * Dec.ONE / T, Dec.fromRatio_ok.mpr ⟨by omega, ?_, ?_, e⟩, r0, r1, ?_⟩
  · simp only [InI128, I128_MIN, I128_MAX, hone] at *; omega
  · rw [e]; simp only [InI128, I128_MIN, I128_MAX]; rw [hone] at r1; rw [hone] at *; omega
  · generalize sh * Dec.ONE / T = r at r0 r1
    have p0 : 0 ≤ x * r := by positivity
    have p1 : x * r ≤ 170141183460469231731 * Dec.ONE := by nlinarith
    unfold Dec.mulInt
    split
    · exact ⟨_, rfl⟩
    · have q0 : 0 ≤ x * r / Dec.ONE := Int.ediv_nonneg p0 hD.le
      have q1 : x * r / Dec.ONE ≤ x * r := Int.ediv_le_self _ p0
      refine ⟨_, bind_ok.mpr ⟨x * r, mulI_ok.mpr ⟨?_, rfl⟩, divI_ok.mpr ⟨by decide, ?_, rfl⟩⟩⟩
      · simp only [InI128, I128_MIN, I128_MAX]; rw [hone] at p1; omega
      · rw [tdiv_nonneg_eq p0]
        simp only [InI128, I128_MIN, I128_MAX]; rw [hone] at p1; omega

end Phoenix
