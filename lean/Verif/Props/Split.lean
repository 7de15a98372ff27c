import Verif.Props.PoolSwap
/-!
Property C94: selling an amount in several swaps or in one.
-/
namespace Phoenix.Props.Split
open Phoenix Phoenix.Pool Phoenix.Spec

/-- Swaps of the pool that offer the token `offer`, directly one after the other (other things may
happen to the token balances in between, by whomever): the amounts offered, the sum of what the traders
got, and the pool before and after. -/
inductive Sold (me offer : Addr) : State → List Int → Int → State → Prop
  | nil (p : State) : Sold me offer p [] 0 p
  | cons {c : Ctx} {p p1 p2 : State} {L L1 : Ledger} {sender : Addr} {a ret total : Int} {amounts : List Int}
      {mo ms mf : Option Int} {dl : Option Nat} (hc : c.auth me = false)
      (h : swap me c p L sender offer a mo ms dl mf = .ok (p1, L1, ret))
      (rest : Sold me offer p1 amounts total p2) : Sold me offer p (a :: amounts) (ret + total) p2

/-- what remains in the pool of the asked token -/
def rem (x y a : Int) : Int := x * y / (x + a)

theorem rem_zero {x y : Int} (hx : 0 < x) : rem x y 0 = y := by
  unfold rem; rw [add_zero, Int.mul_ediv_cancel_left _ (by omega)]

theorem rem_two {x y a b : Int} (hx : 0 < x) (ha : 0 ≤ a) (hb : 0 ≤ b) :
    rem (x + a) (rem x y a) b ≤ rem x y (a + b) ∧ rem x y (a + b) ≤ rem (x + a) (rem x y a) b + 1 := by
  unfold rem
  have h1 := ediv_bounds (a := x * y) (b := x + a) (by omega)
  generalize x * y / (x + a) = q at h1 ⊢
  rw [← add_assoc]
  have hpos : 0 < x + a + b := by omega
  refine ⟨Int.ediv_le_ediv hpos h1.1, ?_⟩
  have : x * y ≤ (x + a) * q + 1 * (x + a + b) := by omega
  calc x * y / (x + a + b) ≤ ((x + a) * q + 1 * (x + a + b)) / (x + a + b) := Int.ediv_le_ediv hpos this
    _ = (x + a) * q / (x + a + b) + 1 := Int.add_mul_ediv_right _ _ (by omega)

theorem rem_nonneg {x y a : Int} (hx : 0 < x) (hy : 0 ≤ y) (ha : 0 ≤ a) : 0 ≤ rem x y a := by
  unfold rem; exact Int.ediv_nonneg (by positivity) (by omega)

theorem sum_nonneg' : ∀ {l : List Int}, (∀ a ∈ l, 0 ≤ a) → 0 ≤ l.sum
  | [], _ => by simp
  | a :: l, h => by
    rw [List.sum_cons]
    have := sum_nonneg' (l := l) (fun b hb => h b (by simp [hb]))
    have := h a (by simp)
    omega

/-- commission on a gross amount -/
def fee (rate g : Int) : Int := g * rate / Dec.ONE

theorem fee_add {rate g k : Int} : fee rate g + fee rate k ≤ fee rate (g + k) ∧ fee rate (g + k) ≤ fee rate g + fee rate k + 1 := by
  unfold fee
  have h1 := ediv_bounds (a := g * rate) (b := Dec.ONE) (by decide)
  have h2 := ediv_bounds (a := k * rate) (b := Dec.ONE) (by decide)
  have h3 := ediv_bounds (a := (g + k) * rate) (b := Dec.ONE) (by decide)
  rw [add_mul] at h3 ⊢
  have : Dec.ONE = 1000000000000000000 := by decide
  rw [this] at *
  omega

theorem fee_small {rate k : Int} (h0 : 0 ≤ rate) (h1 : rate ≤ Dec.ONE) (hk : 0 ≤ k) : 0 ≤ fee rate k ∧ fee rate k ≤ k := by
  unfold fee
  have : Dec.ONE = 1000000000000000000 := by decide
  refine ⟨Int.ediv_nonneg (by positivity) (by decide), ?_⟩
  have : k * rate / Dec.ONE ≤ k * Dec.ONE / Dec.ONE := Int.ediv_le_ediv (by decide) (mul_le_mul_of_nonneg_left h1 hk)
  rwa [Int.mul_ediv_cancel _ (by decide)] at this

/-- What a sequence of swaps leaves and pays, in integers. -/
theorem sold_core {me offer : Addr} {p p' : State} {amounts : List Int} {total rate : Int} (s : Sold me offer p amounts total p')
    (hne : p.cfg.tokenA ≠ p.cfg.tokenB) (hr : Dec.bps p.cfg.totalFeeBps = .ok rate) (h0 : 0 ≤ rate) (h1 : rate ≤ Dec.ONE)
    (hamt : amounts ≠ []) :
    (∀ a ∈ amounts, 0 < a) ∧ IsPoolToken p offer ∧ 0 < reserve p offer ∧ 0 ≤ reserve p (other p offer) ∧
    ∃ gross fees : Int, total = gross - fees ∧
      reserve p (other p offer) - rem (reserve p offer) (reserve p (other p offer)) amounts.sum ≤ gross ∧
      gross ≤ reserve p (other p offer) - rem (reserve p offer) (reserve p (other p offer)) amounts.sum + (amounts.length - 1) ∧
      fees ≤ fee rate gross ∧ fee rate gross ≤ fees + (amounts.length - 1) := by
  induction s with
  | nil p => simp at hamt
  | @cons c p p1 p2 L L1 sender a ret total amounts mo ms mf dl hc h rest ih =>
    obtain ⟨rate', lim, r, -, hpos, -, -, hpt, hoth, hrate, -, h9, rfl, -, -, -, -, -, h16, -, -, -, h20, h21⟩ := swap_inv h hc hne
    rw [hr, ok_inj] at hrate
    subst hrate
    obtain ⟨hx, hy, -, -, -, hg0, -, -, hcom, hret, -⟩ := computeSwap_inv h9
    have ho : other p1 offer = other p offer := by unfold other; rw [h16]
    set x := reserve p offer with hxdef
    set y := reserve p (other p offer) with hydef
    have e1 : reserve p1 (other p1 offer) = rem x y a := by rw [ho, h21]; unfold rem; omega
    have e0 : reserve p1 offer = x + a := h20
    by_cases hnil : amounts = []
    · subst hnil
      cases rest
      refine ⟨by simpa using hpos, hpt, hx, hy, y - rem x y a, fee rate (y - rem x y a), ?_, ?_⟩
      · rw [hret, hcom]; unfold rem fee; ring
      · simp
    · obtain ⟨i1, i2, i3, i4, gross, fees, i5, i6, i7, i8, i9⟩ := ih (by rw [h16]; exact hne) (by rw [h16]; exact hr) hnil
      rw [e0, e1] at i6 i7
      have hsum : 0 ≤ amounts.sum := sum_nonneg' (fun a ha => (i1 a ha).le)
      obtain ⟨t1, t2⟩ := rem_two (y := y) hx hpos.le hsum
      obtain ⟨f1, f2⟩ := fee_add (rate := rate) (g := y - rem x y a) (k := gross)
      refine ⟨?_, hpt, hx, hy, (y - rem x y a) + gross, fee rate (y - rem x y a) + fees, ?_, ?_, ?_, ?_, ?_⟩
      · intro b hb
        rcases List.mem_cons.mp hb with rfl | hb
        · exact hpos
        · exact i1 b hb
      · rw [i5, hret, hcom]; unfold rem fee; ring
      · rw [List.sum_cons]; omega
      · rw [List.sum_cons, List.length_cons]; push_cast; omega
      · omega
      · rw [List.length_cons]; push_cast; omega

/-- **C94** Selling an amount in `n` swaps instead of one never brings less, and at most 2 units more
for each additional swap (rounding), whoever makes the swaps and whatever limits they set. -/
theorem C94_split_sale {me offer : Addr} {p p' : State} {amounts : List Int} {total ask com sp tot : Int}
    (s : Sold me offer p amounts total p') (hne : p.cfg.tokenA ≠ p.cfg.tokenB)
    (hfee : 0 ≤ p.cfg.totalFeeBps ∧ p.cfg.totalFeeBps ≤ 10000) (hn : amounts ≠ [])
    (one : simulateSwap p offer amounts.sum = .ok (ask, com, sp, tot)) :
    ask ≤ total ∧ total ≤ ask + 2 * (amounts.length - 1) := by
  unfold simulateSwap at one
  simp only [bind_ok, ok_inj, Prod.mk.injEq, Prod.exists] at one
  obtain ⟨x, y, hxy, rate, hr, r, hcs, _, -, _, -, rfl, rfl, -, -⟩ := one
  have hrate : rate = p.cfg.totalFeeBps * 100000000000000 := ((Dec.bps_ok).mp hr).2.symm
  have hone : Dec.ONE = 1000000000000000000 := by decide
  obtain ⟨hpos, hpt, hx, hy, gross, fees, k1, k2, k3, k4, k5⟩ := sold_core s hne hr (by omega) (by omega) hn
  obtain ⟨-, ex, ey, -⟩ := sides_inv hxy hne
  subst ex ey
  obtain ⟨-, -, -, -, -, hg0, -, -, hcom, hret, -⟩ := computeSwap_inv hcs
  have hlen : 0 < amounts.length := List.length_pos_iff.mpr hn
  have hg : reserve p (other p offer) - reserve p offer * reserve p (other p offer) / (reserve p offer + amounts.sum)
      = reserve p (other p offer) - rem (reserve p offer) (reserve p (other p offer)) amounts.sum := rfl
  simp only [hg] at hcom hret
  generalize reserve p (other p offer) - rem (reserve p offer) (reserve p (other p offer)) amounts.sum = g at *
  have hcom : r.commission = fee rate g := hcom
  obtain ⟨f1, f2⟩ := fee_add (rate := rate) (g := g) (k := gross - g)
  obtain ⟨f3, f4⟩ := fee_small (rate := rate) (k := gross - g) (by omega) (by omega) (by omega)
  obtain ⟨f5, f6⟩ := fee_add (rate := rate) (g := g) (k := 0)
  rw [show g + (gross - g) = gross by ring] at f1 f2
  constructor
  · -- fees ≤ fee gross ≤ fee g + (gross - g)
    have : fee rate gross ≤ fee rate g + (gross - g) := by
      unfold fee
      have e : gross * rate ≤ g * rate + (gross - g) * Dec.ONE := by nlinarith
      calc gross * rate / Dec.ONE ≤ (g * rate + (gross - g) * Dec.ONE) / Dec.ONE := Int.ediv_le_ediv (by decide) e
        _ = g * rate / Dec.ONE + (gross - g) := Int.add_mul_ediv_right _ _ (by decide)
    omega
  · omega

/-- **C94** Both bounds are attained: in a pool with 1000000 and 2000000 units two swaps of 1000 bring 3984,
one swap of 2000 brings 3982; and one swap brings what it announces. -/
theorem C94_bounds_sharp : ∃ p' p'' : State, Sold 100 10 exPool [1000, 1000] (1994 + (1990 + 0)) p' ∧ simulateSwap exPool 10 2000 = .ok (3982, 11, 7, 4000) ∧
    Sold 100 10 exPool [2000] (3982 + 0) p'' :=
  ⟨_, _, .cons (c := exSign) (L := exLed) (sender := 1) (mo := none) (ms := none) (mf := none) (dl := none) rfl rfl
    (.cons (c := exSign) (L := exLed) (sender := 1) (mo := none) (ms := none) (mf := none) (dl := none) (ret := 1990) rfl rfl (.nil _)), rfl,
    .cons (c := exSign) (L := exLed) (sender := 1) (mo := none) (ms := none) (mf := none) (dl := none) (ret := 3982) rfl rfl (.nil _)⟩

/-- The hypotheses of C94 are met by that pool (`C94_bounds_sharp` gives the two sales). -/
example : exPool.cfg.tokenA ≠ exPool.cfg.tokenB ∧ 0 ≤ exPool.cfg.totalFeeBps ∧ exPool.cfg.totalFeeBps ≤ 10000 := by decide

end Phoenix.Props.Split
