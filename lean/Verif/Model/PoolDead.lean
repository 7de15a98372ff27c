import Verif.Model.Pool
/-
Model of two helpers of contracts/pool that no entry point calls (`#[allow(dead_code)]`):
`split_deposit_based_on_pool_ratio` and `assert_slippage_tolerance`,
contracts/pool/src/contract.rs:976-1107.
-/
namespace Phoenix.Pool
open Phoenix

/-- `is_approx_ratio`, packages/phoenix/src/utils.rs:36-39. -/
def isApproxRatio (a b tolerance : Int) : Res Bool := do
  let d ← Dec.sub a b
  let x ← Dec.abs d
  .ok (decide (x ≤ tolerance))

/-- The ratio (token B per token A) of what is left of the deposit and what the swap brings,
contracts/pool/src/contract.rs:1029-1033. -/
def splitRatio (p : State) (offer : Addr) (deposit mid ask : Int) : Res Int := do
  let rest ← subI deposit mid
  if offer = p.cfg.tokenA then Dec.fromRatio ask rest else Dec.fromRatio rest ask

theorem mid_between {low high : Int} (h : ¬ high - low ≤ 500) : low < (low + high).tdiv 2 ∧ (low + high).tdiv 2 < high := by
  rcases Int.le_total 0 (low + high) with k | k
  · rw [Int.tdiv_eq_ediv_of_nonneg k]; omega
  · have : (low + high).tdiv 2 = - ((-(low + high)) / 2) := by
      rw [← Int.tdiv_eq_ediv_of_nonneg (by omega), Int.neg_tdiv, Int.neg_neg]
    rw [this]; omega

/-- The binary search, contracts/pool/src/contract.rs:1010-1051.  (`low + high` is the only addition
that can overflow.) -/
def splitLoop (p : State) (offer : Addr) (deposit target : Int) (low high fo fa : Int) : Res (Int × Int) :=
  if h : high - low ≤ 500 then .ok (fo, fa)
  else do
    let _ ← addI low high
    let (ask, _, _, _) ← simulateSwap p offer ((low + high).tdiv 2)
    let ratio ← splitRatio p offer deposit ((low + high).tdiv 2) ask
    let close ← isApproxRatio ratio target 10000000000000000
    if close = true then .ok ((low + high).tdiv 2, ask)
    else if (ratio > target) ↔ (offer = p.cfg.tokenA) then
      splitLoop p offer deposit target low ((low + high).tdiv 2) ((low + high).tdiv 2) ask
    else
      splitLoop p offer deposit target ((low + high).tdiv 2) high ((low + high).tdiv 2) ask
termination_by (high - low).toNat
decreasing_by
  all_goals
    have := mid_between h
    omega

/-- `split_deposit_based_on_pool_ratio`, contracts/pool/src/contract.rs:976-1053.  `a` and `b` are
passed in beside the stored reserves, which the simulated swaps use. -/
def splitDeposit (p : State) (a b deposit : Int) (offer : Addr) : Res (Int × Int) := do
  req (offer = p.cfg.tokenA ∨ offer = p.cfg.tokenB) (.code 16)
  req (0 < a ∧ 0 < b ∧ 0 < deposit) (.code 5)
  let target ← Dec.fromRatio b a
  splitLoop p offer deposit target 0 deposit deposit 0

/-- The slippage tolerance in use, contracts/pool/src/contract.rs:1071-1079: 1% unless given. -/
def toleranceOf (tolerance : Option Int) : Res Int :=
  match tolerance with
  | some t => Dec.bps t
  | none => Dec.percent 1

/-- `assert_slippage_tolerance`, contracts/pool/src/contract.rs:1064-1107.  (`||` is evaluated
without short cut here: if the first comparison holds both ways fail.) -/
def assertSlippage (tolerance : Option Int) (d0 d1 p0 p1 maxSlippage : Int) : Res Unit := do
  let tol ← toleranceOf tolerance
  req (tol ≤ maxSlippage) (.code 20)
  let keep ← Dec.sub Dec.ONE tol
  let x ← mulI d0 p1
  let xk ← Dec.mulInt x keep
  let y ← mulI d1 p0
  let y1 ← Dec.mulInt y Dec.ONE
  req (xk ≤ y1) (.code 20)
  let yk ← Dec.mulInt y keep
  let x1 ← Dec.mulInt x Dec.ONE
  req (yk ≤ x1) (.code 20)

end Phoenix.Pool
