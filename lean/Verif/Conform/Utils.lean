import Verif.Model.World
import Verif.Model.PoolDead
import Verif.Lemmas.Basic
/-
Further unit tests of the repository, replayed on the model: packages/phoenix/src/utils.rs, contracts/vesting/src/utils.rs,
contracts/multihop/src/utils.rs, `remove_stake` of contracts/stake/src/contract.rs, the checks of contracts/factory/src/contract.rs.  These are tests of the model, not proofs of properties.
-/
namespace Phoenix.Conform.Utils
open Phoenix

def passes {α} (r : Res α) : Bool := okAnd r (fun _ => true)

/-! packages/phoenix/src/utils.rs -/

/-- `validate_int_parameters!` -/
def ints (l : List (Option Int)) : Res Unit := l.forM validatePos
/-- `validate_bps!` -/
def bpss (l : List Int) : Res Unit := l.forM validateBps

/-- `test_validate_int_parameters` and the five `should_panic_when_...` -/
example : (passes (ints [some 1, some 2, some 3]) && passes (ints [some 1, some 1, some 1]) &&
    passes (ints [some 1, some 2, some 3, some 4, none]) && passes (ints [none, none]) && passes (ints [some 1, none]) &&
    failsWith (ints [some 1, some (-2), some 3]) .panic && failsWith (ints [some 0, some 1, some 3]) .panic &&
    failsWith (ints [some 1, some 1, some 0]) .panic && failsWith (ints [some 0, none]) .panic &&
    failsWith (ints [some (-1), none]) .panic) = true := by decide +kernel
/-- `validate_bps_below_min`, `validate_bps_above_max`, `bps_valid_range` -/
example : (failsWith (bpss [-1, 300, 5000, 8534]) .panic && failsWith (bpss [100, 10001, 313134, 348]) .panic &&
    passes (bpss [0, 5000, 7500, 10000])) = true := by decide +kernel
/-- `should_successfully_convert_u128_to_i128`, `should_panic_when_value_bigger_than_i128` -/
example : (okAnd (toI128 10) (fun x => decide (x = 10)) && failsWith (toI128 (2 ^ 127 - 1 + 1)) .panic) = true := by decide +kernel

/-- `is_approx_ratio(from_ratio(a, b), from_ratio(100, 100), percent(3))` -/
def close (b : Int) : Res Bool := do
  Pool.isApproxRatio (← Dec.fromRatio 100 b) (← Dec.fromRatio 100 100) (← Dec.percent 3)
/-- `test_assert_approx_ratio_close_values`, `..._equal_values`, `..._outside_tolerance` -/
example : (okAnd (close 101) id && okAnd (close 100) id && okAnd (close 104) (!·)) = true := by decide +kernel

/-! contracts/vesting/src/utils.rs -/

/-- `check_duplications_works`, `check_duplications_should_panic` -/
example : (passes (Vesting.checkDup [] [(1, .constant 1), (2, .constant 1), (3, .constant 1)]) &&
    failsWith (Vesting.checkDup [] [(1, .constant 1), (2, .constant 1), (1, .constant 1)]) (.code 19)) = true := by decide +kernel
/-- `validate_saturating_linear_vesting`, `validate_piecewise_linear_vesting`,
`saturating_linear_schedule_fails_when_not_fully_vested`, `piecewise_linear_schedule_fails_when_not_fully_vested` -/
example : (okAnd (Vesting.validateSchedule (.sl 15 120 60 0)) (fun x => decide (x = 120)) &&
    okAnd (Vesting.validateSchedule (.pl [⟨60, 150⟩, ⟨120, 0⟩])) (fun x => decide (x = 150)) &&
    failsWith (Vesting.validateSchedule (.sl 15 120 60 1)) (.code 14) &&
    failsWith (Vesting.validateSchedule (.pl [⟨60, 120⟩, ⟨120, 10⟩])) (.code 14)) = true := by decide +kernel

/-! contracts/multihop/src/utils.rs -/

/-- the four `verify_operations_...` -/
example : (passes (Multihop.verifySwap [⟨2, 1, none⟩, ⟨3, 2, none⟩, ⟨4, 3, none⟩]) &&
    passes (Multihop.verifyReverseSwap [⟨4, 3, none⟩, ⟨3, 2, none⟩, ⟨2, 1, none⟩]) &&
    failsWith (Multihop.verifySwap [⟨2, 1, none⟩, ⟨4, 3, none⟩]) (.code 3) &&
    failsWith (Multihop.verifyReverseSwap [⟨2, 1, none⟩, ⟨4, 3, none⟩]) (.code 3)) = true := by decide +kernel

/-! contracts/stake/src/contract.rs -/

/-- `test_remove_stake_success`, `test_remove_stake_not_found_case1`, `..._case2`, `..._case3` -/
example :
    let l : List Stake.Entry := [⟨100, 1⟩, ⟨200, 2⟩, ⟨150, 3⟩]
    (okAnd (Stake.removeStake 200 2 l) (fun x => decide (x = [⟨100, 1⟩, ⟨150, 3⟩])) &&
      failsWith (Stake.removeStake 100 2 l) (.code 8) && failsWith (Stake.removeStake 150 1 l) (.code 8) &&
      failsWith (Stake.removeStake 200 1 l) (.code 8)) = true := by decide +kernel

/-! contracts/factory/src/contract.rs -/

/-- `validate_token_info_should_fail_on_...`: token order, minimum bond, minimum reward -/
def tinfo (a b : Addr) (bond reward : Int) : Res Unit :=
  World.validateTokenInfo ⟨9, 0, 7, 0, 0, 0, 0, a, b, bond, reward, 6, 10⟩
example : (!passes (tinfo 2 1 10 10) && !passes (tinfo 1 2 0 10) && !passes (tinfo 1 2 10 0) && passes (tinfo 1 2 10 10)) = true := by decide +kernel

/-- `validate_pool_info_works`, `validate_pool_info_panics` -/
example : (passes (World.validatePoolInfo .stable (some 10)) && passes (World.validatePoolInfo .xyk none) &&
    failsWith (World.validatePoolInfo .stable none) .panic) = true := by decide +kernel

end Phoenix.Conform.Utils
