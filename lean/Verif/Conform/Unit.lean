import Verif.Model.Pool
import Verif.Model.PoolDead
import Verif.Model.Curve
import Verif.Model.DecimalText
import Verif.Model.Decimal256
import Verif.Lemmas.Basic
/-
The repository's own unit tests of its arithmetic, replayed on the model: fixed point numbers
(packages/decimal), curves (packages/curve) and the pool's inner computations (the `mod tests` of
contracts/pool/src/contract.rs and storage.rs).  These are tests of the model, not proofs.
-/
namespace Phoenix.Conform.Unit
open Phoenix

def eqs {α} [DecidableEq α] (r : Res α) (v : α) : Bool := okAnd r (fun x => decide (x = v))
/-- the call panics, with whatever error -/
def traps {α} : Res α → Bool
  | .ok _ => false
  | .error _ => true
/-- `r` gives what `s` gives -/
def same {α} [DecidableEq α] (r s : Res α) : Bool := okAnd s (fun v => eqs r v)
/-- the outcome of a curve check -/
def errs {α} (r : Except CurveErr α) (e : CurveErr) : Bool :=
  match r with | .ok _ => false | .error e' => decide (e' = e)
def fine {α} (r : Except CurveErr α) : Bool :=
  match r with | .ok _ => true | .error _ => false

/-! packages/decimal/src/decimal.rs -/
section
open Dec

/-- `decimal_from_atomics_works`, packages/decimal/src/decimal.rs -/
example : (eqs (fromAtomics 1 0) ONE &&
    eqs (fromAtomics 10 1) ONE &&
    eqs (fromAtomics 100 2) ONE &&
    eqs (fromAtomics 1000 3) ONE &&
    eqs (fromAtomics 1000000000000000000 18) ONE &&
    eqs (fromAtomics 10000000000000000000 19) ONE &&
    eqs (fromAtomics 100000000000000000000 20) ONE &&
    eqs (fromAtomics 2 0) (2 * ONE) &&
    eqs (fromAtomics 20 1) (2 * ONE) &&
    eqs (fromAtomics 200 2) (2 * ONE) &&
    eqs (fromAtomics 2000 3) (2 * ONE) &&
    eqs (fromAtomics 2000000000000000000 18) (2 * ONE) &&
    eqs (fromAtomics 20000000000000000000 19) (2 * ONE) &&
    eqs (fromAtomics 200000000000000000000 20) (2 * ONE) &&
    same (fromAtomics 4321 20) (fromText "0.000000000000000043".toList) &&
    same (fromAtomics 6789 20) (fromText "0.000000000000000067".toList) &&
    same (fromAtomics I128_MAX 38) (fromText "1.701411834604692317".toList) &&
    same (fromAtomics I128_MAX 39) (fromText "0.170141183460469231".toList) &&
    same (fromAtomics I128_MAX 45) (fromText "0.000000170141183460".toList) &&
    same (fromAtomics I128_MAX 51) (fromText "0.000000000000170141".toList) &&
    same (fromAtomics I128_MAX 56) (fromText "0.000000000000000001".toList)) = true := by decide +kernel
/-- `decimal_from_ratio_works` -/
example : (eqs (fromRatio 1 1) ONE &&
    eqs (fromRatio 53 53) ONE &&
    eqs (fromRatio 125 125) ONE &&
    eqs (fromRatio 340282366920938 340282366920938) ONE &&
    eqs (fromRatio 34028236692093900000 34028236692093900000) ONE &&
    same (fromRatio 3 2) (percent 150) &&
    same (fromRatio 150 100) (percent 150) &&
    same (fromRatio 333 222) (percent 150) &&
    same (fromRatio 1 8) (permille 125) &&
    same (fromRatio 125 1000) (permille 125) &&
    eqs (fromRatio 1 3) 333333333333333333 &&
    eqs (fromRatio 2 3) 666666666666666666 &&
    eqs (fromRatio 0 I128_MAX) 0 &&
    eqs (fromRatio 34028236692093900000 1) (34028236692093900000 * ONE)) = true := by decide +kernel
/-- `decimal_from_ratio_panics_for_zero_denominator` and `..._for_mul_overflow` -/
example : (traps (fromRatio 1 0) &&
    failsWith (fromRatio I128_MAX 1) .overflow) = true := by decide +kernel
/-- `decimal_from_str_works` -/
example : (same (fromText "0".toList) (percent 0) &&
    same (fromText "1".toList) (percent 100) &&
    same (fromText "5".toList) (percent 500) &&
    same (fromText "42".toList) (percent 4200) &&
    same (fromText "000".toList) (percent 0) &&
    same (fromText "001".toList) (percent 100) &&
    same (fromText "005".toList) (percent 500) &&
    same (fromText "0042".toList) (percent 4200) &&
    same (fromText "1.0".toList) (percent 100) &&
    same (fromText "1.5".toList) (percent 150) &&
    same (fromText "0.5".toList) (percent 50) &&
    same (fromText "0.123".toList) (permille 123) &&
    same (fromText "40.00".toList) (percent 4000) &&
    same (fromText "04.00".toList) (percent 400) &&
    same (fromText "00.40".toList) (percent 40) &&
    same (fromText "00.04".toList) (percent 4) &&
    eqs (fromText "7.123456789012345678".toList) 7123456789012345678 &&
    eqs (fromText "7.999999999999999999".toList) 7999999999999999999) = true := by decide +kernel
/-- `test_from_str_with_too_many_fractional_digits` -/
example : (traps (fromText "123.12345678901187245619827346".toList)) = true := by decide +kernel
/-- `decimal_inv_works` -/
example : (eqs (inv 0) none &&
    eqs (inv ONE) (some ONE) &&
    eqs (do inv (← percent 200)) (match (percent 50 : Res Int) with | .ok x => some x | .error _ => none) &&
    eqs (do inv (← percent 2000)) (match (percent 5 : Res Int) with | .ok x => some x | .error _ => none) &&
    eqs (do inv (← percent 20000)) (match (permille 5 : Res Int) with | .ok x => some x | .error _ => none) &&
    eqs (do inv (← percent 200000)) (match (bps 5 : Res Int) with | .ok x => some x | .error _ => none) &&
    eqs (do inv (← percent 300)) (match (fromRatio 1 3 : Res Int) with | .ok x => some x | .error _ => none) &&
    eqs (do inv (← percent 600)) (match (fromRatio 1 6 : Res Int) with | .ok x => some x | .error _ => none) &&
    eqs (do inv (← percent 50)) (match (percent 200 : Res Int) with | .ok x => some x | .error _ => none) &&
    eqs (do inv (← percent 5)) (match (percent 2000 : Res Int) with | .ok x => some x | .error _ => none) &&
    eqs (do inv (← permille 5)) (match (percent 20000 : Res Int) with | .ok x => some x | .error _ => none) &&
    eqs (do inv (← bps 5)) (match (percent 200000 : Res Int) with | .ok x => some x | .error _ => none)) = true := by decide +kernel
/-- `decimal_add_works`, `decimal_sub_works` -/
example : (same (do add ONE (← percent 50)) (.ok (ONE * 3 / 2)) &&
    same (do add (← percent 5) (← percent 4)) (percent 9) &&
    same (do add (← percent 5) 0) (percent 5) &&
    same (do sub ONE (← percent 50)) (.ok (ONE / 2)) &&
    same (do sub (← percent 9) (← percent 4)) (percent 5) &&
    same (do sub (← percent 16) (← percent 16)) (.ok 0)) = true := by decide +kernel
/-- `decimal_add_overflow_panics`, `decimal_mul_overflow_panics`, `decimal_div_overflow_panics`, `decimal_div_by_zero_panics`, `decimal_uint128_divide_by_zero`, `decimal_pow_overflow_panics` -/
example : (failsWith (do add I128_MAX (← percent 50)) .overflow &&
    failsWith (do mul I128_MAX (← percent 101)) .overflow &&
    failsWith (do div I128_MAX (← percent 10)) .overflow &&
    traps (div ONE 0) &&
    traps (do divInt (← percent 150) 0) &&
    traps (pow I128_MAX 2)) = true := by decide +kernel
/-- `decimal_implements_mul` -/
example : (same (do mul ONE (← percent 0)) (percent 0) &&
    same (do mul (← percent 0) ONE) (percent 0) &&
    same (do mul (2 * ONE) (← percent 0)) (percent 0) &&
    same (do mul (← percent 0) (2 * ONE)) (percent 0) &&
    same (do mul (← percent 50) (← percent 0)) (permille 0) &&
    same (do mul (← percent 0) (← percent 50)) (permille 0) &&
    same (do mul ONE (← percent 1)) (percent 1) &&
    same (do mul (← percent 1) ONE) (percent 1) &&
    same (do mul (2 * ONE) (← percent 1)) (percent 2) &&
    same (do mul (← percent 1) (2 * ONE)) (percent 2) &&
    same (do mul (← percent 50) (← percent 1)) (permille 5) &&
    same (do mul (← percent 1) (← percent 50)) (permille 5) &&
    same (do mul ONE (← percent 10)) (percent 10) &&
    same (do mul (← percent 10) ONE) (percent 10) &&
    same (do mul (2 * ONE) (← percent 10)) (percent 20) &&
    same (do mul (← percent 10) (2 * ONE)) (percent 20) &&
    same (do mul (← percent 50) (← percent 10)) (permille 50) &&
    same (do mul (← percent 10) (← percent 50)) (permille 50) &&
    same (do mul ONE (← percent 100)) (percent 100) &&
    same (do mul (← percent 100) ONE) (percent 100) &&
    same (do mul (2 * ONE) (← percent 100)) (percent 200) &&
    same (do mul (← percent 100) (2 * ONE)) (percent 200) &&
    same (do mul (← percent 50) (← percent 100)) (permille 500) &&
    same (do mul (← percent 100) (← percent 50)) (permille 500) &&
    same (do mul ONE (← percent 1000)) (percent 1000) &&
    same (do mul (← percent 1000) ONE) (percent 1000) &&
    same (do mul (2 * ONE) (← percent 1000)) (percent 2000) &&
    same (do mul (← percent 1000) (2 * ONE)) (percent 2000) &&
    same (do mul (← percent 50) (← percent 1000)) (permille 5000) &&
    same (do mul (← percent 1000) (← percent 50)) (permille 5000)) = true := by decide +kernel
/-- `i128_decimal_multiply`, `decimal_i128_multiply` -/
example : (eqs (do mulInt 300 (← percent 150)) 450 &&
    eqs (do mulInt 300 (← percent 0)) 0 &&
    eqs (do mulInt 0 (← percent 150)) 0 &&
    eqs (do mulInt 0 (← percent 100)) 0 &&
    eqs (do mulInt 1 (← percent 100)) 1 &&
    eqs (do mulInt 2 (← percent 100)) 2 &&
    eqs (do mulInt 1 (← percent 10)) 0 &&
    eqs (do mulInt 10 (← percent 10)) 1 &&
    eqs (do mulInt 100 (← percent 10)) 10 &&
    eqs (do mulInt 1 (← percent 50)) 0 &&
    eqs (do mulInt 100 (← percent 50)) 50 &&
    eqs (do mulInt 3200 (← percent 50)) 1600 &&
    eqs (do mulInt 999 (← percent 50)) 499 &&
    eqs (do mulInt 1 (← percent 200)) 2 &&
    eqs (do mulInt 1000 (← percent 200)) 2000) = true := by decide +kernel
/-- `decimal_implements_div` -/
example : (same (do div ONE (← percent 1)) (percent 10000) &&
    same (do div (2 * ONE) (← percent 1)) (percent 20000) &&
    same (do div (← percent 50) (← percent 1)) (permille 50000) &&
    same (do div ONE (← percent 10)) (percent 1000) &&
    same (do div (2 * ONE) (← percent 10)) (percent 2000) &&
    same (do div (← percent 50) (← percent 10)) (permille 5000) &&
    same (do div ONE (← percent 100)) (percent 100) &&
    same (do div (2 * ONE) (← percent 100)) (percent 200) &&
    same (do div (← percent 50) (← percent 100)) (permille 500) &&
    same (do div ONE (← percent 1000)) (percent 10) &&
    same (do div (2 * ONE) (← percent 1000)) (percent 20) &&
    same (do div (← percent 50) (← percent 1000)) (permille 50) &&
    same (do div (← percent 0) ONE) (percent 0) &&
    same (do div (← percent 0) (← percent 50)) (percent 0) &&
    same (do div (← percent 0) (2 * ONE)) (permille 0) &&
    same (do div (← percent 1) ONE) (percent 1) &&
    same (do div (← percent 1) (← percent 50)) (percent 2) &&
    same (do div (← percent 10) ONE) (percent 10) &&
    same (do div (← percent 10) (← percent 50)) (percent 20) &&
    same (do div (← percent 10) (2 * ONE)) (permille 50) &&
    same (do div (← percent 100) ONE) (percent 100) &&
    same (do div (← percent 100) (← percent 50)) (percent 200) &&
    same (do div (← percent 100) (2 * ONE)) (permille 500) &&
    same (do div (← percent 1000) ONE) (percent 1000) &&
    same (do div (← percent 1000) (← percent 50)) (percent 2000) &&
    same (do div (← percent 1000) (2 * ONE)) (permille 5000) &&
    same (do div (← percent 15) (← percent 60)) (percent 25)) = true := by decide +kernel
/-- `decimal_i128_division`, `decimal_pow_works` -/
example : (same (do divInt (← percent 150) 3) (percent 50) &&
    eqs (divInt 0 300) 0 &&
    same (do pow (← percent 200) 2) (percent 400) &&
    same (do pow (← percent 100) 10) (percent 100)) = true := by decide +kernel
/-- `decimal_abs_*`, `test_abs_difference`, `test_to_i128_with_precision`, `test_multiply_ratio` -/
example : (eqs (abs (-128)) 128 &&
    eqs (abs 128) 128 &&
    absDiff 100 200 == 100 &&
    absDiff (-100) (-200) == 100 &&
    eqs (do toPrecision (← percent 124) 1) 12 &&
    eqs (do toPrecision (← percent 124) 2) 124 &&
    eqs (do multiplyRatio (← percent 1) 2 5) 4000000000000000000000000000000000) = true := by decide +kernel
/-- `decimal_displayed_as_string`, `decimal_fmt_*` -/
example : (eqs (do return toText (← percent 128)) "1.28".toList &&
    eqs (do return toText (← fromAtomics 100 0)) "100".toList &&
    eqs (do return toText (← fromAtomics 123456789 5)) "1234.56789".toList &&
    eqs (do return toText (← fromAtomics 123456 1)) "12345.6".toList &&
    eqs (do return toText (← fromAtomics 789 4)) "0.0789".toList) = true := by decide +kernel
end

/-! packages/decimal/src/decimal256.rs -/
section
open Dec256

/-- `decimal256_from_atomics_works` -/
example : (eqs (fromAtomics 1 0) ONE &&
    eqs (fromAtomics 10 1) ONE &&
    eqs (fromAtomics 100 2) ONE &&
    eqs (fromAtomics 1000 3) ONE &&
    eqs (fromAtomics 1000000000000000000 18) ONE &&
    eqs (fromAtomics 10000000000000000000 19) ONE &&
    eqs (fromAtomics 100000000000000000000 20) ONE &&
    eqs (fromAtomics 2 0) (2 * ONE) &&
    eqs (fromAtomics 20 1) (2 * ONE) &&
    eqs (fromAtomics 200 2) (2 * ONE) &&
    eqs (fromAtomics 2000 3) (2 * ONE) &&
    eqs (fromAtomics 2000000000000000000 18) (2 * ONE) &&
    eqs (fromAtomics 20000000000000000000 19) (2 * ONE) &&
    eqs (fromAtomics 200000000000000000000 20) (2 * ONE) &&
    same (fromAtomics 4321 20) (fromRatio 43 1000000000000000000) &&
    same (fromAtomics 6789 20) (fromRatio 67 1000000000000000000) &&
    same (fromAtomics 340282366920938463463374607431768211455 37) (fromRatio 340282366920938463463374607431768211455 10000000000000000000000000000000000000) &&
    same (fromAtomics 340282366920938463463374607431768211455 38) (fromRatio 340282366920938463463374607431768211455 100000000000000000000000000000000000000)) = true := by decide +kernel
/-- `decimal256_from_ratio_works`, `..._panics_for_zero_denominator`; the ignored test `..._panics_for_mul_overflow` expects a panic the code does not give -/
example : (eqs (fromRatio 1 1) ONE &&
    eqs (fromRatio 53 53) ONE &&
    eqs (fromRatio 125 125) ONE &&
    eqs (fromRatio 340282366920938 340282366920938) ONE &&
    eqs (fromRatio 34028236692093900000 34028236692093900000) ONE &&
    eqs (fromRatio 340282366920938463463374607431768211455 340282366920938463463374607431768211455) ONE &&
    same (fromRatio 3 2) (percent 150) &&
    same (fromRatio 150 100) (percent 150) &&
    same (fromRatio 333 222) (percent 150) &&
    same (fromRatio 1 8) (permille 125) &&
    same (fromRatio 125 1000) (permille 125) &&
    eqs (fromRatio 1 3) 333333333333333333 &&
    eqs (fromRatio 2 3) 666666666666666666 &&
    eqs (fromRatio 0 340282366920938463463374607431768211455) 0 &&
    eqs (fromRatio 34028236692093900000 1) (34028236692093900000 * ONE) &&
    traps (fromRatio 1 0) &&
    !traps (fromRatio 340282366920938463463374607431768211455 1)) = true := by decide +kernel
/-- `decimal256_inv_works` -/
example : (eqs (inv 0) none &&
    eqs (inv ONE) (some ONE) &&
    eqs (do inv (← percent 200)) (match (percent 50 : Res Nat) with | .ok x => some x | .error _ => none) &&
    eqs (do inv (← percent 2000)) (match (percent 5 : Res Nat) with | .ok x => some x | .error _ => none) &&
    eqs (do inv (← percent 20000)) (match (permille 5 : Res Nat) with | .ok x => some x | .error _ => none) &&
    eqs (do inv (← percent 200000)) (match (bps 5 : Res Nat) with | .ok x => some x | .error _ => none) &&
    eqs (do inv (← percent 300)) (match (fromRatio 1 3 : Res Nat) with | .ok x => some x | .error _ => none) &&
    eqs (do inv (← percent 600)) (match (fromRatio 1 6 : Res Nat) with | .ok x => some x | .error _ => none) &&
    eqs (do inv (← percent 50)) (match (percent 200 : Res Nat) with | .ok x => some x | .error _ => none) &&
    eqs (do inv (← percent 5)) (match (percent 2000 : Res Nat) with | .ok x => some x | .error _ => none) &&
    eqs (do inv (← permille 5)) (match (percent 20000 : Res Nat) with | .ok x => some x | .error _ => none) &&
    eqs (do inv (← bps 5)) (match (percent 200000 : Res Nat) with | .ok x => some x | .error _ => none)) = true := by decide +kernel
/-- `decimal256_add_works`, `decimal256_sub_works`, `decimal256_add_overflow_panics`, `decimal256_mul_overflow_panics` -/
example : (same (do add ONE (← percent 50)) (.ok 1500000000000000000) &&
    same (do add (← percent 5) (← percent 4)) (percent 9) &&
    same (do sub ONE (← percent 50)) (.ok 500000000000000000) &&
    same (do sub (← percent 9) (← percent 4)) (percent 5) &&
    same (do sub (← percent 16) (← percent 16)) (.ok 0) &&
    traps (do add 115792089237316195423570985008687907853269984665640564039457584007913129639935 (← percent 50)) &&
    traps (do mul 115792089237316195423570985008687907853269984665640564039457584007913129639935 (← percent 101))) = true := by decide +kernel
/-- `decimal256_implements_mul` -/
example : (same (do mul ONE (← percent 0)) (percent 0) &&
    same (do mul (← percent 0) ONE) (percent 0) &&
    same (do mul (2 * ONE) (← percent 0)) (percent 0) &&
    same (do mul (← percent 0) (2 * ONE)) (percent 0) &&
    same (do mul (← percent 50) (← percent 0)) (permille 0) &&
    same (do mul (← percent 0) (← percent 50)) (permille 0) &&
    same (do mul ONE (← percent 1)) (percent 1) &&
    same (do mul (← percent 1) ONE) (percent 1) &&
    same (do mul (2 * ONE) (← percent 1)) (percent 2) &&
    same (do mul (← percent 1) (2 * ONE)) (percent 2) &&
    same (do mul (← percent 50) (← percent 1)) (permille 5) &&
    same (do mul (← percent 1) (← percent 50)) (permille 5) &&
    same (do mul ONE (← percent 10)) (percent 10) &&
    same (do mul (← percent 10) ONE) (percent 10) &&
    same (do mul (2 * ONE) (← percent 10)) (percent 20) &&
    same (do mul (← percent 10) (2 * ONE)) (percent 20) &&
    same (do mul (← percent 50) (← percent 10)) (permille 50) &&
    same (do mul (← percent 10) (← percent 50)) (permille 50) &&
    same (do mul ONE (← percent 100)) (percent 100) &&
    same (do mul (← percent 100) ONE) (percent 100) &&
    same (do mul (2 * ONE) (← percent 100)) (percent 200) &&
    same (do mul (← percent 100) (2 * ONE)) (percent 200) &&
    same (do mul (← percent 50) (← percent 100)) (permille 500) &&
    same (do mul (← percent 100) (← percent 50)) (permille 500) &&
    same (do mul ONE (← percent 1000)) (percent 1000) &&
    same (do mul (← percent 1000) ONE) (percent 1000) &&
    same (do mul (2 * ONE) (← percent 1000)) (percent 2000) &&
    same (do mul (← percent 1000) (2 * ONE)) (percent 2000) &&
    same (do mul (← percent 50) (← percent 1000)) (permille 5000) &&
    same (do mul (← percent 1000) (← percent 50)) (permille 5000)) = true := by decide +kernel
/-- `u128_decimal256_multiply`, `decimal256_multiplication` -/
example : (same (do mul (← fromRatio 300 1) (← percent 150)) (fromRatio 450 1) &&
    same (do mul (← fromRatio 300 1) (← percent 0)) (fromRatio 0 1) &&
    same (do mul (← fromRatio 0 1) (← percent 150)) (fromRatio 0 1) &&
    same (do mul (← fromRatio 2 1) (← percent 100)) (fromRatio 2 1) &&
    same (do mul (← fromRatio 1 1) (← percent 10)) (fromRatio 1 10) &&
    same (do mul (← fromRatio 10 1) (← percent 10)) (fromRatio 1 1) &&
    same (do mul (← fromRatio 100 1) (← percent 10)) (fromRatio 10 1) &&
    same (do mul (← fromRatio 1 1) (← percent 50)) (fromRatio 1 2) &&
    same (do mul (← fromRatio 100 1) (← percent 50)) (fromRatio 50 1) &&
    same (do mul (← fromRatio 3200 1) (← percent 50)) (fromRatio 1600 1) &&
    same (do mul (← fromRatio 999 1) (← percent 50)) (fromRatio 4995 10) &&
    same (do mul (← fromRatio 1 1) (← percent 200)) (fromRatio 2 1) &&
    same (do mul (← fromRatio 1000 1) (← percent 200)) (fromRatio 2000 1)) = true := by decide +kernel
/-- `decimal256_implements_div` -/
example : (same (do div ONE (← percent 1)) (percent 10000) &&
    same (do div (2 * ONE) (← percent 1)) (percent 20000) &&
    same (do div (← percent 50) (← percent 1)) (permille 50000) &&
    same (do div ONE (← percent 10)) (percent 1000) &&
    same (do div (2 * ONE) (← percent 10)) (percent 2000) &&
    same (do div (← percent 50) (← percent 10)) (permille 5000) &&
    same (do div ONE (← percent 100)) (percent 100) &&
    same (do div (2 * ONE) (← percent 100)) (percent 200) &&
    same (do div (← percent 50) (← percent 100)) (permille 500) &&
    same (do div ONE (← percent 1000)) (percent 10) &&
    same (do div (2 * ONE) (← percent 1000)) (percent 20) &&
    same (do div (← percent 50) (← percent 1000)) (permille 50) &&
    same (do div (← percent 0) ONE) (percent 0) &&
    same (do div (← percent 0) (← percent 50)) (percent 0) &&
    same (do div (← percent 0) (2 * ONE)) (permille 0) &&
    same (do div (← percent 1) ONE) (percent 1) &&
    same (do div (← percent 1) (← percent 50)) (percent 2) &&
    same (do div (← percent 10) ONE) (percent 10) &&
    same (do div (← percent 10) (← percent 50)) (percent 20) &&
    same (do div (← percent 10) (2 * ONE)) (permille 50) &&
    same (do div (← percent 100) ONE) (percent 100) &&
    same (do div (← percent 100) (← percent 50)) (percent 200) &&
    same (do div (← percent 100) (2 * ONE)) (permille 500) &&
    same (do div (← percent 1000) ONE) (percent 1000) &&
    same (do div (← percent 1000) (← percent 50)) (percent 2000) &&
    same (do div (← percent 1000) (2 * ONE)) (permille 5000)) = true := by decide +kernel
end

/-! packages/curve/src/lib.rs -/
section
open Curve

/-- `test_constant` -/
example : (fine (validate (.constant 524)) &&
    fine (validateInc (.constant 524)) &&
    fine (validateDec (.constant 524)) &&
    eqs (value (.constant 524) 1) 524 &&
    eqs (value (.constant 524) 1000000) 524 &&
    range (.constant 524) == (524, 524)) = true := by decide +kernel
/-- `test_increasing_linear` -/
example : (fine (validate (.sl 100 0 200 50)) &&
    fine (validateInc (.sl 100 0 200 50)) &&
    errs (validateDec (.sl 100 0 200 50)) .monotonicIncreasing &&
    eqs (value (.sl 100 0 200 50) 1) 0 &&
    eqs (value (.sl 100 0 200 50) 1000000) 50 &&
    eqs (value (.sl 100 0 200 50) 150) 25 &&
    eqs (value (.sl 100 0 200 50) 103) 1 &&
    range (.sl 100 0 200 50) == (0, 50)) = true := by decide +kernel
/-- `test_decreasing_linear` -/
example : (fine (validate (.sl 1700 500 2000 200)) &&
    fine (validateDec (.sl 1700 500 2000 200)) &&
    errs (validateInc (.sl 1700 500 2000 200)) .monotonicDecreasing &&
    eqs (value (.sl 1700 500 2000 200) 1695) 500 &&
    eqs (value (.sl 1700 500 2000 200) 2005) 200 &&
    eqs (value (.sl 1700 500 2000 200) 1800) 400 &&
    eqs (value (.sl 1700 500 2000 200) 1997) 203 &&
    range (.sl 1700 500 2000 200) == (200, 500)) = true := by decide +kernel
/-- `test_invalid_linear`, `test_piecewise_two_point_invalid` -/
example : (errs (validate (.sl 15000 100 12000 200)) .pointsOutOfOrder &&
    errs (validateDec (.sl 15000 100 12000 200)) .pointsOutOfOrder &&
    errs (validateInc (.sl 15000 100 12000 200)) .pointsOutOfOrder) = true := by decide +kernel
/-- `test_piecewise_one_step` -/
example : (fine (validate (.pl [⟨12345, 524⟩])) &&
    fine (validateInc (.pl [⟨12345, 524⟩])) &&
    fine (validateDec (.pl [⟨12345, 524⟩])) &&
    eqs (value (.pl [⟨12345, 524⟩]) 1) 524 &&
    eqs (value (.pl [⟨12345, 524⟩]) 1000000) 524 &&
    range (.pl [⟨12345, 524⟩]) == (524, 524)) = true := by decide +kernel
/-- `test_piecewise_two_point_increasing` -/
example : (fine (validate (.pl [⟨100, 0⟩, ⟨200, 50⟩])) &&
    fine (validateInc (.pl [⟨100, 0⟩, ⟨200, 50⟩])) &&
    errs (validateDec (.pl [⟨100, 0⟩, ⟨200, 50⟩])) .monotonicIncreasing &&
    eqs (value (.pl [⟨100, 0⟩, ⟨200, 50⟩]) 1) 0 &&
    eqs (value (.pl [⟨100, 0⟩, ⟨200, 50⟩]) 1000000) 50 &&
    eqs (value (.pl [⟨100, 0⟩, ⟨200, 50⟩]) 150) 25 &&
    eqs (value (.pl [⟨100, 0⟩, ⟨200, 50⟩]) 103) 1 &&
    eqs (value (.pl [⟨100, 0⟩, ⟨200, 50⟩]) 100) 0 &&
    eqs (value (.pl [⟨100, 0⟩, ⟨200, 50⟩]) 200) 50 &&
    range (.pl [⟨100, 0⟩, ⟨200, 50⟩]) == (0, 50)) = true := by decide +kernel
/-- `test_piecewise_two_point_decreasing` -/
example : (fine (validate (.pl [⟨1700, 500⟩, ⟨2000, 200⟩])) &&
    fine (validateDec (.pl [⟨1700, 500⟩, ⟨2000, 200⟩])) &&
    errs (validateInc (.pl [⟨1700, 500⟩, ⟨2000, 200⟩])) .monotonicDecreasing &&
    eqs (value (.pl [⟨1700, 500⟩, ⟨2000, 200⟩]) 1695) 500 &&
    eqs (value (.pl [⟨1700, 500⟩, ⟨2000, 200⟩]) 2005) 200 &&
    eqs (value (.pl [⟨1700, 500⟩, ⟨2000, 200⟩]) 1800) 400 &&
    eqs (value (.pl [⟨1700, 500⟩, ⟨2000, 200⟩]) 1997) 203 &&
    eqs (value (.pl [⟨1700, 500⟩, ⟨2000, 200⟩]) 1700) 500 &&
    eqs (value (.pl [⟨1700, 500⟩, ⟨2000, 200⟩]) 2000) 200 &&
    range (.pl [⟨1700, 500⟩, ⟨2000, 200⟩]) == (200, 500)) = true := by decide +kernel
/-- `test_piecewise_three_point_increasing` -/
example : (fine (validate (.pl [⟨100, 0⟩, ⟨200, 100⟩, ⟨300, 400⟩])) &&
    fine (validateInc (.pl [⟨100, 0⟩, ⟨200, 100⟩, ⟨300, 400⟩])) &&
    errs (validateDec (.pl [⟨100, 0⟩, ⟨200, 100⟩, ⟨300, 400⟩])) .monotonicIncreasing &&
    eqs (value (.pl [⟨100, 0⟩, ⟨200, 100⟩, ⟨300, 400⟩]) 1) 0 &&
    eqs (value (.pl [⟨100, 0⟩, ⟨200, 100⟩, ⟨300, 400⟩]) 1000000) 400 &&
    eqs (value (.pl [⟨100, 0⟩, ⟨200, 100⟩, ⟨300, 400⟩]) 172) 72 &&
    eqs (value (.pl [⟨100, 0⟩, ⟨200, 100⟩, ⟨300, 400⟩]) 240) 220 &&
    eqs (value (.pl [⟨100, 0⟩, ⟨200, 100⟩, ⟨300, 400⟩]) 100) 0 &&
    eqs (value (.pl [⟨100, 0⟩, ⟨200, 100⟩, ⟨300, 400⟩]) 200) 100 &&
    eqs (value (.pl [⟨100, 0⟩, ⟨200, 100⟩, ⟨300, 400⟩]) 300) 400 &&
    range (.pl [⟨100, 0⟩, ⟨200, 100⟩, ⟨300, 400⟩]) == (0, 400)) = true := by decide +kernel
/-- `test_piecewise_three_point_decreasing` -/
example : (fine (validate (.pl [⟨100, 400⟩, ⟨200, 100⟩, ⟨300, 0⟩])) &&
    fine (validateDec (.pl [⟨100, 400⟩, ⟨200, 100⟩, ⟨300, 0⟩])) &&
    errs (validateInc (.pl [⟨100, 400⟩, ⟨200, 100⟩, ⟨300, 0⟩])) .monotonicDecreasing &&
    eqs (value (.pl [⟨100, 400⟩, ⟨200, 100⟩, ⟨300, 0⟩]) 1) 400 &&
    eqs (value (.pl [⟨100, 400⟩, ⟨200, 100⟩, ⟨300, 0⟩]) 1000000) 0 &&
    eqs (value (.pl [⟨100, 400⟩, ⟨200, 100⟩, ⟨300, 0⟩]) 172) 184 &&
    eqs (value (.pl [⟨100, 400⟩, ⟨200, 100⟩, ⟨300, 0⟩]) 245) 55 &&
    eqs (value (.pl [⟨100, 400⟩, ⟨200, 100⟩, ⟨300, 0⟩]) 100) 400 &&
    eqs (value (.pl [⟨100, 400⟩, ⟨200, 100⟩, ⟨300, 0⟩]) 200) 100 &&
    eqs (value (.pl [⟨100, 400⟩, ⟨200, 100⟩, ⟨300, 0⟩]) 300) 0 &&
    range (.pl [⟨100, 400⟩, ⟨200, 100⟩, ⟨300, 0⟩]) == (0, 400)) = true := by decide +kernel
/-- `test_piecewise_three_point_invalid_not_monotonic`, `..._out_of_order` -/
example : (fine (validate (.pl [⟨100, 400⟩, ⟨200, 100⟩, ⟨300, 300⟩])) &&
    errs (validateInc (.pl [⟨100, 400⟩, ⟨200, 100⟩, ⟨300, 300⟩])) .notMonotonic &&
    errs (validateDec (.pl [⟨100, 400⟩, ⟨200, 100⟩, ⟨300, 300⟩])) .notMonotonic &&
    errs (validate (.pl [⟨100, 400⟩, ⟨300, 300⟩, ⟨200, 100⟩])) .pointsOutOfOrder &&
    errs (validateInc (.pl [⟨100, 400⟩, ⟨300, 300⟩, ⟨200, 100⟩])) .pointsOutOfOrder &&
    errs (validateDec (.pl [⟨100, 400⟩, ⟨300, 300⟩, ⟨200, 100⟩])) .pointsOutOfOrder) = true := by decide +kernel
/-- `test_saturating_to_piecewise` -/
example : (fromSl 15 1 60 120 == [⟨15, 1⟩, ⟨60, 120⟩] &&
    same (plValue (fromSl 15 1 60 120) 0) (slValue 15 1 60 120 0) &&
    same (plValue (fromSl 15 1 60 120) 20) (slValue 15 1 60 120 20) &&
    same (plValue (fromSl 15 1 60 120) 60) (slValue 15 1 60 120 60) &&
    same (plValue (fromSl 15 1 60 120) 80) (slValue 15 1 60 120 80)) = true := by decide +kernel

/-- `test_combine`, packages/curve/src/lib.rs -/
def combines (c d : Curve) (xs : List Nat) (size' : Nat) : Bool :=
  okAnd (combine c d) (fun k => eqs (combine d c) k && decide (size k = size') &&
    xs.all (fun x => same (value k x) (do add128 (← value c x) (← value d x))))
/-- `test_combine_curves` -/
example : (combines (.sl 10 10 110 210) (.constant 10) [0, 10, 20, 50, 100, 110, 120] 2 &&
    combines (.pl [⟨10, 50⟩, ⟨20, 70⟩, ⟨30, 100⟩]) (.constant 10) [0, 10, 15, 20, 25, 30, 35] 3 &&
    combines (.pl [⟨10, 50⟩, ⟨20, 70⟩, ⟨30, 100⟩]) (.sl 10 10 110 210) [0, 5, 10, 15, 20, 25, 30, 35, 60, 110] 4 &&
    combines (.constant 10) (.constant 10) [0, 5, 10, 15, 20] 1 &&
    combines (.pl [⟨10, 50⟩, ⟨20, 70⟩, ⟨30, 100⟩]) (.pl [⟨10, 50⟩, ⟨20, 70⟩, ⟨30, 100⟩]) [0, 10, 15, 20, 25, 30, 35] 3 &&
    combines (.sl 10 10 110 210) (.sl 10 10 110 210) [0, 10, 20, 50, 100, 110, 120] 2) = true := by decide +kernel
/-- `test_complexity_validation` -/
example : (errs (validateComplexity (.constant 6) 0) .tooComplex &&
    fine (validateComplexity (.constant 6) 1) &&
    errs (validateComplexity (.sl 0 10 1 20) 1) .tooComplex &&
    fine (validateComplexity (.sl 0 10 1 20) 2) &&
    errs (validateComplexity (.pl [⟨0, 0⟩, ⟨10, 10⟩, ⟨20, 20⟩]) 2) .tooComplex &&
    fine (validateComplexity (.pl [⟨0, 0⟩, ⟨10, 10⟩, ⟨20, 20⟩]) 3) &&
    fine (validateComplexity (.pl [⟨0, 0⟩, ⟨10, 10⟩, ⟨20, 20⟩]) 4)) = true := by decide +kernel
/-- `test_curve_end`, `test_piecewise_value`, `test_piecewise_linear_validate_should_fail_when_steps_are_missing` -/
example : (Curve.end (.constant 10) == none &&
    Curve.end (.sl 10 10 20 20) == some 20 &&
    Curve.end (.pl [⟨10, 10⟩]) == some 10 &&
    traps (value (.pl []) 5) &&
    errs (validate (.pl [])) .missingSteps) = true := by decide +kernel
end

/-! contracts/pool/src/contract.rs and storage.rs, `mod tests` -/
section
open Pool

/-- `test_assert_slippage_tolerance_*`, `assert_slippage_tolerance_with_none_as_tolerance` -/
example : (eqs (do assertSlippage (some 5000) 10 20 30 60 (← Dec.bps 5000)) () &&
    traps (do assertSlippage (some 60000) 10 20 30 60 (← Dec.bps 5000)) &&
    traps (do assertSlippage (some 1000) 10 15 40 40 (← Dec.bps 5000)) &&
    eqs (do assertSlippage none 10 20 30 60 (← Dec.bps 5000)) ()) = true := by decide +kernel
/-- `test_assert_max_spread_*` -/
example : (eqs (do assertMaxSpread (← Dec.percent 10) 100001 1) () &&
    failsWith (do assertMaxSpread (← Dec.percent 10) 100 35) (.code 1) &&
    eqs (do assertMaxSpread (← Dec.percent 10) 10 1) () &&
    failsWith (do assertMaxSpread (← Dec.percent 10) 10 2) (.code 1)) = true := by decide +kernel
/-- `test_compute_swap_*` -/
example : (eqs (do computeSwap 1000 2000 100 (← Dec.percent 10) 0) ⟨164, 18, 18, 0⟩ &&
    eqs (do computeSwap 1000 2000 100 (← Dec.percent 10) 1500) ⟨140, 18, 18, 24⟩ &&
    eqs (computeSwap 1000 2000 100 Dec.ONE 0) ⟨0, 18, 182, 0⟩) = true := by decide +kernel
/-- `test_compute_offer_amount` -/
example : (okAnd (do computeOfferAmount 1000000 1000000 1000 (← Dec.percent 10)) (fun r =>
      decide (r.1 < 1000000) && decide (0 ≤ r.2.1) && eqs (do Dec.mulInt r.1 (← Dec.percent 10)) r.2.2)) = true := by decide +kernel
/-- `convert_u256_to_i128*` -/
example : (eqs (u256ToI128 1000000000000000) 1000000000000000 &&
    traps (u256ToI128 340282366920938463463374607431768211455)) = true := by decide +kernel
/-- `test_get_deposit_amounts_*`, contracts/pool/src/storage.rs (accepted) -/
example : (eqs (do depositAmounts 100 (some 50) 200 (some 50) 0 0 (← Dec.bps 100)) (100, 200) &&
    eqs (do depositAmounts 100 (some 50) 200 (some 150) 100 200 (← Dec.bps 100)) (100, 200) &&
    eqs (do depositAmounts 1000 none 2000 none 5000 10000 (← Dec.bps 100)) (1000, 2000) &&
    eqs (do depositAmounts 1000 none 1010 none 1000 1000 (← Dec.bps 100)) (1000, 1000) &&
    eqs (do depositAmounts 1010 none 1000 none 1000 1000 (← Dec.bps 100)) (1000, 1000)) = true := by decide +kernel
/-- `test_get_deposit_amounts_*`, contracts/pool/src/storage.rs (refused) -/
example : (failsWith (do depositAmounts 1000 none 1005 (some 1001) 1 1 (← Dec.bps 100)) (.code 12) &&
    failsWith (do depositAmounts 1100 (some 1000) 1000 (some 1000) 1 1 (← Dec.bps 100)) (.code 11) &&
    failsWith (do depositAmounts 50 (some 100) 200 none 100 200 (← Dec.bps 100)) (.code 7) &&
    failsWith (do depositAmounts 150 (some 100) 200 (some 300) 100 200 (← Dec.bps 100)) (.code 8) &&
    failsWith (do depositAmounts 100 (some 200) 200 none 100 200 (← Dec.bps 100)) (.code 7) &&
    failsWith (do depositAmounts 1000 none 2000 none 10000 5000 (← Dec.bps 100)) (.code 9) &&
    failsWith (do depositAmounts 5000 (some 2000) 200 none 1000 500 (← Dec.bps 1000)) (.code 10) &&
    failsWith (do depositAmounts 200 none 5000 (some 2000) 500 1000 (← Dec.bps 120000)) (.code 12) &&
    failsWith (do depositAmounts (-1) (some 100) 10 (some 300) 100 200 (← Dec.bps 100)) (.code 14) &&
    failsWith (do depositAmounts 0 (some 100) 10 (some 300) 100 200 (← Dec.bps 100)) (.code 14) &&
    failsWith (do depositAmounts 10 (some 100) (-1) (some 300) 100 200 (← Dec.bps 100)) (.code 14) &&
    failsWith (do depositAmounts 10 (some 100) 0 (some 300) 100 200 (← Dec.bps 100)) (.code 14) &&
    failsWith (do depositAmounts (-1) (some 100) (-1) (some 300) 100 200 (← Dec.bps 100)) (.code 14) &&
    failsWith (do depositAmounts 0 (some 100) 0 (some 300) 100 200 (← Dec.bps 100)) (.code 14) &&
    failsWith (do depositAmounts 100 (some (-1)) 100 (some 10) 100 200 (← Dec.bps 100)) (.code 15) &&
    failsWith (do depositAmounts 100 (some 10) 100 (some (-1)) 100 200 (← Dec.bps 100)) (.code 15) &&
    failsWith (do depositAmounts 100 (some (-1)) 100 (some (-1)) 100 200 (← Dec.bps 100)) (.code 15)) = true := by decide +kernel
/-- `test_max_allowed_slippage` -/
example : (same (Dec.bps 100) (Dec.percent 1)) = true := by decide +kernel
end

end Phoenix.Conform.Unit
