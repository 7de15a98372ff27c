import Verif.Conform.Pool
import Verif.Model.PoolDead
/-
The unit tests inside the sources of the constant product pool and its configuration tests, replayed on the model
(contracts/pool/src/contract.rs:1239-1418, contracts/pool/src/storage.rs:457-707, contracts/pool/src/tests/config.rs).  These are
tests of the model, not proofs of properties.
-/
namespace Phoenix.Conform.PoolUnit
open Phoenix Phoenix.Pool Phoenix.Conform.Pool

/-! contract.rs -/

/-- `test_assert_slippage_tolerance_success`, `..._fail_tolerance_too_high`, `..._fail_slippage_violated`,
`assert_slippage_tolerance_with_none_as_tolerance` -/
example : okAnd (do assertSlippage (some 5000) 10 20 30 60 (← Dec.bps 5000)) (fun _ => true) = true ∧
    failsWith (do assertSlippage (some 60000) 10 20 30 60 (← Dec.bps 5000)) (.code 20) = true ∧
    failsWith (do assertSlippage (some 1000) 10 15 40 40 (← Dec.bps 5000)) (.code 20) = true ∧
    okAnd (do assertSlippage none 10 20 30 60 (← Dec.bps 5000)) (fun _ => true) = true := by decide +kernel

/-- `test_assert_max_spread_success`, `..._fail_max_spread_exceeded`, `..._success_no_belief_price`,
`..._fail_no_belief_price_max_spread_exceeded` -/
example : okAnd (do assertMaxSpread (← Dec.percent 10) 100001 1) (fun _ => true) = true ∧
    failsWith (do assertMaxSpread (← Dec.percent 10) 100 35) (.code 1) = true ∧
    okAnd (do assertMaxSpread (← Dec.percent 10) 10 1) (fun _ => true) = true ∧
    failsWith (do assertMaxSpread (← Dec.percent 10) 10 2) (.code 1) = true := by decide +kernel

/-- `test_compute_swap_pass`, `test_compute_swap_pass_with_referral_fee`, `test_compute_swap_full_commission` -/
example : (do computeSwap 1000 2000 100 (← Dec.percent 10) 0 : Res ComputeSwap) =
      .ok { ret := 164, spread := 18, commission := 18, referral := 0 } ∧
    (do computeSwap 1000 2000 100 (← Dec.percent 10) 1500 : Res ComputeSwap) =
      .ok { ret := 140, spread := 18, commission := 18, referral := 24 } ∧
    computeSwap 1000 2000 100 Dec.ONE 0 = .ok { ret := 0, spread := 18, commission := 182, referral := 0 } :=
  ⟨rfl, rfl, rfl⟩

/-- `test_compute_offer_amount` -/
example : okAnd (do computeOfferAmount 1000000 1000000 1000 (← Dec.percent 10))
    (fun r => decide (r.1 < 1000000 ∧ 0 ≤ r.2.1) && okAnd (do Dec.mulInt r.1 (← Dec.percent 10)) (fun x => decide (r.2.2 = x))) = true := by
  decide +kernel

/-- `should_panic_when_splitting_non_existent_token`, `convert_u256_to_i128`, `convert_u256_to_i128_should_panic_...` -/
example : okAnd (setup 0 5000 1000 0 0 []) (fun s => match s.pool with
      | some p => failsWith (splitDeposit p 100 100 100 99) (.code 16)
      | none => false) = true ∧
    u256ToI128 1000000000000000 = .ok 1000000000000000 ∧ okAnd (u256ToI128 (U128_LIM - 1)) (fun _ => true) = false := by
  decide +kernel

/-! storage.rs -/

/-- `get_deposit_amounts(a, minA, b, minB, poolA, poolB, Decimal::bps(slip))` -/
def amounts (a : Int) (mA : Option Int) (b : Int) (mB : Option Int) (pA pB slip : Int) : Res (Int × Int) := do
  depositAmounts a mA b mB pA pB (← Dec.bps slip)

/-- `test_get_deposit_amounts_pool_balances_zero`, `..._amount_a_less_than_desired_and_greater_than_min_a`, `..._ratio`,
`..._accept_a_within_1_percent`, `..._accept_b_within_1_percent` -/
example : amounts 100 (some 50) 200 (some 50) 0 0 100 = .ok (100, 200) ∧ amounts 100 (some 50) 200 (some 150) 100 200 100 = .ok (100, 200) ∧
    amounts 1000 none 2000 none 5000 10000 100 = .ok (1000, 2000) ∧ amounts 1000 none 1010 none 1000 1000 100 = .ok (1000, 1000) ∧
    amounts 1010 none 1000 none 1000 1000 100 = .ok (1000, 1000) := by decide +kernel

/-- `test_get_deposit_amounts_amount_b_less_than_desired`, `..._amount_b_exceeds_desired_amount`, `..._amount_b_less_than_min_b`,
`..._amount_a_greater_than_desired_and_less_than_min_a`, `..._amount_b_greater_than_desired_and_less_than_min_b`,
`..._amount_a_less_than_min_a`, `..._exceeds_desired`, `..._below_min_a`, `..._below_min_b` -/
example : failsWith (amounts 1000 none 1005 (some 1001) 1 1 100) (.code 12) = true ∧
    failsWith (amounts 1100 (some 1000) 1000 (some 1000) 1 1 100) (.code 11) = true ∧
    failsWith (amounts 50 (some 100) 200 none 100 200 100) (.code 7) = true ∧
    failsWith (amounts 150 (some 100) 200 (some 300) 100 200 100) (.code 8) = true ∧
    failsWith (amounts 100 (some 200) 200 none 100 200 100) (.code 7) = true ∧
    failsWith (amounts 1000 none 2000 none 10000 5000 100) (.code 9) = true ∧
    failsWith (amounts 5000 (some 2000) 200 none 1000 500 1000) (.code 10) = true ∧
    failsWith (amounts 200 none 5000 (some 2000) 500 1000 120000) (.code 12) = true := by decide +kernel

/-- `test_get_deposit_amounts_desired_less_than_or_equal_zero`, `test_get_deposit_amounts_min_amounts_less_than_zero` -/
example : (∀ v ∈ [((-1 : Int), (10 : Int)), (0, 10), (10, -1), (10, 0), (-1, -1), (0, 0)],
      failsWith (amounts v.1 (some 100) v.2 (some 300) 100 200 100) (.code 14) = true) ∧
    (∀ v ∈ [((-1 : Int), (10 : Int)), (10, -1), (-1, -1)],
      failsWith (amounts 100 (some v.1) 100 (some v.2) 100 200 100) (.code 15) = true) := by decide +kernel

/-- `test_max_allowed_slippage`: 100 basis points are 1%; the `..._failure` tests: a pool that is not set up answers nothing -/
example : Dec.bps 100 = Dec.percent 1 ∧ okAnd (loaded none) (fun _ => true) = false := by decide +kernel

/-! tests/config.rs -/

/-- total fee, its recipient, slippage, spread and referral limits of `query_config` -/
def config (s : Sys) : Option (Int × Addr × Int × Int × Int) :=
  s.pool.map (fun p => (p.cfg.totalFeeBps, p.cfg.feeRecipient, p.cfg.maxSlippageBps, p.cfg.maxSpreadBps, p.cfg.maxReferralBps))
def up (u : ConfigUpdate) : Tx := .pool (at' 0) (.updateConfig u)
def first : ConfigUpdate := { totalFeeBps := some 500, feeRecipient := some 9, maxReferralBps := some 1000 }
def allBps : ConfigUpdate :=
  { totalFeeBps := some 1000, feeRecipient := some 9, maxSlippageBps := some 1000, maxSpreadBps := some 1000, maxReferralBps := some 1000 }

/-- `update_config` -/
example : okAnd (setup 0 500 200 0 0 []) (fun s => decide (config s = some (0, 7, 500, 200, 5000))) = true ∧
    okAnd (setup 0 500 200 0 0 [up first]) (fun s => decide (config s = some (500, 9, 500, 200, 1000))) = true ∧
    okAnd (setup 0 500 200 0 0 [up first, up { maxSpreadBps := some 5000, maxReferralBps := some 500 }])
      (fun s => decide (config s = some (500, 9, 500, 5000, 500))) = true := by decide +kernel

/-- `update_config_unauthorized`, `update_config_update_admin`, `update_config_too_high_fees`, `update_configs_all_bps_values_should_work` -/
example : okAnd (setup 0 500 200 0 0 [.pool { now := 0, seq := 0, signed := fun _ => false } (.updateConfig first)]) (fun _ => true) = false ∧
    okAnd (setup 0 500 200 0 0 [up { newAdmin := some 9 }, up { newAdmin := some 9 }])
      (fun s => decide (config s = some (0, 7, 500, 200, 5000)) && decide (s.pool.map (·.admin) = some 9)) = true ∧
    okAnd (setup 0 500 200 0 0 [up { totalFeeBps := some 10100, feeRecipient := some 9 }]) (fun _ => true) = false ∧
    okAnd (setup 0 500 200 0 0 [up allBps]) (fun s => decide (config s = some (1000, 9, 1000, 1000, 1000))) = true := by decide +kernel

/-- `update_liquidity_pool_works`, `second_pool_deployment_should_fail`, `test_initialize_with_bigger_first_token_should_fail`,
`test_initialize_with_maximum_allowed_swap_fee_bps_over_the_cap_should_fail` -/
example : okAnd (setup 0 500 200 0 0 [.pool (at' 0) (.upgrade 5000)])
      (fun s => decide (s.pool.map (fun p => (p.resA, p.resB, p.total, p.cfg.totalFeeBps)) = some (0, 0, 0, 0))) = true ∧
    failsWith (setup 0 500 200 0 0 [.pool (at' 0) (.init (cfg 0 500 200))]) (.code 17) = true ∧
    failsWith (play ⟨none, fun _ => { admin := 9, decimals := 7, bal := fun _ => 0, allow := fun _ _ => ⟨0, 0⟩ }⟩
      [.pool (at' 0) (.init { cfg 0 500 200 with tokenA := 11, tokenB := 10 })]) (.code 18) = true ∧
    failsWith (setup 1501 5000 1000 0 0 []) (.code 25) = true := by decide +kernel

end Phoenix.Conform.PoolUnit
