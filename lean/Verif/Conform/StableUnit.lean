import Verif.Conform.Stable
/-
The unit tests inside the source of the stable pool and its configuration tests, replayed on the model
(contracts/pool_stable/src/contract.rs, mod tests, and contracts/pool_stable/src/tests/config.rs), and the remaining tests of
liquidity.rs.  These are tests of the model, not proofs of properties.
-/
namespace Phoenix.Conform.StableUnit
open Phoenix Phoenix.Stable Phoenix.Conform.Stable

/-! contract.rs -/

/-- `test_assert_max_spread_success`, `..._fail_max_spread_exceeded`, `..._success_no_belief_price`,
`..._fail_no_belief_price_max_spread_exceeded` -/
example : okAnd (do assertMaxSpread (← Dec.percent 10) 100001 1) (fun _ => true) = true ∧
    failsWith (do assertMaxSpread (← Dec.percent 10) 100 35) (.code 1) = true ∧
    okAnd (do assertMaxSpread (← Dec.percent 10) 10 1) (fun _ => true) = true ∧
    failsWith (do assertMaxSpread (← Dec.percent 10) 10 2) (.code 1) = true := by decide +kernel

/-! config.rs; admin1 is 8, admin2 is 6, user1 is 7 -/

def args (fee slip spread : Int) (amp : Nat) : InitArgs :=
  { cfg fee with maxSlippageBps := slip, maxSpreadBps := spread, amp := amp }
/-- a fresh pool followed by calls of `update_config` -/
def conf (i : InitArgs) (us : List (Addr × ConfigUpdate)) : Res Sys :=
  play ⟨none, fun _ => { admin := 9, decimals := 7, bal := fun _ => 0, allow := fun _ _ => ⟨0, 0⟩ }⟩
    (.pool (at' 0) (.init i) :: us.map (fun u => .pool (at' 0) (.updateConfig u.1 u.2)))
/-- `query_config`: fee, fee recipient, slippage and spread -/
def showsCfg (r : Res Sys) (fee : Int) (rcp : Addr) (slip spread : Int) : Bool :=
  okAnd r (fun s => decide (s.pool.map (·.cfg) = some ⟨10, 11, 12, 13, fee, rcp, slip, 2500, spread⟩))

def feesTo : ConfigUpdate := { totalFeeBps := some 500, feeRecipient := some 6 }
def limits : ConfigUpdate := { maxSlippageBps := some 5000, maxSpreadBps := some 500 }
def tooHigh : ConfigUpdate := { totalFeeBps := some 10100, feeRecipient := some 6 }
def allBps : ConfigUpdate := { totalFeeBps := some 1000, feeRecipient := some 6, maxSlippageBps := some 1000, maxSpreadBps := some 1000 }

/-- `update_config`, `update_config_update_admin`, `update_config_all_bps_params_should_work` -/
example : showsCfg (conf (args 0 500 200 6) []) 0 7 500 200 = true ∧
    showsCfg (conf (args 0 500 200 6) [(8, feesTo)]) 500 6 500 200 = true ∧
    showsCfg (conf (args 0 500 200 6) [(8, feesTo), (8, limits)]) 500 6 5000 500 = true ∧
    showsCfg (conf (args 0 500 200 6) [(8, { newAdmin := some 6 }), (6, { maxSpreadBps := some 3000 })]) 0 7 500 3000 = true ∧
    showsCfg (conf (args 0 500 200 6) [(8, allBps)]) 1000 6 1000 1000 = true := by decide +kernel

/-- `update_config_unauthorized`, `update_config_too_high_fees`, `initialize_with_incorrect_amp`,
`create_stable_pool_with_too_high_swap_fee_bps_should_panic` -/
example : failsWith (conf (args 0 500 200 6) [(55, feesTo)]) (.code 11) = true ∧
    failsWith (conf (args 0 500 200 6) [(8, tooHigh)]) .panic = true ∧
    failsWith (conf (args 0 500 200 0) []) (.code 18) = true ∧
    failsWith (conf (args 2000 500 200 6) []) (.code 22) = true := by decide +kernel

/-! liquidity.rs -/

/-- `provide_liqudity_should_panic_when_shares_to_be_minted_below_minimum_shares`: the test is `#[ignore]`d in /repo
("maybe not the right logic when checking if min_shares is above shares"); the model, like the code, lets the deposit through -/
example : okAnd (play ⟨none, fun _ => { admin := 9, decimals := 7, bal := fun _ => 0, allow := fun _ _ => ⟨0, 0⟩ }⟩
      [.pool (at' 0) (.init (args 0 10000 1000 6)), .token (at' 0) 10 (.mint 1 2000), .token (at' 0) 11 (.mint 1 2000),
       dep 1 1000 1000, .pool (at' 0) (.provide 1 1000 1000 (some 1) none none)])
    (fun s => decide (view s = (some (2000, 2000, 2000), 0, 0))) = true := by decide +kernel

end Phoenix.Conform.StableUnit
