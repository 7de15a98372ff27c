{
 "claims": [
  {
   "property": "C01",
   "status": "proved",
   "theorems": [
    "Phoenix.Props.C01_swap_exact"
   ],
   "note": ""
  },
  {
   "property": "C02",
   "status": "proved",
   "theorems": [
    "Phoenix.Props.C02_gross_is_rounded_up_cp",
    "Phoenix.Props.C02_never_beats_spot"
   ],
   "note": ""
  },
  {
   "property": "C03",
   "status": "proved",
   "theorems": [
    "Phoenix.Props.C03_product_bounds",
    "Phoenix.Props.C03_product_can_shrink",
    "Phoenix.Props.C03_swap_product"
   ],
   "note": "The strong reading (product never decreases) is false; refuted by C03_product_can_shrink. The exact bound is proved."
  },
  {
   "property": "C04",
   "status": "proved",
   "theorems": [
    "Phoenix.Props.C04_protections"
   ],
   "note": ""
  },
  {
   "property": "C05",
   "status": "proved",
   "theorems": [
    "Phoenix.Props.C05_simulation_exact"
   ],
   "note": ""
  },
  {
   "property": "C06",
   "status": "proved",
   "theorems": [
    "Phoenix.Props.C06_reverse_quote",
    "Phoenix.Props.C06_quote_is_one_short",
    "Phoenix.Props.C06_impossible_ask_negative_quote",
    "Phoenix.Props.C06_reverse_then_swap",
    "Phoenix.Props.C06_quote_not_enough"
   ],
   "note": "The naive reading is false; refuted by C06_quote_is_one_short and C06_impossible_ask_negative_quote. Adequacy with a correction of one unit is proved."
  },
  {
   "property": "C07",
   "status": "proved",
   "theorems": [
    "Phoenix.Props.C07_withdraw_pro_rata"
   ],
   "note": ""
  },
  {
   "property": "C08",
   "status": "proved",
   "theorems": [
    "Phoenix.Props.C08_mint_at_most_pro_rata",
    "Phoenix.Props.C08_mint_is_maximal",
    "Phoenix.Props.C08_first_deposit"
   ],
   "note": ""
  },
  {
   "property": "C09",
   "status": "proved",
   "theorems": [
    "Phoenix.Props.C09_deposit_amounts",
    "Phoenix.Props.C09_deposit_follows_ratio",
    "Phoenix.Props.C09_first_deposit_ignores_minimums"
   ],
   "note": "On an empty pool the minimums are not compared with the amounts: C09_first_deposit_ignores_minimums."
  },
  {
   "property": "C10",
   "status": "proved",
   "theorems": [
    "Phoenix.Props.C10_reserves_backed"
   ],
   "note": ""
  },
  {
   "property": "C11",
   "status": "proved",
   "theorems": [
    "Phoenix.Props.C11_supply_covers",
    "Phoenix.Props.C11_supply_exact"
   ],
   "note": ""
  },
  {
   "property": "C12",
   "status": "proved",
   "theorems": [
    "Phoenix.Props.C12_minimum_liquidity",
    "Phoenix.Props.C12_locked_for_ever"
   ],
   "note": ""
  },
  {
   "property": "C13",
   "status": "proved",
   "theorems": [
    "Phoenix.Props.C13_backing_per_share"
   ],
   "note": ""
  },
  {
   "property": "C14",
   "status": "proved",
   "theorems": [
    "Phoenix.Props.C14_deposit_withdraw_no_profit"
   ],
   "note": ""
  },
  {
   "property": "C15",
   "status": "proved",
   "theorems": [
    "Phoenix.Props.C15_round_trip",
    "Phoenix.Props.C15_round_trip_can_profit",
    "Phoenix.Props.C15_swap_round_trip"
   ],
   "note": "The naive reading is false; refuted by C15_round_trip_can_profit. The bound is proved."
  },
  {
   "property": "C16",
   "status": "proved",
   "theorems": [
    "Phoenix.Props.C16_no_unauthorised_movement"
   ],
   "note": ""
  },
  {
   "property": "C17",
   "status": "proved",
   "theorems": [
    "Phoenix.Props.C17_init_once",
    "Phoenix.Props.C17_addresses_fixed",
    "Phoenix.Props.C17_config_in_range",
    "Phoenix.Props.C17_only_admin_changes",
    "Phoenix.Props.C17_fee_cap_not_kept"
   ],
   "note": "The fee cap checked by initialize is not kept by update_config: C17_fee_cap_not_kept."
  },
  {
   "property": "C18",
   "status": "proved",
   "theorems": [
    "Phoenix.Props.C18_half_remains",
    "Phoenix.Props.C18_not_drained",
    "Phoenix.Props.C18_swap_leaves_half"
   ],
   "note": ""
  },
  {
   "property": "C19",
   "status": "proved",
   "theorems": [
    "Phoenix.Props.C19_monotone",
    "Phoenix.Props.C19_average_price"
   ],
   "note": ""
  },
  {
   "property": "C20",
   "status": "proved",
   "theorems": [
    "Phoenix.Props.C20_commission"
   ],
   "note": ""
  },
  {
   "property": "C21",
   "status": "proved",
   "theorems": [
    "Phoenix.Props.C21_exact_effect",
    "Phoenix.Props.C21_supply",
    "Phoenix.Props.C21_others_unchanged",
    "Phoenix.Props.C21_amount_bounds"
   ],
   "note": ""
  },
  {
   "property": "C22",
   "status": "proved",
   "theorems": [
    "Phoenix.Props.C22_never_negative_never_overflow"
   ],
   "note": ""
  },
  {
   "property": "C23",
   "status": "proved",
   "theorems": [
    "Phoenix.Props.C23_allowance_bounds_spending",
    "Phoenix.Props.C23_nothing_after_expiry",
    "Phoenix.Props.C23_approve_sets"
   ],
   "note": ""
  },
  {
   "property": "C24",
   "status": "proved",
   "theorems": [
    "Phoenix.Props.C24_admin_change_authorised",
    "Phoenix.Props.C24_supply_growth_authorised",
    "Phoenix.Props.C24_no_inflation"
   ],
   "note": ""
  },
  {
   "property": "C25",
   "status": "proved",
   "theorems": [
    "Phoenix.Props.C25_value_in_range",
    "Phoenix.Props.C25_range_attained"
   ],
   "note": ""
  },
  {
   "property": "C26",
   "status": "proved",
   "theorems": [
    "Phoenix.Props.C26_decreasing",
    "Phoenix.Props.C26_increasing",
    "Phoenix.Props.C26_rejected_increases",
    "Phoenix.Props.C26_rejected_decreases"
   ],
   "note": ""
  },
  {
   "property": "C27",
   "status": "proved",
   "theorems": [
    "Phoenix.Props.C27_combine_constant",
    "Phoenix.Props.C27_combine_at_breakpoints",
    "Phoenix.Props.C27_combine_near",
    "Phoenix.Props.C27_combine_valid",
    "Phoenix.Props.C27_combine_can_be_invalid"
   ],
   "note": "Combination agrees exactly at breakpoints and outside, within 2 units elsewhere; C27_combine_can_be_invalid shows the result of combining two valid curves may fail validate (first time 0)."
  },
  {
   "property": "C28",
   "status": "proved",
   "theorems": [
    "Phoenix.Props.C28_breakpoints"
   ],
   "note": ""
  },
  {
   "property": "C29",
   "status": "proved",
   "theorems": [
    "Phoenix.Props.C29_obligations_backed",
    "Phoenix.Props.C29_reported_balance_covers"
   ],
   "note": ""
  },
  {
   "property": "C30",
   "status": "proved",
   "theorems": [
    "Phoenix.Props.C30_claimed_is_vested",
    "Phoenix.Props.C30_never_more_than_vested"
   ],
   "note": ""
  },
  {
   "property": "C31",
   "status": "proved",
   "theorems": [
    "Phoenix.Props.C31_everything_claimable",
    "Phoenix.Props.C31_end_instant_can_fail"
   ],
   "note": "At the very second of the end a saturating curve can overflow (C31_end_instant_can_fail); one second later the claim always succeeds."
  },
  {
   "property": "C32",
   "status": "proved",
   "theorems": [
    "Phoenix.Props.C32_claim_only_own",
    "Phoenix.Props.C32_schedules_permanent",
    "Phoenix.Props.C32_create_exact"
   ],
   "note": ""
  },
  {
   "property": "C33",
   "status": "proved",
   "theorems": [
    "Phoenix.Props.C33_repeat_fails",
    "Phoenix.Props.C33_increment"
   ],
   "note": ""
  },
  {
   "property": "C34",
   "status": "proved",
   "theorems": [
    "Phoenix.Props.C34_minted_bounded",
    "Phoenix.Props.C34_only_minter_mints",
    "Phoenix.Props.C34_minter_changes_authorised"
   ],
   "note": ""
  },
  {
   "property": "C35",
   "status": "proved",
   "theorems": [
    "Phoenix.Props.C35_principal_backed",
    "Phoenix.Props.C35_total_is_sum",
    "Phoenix.Props.C35_principal_backed_always"
   ],
   "note": "C35_principal_backed_always drops the assumption about the reward tokens for well-timed histories."
  },
  {
   "property": "C36",
   "status": "proved",
   "theorems": [
    "Phoenix.Props.C36_unbond_exact",
    "Phoenix.Props.C36_no_stake_fails",
    "Phoenix.Props.C36_unbond_succeeds",
    "Phoenix.Props.C36_unbond_succeeds_always",
    "Phoenix.Props.C36_only_owner"
   ],
   "note": ""
  },
  {
   "property": "C37",
   "status": "proved",
   "theorems": [
    "Phoenix.Props.C37_paid_at_most_distributed",
    "Phoenix.Props.C37_holdings",
    "Phoenix.Props.C37_can_overpay"
   ],
   "note": "The restriction is needed: C37_can_overpay is a history paying 1500 of 1000 distributed."
  },
  {
   "property": "C38",
   "status": "proved",
   "theorems": [
    "Phoenix.Props.C38_nothing_left",
    "Phoenix.Props.C38_zero_right_after"
   ],
   "note": "C38_nothing_left: for every later history without a distribution of the token; C38_zero_right_after: any state."
  },
  {
   "property": "C39",
   "status": "proved",
   "theorems": [
    "Phoenix.Props.C39_pending_formula",
    "Phoenix.Props.C39_query_formula",
    "Phoenix.Props.C39_query_is_payout"
   ],
   "note": "The formula is proved for well-timed histories; that the query equals the payment for all states."
  },
  {
   "property": "C40",
   "status": "proved",
   "theorems": [
    "Phoenix.Props.C40_newer_stake_blocks",
    "Phoenix.Props.C40_withdraw_succeeds"
   ],
   "note": "C40_newer_stake_blocks is the defect; C40_withdraw_succeeds the positive half with explicit no-overflow conditions."
  },
  {
   "property": "C41",
   "status": "proved",
   "theorems": [
    "Phoenix.Props.C41_all_recorded",
    "Phoenix.Props.C41_same_time_lost",
    "Phoenix.Props.C41_same_time_skipped"
   ],
   "note": "The naive reading is false: C41_same_time_lost, C41_same_time_skipped. C41_all_recorded is the positive half for well-timed histories."
  },
  {
   "property": "C42",
   "status": "proved",
   "theorems": [
    "Phoenix.Props.C42_withdraw_only_pays",
    "Phoenix.Props.C42_only_manager",
    "Phoenix.Props.C42_distribute_exact"
   ],
   "note": ""
  },
  {
   "property": "C43",
   "status": "proved",
   "theorems": [
    "Phoenix.Props.World.C43_pools_exact",
    "Phoenix.Props.World.C43_lookup_iff",
    "Phoenix.Props.World.C43_lookup_symmetric",
    "Phoenix.Props.World.C43_created_found",
    "Phoenix.Props.World.C43_one_pool_per_pair"
   ],
   "note": ""
  },
  {
   "property": "C44",
   "status": "proved",
   "theorems": [
    "Phoenix.Props.World.C44_create_requires",
    "Phoenix.Props.World.C44_settings_by_admin",
    "Phoenix.Props.World.C44_whitelist_update"
   ],
   "note": ""
  },
  {
   "property": "C45",
   "status": "proved",
   "theorems": [
    "Phoenix.Props.Multihop.C45_route_is_chain",
    "Phoenix.Props.Multihop.C45_route_iff",
    "Phoenix.Props.Multihop.C45_net_effect"
   ],
   "note": ""
  },
  {
   "property": "C46",
   "status": "proved",
   "theorems": [
    "Phoenix.Props.Multihop.C46_simulation_exact",
    "Phoenix.Props.Multihop.C46_repeated_pool_differs"
   ],
   "note": "Exact for routes without repeated pools; C46_repeated_pool_differs shows the condition is needed."
  },
  {
   "property": "C47",
   "status": "proved",
   "theorems": [
    "Phoenix.Props.Multihop.C47_failed_unchanged",
    "Phoenix.Props.Multihop.C47_failed_hop_undoes",
    "Phoenix.Props.Multihop.C47_refused"
   ],
   "note": ""
  },
  {
   "property": "C48",
   "status": "proved",
   "theorems": [
    "Phoenix.Props.Trader.C48_only_admin",
    "Phoenix.Props.Trader.C48_trade_inputs",
    "Phoenix.Props.Trader.C48_transfer_exact",
    "Phoenix.Props.Trader.C48_init",
    "Phoenix.Props.Trader.C48_permanent",
    "Phoenix.Props.Trader.C48_funds_safe"
   ],
   "note": ""
  },
  {
   "property": "C49",
   "status": "proved",
   "theorems": [
    "Phoenix.Props.Trader.C49_default_is_callers_balance",
    "Phoenix.Props.Trader.C49_fails_if_admin_has_none"
   ],
   "note": "The claim users expect is false: the default is the caller's balance. Stated for all contexts, because C81 shows that no real transaction gets through."
  },
  {
   "property": "C50",
   "status": "proved",
   "theorems": [
    "Phoenix.Props.Stable.C50_payout_within_curve",
    "Phoenix.Props.Stable.C50_solver_never_below",
    "Phoenix.Props.Stable.C50_payout_any_decimals",
    "Phoenix.Props.Stable.C50_payout_not_far_below",
    "Phoenix.Props.Stable.C50_at_most_one_to_one"
   ],
   "note": "The solver for all arguments, swaps for all decimals; the sharper consequences for equal decimals, the only pools in which swaps are priced on this curve (C69)."
  },
  {
   "property": "C51",
   "status": "proved",
   "theorems": [
    "Phoenix.Props.Stable.C51_reserves_backed",
    "Phoenix.Props.Stable.C51_supply_covers",
    "Phoenix.Props.Stable.C51_empty",
    "Phoenix.Props.Stable.C51_supply_exact"
   ],
   "note": ""
  },
  {
   "property": "C52",
   "status": "proved",
   "theorems": [
    "Phoenix.Props.Stable.C52_simulation_exact",
    "Phoenix.Props.Stable.C52_protections"
   ],
   "note": ""
  },
  {
   "property": "C53",
   "status": "proved",
   "theorems": [
    "Phoenix.Props.Stable.C53_anyone_takes_over",
    "Phoenix.Props.Stable.C53_sender_must_be_admin_partial"
   ],
   "note": "The claim users expect is false: C53_anyone_takes_over holds in every state. C53_sender_must_be_admin_partial is what remains."
  },
  {
   "property": "C54",
   "status": "proved",
   "theorems": [
    "Phoenix.Props.Stable.C54_swap_always_fails",
    "Phoenix.Props.Stable.C54_deposit_always_fails"
   ],
   "note": "The claim users expect is false; the failure is proved for all states above the bound."
  },
  {
   "property": "C55",
   "status": "proved",
   "theorems": [
    "Phoenix.Props.Stable.C55_amp_between",
    "Phoenix.Props.Stable.C55_amp_constant"
   ],
   "note": ""
  },
  {
   "property": "C56",
   "status": "proved",
   "theorems": [
    "Phoenix.Props.Stable.C56_withdraw_pro_rata",
    "Phoenix.Props.Stable.C56_deposit_mints"
   ],
   "note": ""
  },
  {
   "property": "C57",
   "status": "proved",
   "theorems": [
    "Phoenix.Props.Decimal.C57_cut_error",
    "Phoenix.Props.Decimal.C57_add_sub",
    "Phoenix.Props.Decimal.C57_from_ratio",
    "Phoenix.Props.Decimal.C57_div",
    "Phoenix.Props.Decimal.C57_mul",
    "Phoenix.Props.Decimal.C57_mul_int",
    "Phoenix.Props.Decimal.C57_div_int",
    "Phoenix.Props.Decimal.C57_inv",
    "Phoenix.Props.Decimal.C57_units",
    "Phoenix.Props.Decimal.C57_to_precision",
    "Phoenix.Props.Decimal.C57_from_atomics",
    "Phoenix.Props.Decimal.C57_abs",
    "Phoenix.Props.Decimal.C57_abs_diff",
    "Phoenix.Props.Decimal.C57_abs_diff_wraps",
    "Phoenix.Props.Decimal.C57_pow_le",
    "Phoenix.Props.Decimal.C57_pow_mono",
    "Phoenix.Props.Decimal.C57_pow_error",
    "Phoenix.Props.Decimal.C57_pow_answers",
    "Phoenix.Props.Decimal.C57_multiply_ratio_off"
   ],
   "note": ""
  },
  {
   "property": "C58",
   "status": "proved",
   "theorems": [
    "Phoenix.Props.C58_value_near_exact",
    "Phoenix.Props.C58_value_at_breakpoints"
   ],
   "note": ""
  },
  {
   "property": "C59",
   "status": "proved",
   "theorems": [
    "Phoenix.Props.C59_value_total",
    "Phoenix.Props.C59_value_can_fail"
   ],
   "note": "The unconditional reading is false: C59_value_can_fail. Totality is proved under the exact no-overflow condition."
  },
  {
   "property": "C60",
   "status": "proved",
   "theorems": [
    "Phoenix.Props.C60_surplus_never_leaves"
   ],
   "note": ""
  },
  {
   "property": "C61",
   "status": "proved",
   "theorems": [
    "Phoenix.Props.C61_valid_schedules_accepted"
   ],
   "note": ""
  },
  {
   "property": "C62",
   "status": "proved",
   "theorems": [
    "Phoenix.Props.C62_query_all_complete"
   ],
   "note": ""
  },
  {
   "property": "C63",
   "status": "proved",
   "theorems": [
    "Phoenix.Props.C63_no_unauthorised_movement"
   ],
   "note": ""
  },
  {
   "property": "C64",
   "status": "proved",
   "theorems": [
    "Phoenix.Props.C64_setup_permanent",
    "Phoenix.Props.C64_anyone_initialises"
   ],
   "note": "C64_anyone_initialises records that initialisation is unprotected."
  },
  {
   "property": "C65",
   "status": "proved",
   "theorems": [
    "Phoenix.Props.C65_unbond_forfeits"
   ],
   "note": ""
  },
  {
   "property": "C66",
   "status": "proved",
   "theorems": [
    "Phoenix.Props.C66_bond_exact",
    "Phoenix.Props.C66_bond_succeeds"
   ],
   "note": ""
  },
  {
   "property": "C67",
   "status": "proved",
   "theorems": [
    "Phoenix.Props.C67_config_permanent",
    "Phoenix.Props.C67_anyone_initialises"
   ],
   "note": "C67_anyone_initialises records that initialisation is unprotected."
  },
  {
   "property": "C68",
   "status": "proved",
   "theorems": [
    "Phoenix.Props.Stable.C68_small_swaps_fail"
   ],
   "note": "The claim users expect is false; the failure is proved."
  },
  {
   "property": "C69",
   "status": "proved",
   "theorems": [
    "Phoenix.Props.Stable.C69_different_decimals",
    "Phoenix.Props.Stable.C69_selling_finer_token_fails"
   ],
   "note": "The claim users expect is false; the failure is proved."
  },
  {
   "property": "C70",
   "status": "proved",
   "theorems": [
    "Phoenix.Props.Stable.C70_deposit_stolen",
    "Phoenix.Props.Stable.C70_min_shares_partial",
    "Phoenix.Props.Stable.C70_credit_up_to_one_share"
   ],
   "note": "The claim users expect is false (C70_deposit_stolen); C70_min_shares_partial is the protection that works, and C70_credit_up_to_one_share says how little can be lost while a share is worth little."
  },
  {
   "property": "C71",
   "status": "proved",
   "theorems": [
    "Phoenix.Props.Stable.C71_no_unauthorised_movement"
   ],
   "note": ""
  },
  {
   "property": "C72",
   "status": "proved",
   "theorems": [
    "Phoenix.Props.Stable.C72_init_once",
    "Phoenix.Props.Stable.C72_addresses_fixed",
    "Phoenix.Props.Stable.C72_config_in_range"
   ],
   "note": ""
  },
  {
   "property": "C73",
   "status": "proved",
   "theorems": [
    "Phoenix.Props.Stable.C73_frozen_for_ever",
    "Phoenix.Props.Stable.C73_one_swap_freezes"
   ],
   "note": "The claim users expect is false: C73_one_swap_freezes reaches a state that C73_frozen_for_ever proves permanent."
  },
  {
   "property": "C74",
   "status": "proved",
   "theorems": [
    "Phoenix.Props.Stable.C74_fee_avoided",
    "Phoenix.Props.Stable.C74_deposit_ignores_fee",
    "Phoenix.Props.Stable.C74_withdrawal_ignores_fee"
   ],
   "note": "The claim users expect is false, shown by C74_fee_avoided; C74_deposit_ignores_fee and C74_withdrawal_ignores_fee show that it fails at every fee."
  },
  {
   "property": "C75",
   "status": "proved",
   "theorems": [
    "Phoenix.Props.C75_query_predicts_withdrawal",
    "Phoenix.Props.C75_withdraw_works",
    "Phoenix.Props.C75_query_answers",
    "Phoenix.Props.C75_large_pool_overflows",
    "Phoenix.Props.Stable.C75_query_predicts_withdrawal",
    "Phoenix.Props.Stable.C75_withdraw_works"
   ],
   "note": "Theorems of the same names exist for both pools. C75_large_pool_overflows shows that the limit is real."
  },
  {
   "property": "C76",
   "status": "proved",
   "theorems": [
    "Phoenix.Props.World.C76_pools_backed",
    "Phoenix.Props.World.C76_stakes_and_vestings_backed",
    "Phoenix.Props.World.C76_rewards_backed"
   ],
   "note": ""
  },
  {
   "property": "C77",
   "status": "proved",
   "theorems": [
    "Phoenix.Props.World.C77_silent_account_keeps"
   ],
   "note": ""
  },
  {
   "property": "C78",
   "status": "proved",
   "theorems": [
    "Phoenix.Props.World.C78_created_pool_wired"
   ],
   "note": ""
  },
  {
   "property": "C79",
   "status": "proved",
   "theorems": [
    "Phoenix.Props.World.C79_contracts_separate",
    "Phoenix.Props.World.C79_funds_separate"
   ],
   "note": ""
  },
  {
   "property": "C80",
   "status": "proved",
   "theorems": [
    "Phoenix.Props.Multihop.C80_xyk_reverse_chain",
    "Phoenix.Props.Multihop.C80_stable_wrong_side",
    "Phoenix.Props.Multihop.C80_reverse_quote_wrong"
   ],
   "note": "True for XYK routes; false through stable pools (C80_stable_wrong_side, C80_reverse_quote_wrong)."
  },
  {
   "property": "C81",
   "status": "proved",
   "theorems": [
    "Phoenix.Props.Trader.C81_trade_never_succeeds",
    "Phoenix.Props.Trader.C81_only_transfer_spends"
   ],
   "note": "The claim users expect is false; the failure is proved for all reachable states."
  },
  {
   "property": "C82",
   "status": "proved",
   "theorems": [
    "Phoenix.Props.C82_text_is_exact",
    "Phoenix.Props.C82_round_trip",
    "Phoenix.Props.C82_reads_value",
    "Phoenix.Props.C82_text_injective",
    "Phoenix.Props.C82_negative_fraction_lost",
    "Phoenix.Props.C82_negative_wrong",
    "Phoenix.Props.C82_negative_text"
   ],
   "note": "Proved for non-negative decimals and for texts without sign; for negative ones the claim is false and its failure is proved in general."
  },
  {
   "property": "C83",
   "status": "proved",
   "theorems": [
    "Phoenix.Props.C83_access",
    "Phoenix.Props.C83_settings_permanent",
    "Phoenix.Props.C83_init_once",
    "Phoenix.Props.C83_anyone_initialises"
   ],
   "note": "The open first initialization is proved as a defect (C83_anyone_initialises)."
  },
  {
   "property": "C84",
   "status": "proved",
   "theorems": [
    "Phoenix.Props.C84_solvent",
    "Phoenix.Props.C84_accounting",
    "Phoenix.Props.C84_only_payments_leave"
   ],
   "note": ""
  },
  {
   "property": "C85",
   "status": "proved",
   "theorems": [
    "Phoenix.Props.C85_all_can_be_paid",
    "Phoenix.Props.C85_query_then_withdraw",
    "Phoenix.Props.C85_others_unaffected",
    "Phoenix.Props.C85_own_stake_neutral",
    "Phoenix.Props.C85_own_unstake_neutral",
    "Phoenix.Props.C85_proportional"
   ],
   "note": "Truthful reports are an assumption on the staking contract; C89 shows what happens without it."
  },
  {
   "property": "C86",
   "status": "proved",
   "theorems": [
    "Phoenix.Props.C86_multiplier_range",
    "Phoenix.Props.C86_multiplier_grows",
    "Phoenix.Props.C86_multiplier_full",
    "Phoenix.Props.C86_reduced_by_multiplier",
    "Phoenix.Props.C86_rest_stays"
   ],
   "note": ""
  },
  {
   "property": "C87",
   "status": "proved",
   "theorems": [
    "Phoenix.Props.C87_fund_effect",
    "Phoenix.Props.C87_all_released",
    "Phoenix.Props.C87_later_releases_more",
    "Phoenix.Props.C87_late_start_never_released",
    "Phoenix.Props.C87_empty_schedule_blocks",
    "Phoenix.Props.C87_fund_can_block"
   ],
   "note": "Proved for schedules that end after they start and no later than now plus their duration; false in general, witnesses C87_late_start_never_released, C87_empty_schedule_blocks, C87_fund_can_block."
  },
  {
   "property": "C88",
   "status": "proved",
   "theorems": [
    "Phoenix.Props.C88_rate_full_year",
    "Phoenix.Props.C88_rate_scaled_up",
    "Phoenix.Props.C88_rate_zero",
    "Phoenix.Props.C88_collapses_after_distribution"
   ],
   "note": "Proved while nothing was handed out; false afterwards, witness C88_collapses_after_distribution."
  },
  {
   "property": "C89",
   "status": "proved",
   "theorems": [
    "Phoenix.Props.C89_stored_report_steals",
    "Phoenix.Props.C89_stored_report_error"
   ],
   "note": "A defect: a concrete attack and the general amount of the error."
  },
  {
   "property": "C90",
   "status": "proved",
   "theorems": [
    "Phoenix.Props.Portfolio.C90_all_pools_details",
    "Phoenix.Props.Portfolio.C90_pool_details",
    "Phoenix.Props.Portfolio.C90_portfolio_exact",
    "Phoenix.Props.Portfolio.C90_portfolios_within_reserves",
    "Phoenix.Props.Portfolio.C90_portfolio_answers",
    "Phoenix.Props.Portfolio.C90_large_holder_blocked"
   ],
   "note": ""
  },
  {
   "property": "C91",
   "status": "proved",
   "theorems": [
    "Phoenix.Props.Decimal256.C91_cut_error",
    "Phoenix.Props.Decimal256.C91_add_sub",
    "Phoenix.Props.Decimal256.C91_from_ratio",
    "Phoenix.Props.Decimal256.C91_div",
    "Phoenix.Props.Decimal256.C91_mul",
    "Phoenix.Props.Decimal256.C91_div_int",
    "Phoenix.Props.Decimal256.C91_inv",
    "Phoenix.Props.Decimal256.C91_units",
    "Phoenix.Props.Decimal256.C91_to_precision",
    "Phoenix.Props.Decimal256.C91_from_atomics",
    "Phoenix.Props.Decimal256.C91_abs_diff",
    "Phoenix.Props.Decimal256.C91_multiply_ratio_off",
    "Phoenix.Props.Decimal256.C91_pow_le",
    "Phoenix.Props.Decimal256.C91_pow_mono",
    "Phoenix.Props.Decimal256.C91_pow_error",
    "Phoenix.Props.Decimal256.C91_pow_answers",
    "Phoenix.Props.Decimal256.C91_extends_decimal"
   ],
   "note": ""
  },
  {
   "property": "C92",
   "status": "proved",
   "theorems": [
    "Phoenix.Props.PoolDead.C92_slippage_accepts_iff",
    "Phoenix.Props.PoolDead.C92_slippage_symmetric",
    "Phoenix.Props.PoolDead.C92_default_tolerance",
    "Phoenix.Props.PoolDead.C92_slippage_overflows",
    "Phoenix.Props.PoolDead.C92_split_result",
    "Phoenix.Props.PoolDead.C92_split_small",
    "Phoenix.Props.PoolDead.C92_split_tolerance_absolute"
   ],
   "note": "Both functions are #[allow(dead_code)]; C92_slippage_overflows and C92_split_tolerance_absolute are counterexamples to what their comments promise."
  },
  {
   "property": "C93",
   "status": "proved",
   "theorems": [
    "Phoenix.Props.Admin.C93_replace_iff",
    "Phoenix.Props.Admin.C93_admin_permanent",
    "Phoenix.Props.Admin.C93_code_safe",
    "Phoenix.Props.Admin.C93_stable_taken_over",
    "Phoenix.Props.Admin.C93_factory_init",
    "Phoenix.Props.Admin.C93_router_clean",
    "Phoenix.Props.Admin.C93_router_init",
    "Phoenix.Props.Admin.C93_hashes"
   ],
   "note": "The stable pool violates the property (C93_stable_taken_over, a consequence of C53); for all other contracts it is proved in full."
  },
  {
   "property": "C94",
   "status": "proved",
   "theorems": [
    "Phoenix.Props.Split.C94_split_sale",
    "Phoenix.Props.Split.C94_bounds_sharp"
   ],
   "note": ""
  },
  {
   "property": "C95",
   "status": "proved",
   "theorems": [
    "Phoenix.Props.Avail.C95_quoted_iff",
    "Phoenix.Props.Avail.C95_large_enough",
    "Phoenix.Props.Avail.C95_even_price",
    "Phoenix.Props.Avail.C95_swap_works",
    "Phoenix.Props.Avail.C95_swap_available",
    "Phoenix.Props.Avail.C95_unpayable_refused",
    "Phoenix.Props.Avail.C95_small_swap_refused"
   ],
   "note": "small swaps in large pools trap in the 256-bit subtraction that computes the spread"
  },
  {
   "property": "C96",
   "status": "proved",
   "theorems": [
    "Phoenix.Props.Avail.C96_deposit_iff",
    "Phoenix.Props.Avail.C96_balanced_deposit_accepted",
    "Phoenix.Props.Avail.C96_first_deposit_iff"
   ],
   "note": ""
  },
  {
   "property": "C97",
   "status": "proved",
   "theorems": [
    "Phoenix.Props.Events.C97_log_determines_balances",
    "Phoenix.Props.Events.C97_log_does_not_determine_allowances"
   ],
   "note": ""
  },
  {
   "property": "C98",
   "status": "proved",
   "theorems": [
    "Phoenix.Props.Events.C98_swap_events",
    "Phoenix.Props.Events.C98_deposit_events",
    "Phoenix.Props.Events.C98_withdraw_events",
    "Phoenix.Props.Events.C98_log_does_not_determine_pool",
    "Phoenix.Props.EventsStable.C98_stable_swap_events",
    "Phoenix.Props.EventsStable.C98_stable_deposit_events",
    "Phoenix.Props.EventsStable.C98_stable_withdraw_events"
   ],
   "note": ""
  },
  {
   "property": "C99",
   "status": "proved",
   "theorems": [
    "Phoenix.Props.EventsLog.C99_log_determines_stakes",
    "Phoenix.Props.EventsLog.C99_log_does_not_determine_rewards"
   ],
   "note": ""
  },
  {
   "property": "C100",
   "status": "proved",
   "theorems": [
    "Phoenix.Props.EventsLog.C100_claim_event",
    "Phoenix.Props.EventsLog.C100_log_does_not_name_claimer",
    "Phoenix.Props.EventsLog.C100_mint_event",
    "Phoenix.Props.EventsLog.C100_burn_event",
    "Phoenix.Props.EventsLog.C100_log_determines_minter"
   ],
   "note": ""
  },
  {
   "property": "C101",
   "status": "proved",
   "theorems": [
    "Phoenix.Props.EventsLog.C101_announced_pools"
   ],
   "note": ""
  },
  {
   "property": "C102",
   "status": "proved",
   "theorems": [
    "Phoenix.Props.C102_reserves_backed_any_token",
    "Phoenix.Props.Stable.C102_reserves_backed_any_token"
   ],
   "note": ""
  },
  {
   "property": "C103",
   "status": "proved",
   "theorems": [
    "Phoenix.Props.C103_paid_for_the_offer",
    "Phoenix.Props.C103_providers_pay_the_tax",
    "Phoenix.Props.Stable.C103_paid_for_the_offer"
   ],
   "note": "Finding: the pools do not protect liquidity providers against tokens that charge on transfer."
  },
  {
   "property": "C104",
   "status": "proved",
   "theorems": [
    "Phoenix.Props.C104_vesting_backed_any_token",
    "Phoenix.Props.C104_taxed_token_underfunds"
   ],
   "note": "The contract's own mint and burn wrappers are left out of this model (they are in the main model, C29)."
  },
  {
   "property": "C105",
   "status": "proved",
   "theorems": [
    "Phoenix.Props.C105_stakes_backed_any_token",
    "Phoenix.Props.C105_taxed_reward_unpayable",
    "Phoenix.Props.C105_taxed_stake_underfunds"
   ],
   "note": ""
  },
  {
   "property": "C106",
   "status": "proved",
   "theorems": [
    "Phoenix.Props.Ttl.C106_created_alike",
    "Phoenix.Props.Ttl.C106_lifetimes_invisible",
    "Phoenix.Props.Ttl.C106_only_lifetimes_fail",
    "Phoenix.Props.Ttl.C106_restorable",
    "Phoenix.Props.Ttl.C106_allowance_lasts",
    "Phoenix.Props.Ttl.C106_upkeep",
    "Phoenix.Props.Ttl.C106_network_limit"
   ],
   "note": "Refinement of the token with storage lifetimes (Model/Ttl.lean) to the token without (Model/Token.lean). The host operations on lifetimes are modelled from their documentation."
  },
  {
   "property": "C107",
   "status": "proved",
   "theorems": [
    "Phoenix.Props.Value.C107_value_per_share",
    "Phoenix.Props.Value.C107_no_free_cycle"
   ],
   "note": ""
  },
  {
   "property": "C108",
   "status": "proved",
   "theorems": [
    "Phoenix.Props.Stable.C108_quoted",
    "Phoenix.Props.Stable.C108_swap_works",
    "Phoenix.Props.Stable.C108_swap_available",
    "Phoenix.Props.Stable.C108_large_pool_refuses",
    "Phoenix.Props.Stable.C108_curve_of_loss",
    "Phoenix.Props.Stable.C108_deposit_works",
    "Phoenix.Props.Stable.C108_accepted_but_unswappable"
   ],
   "note": ""
  },
  {
   "property": "C109",
   "status": "proved",
   "theorems": [
    "Phoenix.Props.Stable.C109_value_per_share",
    "Phoenix.Props.Stable.C109_swaps_only",
    "Phoenix.Props.Stable.C109_no_free_cycle"
   ],
   "note": ""
  },
  {
   "property": "C110",
   "status": "proved",
   "theorems": [
    "Phoenix.Props.C110_swap",
    "Phoenix.Props.C110_stable_swap",
    "Phoenix.Props.C110_withdraw",
    "Phoenix.Props.C110_stable_withdraw",
    "Phoenix.Props.C110_deposit",
    "Phoenix.Props.C110_stable_deposit",
    "Phoenix.Props.C110_bond",
    "Phoenix.Props.C110_distribute",
    "Phoenix.Props.C110_no_further_signature",
    "Phoenix.Props.C110_create",
    "Phoenix.Props.C110_deposit_signature_expires"
   ],
   "note": "C110_deposit_signature_expires is the concrete witness for a deposit refused after a price move."
  },
  {
   "property": "C111",
   "status": "proved",
   "theorems": [
    "Phoenix.Props.Multihop.C111_route_signed",
    "Phoenix.Props.Multihop.C111_exact_tree_suffices",
    "Phoenix.Props.Multihop.C111_signature_fixes_amounts",
    "Phoenix.Props.Multihop.C111_single_hop",
    "Phoenix.Props.Multihop.C111_route_signature_expires"
   ],
   "note": "C111_route_signature_expires is the concrete witness."
  },
  {
   "property": "C112",
   "status": "proved",
   "theorems": [
    "Phoenix.Props.World.C112_call",
    "Phoenix.Props.World.C112_history",
    "Phoenix.Props.World.C112_shares",
    "Phoenix.Props.World.C112_no_inflation"
   ],
   "note": ""
  },
  {
   "property": "C113",
   "status": "proved",
   "theorems": [
    "Phoenix.Props.World.C113_initialize",
    "Phoenix.Props.World.C113_bond",
    "Phoenix.Props.World.C113_unbond",
    "Phoenix.Props.World.C113_unbond_always",
    "Phoenix.Props.World.C113_create_flow",
    "Phoenix.Props.World.C113_distribute",
    "Phoenix.Props.World.C113_withdraw"
   ],
   "note": ""
  },
  {
   "property": "C114",
   "status": "proved",
   "theorems": [
    "Phoenix.Props.World.C114_initialize",
    "Phoenix.Props.World.C114_create",
    "Phoenix.Props.World.C114_claim",
    "Phoenix.Props.World.C114_burn",
    "Phoenix.Props.World.C114_mint",
    "Phoenix.Props.World.C114_update_minter",
    "Phoenix.Props.World.C114_update_capacity"
   ],
   "note": ""
  },
  {
   "property": "C115",
   "status": "proved",
   "theorems": [
    "Phoenix.Props.World.C115_origin",
    "Phoenix.Props.World.C115_code_stays",
    "Phoenix.Props.World.C115_no_new_kind"
   ],
   "note": ""
  },
  {
   "property": "C116",
   "status": "proved",
   "theorems": [
    "Phoenix.Props.World.C116_create_pool",
    "Phoenix.Props.World.C116_factory_initialize",
    "Phoenix.Props.World.C116_xyk_initialize",
    "Phoenix.Props.World.C116_stable_initialize",
    "Phoenix.Props.World.C116_update_whitelist",
    "Phoenix.Props.World.C116_update_hashes",
    "Phoenix.Props.World.C116_update",
    "Phoenix.Props.World.C116_trader_initialize",
    "Phoenix.Props.World.C116_trader_transfer"
   ],
   "note": ""
  },
  {
   "property": "C117",
   "status": "proved",
   "theorems": [
    "Phoenix.Props.Stable.C117_exact_within_one_unit",
    "Phoenix.Props.Stable.C117_offering_more",
    "Phoenix.Props.Stable.C117_more_can_pay_less"
   ],
   "note": "the unconditional claim is false; C117_more_can_pay_less is the witness"
  },
  {
   "property": "C118",
   "status": "proved",
   "theorems": [
    "Phoenix.Props.World.C118_order_does_not_matter",
    "Phoenix.Props.World.C118_same_outcome"
   ],
   "note": "Providing liquidity, routes and the calls that deploy or configure contracts are not in the class of calls considered."
  },
  {
   "property": "C119",
   "status": "proved",
   "theorems": [
    "Phoenix.Props.C119_accepts_iff",
    "Phoenix.Props.C119_construct_iff",
    "Phoenix.Props.C119_holder_can_always_pay"
   ],
   "note": "Storage lifetimes can delay a call besides (C106)."
  },
  {
   "property": "C120",
   "status": "proved",
   "theorems": [
    "Phoenix.Props.C120_pool_call",
    "Phoenix.Props.C120_pool_history",
    "Phoenix.Props.C120_stable_call",
    "Phoenix.Props.C120_stable_history",
    "Phoenix.Props.C120_stake_call",
    "Phoenix.Props.C120_stake_history",
    "Phoenix.Props.C120_token_construct",
    "Phoenix.Props.C120_token_call",
    "Phoenix.Props.C120_token_history",
    "Phoenix.Props.C120_vesting_history",
    "Phoenix.Props.C120_vesting_call"
   ],
   "note": "Storage is a map from (kind, key) to a typed value; lifetimes are the subject of C106. The binary encoding of keys is taken to be injective (soroban-sdk)."
  },
  {
   "property": "C121",
   "status": "proved",
   "theorems": [
    "Phoenix.Props.Multihop.C121_quote_iff",
    "Phoenix.Props.Multihop.C121_reverse_quote_iff"
   ],
   "note": ""
  },
  {
   "property": "C122",
   "status": "proved",
   "theorems": [
    "Phoenix.Props.Life.C122_pool_history",
    "Phoenix.Props.Life.C122_pool_fails_iff",
    "Phoenix.Props.Life.C122_pool_restorable",
    "Phoenix.Props.Life.C122_pool_upkeep",
    "Phoenix.Props.Life.C122_stable_history",
    "Phoenix.Props.Life.C122_stable_fails_iff",
    "Phoenix.Props.Life.C122_stable_restorable",
    "Phoenix.Props.Life.C122_stable_upkeep",
    "Phoenix.Props.Life.C122_stake_history",
    "Phoenix.Props.Life.C122_stake_fails_iff",
    "Phoenix.Props.Life.C122_stake_restorable",
    "Phoenix.Props.Life.C122_stake_upkeep",
    "Phoenix.Props.Life.C122_vesting_history",
    "Phoenix.Props.Life.C122_vesting_fails_iff",
    "Phoenix.Props.Life.C122_vesting_restorable",
    "Phoenix.Props.Life.C122_vesting_upkeep"
   ],
   "note": ""
  },
  {
   "property": "C123",
   "status": "proved",
   "theorems": [
    "Phoenix.Props.Life.C123_history",
    "Phoenix.Props.Life.C123_fails_iff",
    "Phoenix.Props.Life.C123_restorable",
    "Phoenix.Props.Life.C123_upkeep",
    "Phoenix.Props.Life.C123_not_kept"
   ],
   "note": ""
  },
  {
   "property": "C124",
   "status": "proved",
   "theorems": [
    "Phoenix.Props.Sandwich.C124_together",
    "Phoenix.Props.Sandwich.C124_sandwich",
    "Phoenix.Props.Sandwich.C124_limit"
   ],
   "note": ""
  },
  {
   "property": "C125",
   "status": "proved",
   "theorems": [
    "Phoenix.Props.EventsRewards.C125_same",
    "Phoenix.Props.EventsRewards.C125_distributed",
    "Phoenix.Props.EventsRewards.C125_undistributed",
    "Phoenix.Props.EventsRewards.C125_paid_to",
    "Phoenix.Props.EventsRewards.C125_balance",
    "Phoenix.Props.EventsRewards.C125_funding_told"
   ],
   "note": ""
  },
  {
   "property": "C126",
   "status": "proved",
   "theorems": [
    "Phoenix.Props.Life.C126_factory_history",
    "Phoenix.Props.Life.C126_factory_fails_iff",
    "Phoenix.Props.Life.C126_factory_restorable",
    "Phoenix.Props.Life.C126_factory_upkeep",
    "Phoenix.Props.Life.C126_router_history",
    "Phoenix.Props.Life.C126_router_fails_iff",
    "Phoenix.Props.Life.C126_router_restorable",
    "Phoenix.Props.Life.C126_router_upkeep",
    "Phoenix.Props.Life.C126_router_begins",
    "Phoenix.Props.Life.C126_trader_history",
    "Phoenix.Props.Life.C126_trader_fails_iff",
    "Phoenix.Props.Life.C126_trader_restorable",
    "Phoenix.Props.Life.C126_trader_upkeep"
   ],
   "note": "The storage of one contract at a time is modelled with lifetimes; the other contracts of the history are there without."
  },
  {
   "property": "C127",
   "status": "proved",
   "theorems": [
    "Phoenix.Props.C127_init_iff",
    "Phoenix.Props.C127_add_user_accepted",
    "Phoenix.Props.C127_bond_accepted",
    "Phoenix.Props.C127_query_answers",
    "Phoenix.Props.C127_withdraw_accepted",
    "Phoenix.Props.C127_unbond_accepted",
    "Phoenix.Props.C127_distribute_accepted",
    "Phoenix.Props.C127_fund_iff",
    "Phoenix.Props.C127_schedule_stays_simple",
    "Phoenix.Props.C127_large_stake_blocked"
   ],
   "note": "The bound is needed: C127_large_stake_blocked. During a schedule distribute_rewards can be refused (C87)."
  },
  {
   "property": "C128",
   "status": "proved",
   "theorems": [
    "Phoenix.Props.World.C128_value_in_protocol",
    "Phoenix.Props.World.C128_silent_provider"
   ],
   "note": "The loss by rounding is real (C107): one part in m+1 for each swap."
  },
  {
   "property": "C129",
   "status": "proved",
   "theorems": [
    "Phoenix.Props.World.C129_rights_kept",
    "Phoenix.Props.World.C129_only_approve",
    "Phoenix.Props.World.C129_allowance_from_approve",
    "Phoenix.Props.World.C129_never_approved",
    "Phoenix.Props.World.C129_unsigned_keeps"
   ],
   "note": ""
  },
  {
   "property": "C130",
   "status": "proved",
   "theorems": [
    "Phoenix.Props.World.C130_withdraw_xyk",
    "Phoenix.Props.World.C130_exit_xyk",
    "Phoenix.Props.World.C130_withdraw_stable",
    "Phoenix.Props.World.C130_exit_stable"
   ],
   "note": "Overflow limit of query_share: C75. If the shares are also a reward token of the stake contract, unbonding is covered by C36 for well-timed histories."
  },
  {
   "property": "C131",
   "status": "proved",
   "theorems": [
    "Phoenix.Props.World.C131_value_in_protocol",
    "Phoenix.Props.World.C131_silent_provider"
   ],
   "note": "Fair condition as in C109 (same decimals of at most 13, balance within 1:1000, total below the amplification bound); hop by hop for routes. XYK pools: C128."
  },
  {
   "property": "C132",
   "status": "proved",
   "theorems": [
    "Phoenix.Props.Stable.C132_swaps_gain_nothing"
   ],
   "note": "Fair condition as in C109. XYK pools: C15, C124."
  },
  {
   "property": "C133",
   "status": "proved",
   "theorems": [
    "Phoenix.Props.EventsLog.C133_story",
    "Phoenix.Props.EventsLog.C133_traders_tell_no_trade"
   ],
   "note": "The event with the trader's name is left out: names are not part of the model. That no trade is ever shown follows from C81."
  },
  {
   "property": "C134",
   "status": "proved",
   "theorems": [
    "Phoenix.Props.Queries.C134_pool_answers",
    "Phoenix.Props.Queries.C134_pool_truthful",
    "Phoenix.Props.Queries.C134_pool_addresses",
    "Phoenix.Props.Queries.C134_trader_for_ever",
    "Phoenix.Props.Queries.C134_trader_balances"
   ],
   "note": "Names and symbols of tokens and of the trader are not part of the model."
  },
  {
   "property": "C135",
   "status": "proved",
   "theorems": [
    "Phoenix.Props.Deposit.C135_deposit_worth",
    "Phoenix.Props.Deposit.C135_deposit_and_leave",
    "Phoenix.Props.Deposit.C135_donation_captured",
    "Phoenix.Props.Deposit.C135_small_deposit_earns_nothing"
   ],
   "note": ""
  },
  {
   "property": "C136",
   "status": "proved",
   "theorems": [
    "Phoenix.Props.World.C136_trading_earns_nothing"
   ],
   "note": "The expectation fails; the theorem is the negation in full generality. C128 is the matching lower bound. Rewards for providers come from the stake contract only."
  },
  {
   "property": "C137",
   "status": "proved",
   "theorems": [
    "Phoenix.Props.Rename.C137_same_outcome",
    "Phoenix.Props.Rename.C137_no_address_is_special",
    "Phoenix.Props.Rename.C137_same_balances",
    "Phoenix.Props.Rename.C137_same_quotes",
    "Phoenix.Props.Rename.C137_same_claims",
    "Phoenix.Props.Rename.C137_twins",
    "Phoenix.Props.Rename.C137_order_matters"
   ],
   "note": "C137_order_matters shows that the condition on the order of the tokens cannot be dropped."
  },
  {
   "property": "C138",
   "status": "proved",
   "theorems": [
    "Phoenix.Props.Mirror.C138_neither_token_favoured",
    "Phoenix.Props.Mirror.C138_neither_token_favoured_stable",
    "Phoenix.Props.Mirror.C138_same_quotes",
    "Phoenix.Props.Mirror.C138_same_share",
    "Phoenix.Props.Mirror.C138_same_share_stable",
    "Phoenix.Props.Mirror.C138_whole_histories",
    "Phoenix.Props.Mirror.C138_whole_histories_stable"
   ],
   "note": "Error codes may differ: when both sides of a call are at fault, the first side is reported."
  },
  {
   "property": "C139",
   "status": "proved",
   "theorems": [
    "Phoenix.Props.World.C139_no_future_dates",
    "Phoenix.Props.World.C139_same_later",
    "Phoenix.Props.World.C139_expired_fails",
    "Phoenix.Props.World.C139_quotes_keep",
    "Phoenix.Props.World.C139_stake_same_payments",
    "Phoenix.Props.World.C139_vested_only_grows",
    "Phoenix.Props.World.C139_reward_only_grows",
    "Phoenix.Props.World.C139_funding"
   ],
   "note": "The reward distribution contract, whose amounts depend on the time by design (C85-C88), is left out."
  },
  {
   "property": "C140",
   "status": "proved",
   "theorems": [
    "Phoenix.Props.Names.C140_texts_change_nothing",
    "Phoenix.Props.Names.C140_token_for_ever",
    "Phoenix.Props.Names.C140_trader_for_ever",
    "Phoenix.Props.Names.C140_as_told",
    "Phoenix.Props.Names.C140_trader_output",
    "Phoenix.Props.Names.C140_trader_balances",
    "Phoenix.Props.Names.C140_vesting_for_ever",
    "Phoenix.Props.Names.C140_share_token_named",
    "Phoenix.Props.Names.C140_quote_labels",
    "Phoenix.Props.Names.C140_reverse_quote_labels",
    "Phoenix.Props.Names.C140_labels_of_a_route",
    "Phoenix.Props.Names.C140_vesting_unchecked",
    "Phoenix.Props.Names.C140_symbols_not_unique",
    "Phoenix.Props.Names.C140_label_is_not_the_token_paid"
   ],
   "note": "Texts are kept beside the state of the whole protocol (Model/Names). The labels of the router are a finding: they name the wrong token (DESIGN.md)."
  },
  {
   "property": "C141",
   "status": "proved",
   "theorems": [
    "Phoenix.Props.Reverse.C141_xyk_reverse_quote",
    "Phoenix.Props.Reverse.C141_stable_commission_and_spread",
    "Phoenix.Props.Reverse.C141_stable_quote_is_enough",
    "Phoenix.Props.Reverse.C141_stable_quote_not_too_much"
   ],
   "note": "Stable pools: for tokens with the same number of decimals (other pools cannot trade in both directions, C69). The bound of 10^-6 of a token is the solver's tolerance."
  },
  {
   "property": "C142",
   "status": "proved",
   "theorems": [
    "Phoenix.Props.Work.C142_same",
    "Phoenix.Props.Work.C142_sizes",
    "Phoenix.Props.Work.C142_bond",
    "Phoenix.Props.Work.C142_unbond",
    "Phoenix.Props.Work.C142_announce",
    "Phoenix.Props.Work.C142_distribute",
    "Phoenix.Props.Work.C142_withdraw",
    "Phoenix.Props.Work.C142_withdraw_grows",
    "Phoenix.Props.Work.C142_complexity_ignored",
    "Phoenix.Props.Work.C142_no_limit"
   ],
   "note": "Work is counted in elements of stored lists and maps, not in the host's fee units. C142_same shows that the counting model computes exactly what the contract model computes. C142_withdraw_grows, C142_no_limit and C142_complexity_ignored record a finding: histories grow for ever and max_complexity is not enforced."
  },
  {
   "property": "C143",
   "status": "proved",
   "theorems": [
    "Phoenix.Props.Parts.C143_withdrawals_in_parts",
    "Phoenix.Props.Parts.C143_stable_withdrawals_in_parts",
    "Phoenix.Props.Parts.C143_stakes_in_parts"
   ],
   "note": "Compares with query_share, which is what one withdrawal pays (C75). For swaps in parts see C94."
  },
  {
   "property": "C144",
   "status": "proved",
   "theorems": [
    "Phoenix.Props.Unclaimed.C144_paid_at_most_earned",
    "Phoenix.Props.Unclaimed.C144_unearned_stays",
    "Phoenix.Props.Unclaimed.C144_young_stakes_waste",
    "Phoenix.Props.Unclaimed.C144_old_stakes_earn_all"
   ],
   "note": "C144_young_stakes_waste is a finding: the part of a distribution that young stakes do not earn is stuck in the stake contract."
  },
  {
   "property": "C145",
   "status": "proved",
   "theorems": [
    "Phoenix.Props.StableParts.C145_parts_gain_little",
    "Phoenix.Props.StableParts.C145_parts_can_lose"
   ],
   "note": "C145_parts_can_lose is a finding: two halves of a sale bring 3.2% less than the whole, and a half can be refused where the whole is accepted."
  },
  {
   "property": "C146",
   "status": "proved",
   "theorems": [
    "Phoenix.Props.Stray.C146_kept_for_ever",
    "Phoenix.Props.Stray.C146_bystanders",
    "Phoenix.Props.Stray.C146_sent_not_staked",
    "Phoenix.Props.Stray.C146_trader_pays_back"
   ],
   "note": "A finding: apart from the trader no contract has a function to return tokens sent to it by mistake. Replacing the code of a contract is outside the histories."
  },
  {
   "property": "C147",
   "status": "proved",
   "theorems": [
    "Phoenix.Props.Price.C147_sold_at_most",
    "Phoenix.Props.Price.C147_price_moves_at_most",
    "Phoenix.Props.Price.C147_limit_is_per_swap"
   ],
   "note": "A finding: the limit does not bound what several swaps, or sending tokens to the pool followed by a deposit (C149), do to the price."
  },
  {
   "property": "C148",
   "status": "proved",
   "theorems": [
    "Phoenix.Props.Cycle.C148_tour_at_spot",
    "Phoenix.Props.Cycle.C148_no_gain_without_difference",
    "Phoenix.Props.Cycle.C148_route_at_spot",
    "Phoenix.Props.Cycle.C148_difference_pays"
   ],
   "note": "Stable pools are not covered: their price is not the ratio of the reserves."
  },
  {
   "property": "C149",
   "status": "proved",
   "theorems": [
    "Phoenix.Props.Depth.C149_deeper_pays_more",
    "Phoenix.Props.Depth.C149_deposit_never_hurts",
    "Phoenix.Props.Depth.C149_sent_tokens_move_the_price"
   ],
   "note": "A finding: anybody can move the price of a pool past every spread limit by sending it tokens and making a deposit of a few units, at the cost of the tokens sent."
  },
  {
   "property": "C150",
   "status": "proved",
   "theorems": [
    "Phoenix.Props.DepositParts.C150_parts_gain_nothing",
    "Phoenix.Props.DepositParts.C150_parts_cost_rounding"
   ],
   "note": ""
  },
  {
   "property": "C151",
   "status": "proved",
   "theorems": [
    "Phoenix.Props.Later.C151_same_history_later",
    "Phoenix.Props.Later.C151_same_outcome",
    "Phoenix.Props.Later.C151_same_balances",
    "Phoenix.Props.Later.C151_same_claims",
    "Phoenix.Props.Later.C151_same_quotes",
    "Phoenix.Props.Later.C151_time_zero_is_special"
   ],
   "note": ""
  },
  {
   "property": "C152",
   "status": "proved",
   "theorems": [
    "Phoenix.Props.Stayer.C152_stayers_get_all",
    "Phoenix.Props.Stayer.C152_anybody_takes_a_distribution_away"
   ],
   "note": ""
  },
  {
   "property": "C153",
   "status": "proved",
   "theorems": [
    "Phoenix.Props.Project.C153_stake_alone",
    "Phoenix.Props.Project.C153_vesting_alone",
    "Phoenix.Props.Project.C153_rewards_alone",
    "Phoenix.Props.Project.C153_pool_alone",
    "Phoenix.Props.Project.C153_stable_alone",
    "Phoenix.Props.Project.C153_stake_everything",
    "Phoenix.Props.Project.C153_vesting_everything",
    "Phoenix.Props.Project.C153_rewards_everything",
    "Phoenix.Props.Project.C153_pool_everything",
    "Phoenix.Props.Project.C153_stable_everything",
    "Phoenix.Props.Project.C153_pool_never_empties",
    "Phoenix.Props.Project.C153_stable_pool_backed"
   ],
   "note": "A token deployed during the history (the share token of a new pool) is, for the history of the contract alone, there from the start with its first administrator and decimals and zero balances (`SeenFrom`)."
  },
  {
   "property": "C154",
   "status": "proved",
   "theorems": [
    "Phoenix.Props.Fees.C154_fees",
    "Phoenix.Props.Fees.C154_fees_exact",
    "Phoenix.Props.Fees.C154_only_swaps",
    "Phoenix.Props.Fees.C154_recipient_collects",
    "Phoenix.Props.Fees.C154_dust_is_free",
    "Phoenix.Props.Fees.C154_dust_avoids_the_fee",
    "Phoenix.Props.Fees.C154_stable_fees"
   ],
   "note": "`C154_dust_avoids_the_fee`: in a small pool ten sales one after the other pay no fee and bring more than the same sold at once, which pays one."
  },
  {
   "property": "C155",
   "status": "proved",
   "theorems": [
    "Phoenix.Props.More.C155_others_never_gain",
    "Phoenix.Props.More.C155_ripe_stake_pays",
    "Phoenix.Props.More.C155_others_get_no_more",
    "Phoenix.Props.More.C155_ripe_stake_is_paid",
    "Phoenix.Props.More.C155_more_can_earn_less",
    "Phoenix.Props.More.C155_rounding_costs"
   ],
   "note": "`C155_more_can_earn_less`: doubling the total staked on the day of a distribution halves what the account itself is paid. What is earned is what is paid to those who stay (C152)."
  },
  {
   "property": "C156",
   "status": "proved",
   "theorems": [
    "Phoenix.Props.Dearer.C156_pool_unchanged",
    "Phoenix.Props.Dearer.C156_nobody_else_gains",
    "Phoenix.Props.Dearer.C156_recipient_gains",
    "Phoenix.Props.Dearer.C156_others_unaffected",
    "Phoenix.Props.DearerStable.C156_stable_pool_unchanged",
    "Phoenix.Props.DearerStable.C156_stable_nobody_else_gains",
    "Phoenix.Props.DearerStable.C156_stable_recipient_gains",
    "Phoenix.Props.DearerStable.C156_stable_others_unaffected"
   ],
   "note": "The pool itself is assumed not to be the fee recipient: then the fees would be credited to the next depositor (C135)."
  },
  {
   "property": "C157",
   "status": "proved",
   "theorems": [
    "Phoenix.Props.MoreIn.Xyk.C157_more_in_more_shares",
    "Phoenix.Props.MoreIn.Xyk.C157_surplus_stays",
    "Phoenix.Props.MoreIn.Xyk.C157_more_burnt_more_paid",
    "Phoenix.Props.MoreIn.StablePool.C157_stable_more_in_more_shares",
    "Phoenix.Props.MoreIn.StablePool.C157_stable_more_burnt_more_paid"
   ],
   "note": "Stable pool: fair condition means two tokens with the same number (at most 13) of decimals, reserves within 1 : 1000 and a total below the amplification bound after either deposit. Which deposits are accepted is C96 and C108: offering more of one token only can be refused for slippage."
  },
  {
   "property": "C158",
   "status": "proved",
   "theorems": [
    "Phoenix.Props.Habits.C158_waiting_costs_nothing",
    "Phoenix.Props.Habits.C158_attempt_settles",
    "Phoenix.Props.Habits.C158_same_in_the_end",
    "Phoenix.Props.Habits.C158_sooner_never_pays_less",
    "Phoenix.Props.Habits.C158_earlier_dates_sooner"
   ],
   "note": "The attempt is made at a time at which the curve can be evaluated (C59 says when) and not before the earlier transactions; the balances fit an i128."
  },
  {
   "property": "C159",
   "status": "proved",
   "theorems": [
    "Phoenix.Props.WorkVesting.C159_same",
    "Phoenix.Props.WorkVesting.C159_claim",
    "Phoenix.Props.WorkVesting.C159_create",
    "Phoenix.Props.WorkVesting.C159_schedules",
    "Phoenix.Props.WorkVesting.C159_list",
    "Phoenix.Props.WorkVesting.C159_create_unbounded"
   ],
   "note": "The counting model computes the same results as the model of the contract (C159_same). The missing bound is shown with schedules of amount zero, which the contract accepts."
  },
  {
   "property": "C160",
   "status": "proved",
   "theorems": [
    "Phoenix.Props.VestingMinter.C160_minter",
    "Phoenix.Props.VestingMinter.C160_within_grant",
    "Phoenix.Props.VestingMinter.C160_info"
   ],
   "note": "Queries in `Model/QueriesVesting`; the account named and the capacity granted are folds over the accepted transactions."
  },
  {
   "property": "C161",
   "status": "proved",
   "theorems": [
    "Phoenix.Props.WorkWorld.C161_same",
    "Phoenix.Props.WorkWorld.C161_route",
    "Phoenix.Props.WorkWorld.C161_factory",
    "Phoenix.Props.WorkWorld.C161_portfolio"
   ],
   "note": "The work inside the called contracts is not counted (C142 and C159 count it for stake and vesting; swaps have no loop over stored data). Pools are never removed from a factory's list (C43), so these costs only grow."
  },
  {
   "property": "C162",
   "status": "proved",
   "theorems": [
    "Phoenix.Props.FundingDates.C162_limit",
    "Phoenix.Props.FundingDates.C162_only_then",
    "Phoenix.Props.FundingDates.C162_used_up",
    "Phoenix.Props.FundingDates.C162_limit_too_small",
    "Phoenix.Props.FundingDates.C162_past_dates_count"
   ],
   "note": "The dates are a fold over the history (Spec/FundingDates). C162_past_dates_count shows a refusal although only one of the earlier dates is still to come."
  },
  {
   "property": "C163",
   "status": "proved",
   "theorems": [
    "Phoenix.Props.Released.C163_evenly",
    "Phoenix.Props.Released.C163_between"
   ],
   "note": "Schedules that do not end after they start are excluded (C87_late_start_never_released, C87_empty_schedule_blocks). A distribution can fail when the unit per funding is more than is left (C87_fund_can_block)."
  },
  {
   "property": "C164",
   "status": "proved",
   "theorems": [
    "Phoenix.Props.Covered.C164_covered",
    "Phoenix.Props.Covered.C164_accepted",
    "Phoenix.Props.Covered.C164_soon"
   ],
   "note": "C87_fund_can_block shows that the unit per funding is needed. Schedules that do not end after they start are excluded (C87_late_start_never_released, C87_empty_schedule_blocks)."
  },
  {
   "property": "C165",
   "status": "proved",
   "theorems": [
    "Phoenix.Props.Repeated.C165_repeated",
    "Phoenix.Props.Repeated.C165_all_in_one_second"
   ],
   "note": "A defect of the code, stated as what it does; recorded under Findings in DESIGN.md."
  },
  {
   "property": "C166",
   "status": "proved",
   "theorems": [
    "Phoenix.Props.WorkRewards.C166_same",
    "Phoenix.Props.WorkRewards.C166_distribute",
    "Phoenix.Props.WorkRewards.C166_withdraw",
    "Phoenix.Props.WorkRewards.C166_unbond",
    "Phoenix.Props.WorkRewards.C166_fund"
   ],
   "note": "Work is counted in visited, read, written and compared items; fixed costs per call are not counted. The list of stakes is whatever the staking contract reports."
  },
  {
   "property": "C167",
   "status": "proved",
   "theorems": [
    "Phoenix.Props.Leaver.C167_shows_nothing",
    "Phoenix.Props.Leaver.C167_pays_nothing",
    "Phoenix.Props.Leaver.C167_rest_is_kept",
    "Phoenix.Props.Leaver.C167_rest_comes_back"
   ],
   "note": "The later stake is reported with the total before it (C89). Queries are assumed not to overflow."
  },
  {
   "property": "C168",
   "status": "proved",
   "theorems": [
    "Phoenix.Props.Sybil.C168_splitting_never_pays",
    "Phoenix.Props.Sybil.C168_equal_stakes"
   ],
   "note": "The 60-day rule is left out by comparing full rewards; it depends on the age of the stakes, not on their owners. The example shows a real loss from splitting: two stakes of 1500 earn 120000 where one of 3000 earns 180000."
  },
  {
   "property": "C169",
   "status": "proved",
   "theorems": [
    "Phoenix.Props.Lost.C169_unassigned_stays"
   ],
   "note": "A behaviour of the code against expectation, recorded under Findings in DESIGN.md. The example loses a third of a distribution."
  },
  {
   "property": "C170",
   "status": "proved",
   "theorems": [
    "Phoenix.Props.JustInTime.C170_earns_without_staying"
   ],
   "note": "A behaviour of the code against expectation, recorded under Findings in DESIGN.md. Distributions are reported by the staking contract (C83)."
  },
  {
   "property": "C171",
   "status": "proved",
   "theorems": [
    "Phoenix.Props.HowOften.C171_how_often_does_not_matter",
    "Phoenix.Props.HowOften.C171_any_number"
   ],
   "note": "Equality of states, for any number of distributions. The success of the last distribution is a hypothesis, because the times are arbitrary and need not increase."
  },
  {
   "property": "C172",
   "status": "proved",
   "theorems": [
    "Phoenix.Props.PayTiming.C172_early_costs_nothing"
   ],
   "note": "The histories after the withdrawal consist of distributions and of reports of new or larger stakes; calls that fail, fail in both. The contract's balance is assumed to be an i128."
  },
  {
   "property": "C173",
   "status": "proved",
   "theorems": [
    "Phoenix.Props.OrderRewards.C173_order_does_not_matter"
   ],
   "note": "Distributions and fundings are excluded: a distribution before or after a stake makes a difference (C170)."
  }
 ]
}