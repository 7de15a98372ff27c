{
 "C03": {
  "note": "The strong reading (product never decreases) is false; refuted by C03_product_can_shrink. The exact bound is proved."
 },
 "C06": {
  "note": "The naive reading is false; refuted by C06_quote_is_one_short and C06_impossible_ask_negative_quote. Adequacy with a correction of one unit is proved."
 },
 "C09": {
  "note": "On an empty pool the minimums are not compared with the amounts: C09_first_deposit_ignores_minimums."
 },
 "C15": {
  "note": "The naive reading is false; refuted by C15_round_trip_can_profit. The bound is proved."
 },
 "C17": {
  "note": "The fee cap checked by initialize is not kept by update_config: C17_fee_cap_not_kept."
 },
 "C27": {
  "note": "Combination agrees exactly at breakpoints and outside, within 2 units elsewhere; C27_combine_can_be_invalid shows the result of combining two valid curves may fail validate (first time 0)."
 },
 "C59": {
  "note": "The unconditional reading is false: C59_value_can_fail. Totality is proved under the exact no-overflow condition."
 },
 "C31": {
  "note": "At the very second of the end a saturating curve can overflow (C31_end_instant_can_fail); one second later the claim always succeeds."
 },
 "C64": {
  "note": "C64_anyone_initialises records that initialisation is unprotected."
 },
 "C35": {
  "note": "C35_principal_backed_always drops the assumption about the reward tokens for well-timed histories."
 },
 "C37": {
  "note": "The restriction is needed: C37_can_overpay is a history paying 1500 of 1000 distributed."
 },
 "C38": {
  "note": "C38_nothing_left: for every later history without a distribution of the token; C38_zero_right_after: any state."
 },
 "C39": {
  "note": "The formula is proved for well-timed histories; that the query equals the payment for all states."
 },
 "C40": {
  "note": "C40_newer_stake_blocks is the defect; C40_withdraw_succeeds the positive half with explicit no-overflow conditions."
 },
 "C41": {
  "note": "The naive reading is false: C41_same_time_lost, C41_same_time_skipped. C41_all_recorded is the positive half for well-timed histories."
 },
 "C67": {
  "note": "C67_anyone_initialises records that initialisation is unprotected."
 },
 "C50": {
  "note": "The solver for all arguments, swaps for all decimals; the sharper consequences for equal decimals, the only pools in which swaps are priced on this curve (C69)."
 },
 "C53": {
  "note": "The claim users expect is false: C53_anyone_takes_over holds in every state. C53_sender_must_be_admin_partial is what remains."
 },
 "C54": {
  "note": "The claim users expect is false; the failure is proved for all states above the bound."
 },
 "C68": {
  "note": "The claim users expect is false; the failure is proved."
 },
 "C69": {
  "note": "The claim users expect is false; the failure is proved."
 },
 "C70": {
  "note": "The claim users expect is false (C70_deposit_stolen); C70_min_shares_partial is the protection that works, and C70_credit_up_to_one_share says how little can be lost while a share is worth little."
 },
 "C73": {
  "note": "The claim users expect is false: C73_one_swap_freezes reaches a state that C73_frozen_for_ever proves permanent."
 },
 "C74": {
  "note": "The claim users expect is false, shown by C74_fee_avoided; C74_deposit_ignores_fee and C74_withdrawal_ignores_fee show that it fails at every fee."
 },
 "C75": {
  "note": "Theorems of the same names exist for both pools. C75_large_pool_overflows shows that the limit is real."
 },
 "C46": {
  "note": "Exact for routes without repeated pools; C46_repeated_pool_differs shows the condition is needed."
 },
 "C49": {
  "note": "The claim users expect is false: the default is the caller's balance. Stated for all contexts, because C81 shows that no real transaction gets through."
 },
 "C80": {
  "note": "True for XYK routes; false through stable pools (C80_stable_wrong_side, C80_reverse_quote_wrong)."
 },
 "C81": {
  "note": "The claim users expect is false; the failure is proved for all reachable states."
 },
 "C82": {
  "note": "Proved for non-negative decimals and for texts without sign; for negative ones the claim is false and its failure is proved in general."
 },
 "C83": {
  "note": "The open first initialization is proved as a defect (C83_anyone_initialises)."
 },
 "C85": {
  "note": "Truthful reports are an assumption on the staking contract; C89 shows what happens without it."
 },
 "C87": {
  "note": "Proved for schedules that end after they start and no later than now plus their duration; false in general, witnesses C87_late_start_never_released, C87_empty_schedule_blocks, C87_fund_can_block."
 },
 "C88": {
  "note": "Proved while nothing was handed out; false afterwards, witness C88_collapses_after_distribution."
 },
 "C89": {
  "note": "A defect: a concrete attack and the general amount of the error."
 },
 "C90": {
  "note": ""
 },
 "C91": {
  "note": ""
 },
 "C92": {
  "note": "Both functions are #[allow(dead_code)]; C92_slippage_overflows and C92_split_tolerance_absolute are counterexamples to what their comments promise."
 },
 "C93": {
  "note": "The stable pool violates the property (C93_stable_taken_over, a consequence of C53); for all other contracts it is proved in full."
 },
 "C94": {
  "note": ""
 },
 "C95": {
  "note": "small swaps in large pools trap in the 256-bit subtraction that computes the spread"
 },
 "C96": {
  "note": ""
 },
 "C97": {
  "note": ""
 },
 "C98": {
  "note": ""
 },
 "C99": {
  "note": ""
 },
 "C100": {
  "note": ""
 },
 "C101": {
  "note": ""
 },
 "C102": {
  "note": ""
 },
 "C103": {
  "note": "Finding: the pools do not protect liquidity providers against tokens that charge on transfer."
 },
 "C104": {
  "note": "The contract's own mint and burn wrappers are left out of this model (they are in the main model, C29)."
 },
 "C105": {
  "note": ""
 },
 "C106": {
  "note": "Refinement of the token with storage lifetimes (Model/Ttl.lean) to the token without (Model/Token.lean). The host operations on lifetimes are modelled from their documentation."
 },
 "C107": {
  "note": ""
 },
 "C108": {
  "note": ""
 },
 "C109": {
  "note": ""
 },
 "C110": {
  "note": "C110_deposit_signature_expires is the concrete witness for a deposit refused after a price move."
 },
 "C111": {
  "note": "C111_route_signature_expires is the concrete witness."
 },
 "C112": {
  "note": ""
 },
 "C113": {
  "note": ""
 },
 "C114": {
  "note": ""
 },
 "C115": {
  "note": ""
 },
 "C116": {
  "note": ""
 },
 "C117": {
  "note": "the unconditional claim is false; C117_more_can_pay_less is the witness"
 },
 "C118": {
  "note": "Providing liquidity, routes and the calls that deploy or configure contracts are not in the class of calls considered."
 },
 "C119": {
  "note": "Storage lifetimes can delay a call besides (C106)."
 },
 "C120": {
  "note": "Storage is a map from (kind, key) to a typed value; lifetimes are the subject of C106. The binary encoding of keys is taken to be injective (soroban-sdk)."
 },
 "C121": {
  "note": ""
 },
 "C122": {
  "note": ""
 },
 "C123": {
  "note": ""
 },
 "C124": {
  "note": ""
 },
 "C125": {
  "note": ""
 },
 "C126": {
  "note": "The storage of one contract at a time is modelled with lifetimes; the other contracts of the history are there without."
 },
 "C127": {
  "note": "The bound is needed: C127_large_stake_blocked. During a schedule distribute_rewards can be refused (C87)."
 },
 "C128": {
  "note": "The loss by rounding is real (C107): one part in m+1 for each swap."
 },
 "C129": {
  "note": ""
 },
 "C130": {
  "note": "Overflow limit of query_share: C75. If the shares are also a reward token of the stake contract, unbonding is covered by C36 for well-timed histories."
 },
 "C131": {
  "note": "Fair condition as in C109 (same decimals of at most 13, balance within 1:1000, total below the amplification bound); hop by hop for routes. XYK pools: C128."
 },
 "C132": {
  "note": "Fair condition as in C109. XYK pools: C15, C124."
 },
 "C133": {
  "note": "The event with the trader's name is left out: names are not part of the model. That no trade is ever shown follows from C81."
 },
 "C134": {
  "note": "Names and symbols of tokens and of the trader are not part of the model."
 },
 "C135": {
  "note": ""
 },
 "C136": {
  "note": "The expectation fails; the theorem is the negation in full generality. C128 is the matching lower bound. Rewards for providers come from the stake contract only."
 },
 "C137": {
  "note": "C137_order_matters shows that the condition on the order of the tokens cannot be dropped."
 },
 "C138": {
  "note": "Error codes may differ: when both sides of a call are at fault, the first side is reported."
 },
 "C139": {
  "note": "The reward distribution contract, whose amounts depend on the time by design (C85-C88), is left out."
 },
 "C140": {
  "note": "Texts are kept beside the state of the whole protocol (Model/Names). The labels of the router are a finding: they name the wrong token (DESIGN.md)."
 },
 "C141": {
  "note": "Stable pools: for tokens with the same number of decimals (other pools cannot trade in both directions, C69). The bound of 10^-6 of a token is the solver's tolerance."
 },
 "C142": {
  "note": "Work is counted in elements of stored lists and maps, not in the host's fee units. C142_same shows that the counting model computes exactly what the contract model computes. C142_withdraw_grows, C142_no_limit and C142_complexity_ignored record a finding: histories grow for ever and max_complexity is not enforced."
 },
 "C143": {
  "note": "Compares with query_share, which is what one withdrawal pays (C75). For swaps in parts see C94."
 },
 "C144": {
  "note": "C144_young_stakes_waste is a finding: the part of a distribution that young stakes do not earn is stuck in the stake contract."
 },
 "C145": {
  "note": "C145_parts_can_lose is a finding: two halves of a sale bring 3.2% less than the whole, and a half can be refused where the whole is accepted."
 },
 "C146": {
  "note": "A finding: apart from the trader no contract has a function to return tokens sent to it by mistake. Replacing the code of a contract is outside the histories."
 },
 "C147": {
  "note": "A finding: the limit does not bound what several swaps, or sending tokens to the pool followed by a deposit (C149), do to the price."
 },
 "C148": {
  "note": "Stable pools are not covered: their price is not the ratio of the reserves."
 },
 "C149": {
  "note": "A finding: anybody can move the price of a pool past every spread limit by sending it tokens and making a deposit of a few units, at the cost of the tokens sent."
 },
 "C150": {
  "note": ""
 },
 "C151": {
  "note": ""
 },
 "C152": {
  "note": ""
 },
 "C153": {
  "note": "A token deployed during the history (the share token of a new pool) is, for the history of the contract alone, there from the start with its first administrator and decimals and zero balances (`SeenFrom`)."
 },
 "C154": {
  "note": "`C154_dust_avoids_the_fee`: in a small pool ten sales one after the other pay no fee and bring more than the same sold at once, which pays one."
 },
 "C155": {
  "note": "`C155_more_can_earn_less`: doubling the total staked on the day of a distribution halves what the account itself is paid. What is earned is what is paid to those who stay (C152)."
 },
 "C156": {
  "note": "The pool itself is assumed not to be the fee recipient: then the fees would be credited to the next depositor (C135)."
 },
 "C157": {
  "note": "Stable pool: fair condition means two tokens with the same number (at most 13) of decimals, reserves within 1 : 1000 and a total below the amplification bound after either deposit. Which deposits are accepted is C96 and C108: offering more of one token only can be refused for slippage."
 },
 "C158": {
  "note": "The attempt is made at a time at which the curve can be evaluated (C59 says when) and not before the earlier transactions; the balances fit an i128."
 },
 "C159": {
  "note": "The counting model computes the same results as the model of the contract (C159_same). The missing bound is shown with schedules of amount zero, which the contract accepts."
 },
 "C160": {
  "note": "Queries in `Model/QueriesVesting`; the account named and the capacity granted are folds over the accepted transactions."
 },
 "C161": {
  "note": "The work inside the called contracts is not counted (C142 and C159 count it for stake and vesting; swaps have no loop over stored data). Pools are never removed from a factory's list (C43), so these costs only grow."
 },
 "C162": {
  "note": "The dates are a fold over the history (Spec/FundingDates). C162_past_dates_count shows a refusal although only one of the earlier dates is still to come."
 },
 "C163": {
  "note": "Schedules that do not end after they start are excluded (C87_late_start_never_released, C87_empty_schedule_blocks). A distribution can fail when the unit per funding is more than is left (C87_fund_can_block)."
 },
 "C164": {
  "note": "C87_fund_can_block shows that the unit per funding is needed. Schedules that do not end after they start are excluded (C87_late_start_never_released, C87_empty_schedule_blocks)."
 },
 "C165": {
  "note": "A defect of the code, stated as what it does; recorded under Findings in DESIGN.md."
 },
 "C166": {
  "note": "Work is counted in visited, read, written and compared items; fixed costs per call are not counted. The list of stakes is whatever the staking contract reports."
 },
 "C167": {
  "note": "The later stake is reported with the total before it (C89). Queries are assumed not to overflow."
 },
 "C168": {
  "note": "The 60-day rule is left out by comparing full rewards; it depends on the age of the stakes, not on their owners. The example shows a real loss from splitting: two stakes of 1500 earn 120000 where one of 3000 earns 180000."
 },
 "C169": {
  "note": "A behaviour of the code against expectation, recorded under Findings in DESIGN.md. The example loses a third of a distribution."
 },
 "C170": {
  "note": "A behaviour of the code against expectation, recorded under Findings in DESIGN.md. Distributions are reported by the staking contract (C83)."
 },
 "C171": {
  "note": "Equality of states, for any number of distributions. The success of the last distribution is a hypothesis, because the times are arbitrary and need not increase."
 },
 "C172": {
  "note": "The histories after the withdrawal consist of distributions and of reports of new or larger stakes; calls that fail, fail in both. The contract's balance is assumed to be an i128."
 },
 "C173": {
  "note": "Distributions and fundings are excluded: a distribution before or after a stake makes a difference (C170)."
 }
}