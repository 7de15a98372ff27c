{"id": "C01", "title": "XYK swap moves exactly the quoted amounts and nothing else", "statement": "When `swap` succeeds with return value r, the sender pays exactly offer_amount of the offered token, receives exactly r of the other token, the fee recipient receives exactly the commission c, the reported reserve of the offered token grows by offer_amount, the reported reserve of the other token shrinks by exactly r + c, and no other account's balance of any token, nor the LP supply, changes.", "quantifier": "every pool state, every caller, every argument vector, every ledger of token balances, including the cases where fee recipient, sender coincide", "why_tests_cant": "aliasing between sender, fee recipient and pool and the rounding of every amount can only be covered by a statement over all ledgers", "anchors": ["contracts/pool/src/contract.rs: swap, do_swap, compute_swap", "contracts/token/src/contract.rs: transfer"]}
{"id": "C02", "title": "XYK swap price is the constant-product price rounded up by less than one unit and never beats the spot price", "statement": "For every successful quote the gross output g (return + commission) is the smallest integer with g*(offer_reserve+amount) >= ask_reserve*amount, g never exceeds the ask reserve, and g never exceeds floor(amount*ask_reserve/offer_reserve), the value at the spot price.", "quantifier": "all i128 reserves, offer amounts, and fee rates for which the quote does not panic", "why_tests_cant": "the rounding direction and the two inequalities must hold for all magnitudes up to 2^127, far outside any sample", "anchors": ["contracts/pool/src/contract.rs: compute_swap, simulate_swap"]}
{"id": "C03", "title": "Constant product of the reserves never drops by a full unit of the new offer reserve", "statement": "Users expect reserve_a*reserve_b not to decrease across a swap. In this code the fee leaves the pool and the output is rounded up, so the product never increases, and may shrink, but always by strictly less than the new offer reserve; withdrawals of fees cannot erode it otherwise.", "quantifier": "all reserves, offer amounts, fee rates and all sequences of swaps", "why_tests_cant": "rounding erosion appears only for particular residues", "anchors": ["contracts/pool/src/contract.rs: compute_swap, do_swap"]}
{"id": "C04", "title": "A swap honours every protection the trader passes", "statement": "If `swap` succeeds then: the ledger time is not after the deadline, the return is at least ask_asset_min_amount, the pool's fee is at most max_allowed_fee_bps, the spread as an 18-digit fraction of gross output is at most the trader's max_spread (or the pool maximum if none was given), and a trader max_spread is accepted only within [0, pool maximum].", "quantifier": "all arguments, all pool states, all clocks", "why_tests_cant": "needs every combination of optional guards with every state", "anchors": ["contracts/pool/src/contract.rs: swap, do_swap, assert_max_spread"]}
{"id": "C05", "title": "simulate_swap quotes exactly what swap pays", "statement": "In any state, if `swap` succeeds, then `simulate_swap` on the same state and arguments succeeds, its ask_amount equals the returned amount and its commission equals what the fee recipient gets; simulation reads the reported reserves and changes nothing.", "quantifier": "all pool states, offered assets and amounts", "why_tests_cant": "equality of two code paths over all inputs", "anchors": ["contracts/pool/src/contract.rs: simulate_swap, do_swap"]}
{"id": "C06", "title": "A reverse quote is adequate", "statement": "Users expect that offering the amount quoted by `simulate_reverse_swap(ask, x)` yields at least x. The code rounds down at several places, so this fails; what holds is that the quoted amount, plus a bounded correction, suffices.", "quantifier": "all reserves, amounts, fee rates", "why_tests_cant": "counterexamples depend on residues", "anchors": ["contracts/pool/src/contract.rs: simulate_reverse_swap, compute_offer_amount"]}
{"id": "C07", "title": "Withdrawing liquidity pays at most the pro-rata share, and never less than it by more than the fixed-point error", "statement": "When `withdraw_liquidity` of s shares out of T succeeds, each returned amount r satisfies r*T <= reserve*s and the shortfall is below reserve/10^18 + 1; both amounts meet the caller's minimums, s shares are destroyed, T drops by s and the reserves drop by exactly the returned amounts.", "quantifier": "all states, share amounts and minimums", "why_tests_cant": "nested rounding over all magnitudes", "anchors": ["contracts/pool/src/contract.rs: withdraw_liquidity", "packages/decimal/src/decimal.rs: from_ratio, Mul<Decimal> for i128"]}
{"id": "C08", "title": "Depositing liquidity mints at most the pro-rata number of shares", "statement": "When `provide_liquidity` succeeds on a non-empty pool, the m shares minted satisfy m*reserve_x <= T*(new_reserve_x - reserve_x) for both tokens; on an empty pool the total becomes floor(sqrt(a*b)) of which 1000 stay in the pool.", "quantifier": "all states and arguments, including tokens previously sent to the pool without a deposit", "why_tests_cant": "dilution would show only for particular residues and donation patterns", "anchors": ["contracts/pool/src/contract.rs: provide_liquidity", "contracts/pool/src/storage.rs: mint_shares"]}
{"id": "C09", "title": "A deposit takes no more than desired and no less than the minimums", "statement": "When `provide_liquidity` succeeds, each token amount taken is positive-or-zero, at most the desired amount, and at least the given minimum. On an empty pool the code does not compare the minimums with the amounts; the property is restricted to non-empty pools and the exception is exhibited.", "quantifier": "all states and argument combinations, every optional minimum present or absent", "why_tests_cant": "branching on optional arguments times unbounded amounts", "anchors": ["contracts/pool/src/storage.rs: get_deposit_amounts", "contracts/pool/src/contract.rs: provide_liquidity"]}
{"id": "C10", "title": "Reported reserves are always backed by tokens the pool really holds", "statement": "After any history of pool calls by anyone and token calls by anyone but the pool, both reported reserves are non-negative and at most the pool's actual balances of the two tokens.", "quantifier": "all finite histories of pool and token operations, any callers, any interleaving, failed calls included", "why_tests_cant": "an invariant over all reachable states", "anchors": ["contracts/pool/src/contract.rs: provide_liquidity, swap, withdraw_liquidity", "contracts/token/src/contract.rs"]}
{"id": "C11", "title": "Reported LP supply always covers every LP balance", "statement": "After any history, the total LP supply reported by the pool is at least the sum of the LP balances of any set of accounts, and it is exactly that sum (over all accounts that ever took part) when nobody burned LP tokens directly on the token contract.", "quantifier": "all finite histories, all finite sets of accounts", "why_tests_cant": "invariant over reachable states and unboundedly many holders", "anchors": ["contracts/pool/src/contract.rs: provide_liquidity, withdraw_liquidity", "contracts/pool/src/storage.rs: mint_shares, burn_shares", "contracts/token/src/contract.rs: burn"]}
{"id": "C12", "title": "The minimum liquidity stays locked for ever", "statement": "Once the first deposit has succeeded, in every later state the pool itself holds at least 1000 LP tokens, the reported LP supply is at least 1000, and the two reserves are never both zero; before it, supply and both reserves are zero.", "quantifier": "all finite histories", "why_tests_cant": "requires an inductive invariant", "anchors": ["contracts/pool/src/contract.rs: provide_liquidity (MINIMUM_LIQUIDITY_AMOUNT), withdraw_liquidity"]}
{"id": "C13", "title": "Backing per LP share never falls through deposits or withdrawals", "statement": "For both tokens, reserve/supply after any history of deposits, withdrawals, configuration changes and token transfers is at least its value before (compared by cross multiplication); only swaps can move it.", "quantifier": "all histories without swaps from any state with positive supply", "why_tests_cant": "drift by accumulated rounding over unbounded histories", "anchors": ["contracts/pool/src/contract.rs: provide_liquidity, withdraw_liquidity"]}
{"id": "C14", "title": "Deposit followed by withdrawal of the minted shares never profits", "statement": "If an account deposits into a pool whose actual balances equal its reserves and then withdraws exactly the shares it was minted, with no other call in between, it gets back at most what it deposited, of each token.", "quantifier": "all states and arguments", "why_tests_cant": "rounding profit would be residue dependent", "anchors": ["contracts/pool/src/contract.rs: provide_liquidity, withdraw_liquidity"]}
{"id": "C15", "title": "Swapping there and back", "statement": "Users expect that swapping x of A to B and the proceeds back never yields more than x. Because output is rounded up and the fee on small outputs rounds to zero this is false for very unbalanced reserves; the gain is bounded by the rounding unit.", "quantifier": "all reserves, amounts, fees", "why_tests_cant": "needs the exact rounding slack over all magnitudes", "anchors": ["contracts/pool/src/contract.rs: compute_swap"]}
{"id": "C16", "title": "Nobody's tokens move without their authorisation", "statement": "In any pool call or token call, the balance (of any token) of an account that did not authorise the call and is not the pool never decreases, except through an allowance that account granted.", "quantifier": "all states, all calls, all signer sets", "why_tests_cant": "universal over accounts and calls", "anchors": ["contracts/pool/src/contract.rs", "contracts/token/src/contract.rs"]}
{"id": "C17", "title": "Pool configuration is set once, stays in range, and only the admin changes it", "statement": "A second `initialize` always fails; token and share addresses never change afterwards; fee, slippage and spread limits stay within 0..10000 bps in every reachable state; a call changes admin or configuration only if the current admin authorised it.", "quantifier": "all histories and callers", "why_tests_cant": "invariant over histories and signer sets", "anchors": ["contracts/pool/src/contract.rs: initialize, update_config, upgrade", "packages/phoenix/src/utils.rs: validate_bps"]}
{"id": "C18", "title": "One swap cannot drain the other reserve", "statement": "With a spread limit of at most 100% a successful swap cannot take more than about half of the ask reserve: ask_reserve <= 2*(ask_reserve - gross) + 4 + ask_reserve/10^18.", "quantifier": "all states and arguments", "why_tests_cant": "bound over all magnitudes", "anchors": ["contracts/pool/src/contract.rs: do_swap, assert_max_spread"]}
{"id": "C19", "title": "Offering more never returns less", "statement": "For fixed reserves and fee rate, gross output and net return are non-decreasing in the offered amount, and gross output per offered unit is non-increasing up to one rounding unit.", "quantifier": "all reserves, pairs of amounts, fee rates", "why_tests_cant": "monotonicity over all pairs", "anchors": ["contracts/pool/src/contract.rs: compute_swap"]}
{"id": "C20", "title": "The fee is exactly the configured fraction of the gross output, rounded down", "statement": "commission = floor(gross*fee_bps/10000); it never exceeds gross; with fee 0 it is 0 and with fee 10000 the return is 0.", "quantifier": "all inputs for which the quote succeeds", "why_tests_cant": "rounding over all magnitudes", "anchors": ["contracts/pool/src/contract.rs: compute_swap", "packages/decimal/src/decimal.rs: bps"]}
{"id": "C21", "title": "Token transfers conserve supply; mint and burn change it by exactly the amount", "statement": "transfer and transfer_from keep the sum of balances over any set of accounts containing both parties; mint adds exactly the amount to one account, burn and burn_from remove exactly the amount; no other account changes; self-transfer changes nothing.", "quantifier": "all token states, parties (also equal ones), amounts, and account sets", "why_tests_cant": "needs all aliasing patterns and account sets", "anchors": ["contracts/token/src/contract.rs", "contracts/token/src/balance.rs"]}
{"id": "C22", "title": "Token balances and allowances are never negative and never exceed i128", "statement": "Starting from the constructor, after any history of token calls every balance and allowance is between 0 and 2^127-1.", "quantifier": "all histories, callers, ledger sequences", "why_tests_cant": "inductive invariant", "anchors": ["contracts/token/src/contract.rs", "contracts/token/src/balance.rs", "contracts/token/src/allowance.rs"]}
{"id": "C23", "title": "An allowance bounds what a spender can take", "statement": "Between two approvals by the owner, the total a spender moves or burns from the owner is at most the approved amount, and it is zero after the expiration ledger.", "quantifier": "all sequences of token calls, all ledger sequences", "why_tests_cant": "cumulative over unbounded histories", "anchors": ["contracts/token/src/contract.rs: approve, transfer_from, burn_from", "contracts/token/src/allowance.rs"]}
{"id": "C24", "title": "Only the token admin mints or replaces the admin", "statement": "The sum of balances over any account set can grow by an inflow from outside the set only; the supply grows only by a call authorised by the current admin; the admin changes only by a call it authorised.", "quantifier": "all states, calls and signer sets", "why_tests_cant": "universal over calls", "anchors": ["contracts/token/src/contract.rs: mint, set_admin"]}
{"id": "C25", "title": "Curve values stay inside the reported range", "statement": "For every valid curve and time, whenever `value` succeeds it lies between the two numbers reported by `range`, and both numbers are attained.", "quantifier": "all valid curves (any number of steps) and all times", "why_tests_cant": "unbounded step lists", "anchors": ["packages/curve/src/lib.rs: value, range"]}
{"id": "C26", "title": "Curves accepted as monotone are monotone", "statement": "If validate_monotonic_decreasing accepts a curve then t1 <= t2 implies value(t2) <= value(t1); symmetric for increasing; and a valid curve that is rejected as non-decreasing really increases somewhere.", "quantifier": "all curves, all pairs of times", "why_tests_cant": "unbounded step lists and times", "anchors": ["packages/curve/src/lib.rs: validate_monotonic_decreasing, validate_monotonic_increasing, classify_curve"]}
{"id": "C27", "title": "Combining curves adds them", "statement": "Combining with a constant adds the constant at every time; combining two well-formed non-constant curves gives a sorted curve whose value at every breakpoint of either is exactly the sum of the two values, and whose value elsewhere differs from the sum by at most two units; values before the first and after the last point are exact. The result validates if neither input is a saturating curve starting at time 0 (otherwise it need not: shown).", "quantifier": "all valid curves, all times", "why_tests_cant": "unbounded step lists; includes the hand-written bubble sort and dedup", "anchors": ["packages/curve/src/lib.rs: combine, combine_const"]}
{"id": "C28", "title": "Bubble sort and dedup inside combine are correct", "statement": "The list of times of a combined curve is strictly increasing and contains exactly the times of the two inputs.", "quantifier": "all lists of times", "why_tests_cant": "unbounded lists", "anchors": ["packages/curve/src/lib.rs: PiecewiseLinear::combine"]}
{"id": "C29", "title": "The vesting contract can always pay what it owes", "statement": "After any history of vesting calls and token calls by others, the contract's balance of the vesting token is at least the sum of the outstanding balances of any set of schedules.", "quantifier": "all histories, all finite sets of schedules", "why_tests_cant": "inductive invariant over unboundedly many schedules", "anchors": ["contracts/vesting/src/contract.rs: create_vesting_schedules, claim", "contracts/vesting/src/storage.rs"]}
{"id": "C30", "title": "A recipient receives exactly what has vested, never more", "statement": "For each schedule, at every moment after a claim the total claimed so far equals the initial amount minus the curve's value at the time of the last claim; before any claim it is zero; hence never more than vested and never more than the initial amount.", "quantifier": "all histories of claims by all users at non-decreasing times", "why_tests_cant": "cumulative over unbounded histories", "anchors": ["contracts/vesting/src/contract.rs: claim, query_available_to_claim"]}
{"id": "C31", "title": "Everything is claimable at the end", "statement": "Once the schedule's end time is reached, a claim by the recipient with a positive outstanding balance succeeds and pays all of it, leaving zero.", "quantifier": "all reachable states, all schedules, all times after the end", "why_tests_cant": "liveness from all reachable states", "anchors": ["contracts/vesting/src/contract.rs: claim", "contracts/vesting/src/utils.rs: validate_vesting_schedule"]}
{"id": "C32", "title": "Claims touch only the claimant's own schedule", "statement": "A claim changes exactly one schedule, that of the authorised sender at the given index, and pays only that sender; creating schedules never overwrites an existing one.", "quantifier": "all states and calls", "why_tests_cant": "universal over other accounts and indices", "anchors": ["contracts/vesting/src/contract.rs: claim", "contracts/vesting/src/storage.rs: save_vesting, update_vesting"]}
{"id": "C33", "title": "Claiming twice at the same time pays once; a later claim pays the increment", "statement": "Immediately repeating a claim fails, and the amount available right after a claim is zero; between two claims the second pays exactly the decrease of the curve.", "quantifier": "all states, schedules, times", "why_tests_cant": "universal over states and times", "anchors": ["contracts/vesting/src/contract.rs: claim, query_available_to_claim"]}
{"id": "C34", "title": "Minting through the vesting contract is bounded by granted capacity", "statement": "The total minted by the minter over any history without admin capacity updates is at most the initial capacity; only the minter mints; only the minter, or the admin if there is none, replaces the minter; only the admin sets capacity.", "quantifier": "all histories and signer sets", "why_tests_cant": "cumulative over histories", "anchors": ["contracts/vesting/src/contract.rs: mint, update_minter, update_minter_capacity"]}
{"id": "C35", "title": "Staked principal is always fully backed", "statement": "After any history in which the staked LP token is not itself a reward token, the stake contract's LP balance is at least the reported total staked, which equals the sum over all stakers of their individual stakes.", "quantifier": "all histories of stake and token calls, all users", "why_tests_cant": "inductive invariant over unboundedly many users and stakes", "anchors": ["contracts/stake/src/contract.rs: bond, unbond, withdraw_rewards", "contracts/stake/src/storage.rs"]}
{"id": "C36", "title": "Every stake can be taken back, exactly once, by its owner only", "statement": "For a recorded stake (amount, timestamp) of a user, `unbond` authorised by that user succeeds, pays exactly the amount and removes exactly one matching entry; without a matching entry it fails; no other user's stakes change.", "quantifier": "all reachable states", "why_tests_cant": "liveness from every reachable state", "anchors": ["contracts/stake/src/contract.rs: unbond, remove_stake"]}
{"id": "C37", "title": "Rewards paid never exceed rewards distributed", "statement": "For each reward token, the total paid out by withdraw_rewards is at most the total distributed, in every history in which no two distributions happen at the same ledger timestamp. Without that restriction it is false and a counterexample is shown.", "quantifier": "all histories with non-decreasing time", "why_tests_cant": "needs an accounting invariant over users, stakes, distributions and time", "anchors": ["contracts/stake/src/contract.rs: distribute_rewards, withdraw_rewards", "contracts/stake/src/distribution.rs: calculate_pending_rewards"]}
{"id": "C38", "title": "Rewards cannot be claimed twice", "statement": "Right after withdraw_rewards the withdrawable amount of that user is zero for every token, until a later distribution.", "quantifier": "all states and users", "why_tests_cant": "universal over states", "anchors": ["contracts/stake/src/contract.rs: withdraw_rewards, query_withdrawable_rewards"]}
{"id": "C39", "title": "A user's pending reward follows the documented formula", "statement": "The pending reward for a token is the sum over distributions after the last withdrawal and over the user's stakes of the stake's proportional share scaled by min(age_in_days,60)/60, each step rounded down; the withdrawable query equals what withdraw_rewards pays.", "quantifier": "all states, users, stake lists", "why_tests_cant": "unbounded lists", "anchors": ["contracts/stake/src/distribution.rs: calculate_pending_rewards"]}
{"id": "C40", "title": "Rewards stay claimable after bonding more", "statement": "Users expect that bonding after a distribution does not block rewards. It does: if any stake is newer than an unclaimed distribution with positive total stake, withdraw_rewards and the query both fail. They succeed when no stake is newer than the unclaimed distributions (absent overflow).", "quantifier": "all states", "why_tests_cant": "needs the exact condition", "anchors": ["contracts/stake/src/distribution.rs: calculate_pending_rewards"]}
{"id": "C41", "title": "No distribution is lost", "statement": "Users expect that every distributed amount remains claimable. A second distribution of the same token at the same timestamp overwrites the first, and a distribution at the time of a user's last withdrawal is skipped for them; with distinct timestamps every distribution stays recorded with its amount and the total stake at that time.", "quantifier": "all histories", "why_tests_cant": "history property", "anchors": ["contracts/stake/src/contract.rs: distribute_rewards"]}
{"id": "C42", "title": "Anybody can trigger a reward withdrawal but only the staker is paid", "statement": "withdraw_rewards(user) called by anyone changes no stake, pays only `user`, only from the contract's own balance, and only distribution creators (manager or owner) can create or fund distributions.", "quantifier": "all states and callers", "why_tests_cant": "universal", "anchors": ["contracts/stake/src/contract.rs: withdraw_rewards, create_distribution_flow, distribute_rewards"]}
{"id": "C43", "title": "Pool lookup is symmetric, stable and consistent with creation", "statement": "After create_liquidity_pool for (a,b) succeeds with address p, query_for_pool_by_token_pair returns p for (a,b) and for (b,a) for ever; it fails for pairs never created; the list of pools contains exactly the created pools in order, without duplicates.", "quantifier": "all histories of factory calls", "why_tests_cant": "history property", "anchors": ["contracts/factory/src/contract.rs: create_liquidity_pool, query_for_pool_by_token_pair, query_pools", "contracts/factory/src/utils.rs: deploy_lp_contract"]}
{"id": "C44", "title": "Only whitelisted accounts create pools and only the admin edits the whitelist", "statement": "create_liquidity_pool succeeds only for an authorising sender on the whitelist with ordered tokens and in-range fees; whitelist and code hashes change only when the admin authorises; after an update an address is on the whitelist iff it was there or added, and not removed (removal removes one occurrence; the list stays duplicate free if it started so).", "quantifier": "all states and calls", "why_tests_cant": "universal over callers and lists", "anchors": ["contracts/factory/src/contract.rs: create_liquidity_pool, update_whitelisted_accounts, update_wasm_hashes"]}
{"id": "C45", "title": "A multi-hop swap is exactly the chain of single swaps", "statement": "If the multihop swap succeeds, the operations form a chain of adjacent assets, hop i+1 offers exactly what hop i returned, each hop satisfies its own minimum, and the recipient's net effect is: pays `amount` of the first asset and gains the final return of the last asset; intermediate assets net to zero when assets along the path are distinct.", "quantifier": "all operation lists of any length, all pool states", "why_tests_cant": "unbounded paths", "anchors": ["contracts/multihop/src/contract.rs: swap", "contracts/multihop/src/utils.rs: verify_swap"]}
{"id": "C46", "title": "Multi-hop simulation equals execution on paths that use each pool once", "statement": "If the multihop swap succeeds and no pool occurs twice in the path then simulate_swap on the initial state returns the final amount; with a repeated pool it can differ (shown).", "quantifier": "all paths and pool states", "why_tests_cant": "unbounded paths", "anchors": ["contracts/multihop/src/contract.rs: swap, simulate_swap"]}
{"id": "C47", "title": "A failed hop undoes everything", "statement": "If any hop fails, the multihop swap fails and no balance or reserve changes; without the recipient's authorisation it always fails.", "quantifier": "all paths and failure points", "why_tests_cant": "every crash point", "anchors": ["contracts/multihop/src/contract.rs: swap"]}
{"id": "C48", "title": "Only the trader's admin can trade or move its funds", "statement": "trade_token and transfer succeed only when the stored admin authorises; they spend only the trader contract's own balance; initialise works once.", "quantifier": "all states and callers", "why_tests_cant": "universal", "anchors": ["contracts/trader/src/contract.rs: trade_token, transfer, initialize"]}
{"id": "C49", "title": "Default trade size", "statement": "Users expect that trade_token without an amount trades the contract's whole balance. It uses the admin's balance instead (shown): it sells min-style nothing, it offers exactly the admin's balance of the token out of the contract's funds.", "quantifier": "all states", "why_tests_cant": "state dependent", "anchors": ["contracts/trader/src/contract.rs: trade_token"]}
{"id": "C50", "title": "Stable swap never pays more than its curve allows", "statement": "Whatever Newton iterate calc_y stops at, the new ask reserve it returns (in 18-digit units, before truncation to token decimals) is at least the exact positive root of y^2+(b-D)y=c rounded down; so the payout never exceeds the exact solution by more than one unit of token precision.", "quantifier": "all reserves, amounts, amplifications, iteration counts", "why_tests_cant": "iteration results over all inputs", "anchors": ["contracts/pool_stable/src/math.rs: calc_y", "contracts/pool_stable/src/contract.rs: compute_swap"]}
{"id": "C51", "title": "Stable pool reserves are always backed and payouts never exceed reserves", "statement": "After any history of stable-pool and token calls reported reserves are non-negative and at most the pool's balances; reported LP supply covers all LP balances.", "quantifier": "all histories", "why_tests_cant": "inductive invariant", "anchors": ["contracts/pool_stable/src/contract.rs: provide_liquidity, swap, withdraw_liquidity"]}
{"id": "C52", "title": "Stable swap honours protections and simulation matches", "statement": "As for the XYK pool: deadline, minimum, fee cap, spread; and simulate_swap equals swap.", "quantifier": "all states and arguments", "why_tests_cant": "universal", "anchors": ["contracts/pool_stable/src/contract.rs: swap, do_swap, simulate_swap"]}
{"id": "C53", "title": "Only the admin can reconfigure a stable pool", "statement": "Users expect update_config to require the admin's authorisation. The code only compares the passed address with the stored admin and never asks for authorisation, so anybody can take over fee, fee recipient and admin; shown by a call with an empty signer set that succeeds in every state.", "quantifier": "all states", "why_tests_cant": "the attack works from every state", "anchors": ["contracts/pool_stable/src/contract.rs: update_config"]}
{"id": "C54", "title": "A stable pool accepts deposits and swaps of any realistic size", "statement": "Users expect that. compute_d multiplies two 18-decimals amounts in u128, so whenever 4*x*y >= 2^128 (about 9.2 whole tokens a side) provide_liquidity and swap always fail; proved for all states.", "quantifier": "all states with scaled reserves whose product exceeds the bound", "why_tests_cant": "universal failure statement", "anchors": ["contracts/pool_stable/src/math.rs: compute_d"]}
{"id": "C55", "title": "Amplification stays at the value chosen at initialization", "statement": "The amplification used by every computation equals 100 times the initial amp at all times; compute_current_amp lies between its two end points for any parameters.", "quantifier": "all times, all parameters", "why_tests_cant": "universal over times", "anchors": ["contracts/pool_stable/src/math.rs: compute_current_amp", "contracts/pool_stable/src/contract.rs: initialize"]}
{"id": "C56", "title": "Withdrawal from a stable pool is pro rata and deposits mint by invariant growth", "statement": "Same bounds as the XYK pool for withdraw_liquidity; deposits mint floor(T*floor(dD*10^18/D)/10^18) and honour min_shares_to_receive.", "quantifier": "all states", "why_tests_cant": "universal", "anchors": ["contracts/pool_stable/src/contract.rs: withdraw_liquidity, provide_liquidity"]}
{"id": "C57", "title": "Decimal arithmetic rounds toward zero with the stated error", "statement": "from_ratio, multiplication, division, pow and to-precision conversions return the exact rational rounded toward zero (pow: at most the exact power and monotone), and fail exactly when the intermediate product leaves i128 or the divisor is zero.", "quantifier": "all i128 operands", "why_tests_cant": "universal", "anchors": ["packages/decimal/src/decimal.rs"]}
{"id": "C58", "title": "Curve evaluation is exact linear interpolation up to one unit", "statement": "For every valid curve and every time at which value succeeds, the result differs from the exact rational piecewise linear function through the breakpoints by strictly less than one; at breakpoints it is exact.", "quantifier": "all valid curves (any number of steps), all times", "why_tests_cant": "The number of steps, times and values are unbounded; rounding errors depend on all of them.", "anchors": ["packages/curve/src/lib.rs: interpolate, SaturatingLinear::value, PiecewiseLinear::value"]}
{"id": "C59", "title": "Curve evaluation never fails for realistic sizes", "statement": "If every value of a valid curve is at most V, every breakpoint at most T and V*T < 2^128 then value succeeds at every time; beyond this bound it can fail on a valid curve (shown).", "quantifier": "all valid curves, all times", "why_tests_cant": "Overflow depends on the product of two unbounded parameters.", "anchors": ["packages/curve/src/lib.rs: interpolate"]}
{"id": "C60", "title": "Nothing beyond what is owed ever leaves the vesting contract", "statement": "Over any history the contract's balance of the vesting token minus the outstanding balances of all schedules never decreases; in particular tokens minted through the contract, which land in its own balance, can never be taken out again.", "quantifier": "all histories, all finite supersets of the schedules", "why_tests_cant": "monotone quantity over unbounded histories", "anchors": ["contracts/vesting/src/contract.rs: mint, claim, create_vesting_schedules"]}
{"id": "C61", "title": "Valid schedules are always accepted", "statement": "In every reachable state the admin can create any list of schedules for different accounts whose curves are valid, non-constant, non-increasing, end at zero and are small enough, provided the admin holds the total.", "quantifier": "all reachable states, all lists of schedules", "why_tests_cant": "liveness from all reachable states; the index search is an unbounded loop", "anchors": ["contracts/vesting/src/contract.rs: create_vesting_schedules", "contracts/vesting/src/storage.rs: save_vesting", "contracts/vesting/src/utils.rs"]}
{"id": "C62", "title": "The list of all schedules is complete", "statement": "query_all_vesting_info returns exactly the schedules of the account, in index order.", "quantifier": "all reachable states, accounts and indices", "why_tests_cant": "relies on indices being dense in every reachable state", "anchors": ["contracts/vesting/src/storage.rs: get_all_vestings, save_vesting"]}
{"id": "C63", "title": "Vesting calls move nobody's tokens without their signature", "statement": "If a call of the vesting contract lowers an account's balance of any token, that account signed it or it is the contract paying a claim.", "quantifier": "all states, calls, signer sets, tokens, accounts", "why_tests_cant": "universal over other accounts", "anchors": ["contracts/vesting/src/contract.rs"]}
{"id": "C64", "title": "The vesting setup is permanent", "statement": "Once initialised, admin, token and complexity limit never change and a second initialisation fails; initialisation itself needs no signature.", "quantifier": "all histories", "why_tests_cant": "over all histories", "anchors": ["contracts/vesting/src/contract.rs: initialize, initialize_with_minter"]}
{"id": "C65", "title": "Unbonding pays no rewards", "statement": "unbond moves only the staked token; the rewards due to the account drop by exactly what the removed stake had earned and not claimed, and are forfeited.", "quantifier": "all states, stakes, distribution histories and times", "why_tests_cant": "universal over reward histories", "anchors": ["contracts/stake/src/contract.rs: unbond", "contracts/stake/src/distribution.rs: calculate_pending_rewards"]}
{"id": "C66", "title": "Bonding records exactly what was paid", "statement": "A successful bond is authorised by the staker, moves exactly the amount of the staked token into the contract, appends one stake with that amount and the present time and changes nobody else's stakes; it succeeds whenever the staker holds the amount and it reaches the minimum.", "quantifier": "all reachable states, stakers and amounts", "why_tests_cant": "universal over states; liveness", "anchors": ["contracts/stake/src/contract.rs: bond"]}
{"id": "C67", "title": "The stake setup is permanent", "statement": "Once initialised, staked token, minimums, manager, owner and administrator never change; initialisation itself needs no signature.", "quantifier": "all histories", "why_tests_cant": "over all histories", "anchors": ["contracts/stake/src/contract.rs: initialize"]}
{"id": "C68", "title": "Small trades in an unbalanced stable pool go through", "statement": "Users expect that a small swap in either direction succeeds in a pool whose reserves differ. The invariant the contract computes is so close to the plain sum of the reserves that the computed new ask reserve exceeds the old one; proved: below an explicit threshold growing with the imbalance every swap fails.", "quantifier": "all reachable states, directions and amounts below the threshold", "why_tests_cant": "a statement of failure over all amounts and states", "anchors": ["contracts/pool_stable/src/math.rs: compute_d, calc_y", "contracts/pool_stable/src/contract.rs: compute_swap"]}
{"id": "C69", "title": "A stable pool prices tokens with different decimals correctly", "statement": "Users expect whole tokens to trade about one to one whatever their decimals. compute_swap scales both reserves by the larger precision, so with different decimals a swap needs at least nine times the coarse reserve, and selling the finer token never succeeds; proved for all states with different decimals.", "quantifier": "all reachable states with different decimals, all amounts", "why_tests_cant": "universal failure statement", "anchors": ["contracts/pool_stable/src/contract.rs: compute_swap"]}
{"id": "C70", "title": "A deposit into a stable pool earns shares", "statement": "Users expect that a deposit mints a fair number of shares. No liquidity is locked at the first deposit, so a first depositor with two shares can inflate the reserves by donations until a later deposit mints none, and then withdraw it; shown by a history. min_shares_to_receive protects the depositor. While the pool is in fair condition a deposit is credited in full up to one share and one unit, so what can be lost is the worth of one share.", "quantifier": "all reachable states; histories", "why_tests_cant": "the attack is a history of calls chosen by an adversary", "anchors": ["contracts/pool_stable/src/contract.rs: provide_liquidity"]}
{"id": "C71", "title": "Nobody's tokens move without authorisation in a stable pool", "statement": "In any successful transaction on a reachable state an account that did not authorise it loses nothing, except through an allowance it gave, and then at most that allowance.", "quantifier": "all histories and transactions", "why_tests_cant": "over all histories and all signer sets", "anchors": ["contracts/pool_stable/src/contract.rs"]}
{"id": "C72", "title": "A stable pool's setup is permanent and its parameters stay in range", "statement": "initialize works once; tokens, share token, stake contract, amplification and stored precisions never change; fee, slippage and spread limits stay between 0 and 100 %.", "quantifier": "all histories", "why_tests_cant": "over all histories", "anchors": ["contracts/pool_stable/src/contract.rs: initialize, update_config"]}
{"id": "C73", "title": "Liquidity in a stable pool can always be withdrawn", "statement": "Users expect that. A swap can take the whole reserve of one token; from then on no swap, deposit or withdrawal ever succeeds again, whatever anybody does; proved for all continuations and shown reachable.", "quantifier": "all continuations of all such states", "why_tests_cant": "statement about all future histories", "anchors": ["contracts/pool_stable/src/contract.rs: swap, withdraw_liquidity, provide_liquidity"]}
{"id": "C74", "title": "Exchanging tokens in a stable pool costs the swap fee", "statement": "Users and liquidity providers expect that. A one-sided deposit followed by a withdrawal exchanges the tokens without fee; shown by a history compared with the same swap. In general no deposit and no withdrawal depends on the fee: with any other fee and fee recipient the same call moves the same tokens and the same shares.", "quantifier": "a history; for the independence of the fee, every pool state, call, fee and fee recipient", "why_tests_cant": "adversarial history", "anchors": ["contracts/pool_stable/src/contract.rs: provide_liquidity, withdraw_liquidity, swap"]}
{"id": "C75", "title": "query_share announces what a withdrawal pays, and a holder can withdraw it", "statement": "In both kinds of pool a successful withdraw_liquidity pays exactly what query_share reports for the same number of shares just before; in every reachable state a holder who asks for no more than that succeeds (amounts fitting 128 bits); query_share answers whenever the shares and reserves are at most 1.7*10^20 units.", "quantifier": "all reachable states, holders and amounts", "why_tests_cant": "universal; liveness", "anchors": ["contracts/pool/src/contract.rs: query_share, withdraw_liquidity", "contracts/pool_stable/src/contract.rs: query_share, withdraw_liquidity"]}
{"id": "C76", "title": "Every balance sheet of the protocol is covered", "statement": "In every history over all contracts of the protocol together (tokens, pools of both kinds, stake, vesting and reward contracts, factories, routers, traders), every pool holds at least its reported reserves and its LP supply covers all LP balances; every stake contract holds at least the sum of its stakes and every vesting and reward contract at least what it still owes.", "quantifier": "all histories of all contracts by all accounts", "why_tests_cant": "interactions between contracts over unbounded histories", "anchors": ["contracts/*"]}
{"id": "C77", "title": "An account that signs nothing loses nothing", "statement": "An account with no outstanding allowance that signs none of the transactions of a history ends it with at least its former balance of every token, whatever others do with any contract.", "quantifier": "all histories, tokens, accounts", "why_tests_cant": "universal over histories and adversaries", "anchors": ["contracts/*: require_auth"]}
{"id": "C78", "title": "A pool created by a factory is correctly connected, for ever", "statement": "A created pool has its own share token that only the pool can mint, and a stake contract for exactly that token with the parameters of the creation call and owned by the factory; no later history changes this.", "quantifier": "all factories, creation calls, later histories", "why_tests_cant": "universal over histories", "anchors": ["contracts/factory/src/contract.rs: create_liquidity_pool", "contracts/pool/src/contract.rs: initialize"]}
{"id": "C79", "title": "Contracts do not interfere", "statement": "A transaction changes the stored state only of the contract it calls, the pools on its route and newly deployed contracts, and takes tokens only from signers and from the contracts it involves.", "quantifier": "all states, transactions, addresses", "why_tests_cant": "universal", "anchors": ["contracts/*"]}
{"id": "C80", "title": "Reverse quotes of routes", "statement": "For routes of XYK pools the router's simulate_reverse_swap chains the pools' reverse quotes. Users expect the same for stable pools; there the asked asset is passed where the pool expects the offered one, so the quote is for the opposite trade (shown: offering the quoted amount pays 1720 instead of 10000).", "quantifier": "all routes and pool states", "why_tests_cant": "depends on pool kinds and state", "anchors": ["contracts/multihop/src/contract.rs: simulate_reverse_swap", "contracts/pool_stable/src/contract.rs: simulate_reverse_swap"]}
{"id": "C81", "title": "The trader contract can trade", "statement": "Users expect trade_token to work. It never succeeds in a transaction whose signers are accounts: the pool's transfer needs the trader's authorisation, which a contract can give only as direct caller. Hence the trader's tokens leave it only by the admin's transfer.", "quantifier": "all reachable states and transactions", "why_tests_cant": "the tests mock all authorisations", "anchors": ["contracts/trader/src/contract.rs: trade_token", "contracts/pool/src/contract.rs: do_swap"]}
{"id": "C82", "title": "Decimals as text", "statement": "The text of a non-negative decimal is the exact value without trailing zeros, reading it back gives the same decimal, different decimals have different texts, and any number with at most 18 digits after the dot is read as exactly its value. Users expect this for negative decimals as well; there it is false: -0.5 and -0.05 have the same text 0.-5, the text -1.5 is read as -0.5, and a fraction not of exactly 17 digits never survives the round trip.", "quantifier": "all 128-bit decimals, all texts", "why_tests_cant": "unbounded domain; the tests use a few literals, no negative fractions", "anchors": ["packages/decimal/src/decimal.rs: to_string, from_str, Display"]}
{"id": "C83", "title": "Who may call the reward contract", "statement": "Every call but the initialization needs the approval of the staking contract named at initialization, a funding also the administrator's, an unbonding also the user's. Settings never change once made, and a second initialization is refused. The first one is open to everybody.", "quantifier": "all calls, signers and histories", "why_tests_cant": "must hold for all callers and histories", "anchors": ["contracts/stake_rewards/src/contract.rs: initialize, calculate_bond, calculate_unbond, distribute_rewards, withdraw_rewards, fund_distribution"]}
{"id": "C84", "title": "Rewards are accounted for", "statement": "In every history, what was ever handed out plus what is undistributed equals what the contract holds plus what it paid; undistributed_rewards never fails; and nothing leaves the contract but a payment of exactly the queried reward to the user.", "quantifier": "all histories of calls and third-party token transfers", "why_tests_cant": "unbounded histories", "anchors": ["contracts/stake_rewards/src/contract.rs: distribute_rewards, withdraw_rewards, query_undistributed_reward", "contracts/stake_rewards/src/distribution.rs: withdrawable_rewards"]}
{"id": "C85", "title": "Rewards are fair and payable", "statement": "If the staking contract reports stakes truthfully, all shown rewards can be paid together; a shown reward can be withdrawn at once; other users' actions do not change it; one's own staking and unstaking changes nothing of the rewards earned; and each distribution gives every user the proportional share up to a stated rounding error.", "quantifier": "all histories with truthful reports, all users", "why_tests_cant": "relational statement over unbounded histories and all users", "anchors": ["contracts/stake_rewards/src/contract.rs: calculate_bond, calculate_unbond, withdraw_rewards, query_withdrawable_reward", "contracts/stake_rewards/src/distribution.rs: update_rewards, withdrawable_rewards"]}
{"id": "C86", "title": "Stakes younger than 60 days earn less", "statement": "The multiplier is between 0 and 1, grows with time and is 1 once every stake is 60 days old; the shown reward is the full reward times the multiplier, rounded down; and what an early withdrawal leaves can be claimed later.", "quantifier": "all stake lists, times and states", "why_tests_cant": "all stake lists and times", "anchors": ["contracts/stake_rewards/src/distribution.rs: calc_withdraw_power, withdrawable_rewards"]}
{"id": "C87", "title": "Funded rewards are released", "statement": "A funding moves exactly the amount; after the end of the schedule one distribution hands out everything, and waiting never releases less. Users expect this for every accepted funding; shown false: a late start added to a running schedule is never fully released, a schedule with start equal to end blocks, and rounding can block a distribution right after a funding.", "quantifier": "all schedules, times and histories", "why_tests_cant": "depends on time and the whole funding history", "anchors": ["contracts/stake_rewards/src/contract.rs: fund_distribution, distribute_rewards"]}
{"id": "C88", "title": "The annualized rate", "statement": "Before anything is handed out the reported annualized reward is what the schedule releases in the coming year per point of stake, or the locked amount scaled up to a year if it ends sooner; it is zero without stakes, schedule or after the end. Users expect this at all times; shown false: it collapses after the first distribution.", "quantifier": "all states and times", "why_tests_cant": "all schedules and times", "anchors": ["contracts/stake_rewards/src/contract.rs: query_annualized_reward", "contracts/stake_rewards/src/distribution.rs: calculate_annualized_payout"]}
{"id": "C89", "title": "Reporting a new stake", "statement": "calculate_bond adds the last reported stake on top of the reported total, so the report must hold the total without the new stake. Reported with the stored stakes (whose total already includes it), the new stake is counted twice: the user is credited rewards of others, in an amount stated exactly, and others can no longer be paid.", "quantifier": "all stake reports", "why_tests_cant": "an interface assumption between two contracts, broken only after a history", "anchors": ["contracts/stake_rewards/src/contract.rs: calculate_bond", "contracts/stake/src/storage.rs: BondingInfo"]}
{"id": "C90", "title": "Factory reports on pools and users", "statement": "query_all_pools_details always answers and lists exactly the pools created through the factory, in order, each with its tokens, present reserves, supply, stake contract and fee. query_user_portfolio lists exactly the pools in which the user owns LP shares, in the wallet or staked, with what query_share announces for them, and the recorded stakes. No share is counted twice: portfolios of any set of accounts never add up to more than a pool's supply and reserves. The query answers for every account below a stated size; above it, it fails altogether.", "quantifier": "all reachable states of the whole protocol, all users and sets of users", "why_tests_cant": "all histories and all sets of users", "anchors": ["contracts/factory/src/contract.rs: query_pool_details, query_all_pools_details, query_user_portfolio", "contracts/pool/src/contract.rs: query_pool_info_for_factory, query_share"]}
{"id": "C91", "title": "256-bit decimals", "statement": "Each operation of the 256-bit fixed point type returns the exact rational result cut to 18 digits (addition, subtraction, unit constructors and distance exactly), and fails exactly when a stated intermediate value does not fit; powers never exceed the exact power, are monotone, off by at most n-1 units and never fail for bases up to 1; and wherever the 128-bit type gives a result for non-negative numbers the 256-bit type gives the same. The private multiply_ratio is shown to be off by a factor of 10^18.", "quantifier": "all 256-bit raw values", "why_tests_cant": "2^512 pairs of inputs", "anchors": ["packages/decimal/src/decimal256.rs: Decimal256"]}
{"id": "C92", "title": "The pool's unused deposit helpers: what they accept and where they fail", "statement": "assert_slippage_tolerance accepts a deposit exactly if the tolerance is at most the allowed maximum, the cross products scaled by 10^18 fit in 128 bits, and each cross product reduced by the tolerance is at most the other; the order of tokens does not matter and a proportional deposit is accepted unless the products overflow, which they do for pools of ordinary size. split_deposit_based_on_pool_ratio always ends; above 500 units it returns a part strictly inside the deposit with the matching simulated proceeds, and either the resulting ratio is within 0.01 of the pool's or the part is an end of an interval of at most 500 units that brackets the right one; at most 500 units are not split but swapped for nothing; and the tolerance is absolute, so a pool with a small ratio accepts the first guess.", "quantifier": "every pool state, deposit, pool ratio, tolerance and allowed maximum", "why_tests_cant": "both helpers are dead code without tests; the binary search depends on the whole swap curve and its result must be right for every pool and deposit", "anchors": ["contracts/pool/src/contract.rs: split_deposit_based_on_pool_ratio", "contracts/pool/src/contract.rs: assert_slippage_tolerance", "packages/phoenix/src/utils.rs: is_approx_ratio"]}
{"id": "C93", "title": "Only the stored administrator replaces a contract's code, except in stable pools where anybody can take over", "statement": "update/upgrade of a pool, stake, reward, vesting contract, factory or router succeeds exactly if the stored administrator authorises, never before initialize, and tokens and traders cannot be replaced. The administrators of factory, router, stake, reward and vesting contracts are fixed by initialize for ever, that of an XYK pool changes only with that administrator's signature, so while it does not sign nobody else can ever replace the code. For stable pools this is false: a call nobody signs makes any account administrator, which can then replace the code. initialize of factory and router works exactly once, for anybody, the factory needs a non-empty whitelist; update_wasm_hashes and update change exactly the hashes given, with the administrator's authorisation.", "quantifier": "every reachable state of the whole protocol, every continuation, every signer set and contract address", "why_tests_cant": "it is a statement about all histories of all contracts together; tests try single unauthorised calls", "anchors": ["contracts/factory/src/contract.rs: initialize, update_wasm_hashes, update", "contracts/multihop/src/contract.rs: initialize, update", "contracts/pool/src/contract.rs: update_config, upgrade, update", "contracts/pool_stable/src/contract.rs: update_config, upgrade, update", "contracts/stake/src/contract.rs: update", "contracts/stake_rewards/src/contract.rs: update", "contracts/vesting/src/contract.rs: update"]}
{"id": "C94", "title": "Splitting a sale into several swaps never hurts and gains at most two units per extra swap", "statement": "In an XYK pool, selling an amount in n successive swaps returns in total at least what simulate_swap announces for the whole amount, and at most 2(n-1) units more; both bounds are attained.", "quantifier": "every pool, every fee between 0 and 100%, every list of amounts, every sender, limits and token balances", "why_tests_cant": "the roundings of n consecutive swaps interact; the bound must hold for every list of amounts", "anchors": ["contracts/pool/src/contract.rs: swap, simulate_swap, compute_swap"]}
{"id": "C95", "title": "Which swaps the constant product pool accepts", "statement": "In every reachable pool with two reserves x (sold token) and y (bought token), simulate_swap of a positive amount a answers exactly when a whole number lies between a*y/(x+a) and a*y/x (and that last value fits an i128). A signed swap of an amount the trader holds, within its deadline and limits, goes through whenever simulate_swap answers with an acceptable spread, and pays what was announced. In particular every amount with x*(x+a) <= a*a*y and a/x at most max_allowed_spread can be sold. The stronger expectation that every positive amount can be sold is false: smaller amounts are refused unless the price happens to fall on a whole number of units; a reachable pool of ordinary size is given in which half a token cannot be sold.", "quantifier": "every genesis state, every history of transactions, every trader, token of the pair, amount and optional limits", "why_tests_cant": "Acceptance depends on the position of whole numbers between two quotients of arbitrary reserves; tests try a few round numbers, for which the trade is always accepted.", "anchors": ["contracts/pool/src/contract.rs: compute_swap", "contracts/pool/src/contract.rs: swap, do_swap, simulate_swap, assert_max_spread"]}
{"id": "C96", "title": "Which deposits the constant product pool accepts", "statement": "In every reachable pool with two reserves, a deposit with desired amounts A and B by an account that signs is accepted exactly when: both amounts and the given minimums are positive, the deadline is kept, a custom slippage does not exceed the pool's limit, neither desired amount is exceeded by the worth of the other (at the ratio of the reserves) by more than the slippage tolerance, the amounts taken - each the smaller of the desired amount and the worth of the other - reach the minimums, and the account holds them. In particular a deposit in the ratio of the reserves is always accepted. The first deposit is accepted exactly when (besides the same formal conditions) the account holds the amounts and their product is at least 1001^2. All this for amounts, reserves and supplies of at most 10^18 units.", "quantifier": "every genesis state, every history of transactions, every account, desired amounts, minimums, slippage and deadline", "why_tests_cant": "A test shows single accepted and refused deposits; that no other condition can block a depositor, whatever happened before, is a statement about all reachable states.", "anchors": ["contracts/pool/src/contract.rs: provide_liquidity", "contracts/pool/src/storage.rs: utils::get_deposit_amounts, mint_shares"]}
{"id": "C97", "title": "The token's events tell every balance", "statement": "From the events of a token contract alone an observer can compute the balance of every account and the current administrator: after any history of calls since the deployment, successful or not, each balance is the sum of what mint, transfer and burn events say about the account. The allowances cannot be computed from the events: a transfer by the owner and one by a spender publish the same event.", "quantifier": "every deployment, every history of calls of the token by anybody, every account", "why_tests_cant": "A test compares a few events; that no sequence of calls ever moves a balance without a matching event quantifies over all histories.", "anchors": ["contracts/token/src/contract.rs: mint, set_admin, approve, transfer, transfer_from, burn, burn_from"]}
{"id": "C98", "title": "The pools' events name what was really moved", "statement": "The events of a successful swap, deposit or withdrawal of either pool name the account and exactly the amounts that moved between it and the pool (and the shares destroyed). They do not tell everything: the commission of a swap, the shares minted by a deposit and tokens that were sent to the pool before are not published, so that two histories with the same log of the pool can end with different reserves and numbers of shares.", "quantifier": "every genesis state, every history, every swap, deposit and withdrawal", "why_tests_cant": "A test looks at the events of single calls in simple states; that the published numbers are always the moved ones, also after donations and for every rounding, ranges over all states and inputs.", "anchors": ["contracts/pool/src/contract.rs: do_swap, provide_liquidity, withdraw_liquidity", "contracts/pool_stable/src/contract.rs: do_swap, provide_liquidity, withdraw_liquidity"]}
{"id": "C99", "title": "The stake contract's events tell every account's stake", "statement": "From the events of a stake contract alone an observer can compute what every account has staked: after any history since the deployment it is the sum of its bond events less its unbond events. Which stakes are left, and therefore what the account will earn, cannot be computed, even knowing the time of each event: an unbond event does not say which of two equal stakes was removed.", "quantifier": "every genesis state, every history of calls, every account", "why_tests_cant": "That every change of a stake is published, in every history, is not a statement about a sample.", "anchors": ["contracts/stake/src/contract.rs: bond, unbond, create_distribution_flow, distribute_rewards, withdraw_rewards, query_staked"]}
{"id": "C100", "title": "What the vesting contract's log tells", "statement": "The event of a successful claim carries exactly the amount the contract paid to the claimer, by which the claimed schedule went down; the events of a mint name the minter and exactly what was created in the contract's balance, those of a burn the account and exactly what it lost. From any moment after the set-up on, the log determines who the minter is and how much they may still mint. It does not say who claimed or which schedule: two histories with the same log can leave different balances outstanding.", "quantifier": "every state, every claim, mint and burn; every history", "why_tests_cant": "The amount is computed from a curve, a balance and the time; a test checks a few of them.", "anchors": ["contracts/vesting/src/contract.rs: claim, mint, burn, update_minter, update_minter_capacity"]}
{"id": "C101", "title": "The pools a factory announced are the pools it lists", "statement": "In every reachable state of the whole protocol, query_pools of a factory answers exactly the addresses of the pools announced in the factory's create events, in their order.", "quantifier": "every host, every genesis state, every history of transactions on any contracts, every factory", "why_tests_cant": "An indexer relies on it for every history, including failed and interleaved creations.", "anchors": ["contracts/factory/src/contract.rs: create_liquidity_pool, query_pools"]}
{"id": "C102", "title": "Reserves are backed whatever the pool tokens are", "statement": "Let the two pool tokens be any contracts at all, with the one restriction that a token call takes from the pool no more than the pool itself sent: tokens that keep a part of every transfer, that pay interest, that freeze accounts or refuse transfers are all allowed. Then in every reachable state of a constant product or stable pool the pool holds at least the reserves it reports, in both tokens.", "quantifier": "every implementation of the two pool tokens and of the share token that does not take from the pool more than it sent, every history of pool calls, and anything at all happening to the tokens in between that does not lower a balance of the pool", "why_tests_cant": "the tests use one token implementation; the code of listed tokens is not known", "anchors": ["contracts/pool/src/contract.rs: provide_liquidity, swap, withdraw_liquidity", "contracts/pool_stable/src/contract.rs: provide_liquidity, swap, withdraw_liquidity"]}
{"id": "C103", "title": "A swap pays for the amount offered, not for the amount that arrived", "statement": "With any token, a successful swap pays the sender exactly what the simulation quotes for the offered amount and takes payment and fee out of the bought reserve; the sold reserve rises by what arrived. So if the sold token keeps a part of every transfer, the difference is paid by the liquidity providers: with a token that keeps half, one round trip of 50000 units on a pool of one and two million lowers one reserve by more than 20000 and does not raise the other.", "quantifier": "every token implementation, every pool state, every successful swap; the loss is a concrete witness", "why_tests_cant": "the tests use only tokens that deliver in full", "anchors": ["contracts/pool/src/contract.rs: do_swap", "contracts/pool_stable/src/contract.rs: do_swap"]}
{"id": "C104", "title": "Vesting obligations are backed for every token that delivers in full", "statement": "Let the vesting token be any contract that takes from the vesting contract no more than that sent and that delivers in full what is sent to it. Then in every reachable state the vesting contract holds at least the outstanding balances of any set of schedules. Delivery in full is needed: with a token that keeps half of every transfer two schedules of 120 and 300 are created with 210 tokens, and after the first claim the second, fully vested, cannot be paid.", "quantifier": "every such token, every history of schedule creations, claims and changes of the minter, every finite set of schedules; the shortfall is a concrete witness", "why_tests_cant": "the tests use one token implementation and a few schedules", "anchors": ["contracts/vesting/src/contract.rs: create_vesting_schedules, claim"]}
{"id": "C105", "title": "Stakes are backed whatever the reward tokens are", "statement": "Let the staked token be any contract that takes from the stake contract no more than that sent and delivers in full what is sent to it, and let the reward tokens be any contracts that take from the stake contract no more than that sent. As long as the staked token is not itself a reward token, the stake contract holds in every reachable state at least what any set of accounts has staked. Rewards are not covered: with a reward token that keeps half of every transfer a distribution is recorded in full, and after one staker was paid another cannot be. Nor is a staked token that does not deliver in full.", "quantifier": "every such choice of tokens, every history of the stake contract, every finite set of accounts; the two failures are concrete witnesses", "why_tests_cant": "the tests use one token implementation", "anchors": ["contracts/stake/src/contract.rs: bond, unbond, distribute_rewards, withdraw_rewards"]}
{"id": "C106", "title": "Storage lifetimes never change what the token holds", "statement": "The host removes temporary storage entries and archives persistent ones after a lifetime that the token contract keeps extending. Whatever is called and queried, and however long nobody uses the token, its administrator, its balances and what `allowance` returns are those of a world without lifetimes in which exactly the successful calls were made. A call that would succeed there and fails was refused because the instance or a balance it moves was archived, or because it approves an amount for longer than the network keeps entries; after restoring the instance and these balances, which anybody can do, it succeeds with the same effect. An approval is good in full through its expiration ledger unless the owner approves anew or the spender spends. Every call leaves the instance live for six days and the balances it moves for twenty-nine.", "quantifier": "every network whose entries can live more than thirty days, every administrator, every history of calls, queries and restorations with non-decreasing ledger numbers, every idle time between them", "why_tests_cant": "the host of the unit tests runs for a few ledgers; the claim is about every pattern of idle times over months, on every combination of live, expired and archived entries", "anchors": ["contracts/token/src/allowance.rs::read_allowance", "contracts/token/src/allowance.rs::write_allowance", "contracts/token/src/allowance.rs::spend_allowance", "contracts/token/src/balance.rs::read_balance", "contracts/token/src/balance.rs::write_balance", "contracts/token/src/contract.rs::Token", "contracts/token/src/storage_types.rs"]}
{"id": "C107", "title": "The value behind a pool share over any history", "statement": "Take any reachable state of an XYK pool and any further history of trades, deposits, withdrawals, donations and administration by anybody. If it contains k swaps (accepted or not) and every one of them leaves both reserves at m or more, then reserveA*reserveB divided by the square of the number of shares falls at most by k parts in m+1, and without swaps it does not fall at all. So if in the end as many shares exist as before and one reserve is not larger, the other reserve lost at most k parts in m+1: nobody can cycle value out of the liquidity providers beyond the rounding of each swap.", "quantifier": "for every genesis state, every prefix history, every further history of any length by any accounts, and every bound m", "why_tests_cant": "the attack surface is an arbitrary interleaving of swaps, deposits and withdrawals by colluding accounts with chosen amounts; tests try a few sequences and cannot bound the loss over all of them", "anchors": ["contracts/pool/src/contract.rs: do_swap, compute_swap, provide_liquidity, withdraw_liquidity"]}
{"id": "C108", "title": "Which swaps and deposits a stable pool accepts", "statement": "In every reachable stable pool of two tokens with the same decimals, reserves within a factor 1000 of each other and a total reserve S (in 10^-18 token) below 2*A tokens: if S^3*10^20 < 2^256 (about 10.5 tokens in all) then simulate_swap answers every amount for which some payout g keeps the pool above the StableSwap curve with the solver's tolerance taken off, and announces at least g; a signed swap of an amount the trader holds goes through whenever simulate_swap answers with a positive payout within the limits, and pays what was announced. If (S-1505)^3*10^20 >= 2^256 no swap ever goes through, in any direction, for any amount, although deposits are still accepted: a first deposit of 6 : 6 tokens makes a pool that can never be traded against. Deposits that leave the reserves within a factor 1000, the total below 2*A tokens and 4*x*y < 2^128 are accepted, for every minimum up to the number of shares they mint.", "quantifier": "every genesis state, every history of transactions, every trader, amount, time after the amplification was set, and optional limits", "why_tests_cant": "Acceptance needs convergence of two Newton iterations within 64 rounds and the absence of overflow for all reserves and amounts; tests run a few round amounts.", "anchors": ["contracts/pool_stable/src/math.rs: compute_d, calc_y", "contracts/pool_stable/src/contract.rs: swap, do_swap, compute_swap, simulate_swap, provide_liquidity"]}
{"id": "C109", "title": "Nobody drains the value behind a stable pool share", "statement": "Take any reachable state of a stable pool of two tokens with the same number (at most 13) of decimals and any further history of swaps, deposits, withdrawals, token transfers and configuration changes by anybody, in which every swap and deposit is tried while the reserves are within a factor 1000 of each other, their total is below 2*A-1 tokens and at least m units. If the history has k swaps and deposits, then the total of the reserves per LP share falls by at most k parts in m; withdrawals never lower it. If nobody deposits or withdraws, the total of the reserves falls by at most one unit per swap. If the number of shares ends where it began, the pool keeps at least (m-k)/m of its total.", "quantifier": "every genesis state, every history, every further history by any number of accounts, all amounts and times", "why_tests_cant": "The claim is about unbounded sequences of calls mixed in any order, with rounding and solver error in each.", "anchors": ["contracts/pool_stable/src/contract.rs: swap, provide_liquidity, withdraw_liquidity", "contracts/pool_stable/src/math.rs: compute_d, calc_y"]}
{"id": "C110", "title": "Which transfers a caller signs", "statement": "On the ledger a signature covers a tree of invocations with all their arguments, and each node is good once. With such signatures swap, withdraw_liquidity, bond, distribute_rewards, create_vesting_schedules and deposits into a stable pool succeed exactly if they would with a signature for everything and the caller signed the one transfer (two for a deposit) of exactly the amount the call moves; the result is the same and nothing else is used up. unbond, withdraw_rewards and claim need no further signature. In every reachable XYK pool a deposit needs the transfers of exactly the amounts by which the pool's balances grow; these are computed from the reserves at the time of the call, so a deposit signed at one price is refused at another although it is within all limits the caller gave.", "quantifier": "every contract state (every reachable one for deposits), ledger, caller, argument and set of signed invocations", "why_tests_cant": "the unit tests run with mock_all_auths, under which every signature covers everything", "anchors": ["contracts/pool/src/contract.rs:provide_liquidity", "contracts/pool/src/contract.rs:do_swap", "contracts/pool/src/contract.rs:withdraw_liquidity", "contracts/pool_stable/src/contract.rs:provide_liquidity", "contracts/stake/src/contract.rs:bond", "contracts/vesting/src/contract.rs:create_vesting_schedules"]}
{"id": "C111", "title": "What a signature for a route covers", "statement": "A swap over several pools with signed invocations succeeds only if it would with a signature for everything, with the same result, and the recipient signed a separate node for each hop with exactly its pool and its amount and the transfer below it; signing these is enough. So if no asset is offered twice, a signature made for certain pools and amounts (as a simulation announced them) is good precisely in the states where the route uses these very pools and amounts: any change of the price of an earlier pool that changes an intermediate amount makes the route fail, whatever minimum the recipient accepts. A route over one pool does not expire this way.", "quantifier": "every world state, route, recipient, amount, limit and list of signed nodes", "why_tests_cant": "the unit tests run with mock_all_auths, under which every signature covers everything, and a price moves between signing and execution in ways no test enumerates", "anchors": ["contracts/multihop/src/contract.rs:swap", "contracts/pool/src/contract.rs:swap", "contracts/pool_stable/src/contract.rs:swap"]}
{"id": "C112", "title": "Where every unit of a token comes from", "statement": "In the whole protocol, a successful call of any contract changes the total supply of a token (the sum over all holders) by exactly the amount of a mint or burn of that token, directly or through the vesting contract, or by the change of the number of shares a pool reports for its own share token; swaps, routes, trades, stakes, rewards, schedules, claims and deployments conserve every supply. Consequently the number of shares a pool reports is always the total supply of its share token plus what holders burnt themselves, and a token administered by an account is never inflated in a history in which that account signs nothing.", "quantifier": "all hosts, all starting ledgers, all histories of calls by anybody on any number of factories, pools of both kinds, stake, vesting and reward contracts, routers and traders; all tokens; all holders", "why_tests_cant": "The tests look at a few accounts after a few calls; that no call of any contract creates or destroys units for any account anywhere, and that reported shares and existing shares agree after every history, quantifies over all histories and all holders.", "anchors": ["contracts/token/src/contract.rs: mint, burn, burn_from", "contracts/pool/src/contract.rs: mint_shares, burn_shares, provide_liquidity, withdraw_liquidity", "contracts/pool/src/storage.rs: utils::mint_shares, utils::burn_shares", "contracts/pool_stable/src/storage.rs: utils::mint_shares, utils::burn_shares", "contracts/vesting/src/contract.rs: mint, burn"]}
{"id": "C113", "title": "Which staking calls go through", "statement": "After any history, a stake contract accepts initialize exactly once and with positive parameters; bond exactly when the account signs, the amount is at least the minimum bond and the account holds it; unbond exactly when the account signs, the very stake (amount and time) is listed by query_staked and the contract can return it, which is always the case unless the LP token was also registered as a reward token; create_distribution_flow exactly when the manager or owner signs and the token is not yet registered; distribute_rewards exactly when the manager or owner signs, the token is registered and the sender holds the amount; withdraw_rewards exactly when query_withdrawable_rewards answers and the contract can pay each answered amount.", "quantifier": "all hosts, starting ledgers and histories of the whole protocol; all accounts, amounts, timestamps and tokens; both directions (accepted and refused)", "why_tests_cant": "Tests exercise one acceptance and a few rejections; that there is no further hidden reason for a refusal, and no acceptance outside these conditions, after every history is a statement about all inputs and all reachable states.", "anchors": ["contracts/stake/src/contract.rs: initialize, bond, unbond, create_distribution_flow, distribute_rewards, withdraw_rewards, query_staked, query_withdrawable_rewards"]}
{"id": "C114", "title": "Which vesting calls go through", "statement": "After any history, a vesting contract accepts initialize exactly while it is uninitialised; create_vesting_schedules exactly when the admin signs, the list is non-empty without repeated accounts, each curve is valid, not constant, decreasing to zero and of fewer points than the limit, and the admin can pay the total; claim exactly when the account signs and query_available_to_claim answers a positive amount (the contract can always pay it); burn exactly when the account signs for a positive amount it holds; mint exactly when the minter signs for a positive amount within its capacity and the contract administers the token (or its admin signs too); update_minter exactly when the present minter signs, or the admin while there is none; update_minter_capacity exactly when the admin signs while there is a minter.", "quantifier": "all hosts, starting ledgers and histories of the whole protocol; all accounts, schedules, indices and amounts; both directions", "why_tests_cant": "A rejection test shows one refusal; that a due claim can never be refused and that nothing outside the stated conditions is accepted quantifies over all schedules, times and histories.", "anchors": ["contracts/vesting/src/contract.rs: initialize, create_vesting_schedules, claim, burn, mint, update_minter, update_minter_capacity, query_available_to_claim", "contracts/vesting/src/utils.rs: validate_vesting_schedule, check_duplications"]}
{"id": "C115", "title": "Where every contract comes from", "statement": "After any history every contract in the protocol either was there at the start or is the pool that a factory lists for a pair of tokens, the router that a factory names, or the share token or stake contract that an initialised pool names, each at the address derived from its deployer and salt and running the code its role needs. No code is ever replaced or removed by these calls, and no vesting, reward, trader or factory contract appears after the start.", "quantifier": "all hosts, starting ledgers and histories of the whole protocol; all addresses", "why_tests_cant": "A test sees the contracts it deployed; that no sequence of calls by anybody brings about a contract of another origin is a statement about all histories and all addresses.", "anchors": ["contracts/factory/src/utils.rs: deploy_lp_contract, deploy_and_initialize_multihop_contract", "contracts/factory/src/contract.rs: create_liquidity_pool, initialize", "contracts/pool/src/storage.rs: utils::deploy_token_contract, utils::deploy_stake_contract", "contracts/pool_stable/src/storage.rs: utils::deploy_token_contract, utils::deploy_stake_contract"]}
{"id": "C116", "title": "Pools can always be created, factories and traders always used, by exactly the right callers", "statement": "If the host derives addresses from deployer and salt without collisions and no contract has deployed anything at the start, then after any history create_liquidity_pool is accepted exactly when a whitelisted account signs it, the parameters are in range (tokens ordered, fees and slippages in basis points, fee below its cap, positive bonds, for stable pools an amplification of 1 to 1000000 and existing tokens of at most 18 decimals) and the factory has no pool, of either kind, for these two tokens; initialize of a factory or pool is accepted exactly once, by anybody; the whitelist and the wasm hashes are changed exactly when the admin signs; a trader is initialised exactly once with its admin's signature and pays out exactly when its admin signs and it has the amount. Nothing anybody does elsewhere can block any of these.", "quantifier": "all collision-free hosts, all starting ledgers without deployments, all histories; all callers, parameters and tokens; both directions", "why_tests_cant": "That no prior activity can occupy an address a factory will need, and that there is no further reason for refusal, quantifies over all histories and all parameters.", "anchors": ["contracts/factory/src/contract.rs: initialize, create_liquidity_pool, update_whitelisted_accounts, update_wasm_hashes, update, validate_token_info, validate_pool_info", "contracts/pool/src/contract.rs: initialize", "contracts/pool_stable/src/contract.rs: initialize", "contracts/stake/src/contract.rs: initialize", "contracts/trader/src/contract.rs: initialize, transfer"]}
{"id": "C117", "title": "A stable pool quotes its curve to within one unit, and selling more costs at most one unit", "statement": "In every reachable stable pool of two tokens with the same number (at most 17) of decimals, the payout simulate_swap announces is the exact solution of the StableSwap equation to within one unit in either direction, provided the sale leaves the pool enough of the bought token (4 units for 6-decimals tokens, 202 units for 7 decimals, 0.002 token for 9). Under the same condition a larger sale is quoted at most one unit less than a smaller one, gross and net. Outside the condition this is false by far: a reachable 9-decimals pool pays 6.7% less for 7527 units than for 7526.", "quantifier": "every genesis state, every history, every pair of amounts, either direction, any two times", "why_tests_cant": "the solver stops at different iterates for neighbouring amounts; monotonicity over all pairs cannot be sampled, and the violation sits on single amounts", "anchors": ["contracts/pool_stable/src/math.rs: calc_y", "contracts/pool_stable/src/contract.rs: compute_swap, simulate_swap"]}
{"id": "C118", "title": "Calls that touch different things commute", "statement": "If two calls concern different pools, different stakers or different vesting schedules, or one of them is a plain token transfer, mint or burn, and both go through in either order, then the state of the whole protocol afterwards does not depend on the order. A call that goes through before as well as after such an independent call moves exactly the same amounts for everybody: nobody changes the outcome of a swap, withdrawal, bond, unbond, reward withdrawal or vesting claim by acting first on something else.", "quantifier": "every reachable state of the whole protocol, every pair of independent calls with any arguments and signers, both orders", "why_tests_cant": "a test runs a few pairs of calls in one state; the claim is about all pairs in all reachable states, and it fails if any call reads something it should not.", "anchors": ["contracts/pool/src/contract.rs: swap, withdraw_liquidity", "contracts/pool_stable/src/contract.rs: swap, withdraw_liquidity", "contracts/stake/src/contract.rs: bond, unbond, withdraw_rewards", "contracts/vesting/src/contract.rs: claim"]}
{"id": "C119", "title": "Which calls a token accepts", "statement": "After any history of calls, a token accepts exactly the calls that carry the signature of the account concerned (the administrator for mint and set_admin, the owner for approve, transfer and burn, the spender for transfer_from and burn_from), a non-negative amount, enough balance, an unexpired allowance that covers the amount where one is used, and room for the amount on the receiving balance. No sequence of calls by others makes it refuse such a call, so a holder can always give away or burn all they have.", "quantifier": "every history of calls with any arguments and signers from any construction on, every next call", "why_tests_cant": "tests try a few accepted and refused calls in a few states; 'if and only if, in every reachable state' is about all of them.", "anchors": ["contracts/token/src/contract.rs: mint, set_admin, approve, transfer, transfer_from, burn, burn_from", "contracts/token/src/allowance.rs: spend_allowance", "contracts/token/src/balance.rs: spend_balance, receive_balance"]}
{"id": "C120", "title": "What a contract keeps under one storage key never disturbs another", "statement": "Every contract keeps its data in key-value storage under numbered keys, symbols, addresses and composite keys. Whatever is called, by anybody, in any order, failed calls included, an entry read back is what was last stored for that variable: the pools, the staking contract, the vesting contract and the tokens behave, call by call, as if every reserve, balance, stake, schedule, allowance and setting had a place of its own. Two variables never share a key, no write goes to the wrong storage kind, no call works on a stale copy, no schedule overwrites another, and an uninitialised contract answers nothing but its initialisation.", "quantifier": "every history of calls with any arguments, callers, signers and times, starting from empty storage, for the XYK pool, the stable pool, the staking contract, the vesting contract and the token; every address, index and pair of addresses used in a key", "why_tests_cant": "a test uses a handful of addresses and a few calls; a key collision or a stale copy shows only for particular keys after particular histories.", "anchors": ["contracts/pool/src/storage.rs: DataKey, get_*, save_*", "contracts/pool_stable/src/storage.rs: DataKey, save_greatest_precision, get_precisions", "contracts/stake/src/storage.rs, contracts/stake/src/distribution.rs: keys", "contracts/vesting/src/storage.rs: VestingInfoKey, save_vesting, get_all_vestings", "contracts/token/src/storage_types.rs: DataKey; balance.rs, allowance.rs, admin.rs"]}
{"id": "C121", "title": "Exactly when the router quotes a route, and what it says", "statement": "The router's `simulate_swap` answers exactly when the list of operations is not empty, every operation offers the asset the operation before it asks for, the router has been set up, and every pool the factory has registered for the pairs on the way answers its own quote for the amount the hop before it names. `simulate_reverse_swap` answers under the same conditions with the direction reversed: every operation asks for the asset the one before it offers, and the pools are asked for their reverse quotes. The answer is the last hop's amount together with the commissions and spreads of all hops in order.", "quantifier": "every state of the contracts, every route of any length, every amount, both directions", "why_tests_cant": "Routes can have any length and pass through any pools; a test fixes a few routes.", "anchors": ["contracts/multihop/src/contract.rs:simulate_swap", "contracts/multihop/src/contract.rs:simulate_reverse_swap", "contracts/multihop/src/utils.rs:verify_swap", "contracts/multihop/src/utils.rs:verify_reverse_swap"]}
{"id": "C122", "title": "Archival of storage never changes what the contracts hold, it only delays", "statement": "On the network every storage entry has a lifetime, and an entry that is not extended in time is archived: a call that touches it fails until somebody restores it. For the constant-product pool, the stable pool, the staking contract and the vesting contract, from deployment on and whatever is called, restored, extended or left unused for however long: (1) the storage and the token balances are exactly those that the calls which succeeded produce in a world without lifetimes, and there all of them succeed; (2) a call that would succeed without lifetimes fails exactly if the contract's instance is archived or one of the entries which the call uses, and these are listed for every call; (3) once anybody restores the instance and those entries the call goes through, with the same result as without lifetimes, so no stake, share or schedule is ever lost; (4) after a successful call the entries it used (for the creation of vesting schedules: all but the recipients' earlier schedules) are not archived for 29 days and the instance is not for 6 days (29 for the stable pool and the vesting contract), except that the pool's initialize and upgrade leave its instance's lifetime alone.", "quantifier": "every network configuration that a contract can be deployed on, every history of calls by anybody in any ledger, of restores and extensions by anybody, with any pauses in between, every call", "why_tests_cant": "The test environment neither archives entries nor advances ledgers on its own; which entries are archived depends on the whole history of calls and pauses.", "anchors": ["contracts/stake/src/storage.rs", "contracts/stake/src/contract.rs", "contracts/pool/src/storage.rs", "contracts/pool/src/contract.rs", "contracts/pool_stable/src/storage.rs", "contracts/pool_stable/src/contract.rs", "contracts/vesting/src/storage.rs: save_vesting, get_vesting", "contracts/vesting/src/contract.rs", "packages/phoenix/src/ttl.rs"]}
{"id": "C123", "title": "Storage lifetimes of the rewards contract", "statement": "The persistent entries of the rewards contract have lifetimes and can be archived. In every history, however long nobody uses the contract: (1) its storage holds, key by key and nothing else, exactly what the calls that succeeded produce in a world without lifetimes, and all of them succeed there; the token balances are the same as well. (2) A call that succeeds without lifetimes fails exactly if the instance or one of the entries it uses is archived, and (3) goes through with the same outcome once somebody has restored them, so no reward is lost. (4) A successful call leaves the configuration, the initialization mark and the administrator, as far as it used them, at least 29 days and the instance at least 6 days (initialize leaves the instance alone). (5) All other entries - the totals, the schedule, the entries of the users - are never extended by the contract: unless somebody outside restores or extends them, every call that uses one of them fails from the network's minimal lifetime after its creation on, however often it was used in between.", "quantifier": "every network with sane limits, every history of calls, failed transactions, restorations and extensions by anybody, any distances in time between them, every call", "why_tests_cant": "The test host neither archives entries by itself nor runs for weeks of ledgers; the claim compares every history with the same history in a world without lifetimes.", "anchors": ["contracts/stake_rewards/src/storage.rs: get_config, save_config, utils", "contracts/stake_rewards/src/distribution.rs: save_reward_curve, save_distribution, save_withdraw_adjustment", "contracts/stake_rewards/src/contract.rs", "packages/phoenix/src/ttl.rs"]}
{"id": "C124", "title": "What others can gain from a trade by trading around it", "statement": "In an XYK pool, take any reachable state and any further history of swaps, deposits and withdrawals by a set of accounts, with k swaps each leaving both reserves at m or more. What these accounts gain together is covered: the pool's holdings less their gains are worth at least the starting reserves, as a product per squared share, up to k parts in m+1. So if some accounts sell x units and others trade, deposit and withdraw before, between and after them (a sandwich), and the others do not end with less of the token sold, then the others' gain plus what the sellers received is at most what x buys at the constant-product price in the starting reserves, up to k parts in m+1 of the reserve; measured in the token sold, the others gain at most what the sellers paid in excess of that price. In particular a swap with ask_asset_min_amount M can lose to others no more than the constant-product output less M.", "quantifier": "all reachable pool states, all further histories by anybody, all splits of the callers into sellers and others, all fees and limits", "why_tests_cant": "an attacker chooses any number of trades, deposits and withdrawals of any size around the victim's trade; the bound must hold for all of them", "anchors": ["contracts/pool/src/contract.rs: swap, do_swap, compute_swap, provide_liquidity, withdraw_liquidity"]}
{"id": "C125", "title": "The events of the reward distribution contract tell the whole account", "statement": "In every history of a reward distribution contract, its published events alone determine its accounts: the amounts under (distribute_rewards, amount) add up to the answer of query_distributed_reward; these less the amounts under (withdraw_rewards, reward_amount) are what is owed and not yet paid, so that query_undistributed_reward is the balance less this difference; the payments published after the name of an account add up to what the account's balance of the reward token gained in withdrawals and unbondings; and the published funding less the published payments is the change that the contract's own calls made to its balance.", "quantifier": "all histories from deployment with any calls by anybody, including failed ones and direct token transfers, all accounts", "why_tests_cant": "an indexer relies on the events after arbitrarily many calls, with payments that happen inside an unbonding and distributions that publish nothing", "anchors": ["contracts/stake_rewards/src/contract.rs: initialize, add_user, calculate_bond, calculate_unbond, distribute_rewards, withdraw_rewards, fund_distribution, query_distributed_reward, query_undistributed_reward"]}
{"id": "C126", "title": "Storage lifetimes of factory, router and trader", "statement": "The storage of the factory, of a multihop router and of a trader has lifetimes and can be archived. In every history of the whole protocol, however long nobody uses such a contract: (1) its storage holds, key by key and nothing else, exactly what the transactions that succeeded produce in a world without lifetimes, all of them succeed there, and the rest of the protocol is what they make of it. (2) A transaction that succeeds without lifetimes fails exactly if it calls the contract, directly or through the router, and the instance or one of the entries it uses is archived: a route needs the factory's entries of exactly the pairs it looks up, in the order it finds them, and of the router only the instance. (3) It goes through with the same outcome once somebody has restored them: no pool is forgotten, and nobody can initialise the contract anew. (4) A transaction that succeeded leaves the entries it used at least 29 days and the instance at least 6 days (29 days for the router; initialize and update of the factory and initialize of the trader leave the instance alone).", "quantifier": "all networks whose limits allow the constants of the code, all histories of the protocol with any calls to any contracts by anybody at any ledgers, including failed ones, and any restorations and extensions by third parties, all contracts of the kind", "why_tests_cant": "the test environment does not archive entries; archiving depends on the time since each entry was last used, over arbitrarily long histories of several contracts calling each other", "anchors": ["contracts/factory/src/storage.rs", "contracts/factory/src/contract.rs: initialize, create_liquidity_pool, update_whitelisted_accounts, update_wasm_hashes, update, query_for_pool_by_token_pair", "contracts/multihop/src/storage.rs", "contracts/multihop/src/contract.rs: initialize, swap", "contracts/trader/src/storage.rs", "contracts/trader/src/contract.rs: initialize, trade_token, transfer"]}
{"id": "C127", "title": "The reward contract never blocks the staking contract, while amounts are moderate", "statement": "The reward contract can be initialized if and only if it has no configuration. If the staking contract has reported truthfully so far, the rewards handed out (D) are at most 10^20, stakes (S) at most 10^18 and (D+1)*S at most 10^31, then every further truthful call approved by the staking contract is accepted: add_user, calculate_bond, calculate_unbond (with the user's approval) and withdraw_rewards (if the user's balance has room), and query_withdrawable_reward answers for every well-formed list of stakes. After the end of all schedules, distribute_rewards is accepted, and fund_distribution is accepted exactly if the administrator signed, the staking contract approves, the start is not past, the amount is at least the minimum and the administrator can pay it. Without the bound on the amounts it is false: a single staker of the minimum bond at the time of a large distribution makes the contract refuse large stakes of all others. The stored schedule never has more corner points than the configured maximum: fundings whose schedules would add up to more are refused.", "quantifier": "every history of calls by anybody (with truthful reports of the staking contract), every user, stake list, amount and time within the stated bounds", "why_tests_cant": "An overflow in the points arithmetic depends on the whole history: the shares per point grow with every distribution, and corrections accumulate over all reports; tests see a few calls with small numbers.", "anchors": ["contracts/stake_rewards/src/contract.rs: add_user, calculate_bond, calculate_unbond, distribute_rewards, withdraw_rewards, fund_distribution", "contracts/stake_rewards/src/distribution.rs: update_rewards, withdrawable_rewards, calc_power, calc_withdraw_power"]}
{"id": "C128", "title": "The position of a silent liquidity provider keeps its value in the whole protocol", "statement": "In the protocol as a whole, a constant-product pool never disappears, and the product of its reserves per squared share falls at most by k parts in m+1, where k counts the swaps made in the pool (directly, as a hop of a route, or by a trader contract) and each of them leaves both reserves at m or more; deposits, withdrawals and calls of any other contract never lower it. An account that signs nothing and has granted no allowance keeps all its shares, those in its wallet and those staked in the stake contract of the pool, and so the product of the two token amounts behind its position falls at most by that same factor, whatever everybody else does.", "quantifier": "every host and genesis, every history before and after, every pool, every silent account, every lower bound m on the reserves after swaps", "why_tests_cant": "The loss is from rounding in swaps and depends on all calls of all users on all contracts of the protocol, including routes that visit the pool several times; tests run a few calls on one pool.", "anchors": ["contracts/pool/src/contract.rs: swap, provide_liquidity, withdraw_liquidity, compute_swap", "contracts/multihop/src/contract.rs: swap", "contracts/trader/src/contract.rs: trade_token", "contracts/stake/src/contract.rs: bond, unbond, query_staked"]}
{"id": "C129", "title": "Using the protocol grants nobody a right over tokens", "statement": "A transaction that does not call an existing token itself leaves all allowances, the administrator and the decimals of that token as they are. An allowance grows only in a transaction that is a call of approve signed by the owner, and then to the amount named there. So whoever may spend tokens of an account after a history could do so before or was approved by it in the history; an account that never signs an approve of a positive amount has no allowances however much it uses pools, routers, stakes or vesting, and loses tokens only in transactions it signs.", "quantifier": "every world, history, token, owner and spender", "why_tests_cant": "The absence of a grant must hold for every call of every contract in every order; a test can only look at the allowances after the calls it makes.", "anchors": ["contracts/token/src/contract.rs: approve, transfer_from, burn_from, set_admin", "contracts/pool/src/contract.rs", "contracts/multihop/src/contract.rs", "contracts/stake/src/contract.rs", "contracts/vesting/src/contract.rs"]}
{"id": "C130", "title": "A liquidity provider can always leave", "statement": "In every reachable state of the whole protocol, whoever holds shares of a pool (of either kind) and signs the call gets from withdraw_liquidity exactly the amounts query_share announces, as long as the announced minimum amounts are positive and query_share and the new balances do not overflow 128 bits. A provider whose shares are staked in the pool's stake contract can leave without anybody else: calling unbond for every stake that query_staked lists and then withdraw_liquidity for the whole position always goes through, pays what query_share announced for the whole position at the start, and leaves the provider with no stake and no shares; the share token must not be a reward token of the stake contract.", "quantifier": "every host and genesis, every history, every pool of both kinds, every holder with any list of stakes, every clock of the leaving calls", "why_tests_cant": "No call of anybody in any earlier history may have brought the pool, the share token or the stake contract into a state that refuses the exit; tests see a few histories.", "anchors": ["contracts/pool/src/contract.rs: withdraw_liquidity, query_share", "contracts/pool_stable/src/contract.rs: withdraw_liquidity, query_share", "contracts/stake/src/contract.rs: unbond, query_staked"]}
{"id": "C131", "title": "A silent provider of a stable pool keeps their share of its reserves in the whole protocol", "statement": "Whatever happens in the whole protocol (swaps made directly, by routers or by traders, deposits, withdrawals, stakes, admin calls, failed calls), a stable pool never disappears, and the total of its reserves per share falls at most by k parts in m, where k counts the successful deposits and swaps made in this pool and each of them finds the pool in fair condition with at least m units. An account that signs nothing and has granted no allowance keeps all its shares, in the wallet and in the pool's stake contract, and the reserves behind them shrink by no more than this.", "quantifier": "every host and genesis, every history before and after, every stable pool, every account, every m of at least one", "why_tests_cant": "The bound covers all interleavings of direct swaps, routes, traders and deposits; tests see a few.", "anchors": ["contracts/pool_stable/src/contract.rs: swap, provide_liquidity, withdraw_liquidity", "contracts/multihop/src/contract.rs: swap", "contracts/trader/src/contract.rs: trade_token"]}
{"id": "C132", "title": "Swapping there and back in a stable pool gains at most a unit per swap", "statement": "Whatever an account swaps in a stable pool in fair condition, in any order and with any other calls in between, all its swaps together leave it with at most one unit per swap more of the two tokens together than before. So nobody gains more than that by trading around the trade of somebody else.", "quantifier": "every genesis, every history before, every history with swaps of the account and anything else in between, every account", "why_tests_cant": "The bound covers all sequences of trades against all states others can bring the pool into; tests see a few.", "anchors": ["contracts/pool_stable/src/contract.rs: swap, compute_swap", "contracts/pool_stable/src/math.rs: compute_d, calc_y"]}
{"id": "C133", "title": "Routers and traders publish their setup and nothing else", "statement": "In every history of the whole protocol, what a router has published is exactly one event naming its admin, from the moment it is set up, and what a trader has published is exactly its admin, its two tokens and the token it pays out, as they are stored from its one initialization on. No log ever shows a trade or a payment of a trader, although its admin can pay out its funds with transfer at any time.", "quantifier": "every genesis, every history of the whole protocol, every address", "why_tests_cant": "A test reads the events of one call; that nothing else is ever published, and that the log agrees with the stored setup after every history, ranges over all histories.", "anchors": ["contracts/multihop/src/contract.rs: initialize, swap", "contracts/trader/src/contract.rs: initialize, trade_token, transfer", "contracts/factory/src/utils.rs: deploy_and_initialize_multihop_contract"]}
{"id": "C134", "title": "What pools and traders say about themselves is true and consistent", "statement": "A pool answers query_pool_info exactly from its initialization on. In every state of every history all its queries (query_config, query_share_token_address, query_stake_contract_address, query_total_issued_lp, query_pool_info, and the factory's query_pool_details) name the same two different assets, the same share token, the same stake contract and the same number of LP shares; the announced reserves are held by the pool, no group of accounts holds more LP shares than announced, and the announced stake contract takes exactly these shares. These addresses never change again. A trader's announced pair, admin, output token and its decimals never change again, and query_balances names for each of these tokens exactly what the trader holds.", "quantifier": "every genesis, every history of the whole protocol and every continuation of it, every address", "why_tests_cant": "A test compares a query with a literal after a few calls; agreement of the answers with each other and with the ledger, and that addresses stay for ever, ranges over all histories.", "anchors": ["contracts/pool/src/contract.rs: query_config, query_share_token_address, query_stake_contract_address, query_pool_info, query_total_issued_lp", "contracts/pool_stable/src/contract.rs: query_config, query_share_token_address, query_stake_contract_address, query_pool_info, query_total_issued_lp", "contracts/trader/src/contract.rs: query_balances, query_trading_pairs, query_admin_address, query_output_token_info"]}
{"id": "C135", "title": "What depositing into a constant-product pool can cost", "statement": "In every reachable state with both reserves positive (A, B, and T shares), a deposit earns shares whose part of the new reserves falls short of what was paid by less than A/T + A/B of the first token and B/T + B/A of the second: the worth of one share and of one unit of the other token. T is at least 1000, so one share is worth at most a thousandth of a reserve. Withdrawing the new shares at once returns the deposit up to that, one unit, and one part in 10^18 of the reserve. Donations before the deposit only help the depositor, who is credited with them; a deposit worth less than a share earns nothing, and no parameter refuses that.", "quantifier": "every genesis and history, every depositor, amounts and limits; the two defects by concrete histories", "why_tests_cant": "Tests deposit round numbers into fresh pools; the loss must be bounded for every ratio of reserves and shares that any history can produce, including ones prepared by an attacker.", "anchors": ["contracts/pool/src/contract.rs: provide_liquidity, withdraw_liquidity", "contracts/pool/src/storage.rs: utils::get_deposit_amounts"]}
{"id": "C136", "title": "Trading earns the providers of a constant-product pool nothing", "statement": "Users expect liquidity providers to earn from trading fees. In the whole protocol, as long as nobody deposits into or withdraws from an XYK pool, its number of shares stays the same and the product of its reserves never grows, whatever is traded there, directly, over routes or by traders, at any volume. All fees go to the fee recipient.", "quantifier": "every genesis, every history of the whole protocol and every continuation without a deposit or withdrawal in that pool, every pool", "why_tests_cant": "A test sees a few swaps; that no swap of any size, order or origin ever leaves something for the providers ranges over all histories.", "anchors": ["contracts/pool/src/contract.rs: do_swap, compute_swap"]}
{"id": "C137", "title": "No address is special", "statement": "Give every address another name, one to one, in the state of all contracts, in the calls and in the signatures. Every call then has the same outcome as before, the same error included, and every history leads to the same state under the new names; quotes, claims and balances are the same. So there is no built-in account, token or contract that any contract favours or excludes: all differences between two addresses come from what is stored under their names, and two accounts between which the state makes no difference are treated alike. The one exception is the order of the two token addresses when a pool is created, which must be kept.", "quantifier": "every renaming, every state of the whole protocol (reachable or not), every call and every history", "why_tests_cant": "A test uses the addresses that its environment happens to generate; a rule that applies to one particular address only never shows.", "anchors": ["contracts/pool/src/contract.rs", "contracts/pool_stable/src/contract.rs", "contracts/stake/src/contract.rs", "contracts/stake_rewards/src/contract.rs", "contracts/vesting/src/contract.rs", "contracts/factory/src/contract.rs", "contracts/multihop/src/contract.rs", "contracts/trader/src/contract.rs", "contracts/token/src/contract.rs"]}
{"id": "C138", "title": "Neither token of a pair is favoured", "statement": "Exchange the two sides of an XYK or a stable pool: the first token becomes the second one, the reserves change places, and so do the two amounts and the two minimums of every deposit and withdrawal. Then every call succeeds exactly when it did before, moves the same amounts of the same tokens between the same accounts, issues or burns the same number of shares, and leaves the reserves exchanged; every whole history ends with the same balances, and every quote of a swap, of a reverse swap or of a share is the same. Which token has the smaller address, the only thing that decides which one is the first, makes no difference to anybody.", "quantifier": "every pool with two different tokens (every pool that can be reached), every ledger, call and signature, every history after initialisation", "why_tests_cant": "A test compares the two directions for a few amounts; a rounding, a limit or an update that is different on one side only shows for particular reserves and amounts.", "anchors": ["contracts/pool/src/contract.rs: provide_liquidity, withdraw_liquidity, do_swap, simulate_swap, simulate_reverse_swap, query_share", "contracts/pool/src/storage.rs: utils::get_deposit_amounts", "contracts/pool_stable/src/contract.rs: provide_liquidity, withdraw_liquidity, do_swap, compute_swap", "contracts/pool_stable/src/math.rs: compute_d"]}
{"id": "C139", "title": "A transaction that is held back does the same, or nothing", "statement": "A transaction can be executed later than its signer meant, with nothing else executed in between. Then deposits, withdrawals and swaps in pools of both kinds, routes, trades, token calls, unstaking and all administrative calls do exactly what they would have done before, with the same error if they fail, until their deadline; after the deadline they fail. Quotes of any route stay as they are. Staking, distributing and withdrawing rewards later moves the same tokens, and vested tokens that can be claimed only become more, as do the rewards that the reward contract announces for the same stakes; a funding of the reward contract fails after its start. No stable pool or stake contract ever keeps a date in the future.", "quantifier": "every genesis and history of the whole protocol up to some time, every call and every later time", "why_tests_cant": "Tests run at the few times they set; that the clock matters through deadlines and dates only ranges over all times, states and calls.", "anchors": ["contracts/pool/src/contract.rs: provide_liquidity, swap, withdraw_liquidity", "contracts/pool_stable/src/contract.rs: provide_liquidity, swap, withdraw_liquidity", "contracts/pool_stable/src/math.rs: compute_current_amp", "contracts/multihop/src/contract.rs: swap, simulate_swap, simulate_reverse_swap", "contracts/trader/src/contract.rs: trade_token", "contracts/stake/src/contract.rs", "contracts/stake/src/distribution.rs: calculate_pending_rewards", "contracts/vesting/src/contract.rs: query_available_to_claim"]}
{"id": "C140", "title": "Names and symbols", "statement": "Names and symbols given in calls never influence what a call does. The name, symbol and decimals of a token, the name of a trader and what a vesting contract says about its token never change once given. The share token of a new pool has exactly the name and symbol given by its creator and the decimals of the factory (standard pool) or of the token of the pair with more decimals (stable pool). The router answers a quote exactly when it answers the numbers and all offered assets are tokens, and labels each commission with the symbol of the offered asset (a reverse quote: of the asset asked for), although the commission is paid in the asset asked for. What a vesting contract says about its token is not checked, and symbols need not be unique.", "quantifier": "every history of the whole protocol with every choice of texts in every call; for labels, every world, route and amount", "why_tests_cant": "Tests read a name back after one or two calls; that no call of any contract in any history changes one, and that texts influence nothing, ranges over all histories and texts.", "anchors": ["contracts/token/src/contract.rs: __constructor, name, symbol, decimals", "contracts/token/src/metadata.rs", "contracts/pool/src/storage.rs: utils::deploy_token_contract", "contracts/pool_stable/src/storage.rs: utils::deploy_token_contract", "contracts/factory/src/contract.rs: create_liquidity_pool", "contracts/trader/src/contract.rs: initialize, query_contract_name, query_balances, query_output_token_info", "contracts/vesting/src/contract.rs: initialize, query_token_info", "contracts/multihop/src/contract.rs: simulate_swap, simulate_reverse_swap"]}
{"id": "C141", "title": "What reverse quotes announce", "statement": "A reverse quote names an offer, a commission and a spread. The commission is the fee on an amount g that equals the amount asked for plus this commission up to one unit; in a constant product pool, for amounts it can release (else the offer is negative), the offer is the one for which the pool releases g and the spread is what the offer is worth at the current price less g; in a stable pool the spread is the offer less the amount asked for. In a stable pool of two tokens with the same decimals, offering one unit more than quoted returns at least the amount asked for up to one unit and 10^-6 of a token, and offering 10^-6 of a token less than quoted never returns more than asked for, as long as 2*10^-6 of a token are left in the pool.", "quantifier": "every constant product pool with non-negative reserves, every reachable stable pool, every asset, every amount, every time", "why_tests_cant": "Tests compare a few quotes with literal numbers; that a quote and the swap it is for agree must hold for all reserves, fees, amplifications and amounts, and for whatever iterate the solver stops at.", "anchors": ["contracts/pool/src/contract.rs: simulate_reverse_swap, compute_offer_amount", "contracts/pool_stable/src/contract.rs: simulate_reverse_swap, simulate_swap, compute_offer_amount, compute_swap", "contracts/pool_stable/src/math.rs: calc_y"]}
{"id": "C142", "title": "How much work a call of the stake contract does", "statement": "Count as work every element of a list or map that a call reads, writes or visits. Bonding and unbonding cost a fixed multiple of the number of stakes the account has itself, which is the number of its accepted bonds less its accepted unbonds: nobody else can make them dearer. A withdrawal with S stakes, K announced reward tokens, D distributions ever made and R of them since the account's last withdrawal costs at most 2S + 2K + (K+4)D + R(S+1). When distributions have distinct times it also costs at least (K+4)D, for anybody, however recently they withdrew: the cost never falls, nothing prunes the histories, there is no limit to it, and the max_complexity given at initialisation limits nothing.", "quantifier": "every history of calls by anybody, every account, every number of stakes, reward tokens and distributions, every max_complexity", "why_tests_cant": "Tests make a handful of distributions; how cost grows with the length of the history, and that it never falls, is a statement about all histories.", "anchors": ["contracts/stake/src/contract.rs: bond, unbond, create_distribution_flow, distribute_rewards, withdraw_rewards, remove_stake", "contracts/stake/src/distribution.rs: calculate_pending_rewards, save_reward_history, save_total_staked_history", "contracts/stake/src/storage.rs: get_stakes, save_stakes, add_distribution, Config.max_complexity"]}
{"id": "C143", "title": "Doing it in parts: withdrawals and stakes", "statement": "Giving back shares of a pool (either kind) in n withdrawals directly one after the other, by one holder or by several, pays together, of either token, less than one rounding more and at most n roundings less than query_share announces for all the shares at once; a rounding is 1 + reserve/10^18 units. Stakes made at the same moment and last claimed at the same moment can claim together, whether they belong to one account or to several, at most what one stake of their sum can claim, and less than it by at most two units for each part but the first and each distribution. So splitting a withdrawal, splitting a stake or using several accounts never gains more than a rounding.", "quantifier": "every reachable pool, every number and sizes of parts, every holder; every well-timed history of the stake contract, every set of accounts and reward token", "why_tests_cant": "The number and the sizes of the parts are free; each part rounds by itself and changes the pool for the next one.", "anchors": ["contracts/pool/src/contract.rs: withdraw_liquidity, query_share", "contracts/pool_stable/src/contract.rs: withdraw_liquidity, query_share", "contracts/stake/src/distribution.rs: calculate_pending_rewards", "contracts/stake/src/contract.rs: query_withdrawable_rewards"]}
{"id": "C144", "title": "Rewards that nobody can ever claim", "statement": "Users and managers expect a distributed reward to reach the stakers. Over any well-timed history an account is paid, of each reward token, at most what it earned: the documented rewards of the stakes it had at the moments of the distributions. What a distribution does not assign that way stays in the contract for ever: a distribution of x made while no stake is older than k whole days (k = 0 if nobody has staked) leaves at least x - x*k/60 units in the contract, whatever happens later. A distribution made while every stake is at least 60 days old is earned in full, up to one unit per stake.", "quantifier": "every well-timed history of calls by anybody, every account, reward token, distribution and later history", "why_tests_cant": "It speaks about every later history: that no sequence of calls ever recovers the amount.", "anchors": ["contracts/stake/src/distribution.rs: calculate_pending_rewards", "contracts/stake/src/contract.rs: distribute_rewards, withdraw_rewards, bond, unbond"]}
{"id": "C145", "title": "Splitting a sale to a stable pool", "statement": "Selling an amount to a stable pool in n successive swaps instead of one brings in total at most 6(n-1)+1 units more than simulate_swap announces for the whole amount, as long as each swap finds the pool in fair condition (equal decimals of at most 13, reserves within a factor 1000, total below 2*A-1 tokens) and the whole sale leaves enough of the bought token. Unlike in a constant-product pool (C94) it can bring much less, and a part can be refused although the whole is accepted.", "quantifier": "every reachable pool, every list of amounts, all traders, limits and token balances in between, either direction", "why_tests_cant": "It compares every way of cutting every amount, over all pool states; the bound has to survive the error of both Newton solvers and the recomputed invariant after each part.", "anchors": ["contracts/pool_stable/src/contract.rs: swap, do_swap, compute_swap, simulate_swap", "contracts/pool_stable/src/math.rs: compute_d, calc_y"]}
{"id": "C146", "title": "Tokens sent to a contract by mistake", "statement": "Tokens sent to a contract that has no business with them never leave it again: in every history of the whole protocol the balance of such a token at the contract never gets smaller, whatever anybody calls. A pool has business with its two tokens (not with its own LP token), a stake contract with the staked token and the announced reward tokens, a vesting contract with its token, a reward contract with its reward token, the factory, the router and token contracts with none. LP tokens sent to a stake contract without staking stay there too, unless the LP token is announced as a reward. Only a trader can hand everything out again, by its admin.", "quantifier": "every reachable state of the whole protocol, every further history, every contract and token", "why_tests_cant": "It says that no sequence of calls of any contract, by anybody, takes such tokens out; a test can only try some.", "anchors": ["contracts/pool/src/contract.rs: swap, provide_liquidity, withdraw_liquidity", "contracts/pool_stable/src/contract.rs: swap, provide_liquidity, withdraw_liquidity", "contracts/stake/src/contract.rs: unbond, withdraw_rewards", "contracts/vesting/src/contract.rs: claim", "contracts/trader/src/contract.rs: transfer"]}
{"id": "C147", "title": "How far one swap moves the price", "statement": "The spread limit of a constant product pool bounds what one swap can do to it: with a limit of s basis points (the trader's, or the pool's if none is given), a swap that goes through makes the reserve of the sold token grow by at most the fraction s/10000, up to rounding that vanishes with the size of the payout (4 millionths once a million units are paid out), and so the price of the bought token rises by at most the square of 1 + s/10000. The limit is one per swap only: two swaps in the same ledger may do what one may not.", "quantifier": "every pool state, every successful swap with every amount and every combination of protections", "why_tests_cant": "The bound relates three roundings (payout, ideal payout, spread ratio) for all reserves and amounts.", "anchors": ["contracts/pool/src/contract.rs: do_swap, compute_swap, assert_max_spread"]}
{"id": "C148", "title": "Tours through several pools pay only where prices differ", "statement": "A tour through constant product pools, none of them visited twice, each swap offering what the one before paid, returns at most the input times the prices which the pools report before it starts. If these prices multiply to at most one, as on a cycle through pools that agree on the prices, the tour returns at most what was put in. The same holds of routes through the router. With prices that disagree a cycle can return more than was put in.", "quantifier": "every reachable state of the whole protocol, tours of every length, every amount, whoever makes the swaps and with whatever protections", "why_tests_cant": "It speaks of tours of every length through pools in every state.", "anchors": ["contracts/pool/src/contract.rs: swap, compute_swap", "contracts/multihop/src/contract.rs: swap", "contracts/factory/src/contract.rs: query_for_pool_by_token_pair"]}
{"id": "C149", "title": "What liquidity does for traders", "statement": "Of two constant product pools with the same fee, the one whose price is at least as good for the trader and which holds at least as much of the token bought pays at least as much, for every amount. A deposit, by whomever and of whatever size, never makes a later sale return more than one unit less than before, provided nobody has sent tokens to the pool: sent tokens enter the reserves with the next deposit and move the price, without any swap and without any spread limit.", "quantifier": "all pairs of pool states, all deposits, all amounts, both directions", "why_tests_cant": "It compares two states of a pool for all reserves, deposits and amounts, through several roundings.", "anchors": ["contracts/pool/src/contract.rs: simulate_swap, provide_liquidity, compute_swap", "contracts/pool/src/storage.rs: get_deposit_amounts"]}
{"id": "C150", "title": "Depositing in parts", "statement": "Two deposits in a row into a constant product pool bring at most the LP shares which one deposit of the same amounts of both tokens would have brought, whatever else was sent to the pool. When the pool holds just its reserves they bring at most a rounding less: no more than 1 + (1 + T/S) R2/R1 shares, or the same with the sides exchanged, where T is the number of shares and R and S are the reserves before, and R1 and R2 the reserve after the first and the second deposit.", "quantifier": "every reachable state of a pool with reserves, every pair of deposits by one account and every single deposit which costs it the same", "why_tests_cant": "It compares two courses of events in every reachable state, through four roundings each.", "anchors": ["contracts/pool/src/contract.rs: provide_liquidity", "contracts/pool/src/storage.rs: get_deposit_amounts"]}
{"id": "C151", "title": "Only durations matter", "statement": "Let a whole history of calls happen d seconds later, with the deadlines, the points of vesting schedules, the starts of reward schedules and the times that name stakes moved by d as well. Then every call fails with the same error or succeeds with the same effect: all balances, allowances, reserves and deployed contracts are the same, all stored times are d seconds later, and all quotes, releases and claims asked for d seconds later are the same. So no date is special, except time zero itself.", "quantifier": "every history from an empty ledger of calls made after time zero, every delay, every call, account and contract", "why_tests_cant": "It compares each history with infinitely many others; tests start at a few dates.", "anchors": ["contracts/stake/src/distribution.rs: calculate_pending_rewards", "contracts/pool_stable/src/math.rs: compute_current_amp", "packages/curve/src/lib.rs: Curve", "contracts/pool/src/contract.rs: swap", "contracts/vesting/src/contract.rs: claim"]}
{"id": "C152", "title": "Who stays gets what they earned, unless somebody interferes in the right second", "statement": "An account that unbonds nothing has, for every reward token, been paid or can withdraw exactly what it earned: the documented rewards of the stakes it had at the moments of the distributions. Withdrawals of its rewards, by whomever, how often and whenever, cost it nothing, unless one falls into the same second as a distribution after it. That exception is open to everybody: if somebody, without any signature, withdraws the account's rewards in the second of a distribution and before it, the account never gets anything of that distribution, whatever happens later.", "quantifier": "every history in which time does not run backwards and distributions have distinct times, every account, every reward token, every time of asking", "why_tests_cant": "It is an exact balance over all histories and all interleavings of other accounts' calls; tests withdraw at a few chosen times.", "anchors": ["contracts/stake/src/contract.rs: withdraw_rewards, distribute_rewards, query_withdrawable_rewards", "contracts/stake/src/distribution.rs: calculate_pending_rewards"]}
{"id": "C153", "title": "In the whole protocol every contract behaves as it does alone", "statement": "Take any history of the whole protocol, with factories, pools, staking, vesting and reward contracts, routers and traders calling one another. What one staking, vesting or reward contract or pool stores and what everybody holds at its end is the outcome of a history of that contract and the tokens alone, from an ordinary starting point, in which every call succeeds, nobody signs for the contract and the clock runs on; and the calls that a staking, vesting or reward contract gets in it are exactly those made in the protocol, in the same order, by the same signers, at the same times. It also passes through what there was after any first part of the history. So whatever is proved of a contract alone after every possible history holds of it in the protocol.", "quantifier": "every history of the protocol with any number of contracts of each kind, every first part of it, every contract with a model of its own, every property of its state and the tokens", "why_tests_cant": "It is a refinement between two transition systems over all histories; a test in which contracts are wired together covers one wiring and one order of calls.", "anchors": ["contracts/factory/src/contract.rs: create_liquidity_pool", "contracts/multihop/src/contract.rs: swap", "contracts/trader/src/contract.rs: trade_token, transfer", "contracts/pool/src/contract.rs", "contracts/pool_stable/src/contract.rs", "contracts/stake/src/contract.rs", "contracts/vesting/src/contract.rs", "contracts/stake_rewards/src/contract.rs"]}
{"id": "C154", "title": "What the fees of a whole history add up to", "statement": "Over any history of a pool, everything the pool gives of a token in swaps goes to the traders or to the fee recipient. The recipient's part is the configured fraction of it: never more than the highest fee that was set, never less than the lowest, up to less than one unit per swap. No other call pays the recipient, and a recipient who signs nothing keeps all of it. Since the fee of each swap is rounded down on its own, a swap that pays out less than 10000 / fee units is free.", "quantifier": "every history of a constant product or stable pool, every token, every fee and recipient, any number of swaps, deposits, withdrawals and token transfers between them", "why_tests_cant": "It is a statement about sums over histories of unbounded length with rounding at every step; a test checks the fee of the swaps it makes.", "anchors": ["contracts/pool/src/contract.rs: swap, do_swap, compute_swap", "contracts/pool_stable/src/contract.rs: swap, do_swap, compute_swap"]}
{"id": "C155", "title": "What staking more does", "statement": "Take any history of the stake contract, add one more stake of an account to it, and let the same transactions go through afterwards. What any other account earns does not become larger. What the account itself earns does not become smaller by more than one unit per distribution and older stake, as long as all its stakes are at least 60 days old when rewards are distributed. A stake younger than that can lower what its owner earns: it dilutes their older stakes before it earns anything itself.", "quantifier": "every history before and after the added stake, every account, every amount and time of the stake, every reward token and number of distributions", "why_tests_cant": "It compares two histories of unbounded length that differ in one call; a test runs one history at a time.", "anchors": ["contracts/stake/src/contract.rs: bond, distribute_rewards, withdraw_rewards", "contracts/stake/src/distribution.rs: calculate_pending_rewards"]}
{"id": "C156", "title": "What a higher fee does", "statement": "Raise the fee of a pool at any moment and let the same transactions go through afterwards as without the change. The pool has the same reserves, the same number of shares, the same shareholders and the same tokens at the end. No account other than the fee recipients has more of any token, a recipient of all fees does not have less, and an account that neither trades nor receives fees has exactly the same. So a fee only moves tokens from those who trade to the recipient, and providers of liquidity neither gain nor lose by it.", "quantifier": "every history of a constant-product or stable pool before and after the change, every fee, every account and token, any later changes of configuration", "why_tests_cant": "It compares two histories of unbounded length; a test runs one history at a time.", "anchors": ["contracts/pool/src/contract.rs: update_config, do_swap, compute_swap, provide_liquidity, withdraw_liquidity", "contracts/pool_stable/src/contract.rs: update_config, do_swap, compute_swap, provide_liquidity, withdraw_liquidity"]}
{"id": "C157", "title": "Offering more never brings fewer LP shares, burning more never pays less", "statement": "Of two deposits that a pool would accept from an account in the same state, the one which offers at least as much of both tokens brings at least as many LP shares; in a constant-product pool it also takes at least as much of each token, and what is offered beyond the ratio of the reserves changes nothing. Of two withdrawals in the same state, the one that burns at least as many shares pays at least as much of both tokens.", "quantifier": "every reachable state of a constant-product or stable pool, every account, all pairs of ordered amounts, all other settings of the two calls; deposits into a stable pool: those that leave it in fair condition", "why_tests_cant": "It compares all pairs of amounts in all reachable states; rounding could break the order at a single pair.", "anchors": ["contracts/pool/src/contract.rs: provide_liquidity, withdraw_liquidity", "contracts/pool/src/storage.rs: get_deposit_amounts", "contracts/pool_stable/src/contract.rs: provide_liquidity, withdraw_liquidity", "contracts/pool_stable/src/math.rs: compute_d"]}
{"id": "C158", "title": "When a recipient claims does not matter, and a faster schedule never pays less", "statement": "What has been paid out of a vesting schedule and what query_available_to_claim announces always add up to the total minus what the curve still locks, however often was claimed before. After an attempt to claim, successful or refused because nothing is left, the account has received exactly what has vested by then; so two accounts with the same curve that last tried at the same time have received the same. An account whose schedule releases the same total, and nothing later, has received at least as much; straight schedules that start and end no later are such.", "quantifier": "every pair of histories of two vesting contracts, by any callers, with any other schedules, claims, mints and burns; every curve, every time of the attempts", "why_tests_cant": "It compares all histories of claims with each other and all curves at all times.", "anchors": ["contracts/vesting/src/contract.rs: create_vesting_schedules, claim, query_available_to_claim", "packages/curve/src/lib.rs: SaturatingLinear::value, interpolate"]}
{"id": "C159", "title": "How much work the calls of the vesting contract do", "statement": "Counted in schedules looked up, points of curves read, written or visited, and addresses compared, a claim costs at most 5 times the complexity limit given at set-up plus 2, whatever the history and whatever others do. Listing the schedules of an account looks up each of them once. Creating schedules looks up every schedule that each recipient already has, one by one, and compares every recipient with those before it; the number of schedules of an account is the number ever created for it, since claims never remove one. So creations have no bound.", "quantifier": "every history of the vesting contract, all accounts, curves and times; for the missing bound, every number of schedules", "why_tests_cant": "It bounds the work over all histories, and its absence needs histories of every length.", "anchors": ["contracts/vesting/src/contract.rs: create_vesting_schedules, claim, query_available_to_claim, query_all_vesting_info", "contracts/vesting/src/storage.rs: save_vesting, get_all_vestings", "contracts/vesting/src/utils.rs: check_duplications", "packages/curve/src/lib.rs: PiecewiseLinear::value, validate_monotonic_decreasing"]}
{"id": "C160", "title": "What the vesting contract reports about its minter and its schedules", "statement": "query_minter reports the account most recently named as minter, by initialize_with_minter or update_minter, and as its capacity the amount most recently granted, by initialize_with_minter or update_minter_capacity, less everything minted since; it fails exactly if nobody was ever named, and then nothing can be minted. What was minted since a grant never exceeds it. query_vesting_info answers with the entry of query_all_vesting_info at the given place and reports a missing schedule exactly beyond its end.", "quantifier": "every history of the vesting contract, by any callers; every account and index", "why_tests_cant": "It relates the answer to the whole history of changes of the minter, of its capacity and of mints, in any order.", "anchors": ["contracts/vesting/src/contract.rs: query_minter, query_vesting_info, mint, update_minter, update_minter_capacity", "contracts/vesting/src/storage.rs: get_minter, get_vesting, get_all_vestings"]}
{"id": "C161", "title": "How much work the calls of factory and router do", "statement": "Counted in calls of other contracts and in entries of stored lists that are read, written or compared: a route makes two calls per hop and its quote three, whatever else the protocol holds. query_all_pools_details costs two units per pool ever created through the factory, create_liquidity_pool two per existing pool and three per account on the whitelist, and query_user_portfolio five per pool of the factory (six with the stakes) and one (two) per stake of the account, whether or not the account has anything in those pools.", "quantifier": "every history of the whole protocol, every factory, router, account and route", "why_tests_cant": "It gives the cost after all histories as a function of the number of creations; a test sees a few pools.", "anchors": ["contracts/factory/src/contract.rs: create_liquidity_pool, query_all_pools_details, query_user_portfolio", "contracts/factory/src/storage.rs: get_lp_vec, save_lp_vec", "contracts/multihop/src/contract.rs: swap, simulate_swap"]}
{"id": "C162", "title": "The complexity limit of a reward distribution limits how often it can be funded", "statement": "Call the start and end dates of all accepted fundings since the last one that found everything over the dates of the current run. While one of them is still to come, fund_distribution is accepted only if these dates together with its own start and end are at most max_complexity different dates; past dates count too. It is refused with the error InvalidMaxComplexity only if that number would be exceeded while the schedule runs, or if it is a first funding and max_complexity is below two. So when the limit is used up, every funding with a new date is refused, whoever signs and whatever is paid, until the last date is past, and after that none is refused for this reason. max_complexity is not checked when the contract is set up: below two, no funding is ever accepted.", "quantifier": "every history of the reward contract and its tokens (schedules that end after they start), every funding", "why_tests_cant": "It describes exactly which fundings the limit refuses after every sequence of overlapping schedules; a test tries a few sequences.", "anchors": ["contracts/stake_rewards/src/contract.rs: fund_distribution, initialize", "packages/curve/src/lib.rs: Curve::combine, Curve::validate_complexity, Curve::end"]}
{"id": "C163", "title": "Funded rewards are released evenly, however schedules overlap", "statement": "Every accepted funding is announced to be released evenly from its start to its end. After distribute_rewards to any stakers, query_undistributed_reward reports what is still locked of all fundings in force (those since the last one that found all earlier ones over) by that announcement: never less, and less than one unit per funding more. So nothing is released early, and joining schedules in whatever order delays at most these units. Two distributions that follow each other hand out, between them, what the announcements release in that time, give or take a unit per funding.", "quantifier": "every history of the reward contract and its tokens (schedules that end after they start), every distribution that finds stakers", "why_tests_cant": "Each funding is merged into the stored schedule with rounding at every corner; the bound on the accumulated error must hold for all sequences of overlapping schedules.", "anchors": ["contracts/stake_rewards/src/contract.rs: fund_distribution, distribute_rewards, query_undistributed_reward", "packages/curve/src/lib.rs: Curve::combine, PiecewiseLinear::combine, interpolate"]}
{"id": "C164", "title": "Locked rewards are held, and distributions resume once a unit per funding is released", "statement": "At every time query_undistributed_reward reports at least what the announced schedules of the fundings in force still lock: no history pays rewards out before they are released. Conversely distribute_rewards is accepted whenever the undistributed rewards exceed what is still locked by one unit per funding in force, in particular once the schedules have released that much since the last transaction; so the refusal that can follow a funding does not last.", "quantifier": "every history of the reward contract and its tokens with clocks that never run backwards (schedules that end after they start), every later time; for the acceptance: total stakes up to 10^18, fundings in force up to 10^19, balances up to 10^20", "why_tests_cant": "The locked amount is a sum over all fundings of an arbitrary history and must be covered after every mixture of fundings, withdrawals, distributions and foreign token transfers.", "anchors": ["contracts/stake_rewards/src/contract.rs: fund_distribution, distribute_rewards, withdraw_rewards, query_undistributed_reward", "packages/curve/src/lib.rs: Curve::value, Curve::combine"]}
{"id": "C165", "title": "Withdrawing repeatedly gets round the 60-day rule", "statement": "withdraw_rewards of the reward contract reduces what it pays by the multiplier q of the user's stakes (C86), but the part held back stays claimable at once. n calls in the same second leave of the full reward F at most F(1-q)^n + 1/q units and pay the rest; with enough calls less than 1/q units remain. So a user with any q above 0 gets practically the full reward without waiting.", "quantifier": "every history with truthful reports of the staking contract, every user, every number of calls, every multiplier above 0", "why_tests_cant": "A test shows one sequence of withdrawals; the geometric bound, and that none of the calls is refused, must hold for every history, reward, multiplier and number of calls.", "anchors": ["contracts/stake_rewards/src/contract.rs: withdraw_rewards, query_withdrawable_reward", "contracts/stake_rewards/src/distribution.rs: withdrawable_rewards, calc_withdraw_power"]}
{"id": "C166", "title": "How much work the calls of the reward contract do", "statement": "distribute_rewards visits at most 2 max(1, max_complexity) + 2 points of the stored schedule, however many stakers, fundings and distributions there are. withdraw_rewards visits each reported stake once, calculate_unbond once or, if a reward is paid, twice. fund_distribution does at most (3 (m+2)^2 + 18 (m+2)) / 2 units of work for max_complexity m.", "quantifier": "every history of the reward contract and its tokens, every call that succeeds", "why_tests_cant": "A bound independent of the length of the history cannot be observed in finitely many runs.", "anchors": ["contracts/stake_rewards/src/contract.rs: distribute_rewards, withdraw_rewards, calculate_unbond, fund_distribution", "contracts/stake_rewards/src/distribution.rs: calc_withdraw_power", "packages/curve/src/lib.rs: PiecewiseLinear::combine, PiecewiseLinear::value"]}
{"id": "C167", "title": "Leaving the reward contract and coming back", "statement": "A user who takes back all stakes is paid the reward the query shows, p, out of a full reward F. While they have no stake, the query shows nothing and a withdrawal changes nothing. Whatever happens in the meantime, distributions included, they earn nothing and lose nothing: exactly F - p stays claimed for them. When they stake again, however little, exactly F - p is claimable again, reduced only by the 60-day rule for the new stake.", "quantifier": "every state, every unbonding of everything, every further history in which no stake of the user is reported, every later stake", "why_tests_cant": "It ranges over every history between leaving and coming back.", "anchors": ["contracts/stake_rewards/src/contract.rs: calculate_unbond, calculate_bond, withdraw_rewards, query_withdrawable_reward", "contracts/stake_rewards/src/distribution.rs: update_rewards, withdrawable_rewards, calc_withdraw_power"]}
{"id": "C168", "title": "Spreading a stake over several accounts earns no more rewards", "statement": "In the reward contract, over any stretch of a history in which the accounts concerned do not change their stakes, accounts whose stakes together are at most that of another account earn together at most what that account earns, but for one unit per account. Accounts with equal stakes earn the same, but for one unit. Earned is what was paid plus the growth of the full reward shown.", "quantifier": "every initialized state, every stretch of history, every set of accounts, every pattern of withdrawals and distributions", "why_tests_cant": "It ranges over every history and every set of accounts.", "anchors": ["contracts/stake_rewards/src/distribution.rs: calc_power, withdrawable_rewards", "contracts/stake_rewards/src/contract.rs: distribute_rewards, withdraw_rewards, query_withdrawable_reward"]}
{"id": "C169", "title": "Rewards that no staker of the reward contract can ever claim", "statement": "One expects a distributed reward to belong to the stakers. distribute_rewards divides the amount by the points of the total stake, but each user only has the points of their own stake: a stake below min_bond has none, and parts of a thousand tokens count for nobody. If A was handed out over W points while all users together had w, then for ever after the contract holds, beyond the undistributed rewards and everything users can claim, at least (A - W/2^32)(1 - w/W) units, whatever happens later.", "quantifier": "every history with truthful reports, every distribution in it, every later moment, every set of users", "why_tests_cant": "That nobody can ever claim something ranges over every continuation of the history.", "anchors": ["contracts/stake_rewards/src/contract.rs: distribute_rewards", "contracts/stake_rewards/src/distribution.rs: calc_power, withdrawable_rewards, update_rewards"]}
{"id": "C170", "title": "A stake made for one second earns its full part of a distribution", "statement": "One expects rewards to go to those who keep their stake. In the reward contract a user without stake can stake, have a distribution of A made, and take the whole stake back within a day, even within one second. Nothing is paid then, but the user has earned their part of it: more than (A - W/2^32) w/W - 1 units for a stake of w of the W points, however long the rewards in it had been accruing for others. It is kept while they are away, and can be claimed after staking again, however little, subject only to the 60-day rule for that new stake.", "quantifier": "every initialized state, every stake, distribution and unbonding within a day, every history while the user is away, every later stake", "why_tests_cant": "It ranges over every state and every history between leaving and coming back.", "anchors": ["contracts/stake_rewards/src/contract.rs: calculate_bond, distribute_rewards, calculate_unbond", "contracts/stake_rewards/src/distribution.rs: update_rewards, withdrawable_rewards, calc_withdraw_power"]}
{"id": "C171", "title": "How often rewards are distributed does not matter", "statement": "While the total stake stays the same, distributing the rewards of the reward contract once at the end leaves exactly the state - share price, remainder, totals and all token balances - that any number of earlier distributions followed by that one would leave. So nobody gains or loses by distributing more or less often, and no dust accumulates from it. (Amounts below 2^96, total points below 2^64; the last distribution is assumed to go through wherever one stops before it.)", "quantifier": "every initialized state, every total stake, every list of callers and times of earlier distributions", "why_tests_cant": "It ranges over every schedule of distributions and every remainder of the division.", "anchors": ["contracts/stake_rewards/src/contract.rs: distribute_rewards", "contracts/stake_rewards/src/distribution.rs: Distribution"]}
{"id": "C172", "title": "Withdrawing rewards early costs nothing and touches nobody else", "statement": "Compare two courses of events in the reward contract: in one a user withdraws now and is paid r, in the other they do not; the same distributions, and reports of new or larger stakes of anybody, follow in both. At every later time the full reward the user is shown is exactly r less in the first than in the second, so they get the same together; what every other account is shown, and the total distributed, are the same in both.", "quantifier": "every initialized state, every withdrawal that goes through, every list of later distributions and reports of new or larger stakes (any callers, times and amounts), every account and query", "why_tests_cant": "It compares two executions for every schedule of later distributions.", "anchors": ["contracts/stake_rewards/src/contract.rs: withdraw_rewards, distribute_rewards, query_withdrawable_reward"]}
{"id": "C173", "title": "The order of different users' calls to the reward contract does not matter", "statement": "If two calls of the reward contract concern different users - reports of a new, larger or smaller stake, withdrawals of rewards - and each goes through both before and after the other, then the contract is in exactly the same state afterwards in either order, and every account has the same balances. So nobody gains by being first.", "quantifier": "every initialized state, every pair of calls for two different users with any arguments, callers and times", "why_tests_cant": "It compares two executions for every state and pair of calls.", "anchors": ["contracts/stake_rewards/src/contract.rs: add_user, calculate_bond, calculate_unbond, withdraw_rewards", "contracts/stake_rewards/src/distribution.rs: update_rewards, withdrawable_rewards"]}
