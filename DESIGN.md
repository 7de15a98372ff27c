# Formal model of phoenix-contracts: design

The deliverable is a Lean 4 model of the Soroban contracts in `/repo` and
machine-checked theorems about it.  `properties.jsonl` lists the properties in
English, `MANIFEST.json` maps each to theorem names, `seeded/LOG.jsonl` records
the wrong-program experiments.

## Layout

| Path | Contents |
|---|---|
| `lean/Verif/Model/*.lean` | the model, one file per contract/package, every definition cites `/repo` lines |
| `lean/Verif/Spec/*.lean` | small specifications, independent of the model's helpers |
| `lean/Verif/Lemmas/*.lean` | helper lemmas (inversion, arithmetic) |
| `lean/Verif/Props/*.lean` | property theorems (named `Cnn_...`), each with a non-vacuity `example` |
| `lean/Verif/Conform/*.lean` | the repository's own unit tests replayed on the model (tests, not proofs) |

## Modelling conventions

* **Failure.**  A call is a function into `Res α = Except Err α`.  A Rust panic,
  `panic_with_error!`, a host trap, an arithmetic overflow
  (`overflow-checks = true` in the workspace profile) and a failed
  `require_auth` are all `.error`.  Soroban rolls back every write of a failed
  transaction, so `.error` carries no state; a history keeps the old state.
* **Integers.**  `i128` is `Int`, with every `+ - *` range checked; `u128`/`u64`
  are `Nat` with range checks, subtraction requires `b ≤ a`; the host type
  `U256` is `Nat` with traps at `2^256`, on underflow and on division by zero.
  Rust `/` truncates toward zero (`Int.tdiv`).
* **Addresses** are `Nat`s (only equality and the order of `token_a < token_b`
  matter).
* **Authorisation.**  A call carries a context `Ctx`: clock, the predicate of
  addresses that *signed* the transaction, and the contract that makes this call
  directly, if any (`invoker`).  `require_auth(a)` succeeds if `a` signed or `a`
  is the direct invoker (Soroban's invoker rule).  A contract `P` calling another
  contract does so in `c.as P`, so a contract's own authorisation does *not*
  reach deeper calls (none of the contracts uses
  `authorize_as_current_contract`).  Simplification in the main model: an account's
  signature covers the whole call tree of the transaction.  In Soroban the signer signs a
  tree of invocations with their arguments: that is `Model/Signed.lean`, with the calls on
  which tokens move and the router (C110, C111); whatever succeeds there succeeds with
  the same result in the main model.  The host also refuses a second `require_auth` of one
  signing account inside one contract frame.  That is not modelled: no path of this
  code does so, except `stake_rewards` with a staking "contract" that is an account
  or the owner (`calculate_unbond` calls `withdraw_rewards` in its own frame).
* **Time.**  `now` is the ledger timestamp (u64), `seq` the ledger sequence.
* **Tokens.**  In the main model every token a contract touches is the repo's
  `contracts/token`.  `Model/Foreign.lean` repeats the paths of the two pools, of
  vesting and of stake on which tokens move with the token as a parameter
  (`Tokens σ`: any state, any behaviour, any failure), for C102-C105; with the repo's
  token put in, these functions are equal to the ones of the main model
  (`swapX_ledger`, ... in `Lemmas/Foreign.lean`).  Re-entrancy is not modelled: Soroban
  forbids it.
* **Histories** are lists of transactions.  Failed ones leave the state alone.
  Single-contract systems (`Pool.Sys`, `Stable.Sys`, `Stake.Sys`,
  `Vesting.Sys`) have that contract and all tokens; the only restriction is that
  no transaction is signed by the contract itself (contracts have no keys and
  these contracts have no `__check_auth`).
* **The whole protocol** (`Model/World.lean`): one ledger of all tokens, any
  number of contracts of every kind at any addresses, deployment by factory and
  pools through an address function `Host` (the host derives addresses by hashing
  deployer and salt; the salt is computed from the arguments the model's function
  takes).  Assumptions, all in `Spec/World.lean`: `HostOK` (deployed addresses are
  no accounts; a share token's address differs from the two tokens in its salt),
  `Genesis` (no contract is initialised yet; balances are non-negative `i128`s;
  tokens that do not exist have no balances; no contract has granted an
  allowance), `Possible` (only accounts sign).  Deployment to a used address
  traps.  `Spec/WorldExample.lean` is a concrete instance.  C116 alone also assumes
  that derived addresses do not collide and that no contract has deployed anything
  at the start (`Derives`, `NothingDeployed` in `Spec/Deploy.lean`).

## Trusted base

* Lean 4.33.0's kernel; axioms at most `propext`, `Classical.choice`,
  `Quot.sound` (checked with `#print axioms`, see `lean/Verif/Axioms.lean`).
  No axiom is added, no `sorry`, no `native_decide`, no `bv_decide`.
* The reading of the Rust source into the model (nothing is executed).  As a check of this
  reading, `lean/Verif/Conform/*.lean` replays the unit tests of the repository on the model:
  the same calls must give the same numbers and the same errors.  Those files are tests, not
  proofs, and no theorem depends on them.  All numbers agree, with one exception: the fourth
  trade of `extended_trade_and_transfer_token` in the trader's tests, which the present code
  refuses (that test calls an old token interface and is not run by the Makefile).
* The modelling conventions above.

Events are in `Model/Events.lean` (token, both pools, stake, vesting, factory), `Model/EventsRewards.lean` and `Model/EventsPeriphery.lean` (router, trader). Storage lifetimes are in `Model/Ttl.lean` for the token, the only contract that uses temporary
storage; C106 shows that they can only delay a call there.  The
lifetimes of pool, pool_stable, stake, vesting and stake_rewards are in `Model/Life.lean` and
`Model/Life*.lean` (C122, C123), those of factory, router and trader in `Model/LifeFactory.lean` and `Model/LifePeriphery.lean`
(C126): every storage access with every `extend_ttl`, archival and restoring, of one contract at a time.  Not modelled: the
lifetimes of the wasm code entries, gas limits, wasm upload, host-type
encodings (XDR, Bytes), `upgrade`'s effect on code
(replacing the wasm by an admin), contract size limits, the `scripts/`
directory, tests.

## Plan per property

| Id | Modelled | Proof |
|---|---|---|
| C01 | `Pool.swap` on pool state and token ledger | inversion of the call, case split on aliasing |
| C02 | `Pool.computeSwap` on U256 | floor-division lemmas, `nlinarith` |
| C03 | `Pool.computeSwap` | bound on floor; witness refuting the stronger claim |
| C04 | `Pool.swap` | inversion |
| C05 | `Pool.simulateSwap` | inversion and rewriting |
| C06 | `Pool.computeOfferAmount` | witness; bound |
| C07 | `Pool.withdraw` | two nested floors |
| C08 | `Pool.provide` | floor bounds, `min` |
| C09 | `Pool.depositAmounts` | case split; witness for the empty pool |
| C10-C12 | pool + ledger transition system | inductive invariant over all histories |
| C13 | same transition system | cross-multiplied order, transitivity along histories |
| C14 | `provide` then `withdraw` | composition of C07, C08 |
| C15 | two `computeSwap`s | witness; rounding bound |
| C16 | every call of the system | inversion of each call |
| C17 | same | invariant |
| C18, C19, C20 | `computeSwap` | arithmetic |
| C21-C24 | `Token` | inversion, Finset sums, induction over histories |
| C25-C28 | `Curve` | list induction |
| C29-C34 | `Vesting` + ledger + clock | inductive invariants with a ghost total of claims |
| C35-C42 | `Stake` + ledger + clock | inductive invariants; witnesses for the defects |
| C43, C44 | `World`: factory, deployment through an address function | registry compared with the creations in the history, induction |
| C45-C47, C80 | `World`: router over any pools | list induction over the hops; witnesses |
| C48, C49, C81 | `World`: trader | inversion; frame theorem over histories; witness |
| C50-C56 | `StablePool`, `StableMath` | Newton iteration lemma, inversion, invariants; witnesses |
| C57 | `Decimal` | floor/`tdiv` lemmas |
| C58, C59 | `Curve` | list induction; witness for overflow |
| C60-C64 | `Vesting` system | inductive invariants, inversion of each call |
| C65-C67 | `Stake` system | inversion; induction over histories |
| C68, C69 | `Stable` | bounds on the invariant the loop returns and on the root it solves for; failure for all amounts below the threshold |
| C70, C74 | `Stable` system | adversarial histories evaluated by the kernel; partial protection by inversion; the loss bounded by one share from the closeness of the invariant to the sum (`StableTrade`) |
| C71-C73 | `Stable` system | induction over histories |
| C75 | `Pool`, `Stable` | same computation; success of every token call from the invariants |
| C76, C77 | `World` | one inductive invariant for all contracts, frame lemmas for the ledger |
| C78, C79 | `World` | monotonicity of references; frame theorem per call |
| C82 | `DecimalText` | independent reading relation for digit texts; list induction; failure for negatives |
| C83-C89 | `Rewards` + ledger + clock | inductive invariants with ghost totals; frame theorems; list induction over the schedule; witnesses |
| C90 | `World` | list induction over the pools, on the invariant of the whole protocol (C76) |
| C91 | `Decimal256` | floor of rationals; strong induction over the exponent; agreement with `Decimal` |
| C92 | `PoolDead` | induction on the width of the search interval; integer inequalities |
| C93 | `Admin` | invariant of the whole protocol; case analysis over the calls that touch a contract |
| C94 | `Split` | induction on the list of swaps; floor arithmetic |
| C95 | `Props/Avail` | exact condition for `compute_swap` to return, forward execution of `swap` in reachable states, witness of refusal |
| C96 | `Props/AvailLp` | forward execution of `provide_liquidity` in reachable states, both directions of the equivalence |
| C97 | `Props/Events` | induction over the calls, each balance change compared with its event (C21); witness for the allowances |
| C98 | `Props/Events`, `Props/EventsStable` | the functions with events are proved equal to those without; inversion of a successful call; witness histories |
| C99 | `Props/EventsLog` | induction over the history; witness for the rewards |
| C100 | `Props/EventsLog` | inversion of the calls; induction over the history with a reader of the log for the minter; witness |
| C101 | `Props/EventsLog` | induction over the history, with C43 |
| C102 | `Foreign`, `ForeignStable` | Induction over the reachable states, the tokens being a parameter (`Tokens`) with the one hypothesis `Fair`. |
| C103 | `Foreign`, `ForeignStable` | Inversion of the swap with the tokens as a parameter; concrete round trip as witness of the loss. |
| C104 | `ForeignHold` | Induction over the reachable states with `Fair` and `Delivers` as only hypotheses on the token; concrete witness for the shortfall. |
| C105 | `ForeignHold` | Induction over the reachable states; two concrete witnesses. |
| C106 | `Model/Ttl`: the token with the last live ledger of every entry | refinement to `Model/Token`, induction over histories |
| C107 | `Props/Value` | induction on the history: a swap keeps A*m <= A'*(m+1) for the product A (from C03), every other call keeps each reserve per share (C13); the factors are combined by integer algebra |
| C108 | `Props/AvailStable`, `Lemmas/StableConv` | convergence of both Newton loops (each step at least halves the distance to the root), then forward execution of swap and deposit; sharpness by the overflow of the cube of the invariant |
| C109 | `Props/ValueStable` | per step: one unit at most from the curve bounds of C50, C56; then induction over the history with Bernoulli's inequality |
| C110 | `Signed` | `Model/Signed.lean` runs the parametrised contract functions on the repository's token with authorisation by signed trees; each call is inverted on both sides and compared; concrete witness for the expiry. |
| C111 | `Signed` | Induction over the operations of the route, with the list of pools and amounts used (`Via`); concrete witness for the expiry. |
| C112 | `Supply` | Net effect on the sum of balances, call by call; induction over histories of the whole protocol |
| C113 | `AvailStake` | Both directions by inverting each call; the invariant of the whole protocol supplies ranges of balances and backing of stakes |
| C114 | `AvailVesting` | Both directions by inverting each call; the solvency invariant gives that claims are payable |
| C115 | `Deployed` | Invariant over histories: each changed code has an origin, and origins persist as the world grows |
| C116 | `AvailFactory` | Both directions by inverting each call; C115 shows that derived addresses are free |
| C117 | `Props/StableMore` | quadratic convergence bound of the last Newton step, symmetry of the curve in its two amounts |
| C118 | `Props/Order` | each call is shown to be an update of one slot plus balance movements that depend on that slot only; such updates commute |
| C119 | `Props/AvailToken` | Both directions by inverting each call; ranges from the invariant of C22 |
| C120 | `Model/Store*`, `Spec/Store*`, `Props/StorePool`, `StoreStable`, `StoreStake`, `StoreVesting`, `StoreToken` | the entry points written a second time, against a key-value store with the source's keys, and a simulation between the two: same outcome and same error for every call, and the store holds exactly the record |
| C121 | `RouteQuote` | unfold the two query functions; induction over the route relates the accumulating loop to the list of the pools' answers (`Answers`), and the link checks to `IsChain` |
| C122 | `LifeStake`, `LifePool`, `LifeStable`, `LifeVesting` | contracts rewritten as programs over a free monad of storage operations with every `extend_ttl`; two interpretations (with and without lifetimes), a simulation between them for all programs, the plain one proved equal to the storage models, then composed with the record models; induction over histories |
| C123 | `Props/LifeRewards` | refinement of the storage programs to the record model; per-call lists of entries used; a judgement for entries that are never extended |
| C124 | `Sandwich` | balances summed over callers, with C107 |
| C125 | `Props/EventsRewards` | functions with events proved equal to the ones without; per call what the events tell; induction over histories |
| C126 | `LifeFactory`, `LifePeriphery` | the contract at one address rewritten as programs over the free monad of C122, with the rest of the protocol as their environment; every other call is proved not to depend on the contract's own record; simulation and induction over histories of the protocol |
| C127 | `AvailRewards` | size invariant over histories: shares per point and leftover are at most 1 + 2^32 times the rewards handed out, and no user got more than was handed out; with the invariants of C85 all intermediate values of the points arithmetic are bounded |
| C128 | `Position`, `Rights` | per-call bound of C107 lifted to every call of the world, hop by hop for routes; stakes of an account change only in calls it signs; induction over the history |
| C129 | `Rights` | frame lemma: transfers, mints and burns made by the contracts keep allowances and administrators; case analysis over all calls of the world; induction over the history |
| C130 | `Exit`, `Lemmas/Fits` | the recorded number of shares fits into 128 bits in every reachable world; so wallet and stake contract together cannot overflow; C113 for every stake in turn by induction over the list, C75 for the withdrawal |
| C131 | `PositionStable` | one stable call by the step lemma of C109, which now needs the invariant only; composed over hops and transactions as in C128 |
| C132 | `StableTrade` | a swap in a fair pool pays, commission included, at most the amount sold and a unit (C50); the ledger effects of a swap; induction over the history |
| C133 | `Props/EventsPeriphery` | events with the step proved equal to the step without; which calls change the setup of a router or trader (frame lemmas); C81; induction over the history |
| C134 | `Props/Queries` | the queries read against the world invariant (C69, C70, C90) and against its growth lemma; decimals by the rights lemma of C119 |
| C135 | `Props/Deposit` | the two quotients of the share formula bounded from below, the amounts taken tied to the ratio of the reserves, the locked thousand from C12; concrete histories for the captured donation and the deposit that earns nothing |
| C136 | `Props/NoYield` | C03 for one swap; a relation respected by every call of the pool carried through routes, traders and histories |
| C137 | `Props/Rename` | renaming of states, calls and host defined in `Spec/Rename`; every function of the world model shown to commute with it (`Lemmas/Rename`), induction over histories |
| C138 | `Props/Mirror` | exchange of the sides defined in `Spec/Mirror`; every call of both pools shown to commute with it, and being its own inverse this gives the equivalence; induction over histories |
| C139 | `Props/Delay` | deadlines, dates and the calls that note the time defined in `Spec/Delay`; the invariant that no date is in the future by induction over histories; then every other call shown to be the same function at the two times |
| C140 | `Props/Names` | texts beside the state of the whole protocol (`Model/Names`); induction over histories, each call shown to store texts only where there was nothing before; the loops of the router compared with and without labels, and so are the queries of the trader |
| C141 | `Props/ReverseQuote` | the amount before commission bounded by the exact quotient; the solver's answer bounded from both sides against the curve, and the curve monotone in both coordinates, so that the answer for one token and then the other returns to the start up to the tolerance |
| C142 | `Props/Work` (model `Model/Work`, spec `Spec/Work`) | counting copies of the calls, shown to compute the same results; sizes of the stored lists and maps by induction over the history in terms of the number of accepted calls; for the lower bound, that a distribution at a new time adds an entry to both histories and that nothing removes one |
| C143 | `Props/Parts` (spec `Spec/Parts`) | induction over the withdrawals, keeping the total payout between the pro-rata part and that less the roundings (cross-multiplied); superadditivity of the reward formula of C39 up to two units, summed over parts, accounts and distributions |
| C144 | `Props/Unclaimed` (spec `Spec/Unclaimed`) | induction over the history from the end: paid so far plus due so far is at most earned so far (a bond adds a stake without age, an unbond removes one, a withdrawal moves the due amount to paid by the formula of C39); summed over the accounts with the total stake as bound |
| C145 | `Props/StableParts` (spec `Spec/StableParts`) | each swap ends above the curve of its own invariant, whose distance from the sum of the reserves is bounded (`gap_le`), so the invariant falls by at most a unit and 1505 per part; a polynomial inequality turns a fall of the invariant into at most five units of the bought token; comparison with the curve bound of C117 for the whole sale |
| C146 | `Props/Stray` (spec `Spec/Stray`) | every payment of every entry point is of a token of `Handles` or goes in before it is burnt (`Lemmas/Stray`); calls that do not involve the contract take nothing (`step_untouched`); routes by induction over the hops; `Handles` is never given up, so the condition on the last state covers all |
| C147 | `Props/Price` | the spread check bounds ideal payout over payout, `quote_core` gives the two floors; the per-swap nature of the limit by a concrete pool |
| C148 | `Props/Cycle` (spec `Spec/Cycle`) | each stop pays at most the spot price (C02), pools not yet visited keep their reserves; induction over the tour; routes are tours by C45 |
| C149 | `Props/Depth` | the payout is the least g with g(x+a) >= ya, so it is monotone in y/(x+a); deposits are proportional within one unit of one token (`amounts_ratio`), which costs at most one unit of payout (`gross_after`) |
| C150 | `Props/DepositParts` | `provide_inv` gives the minted shares as the smaller of two floors; composition of floors from above; from below deposits are proportional within one unit (`amounts_ratio`) |
| C151 | `Spec/Later`, `Lemmas/Later`, `Lemmas/LaterKeys`, `Props/Later` | equivariance of every entry point under moving all times, `step_later`; invariant that distributions are dated after time zero (zero stands for no withdrawal so far); induction on the history |
| C152 | `Spec/Stayer`, `Props/Stayer` | the inequality of C144 made exact, step by step; no distribution falls into the second of the last withdrawal; for the exception the balance from that second on |
| C153 | `Spec/Project`, `Lemmas/Graft`, `Lemmas/Project`, `Lemmas/Project2`, `Props/Project` | every step of the protocol is a sequence of token calls by others and calls of the contract (the moves of C77 for all other contracts); no step reads anything of a token not yet deployed but balances, so its record may be put in place from the start; induction over the history |
| C154 | `Spec/Fees`, `Props/Fees` | the fee of one swap between two rates (C01, C52), added up by induction over the history; C16 for what happens in between |
| C155 | `Spec/More`, `Props/More` | relation between the states of the two histories (same settings and stakes but for one entry, up to order), kept by every step; rewards are monotone in the total, sums of floors |
| C156 | `Spec/Dearer`, `Props/Dearer`, `Props/DearerStable` | relation between the states of the two histories (equal but for the fee; equal balances of the pool and of the shares), kept by every step; the differences of all other balances change only in swaps |
| C157 | `Props/MoreIn` | the amounts taken, the rounded shares and the rounded payouts are non-decreasing functions of the amounts offered; stable: the computed invariant is within 1505·10⁻¹⁸ token of the sum, less than one unit |
| C158 | `Props/Habits` | books of one schedule (C30): paid = total − balance; an attempt succeeds exactly if the balance exceeds the curve; cross-multiplied comparison of two straight lines |
| C159 | `Props/WorkVesting` (model `Model/WorkVesting`, spec `Spec/WorkVesting`) | counting copies of the calls, shown to compute the same results; every stored curve has fewer points than the limit; the search for a free place makes one lookup per schedule of the account; the length of the list counts the accepted creations |
| C160 | `Props/VestingMinter` (model `Model/QueriesVesting`, spec `Spec/VestingMinter`) | induction over the history: the stored minter is the one named last, its capacity the last grant less the mints since |
| C161 | `Props/WorkWorld` (model `Model/WorkWorld`) | counting copies of the loops, shown to compute the same results; the list of pools has one entry per accepted creation (C43) |
| C162 | `Props/FundingDates` (spec `Spec/FundingDates`) | the corners of the stored schedule are the dates of the current run, as an invariant of all calls; no other failure has the complexity error |
| C163 | `Props/Released` (spec `Spec/Released`) | the stored schedule as an exact rational function is the sum of the announced lines plus at most a unit per merge, as an invariant; sums of falling curves round up (`Lemmas/CurveExact`) |
| C164 | `Props/Covered` (spec `Spec/Released`) | invariant over histories with ordered clocks: balance minus withdrawable covers the announced locked amount, which falls with time; acceptance from C163's bound on the stored schedule and C59's bound on evaluation |
| C165 | `Props/Repeated` | induction on the number of withdrawals appended to the history, each accepted by C85 and accounted for by C86; the geometric bound in exact rationals |
| C166 | `Model/WorkRewards`, `Props/WorkRewards` | counted copies of the calls, proved to do the same; invariant that the stored schedule respects the limit; bounds on sort, deduplication and evaluation |
| C167 | `Props/Leaver` | the user's correction and withdrawn amount are frozen while away; with no stake the points are zero, so the share price does not matter |
| C168 | `Props/Sybil` | between reports the reward is the growth of the share price times the points, within one unit over the whole stretch; points are superadditive in the stake |
| C169 | `Props/Lost` | the invariant of C85 (all claims are covered) strengthened by the points nobody has |
| C170 | `Props/JustInTime` | the three calls computed on the user's correction; growth of the share price; C167 for the time away |
| C171 | `Props/HowOften` | the remainder carried over makes two divisions equal to one of the sum; induction on the earlier distributions |
| C172 | `Props/PayTiming` | simulation: the two systems differ by r in the balance, in what is owed and in what the user withdrew; a distribution preserves that |
| C173 | `Props/OrderRewards` | the effect of a user's call depends only on configuration, share price and that user's books, and changes only these books and the sum owed |

## What is modelled, file by file

| `/repo` | Model | Not modelled there |
|---|---|---|
| `contracts/token` (contract, balance, allowance, admin) | `Model/Token.lean`: constructor, mint, set_admin, allowance, approve, balance, transfer, transfer_from, burn, burn_from | lifetimes are in `Model/Ttl.lean`, name and symbol in `Model/Names.lean` |
| `contracts/pool/src/contract.rs`, `storage.rs` | `Model/Pool.lean`: initialize, provide_liquidity, swap, withdraw_liquidity, update_config, upgrade (its effect on the default slippage; the wasm part is `Model/Upgrade.lean`), all queries, compute_swap, compute_offer_amount, assert_max_spread, get_deposit_amounts; events in `Model/Events.lean` | |
| same, helpers no entry point calls | `Model/PoolDead.lean`: split_deposit_based_on_pool_ratio, assert_slippage_tolerance, is_approx_ratio | the log lines |
| `contracts/pool_stable` (contract, math, storage) | `Model/Stable.lean`: all entry points and queries, compute_current_amp, scale_value, compute_d, calc_y, both Newton loops with their 64 iterations | amplification ramps are modelled, though no entry point starts one |
| `contracts/stake` | `Model/Stake.lean`: all entry points and queries, distribution.rs; work counted in `Model/Work.lean` | `migrate`-style code update is in `Model/Upgrade.lean` |
| `contracts/stake_rewards` | `Model/Rewards.lean` (work counted in `Model/WorkRewards.lean`): all entry points and queries, distribution.rs; events in `Model/EventsRewards.lean` | `update` is in `Model/Upgrade.lean` |
| `contracts/vesting` | `Model/Vesting.lean`: all entry points and queries, with and without minter; work counted in `Model/WorkVesting.lean` | the vested token's name and symbol are in `Model/Names.lean` |
| `contracts/factory` | `Model/Factory.lean`, `Model/World.lean`: all entry points and queries, deployment; work counted in `Model/WorkWorld.lean` | wasm hashes are opaque numbers |
| `contracts/multihop` | `Model/Factory.lean` (verify_swap, verify_reverse_swap), `Model/World.lean` (swap and both simulations over real pools); events in `Model/EventsPeriphery.lean` | |
| `contracts/trader` | `Model/Factory.lean`, `Model/World.lean`: initialize, trade_token, transfer; `Model/Queries.lean`: queries; events in `Model/EventsPeriphery.lean`; name, token names and symbols in `Model/Names.lean` | the event with the trader's name |
| plain queries of pools | `Model/Queries.lean`: query_config, query_share_token_address, query_stake_contract_address, query_pool_info, query_total_issued_lp | |
| signatures for single invocations | `Model/Signed.lean`: swap, deposit, withdrawal, bond, unbond, reward distribution and withdrawal, vesting creation and claim, routes | factory (deployment), nonces and expiry of signatures |
| `storage.rs` of pool, pool_stable, stake, vesting; `storage_types.rs`, `balance.rs`, `allowance.rs`, `admin.rs` of token | `Model/Store.lean`, `Model/StorePool.lean`, `StoreStable`, `StoreStake`, `StoreVesting`, `StoreToken`: the entry points against a key-value store with the source's keys and storage kinds | the binary form of keys and values (taken to be injective) |
| lifetimes in factory, multihop, trader, pool, pool_stable, stake, vesting, stake_rewards (every `extend_ttl`, `packages/phoenix/src/ttl.rs`) | `Model/Life.lean`, `Model/LifePool.lean`, `LifeStable`, `LifeStake`, `LifeVesting`, `LifeRewards`, `LifeFactory`, `LifePeriphery` | fees of extending and restoring; that the host restores entries automatically in newer protocols (then `restores` is part of the call) |
| every `update` | `Model/Upgrade.lean`: who may replace which contract's code | the new code |
| `packages/curve` | `Model/Curve.lean`: constructors, validation, value, combine, complexity | serde |
| `packages/decimal` | `Model/Decimal.lean`, `Model/Decimal256.lean`, `Model/DecimalText.lean` (Display and FromStr) | `Debug`, `TryFrom` glue |
| `packages/phoenix` | the macros `validate_bps!`, `validate_int_parameters!`, in `Model/Arith.lean`; the constants of `ttl.rs` in `Model/Life.lean` | |

`tools/axioms.py` regenerates `lean/Verif/Axioms.lean`, in which the build itself
checks the axioms of every property theorem.  `tools/manifest.py` regenerates
`MANIFEST.json`, `tools/mutate.py` runs a batch of seeded bugs.

## Findings (behaviour that contradicts a reasonable reading)

Each item is a theorem about the model; the theorem named shows it.

Constant product pool

* The gross payout is rounded up, so the product of the reserves can shrink in a
  swap (`C03_product_can_shrink`), a dust round trip can end with a profit of a
  unit (`C15_round_trip_can_profit`), and splitting a sale can gain up to two units per extra swap
  (`C94_split_sale`).
* The subtraction `cp / offer_pool - return` traps if the rounded-up payout exceeds
  the spot value.  Small sales to large pools are therefore refused with an overflow,
  unless the price happens to divide (`C95_quoted_iff`, `C95_small_swap_refused`).
  A stale test of the trader runs into this (`Conform/World.lean`).
* The reverse quote is often one unit short, and for an impossible ask it is
  negative (`C06_quote_is_one_short`, `C06_impossible_ask_negative_quote`).
* The minimum amounts of a first deposit are ignored
  (`C09_first_deposit_ignores_minimums`).
* The fee limit set at initialisation does not bind `update_config`
  (`C17_fee_cap_not_kept`).
* Withdrawing fails with an overflow from very large pools
  (`C75_large_pool_overflows`).
* Liquidity providers earn nothing from trading: every fee goes to the fee recipient and the product of the reserves
  never grows in a swap (`C136_trading_earns_nothing`).
* The fee of each swap is rounded down on its own, so in a small pool a sale made in small parts pays no fee at all
  (`C154_dust_avoids_the_fee`).
* Tokens sent to a pool are credited to the next depositor, not to the providers
  (`C135_donation_captured`), and a deposit worth less than one share is kept without any share in return; unlike the
  stable pool's, this `provide_liquidity` has no minimum number of shares (`C135_small_deposit_earns_nothing`).
* Two helpers without callers are wrong as well (`C92_slippage_overflows`,
  `C92_split_small`, `C92_split_tolerance_absolute`).

Stable pool

* `update_config` asks for no authorisation: anybody can take the pool over
  (`C53_anyone_takes_over`) and then replace its code (`C93_stable_taken_over`).
* Pools whose reserves satisfy `4xy >= 2^128` (scaled) refuse every swap and deposit
  (`C54_swap_always_fails`, `C54_deposit_always_fails`).
  Swaps already stop at about 10.5 tokens in both reserves together, because the cube of the invariant times 10²⁰ no longer
  fits a `U256`, while deposits are still accepted: a first deposit of 6 : 6 tokens makes a pool that can never be
  traded against (`C108_large_pool_refuses`, `C108_accepted_but_unswappable`).
* Small swaps in unbalanced pools fail (`C68_small_swaps_fail`); pools over tokens of
  different decimals do not work (`C69_different_decimals`,
  `C69_selling_finer_token_fails`).
* A first depositor can take the next deposit (`C70_deposit_stolen`).
* One swap can empty a reserve, after which the pool is frozen for ever
  (`C73_one_swap_freezes`, `C73_frozen_for_ever`).
* A deposit followed by a withdrawal is a swap without the fee (`C74_fee_avoided`).
* Near the end of a reserve, or with more than 8 decimals in small pools, selling one unit more can pay several per cent
  less: the solver's tolerance of 10⁻⁶ token is then many units (`C117_more_can_pay_less`).

Staking and rewards

* Two distributions at one timestamp: the first is overwritten
  (`C41_same_time_lost`); payments can exceed what was distributed
  (`C37_can_overpay`); a newer stake blocks withdrawal (`C40_newer_stake_blocks`);
  unbonding forfeits rewards (`C65_unbond_forfeits`).
* `withdraw_rewards` needs no signature.  Made for somebody else in the second of a distribution and before it, it takes that
  distribution away from them for ever (`C152_anybody_takes_a_distribution_away`); at any other time it costs them nothing
  (`C152_stayers_get_all`).
* The part of a distribution that stakes younger than 60 days do not earn can never be claimed by anybody and has no way
  out of the contract: all of it if no stake is a day old, or if nobody has staked (`C144_young_stakes_waste`).
* Staking more can lower one's own rewards: a new stake counts in full in the total from its first day and earns its
  share only after 60 days, so until then it dilutes the older stakes of the same account (`C155_more_can_earn_less`).
* Every withdrawal reads all distributions ever made, however recently the account withdrew; the histories are never
  pruned, there is no withdrawal of a part, and the `max_complexity` of the stake contract limits nothing
  (`C142_withdraw_grows`, `C142_no_limit`, `C142_complexity_ignored`).
* `initialize` of stake, stake_rewards, vesting, factory and multihop asks for no
  authorisation (`C67_anyone_initialises`, `C83_anyone_initialises`,
  `C64_anyone_initialises`, `C93_factory_init`, `C93_router_init`).
* stake_rewards counts past dates against `max_complexity`: a distribution that is funded again and again before its schedule
  has run out refuses further fundings until it has (`C162_used_up`, `C162_past_dates_count`), and a limit below two, which
  `initialize` accepts, refuses all of them (`C162_limit_too_small`).
* stake_rewards: the reduction for stakes younger than 60 days holds back a part of each withdrawal, which can be withdrawn again
  in the same second: ten calls of a user with 30-day-old stakes take 99.9 % of the full reward (`C165_repeated`,
  `C165_all_in_one_second`).
* stake_rewards divides a distribution by the points of the total stake, in which stakes below `min_bond` and parts of a thousand
  tokens count although their owners get no points for them: that part of every distribution stays in the contract for ever
  (`C169_unassigned_stays`; a third of it in the example).
* stake_rewards: a stake made in the second of a distribution and taken back in the same second earns its full part of it; the
  60-day rule only delays the payment until a later, arbitrarily small stake is 60 days old (`C170_earns_without_staying`,
  `C167_rest_comes_back`), or less with repeated withdrawals (`C165_repeated`).
* stake_rewards: a schedule that starts late is never released in full
  (`C87_late_start_never_released`); an empty one, and some valid ones, block
  distribution (`C87_empty_schedule_blocks`, `C87_fund_can_block`; the latter not for long, `C164_soon`); the annualised
  rate collapses after a distribution (`C88_collapses_after_distribution`); reporting
  a bond after it is stored counts it twice and takes rewards of others
  (`C89_stored_report_steals`); whoever is the only staker when much is handed out makes the contract refuse
  large stakes of others for good (`C127_large_stake_blocked`; a thousand reward tokens with 18 decimals handed
  out to the minimum bond rule out stakes of ten thousand tokens).
* stake_rewards extends only its configuration, its initialization mark and its administrator, never the
  schedule, the totals and the users' entries (distribution.rs:42-164).  The totals, written once by
  `initialize`, are archived after the network's minimal lifetime, and from then on no user can be added,
  bond, unbond or withdraw until somebody restores them from outside (`C123_not_kept` and its example).
  Nothing is lost (`C123_restorable`).

Vesting and curves

* A claim at the very end can fail (`C31_end_instant_can_fail`); minted tokens can
  never leave the contract (`C60_surplus_never_leaves`).
* Creating a schedule looks at all earlier schedules of the recipient without extending them: one of them
  archived blocks the creation until somebody restores it (example beside `C122_vesting_upkeep`).
* Creating schedules costs one lookup for every schedule the recipient already has, and none is ever removed, so it has no
  bound (`C159_create_unbounded`); claims are not affected (`C159_claim`).
* The sum of two valid curves can be invalid (`C27_combine_can_be_invalid`), and a
  valid curve's value can fail to compute (`C59_value_can_fail`).

Factory, router, trader, decimals

* Assembling a user's portfolio calls every pool of the factory several times, also those the user has nothing in, and a new
  pool rewrites the whole list; pools are never removed, so both costs only grow (`C161_portfolio`, `C161_factory`).
* A pair of tokens can have one pool for ever (`C43_one_pool_per_pair`); one large
  holder's portfolio query fails altogether (`C90_large_holder_blocked`).
* A route through a pool twice is quoted wrongly (`C46_repeated_pool_differs`);
  reverse quotes through stable pools use the wrong side
  (`C80_stable_wrong_side`, `C80_reverse_quote_wrong`).
* `trade_token` can never succeed: the trader's authorisation does not reach the
  token transfer inside the router (`C81_trade_never_succeeds`).  Its default amount
  is the admin's balance, not the trader's (`C49_default_is_callers_balance`).
* `multiply_ratio` is off by a factor 10^18 in both decimal types
  (`C57_multiply_ratio_off`, `C91_multiply_ratio_off`); `abs_diff` wraps
  (`C57_abs_diff_wraps`); the text of a negative decimal is malformed
  (`C82_negative_wrong`, `C82_negative_text`, `C82_negative_fraction_lost`).
* **Signatures expire with the price** (C110, C111).  An XYK deposit transfers amounts computed from the reserves, and a route calls
  each later pool with the amount the earlier one paid, under the caller's signature.  A signature covers exact arguments, so as soon as
  anybody trades in between, the call is refused although it is within all the limits the caller gave
  (`C110_deposit_signature_expires`, `C111_route_signature_expires`).  The tests do not notice because they mock all authorisations.
* **Tokens that charge on transfer** (C103-C105).  The pools pay for the amount offered and
  not for the amount that arrived, so the liquidity providers lose the difference
  (`C103_providers_pay_the_tax`); vesting and stake record what was sent, so the last to
  claim cannot be paid (`C104_taxed_token_underfunds`, `C105_taxed_reward_unpayable`,
  `C105_taxed_stake_underfunds`).  What the contracts promise for every token is in C102-C105.
* **The router labels commissions with the wrong token** (C140).  `simulate_swap` puts the symbol of the offered asset beside each
  commission although the commission is taken from the asset asked for, which is also what the comment in
  `contracts/multihop/src/storage.rs` announces; `C140_label_is_not_the_token_paid` shows a route quoted with "5 AAA, 5 BBB" whose
  fees are 5 BBB and 5 CCC.  A vesting contract can announce a name, symbol and decimals that its token does not have
  (`C140_vesting_unchecked`).

* **A stable pool charges a cut-up sale again and again** (C145).  `compute_d` answers the plain sum of the reserves (C74, C109), so every
  swap starts on a higher curve than the previous one ended on.  Two halves of a sale of 0.5 token in a 0.9 : 0.9 pool with A = 3 bring
  3.2 % less than the whole; with A = 1 the second half of a sale of 0.6 is refused (`C145_parts_can_lose`).

* **Tokens sent by mistake are lost** (C146).  Only the trader can pay out arbitrary tokens.  Any other contract keeps for ever what it
  does not handle (`C146_kept_for_ever`), among it LP tokens sent to their own pool or sent to the stake contract without staking
  (`C146_sent_not_staked`); the share of the reserves behind such LP tokens is out of reach for everybody.
* **Spread limits bound a swap, not a price** (C147, C149).  The limit holds for each swap alone, so several swaps in one ledger pass it
  (`C147_limit_is_per_swap`); and tokens sent to a pool move its price with the next deposit, without any swap
  (`C149_sent_tokens_move_the_price`).

* **Events leave things out** (C97-C100). `transfer_from` publishes the event of `transfer`, so allowances cannot be
  followed; a swap does not publish its commission, a deposit neither the shares it mints nor the donations it absorbs;
  `unbond` does not name the timestamp of the stake, `Claim` names neither the claimer nor the schedule; `update_config`,
  `upgrade` and `create_vesting_schedules` publish nothing. `C98_log_does_not_determine_pool`,
  `C99_log_does_not_determine_rewards` and `C100_log_does_not_name_claimer` give pairs of histories with equal logs.
