import Verif.Props.Admin
import Verif.Props.Avail
import Verif.Props.AvailFactory
import Verif.Props.AvailLp
import Verif.Props.AvailRewards
import Verif.Props.AvailStable
import Verif.Props.AvailStake
import Verif.Props.AvailToken
import Verif.Props.AvailVesting
import Verif.Props.Covered
import Verif.Props.Curve
import Verif.Props.Cycle
import Verif.Props.Dearer
import Verif.Props.DearerStable
import Verif.Props.Decimal
import Verif.Props.Decimal256
import Verif.Props.DecimalText
import Verif.Props.Delay
import Verif.Props.Deployed
import Verif.Props.Deposit
import Verif.Props.DepositParts
import Verif.Props.Depth
import Verif.Props.Events
import Verif.Props.EventsLog
import Verif.Props.EventsPeriphery
import Verif.Props.EventsRewards
import Verif.Props.EventsStable
import Verif.Props.Exit
import Verif.Props.Fees
import Verif.Props.Foreign
import Verif.Props.ForeignHold
import Verif.Props.ForeignStable
import Verif.Props.FundingDates
import Verif.Props.Habits
import Verif.Props.HowOften
import Verif.Props.JustInTime
import Verif.Props.Later
import Verif.Props.Leaver
import Verif.Props.LifeFactory
import Verif.Props.LifePeriphery
import Verif.Props.LifePool
import Verif.Props.LifeRewards
import Verif.Props.LifeStable
import Verif.Props.LifeStake
import Verif.Props.LifeVesting
import Verif.Props.Lost
import Verif.Props.Mirror
import Verif.Props.More
import Verif.Props.MoreIn
import Verif.Props.Multihop
import Verif.Props.Names
import Verif.Props.NoYield
import Verif.Props.Order
import Verif.Props.OrderRewards
import Verif.Props.Parts
import Verif.Props.PayTiming
import Verif.Props.PoolDead
import Verif.Props.PoolLp
import Verif.Props.PoolMath
import Verif.Props.PoolSwap
import Verif.Props.PoolSys
import Verif.Props.Portfolio
import Verif.Props.Position
import Verif.Props.PositionStable
import Verif.Props.Price
import Verif.Props.Project
import Verif.Props.Queries
import Verif.Props.Released
import Verif.Props.Rename
import Verif.Props.Repeated
import Verif.Props.ReverseQuote
import Verif.Props.Rewards
import Verif.Props.Rights
import Verif.Props.RouteQuote
import Verif.Props.Sandwich
import Verif.Props.Share
import Verif.Props.Signed
import Verif.Props.Split
import Verif.Props.StableMore
import Verif.Props.StableParts
import Verif.Props.StableSwap
import Verif.Props.StableSys
import Verif.Props.StableTrade
import Verif.Props.Stake
import Verif.Props.Stayer
import Verif.Props.StorePool
import Verif.Props.StoreStable
import Verif.Props.StoreStake
import Verif.Props.StoreToken
import Verif.Props.StoreVesting
import Verif.Props.Stray
import Verif.Props.Supply
import Verif.Props.Sybil
import Verif.Props.Token
import Verif.Props.Trader
import Verif.Props.Ttl
import Verif.Props.Unclaimed
import Verif.Props.Value
import Verif.Props.ValueStable
import Verif.Props.Vesting
import Verif.Props.VestingMinter
import Verif.Props.Work
import Verif.Props.WorkRewards
import Verif.Props.WorkVesting
import Verif.Props.WorkWorld
import Verif.Props.World
/-!
The axioms of every property theorem.  Generated by tools/axioms.py; the build fails if one of these
lists is wrong.
-/

/-- info: 'Phoenix.Props.Admin.C93_replace_iff' depends on axioms: [propext, Quot.sound] -/
#guard_msgs (whitespace := lax) in #print axioms Phoenix.Props.Admin.C93_replace_iff

/-- info: 'Phoenix.Props.Admin.C93_admin_permanent' depends on axioms: [propext, Classical.choice, Quot.sound] -/
#guard_msgs (whitespace := lax) in #print axioms Phoenix.Props.Admin.C93_admin_permanent

/-- info: 'Phoenix.Props.Admin.C93_code_safe' depends on axioms: [propext, Classical.choice, Quot.sound] -/
#guard_msgs (whitespace := lax) in #print axioms Phoenix.Props.Admin.C93_code_safe

/-- info: 'Phoenix.Props.Admin.C93_stable_taken_over' depends on axioms: [propext, Quot.sound] -/
#guard_msgs (whitespace := lax) in #print axioms Phoenix.Props.Admin.C93_stable_taken_over

/-- info: 'Phoenix.Props.Admin.C93_factory_init' depends on axioms: [propext, Quot.sound] -/
#guard_msgs (whitespace := lax) in #print axioms Phoenix.Props.Admin.C93_factory_init

/-- info: 'Phoenix.Props.Admin.C93_router_clean' depends on axioms: [propext, Classical.choice, Quot.sound] -/
#guard_msgs (whitespace := lax) in #print axioms Phoenix.Props.Admin.C93_router_clean

/-- info: 'Phoenix.Props.Admin.C93_router_init' depends on axioms: [propext, Quot.sound] -/
#guard_msgs (whitespace := lax) in #print axioms Phoenix.Props.Admin.C93_router_init

/-- info: 'Phoenix.Props.Admin.C93_hashes' depends on axioms: [propext, Quot.sound] -/
#guard_msgs (whitespace := lax) in #print axioms Phoenix.Props.Admin.C93_hashes

/-- info: 'Phoenix.Props.Avail.C95_quoted_iff' depends on axioms: [propext, Classical.choice, Quot.sound] -/
#guard_msgs (whitespace := lax) in #print axioms Phoenix.Props.Avail.C95_quoted_iff

/-- info: 'Phoenix.Props.Avail.C95_large_enough' depends on axioms: [propext, Classical.choice, Quot.sound] -/
#guard_msgs (whitespace := lax) in #print axioms Phoenix.Props.Avail.C95_large_enough

/-- info: 'Phoenix.Props.Avail.C95_even_price' depends on axioms: [propext, Classical.choice, Quot.sound] -/
#guard_msgs (whitespace := lax) in #print axioms Phoenix.Props.Avail.C95_even_price

/-- info: 'Phoenix.Props.Avail.C95_swap_works' depends on axioms: [propext, Classical.choice, Quot.sound] -/
#guard_msgs (whitespace := lax) in #print axioms Phoenix.Props.Avail.C95_swap_works

/-- info: 'Phoenix.Props.Avail.C95_swap_available' depends on axioms: [propext, Classical.choice, Quot.sound] -/
#guard_msgs (whitespace := lax) in #print axioms Phoenix.Props.Avail.C95_swap_available

/-- info: 'Phoenix.Props.Avail.C95_unpayable_refused' depends on axioms: [propext, Classical.choice, Quot.sound] -/
#guard_msgs (whitespace := lax) in #print axioms Phoenix.Props.Avail.C95_unpayable_refused

/-- info: 'Phoenix.Props.Avail.C95_small_swap_refused' depends on axioms: [propext, Quot.sound] -/
#guard_msgs (whitespace := lax) in #print axioms Phoenix.Props.Avail.C95_small_swap_refused

/-- info: 'Phoenix.Props.World.C116_create_pool' depends on axioms: [propext, Classical.choice, Quot.sound] -/
#guard_msgs (whitespace := lax) in #print axioms Phoenix.Props.World.C116_create_pool

/-- info: 'Phoenix.Props.World.C116_factory_initialize' depends on axioms: [propext, Classical.choice, Quot.sound] -/
#guard_msgs (whitespace := lax) in #print axioms Phoenix.Props.World.C116_factory_initialize

/-- info: 'Phoenix.Props.World.C116_xyk_initialize' depends on axioms: [propext, Classical.choice, Quot.sound] -/
#guard_msgs (whitespace := lax) in #print axioms Phoenix.Props.World.C116_xyk_initialize

/-- info: 'Phoenix.Props.World.C116_stable_initialize' depends on axioms: [propext, Classical.choice, Quot.sound] -/
#guard_msgs (whitespace := lax) in #print axioms Phoenix.Props.World.C116_stable_initialize

/-- info: 'Phoenix.Props.World.C116_update_whitelist' depends on axioms: [propext, Quot.sound] -/
#guard_msgs (whitespace := lax) in #print axioms Phoenix.Props.World.C116_update_whitelist

/-- info: 'Phoenix.Props.World.C116_update_hashes' depends on axioms: [propext, Quot.sound] -/
#guard_msgs (whitespace := lax) in #print axioms Phoenix.Props.World.C116_update_hashes

/-- info: 'Phoenix.Props.World.C116_update' depends on axioms: [propext, Quot.sound] -/
#guard_msgs (whitespace := lax) in #print axioms Phoenix.Props.World.C116_update

/-- info: 'Phoenix.Props.World.C116_trader_initialize' depends on axioms: [propext, Quot.sound] -/
#guard_msgs (whitespace := lax) in #print axioms Phoenix.Props.World.C116_trader_initialize

/-- info: 'Phoenix.Props.World.C116_trader_transfer' depends on axioms: [propext, Classical.choice, Quot.sound] -/
#guard_msgs (whitespace := lax) in #print axioms Phoenix.Props.World.C116_trader_transfer

/-- info: 'Phoenix.Props.Avail.C96_deposit_iff' depends on axioms: [propext, Classical.choice, Quot.sound] -/
#guard_msgs (whitespace := lax) in #print axioms Phoenix.Props.Avail.C96_deposit_iff

/-- info: 'Phoenix.Props.Avail.C96_balanced_deposit_accepted' depends on axioms: [propext, Classical.choice, Quot.sound] -/
#guard_msgs (whitespace := lax) in #print axioms Phoenix.Props.Avail.C96_balanced_deposit_accepted

/-- info: 'Phoenix.Props.Avail.C96_first_deposit_iff' depends on axioms: [propext, Classical.choice, Quot.sound] -/
#guard_msgs (whitespace := lax) in #print axioms Phoenix.Props.Avail.C96_first_deposit_iff

/-- info: 'Phoenix.Props.C127_init_iff' depends on axioms: [propext, Quot.sound] -/
#guard_msgs (whitespace := lax) in #print axioms Phoenix.Props.C127_init_iff

/-- info: 'Phoenix.Props.C127_add_user_accepted' depends on axioms: [propext, Classical.choice, Quot.sound] -/
#guard_msgs (whitespace := lax) in #print axioms Phoenix.Props.C127_add_user_accepted

/-- info: 'Phoenix.Props.C127_bond_accepted' depends on axioms: [propext, Classical.choice, Quot.sound] -/
#guard_msgs (whitespace := lax) in #print axioms Phoenix.Props.C127_bond_accepted

/-- info: 'Phoenix.Props.C127_query_answers' depends on axioms: [propext, Classical.choice, Quot.sound] -/
#guard_msgs (whitespace := lax) in #print axioms Phoenix.Props.C127_query_answers

/-- info: 'Phoenix.Props.C127_withdraw_accepted' depends on axioms: [propext, Classical.choice, Quot.sound] -/
#guard_msgs (whitespace := lax) in #print axioms Phoenix.Props.C127_withdraw_accepted

/-- info: 'Phoenix.Props.C127_unbond_accepted' depends on axioms: [propext, Classical.choice, Quot.sound] -/
#guard_msgs (whitespace := lax) in #print axioms Phoenix.Props.C127_unbond_accepted

/-- info: 'Phoenix.Props.C127_distribute_accepted' depends on axioms: [propext, Classical.choice, Quot.sound] -/
#guard_msgs (whitespace := lax) in #print axioms Phoenix.Props.C127_distribute_accepted

/-- info: 'Phoenix.Props.C127_fund_iff' depends on axioms: [propext, Classical.choice, Quot.sound] -/
#guard_msgs (whitespace := lax) in #print axioms Phoenix.Props.C127_fund_iff

/-- info: 'Phoenix.Props.C127_schedule_stays_simple' depends on axioms: [propext, Classical.choice, Quot.sound] -/
#guard_msgs (whitespace := lax) in #print axioms Phoenix.Props.C127_schedule_stays_simple

/-- info: 'Phoenix.Props.C127_large_stake_blocked' depends on axioms: [propext] -/
#guard_msgs (whitespace := lax) in #print axioms Phoenix.Props.C127_large_stake_blocked

/-- info: 'Phoenix.Props.Stable.C108_quoted' depends on axioms: [propext, Classical.choice, Quot.sound] -/
#guard_msgs (whitespace := lax) in #print axioms Phoenix.Props.Stable.C108_quoted

/-- info: 'Phoenix.Props.Stable.C108_swap_works' depends on axioms: [propext, Classical.choice, Quot.sound] -/
#guard_msgs (whitespace := lax) in #print axioms Phoenix.Props.Stable.C108_swap_works

/-- info: 'Phoenix.Props.Stable.C108_swap_available' depends on axioms: [propext, Classical.choice, Quot.sound] -/
#guard_msgs (whitespace := lax) in #print axioms Phoenix.Props.Stable.C108_swap_available

/-- info: 'Phoenix.Props.Stable.C108_large_pool_refuses' depends on axioms: [propext, Classical.choice, Quot.sound] -/
#guard_msgs (whitespace := lax) in #print axioms Phoenix.Props.Stable.C108_large_pool_refuses

/-- info: 'Phoenix.Props.Stable.C108_curve_of_loss' depends on axioms: [propext, Classical.choice, Quot.sound] -/
#guard_msgs (whitespace := lax) in #print axioms Phoenix.Props.Stable.C108_curve_of_loss

/-- info: 'Phoenix.Props.Stable.C108_deposit_works' depends on axioms: [propext, Classical.choice, Quot.sound] -/
#guard_msgs (whitespace := lax) in #print axioms Phoenix.Props.Stable.C108_deposit_works

/-- info: 'Phoenix.Props.Stable.C108_accepted_but_unswappable' depends on axioms: [propext, Classical.choice, Quot.sound] -/
#guard_msgs (whitespace := lax) in #print axioms Phoenix.Props.Stable.C108_accepted_but_unswappable

/-- info: 'Phoenix.Props.World.C113_initialize' depends on axioms: [propext, Quot.sound] -/
#guard_msgs (whitespace := lax) in #print axioms Phoenix.Props.World.C113_initialize

/-- info: 'Phoenix.Props.World.C113_bond' depends on axioms: [propext, Classical.choice, Quot.sound] -/
#guard_msgs (whitespace := lax) in #print axioms Phoenix.Props.World.C113_bond

/-- info: 'Phoenix.Props.World.C113_unbond' depends on axioms: [propext, Classical.choice, Quot.sound] -/
#guard_msgs (whitespace := lax) in #print axioms Phoenix.Props.World.C113_unbond

/-- info: 'Phoenix.Props.World.C113_unbond_always' depends on axioms: [propext, Classical.choice, Quot.sound] -/
#guard_msgs (whitespace := lax) in #print axioms Phoenix.Props.World.C113_unbond_always

/-- info: 'Phoenix.Props.World.C113_create_flow' depends on axioms: [propext, Classical.choice, Quot.sound] -/
#guard_msgs (whitespace := lax) in #print axioms Phoenix.Props.World.C113_create_flow

/-- info: 'Phoenix.Props.World.C113_distribute' depends on axioms: [propext, Classical.choice, Quot.sound] -/
#guard_msgs (whitespace := lax) in #print axioms Phoenix.Props.World.C113_distribute

/-- info: 'Phoenix.Props.World.C113_withdraw' depends on axioms: [propext, Classical.choice, Quot.sound] -/
#guard_msgs (whitespace := lax) in #print axioms Phoenix.Props.World.C113_withdraw

/-- info: 'Phoenix.Props.C119_accepts_iff' depends on axioms: [propext, Classical.choice, Quot.sound] -/
#guard_msgs (whitespace := lax) in #print axioms Phoenix.Props.C119_accepts_iff

/-- info: 'Phoenix.Props.C119_construct_iff' depends on axioms: [propext, Quot.sound] -/
#guard_msgs (whitespace := lax) in #print axioms Phoenix.Props.C119_construct_iff

/-- info: 'Phoenix.Props.C119_holder_can_always_pay' depends on axioms: [propext, Classical.choice, Quot.sound] -/
#guard_msgs (whitespace := lax) in #print axioms Phoenix.Props.C119_holder_can_always_pay

/-- info: 'Phoenix.Props.World.C114_initialize' depends on axioms: [propext, Quot.sound] -/
#guard_msgs (whitespace := lax) in #print axioms Phoenix.Props.World.C114_initialize

/-- info: 'Phoenix.Props.World.C114_create' depends on axioms: [propext, Classical.choice, Quot.sound] -/
#guard_msgs (whitespace := lax) in #print axioms Phoenix.Props.World.C114_create

/-- info: 'Phoenix.Props.World.C114_claim' depends on axioms: [propext, Classical.choice, Quot.sound] -/
#guard_msgs (whitespace := lax) in #print axioms Phoenix.Props.World.C114_claim

/-- info: 'Phoenix.Props.World.C114_burn' depends on axioms: [propext, Classical.choice, Quot.sound] -/
#guard_msgs (whitespace := lax) in #print axioms Phoenix.Props.World.C114_burn

/-- info: 'Phoenix.Props.World.C114_mint' depends on axioms: [propext, Classical.choice, Quot.sound] -/
#guard_msgs (whitespace := lax) in #print axioms Phoenix.Props.World.C114_mint

/-- info: 'Phoenix.Props.World.C114_update_minter' depends on axioms: [propext, Quot.sound] -/
#guard_msgs (whitespace := lax) in #print axioms Phoenix.Props.World.C114_update_minter

/-- info: 'Phoenix.Props.World.C114_update_capacity' depends on axioms: [propext, Quot.sound] -/
#guard_msgs (whitespace := lax) in #print axioms Phoenix.Props.World.C114_update_capacity

/-- info: 'Phoenix.Props.Covered.C164_covered' depends on axioms: [propext, Classical.choice, Quot.sound] -/
#guard_msgs (whitespace := lax) in #print axioms Phoenix.Props.Covered.C164_covered

/-- info: 'Phoenix.Props.Covered.C164_accepted' depends on axioms: [propext, Classical.choice, Quot.sound] -/
#guard_msgs (whitespace := lax) in #print axioms Phoenix.Props.Covered.C164_accepted

/-- info: 'Phoenix.Props.Covered.C164_soon' depends on axioms: [propext, Classical.choice, Quot.sound] -/
#guard_msgs (whitespace := lax) in #print axioms Phoenix.Props.Covered.C164_soon

/-- info: 'Phoenix.Props.C25_value_in_range' depends on axioms: [propext, Classical.choice, Quot.sound] -/
#guard_msgs (whitespace := lax) in #print axioms Phoenix.Props.C25_value_in_range

/-- info: 'Phoenix.Props.C25_range_attained' depends on axioms: [propext, Classical.choice, Quot.sound] -/
#guard_msgs (whitespace := lax) in #print axioms Phoenix.Props.C25_range_attained

/-- info: 'Phoenix.Props.C26_decreasing' depends on axioms: [propext, Classical.choice, Quot.sound] -/
#guard_msgs (whitespace := lax) in #print axioms Phoenix.Props.C26_decreasing

/-- info: 'Phoenix.Props.C26_increasing' depends on axioms: [propext, Classical.choice, Quot.sound] -/
#guard_msgs (whitespace := lax) in #print axioms Phoenix.Props.C26_increasing

/-- info: 'Phoenix.Props.C26_rejected_increases' depends on axioms: [propext, Classical.choice, Quot.sound] -/
#guard_msgs (whitespace := lax) in #print axioms Phoenix.Props.C26_rejected_increases

/-- info: 'Phoenix.Props.C26_rejected_decreases' depends on axioms: [propext, Classical.choice, Quot.sound] -/
#guard_msgs (whitespace := lax) in #print axioms Phoenix.Props.C26_rejected_decreases

/-- info: 'Phoenix.Props.C27_combine_constant' depends on axioms: [propext, Classical.choice, Quot.sound] -/
#guard_msgs (whitespace := lax) in #print axioms Phoenix.Props.C27_combine_constant

/-- info: 'Phoenix.Props.C28_breakpoints' depends on axioms: [propext, Classical.choice, Quot.sound] -/
#guard_msgs (whitespace := lax) in #print axioms Phoenix.Props.C28_breakpoints

/-- info: 'Phoenix.Props.C27_combine_at_breakpoints' depends on axioms: [propext, Classical.choice, Quot.sound] -/
#guard_msgs (whitespace := lax) in #print axioms Phoenix.Props.C27_combine_at_breakpoints

/-- info: 'Phoenix.Props.C27_combine_near' depends on axioms: [propext, Classical.choice, Quot.sound] -/
#guard_msgs (whitespace := lax) in #print axioms Phoenix.Props.C27_combine_near

/-- info: 'Phoenix.Props.C27_combine_valid' depends on axioms: [propext, Classical.choice, Quot.sound] -/
#guard_msgs (whitespace := lax) in #print axioms Phoenix.Props.C27_combine_valid

/-- info: 'Phoenix.Props.C27_combine_can_be_invalid' depends on axioms: [propext] -/
#guard_msgs (whitespace := lax) in #print axioms Phoenix.Props.C27_combine_can_be_invalid

/-- info: 'Phoenix.Props.C58_value_near_exact' depends on axioms: [propext, Classical.choice, Quot.sound] -/
#guard_msgs (whitespace := lax) in #print axioms Phoenix.Props.C58_value_near_exact

/-- info: 'Phoenix.Props.C58_value_at_breakpoints' depends on axioms: [propext, Classical.choice, Quot.sound] -/
#guard_msgs (whitespace := lax) in #print axioms Phoenix.Props.C58_value_at_breakpoints

/-- info: 'Phoenix.Props.C59_value_total' depends on axioms: [propext, Quot.sound] -/
#guard_msgs (whitespace := lax) in #print axioms Phoenix.Props.C59_value_total

/-- info: 'Phoenix.Props.C59_value_can_fail' depends on axioms: [propext] -/
#guard_msgs (whitespace := lax) in #print axioms Phoenix.Props.C59_value_can_fail

/-- info: 'Phoenix.Props.Cycle.C148_tour_at_spot' depends on axioms: [propext, Classical.choice, Quot.sound] -/
#guard_msgs (whitespace := lax) in #print axioms Phoenix.Props.Cycle.C148_tour_at_spot

/-- info: 'Phoenix.Props.Cycle.C148_no_gain_without_difference' depends on axioms: [propext, Classical.choice, Quot.sound] -/
#guard_msgs (whitespace := lax) in #print axioms Phoenix.Props.Cycle.C148_no_gain_without_difference

/-- info: 'Phoenix.Props.Cycle.C148_route_at_spot' depends on axioms: [propext, Classical.choice, Quot.sound] -/
#guard_msgs (whitespace := lax) in #print axioms Phoenix.Props.Cycle.C148_route_at_spot

/-- info: 'Phoenix.Props.Cycle.C148_difference_pays' depends on axioms: [propext, Classical.choice, Quot.sound] -/
#guard_msgs (whitespace := lax) in #print axioms Phoenix.Props.Cycle.C148_difference_pays

/-- info: 'Phoenix.Props.Dearer.C156_pool_unchanged' depends on axioms: [propext, Classical.choice, Quot.sound] -/
#guard_msgs (whitespace := lax) in #print axioms Phoenix.Props.Dearer.C156_pool_unchanged

/-- info: 'Phoenix.Props.Dearer.C156_nobody_else_gains' depends on axioms: [propext, Classical.choice, Quot.sound] -/
#guard_msgs (whitespace := lax) in #print axioms Phoenix.Props.Dearer.C156_nobody_else_gains

/-- info: 'Phoenix.Props.Dearer.C156_recipient_gains' depends on axioms: [propext, Classical.choice, Quot.sound] -/
#guard_msgs (whitespace := lax) in #print axioms Phoenix.Props.Dearer.C156_recipient_gains

/-- info: 'Phoenix.Props.Dearer.C156_others_unaffected' depends on axioms: [propext, Classical.choice, Quot.sound] -/
#guard_msgs (whitespace := lax) in #print axioms Phoenix.Props.Dearer.C156_others_unaffected

/-- info: 'Phoenix.Props.DearerStable.C156_stable_pool_unchanged' depends on axioms: [propext, Classical.choice, Quot.sound] -/
#guard_msgs (whitespace := lax) in #print axioms Phoenix.Props.DearerStable.C156_stable_pool_unchanged

/-- info: 'Phoenix.Props.DearerStable.C156_stable_nobody_else_gains' depends on axioms: [propext, Classical.choice, Quot.sound] -/
#guard_msgs (whitespace := lax) in #print axioms Phoenix.Props.DearerStable.C156_stable_nobody_else_gains

/-- info: 'Phoenix.Props.DearerStable.C156_stable_recipient_gains' depends on axioms: [propext, Classical.choice, Quot.sound] -/
#guard_msgs (whitespace := lax) in #print axioms Phoenix.Props.DearerStable.C156_stable_recipient_gains

/-- info: 'Phoenix.Props.DearerStable.C156_stable_others_unaffected' depends on axioms: [propext, Classical.choice, Quot.sound] -/
#guard_msgs (whitespace := lax) in #print axioms Phoenix.Props.DearerStable.C156_stable_others_unaffected

/-- info: 'Phoenix.Props.Decimal.C57_cut_error' depends on axioms: [propext, Classical.choice, Quot.sound] -/
#guard_msgs (whitespace := lax) in #print axioms Phoenix.Props.Decimal.C57_cut_error

/-- info: 'Phoenix.Props.Decimal.C57_add_sub' depends on axioms: [propext, Classical.choice, Quot.sound] -/
#guard_msgs (whitespace := lax) in #print axioms Phoenix.Props.Decimal.C57_add_sub

/-- info: 'Phoenix.Props.Decimal.C57_from_ratio' depends on axioms: [propext, Classical.choice, Quot.sound] -/
#guard_msgs (whitespace := lax) in #print axioms Phoenix.Props.Decimal.C57_from_ratio

/-- info: 'Phoenix.Props.Decimal.C57_div' depends on axioms: [propext, Classical.choice, Quot.sound] -/
#guard_msgs (whitespace := lax) in #print axioms Phoenix.Props.Decimal.C57_div

/-- info: 'Phoenix.Props.Decimal.C57_mul' depends on axioms: [propext, Classical.choice, Quot.sound] -/
#guard_msgs (whitespace := lax) in #print axioms Phoenix.Props.Decimal.C57_mul

/-- info: 'Phoenix.Props.Decimal.C57_mul_int' depends on axioms: [propext, Classical.choice, Quot.sound] -/
#guard_msgs (whitespace := lax) in #print axioms Phoenix.Props.Decimal.C57_mul_int

/-- info: 'Phoenix.Props.Decimal.C57_div_int' depends on axioms: [propext, Classical.choice, Quot.sound] -/
#guard_msgs (whitespace := lax) in #print axioms Phoenix.Props.Decimal.C57_div_int

/-- info: 'Phoenix.Props.Decimal.C57_inv' depends on axioms: [propext, Classical.choice, Quot.sound] -/
#guard_msgs (whitespace := lax) in #print axioms Phoenix.Props.Decimal.C57_inv

/-- info: 'Phoenix.Props.Decimal.C57_units' depends on axioms: [propext, Classical.choice, Quot.sound] -/
#guard_msgs (whitespace := lax) in #print axioms Phoenix.Props.Decimal.C57_units

/-- info: 'Phoenix.Props.Decimal.C57_to_precision' depends on axioms: [propext, Classical.choice, Quot.sound] -/
#guard_msgs (whitespace := lax) in #print axioms Phoenix.Props.Decimal.C57_to_precision

/-- info: 'Phoenix.Props.Decimal.C57_from_atomics' depends on axioms: [propext, Classical.choice, Quot.sound] -/
#guard_msgs (whitespace := lax) in #print axioms Phoenix.Props.Decimal.C57_from_atomics

/-- info: 'Phoenix.Props.Decimal.C57_abs' depends on axioms: [propext, Classical.choice, Quot.sound] -/
#guard_msgs (whitespace := lax) in #print axioms Phoenix.Props.Decimal.C57_abs

/-- info: 'Phoenix.Props.Decimal.C57_abs_diff' depends on axioms: [propext, Classical.choice, Quot.sound] -/
#guard_msgs (whitespace := lax) in #print axioms Phoenix.Props.Decimal.C57_abs_diff

/-- info: 'Phoenix.Props.Decimal.C57_abs_diff_wraps' does not depend on any axioms -/
#guard_msgs (whitespace := lax) in #print axioms Phoenix.Props.Decimal.C57_abs_diff_wraps

/-- info: 'Phoenix.Props.Decimal.C57_pow_le' depends on axioms: [propext, Classical.choice, Quot.sound] -/
#guard_msgs (whitespace := lax) in #print axioms Phoenix.Props.Decimal.C57_pow_le

/-- info: 'Phoenix.Props.Decimal.C57_pow_mono' depends on axioms: [propext, Classical.choice, Quot.sound] -/
#guard_msgs (whitespace := lax) in #print axioms Phoenix.Props.Decimal.C57_pow_mono

/-- info: 'Phoenix.Props.Decimal.C57_pow_error' depends on axioms: [propext, Classical.choice, Quot.sound] -/
#guard_msgs (whitespace := lax) in #print axioms Phoenix.Props.Decimal.C57_pow_error

/-- info: 'Phoenix.Props.Decimal.C57_pow_answers' depends on axioms: [propext, Classical.choice, Quot.sound] -/
#guard_msgs (whitespace := lax) in #print axioms Phoenix.Props.Decimal.C57_pow_answers

/-- info: 'Phoenix.Props.Decimal.C57_multiply_ratio_off' depends on axioms: [propext, Classical.choice, Quot.sound] -/
#guard_msgs (whitespace := lax) in #print axioms Phoenix.Props.Decimal.C57_multiply_ratio_off

/-- info: 'Phoenix.Props.Decimal256.C91_cut_error' depends on axioms: [propext, Classical.choice, Quot.sound] -/
#guard_msgs (whitespace := lax) in #print axioms Phoenix.Props.Decimal256.C91_cut_error

/-- info: 'Phoenix.Props.Decimal256.C91_add_sub' depends on axioms: [propext, Classical.choice, Quot.sound] -/
#guard_msgs (whitespace := lax) in #print axioms Phoenix.Props.Decimal256.C91_add_sub

/-- info: 'Phoenix.Props.Decimal256.C91_from_ratio' depends on axioms: [propext, Classical.choice, Quot.sound] -/
#guard_msgs (whitespace := lax) in #print axioms Phoenix.Props.Decimal256.C91_from_ratio

/-- info: 'Phoenix.Props.Decimal256.C91_div' depends on axioms: [propext, Classical.choice, Quot.sound] -/
#guard_msgs (whitespace := lax) in #print axioms Phoenix.Props.Decimal256.C91_div

/-- info: 'Phoenix.Props.Decimal256.C91_mul' depends on axioms: [propext, Classical.choice, Quot.sound] -/
#guard_msgs (whitespace := lax) in #print axioms Phoenix.Props.Decimal256.C91_mul

/-- info: 'Phoenix.Props.Decimal256.C91_div_int' depends on axioms: [propext, Classical.choice, Quot.sound] -/
#guard_msgs (whitespace := lax) in #print axioms Phoenix.Props.Decimal256.C91_div_int

/-- info: 'Phoenix.Props.Decimal256.C91_inv' depends on axioms: [propext, Classical.choice, Quot.sound] -/
#guard_msgs (whitespace := lax) in #print axioms Phoenix.Props.Decimal256.C91_inv

/-- info: 'Phoenix.Props.Decimal256.C91_units' depends on axioms: [propext, Classical.choice, Quot.sound] -/
#guard_msgs (whitespace := lax) in #print axioms Phoenix.Props.Decimal256.C91_units

/-- info: 'Phoenix.Props.Decimal256.C91_to_precision' depends on axioms: [propext, Classical.choice, Quot.sound] -/
#guard_msgs (whitespace := lax) in #print axioms Phoenix.Props.Decimal256.C91_to_precision

/-- info: 'Phoenix.Props.Decimal256.C91_from_atomics' depends on axioms: [propext, Classical.choice, Quot.sound] -/
#guard_msgs (whitespace := lax) in #print axioms Phoenix.Props.Decimal256.C91_from_atomics

/-- info: 'Phoenix.Props.Decimal256.C91_abs_diff' depends on axioms: [propext, Classical.choice, Quot.sound] -/
#guard_msgs (whitespace := lax) in #print axioms Phoenix.Props.Decimal256.C91_abs_diff

/-- info: 'Phoenix.Props.Decimal256.C91_multiply_ratio_off' depends on axioms: [propext, Classical.choice, Quot.sound] -/
#guard_msgs (whitespace := lax) in #print axioms Phoenix.Props.Decimal256.C91_multiply_ratio_off

/-- info: 'Phoenix.Props.Decimal256.C91_pow_le' depends on axioms: [propext, Classical.choice, Quot.sound] -/
#guard_msgs (whitespace := lax) in #print axioms Phoenix.Props.Decimal256.C91_pow_le

/-- info: 'Phoenix.Props.Decimal256.C91_pow_mono' depends on axioms: [propext, Quot.sound] -/
#guard_msgs (whitespace := lax) in #print axioms Phoenix.Props.Decimal256.C91_pow_mono

/-- info: 'Phoenix.Props.Decimal256.C91_pow_error' depends on axioms: [propext, Classical.choice, Quot.sound] -/
#guard_msgs (whitespace := lax) in #print axioms Phoenix.Props.Decimal256.C91_pow_error

/-- info: 'Phoenix.Props.Decimal256.C91_pow_answers' depends on axioms: [propext, Classical.choice, Quot.sound] -/
#guard_msgs (whitespace := lax) in #print axioms Phoenix.Props.Decimal256.C91_pow_answers

/-- info: 'Phoenix.Props.Decimal256.C91_extends_decimal' depends on axioms: [propext, Classical.choice, Quot.sound] -/
#guard_msgs (whitespace := lax) in #print axioms Phoenix.Props.Decimal256.C91_extends_decimal

/-- info: 'Phoenix.Props.C82_text_is_exact' depends on axioms: [propext, Classical.choice, Quot.sound] -/
#guard_msgs (whitespace := lax) in #print axioms Phoenix.Props.C82_text_is_exact

/-- info: 'Phoenix.Props.C82_round_trip' depends on axioms: [propext, Classical.choice, Quot.sound] -/
#guard_msgs (whitespace := lax) in #print axioms Phoenix.Props.C82_round_trip

/-- info: 'Phoenix.Props.C82_reads_value' depends on axioms: [propext, Classical.choice, Quot.sound] -/
#guard_msgs (whitespace := lax) in #print axioms Phoenix.Props.C82_reads_value

/-- info: 'Phoenix.Props.C82_text_injective' depends on axioms: [propext, Classical.choice, Quot.sound] -/
#guard_msgs (whitespace := lax) in #print axioms Phoenix.Props.C82_text_injective

/-- info: 'Phoenix.Props.C82_negative_fraction_lost' depends on axioms: [propext, Classical.choice, Quot.sound] -/
#guard_msgs (whitespace := lax) in #print axioms Phoenix.Props.C82_negative_fraction_lost

/-- info: 'Phoenix.Props.C82_negative_wrong' depends on axioms: [propext, Classical.choice, Quot.sound] -/
#guard_msgs (whitespace := lax) in #print axioms Phoenix.Props.C82_negative_wrong

/-- info: 'Phoenix.Props.C82_negative_text' depends on axioms: [propext, Classical.choice, Quot.sound] -/
#guard_msgs (whitespace := lax) in #print axioms Phoenix.Props.C82_negative_text

/-- info: 'Phoenix.Props.World.C139_no_future_dates' depends on axioms: [propext, Classical.choice, Quot.sound] -/
#guard_msgs (whitespace := lax) in #print axioms Phoenix.Props.World.C139_no_future_dates

/-- info: 'Phoenix.Props.World.C139_same_later' depends on axioms: [propext, Classical.choice, Quot.sound] -/
#guard_msgs (whitespace := lax) in #print axioms Phoenix.Props.World.C139_same_later

/-- info: 'Phoenix.Props.World.C139_expired_fails' depends on axioms: [propext, Quot.sound] -/
#guard_msgs (whitespace := lax) in #print axioms Phoenix.Props.World.C139_expired_fails

/-- info: 'Phoenix.Props.World.C139_quotes_keep' depends on axioms: [propext, Classical.choice, Quot.sound] -/
#guard_msgs (whitespace := lax) in #print axioms Phoenix.Props.World.C139_quotes_keep

/-- info: 'Phoenix.Props.World.C139_stake_same_payments' depends on axioms: [propext, Classical.choice, Quot.sound] -/
#guard_msgs (whitespace := lax) in #print axioms Phoenix.Props.World.C139_stake_same_payments

/-- info: 'Phoenix.Props.World.C139_vested_only_grows' depends on axioms: [propext, Classical.choice, Quot.sound] -/
#guard_msgs (whitespace := lax) in #print axioms Phoenix.Props.World.C139_vested_only_grows

/-- info: 'Phoenix.Props.World.C139_reward_only_grows' depends on axioms: [propext, Classical.choice, Quot.sound] -/
#guard_msgs (whitespace := lax) in #print axioms Phoenix.Props.World.C139_reward_only_grows

/-- info: 'Phoenix.Props.World.C139_funding' depends on axioms: [propext, Quot.sound] -/
#guard_msgs (whitespace := lax) in #print axioms Phoenix.Props.World.C139_funding

/-- info: 'Phoenix.Props.World.C115_origin' depends on axioms: [propext, Classical.choice, Quot.sound] -/
#guard_msgs (whitespace := lax) in #print axioms Phoenix.Props.World.C115_origin

/-- info: 'Phoenix.Props.World.C115_code_stays' depends on axioms: [propext, Classical.choice, Quot.sound] -/
#guard_msgs (whitespace := lax) in #print axioms Phoenix.Props.World.C115_code_stays

/-- info: 'Phoenix.Props.World.C115_no_new_kind' depends on axioms: [propext, Classical.choice, Quot.sound] -/
#guard_msgs (whitespace := lax) in #print axioms Phoenix.Props.World.C115_no_new_kind

/-- info: 'Phoenix.Props.Deposit.C135_deposit_worth' depends on axioms: [propext, Classical.choice, Quot.sound] -/
#guard_msgs (whitespace := lax) in #print axioms Phoenix.Props.Deposit.C135_deposit_worth

/-- info: 'Phoenix.Props.Deposit.C135_deposit_and_leave' depends on axioms: [propext, Classical.choice, Quot.sound] -/
#guard_msgs (whitespace := lax) in #print axioms Phoenix.Props.Deposit.C135_deposit_and_leave

/-- info: 'Phoenix.Props.Deposit.C135_donation_captured' depends on axioms: [propext] -/
#guard_msgs (whitespace := lax) in #print axioms Phoenix.Props.Deposit.C135_donation_captured

/-- info: 'Phoenix.Props.Deposit.C135_small_deposit_earns_nothing' depends on axioms: [propext] -/
#guard_msgs (whitespace := lax) in #print axioms Phoenix.Props.Deposit.C135_small_deposit_earns_nothing

/-- info: 'Phoenix.Props.DepositParts.C150_parts_gain_nothing' depends on axioms: [propext, Classical.choice, Quot.sound] -/
#guard_msgs (whitespace := lax) in #print axioms Phoenix.Props.DepositParts.C150_parts_gain_nothing

/-- info: 'Phoenix.Props.DepositParts.C150_parts_cost_rounding' depends on axioms: [propext, Classical.choice, Quot.sound] -/
#guard_msgs (whitespace := lax) in #print axioms Phoenix.Props.DepositParts.C150_parts_cost_rounding

/-- info: 'Phoenix.Props.Depth.C149_deeper_pays_more' depends on axioms: [propext, Classical.choice, Quot.sound] -/
#guard_msgs (whitespace := lax) in #print axioms Phoenix.Props.Depth.C149_deeper_pays_more

/-- info: 'Phoenix.Props.Depth.C149_deposit_never_hurts' depends on axioms: [propext, Classical.choice, Quot.sound] -/
#guard_msgs (whitespace := lax) in #print axioms Phoenix.Props.Depth.C149_deposit_never_hurts

/-- info: 'Phoenix.Props.Depth.C149_sent_tokens_move_the_price' depends on axioms: [propext] -/
#guard_msgs (whitespace := lax) in #print axioms Phoenix.Props.Depth.C149_sent_tokens_move_the_price

/-- info: 'Phoenix.Props.Events.C97_log_determines_balances' depends on axioms: [propext, Quot.sound] -/
#guard_msgs (whitespace := lax) in #print axioms Phoenix.Props.Events.C97_log_determines_balances

/-- info: 'Phoenix.Props.Events.C97_log_does_not_determine_allowances' does not depend on any axioms -/
#guard_msgs (whitespace := lax) in #print axioms Phoenix.Props.Events.C97_log_does_not_determine_allowances

/-- info: 'Phoenix.Props.Events.C98_swap_events' depends on axioms: [propext, Classical.choice, Quot.sound] -/
#guard_msgs (whitespace := lax) in #print axioms Phoenix.Props.Events.C98_swap_events

/-- info: 'Phoenix.Props.Events.C98_deposit_events' depends on axioms: [propext, Classical.choice, Quot.sound] -/
#guard_msgs (whitespace := lax) in #print axioms Phoenix.Props.Events.C98_deposit_events

/-- info: 'Phoenix.Props.Events.C98_withdraw_events' depends on axioms: [propext, Classical.choice, Quot.sound] -/
#guard_msgs (whitespace := lax) in #print axioms Phoenix.Props.Events.C98_withdraw_events

/-- info: 'Phoenix.Props.Events.C98_log_does_not_determine_pool' depends on axioms: [propext] -/
#guard_msgs (whitespace := lax) in #print axioms Phoenix.Props.Events.C98_log_does_not_determine_pool

/-- info: 'Phoenix.Props.EventsLog.C99_log_determines_stakes' depends on axioms: [propext, Classical.choice, Quot.sound] -/
#guard_msgs (whitespace := lax) in #print axioms Phoenix.Props.EventsLog.C99_log_determines_stakes

/-- info: 'Phoenix.Props.EventsLog.C99_log_does_not_determine_rewards' depends on axioms: [propext, Quot.sound] -/
#guard_msgs (whitespace := lax) in #print axioms Phoenix.Props.EventsLog.C99_log_does_not_determine_rewards

/-- info: 'Phoenix.Props.EventsLog.C100_claim_event' depends on axioms: [propext, Classical.choice, Quot.sound] -/
#guard_msgs (whitespace := lax) in #print axioms Phoenix.Props.EventsLog.C100_claim_event

/-- info: 'Phoenix.Props.EventsLog.C100_log_does_not_name_claimer' depends on axioms: [propext, Quot.sound] -/
#guard_msgs (whitespace := lax) in #print axioms Phoenix.Props.EventsLog.C100_log_does_not_name_claimer

/-- info: 'Phoenix.Props.EventsLog.C100_mint_event' depends on axioms: [propext, Classical.choice, Quot.sound] -/
#guard_msgs (whitespace := lax) in #print axioms Phoenix.Props.EventsLog.C100_mint_event

/-- info: 'Phoenix.Props.EventsLog.C100_burn_event' depends on axioms: [propext, Quot.sound] -/
#guard_msgs (whitespace := lax) in #print axioms Phoenix.Props.EventsLog.C100_burn_event

/-- info: 'Phoenix.Props.EventsLog.C100_log_determines_minter' depends on axioms: [propext, Classical.choice, Quot.sound] -/
#guard_msgs (whitespace := lax) in #print axioms Phoenix.Props.EventsLog.C100_log_determines_minter

/-- info: 'Phoenix.Props.EventsLog.C101_announced_pools' depends on axioms: [propext, Classical.choice, Quot.sound] -/
#guard_msgs (whitespace := lax) in #print axioms Phoenix.Props.EventsLog.C101_announced_pools

/-- info: 'Phoenix.Props.EventsLog.C133_story' depends on axioms: [propext, Classical.choice, Quot.sound] -/
#guard_msgs (whitespace := lax) in #print axioms Phoenix.Props.EventsLog.C133_story

/-- info: 'Phoenix.Props.EventsLog.C133_traders_tell_no_trade' depends on axioms: [propext, Classical.choice, Quot.sound] -/
#guard_msgs (whitespace := lax) in #print axioms Phoenix.Props.EventsLog.C133_traders_tell_no_trade

/-- info: 'Phoenix.Props.EventsRewards.C125_same' depends on axioms: [propext, Quot.sound] -/
#guard_msgs (whitespace := lax) in #print axioms Phoenix.Props.EventsRewards.C125_same

/-- info: 'Phoenix.Props.EventsRewards.C125_distributed' depends on axioms: [propext, Classical.choice, Quot.sound] -/
#guard_msgs (whitespace := lax) in #print axioms Phoenix.Props.EventsRewards.C125_distributed

/-- info: 'Phoenix.Props.EventsRewards.C125_undistributed' depends on axioms: [propext, Classical.choice, Quot.sound] -/
#guard_msgs (whitespace := lax) in #print axioms Phoenix.Props.EventsRewards.C125_undistributed

/-- info: 'Phoenix.Props.EventsRewards.C125_paid_to' depends on axioms: [propext, Classical.choice, Quot.sound] -/
#guard_msgs (whitespace := lax) in #print axioms Phoenix.Props.EventsRewards.C125_paid_to

/-- info: 'Phoenix.Props.EventsRewards.C125_balance' depends on axioms: [propext, Classical.choice, Quot.sound] -/
#guard_msgs (whitespace := lax) in #print axioms Phoenix.Props.EventsRewards.C125_balance

/-- info: 'Phoenix.Props.EventsRewards.C125_funding_told' depends on axioms: [propext, Classical.choice, Quot.sound] -/
#guard_msgs (whitespace := lax) in #print axioms Phoenix.Props.EventsRewards.C125_funding_told

/-- info: 'Phoenix.Props.EventsStable.C98_stable_swap_events' depends on axioms: [propext, Classical.choice, Quot.sound] -/
#guard_msgs (whitespace := lax) in #print axioms Phoenix.Props.EventsStable.C98_stable_swap_events

/-- info: 'Phoenix.Props.EventsStable.C98_stable_deposit_events' depends on axioms: [propext, Classical.choice, Quot.sound] -/
#guard_msgs (whitespace := lax) in #print axioms Phoenix.Props.EventsStable.C98_stable_deposit_events

/-- info: 'Phoenix.Props.EventsStable.C98_stable_withdraw_events' depends on axioms: [propext, Classical.choice, Quot.sound] -/
#guard_msgs (whitespace := lax) in #print axioms Phoenix.Props.EventsStable.C98_stable_withdraw_events

/-- info: 'Phoenix.Props.World.C130_withdraw_xyk' depends on axioms: [propext, Classical.choice, Quot.sound] -/
#guard_msgs (whitespace := lax) in #print axioms Phoenix.Props.World.C130_withdraw_xyk

/-- info: 'Phoenix.Props.World.C130_exit_xyk' depends on axioms: [propext, Classical.choice, Quot.sound] -/
#guard_msgs (whitespace := lax) in #print axioms Phoenix.Props.World.C130_exit_xyk

/-- info: 'Phoenix.Props.World.C130_withdraw_stable' depends on axioms: [propext, Classical.choice, Quot.sound] -/
#guard_msgs (whitespace := lax) in #print axioms Phoenix.Props.World.C130_withdraw_stable

/-- info: 'Phoenix.Props.World.C130_exit_stable' depends on axioms: [propext, Classical.choice, Quot.sound] -/
#guard_msgs (whitespace := lax) in #print axioms Phoenix.Props.World.C130_exit_stable

/-- info: 'Phoenix.Props.Fees.C154_fees' depends on axioms: [propext, Classical.choice, Quot.sound] -/
#guard_msgs (whitespace := lax) in #print axioms Phoenix.Props.Fees.C154_fees

/-- info: 'Phoenix.Props.Fees.C154_fees_exact' depends on axioms: [propext, Classical.choice, Quot.sound] -/
#guard_msgs (whitespace := lax) in #print axioms Phoenix.Props.Fees.C154_fees_exact

/-- info: 'Phoenix.Props.Fees.C154_only_swaps' depends on axioms: [propext, Classical.choice, Quot.sound] -/
#guard_msgs (whitespace := lax) in #print axioms Phoenix.Props.Fees.C154_only_swaps

/-- info: 'Phoenix.Props.Fees.C154_recipient_collects' depends on axioms: [propext, Classical.choice, Quot.sound] -/
#guard_msgs (whitespace := lax) in #print axioms Phoenix.Props.Fees.C154_recipient_collects

/-- info: 'Phoenix.Props.Fees.C154_dust_is_free' depends on axioms: [propext, Classical.choice, Quot.sound] -/
#guard_msgs (whitespace := lax) in #print axioms Phoenix.Props.Fees.C154_dust_is_free

/-- info: 'Phoenix.Props.Fees.C154_dust_avoids_the_fee' depends on axioms: [propext] -/
#guard_msgs (whitespace := lax) in #print axioms Phoenix.Props.Fees.C154_dust_avoids_the_fee

/-- info: 'Phoenix.Props.Fees.C154_stable_fees' depends on axioms: [propext, Classical.choice, Quot.sound] -/
#guard_msgs (whitespace := lax) in #print axioms Phoenix.Props.Fees.C154_stable_fees

/-- info: 'Phoenix.Props.C102_reserves_backed_any_token' depends on axioms: [propext, Classical.choice, Quot.sound] -/
#guard_msgs (whitespace := lax) in #print axioms Phoenix.Props.C102_reserves_backed_any_token

/-- info: 'Phoenix.Props.C103_paid_for_the_offer' depends on axioms: [propext, Classical.choice, Quot.sound] -/
#guard_msgs (whitespace := lax) in #print axioms Phoenix.Props.C103_paid_for_the_offer

/-- info: 'Phoenix.Props.C103_providers_pay_the_tax' depends on axioms: [propext] -/
#guard_msgs (whitespace := lax) in #print axioms Phoenix.Props.C103_providers_pay_the_tax

/-- info: 'Phoenix.Props.C104_vesting_backed_any_token' depends on axioms: [propext, Classical.choice, Quot.sound] -/
#guard_msgs (whitespace := lax) in #print axioms Phoenix.Props.C104_vesting_backed_any_token

/-- info: 'Phoenix.Props.C104_taxed_token_underfunds' depends on axioms: [propext, Quot.sound] -/
#guard_msgs (whitespace := lax) in #print axioms Phoenix.Props.C104_taxed_token_underfunds

/-- info: 'Phoenix.Props.C105_stakes_backed_any_token' depends on axioms: [propext, Classical.choice, Quot.sound] -/
#guard_msgs (whitespace := lax) in #print axioms Phoenix.Props.C105_stakes_backed_any_token

/-- info: 'Phoenix.Props.C105_taxed_reward_unpayable' depends on axioms: [propext, Quot.sound] -/
#guard_msgs (whitespace := lax) in #print axioms Phoenix.Props.C105_taxed_reward_unpayable

/-- info: 'Phoenix.Props.C105_taxed_stake_underfunds' depends on axioms: [propext, Quot.sound] -/
#guard_msgs (whitespace := lax) in #print axioms Phoenix.Props.C105_taxed_stake_underfunds

/-- info: 'Phoenix.Props.Stable.C102_reserves_backed_any_token' depends on axioms: [propext, Quot.sound] -/
#guard_msgs (whitespace := lax) in #print axioms Phoenix.Props.Stable.C102_reserves_backed_any_token

/-- info: 'Phoenix.Props.Stable.C103_paid_for_the_offer' depends on axioms: [propext, Quot.sound] -/
#guard_msgs (whitespace := lax) in #print axioms Phoenix.Props.Stable.C103_paid_for_the_offer

/-- info: 'Phoenix.Props.FundingDates.C162_limit' depends on axioms: [propext, Classical.choice, Quot.sound] -/
#guard_msgs (whitespace := lax) in #print axioms Phoenix.Props.FundingDates.C162_limit

/-- info: 'Phoenix.Props.FundingDates.C162_only_then' depends on axioms: [propext, Classical.choice, Quot.sound] -/
#guard_msgs (whitespace := lax) in #print axioms Phoenix.Props.FundingDates.C162_only_then

/-- info: 'Phoenix.Props.FundingDates.C162_used_up' depends on axioms: [propext, Classical.choice, Quot.sound] -/
#guard_msgs (whitespace := lax) in #print axioms Phoenix.Props.FundingDates.C162_used_up

/-- info: 'Phoenix.Props.FundingDates.C162_limit_too_small' depends on axioms: [propext, Classical.choice, Quot.sound] -/
#guard_msgs (whitespace := lax) in #print axioms Phoenix.Props.FundingDates.C162_limit_too_small

/-- info: 'Phoenix.Props.FundingDates.C162_past_dates_count' depends on axioms: [propext, Classical.choice, Quot.sound] -/
#guard_msgs (whitespace := lax) in #print axioms Phoenix.Props.FundingDates.C162_past_dates_count

/-- info: 'Phoenix.Props.Habits.C158_waiting_costs_nothing' depends on axioms: [propext, Classical.choice, Quot.sound] -/
#guard_msgs (whitespace := lax) in #print axioms Phoenix.Props.Habits.C158_waiting_costs_nothing

/-- info: 'Phoenix.Props.Habits.C158_attempt_settles' depends on axioms: [propext, Classical.choice, Quot.sound] -/
#guard_msgs (whitespace := lax) in #print axioms Phoenix.Props.Habits.C158_attempt_settles

/-- info: 'Phoenix.Props.Habits.C158_same_in_the_end' depends on axioms: [propext, Classical.choice, Quot.sound] -/
#guard_msgs (whitespace := lax) in #print axioms Phoenix.Props.Habits.C158_same_in_the_end

/-- info: 'Phoenix.Props.Habits.C158_sooner_never_pays_less' depends on axioms: [propext, Classical.choice, Quot.sound] -/
#guard_msgs (whitespace := lax) in #print axioms Phoenix.Props.Habits.C158_sooner_never_pays_less

/-- info: 'Phoenix.Props.Habits.C158_earlier_dates_sooner' depends on axioms: [propext, Classical.choice, Quot.sound] -/
#guard_msgs (whitespace := lax) in #print axioms Phoenix.Props.Habits.C158_earlier_dates_sooner

/-- info: 'Phoenix.Props.HowOften.C171_how_often_does_not_matter' depends on axioms: [propext, Classical.choice, Quot.sound] -/
#guard_msgs (whitespace := lax) in #print axioms Phoenix.Props.HowOften.C171_how_often_does_not_matter

/-- info: 'Phoenix.Props.HowOften.C171_any_number' depends on axioms: [propext, Classical.choice, Quot.sound] -/
#guard_msgs (whitespace := lax) in #print axioms Phoenix.Props.HowOften.C171_any_number

/-- info: 'Phoenix.Props.JustInTime.C170_earns_without_staying' depends on axioms: [propext, Classical.choice, Quot.sound] -/
#guard_msgs (whitespace := lax) in #print axioms Phoenix.Props.JustInTime.C170_earns_without_staying

/-- info: 'Phoenix.Props.Later.C151_same_history_later' depends on axioms: [propext, Classical.choice, Quot.sound] -/
#guard_msgs (whitespace := lax) in #print axioms Phoenix.Props.Later.C151_same_history_later

/-- info: 'Phoenix.Props.Later.C151_same_outcome' depends on axioms: [propext, Classical.choice, Quot.sound] -/
#guard_msgs (whitespace := lax) in #print axioms Phoenix.Props.Later.C151_same_outcome

/-- info: 'Phoenix.Props.Later.C151_same_balances' depends on axioms: [propext, Classical.choice, Quot.sound] -/
#guard_msgs (whitespace := lax) in #print axioms Phoenix.Props.Later.C151_same_balances

/-- info: 'Phoenix.Props.Later.C151_same_claims' depends on axioms: [propext, Classical.choice, Quot.sound] -/
#guard_msgs (whitespace := lax) in #print axioms Phoenix.Props.Later.C151_same_claims

/-- info: 'Phoenix.Props.Later.C151_same_quotes' depends on axioms: [propext, Classical.choice, Quot.sound] -/
#guard_msgs (whitespace := lax) in #print axioms Phoenix.Props.Later.C151_same_quotes

/-- info: 'Phoenix.Props.Later.C151_time_zero_is_special' depends on axioms: [propext] -/
#guard_msgs (whitespace := lax) in #print axioms Phoenix.Props.Later.C151_time_zero_is_special

/-- info: 'Phoenix.Props.Leaver.C167_shows_nothing' depends on axioms: [propext, Classical.choice, Quot.sound] -/
#guard_msgs (whitespace := lax) in #print axioms Phoenix.Props.Leaver.C167_shows_nothing

/-- info: 'Phoenix.Props.Leaver.C167_pays_nothing' depends on axioms: [propext, Classical.choice, Quot.sound] -/
#guard_msgs (whitespace := lax) in #print axioms Phoenix.Props.Leaver.C167_pays_nothing

/-- info: 'Phoenix.Props.Leaver.C167_rest_is_kept' depends on axioms: [propext, Classical.choice, Quot.sound] -/
#guard_msgs (whitespace := lax) in #print axioms Phoenix.Props.Leaver.C167_rest_is_kept

/-- info: 'Phoenix.Props.Leaver.C167_rest_comes_back' depends on axioms: [propext, Classical.choice, Quot.sound] -/
#guard_msgs (whitespace := lax) in #print axioms Phoenix.Props.Leaver.C167_rest_comes_back

/-- info: 'Phoenix.Props.Life.C126_factory_history' depends on axioms: [propext, Classical.choice, Quot.sound] -/
#guard_msgs (whitespace := lax) in #print axioms Phoenix.Props.Life.C126_factory_history

/-- info: 'Phoenix.Props.Life.C126_factory_fails_iff' depends on axioms: [propext, Classical.choice, Quot.sound] -/
#guard_msgs (whitespace := lax) in #print axioms Phoenix.Props.Life.C126_factory_fails_iff

/-- info: 'Phoenix.Props.Life.C126_factory_restorable' depends on axioms: [propext, Classical.choice, Quot.sound] -/
#guard_msgs (whitespace := lax) in #print axioms Phoenix.Props.Life.C126_factory_restorable

/-- info: 'Phoenix.Props.Life.C126_factory_upkeep' depends on axioms: [propext, Classical.choice, Quot.sound] -/
#guard_msgs (whitespace := lax) in #print axioms Phoenix.Props.Life.C126_factory_upkeep

/-- info: 'Phoenix.Props.Life.C126_router_history' depends on axioms: [propext, Classical.choice, Quot.sound] -/
#guard_msgs (whitespace := lax) in #print axioms Phoenix.Props.Life.C126_router_history

/-- info: 'Phoenix.Props.Life.C126_router_fails_iff' depends on axioms: [propext, Classical.choice, Quot.sound] -/
#guard_msgs (whitespace := lax) in #print axioms Phoenix.Props.Life.C126_router_fails_iff

/-- info: 'Phoenix.Props.Life.C126_router_restorable' depends on axioms: [propext, Classical.choice, Quot.sound] -/
#guard_msgs (whitespace := lax) in #print axioms Phoenix.Props.Life.C126_router_restorable

/-- info: 'Phoenix.Props.Life.C126_router_upkeep' depends on axioms: [propext, Classical.choice, Quot.sound] -/
#guard_msgs (whitespace := lax) in #print axioms Phoenix.Props.Life.C126_router_upkeep

/-- info: 'Phoenix.Props.Life.C126_router_begins' depends on axioms: [Quot.sound] -/
#guard_msgs (whitespace := lax) in #print axioms Phoenix.Props.Life.C126_router_begins

/-- info: 'Phoenix.Props.Life.C126_trader_history' depends on axioms: [propext, Classical.choice, Quot.sound] -/
#guard_msgs (whitespace := lax) in #print axioms Phoenix.Props.Life.C126_trader_history

/-- info: 'Phoenix.Props.Life.C126_trader_fails_iff' depends on axioms: [propext, Classical.choice, Quot.sound] -/
#guard_msgs (whitespace := lax) in #print axioms Phoenix.Props.Life.C126_trader_fails_iff

/-- info: 'Phoenix.Props.Life.C126_trader_restorable' depends on axioms: [propext, Classical.choice, Quot.sound] -/
#guard_msgs (whitespace := lax) in #print axioms Phoenix.Props.Life.C126_trader_restorable

/-- info: 'Phoenix.Props.Life.C126_trader_upkeep' depends on axioms: [propext, Classical.choice, Quot.sound] -/
#guard_msgs (whitespace := lax) in #print axioms Phoenix.Props.Life.C126_trader_upkeep

/-- info: 'Phoenix.Props.Life.C122_pool_history' depends on axioms: [propext, Classical.choice, Quot.sound] -/
#guard_msgs (whitespace := lax) in #print axioms Phoenix.Props.Life.C122_pool_history

/-- info: 'Phoenix.Props.Life.C122_pool_fails_iff' depends on axioms: [propext, Classical.choice, Quot.sound] -/
#guard_msgs (whitespace := lax) in #print axioms Phoenix.Props.Life.C122_pool_fails_iff

/-- info: 'Phoenix.Props.Life.C122_pool_restorable' depends on axioms: [propext, Classical.choice, Quot.sound] -/
#guard_msgs (whitespace := lax) in #print axioms Phoenix.Props.Life.C122_pool_restorable

/-- info: 'Phoenix.Props.Life.C122_pool_upkeep' depends on axioms: [propext, Classical.choice, Quot.sound] -/
#guard_msgs (whitespace := lax) in #print axioms Phoenix.Props.Life.C122_pool_upkeep

/-- info: 'Phoenix.Props.Life.C123_history' depends on axioms: [propext, Classical.choice, Quot.sound] -/
#guard_msgs (whitespace := lax) in #print axioms Phoenix.Props.Life.C123_history

/-- info: 'Phoenix.Props.Life.C123_fails_iff' depends on axioms: [propext, Classical.choice, Quot.sound] -/
#guard_msgs (whitespace := lax) in #print axioms Phoenix.Props.Life.C123_fails_iff

/-- info: 'Phoenix.Props.Life.C123_restorable' depends on axioms: [propext, Classical.choice, Quot.sound] -/
#guard_msgs (whitespace := lax) in #print axioms Phoenix.Props.Life.C123_restorable

/-- info: 'Phoenix.Props.Life.C123_upkeep' depends on axioms: [propext, Classical.choice, Quot.sound] -/
#guard_msgs (whitespace := lax) in #print axioms Phoenix.Props.Life.C123_upkeep

/-- info: 'Phoenix.Props.Life.C123_not_kept' depends on axioms: [propext, Classical.choice, Quot.sound] -/
#guard_msgs (whitespace := lax) in #print axioms Phoenix.Props.Life.C123_not_kept

/-- info: 'Phoenix.Props.Life.C122_stable_history' depends on axioms: [propext, Classical.choice, Quot.sound] -/
#guard_msgs (whitespace := lax) in #print axioms Phoenix.Props.Life.C122_stable_history

/-- info: 'Phoenix.Props.Life.C122_stable_fails_iff' depends on axioms: [propext, Classical.choice, Quot.sound] -/
#guard_msgs (whitespace := lax) in #print axioms Phoenix.Props.Life.C122_stable_fails_iff

/-- info: 'Phoenix.Props.Life.C122_stable_restorable' depends on axioms: [propext, Classical.choice, Quot.sound] -/
#guard_msgs (whitespace := lax) in #print axioms Phoenix.Props.Life.C122_stable_restorable

/-- info: 'Phoenix.Props.Life.C122_stable_upkeep' depends on axioms: [propext, Classical.choice, Quot.sound] -/
#guard_msgs (whitespace := lax) in #print axioms Phoenix.Props.Life.C122_stable_upkeep

/-- info: 'Phoenix.Props.Life.C122_stake_history' depends on axioms: [propext, Classical.choice, Quot.sound] -/
#guard_msgs (whitespace := lax) in #print axioms Phoenix.Props.Life.C122_stake_history

/-- info: 'Phoenix.Props.Life.C122_stake_fails_iff' depends on axioms: [propext, Classical.choice, Quot.sound] -/
#guard_msgs (whitespace := lax) in #print axioms Phoenix.Props.Life.C122_stake_fails_iff

/-- info: 'Phoenix.Props.Life.C122_stake_restorable' depends on axioms: [propext, Classical.choice, Quot.sound] -/
#guard_msgs (whitespace := lax) in #print axioms Phoenix.Props.Life.C122_stake_restorable

/-- info: 'Phoenix.Props.Life.C122_stake_upkeep' depends on axioms: [propext, Classical.choice, Quot.sound] -/
#guard_msgs (whitespace := lax) in #print axioms Phoenix.Props.Life.C122_stake_upkeep

/-- info: 'Phoenix.Props.Life.C122_vesting_history' depends on axioms: [propext, Classical.choice, Quot.sound] -/
#guard_msgs (whitespace := lax) in #print axioms Phoenix.Props.Life.C122_vesting_history

/-- info: 'Phoenix.Props.Life.C122_vesting_fails_iff' depends on axioms: [propext, Classical.choice, Quot.sound] -/
#guard_msgs (whitespace := lax) in #print axioms Phoenix.Props.Life.C122_vesting_fails_iff

/-- info: 'Phoenix.Props.Life.C122_vesting_restorable' depends on axioms: [propext, Classical.choice, Quot.sound] -/
#guard_msgs (whitespace := lax) in #print axioms Phoenix.Props.Life.C122_vesting_restorable

/-- info: 'Phoenix.Props.Life.C122_vesting_upkeep' depends on axioms: [propext, Classical.choice, Quot.sound] -/
#guard_msgs (whitespace := lax) in #print axioms Phoenix.Props.Life.C122_vesting_upkeep

/-- info: 'Phoenix.Props.Lost.C169_unassigned_stays' depends on axioms: [propext, Classical.choice, Quot.sound] -/
#guard_msgs (whitespace := lax) in #print axioms Phoenix.Props.Lost.C169_unassigned_stays

/-- info: 'Phoenix.Props.Mirror.C138_neither_token_favoured' depends on axioms: [propext, Quot.sound] -/
#guard_msgs (whitespace := lax) in #print axioms Phoenix.Props.Mirror.C138_neither_token_favoured

/-- info: 'Phoenix.Props.Mirror.C138_neither_token_favoured_stable' depends on axioms: [propext, Quot.sound] -/
#guard_msgs (whitespace := lax) in #print axioms Phoenix.Props.Mirror.C138_neither_token_favoured_stable

/-- info: 'Phoenix.Props.Mirror.C138_same_quotes' depends on axioms: [propext] -/
#guard_msgs (whitespace := lax) in #print axioms Phoenix.Props.Mirror.C138_same_quotes

/-- info: 'Phoenix.Props.Mirror.C138_same_share' depends on axioms: [propext, Quot.sound] -/
#guard_msgs (whitespace := lax) in #print axioms Phoenix.Props.Mirror.C138_same_share

/-- info: 'Phoenix.Props.Mirror.C138_same_share_stable' depends on axioms: [propext, Quot.sound] -/
#guard_msgs (whitespace := lax) in #print axioms Phoenix.Props.Mirror.C138_same_share_stable

/-- info: 'Phoenix.Props.Mirror.C138_whole_histories' depends on axioms: [propext, Classical.choice, Quot.sound] -/
#guard_msgs (whitespace := lax) in #print axioms Phoenix.Props.Mirror.C138_whole_histories

/-- info: 'Phoenix.Props.Mirror.C138_whole_histories_stable' depends on axioms: [propext, Classical.choice, Quot.sound] -/
#guard_msgs (whitespace := lax) in #print axioms Phoenix.Props.Mirror.C138_whole_histories_stable

/-- info: 'Phoenix.Props.More.C155_others_never_gain' depends on axioms: [propext, Classical.choice, Quot.sound] -/
#guard_msgs (whitespace := lax) in #print axioms Phoenix.Props.More.C155_others_never_gain

/-- info: 'Phoenix.Props.More.C155_ripe_stake_pays' depends on axioms: [propext, Classical.choice, Quot.sound] -/
#guard_msgs (whitespace := lax) in #print axioms Phoenix.Props.More.C155_ripe_stake_pays

/-- info: 'Phoenix.Props.More.C155_others_get_no_more' depends on axioms: [propext, Classical.choice, Quot.sound] -/
#guard_msgs (whitespace := lax) in #print axioms Phoenix.Props.More.C155_others_get_no_more

/-- info: 'Phoenix.Props.More.C155_ripe_stake_is_paid' depends on axioms: [propext, Classical.choice, Quot.sound] -/
#guard_msgs (whitespace := lax) in #print axioms Phoenix.Props.More.C155_ripe_stake_is_paid

/-- info: 'Phoenix.Props.More.C155_more_can_earn_less' depends on axioms: [propext, Quot.sound] -/
#guard_msgs (whitespace := lax) in #print axioms Phoenix.Props.More.C155_more_can_earn_less

/-- info: 'Phoenix.Props.More.C155_rounding_costs' depends on axioms: [propext, Quot.sound] -/
#guard_msgs (whitespace := lax) in #print axioms Phoenix.Props.More.C155_rounding_costs

/-- info: 'Phoenix.Props.MoreIn.Xyk.C157_more_in_more_shares' depends on axioms: [propext, Classical.choice, Quot.sound] -/
#guard_msgs (whitespace := lax) in #print axioms Phoenix.Props.MoreIn.Xyk.C157_more_in_more_shares

/-- info: 'Phoenix.Props.MoreIn.Xyk.C157_surplus_stays' depends on axioms: [propext, Classical.choice, Quot.sound] -/
#guard_msgs (whitespace := lax) in #print axioms Phoenix.Props.MoreIn.Xyk.C157_surplus_stays

/-- info: 'Phoenix.Props.MoreIn.Xyk.C157_more_burnt_more_paid' depends on axioms: [propext, Classical.choice, Quot.sound] -/
#guard_msgs (whitespace := lax) in #print axioms Phoenix.Props.MoreIn.Xyk.C157_more_burnt_more_paid

/-- info: 'Phoenix.Props.MoreIn.StablePool.C157_stable_more_in_more_shares' depends on axioms: [propext, Classical.choice, Quot.sound] -/
#guard_msgs (whitespace := lax) in #print axioms Phoenix.Props.MoreIn.StablePool.C157_stable_more_in_more_shares

/-- info: 'Phoenix.Props.MoreIn.StablePool.C157_stable_more_burnt_more_paid' depends on axioms: [propext, Classical.choice, Quot.sound] -/
#guard_msgs (whitespace := lax) in #print axioms Phoenix.Props.MoreIn.StablePool.C157_stable_more_burnt_more_paid

/-- info: 'Phoenix.Props.Multihop.C45_route_is_chain' depends on axioms: [propext, Classical.choice, Quot.sound] -/
#guard_msgs (whitespace := lax) in #print axioms Phoenix.Props.Multihop.C45_route_is_chain

/-- info: 'Phoenix.Props.Multihop.C45_route_iff' depends on axioms: [propext, Quot.sound] -/
#guard_msgs (whitespace := lax) in #print axioms Phoenix.Props.Multihop.C45_route_iff

/-- info: 'Phoenix.Props.Multihop.C45_net_effect' depends on axioms: [propext, Classical.choice, Quot.sound] -/
#guard_msgs (whitespace := lax) in #print axioms Phoenix.Props.Multihop.C45_net_effect

/-- info: 'Phoenix.Props.Multihop.C46_simulation_exact' depends on axioms: [propext, Classical.choice, Quot.sound] -/
#guard_msgs (whitespace := lax) in #print axioms Phoenix.Props.Multihop.C46_simulation_exact

/-- info: 'Phoenix.Props.Multihop.C46_repeated_pool_differs' depends on axioms: [propext, Classical.choice, Quot.sound] -/
#guard_msgs (whitespace := lax) in #print axioms Phoenix.Props.Multihop.C46_repeated_pool_differs

/-- info: 'Phoenix.Props.Multihop.C47_failed_unchanged' depends on axioms: [propext, Quot.sound] -/
#guard_msgs (whitespace := lax) in #print axioms Phoenix.Props.Multihop.C47_failed_unchanged

/-- info: 'Phoenix.Props.Multihop.C47_failed_hop_undoes' depends on axioms: [propext, Quot.sound] -/
#guard_msgs (whitespace := lax) in #print axioms Phoenix.Props.Multihop.C47_failed_hop_undoes

/-- info: 'Phoenix.Props.Multihop.C47_refused' depends on axioms: [propext, Quot.sound] -/
#guard_msgs (whitespace := lax) in #print axioms Phoenix.Props.Multihop.C47_refused

/-- info: 'Phoenix.Props.Multihop.C80_xyk_reverse_chain' depends on axioms: [propext, Quot.sound] -/
#guard_msgs (whitespace := lax) in #print axioms Phoenix.Props.Multihop.C80_xyk_reverse_chain

/-- info: 'Phoenix.Props.Multihop.C80_stable_wrong_side' depends on axioms: [propext, Quot.sound] -/
#guard_msgs (whitespace := lax) in #print axioms Phoenix.Props.Multihop.C80_stable_wrong_side

/-- info: 'Phoenix.Props.Multihop.C80_reverse_quote_wrong' depends on axioms: [propext, Classical.choice, Quot.sound] -/
#guard_msgs (whitespace := lax) in #print axioms Phoenix.Props.Multihop.C80_reverse_quote_wrong

/-- info: 'Phoenix.Props.Names.C140_texts_change_nothing' depends on axioms: [propext, Quot.sound] -/
#guard_msgs (whitespace := lax) in #print axioms Phoenix.Props.Names.C140_texts_change_nothing

/-- info: 'Phoenix.Props.Names.C140_token_for_ever' depends on axioms: [propext, Classical.choice, Quot.sound] -/
#guard_msgs (whitespace := lax) in #print axioms Phoenix.Props.Names.C140_token_for_ever

/-- info: 'Phoenix.Props.Names.C140_trader_for_ever' depends on axioms: [propext, Quot.sound] -/
#guard_msgs (whitespace := lax) in #print axioms Phoenix.Props.Names.C140_trader_for_ever

/-- info: 'Phoenix.Props.Names.C140_as_told' depends on axioms: [propext, Quot.sound] -/
#guard_msgs (whitespace := lax) in #print axioms Phoenix.Props.Names.C140_as_told

/-- info: 'Phoenix.Props.Names.C140_trader_output' depends on axioms: [propext, Quot.sound] -/
#guard_msgs (whitespace := lax) in #print axioms Phoenix.Props.Names.C140_trader_output

/-- info: 'Phoenix.Props.Names.C140_trader_balances' depends on axioms: [propext, Quot.sound] -/
#guard_msgs (whitespace := lax) in #print axioms Phoenix.Props.Names.C140_trader_balances

/-- info: 'Phoenix.Props.Names.C140_vesting_for_ever' depends on axioms: [propext, Classical.choice, Quot.sound] -/
#guard_msgs (whitespace := lax) in #print axioms Phoenix.Props.Names.C140_vesting_for_ever

/-- info: 'Phoenix.Props.Names.C140_share_token_named' depends on axioms: [propext, Quot.sound] -/
#guard_msgs (whitespace := lax) in #print axioms Phoenix.Props.Names.C140_share_token_named

/-- info: 'Phoenix.Props.Names.C140_quote_labels' depends on axioms: [propext, Quot.sound] -/
#guard_msgs (whitespace := lax) in #print axioms Phoenix.Props.Names.C140_quote_labels

/-- info: 'Phoenix.Props.Names.C140_reverse_quote_labels' depends on axioms: [propext, Quot.sound] -/
#guard_msgs (whitespace := lax) in #print axioms Phoenix.Props.Names.C140_reverse_quote_labels

/-- info: 'Phoenix.Props.Names.C140_labels_of_a_route' depends on axioms: [propext, Classical.choice, Quot.sound] -/
#guard_msgs (whitespace := lax) in #print axioms Phoenix.Props.Names.C140_labels_of_a_route

/-- info: 'Phoenix.Props.Names.C140_vesting_unchecked' depends on axioms: [propext, Classical.choice, Quot.sound] -/
#guard_msgs (whitespace := lax) in #print axioms Phoenix.Props.Names.C140_vesting_unchecked

/-- info: 'Phoenix.Props.Names.C140_symbols_not_unique' depends on axioms: [propext, Classical.choice, Quot.sound] -/
#guard_msgs (whitespace := lax) in #print axioms Phoenix.Props.Names.C140_symbols_not_unique

/-- info: 'Phoenix.Props.Names.C140_label_is_not_the_token_paid' depends on axioms: [propext, Classical.choice, Quot.sound] -/
#guard_msgs (whitespace := lax) in #print axioms Phoenix.Props.Names.C140_label_is_not_the_token_paid

/-- info: 'Phoenix.Props.World.C136_trading_earns_nothing' depends on axioms: [propext, Classical.choice, Quot.sound] -/
#guard_msgs (whitespace := lax) in #print axioms Phoenix.Props.World.C136_trading_earns_nothing

/-- info: 'Phoenix.Props.World.C118_order_does_not_matter' depends on axioms: [propext, Classical.choice, Quot.sound] -/
#guard_msgs (whitespace := lax) in #print axioms Phoenix.Props.World.C118_order_does_not_matter

/-- info: 'Phoenix.Props.World.C118_same_outcome' depends on axioms: [propext, Classical.choice, Quot.sound] -/
#guard_msgs (whitespace := lax) in #print axioms Phoenix.Props.World.C118_same_outcome

/-- info: 'Phoenix.Props.OrderRewards.C173_order_does_not_matter' depends on axioms: [propext, Classical.choice, Quot.sound] -/
#guard_msgs (whitespace := lax) in #print axioms Phoenix.Props.OrderRewards.C173_order_does_not_matter

/-- info: 'Phoenix.Props.Parts.C143_withdrawals_in_parts' depends on axioms: [propext, Classical.choice, Quot.sound] -/
#guard_msgs (whitespace := lax) in #print axioms Phoenix.Props.Parts.C143_withdrawals_in_parts

/-- info: 'Phoenix.Props.Parts.C143_stable_withdrawals_in_parts' depends on axioms: [propext, Classical.choice, Quot.sound] -/
#guard_msgs (whitespace := lax) in #print axioms Phoenix.Props.Parts.C143_stable_withdrawals_in_parts

/-- info: 'Phoenix.Props.Parts.C143_stakes_in_parts' depends on axioms: [propext, Classical.choice, Quot.sound] -/
#guard_msgs (whitespace := lax) in #print axioms Phoenix.Props.Parts.C143_stakes_in_parts

/-- info: 'Phoenix.Props.PayTiming.C172_early_costs_nothing' depends on axioms: [propext, Classical.choice, Quot.sound] -/
#guard_msgs (whitespace := lax) in #print axioms Phoenix.Props.PayTiming.C172_early_costs_nothing

/-- info: 'Phoenix.Props.PoolDead.C92_slippage_accepts_iff' depends on axioms: [propext, Classical.choice, Quot.sound] -/
#guard_msgs (whitespace := lax) in #print axioms Phoenix.Props.PoolDead.C92_slippage_accepts_iff

/-- info: 'Phoenix.Props.PoolDead.C92_slippage_symmetric' depends on axioms: [propext, Classical.choice, Quot.sound] -/
#guard_msgs (whitespace := lax) in #print axioms Phoenix.Props.PoolDead.C92_slippage_symmetric

/-- info: 'Phoenix.Props.PoolDead.C92_default_tolerance' does not depend on any axioms -/
#guard_msgs (whitespace := lax) in #print axioms Phoenix.Props.PoolDead.C92_default_tolerance

/-- info: 'Phoenix.Props.PoolDead.C92_slippage_overflows' does not depend on any axioms -/
#guard_msgs (whitespace := lax) in #print axioms Phoenix.Props.PoolDead.C92_slippage_overflows

/-- info: 'Phoenix.Props.PoolDead.C92_split_result' depends on axioms: [propext, Classical.choice, Quot.sound] -/
#guard_msgs (whitespace := lax) in #print axioms Phoenix.Props.PoolDead.C92_split_result

/-- info: 'Phoenix.Props.PoolDead.C92_split_small' depends on axioms: [propext, Classical.choice, Quot.sound] -/
#guard_msgs (whitespace := lax) in #print axioms Phoenix.Props.PoolDead.C92_split_small

/-- info: 'Phoenix.Props.PoolDead.C92_split_tolerance_absolute' depends on axioms: [propext, Classical.choice, Quot.sound] -/
#guard_msgs (whitespace := lax) in #print axioms Phoenix.Props.PoolDead.C92_split_tolerance_absolute

/-- info: 'Phoenix.Props.C07_withdraw_pro_rata' depends on axioms: [propext, Classical.choice, Quot.sound] -/
#guard_msgs (whitespace := lax) in #print axioms Phoenix.Props.C07_withdraw_pro_rata

/-- info: 'Phoenix.Props.C08_mint_at_most_pro_rata' depends on axioms: [propext, Classical.choice, Quot.sound] -/
#guard_msgs (whitespace := lax) in #print axioms Phoenix.Props.C08_mint_at_most_pro_rata

/-- info: 'Phoenix.Props.C08_mint_is_maximal' depends on axioms: [propext, Classical.choice, Quot.sound] -/
#guard_msgs (whitespace := lax) in #print axioms Phoenix.Props.C08_mint_is_maximal

/-- info: 'Phoenix.Props.C08_first_deposit' depends on axioms: [propext, Classical.choice, Quot.sound] -/
#guard_msgs (whitespace := lax) in #print axioms Phoenix.Props.C08_first_deposit

/-- info: 'Phoenix.Props.C09_deposit_amounts' depends on axioms: [propext, Classical.choice, Quot.sound] -/
#guard_msgs (whitespace := lax) in #print axioms Phoenix.Props.C09_deposit_amounts

/-- info: 'Phoenix.Props.C09_deposit_follows_ratio' depends on axioms: [propext, Classical.choice, Quot.sound] -/
#guard_msgs (whitespace := lax) in #print axioms Phoenix.Props.C09_deposit_follows_ratio

/-- info: 'Phoenix.Props.C09_first_deposit_ignores_minimums' depends on axioms: [propext] -/
#guard_msgs (whitespace := lax) in #print axioms Phoenix.Props.C09_first_deposit_ignores_minimums

/-- info: 'Phoenix.Props.C14_deposit_withdraw_no_profit' depends on axioms: [propext, Classical.choice, Quot.sound] -/
#guard_msgs (whitespace := lax) in #print axioms Phoenix.Props.C14_deposit_withdraw_no_profit

/-- info: 'Phoenix.Props.C02_gross_is_rounded_up_cp' depends on axioms: [propext, Classical.choice, Quot.sound] -/
#guard_msgs (whitespace := lax) in #print axioms Phoenix.Props.C02_gross_is_rounded_up_cp

/-- info: 'Phoenix.Props.C02_never_beats_spot' depends on axioms: [propext, Classical.choice, Quot.sound] -/
#guard_msgs (whitespace := lax) in #print axioms Phoenix.Props.C02_never_beats_spot

/-- info: 'Phoenix.Props.C03_product_bounds' depends on axioms: [propext, Classical.choice, Quot.sound] -/
#guard_msgs (whitespace := lax) in #print axioms Phoenix.Props.C03_product_bounds

/-- info: 'Phoenix.Props.C03_product_can_shrink' does not depend on any axioms -/
#guard_msgs (whitespace := lax) in #print axioms Phoenix.Props.C03_product_can_shrink

/-- info: 'Phoenix.Props.C19_monotone' depends on axioms: [propext, Classical.choice, Quot.sound] -/
#guard_msgs (whitespace := lax) in #print axioms Phoenix.Props.C19_monotone

/-- info: 'Phoenix.Props.C19_average_price' depends on axioms: [propext, Classical.choice, Quot.sound] -/
#guard_msgs (whitespace := lax) in #print axioms Phoenix.Props.C19_average_price

/-- info: 'Phoenix.Props.C20_commission' depends on axioms: [propext, Classical.choice, Quot.sound] -/
#guard_msgs (whitespace := lax) in #print axioms Phoenix.Props.C20_commission

/-- info: 'Phoenix.Props.C18_half_remains' depends on axioms: [propext, Classical.choice, Quot.sound] -/
#guard_msgs (whitespace := lax) in #print axioms Phoenix.Props.C18_half_remains

/-- info: 'Phoenix.Props.C18_not_drained' depends on axioms: [propext, Classical.choice, Quot.sound] -/
#guard_msgs (whitespace := lax) in #print axioms Phoenix.Props.C18_not_drained

/-- info: 'Phoenix.Props.C06_reverse_quote' depends on axioms: [propext, Classical.choice, Quot.sound] -/
#guard_msgs (whitespace := lax) in #print axioms Phoenix.Props.C06_reverse_quote

/-- info: 'Phoenix.Props.C06_quote_is_one_short' does not depend on any axioms -/
#guard_msgs (whitespace := lax) in #print axioms Phoenix.Props.C06_quote_is_one_short

/-- info: 'Phoenix.Props.C06_impossible_ask_negative_quote' does not depend on any axioms -/
#guard_msgs (whitespace := lax) in #print axioms Phoenix.Props.C06_impossible_ask_negative_quote

/-- info: 'Phoenix.Props.C15_round_trip' depends on axioms: [propext, Classical.choice, Quot.sound] -/
#guard_msgs (whitespace := lax) in #print axioms Phoenix.Props.C15_round_trip

/-- info: 'Phoenix.Props.C15_round_trip_can_profit' does not depend on any axioms -/
#guard_msgs (whitespace := lax) in #print axioms Phoenix.Props.C15_round_trip_can_profit

/-- info: 'Phoenix.Props.C01_swap_exact' depends on axioms: [propext, Classical.choice, Quot.sound] -/
#guard_msgs (whitespace := lax) in #print axioms Phoenix.Props.C01_swap_exact

/-- info: 'Phoenix.Props.C05_simulation_exact' depends on axioms: [propext, Classical.choice, Quot.sound] -/
#guard_msgs (whitespace := lax) in #print axioms Phoenix.Props.C05_simulation_exact

/-- info: 'Phoenix.Props.C04_protections' depends on axioms: [propext, Classical.choice, Quot.sound] -/
#guard_msgs (whitespace := lax) in #print axioms Phoenix.Props.C04_protections

/-- info: 'Phoenix.Props.C03_swap_product' depends on axioms: [propext, Classical.choice, Quot.sound] -/
#guard_msgs (whitespace := lax) in #print axioms Phoenix.Props.C03_swap_product

/-- info: 'Phoenix.Props.C18_swap_leaves_half' depends on axioms: [propext, Classical.choice, Quot.sound] -/
#guard_msgs (whitespace := lax) in #print axioms Phoenix.Props.C18_swap_leaves_half

/-- info: 'Phoenix.Props.C15_swap_round_trip' depends on axioms: [propext, Classical.choice, Quot.sound] -/
#guard_msgs (whitespace := lax) in #print axioms Phoenix.Props.C15_swap_round_trip

/-- info: 'Phoenix.Props.C06_reverse_then_swap' depends on axioms: [propext, Classical.choice, Quot.sound] -/
#guard_msgs (whitespace := lax) in #print axioms Phoenix.Props.C06_reverse_then_swap

/-- info: 'Phoenix.Props.C06_quote_not_enough' does not depend on any axioms -/
#guard_msgs (whitespace := lax) in #print axioms Phoenix.Props.C06_quote_not_enough

/-- info: 'Phoenix.Props.C10_reserves_backed' depends on axioms: [propext, Classical.choice, Quot.sound] -/
#guard_msgs (whitespace := lax) in #print axioms Phoenix.Props.C10_reserves_backed

/-- info: 'Phoenix.Props.C11_supply_covers' depends on axioms: [propext, Classical.choice, Quot.sound] -/
#guard_msgs (whitespace := lax) in #print axioms Phoenix.Props.C11_supply_covers

/-- info: 'Phoenix.Props.C11_supply_exact' depends on axioms: [propext, Classical.choice, Quot.sound] -/
#guard_msgs (whitespace := lax) in #print axioms Phoenix.Props.C11_supply_exact

/-- info: 'Phoenix.Props.C12_minimum_liquidity' depends on axioms: [propext, Classical.choice, Quot.sound] -/
#guard_msgs (whitespace := lax) in #print axioms Phoenix.Props.C12_minimum_liquidity

/-- info: 'Phoenix.Props.C12_locked_for_ever' depends on axioms: [propext, Classical.choice, Quot.sound] -/
#guard_msgs (whitespace := lax) in #print axioms Phoenix.Props.C12_locked_for_ever

/-- info: 'Phoenix.Props.C13_backing_per_share' depends on axioms: [propext, Classical.choice, Quot.sound] -/
#guard_msgs (whitespace := lax) in #print axioms Phoenix.Props.C13_backing_per_share

/-- info: 'Phoenix.Props.C16_no_unauthorised_movement' depends on axioms: [propext, Classical.choice, Quot.sound] -/
#guard_msgs (whitespace := lax) in #print axioms Phoenix.Props.C16_no_unauthorised_movement

/-- info: 'Phoenix.Props.C17_init_once' depends on axioms: [propext] -/
#guard_msgs (whitespace := lax) in #print axioms Phoenix.Props.C17_init_once

/-- info: 'Phoenix.Props.C17_addresses_fixed' depends on axioms: [propext, Classical.choice, Quot.sound] -/
#guard_msgs (whitespace := lax) in #print axioms Phoenix.Props.C17_addresses_fixed

/-- info: 'Phoenix.Props.C17_config_in_range' depends on axioms: [propext, Classical.choice, Quot.sound] -/
#guard_msgs (whitespace := lax) in #print axioms Phoenix.Props.C17_config_in_range

/-- info: 'Phoenix.Props.C17_only_admin_changes' depends on axioms: [propext, Classical.choice, Quot.sound] -/
#guard_msgs (whitespace := lax) in #print axioms Phoenix.Props.C17_only_admin_changes

/-- info: 'Phoenix.Props.C17_fee_cap_not_kept' depends on axioms: [propext] -/
#guard_msgs (whitespace := lax) in #print axioms Phoenix.Props.C17_fee_cap_not_kept

/-- info: 'Phoenix.Props.Portfolio.C90_all_pools_details' depends on axioms: [propext, Classical.choice, Quot.sound] -/
#guard_msgs (whitespace := lax) in #print axioms Phoenix.Props.Portfolio.C90_all_pools_details

/-- info: 'Phoenix.Props.Portfolio.C90_pool_details' depends on axioms: [propext, Quot.sound] -/
#guard_msgs (whitespace := lax) in #print axioms Phoenix.Props.Portfolio.C90_pool_details

/-- info: 'Phoenix.Props.Portfolio.C90_portfolio_exact' depends on axioms: [propext, Quot.sound] -/
#guard_msgs (whitespace := lax) in #print axioms Phoenix.Props.Portfolio.C90_portfolio_exact

/-- info: 'Phoenix.Props.Portfolio.C90_portfolios_within_reserves' depends on axioms: [propext, Classical.choice, Quot.sound] -/
#guard_msgs (whitespace := lax) in #print axioms Phoenix.Props.Portfolio.C90_portfolios_within_reserves

/-- info: 'Phoenix.Props.Portfolio.C90_portfolio_answers' depends on axioms: [propext, Classical.choice, Quot.sound] -/
#guard_msgs (whitespace := lax) in #print axioms Phoenix.Props.Portfolio.C90_portfolio_answers

/-- info: 'Phoenix.Props.Portfolio.C90_large_holder_blocked' depends on axioms: [propext, Quot.sound] -/
#guard_msgs (whitespace := lax) in #print axioms Phoenix.Props.Portfolio.C90_large_holder_blocked

/-- info: 'Phoenix.Props.World.C128_value_in_protocol' depends on axioms: [propext, Classical.choice, Quot.sound] -/
#guard_msgs (whitespace := lax) in #print axioms Phoenix.Props.World.C128_value_in_protocol

/-- info: 'Phoenix.Props.World.C128_silent_provider' depends on axioms: [propext, Classical.choice, Quot.sound] -/
#guard_msgs (whitespace := lax) in #print axioms Phoenix.Props.World.C128_silent_provider

/-- info: 'Phoenix.Props.World.C131_value_in_protocol' depends on axioms: [propext, Classical.choice, Quot.sound] -/
#guard_msgs (whitespace := lax) in #print axioms Phoenix.Props.World.C131_value_in_protocol

/-- info: 'Phoenix.Props.World.C131_silent_provider' depends on axioms: [propext, Classical.choice, Quot.sound] -/
#guard_msgs (whitespace := lax) in #print axioms Phoenix.Props.World.C131_silent_provider

/-- info: 'Phoenix.Props.Price.C147_sold_at_most' depends on axioms: [propext, Classical.choice, Quot.sound] -/
#guard_msgs (whitespace := lax) in #print axioms Phoenix.Props.Price.C147_sold_at_most

/-- info: 'Phoenix.Props.Price.C147_price_moves_at_most' depends on axioms: [propext, Classical.choice, Quot.sound] -/
#guard_msgs (whitespace := lax) in #print axioms Phoenix.Props.Price.C147_price_moves_at_most

/-- info: 'Phoenix.Props.Price.C147_limit_is_per_swap' does not depend on any axioms -/
#guard_msgs (whitespace := lax) in #print axioms Phoenix.Props.Price.C147_limit_is_per_swap

/-- info: 'Phoenix.Props.Project.C153_stake_alone' depends on axioms: [propext, Classical.choice, Quot.sound] -/
#guard_msgs (whitespace := lax) in #print axioms Phoenix.Props.Project.C153_stake_alone

/-- info: 'Phoenix.Props.Project.C153_vesting_alone' depends on axioms: [propext, Classical.choice, Quot.sound] -/
#guard_msgs (whitespace := lax) in #print axioms Phoenix.Props.Project.C153_vesting_alone

/-- info: 'Phoenix.Props.Project.C153_rewards_alone' depends on axioms: [propext, Classical.choice, Quot.sound] -/
#guard_msgs (whitespace := lax) in #print axioms Phoenix.Props.Project.C153_rewards_alone

/-- info: 'Phoenix.Props.Project.C153_pool_alone' depends on axioms: [propext, Classical.choice, Quot.sound] -/
#guard_msgs (whitespace := lax) in #print axioms Phoenix.Props.Project.C153_pool_alone

/-- info: 'Phoenix.Props.Project.C153_stable_alone' depends on axioms: [propext, Classical.choice, Quot.sound] -/
#guard_msgs (whitespace := lax) in #print axioms Phoenix.Props.Project.C153_stable_alone

/-- info: 'Phoenix.Props.Project.C153_stake_everything' depends on axioms: [propext, Classical.choice, Quot.sound] -/
#guard_msgs (whitespace := lax) in #print axioms Phoenix.Props.Project.C153_stake_everything

/-- info: 'Phoenix.Props.Project.C153_vesting_everything' depends on axioms: [propext, Classical.choice, Quot.sound] -/
#guard_msgs (whitespace := lax) in #print axioms Phoenix.Props.Project.C153_vesting_everything

/-- info: 'Phoenix.Props.Project.C153_rewards_everything' depends on axioms: [propext, Classical.choice, Quot.sound] -/
#guard_msgs (whitespace := lax) in #print axioms Phoenix.Props.Project.C153_rewards_everything

/-- info: 'Phoenix.Props.Project.C153_pool_everything' depends on axioms: [propext, Classical.choice, Quot.sound] -/
#guard_msgs (whitespace := lax) in #print axioms Phoenix.Props.Project.C153_pool_everything

/-- info: 'Phoenix.Props.Project.C153_stable_everything' depends on axioms: [propext, Classical.choice, Quot.sound] -/
#guard_msgs (whitespace := lax) in #print axioms Phoenix.Props.Project.C153_stable_everything

/-- info: 'Phoenix.Props.Project.C153_pool_never_empties' depends on axioms: [propext, Classical.choice, Quot.sound] -/
#guard_msgs (whitespace := lax) in #print axioms Phoenix.Props.Project.C153_pool_never_empties

/-- info: 'Phoenix.Props.Project.C153_stable_pool_backed' depends on axioms: [propext, Classical.choice, Quot.sound] -/
#guard_msgs (whitespace := lax) in #print axioms Phoenix.Props.Project.C153_stable_pool_backed

/-- info: 'Phoenix.Props.Queries.C134_pool_answers' depends on axioms: [propext, Quot.sound] -/
#guard_msgs (whitespace := lax) in #print axioms Phoenix.Props.Queries.C134_pool_answers

/-- info: 'Phoenix.Props.Queries.C134_pool_truthful' depends on axioms: [propext, Classical.choice, Quot.sound] -/
#guard_msgs (whitespace := lax) in #print axioms Phoenix.Props.Queries.C134_pool_truthful

/-- info: 'Phoenix.Props.Queries.C134_pool_addresses' depends on axioms: [propext, Classical.choice, Quot.sound] -/
#guard_msgs (whitespace := lax) in #print axioms Phoenix.Props.Queries.C134_pool_addresses

/-- info: 'Phoenix.Props.Queries.C134_trader_for_ever' depends on axioms: [propext, Classical.choice, Quot.sound] -/
#guard_msgs (whitespace := lax) in #print axioms Phoenix.Props.Queries.C134_trader_for_ever

/-- info: 'Phoenix.Props.Queries.C134_trader_balances' depends on axioms: [propext, Classical.choice, Quot.sound] -/
#guard_msgs (whitespace := lax) in #print axioms Phoenix.Props.Queries.C134_trader_balances

/-- info: 'Phoenix.Props.Released.C163_evenly' depends on axioms: [propext, Classical.choice, Quot.sound] -/
#guard_msgs (whitespace := lax) in #print axioms Phoenix.Props.Released.C163_evenly

/-- info: 'Phoenix.Props.Released.C163_between' depends on axioms: [propext, Classical.choice, Quot.sound] -/
#guard_msgs (whitespace := lax) in #print axioms Phoenix.Props.Released.C163_between

/-- info: 'Phoenix.Props.Rename.C137_same_outcome' depends on axioms: [propext, Classical.choice, Quot.sound] -/
#guard_msgs (whitespace := lax) in #print axioms Phoenix.Props.Rename.C137_same_outcome

/-- info: 'Phoenix.Props.Rename.C137_no_address_is_special' depends on axioms: [propext, Classical.choice, Quot.sound] -/
#guard_msgs (whitespace := lax) in #print axioms Phoenix.Props.Rename.C137_no_address_is_special

/-- info: 'Phoenix.Props.Rename.C137_same_balances' depends on axioms: [propext, Classical.choice, Quot.sound] -/
#guard_msgs (whitespace := lax) in #print axioms Phoenix.Props.Rename.C137_same_balances

/-- info: 'Phoenix.Props.Rename.C137_same_quotes' depends on axioms: [propext, Quot.sound] -/
#guard_msgs (whitespace := lax) in #print axioms Phoenix.Props.Rename.C137_same_quotes

/-- info: 'Phoenix.Props.Rename.C137_same_claims' depends on axioms: [propext, Quot.sound] -/
#guard_msgs (whitespace := lax) in #print axioms Phoenix.Props.Rename.C137_same_claims

/-- info: 'Phoenix.Props.Rename.C137_twins' depends on axioms: [propext, Classical.choice, Quot.sound] -/
#guard_msgs (whitespace := lax) in #print axioms Phoenix.Props.Rename.C137_twins

/-- info: 'Phoenix.Props.Rename.C137_order_matters' depends on axioms: [propext, Classical.choice, Quot.sound] -/
#guard_msgs (whitespace := lax) in #print axioms Phoenix.Props.Rename.C137_order_matters

/-- info: 'Phoenix.Props.Repeated.C165_repeated' depends on axioms: [propext, Classical.choice, Quot.sound] -/
#guard_msgs (whitespace := lax) in #print axioms Phoenix.Props.Repeated.C165_repeated

/-- info: 'Phoenix.Props.Repeated.C165_all_in_one_second' depends on axioms: [propext, Classical.choice, Quot.sound] -/
#guard_msgs (whitespace := lax) in #print axioms Phoenix.Props.Repeated.C165_all_in_one_second

/-- info: 'Phoenix.Props.Reverse.C141_xyk_reverse_quote' depends on axioms: [propext, Classical.choice, Quot.sound] -/
#guard_msgs (whitespace := lax) in #print axioms Phoenix.Props.Reverse.C141_xyk_reverse_quote

/-- info: 'Phoenix.Props.Reverse.C141_stable_commission_and_spread' depends on axioms: [propext, Classical.choice, Quot.sound] -/
#guard_msgs (whitespace := lax) in #print axioms Phoenix.Props.Reverse.C141_stable_commission_and_spread

/-- info: 'Phoenix.Props.Reverse.C141_stable_quote_is_enough' depends on axioms: [propext, Classical.choice, Quot.sound] -/
#guard_msgs (whitespace := lax) in #print axioms Phoenix.Props.Reverse.C141_stable_quote_is_enough

/-- info: 'Phoenix.Props.Reverse.C141_stable_quote_not_too_much' depends on axioms: [propext, Classical.choice, Quot.sound] -/
#guard_msgs (whitespace := lax) in #print axioms Phoenix.Props.Reverse.C141_stable_quote_not_too_much

/-- info: 'Phoenix.Props.C83_access' depends on axioms: [propext, Classical.choice, Quot.sound] -/
#guard_msgs (whitespace := lax) in #print axioms Phoenix.Props.C83_access

/-- info: 'Phoenix.Props.C83_settings_permanent' depends on axioms: [propext, Classical.choice, Quot.sound] -/
#guard_msgs (whitespace := lax) in #print axioms Phoenix.Props.C83_settings_permanent

/-- info: 'Phoenix.Props.C83_init_once' depends on axioms: [propext] -/
#guard_msgs (whitespace := lax) in #print axioms Phoenix.Props.C83_init_once

/-- info: 'Phoenix.Props.C83_anyone_initialises' depends on axioms: [propext] -/
#guard_msgs (whitespace := lax) in #print axioms Phoenix.Props.C83_anyone_initialises

/-- info: 'Phoenix.Props.C84_solvent' depends on axioms: [propext, Classical.choice, Quot.sound] -/
#guard_msgs (whitespace := lax) in #print axioms Phoenix.Props.C84_solvent

/-- info: 'Phoenix.Props.C84_accounting' depends on axioms: [propext, Classical.choice, Quot.sound] -/
#guard_msgs (whitespace := lax) in #print axioms Phoenix.Props.C84_accounting

/-- info: 'Phoenix.Props.C84_only_payments_leave' depends on axioms: [propext, Classical.choice, Quot.sound] -/
#guard_msgs (whitespace := lax) in #print axioms Phoenix.Props.C84_only_payments_leave

/-- info: 'Phoenix.Props.C85_all_can_be_paid' depends on axioms: [propext, Classical.choice, Quot.sound] -/
#guard_msgs (whitespace := lax) in #print axioms Phoenix.Props.C85_all_can_be_paid

/-- info: 'Phoenix.Props.C85_query_then_withdraw' depends on axioms: [propext, Classical.choice, Quot.sound] -/
#guard_msgs (whitespace := lax) in #print axioms Phoenix.Props.C85_query_then_withdraw

/-- info: 'Phoenix.Props.C85_others_unaffected' depends on axioms: [propext, Classical.choice, Quot.sound] -/
#guard_msgs (whitespace := lax) in #print axioms Phoenix.Props.C85_others_unaffected

/-- info: 'Phoenix.Props.C85_own_stake_neutral' depends on axioms: [propext, Classical.choice, Quot.sound] -/
#guard_msgs (whitespace := lax) in #print axioms Phoenix.Props.C85_own_stake_neutral

/-- info: 'Phoenix.Props.C85_own_unstake_neutral' depends on axioms: [propext, Classical.choice, Quot.sound] -/
#guard_msgs (whitespace := lax) in #print axioms Phoenix.Props.C85_own_unstake_neutral

/-- info: 'Phoenix.Props.C85_proportional' depends on axioms: [propext, Classical.choice, Quot.sound] -/
#guard_msgs (whitespace := lax) in #print axioms Phoenix.Props.C85_proportional

/-- info: 'Phoenix.Props.C86_multiplier_range' depends on axioms: [propext, Classical.choice, Quot.sound] -/
#guard_msgs (whitespace := lax) in #print axioms Phoenix.Props.C86_multiplier_range

/-- info: 'Phoenix.Props.C86_multiplier_grows' depends on axioms: [propext, Classical.choice, Quot.sound] -/
#guard_msgs (whitespace := lax) in #print axioms Phoenix.Props.C86_multiplier_grows

/-- info: 'Phoenix.Props.C86_multiplier_full' depends on axioms: [propext, Classical.choice, Quot.sound] -/
#guard_msgs (whitespace := lax) in #print axioms Phoenix.Props.C86_multiplier_full

/-- info: 'Phoenix.Props.C86_reduced_by_multiplier' depends on axioms: [propext, Classical.choice, Quot.sound] -/
#guard_msgs (whitespace := lax) in #print axioms Phoenix.Props.C86_reduced_by_multiplier

/-- info: 'Phoenix.Props.C86_rest_stays' depends on axioms: [propext, Classical.choice, Quot.sound] -/
#guard_msgs (whitespace := lax) in #print axioms Phoenix.Props.C86_rest_stays

/-- info: 'Phoenix.Props.C87_fund_effect' depends on axioms: [propext, Classical.choice, Quot.sound] -/
#guard_msgs (whitespace := lax) in #print axioms Phoenix.Props.C87_fund_effect

/-- info: 'Phoenix.Props.C87_all_released' depends on axioms: [propext, Classical.choice, Quot.sound] -/
#guard_msgs (whitespace := lax) in #print axioms Phoenix.Props.C87_all_released

/-- info: 'Phoenix.Props.C87_later_releases_more' depends on axioms: [propext, Classical.choice, Quot.sound] -/
#guard_msgs (whitespace := lax) in #print axioms Phoenix.Props.C87_later_releases_more

/-- info: 'Phoenix.Props.C87_late_start_never_released' depends on axioms: [propext, Classical.choice, Quot.sound] -/
#guard_msgs (whitespace := lax) in #print axioms Phoenix.Props.C87_late_start_never_released

/-- info: 'Phoenix.Props.C87_empty_schedule_blocks' depends on axioms: [propext] -/
#guard_msgs (whitespace := lax) in #print axioms Phoenix.Props.C87_empty_schedule_blocks

/-- info: 'Phoenix.Props.C87_fund_can_block' depends on axioms: [propext] -/
#guard_msgs (whitespace := lax) in #print axioms Phoenix.Props.C87_fund_can_block

/-- info: 'Phoenix.Props.C88_rate_full_year' depends on axioms: [propext, Classical.choice, Quot.sound] -/
#guard_msgs (whitespace := lax) in #print axioms Phoenix.Props.C88_rate_full_year

/-- info: 'Phoenix.Props.C88_rate_scaled_up' depends on axioms: [propext, Classical.choice, Quot.sound] -/
#guard_msgs (whitespace := lax) in #print axioms Phoenix.Props.C88_rate_scaled_up

/-- info: 'Phoenix.Props.C88_rate_zero' depends on axioms: [propext, Classical.choice, Quot.sound] -/
#guard_msgs (whitespace := lax) in #print axioms Phoenix.Props.C88_rate_zero

/-- info: 'Phoenix.Props.C88_collapses_after_distribution' depends on axioms: [propext] -/
#guard_msgs (whitespace := lax) in #print axioms Phoenix.Props.C88_collapses_after_distribution

/-- info: 'Phoenix.Props.C89_stored_report_steals' depends on axioms: [propext] -/
#guard_msgs (whitespace := lax) in #print axioms Phoenix.Props.C89_stored_report_steals

/-- info: 'Phoenix.Props.C89_stored_report_error' depends on axioms: [propext, Classical.choice, Quot.sound] -/
#guard_msgs (whitespace := lax) in #print axioms Phoenix.Props.C89_stored_report_error

/-- info: 'Phoenix.Props.World.C129_rights_kept' depends on axioms: [propext, Classical.choice, Quot.sound] -/
#guard_msgs (whitespace := lax) in #print axioms Phoenix.Props.World.C129_rights_kept

/-- info: 'Phoenix.Props.World.C129_only_approve' depends on axioms: [propext, Classical.choice, Quot.sound] -/
#guard_msgs (whitespace := lax) in #print axioms Phoenix.Props.World.C129_only_approve

/-- info: 'Phoenix.Props.World.C129_allowance_from_approve' depends on axioms: [propext, Classical.choice, Quot.sound] -/
#guard_msgs (whitespace := lax) in #print axioms Phoenix.Props.World.C129_allowance_from_approve

/-- info: 'Phoenix.Props.World.C129_never_approved' depends on axioms: [propext, Classical.choice, Quot.sound] -/
#guard_msgs (whitespace := lax) in #print axioms Phoenix.Props.World.C129_never_approved

/-- info: 'Phoenix.Props.World.C129_unsigned_keeps' depends on axioms: [propext, Classical.choice, Quot.sound] -/
#guard_msgs (whitespace := lax) in #print axioms Phoenix.Props.World.C129_unsigned_keeps

/-- info: 'Phoenix.Props.Multihop.C121_quote_iff' depends on axioms: [propext, Quot.sound] -/
#guard_msgs (whitespace := lax) in #print axioms Phoenix.Props.Multihop.C121_quote_iff

/-- info: 'Phoenix.Props.Multihop.C121_reverse_quote_iff' depends on axioms: [propext, Quot.sound] -/
#guard_msgs (whitespace := lax) in #print axioms Phoenix.Props.Multihop.C121_reverse_quote_iff

/-- info: 'Phoenix.Props.Sandwich.C124_together' depends on axioms: [propext, Classical.choice, Quot.sound] -/
#guard_msgs (whitespace := lax) in #print axioms Phoenix.Props.Sandwich.C124_together

/-- info: 'Phoenix.Props.Sandwich.C124_sandwich' depends on axioms: [propext, Classical.choice, Quot.sound] -/
#guard_msgs (whitespace := lax) in #print axioms Phoenix.Props.Sandwich.C124_sandwich

/-- info: 'Phoenix.Props.Sandwich.C124_limit' depends on axioms: [propext, Classical.choice, Quot.sound] -/
#guard_msgs (whitespace := lax) in #print axioms Phoenix.Props.Sandwich.C124_limit

/-- info: 'Phoenix.Props.C75_query_predicts_withdrawal' depends on axioms: [propext, Quot.sound] -/
#guard_msgs (whitespace := lax) in #print axioms Phoenix.Props.C75_query_predicts_withdrawal

/-- info: 'Phoenix.Props.C75_withdraw_works' depends on axioms: [propext, Classical.choice, Quot.sound] -/
#guard_msgs (whitespace := lax) in #print axioms Phoenix.Props.C75_withdraw_works

/-- info: 'Phoenix.Props.C75_query_answers' depends on axioms: [propext, Classical.choice, Quot.sound] -/
#guard_msgs (whitespace := lax) in #print axioms Phoenix.Props.C75_query_answers

/-- info: 'Phoenix.Props.C75_large_pool_overflows' depends on axioms: [propext, Quot.sound] -/
#guard_msgs (whitespace := lax) in #print axioms Phoenix.Props.C75_large_pool_overflows

/-- info: 'Phoenix.Props.Stable.C75_query_predicts_withdrawal' depends on axioms: [propext, Quot.sound] -/
#guard_msgs (whitespace := lax) in #print axioms Phoenix.Props.Stable.C75_query_predicts_withdrawal

/-- info: 'Phoenix.Props.Stable.C75_withdraw_works' depends on axioms: [propext, Classical.choice, Quot.sound] -/
#guard_msgs (whitespace := lax) in #print axioms Phoenix.Props.Stable.C75_withdraw_works

/-- info: 'Phoenix.Props.C110_swap' depends on axioms: [propext, Classical.choice, Quot.sound] -/
#guard_msgs (whitespace := lax) in #print axioms Phoenix.Props.C110_swap

/-- info: 'Phoenix.Props.C110_stable_swap' depends on axioms: [propext, Classical.choice, Quot.sound] -/
#guard_msgs (whitespace := lax) in #print axioms Phoenix.Props.C110_stable_swap

/-- info: 'Phoenix.Props.C110_withdraw' depends on axioms: [propext, Classical.choice, Quot.sound] -/
#guard_msgs (whitespace := lax) in #print axioms Phoenix.Props.C110_withdraw

/-- info: 'Phoenix.Props.C110_stable_withdraw' depends on axioms: [propext, Classical.choice, Quot.sound] -/
#guard_msgs (whitespace := lax) in #print axioms Phoenix.Props.C110_stable_withdraw

/-- info: 'Phoenix.Props.C110_deposit' depends on axioms: [propext, Classical.choice, Quot.sound] -/
#guard_msgs (whitespace := lax) in #print axioms Phoenix.Props.C110_deposit

/-- info: 'Phoenix.Props.C110_stable_deposit' depends on axioms: [propext, Classical.choice, Quot.sound] -/
#guard_msgs (whitespace := lax) in #print axioms Phoenix.Props.C110_stable_deposit

/-- info: 'Phoenix.Props.C110_bond' depends on axioms: [propext, Classical.choice, Quot.sound] -/
#guard_msgs (whitespace := lax) in #print axioms Phoenix.Props.C110_bond

/-- info: 'Phoenix.Props.C110_distribute' depends on axioms: [propext, Classical.choice, Quot.sound] -/
#guard_msgs (whitespace := lax) in #print axioms Phoenix.Props.C110_distribute

/-- info: 'Phoenix.Props.C110_no_further_signature' depends on axioms: [propext, Classical.choice, Quot.sound] -/
#guard_msgs (whitespace := lax) in #print axioms Phoenix.Props.C110_no_further_signature

/-- info: 'Phoenix.Props.C110_create' depends on axioms: [propext, Classical.choice, Quot.sound] -/
#guard_msgs (whitespace := lax) in #print axioms Phoenix.Props.C110_create

/-- info: 'Phoenix.Props.C110_deposit_signature_expires' depends on axioms: [propext] -/
#guard_msgs (whitespace := lax) in #print axioms Phoenix.Props.C110_deposit_signature_expires

/-- info: 'Phoenix.Props.Multihop.C111_route_signed' depends on axioms: [propext, Classical.choice, Quot.sound] -/
#guard_msgs (whitespace := lax) in #print axioms Phoenix.Props.Multihop.C111_route_signed

/-- info: 'Phoenix.Props.Multihop.C111_exact_tree_suffices' depends on axioms: [propext, Classical.choice, Quot.sound] -/
#guard_msgs (whitespace := lax) in #print axioms Phoenix.Props.Multihop.C111_exact_tree_suffices

/-- info: 'Phoenix.Props.Multihop.C111_signature_fixes_amounts' depends on axioms: [propext, Classical.choice, Quot.sound] -/
#guard_msgs (whitespace := lax) in #print axioms Phoenix.Props.Multihop.C111_signature_fixes_amounts

/-- info: 'Phoenix.Props.Multihop.C111_single_hop' depends on axioms: [propext, Classical.choice, Quot.sound] -/
#guard_msgs (whitespace := lax) in #print axioms Phoenix.Props.Multihop.C111_single_hop

/-- info: 'Phoenix.Props.Multihop.C111_route_signature_expires' depends on axioms: [propext, Quot.sound] -/
#guard_msgs (whitespace := lax) in #print axioms Phoenix.Props.Multihop.C111_route_signature_expires

/-- info: 'Phoenix.Props.Split.C94_split_sale' depends on axioms: [propext, Classical.choice, Quot.sound] -/
#guard_msgs (whitespace := lax) in #print axioms Phoenix.Props.Split.C94_split_sale

/-- info: 'Phoenix.Props.Split.C94_bounds_sharp' does not depend on any axioms -/
#guard_msgs (whitespace := lax) in #print axioms Phoenix.Props.Split.C94_bounds_sharp

/-- info: 'Phoenix.Props.Stable.C117_exact_within_one_unit' depends on axioms: [propext, Classical.choice, Quot.sound] -/
#guard_msgs (whitespace := lax) in #print axioms Phoenix.Props.Stable.C117_exact_within_one_unit

/-- info: 'Phoenix.Props.Stable.C117_offering_more' depends on axioms: [propext, Classical.choice, Quot.sound] -/
#guard_msgs (whitespace := lax) in #print axioms Phoenix.Props.Stable.C117_offering_more

/-- info: 'Phoenix.Props.Stable.C117_more_can_pay_less' depends on axioms: [propext] -/
#guard_msgs (whitespace := lax) in #print axioms Phoenix.Props.Stable.C117_more_can_pay_less

/-- info: 'Phoenix.Props.StableParts.C145_parts_gain_little' depends on axioms: [propext, Classical.choice, Quot.sound] -/
#guard_msgs (whitespace := lax) in #print axioms Phoenix.Props.StableParts.C145_parts_gain_little

/-- info: 'Phoenix.Props.StableParts.C145_parts_can_lose' depends on axioms: [propext] -/
#guard_msgs (whitespace := lax) in #print axioms Phoenix.Props.StableParts.C145_parts_can_lose

/-- info: 'Phoenix.Props.Stable.C50_payout_within_curve' depends on axioms: [propext, Classical.choice, Quot.sound] -/
#guard_msgs (whitespace := lax) in #print axioms Phoenix.Props.Stable.C50_payout_within_curve

/-- info: 'Phoenix.Props.Stable.C50_solver_never_below' depends on axioms: [propext, Classical.choice, Quot.sound] -/
#guard_msgs (whitespace := lax) in #print axioms Phoenix.Props.Stable.C50_solver_never_below

/-- info: 'Phoenix.Props.Stable.C50_payout_any_decimals' depends on axioms: [propext, Classical.choice, Quot.sound] -/
#guard_msgs (whitespace := lax) in #print axioms Phoenix.Props.Stable.C50_payout_any_decimals

/-- info: 'Phoenix.Props.Stable.C50_payout_not_far_below' depends on axioms: [propext, Classical.choice, Quot.sound] -/
#guard_msgs (whitespace := lax) in #print axioms Phoenix.Props.Stable.C50_payout_not_far_below

/-- info: 'Phoenix.Props.Stable.C50_at_most_one_to_one' depends on axioms: [propext, Classical.choice, Quot.sound] -/
#guard_msgs (whitespace := lax) in #print axioms Phoenix.Props.Stable.C50_at_most_one_to_one

/-- info: 'Phoenix.Props.Stable.C52_simulation_exact' depends on axioms: [propext, Classical.choice, Quot.sound] -/
#guard_msgs (whitespace := lax) in #print axioms Phoenix.Props.Stable.C52_simulation_exact

/-- info: 'Phoenix.Props.Stable.C52_protections' depends on axioms: [propext, Classical.choice, Quot.sound] -/
#guard_msgs (whitespace := lax) in #print axioms Phoenix.Props.Stable.C52_protections

/-- info: 'Phoenix.Props.Stable.C54_swap_always_fails' depends on axioms: [propext, Classical.choice, Quot.sound] -/
#guard_msgs (whitespace := lax) in #print axioms Phoenix.Props.Stable.C54_swap_always_fails

/-- info: 'Phoenix.Props.Stable.C54_deposit_always_fails' depends on axioms: [propext, Classical.choice, Quot.sound] -/
#guard_msgs (whitespace := lax) in #print axioms Phoenix.Props.Stable.C54_deposit_always_fails

/-- info: 'Phoenix.Props.Stable.C55_amp_between' depends on axioms: [propext, Classical.choice, Quot.sound] -/
#guard_msgs (whitespace := lax) in #print axioms Phoenix.Props.Stable.C55_amp_between

/-- info: 'Phoenix.Props.Stable.C68_small_swaps_fail' depends on axioms: [propext, Classical.choice, Quot.sound] -/
#guard_msgs (whitespace := lax) in #print axioms Phoenix.Props.Stable.C68_small_swaps_fail

/-- info: 'Phoenix.Props.Stable.C69_different_decimals' depends on axioms: [propext, Classical.choice, Quot.sound] -/
#guard_msgs (whitespace := lax) in #print axioms Phoenix.Props.Stable.C69_different_decimals

/-- info: 'Phoenix.Props.Stable.C69_selling_finer_token_fails' depends on axioms: [propext, Classical.choice, Quot.sound] -/
#guard_msgs (whitespace := lax) in #print axioms Phoenix.Props.Stable.C69_selling_finer_token_fails

/-- info: 'Phoenix.Props.Stable.C51_reserves_backed' depends on axioms: [propext, Classical.choice, Quot.sound] -/
#guard_msgs (whitespace := lax) in #print axioms Phoenix.Props.Stable.C51_reserves_backed

/-- info: 'Phoenix.Props.Stable.C51_supply_covers' depends on axioms: [propext, Classical.choice, Quot.sound] -/
#guard_msgs (whitespace := lax) in #print axioms Phoenix.Props.Stable.C51_supply_covers

/-- info: 'Phoenix.Props.Stable.C51_empty' depends on axioms: [propext, Classical.choice, Quot.sound] -/
#guard_msgs (whitespace := lax) in #print axioms Phoenix.Props.Stable.C51_empty

/-- info: 'Phoenix.Props.Stable.C51_supply_exact' depends on axioms: [propext, Classical.choice, Quot.sound] -/
#guard_msgs (whitespace := lax) in #print axioms Phoenix.Props.Stable.C51_supply_exact

/-- info: 'Phoenix.Props.Stable.C53_anyone_takes_over' depends on axioms: [propext, Classical.choice, Quot.sound] -/
#guard_msgs (whitespace := lax) in #print axioms Phoenix.Props.Stable.C53_anyone_takes_over

/-- info: 'Phoenix.Props.Stable.C53_sender_must_be_admin_partial' depends on axioms: [propext, Quot.sound] -/
#guard_msgs (whitespace := lax) in #print axioms Phoenix.Props.Stable.C53_sender_must_be_admin_partial

/-- info: 'Phoenix.Props.Stable.C55_amp_constant' depends on axioms: [propext, Classical.choice, Quot.sound] -/
#guard_msgs (whitespace := lax) in #print axioms Phoenix.Props.Stable.C55_amp_constant

/-- info: 'Phoenix.Props.Stable.C56_withdraw_pro_rata' depends on axioms: [propext, Classical.choice, Quot.sound] -/
#guard_msgs (whitespace := lax) in #print axioms Phoenix.Props.Stable.C56_withdraw_pro_rata

/-- info: 'Phoenix.Props.Stable.C56_deposit_mints' depends on axioms: [propext, Classical.choice, Quot.sound] -/
#guard_msgs (whitespace := lax) in #print axioms Phoenix.Props.Stable.C56_deposit_mints

/-- info: 'Phoenix.Props.Stable.C70_deposit_stolen' depends on axioms: [propext] -/
#guard_msgs (whitespace := lax) in #print axioms Phoenix.Props.Stable.C70_deposit_stolen

/-- info: 'Phoenix.Props.Stable.C70_min_shares_partial' depends on axioms: [propext, Classical.choice, Quot.sound] -/
#guard_msgs (whitespace := lax) in #print axioms Phoenix.Props.Stable.C70_min_shares_partial

/-- info: 'Phoenix.Props.Stable.C71_no_unauthorised_movement' depends on axioms: [propext, Classical.choice, Quot.sound] -/
#guard_msgs (whitespace := lax) in #print axioms Phoenix.Props.Stable.C71_no_unauthorised_movement

/-- info: 'Phoenix.Props.Stable.C72_init_once' does not depend on any axioms -/
#guard_msgs (whitespace := lax) in #print axioms Phoenix.Props.Stable.C72_init_once

/-- info: 'Phoenix.Props.Stable.C72_addresses_fixed' depends on axioms: [propext, Classical.choice, Quot.sound] -/
#guard_msgs (whitespace := lax) in #print axioms Phoenix.Props.Stable.C72_addresses_fixed

/-- info: 'Phoenix.Props.Stable.C72_config_in_range' depends on axioms: [propext, Classical.choice, Quot.sound] -/
#guard_msgs (whitespace := lax) in #print axioms Phoenix.Props.Stable.C72_config_in_range

/-- info: 'Phoenix.Props.Stable.C73_frozen_for_ever' depends on axioms: [propext, Classical.choice, Quot.sound] -/
#guard_msgs (whitespace := lax) in #print axioms Phoenix.Props.Stable.C73_frozen_for_ever

/-- info: 'Phoenix.Props.Stable.C73_one_swap_freezes' depends on axioms: [propext] -/
#guard_msgs (whitespace := lax) in #print axioms Phoenix.Props.Stable.C73_one_swap_freezes

/-- info: 'Phoenix.Props.Stable.C74_fee_avoided' does not depend on any axioms -/
#guard_msgs (whitespace := lax) in #print axioms Phoenix.Props.Stable.C74_fee_avoided

/-- info: 'Phoenix.Props.Stable.C74_deposit_ignores_fee' depends on axioms: [propext, Quot.sound] -/
#guard_msgs (whitespace := lax) in #print axioms Phoenix.Props.Stable.C74_deposit_ignores_fee

/-- info: 'Phoenix.Props.Stable.C74_withdrawal_ignores_fee' depends on axioms: [propext, Quot.sound] -/
#guard_msgs (whitespace := lax) in #print axioms Phoenix.Props.Stable.C74_withdrawal_ignores_fee

/-- info: 'Phoenix.Props.Stable.C70_credit_up_to_one_share' depends on axioms: [propext, Classical.choice, Quot.sound] -/
#guard_msgs (whitespace := lax) in #print axioms Phoenix.Props.Stable.C70_credit_up_to_one_share

/-- info: 'Phoenix.Props.Stable.C132_swaps_gain_nothing' depends on axioms: [propext, Classical.choice, Quot.sound] -/
#guard_msgs (whitespace := lax) in #print axioms Phoenix.Props.Stable.C132_swaps_gain_nothing

/-- info: 'Phoenix.Props.C35_principal_backed' depends on axioms: [propext, Classical.choice, Quot.sound] -/
#guard_msgs (whitespace := lax) in #print axioms Phoenix.Props.C35_principal_backed

/-- info: 'Phoenix.Props.C35_total_is_sum' depends on axioms: [propext, Classical.choice, Quot.sound] -/
#guard_msgs (whitespace := lax) in #print axioms Phoenix.Props.C35_total_is_sum

/-- info: 'Phoenix.Props.C35_principal_backed_always' depends on axioms: [propext, Classical.choice, Quot.sound] -/
#guard_msgs (whitespace := lax) in #print axioms Phoenix.Props.C35_principal_backed_always

/-- info: 'Phoenix.Props.C36_unbond_exact' depends on axioms: [propext, Classical.choice, Quot.sound] -/
#guard_msgs (whitespace := lax) in #print axioms Phoenix.Props.C36_unbond_exact

/-- info: 'Phoenix.Props.C36_no_stake_fails' depends on axioms: [propext, Classical.choice, Quot.sound] -/
#guard_msgs (whitespace := lax) in #print axioms Phoenix.Props.C36_no_stake_fails

/-- info: 'Phoenix.Props.C36_unbond_succeeds' depends on axioms: [propext, Classical.choice, Quot.sound] -/
#guard_msgs (whitespace := lax) in #print axioms Phoenix.Props.C36_unbond_succeeds

/-- info: 'Phoenix.Props.C36_unbond_succeeds_always' depends on axioms: [propext, Classical.choice, Quot.sound] -/
#guard_msgs (whitespace := lax) in #print axioms Phoenix.Props.C36_unbond_succeeds_always

/-- info: 'Phoenix.Props.C36_only_owner' depends on axioms: [propext, Classical.choice, Quot.sound] -/
#guard_msgs (whitespace := lax) in #print axioms Phoenix.Props.C36_only_owner

/-- info: 'Phoenix.Props.C37_paid_at_most_distributed' depends on axioms: [propext, Classical.choice, Quot.sound] -/
#guard_msgs (whitespace := lax) in #print axioms Phoenix.Props.C37_paid_at_most_distributed

/-- info: 'Phoenix.Props.C37_holdings' depends on axioms: [propext, Classical.choice, Quot.sound] -/
#guard_msgs (whitespace := lax) in #print axioms Phoenix.Props.C37_holdings

/-- info: 'Phoenix.Props.C37_can_overpay' depends on axioms: [propext, Classical.choice, Quot.sound] -/
#guard_msgs (whitespace := lax) in #print axioms Phoenix.Props.C37_can_overpay

/-- info: 'Phoenix.Props.C38_nothing_left' depends on axioms: [propext, Classical.choice, Quot.sound] -/
#guard_msgs (whitespace := lax) in #print axioms Phoenix.Props.C38_nothing_left

/-- info: 'Phoenix.Props.C38_zero_right_after' depends on axioms: [propext, Quot.sound] -/
#guard_msgs (whitespace := lax) in #print axioms Phoenix.Props.C38_zero_right_after

/-- info: 'Phoenix.Props.C39_pending_formula' depends on axioms: [propext, Classical.choice, Quot.sound] -/
#guard_msgs (whitespace := lax) in #print axioms Phoenix.Props.C39_pending_formula

/-- info: 'Phoenix.Props.C39_query_formula' depends on axioms: [propext, Classical.choice, Quot.sound] -/
#guard_msgs (whitespace := lax) in #print axioms Phoenix.Props.C39_query_formula

/-- info: 'Phoenix.Props.C39_query_is_payout' depends on axioms: [propext, Quot.sound] -/
#guard_msgs (whitespace := lax) in #print axioms Phoenix.Props.C39_query_is_payout

/-- info: 'Phoenix.Props.C40_newer_stake_blocks' depends on axioms: [propext, Classical.choice, Quot.sound] -/
#guard_msgs (whitespace := lax) in #print axioms Phoenix.Props.C40_newer_stake_blocks

/-- info: 'Phoenix.Props.C40_withdraw_succeeds' depends on axioms: [propext, Classical.choice, Quot.sound] -/
#guard_msgs (whitespace := lax) in #print axioms Phoenix.Props.C40_withdraw_succeeds

/-- info: 'Phoenix.Props.C41_all_recorded' depends on axioms: [propext, Classical.choice, Quot.sound] -/
#guard_msgs (whitespace := lax) in #print axioms Phoenix.Props.C41_all_recorded

/-- info: 'Phoenix.Props.C41_same_time_lost' depends on axioms: [propext, Quot.sound] -/
#guard_msgs (whitespace := lax) in #print axioms Phoenix.Props.C41_same_time_lost

/-- info: 'Phoenix.Props.C41_same_time_skipped' depends on axioms: [propext, Quot.sound] -/
#guard_msgs (whitespace := lax) in #print axioms Phoenix.Props.C41_same_time_skipped

/-- info: 'Phoenix.Props.C42_withdraw_only_pays' depends on axioms: [propext, Quot.sound] -/
#guard_msgs (whitespace := lax) in #print axioms Phoenix.Props.C42_withdraw_only_pays

/-- info: 'Phoenix.Props.C42_only_manager' depends on axioms: [propext, Quot.sound] -/
#guard_msgs (whitespace := lax) in #print axioms Phoenix.Props.C42_only_manager

/-- info: 'Phoenix.Props.C42_distribute_exact' depends on axioms: [propext, Quot.sound] -/
#guard_msgs (whitespace := lax) in #print axioms Phoenix.Props.C42_distribute_exact

/-- info: 'Phoenix.Props.C65_unbond_forfeits' depends on axioms: [propext, Classical.choice, Quot.sound] -/
#guard_msgs (whitespace := lax) in #print axioms Phoenix.Props.C65_unbond_forfeits

/-- info: 'Phoenix.Props.C66_bond_exact' depends on axioms: [propext, Quot.sound] -/
#guard_msgs (whitespace := lax) in #print axioms Phoenix.Props.C66_bond_exact

/-- info: 'Phoenix.Props.C66_bond_succeeds' depends on axioms: [propext, Classical.choice, Quot.sound] -/
#guard_msgs (whitespace := lax) in #print axioms Phoenix.Props.C66_bond_succeeds

/-- info: 'Phoenix.Props.C67_config_permanent' depends on axioms: [propext, Quot.sound] -/
#guard_msgs (whitespace := lax) in #print axioms Phoenix.Props.C67_config_permanent

/-- info: 'Phoenix.Props.C67_anyone_initialises' depends on axioms: [propext, Quot.sound] -/
#guard_msgs (whitespace := lax) in #print axioms Phoenix.Props.C67_anyone_initialises

/-- info: 'Phoenix.Props.Stayer.C152_stayers_get_all' depends on axioms: [propext, Classical.choice, Quot.sound] -/
#guard_msgs (whitespace := lax) in #print axioms Phoenix.Props.Stayer.C152_stayers_get_all

/-- info: 'Phoenix.Props.Stayer.C152_anybody_takes_a_distribution_away' depends on axioms: [propext, Classical.choice, Quot.sound] -/
#guard_msgs (whitespace := lax) in #print axioms Phoenix.Props.Stayer.C152_anybody_takes_a_distribution_away

/-- info: 'Phoenix.Props.C120_pool_call' depends on axioms: [propext, Classical.choice, Quot.sound] -/
#guard_msgs (whitespace := lax) in #print axioms Phoenix.Props.C120_pool_call

/-- info: 'Phoenix.Props.C120_pool_history' depends on axioms: [propext, Classical.choice, Quot.sound] -/
#guard_msgs (whitespace := lax) in #print axioms Phoenix.Props.C120_pool_history

/-- info: 'Phoenix.Props.C120_stable_call' depends on axioms: [propext, Quot.sound] -/
#guard_msgs (whitespace := lax) in #print axioms Phoenix.Props.C120_stable_call

/-- info: 'Phoenix.Props.C120_stable_history' depends on axioms: [propext, Quot.sound] -/
#guard_msgs (whitespace := lax) in #print axioms Phoenix.Props.C120_stable_history

/-- info: 'Phoenix.Props.C120_stake_call' depends on axioms: [propext, Classical.choice, Quot.sound] -/
#guard_msgs (whitespace := lax) in #print axioms Phoenix.Props.C120_stake_call

/-- info: 'Phoenix.Props.C120_stake_history' depends on axioms: [propext, Classical.choice, Quot.sound] -/
#guard_msgs (whitespace := lax) in #print axioms Phoenix.Props.C120_stake_history

/-- info: 'Phoenix.Props.C120_token_construct' depends on axioms: [propext] -/
#guard_msgs (whitespace := lax) in #print axioms Phoenix.Props.C120_token_construct

/-- info: 'Phoenix.Props.C120_token_call' depends on axioms: [propext, Quot.sound] -/
#guard_msgs (whitespace := lax) in #print axioms Phoenix.Props.C120_token_call

/-- info: 'Phoenix.Props.C120_token_history' depends on axioms: [propext, Quot.sound] -/
#guard_msgs (whitespace := lax) in #print axioms Phoenix.Props.C120_token_history

/-- info: 'Phoenix.Props.C120_vesting_history' depends on axioms: [propext, Classical.choice, Quot.sound] -/
#guard_msgs (whitespace := lax) in #print axioms Phoenix.Props.C120_vesting_history

/-- info: 'Phoenix.Props.C120_vesting_call' depends on axioms: [propext, Classical.choice, Quot.sound] -/
#guard_msgs (whitespace := lax) in #print axioms Phoenix.Props.C120_vesting_call

/-- info: 'Phoenix.Props.Stray.C146_kept_for_ever' depends on axioms: [propext, Classical.choice, Quot.sound] -/
#guard_msgs (whitespace := lax) in #print axioms Phoenix.Props.Stray.C146_kept_for_ever

/-- info: 'Phoenix.Props.Stray.C146_bystanders' depends on axioms: [propext, Classical.choice, Quot.sound] -/
#guard_msgs (whitespace := lax) in #print axioms Phoenix.Props.Stray.C146_bystanders

/-- info: 'Phoenix.Props.Stray.C146_sent_not_staked' depends on axioms: [propext, Classical.choice, Quot.sound] -/
#guard_msgs (whitespace := lax) in #print axioms Phoenix.Props.Stray.C146_sent_not_staked

/-- info: 'Phoenix.Props.Stray.C146_trader_pays_back' depends on axioms: [propext, Classical.choice, Quot.sound] -/
#guard_msgs (whitespace := lax) in #print axioms Phoenix.Props.Stray.C146_trader_pays_back

/-- info: 'Phoenix.Props.World.C112_call' depends on axioms: [propext, Classical.choice, Quot.sound] -/
#guard_msgs (whitespace := lax) in #print axioms Phoenix.Props.World.C112_call

/-- info: 'Phoenix.Props.World.C112_history' depends on axioms: [propext, Classical.choice, Quot.sound] -/
#guard_msgs (whitespace := lax) in #print axioms Phoenix.Props.World.C112_history

/-- info: 'Phoenix.Props.World.C112_shares' depends on axioms: [propext, Classical.choice, Quot.sound] -/
#guard_msgs (whitespace := lax) in #print axioms Phoenix.Props.World.C112_shares

/-- info: 'Phoenix.Props.World.C112_no_inflation' depends on axioms: [propext, Classical.choice, Quot.sound] -/
#guard_msgs (whitespace := lax) in #print axioms Phoenix.Props.World.C112_no_inflation

/-- info: 'Phoenix.Props.Sybil.C168_splitting_never_pays' depends on axioms: [propext, Classical.choice, Quot.sound] -/
#guard_msgs (whitespace := lax) in #print axioms Phoenix.Props.Sybil.C168_splitting_never_pays

/-- info: 'Phoenix.Props.Sybil.C168_equal_stakes' depends on axioms: [propext, Classical.choice, Quot.sound] -/
#guard_msgs (whitespace := lax) in #print axioms Phoenix.Props.Sybil.C168_equal_stakes

/-- info: 'Phoenix.Props.C21_exact_effect' depends on axioms: [propext, Quot.sound] -/
#guard_msgs (whitespace := lax) in #print axioms Phoenix.Props.C21_exact_effect

/-- info: 'Phoenix.Props.C21_supply' depends on axioms: [propext, Classical.choice, Quot.sound] -/
#guard_msgs (whitespace := lax) in #print axioms Phoenix.Props.C21_supply

/-- info: 'Phoenix.Props.C21_others_unchanged' depends on axioms: [propext, Classical.choice, Quot.sound] -/
#guard_msgs (whitespace := lax) in #print axioms Phoenix.Props.C21_others_unchanged

/-- info: 'Phoenix.Props.C21_amount_bounds' depends on axioms: [propext, Quot.sound] -/
#guard_msgs (whitespace := lax) in #print axioms Phoenix.Props.C21_amount_bounds

/-- info: 'Phoenix.Props.C22_never_negative_never_overflow' depends on axioms: [propext, Quot.sound] -/
#guard_msgs (whitespace := lax) in #print axioms Phoenix.Props.C22_never_negative_never_overflow

/-- info: 'Phoenix.Props.C23_allowance_bounds_spending' depends on axioms: [propext, Quot.sound] -/
#guard_msgs (whitespace := lax) in #print axioms Phoenix.Props.C23_allowance_bounds_spending

/-- info: 'Phoenix.Props.C23_nothing_after_expiry' depends on axioms: [propext, Quot.sound] -/
#guard_msgs (whitespace := lax) in #print axioms Phoenix.Props.C23_nothing_after_expiry

/-- info: 'Phoenix.Props.C23_approve_sets' depends on axioms: [propext, Quot.sound] -/
#guard_msgs (whitespace := lax) in #print axioms Phoenix.Props.C23_approve_sets

/-- info: 'Phoenix.Props.C24_admin_change_authorised' depends on axioms: [propext, Quot.sound] -/
#guard_msgs (whitespace := lax) in #print axioms Phoenix.Props.C24_admin_change_authorised

/-- info: 'Phoenix.Props.C24_supply_growth_authorised' depends on axioms: [propext, Classical.choice, Quot.sound] -/
#guard_msgs (whitespace := lax) in #print axioms Phoenix.Props.C24_supply_growth_authorised

/-- info: 'Phoenix.Props.C24_no_inflation' depends on axioms: [propext, Classical.choice, Quot.sound] -/
#guard_msgs (whitespace := lax) in #print axioms Phoenix.Props.C24_no_inflation

/-- info: 'Phoenix.Props.Trader.C48_only_admin' depends on axioms: [propext, Quot.sound] -/
#guard_msgs (whitespace := lax) in #print axioms Phoenix.Props.Trader.C48_only_admin

/-- info: 'Phoenix.Props.Trader.C48_trade_inputs' depends on axioms: [propext, Classical.choice, Quot.sound] -/
#guard_msgs (whitespace := lax) in #print axioms Phoenix.Props.Trader.C48_trade_inputs

/-- info: 'Phoenix.Props.Trader.C48_transfer_exact' depends on axioms: [propext, Quot.sound] -/
#guard_msgs (whitespace := lax) in #print axioms Phoenix.Props.Trader.C48_transfer_exact

/-- info: 'Phoenix.Props.Trader.C48_init' depends on axioms: [propext, Quot.sound] -/
#guard_msgs (whitespace := lax) in #print axioms Phoenix.Props.Trader.C48_init

/-- info: 'Phoenix.Props.Trader.C48_permanent' depends on axioms: [propext, Classical.choice, Quot.sound] -/
#guard_msgs (whitespace := lax) in #print axioms Phoenix.Props.Trader.C48_permanent

/-- info: 'Phoenix.Props.Trader.C48_funds_safe' depends on axioms: [propext, Classical.choice, Quot.sound] -/
#guard_msgs (whitespace := lax) in #print axioms Phoenix.Props.Trader.C48_funds_safe

/-- info: 'Phoenix.Props.Trader.C49_default_is_callers_balance' depends on axioms: [propext, Quot.sound] -/
#guard_msgs (whitespace := lax) in #print axioms Phoenix.Props.Trader.C49_default_is_callers_balance

/-- info: 'Phoenix.Props.Trader.C49_fails_if_admin_has_none' depends on axioms: [propext, Quot.sound] -/
#guard_msgs (whitespace := lax) in #print axioms Phoenix.Props.Trader.C49_fails_if_admin_has_none

/-- info: 'Phoenix.Props.Trader.C81_trade_never_succeeds' depends on axioms: [propext, Classical.choice, Quot.sound] -/
#guard_msgs (whitespace := lax) in #print axioms Phoenix.Props.Trader.C81_trade_never_succeeds

/-- info: 'Phoenix.Props.Trader.C81_only_transfer_spends' depends on axioms: [propext, Classical.choice, Quot.sound] -/
#guard_msgs (whitespace := lax) in #print axioms Phoenix.Props.Trader.C81_only_transfer_spends

/-- info: 'Phoenix.Props.Ttl.C106_created_alike' depends on axioms: [propext, Quot.sound] -/
#guard_msgs (whitespace := lax) in #print axioms Phoenix.Props.Ttl.C106_created_alike

/-- info: 'Phoenix.Props.Ttl.C106_lifetimes_invisible' depends on axioms: [propext, Classical.choice, Quot.sound] -/
#guard_msgs (whitespace := lax) in #print axioms Phoenix.Props.Ttl.C106_lifetimes_invisible

/-- info: 'Phoenix.Props.Ttl.C106_only_lifetimes_fail' depends on axioms: [propext, Classical.choice, Quot.sound] -/
#guard_msgs (whitespace := lax) in #print axioms Phoenix.Props.Ttl.C106_only_lifetimes_fail

/-- info: 'Phoenix.Props.Ttl.C106_restorable' depends on axioms: [propext, Classical.choice, Quot.sound] -/
#guard_msgs (whitespace := lax) in #print axioms Phoenix.Props.Ttl.C106_restorable

/-- info: 'Phoenix.Props.Ttl.C106_allowance_lasts' depends on axioms: [propext, Classical.choice, Quot.sound] -/
#guard_msgs (whitespace := lax) in #print axioms Phoenix.Props.Ttl.C106_allowance_lasts

/-- info: 'Phoenix.Props.Ttl.C106_upkeep' depends on axioms: [propext, Classical.choice, Quot.sound] -/
#guard_msgs (whitespace := lax) in #print axioms Phoenix.Props.Ttl.C106_upkeep

/-- info: 'Phoenix.Props.Ttl.C106_network_limit' depends on axioms: [propext, Quot.sound] -/
#guard_msgs (whitespace := lax) in #print axioms Phoenix.Props.Ttl.C106_network_limit

/-- info: 'Phoenix.Props.Unclaimed.C144_paid_at_most_earned' depends on axioms: [propext, Classical.choice, Quot.sound] -/
#guard_msgs (whitespace := lax) in #print axioms Phoenix.Props.Unclaimed.C144_paid_at_most_earned

/-- info: 'Phoenix.Props.Unclaimed.C144_unearned_stays' depends on axioms: [propext, Classical.choice, Quot.sound] -/
#guard_msgs (whitespace := lax) in #print axioms Phoenix.Props.Unclaimed.C144_unearned_stays

/-- info: 'Phoenix.Props.Unclaimed.C144_young_stakes_waste' depends on axioms: [propext, Classical.choice, Quot.sound] -/
#guard_msgs (whitespace := lax) in #print axioms Phoenix.Props.Unclaimed.C144_young_stakes_waste

/-- info: 'Phoenix.Props.Unclaimed.C144_old_stakes_earn_all' depends on axioms: [propext, Classical.choice, Quot.sound] -/
#guard_msgs (whitespace := lax) in #print axioms Phoenix.Props.Unclaimed.C144_old_stakes_earn_all

/-- info: 'Phoenix.Props.Value.C107_value_per_share' depends on axioms: [propext, Classical.choice, Quot.sound] -/
#guard_msgs (whitespace := lax) in #print axioms Phoenix.Props.Value.C107_value_per_share

/-- info: 'Phoenix.Props.Value.C107_no_free_cycle' depends on axioms: [propext, Classical.choice, Quot.sound] -/
#guard_msgs (whitespace := lax) in #print axioms Phoenix.Props.Value.C107_no_free_cycle

/-- info: 'Phoenix.Props.Stable.C109_value_per_share' depends on axioms: [propext, Classical.choice, Quot.sound] -/
#guard_msgs (whitespace := lax) in #print axioms Phoenix.Props.Stable.C109_value_per_share

/-- info: 'Phoenix.Props.Stable.C109_swaps_only' depends on axioms: [propext, Classical.choice, Quot.sound] -/
#guard_msgs (whitespace := lax) in #print axioms Phoenix.Props.Stable.C109_swaps_only

/-- info: 'Phoenix.Props.Stable.C109_no_free_cycle' depends on axioms: [propext, Classical.choice, Quot.sound] -/
#guard_msgs (whitespace := lax) in #print axioms Phoenix.Props.Stable.C109_no_free_cycle

/-- info: 'Phoenix.Props.C29_obligations_backed' depends on axioms: [propext, Classical.choice, Quot.sound] -/
#guard_msgs (whitespace := lax) in #print axioms Phoenix.Props.C29_obligations_backed

/-- info: 'Phoenix.Props.C29_reported_balance_covers' depends on axioms: [propext, Classical.choice, Quot.sound] -/
#guard_msgs (whitespace := lax) in #print axioms Phoenix.Props.C29_reported_balance_covers

/-- info: 'Phoenix.Props.C30_claimed_is_vested' depends on axioms: [propext, Classical.choice, Quot.sound] -/
#guard_msgs (whitespace := lax) in #print axioms Phoenix.Props.C30_claimed_is_vested

/-- info: 'Phoenix.Props.C30_never_more_than_vested' depends on axioms: [propext, Classical.choice, Quot.sound] -/
#guard_msgs (whitespace := lax) in #print axioms Phoenix.Props.C30_never_more_than_vested

/-- info: 'Phoenix.Props.C31_everything_claimable' depends on axioms: [propext, Classical.choice, Quot.sound] -/
#guard_msgs (whitespace := lax) in #print axioms Phoenix.Props.C31_everything_claimable

/-- info: 'Phoenix.Props.C31_end_instant_can_fail' depends on axioms: [propext, Quot.sound] -/
#guard_msgs (whitespace := lax) in #print axioms Phoenix.Props.C31_end_instant_can_fail

/-- info: 'Phoenix.Props.C32_claim_only_own' depends on axioms: [propext, Classical.choice, Quot.sound] -/
#guard_msgs (whitespace := lax) in #print axioms Phoenix.Props.C32_claim_only_own

/-- info: 'Phoenix.Props.C32_schedules_permanent' depends on axioms: [propext, Classical.choice, Quot.sound] -/
#guard_msgs (whitespace := lax) in #print axioms Phoenix.Props.C32_schedules_permanent

/-- info: 'Phoenix.Props.C32_create_exact' depends on axioms: [propext, Classical.choice, Quot.sound] -/
#guard_msgs (whitespace := lax) in #print axioms Phoenix.Props.C32_create_exact

/-- info: 'Phoenix.Props.C33_repeat_fails' depends on axioms: [propext, Classical.choice, Quot.sound] -/
#guard_msgs (whitespace := lax) in #print axioms Phoenix.Props.C33_repeat_fails

/-- info: 'Phoenix.Props.C33_increment' depends on axioms: [propext, Classical.choice, Quot.sound] -/
#guard_msgs (whitespace := lax) in #print axioms Phoenix.Props.C33_increment

/-- info: 'Phoenix.Props.C34_minted_bounded' depends on axioms: [propext, Classical.choice, Quot.sound] -/
#guard_msgs (whitespace := lax) in #print axioms Phoenix.Props.C34_minted_bounded

/-- info: 'Phoenix.Props.C34_only_minter_mints' depends on axioms: [propext, Classical.choice, Quot.sound] -/
#guard_msgs (whitespace := lax) in #print axioms Phoenix.Props.C34_only_minter_mints

/-- info: 'Phoenix.Props.C34_minter_changes_authorised' depends on axioms: [propext, Classical.choice, Quot.sound] -/
#guard_msgs (whitespace := lax) in #print axioms Phoenix.Props.C34_minter_changes_authorised

/-- info: 'Phoenix.Props.C60_surplus_never_leaves' depends on axioms: [propext, Classical.choice, Quot.sound] -/
#guard_msgs (whitespace := lax) in #print axioms Phoenix.Props.C60_surplus_never_leaves

/-- info: 'Phoenix.Props.C61_valid_schedules_accepted' depends on axioms: [propext, Classical.choice, Quot.sound] -/
#guard_msgs (whitespace := lax) in #print axioms Phoenix.Props.C61_valid_schedules_accepted

/-- info: 'Phoenix.Props.C62_query_all_complete' depends on axioms: [propext, Classical.choice, Quot.sound] -/
#guard_msgs (whitespace := lax) in #print axioms Phoenix.Props.C62_query_all_complete

/-- info: 'Phoenix.Props.C63_no_unauthorised_movement' depends on axioms: [propext, Classical.choice, Quot.sound] -/
#guard_msgs (whitespace := lax) in #print axioms Phoenix.Props.C63_no_unauthorised_movement

/-- info: 'Phoenix.Props.C64_setup_permanent' depends on axioms: [propext, Classical.choice, Quot.sound] -/
#guard_msgs (whitespace := lax) in #print axioms Phoenix.Props.C64_setup_permanent

/-- info: 'Phoenix.Props.C64_anyone_initialises' depends on axioms: [propext, Quot.sound] -/
#guard_msgs (whitespace := lax) in #print axioms Phoenix.Props.C64_anyone_initialises

/-- info: 'Phoenix.Props.VestingMinter.C160_minter' depends on axioms: [propext, Classical.choice, Quot.sound] -/
#guard_msgs (whitespace := lax) in #print axioms Phoenix.Props.VestingMinter.C160_minter

/-- info: 'Phoenix.Props.VestingMinter.C160_within_grant' depends on axioms: [propext, Classical.choice, Quot.sound] -/
#guard_msgs (whitespace := lax) in #print axioms Phoenix.Props.VestingMinter.C160_within_grant

/-- info: 'Phoenix.Props.VestingMinter.C160_info' depends on axioms: [propext, Classical.choice, Quot.sound] -/
#guard_msgs (whitespace := lax) in #print axioms Phoenix.Props.VestingMinter.C160_info

/-- info: 'Phoenix.Props.Work.C142_same' depends on axioms: [propext, Quot.sound] -/
#guard_msgs (whitespace := lax) in #print axioms Phoenix.Props.Work.C142_same

/-- info: 'Phoenix.Props.Work.C142_sizes' depends on axioms: [propext, Classical.choice, Quot.sound] -/
#guard_msgs (whitespace := lax) in #print axioms Phoenix.Props.Work.C142_sizes

/-- info: 'Phoenix.Props.Work.C142_bond' depends on axioms: [propext, Quot.sound] -/
#guard_msgs (whitespace := lax) in #print axioms Phoenix.Props.Work.C142_bond

/-- info: 'Phoenix.Props.Work.C142_unbond' depends on axioms: [propext, Classical.choice, Quot.sound] -/
#guard_msgs (whitespace := lax) in #print axioms Phoenix.Props.Work.C142_unbond

/-- info: 'Phoenix.Props.Work.C142_announce' depends on axioms: [propext, Classical.choice, Quot.sound] -/
#guard_msgs (whitespace := lax) in #print axioms Phoenix.Props.Work.C142_announce

/-- info: 'Phoenix.Props.Work.C142_distribute' depends on axioms: [propext, Classical.choice, Quot.sound] -/
#guard_msgs (whitespace := lax) in #print axioms Phoenix.Props.Work.C142_distribute

/-- info: 'Phoenix.Props.Work.C142_withdraw' depends on axioms: [propext, Classical.choice, Quot.sound] -/
#guard_msgs (whitespace := lax) in #print axioms Phoenix.Props.Work.C142_withdraw

/-- info: 'Phoenix.Props.Work.C142_withdraw_grows' depends on axioms: [propext, Classical.choice, Quot.sound] -/
#guard_msgs (whitespace := lax) in #print axioms Phoenix.Props.Work.C142_withdraw_grows

/-- info: 'Phoenix.Props.Work.C142_complexity_ignored' depends on axioms: [propext, Quot.sound] -/
#guard_msgs (whitespace := lax) in #print axioms Phoenix.Props.Work.C142_complexity_ignored

/-- info: 'Phoenix.Props.Work.C142_no_limit' depends on axioms: [propext, Classical.choice, Quot.sound] -/
#guard_msgs (whitespace := lax) in #print axioms Phoenix.Props.Work.C142_no_limit

/-- info: 'Phoenix.Props.WorkRewards.C166_same' depends on axioms: [propext] -/
#guard_msgs (whitespace := lax) in #print axioms Phoenix.Props.WorkRewards.C166_same

/-- info: 'Phoenix.Props.WorkRewards.C166_distribute' depends on axioms: [propext, Classical.choice, Quot.sound] -/
#guard_msgs (whitespace := lax) in #print axioms Phoenix.Props.WorkRewards.C166_distribute

/-- info: 'Phoenix.Props.WorkRewards.C166_withdraw' depends on axioms: [propext, Quot.sound] -/
#guard_msgs (whitespace := lax) in #print axioms Phoenix.Props.WorkRewards.C166_withdraw

/-- info: 'Phoenix.Props.WorkRewards.C166_unbond' depends on axioms: [propext, Quot.sound] -/
#guard_msgs (whitespace := lax) in #print axioms Phoenix.Props.WorkRewards.C166_unbond

/-- info: 'Phoenix.Props.WorkRewards.C166_fund' depends on axioms: [propext, Classical.choice, Quot.sound] -/
#guard_msgs (whitespace := lax) in #print axioms Phoenix.Props.WorkRewards.C166_fund

/-- info: 'Phoenix.Props.WorkVesting.C159_same' depends on axioms: [propext, Quot.sound] -/
#guard_msgs (whitespace := lax) in #print axioms Phoenix.Props.WorkVesting.C159_same

/-- info: 'Phoenix.Props.WorkVesting.C159_claim' depends on axioms: [propext, Classical.choice, Quot.sound] -/
#guard_msgs (whitespace := lax) in #print axioms Phoenix.Props.WorkVesting.C159_claim

/-- info: 'Phoenix.Props.WorkVesting.C159_create' depends on axioms: [propext, Classical.choice, Quot.sound] -/
#guard_msgs (whitespace := lax) in #print axioms Phoenix.Props.WorkVesting.C159_create

/-- info: 'Phoenix.Props.WorkVesting.C159_schedules' depends on axioms: [propext, Classical.choice, Quot.sound] -/
#guard_msgs (whitespace := lax) in #print axioms Phoenix.Props.WorkVesting.C159_schedules

/-- info: 'Phoenix.Props.WorkVesting.C159_list' depends on axioms: [propext, Quot.sound] -/
#guard_msgs (whitespace := lax) in #print axioms Phoenix.Props.WorkVesting.C159_list

/-- info: 'Phoenix.Props.WorkVesting.C159_create_unbounded' depends on axioms: [propext, Classical.choice, Quot.sound] -/
#guard_msgs (whitespace := lax) in #print axioms Phoenix.Props.WorkVesting.C159_create_unbounded

/-- info: 'Phoenix.Props.WorkWorld.C161_same' depends on axioms: [propext, Quot.sound] -/
#guard_msgs (whitespace := lax) in #print axioms Phoenix.Props.WorkWorld.C161_same

/-- info: 'Phoenix.Props.WorkWorld.C161_route' depends on axioms: [propext, Quot.sound] -/
#guard_msgs (whitespace := lax) in #print axioms Phoenix.Props.WorkWorld.C161_route

/-- info: 'Phoenix.Props.WorkWorld.C161_factory' depends on axioms: [propext, Classical.choice, Quot.sound] -/
#guard_msgs (whitespace := lax) in #print axioms Phoenix.Props.WorkWorld.C161_factory

/-- info: 'Phoenix.Props.WorkWorld.C161_portfolio' depends on axioms: [propext, Classical.choice, Quot.sound] -/
#guard_msgs (whitespace := lax) in #print axioms Phoenix.Props.WorkWorld.C161_portfolio

/-- info: 'Phoenix.Props.World.C43_pools_exact' depends on axioms: [propext, Classical.choice, Quot.sound] -/
#guard_msgs (whitespace := lax) in #print axioms Phoenix.Props.World.C43_pools_exact

/-- info: 'Phoenix.Props.World.C43_lookup_iff' depends on axioms: [propext, Classical.choice, Quot.sound] -/
#guard_msgs (whitespace := lax) in #print axioms Phoenix.Props.World.C43_lookup_iff

/-- info: 'Phoenix.Props.World.C43_lookup_symmetric' depends on axioms: [propext, Classical.choice, Quot.sound] -/
#guard_msgs (whitespace := lax) in #print axioms Phoenix.Props.World.C43_lookup_symmetric

/-- info: 'Phoenix.Props.World.C43_created_found' depends on axioms: [propext, Classical.choice, Quot.sound] -/
#guard_msgs (whitespace := lax) in #print axioms Phoenix.Props.World.C43_created_found

/-- info: 'Phoenix.Props.World.C43_one_pool_per_pair' depends on axioms: [propext, Classical.choice, Quot.sound] -/
#guard_msgs (whitespace := lax) in #print axioms Phoenix.Props.World.C43_one_pool_per_pair

/-- info: 'Phoenix.Props.World.C44_create_requires' depends on axioms: [propext, Quot.sound] -/
#guard_msgs (whitespace := lax) in #print axioms Phoenix.Props.World.C44_create_requires

/-- info: 'Phoenix.Props.World.C44_settings_by_admin' depends on axioms: [propext, Classical.choice, Quot.sound] -/
#guard_msgs (whitespace := lax) in #print axioms Phoenix.Props.World.C44_settings_by_admin

/-- info: 'Phoenix.Props.World.C44_whitelist_update' depends on axioms: [propext, Classical.choice, Quot.sound] -/
#guard_msgs (whitespace := lax) in #print axioms Phoenix.Props.World.C44_whitelist_update

/-- info: 'Phoenix.Props.World.C76_pools_backed' depends on axioms: [propext, Classical.choice, Quot.sound] -/
#guard_msgs (whitespace := lax) in #print axioms Phoenix.Props.World.C76_pools_backed

/-- info: 'Phoenix.Props.World.C76_stakes_and_vestings_backed' depends on axioms: [propext, Classical.choice, Quot.sound] -/
#guard_msgs (whitespace := lax) in #print axioms Phoenix.Props.World.C76_stakes_and_vestings_backed

/-- info: 'Phoenix.Props.World.C76_rewards_backed' depends on axioms: [propext, Classical.choice, Quot.sound] -/
#guard_msgs (whitespace := lax) in #print axioms Phoenix.Props.World.C76_rewards_backed

/-- info: 'Phoenix.Props.World.C77_silent_account_keeps' depends on axioms: [propext, Classical.choice, Quot.sound] -/
#guard_msgs (whitespace := lax) in #print axioms Phoenix.Props.World.C77_silent_account_keeps

/-- info: 'Phoenix.Props.World.C78_created_pool_wired' depends on axioms: [propext, Classical.choice, Quot.sound] -/
#guard_msgs (whitespace := lax) in #print axioms Phoenix.Props.World.C78_created_pool_wired

/-- info: 'Phoenix.Props.World.C79_contracts_separate' depends on axioms: [propext, Quot.sound] -/
#guard_msgs (whitespace := lax) in #print axioms Phoenix.Props.World.C79_contracts_separate

/-- info: 'Phoenix.Props.World.C79_funds_separate' depends on axioms: [propext, Classical.choice, Quot.sound] -/
#guard_msgs (whitespace := lax) in #print axioms Phoenix.Props.World.C79_funds_separate
