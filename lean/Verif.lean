import Verif.Model.Pool
import Verif.Props.Token
import Verif.Props.PoolMath
import Verif.Props.PoolSwap
import Verif.Props.PoolLp
import Verif.Props.PoolSys
import Verif.Props.Curve
import Verif.Props.Vesting
import Verif.Props.Stake
import Verif.Props.StableSwap
import Verif.Props.StableSys
import Verif.Props.Share
import Verif.Props.World
import Verif.Props.Multihop
import Verif.Props.Trader
import Verif.Props.Decimal
import Verif.Props.DecimalText
import Verif.Props.Rewards
import Verif.Props.Portfolio
import Verif.Props.Decimal256
import Verif.Props.PoolDead
import Verif.Props.Admin
import Verif.Props.Split
import Verif.Props.Avail
import Verif.Props.AvailLp
import Verif.Axioms
import Verif.Props.Events
import Verif.Props.EventsStable
import Verif.Props.EventsLog
import Verif.Props.Foreign
import Verif.Props.ForeignStable
import Verif.Props.ForeignHold
import Verif.Props.Ttl
import Verif.Props.Value
import Verif.Conform.Pool
import Verif.Conform.Stable
import Verif.Conform.StableUnit
import Verif.Conform.PoolUnit
import Verif.Conform.Utils
import Verif.Conform.Unit
import Verif.Conform.Vesting
import Verif.Conform.Stake
import Verif.Conform.Token
import Verif.Conform.World
import Verif.Conform.Rewards
import Verif.Props.AvailStable
import Verif.Props.ValueStable
import Verif.Props.Signed
import Verif.Props.Supply
import Verif.Props.AvailStake
import Verif.Props.AvailVesting
import Verif.Props.Deployed
import Verif.Props.AvailFactory
import Verif.Props.StableMore
import Verif.Props.Order
import Verif.Props.AvailToken
import Verif.Props.StorePool
import Verif.Props.StoreStable
import Verif.Props.StoreStake
import Verif.Props.StoreVesting
import Verif.Props.StoreToken
import Verif.Props.RouteQuote
import Verif.Props.LifeStake
import Verif.Props.LifePool
import Verif.Props.LifeStable
import Verif.Props.LifeVesting
import Verif.Props.LifeRewards
import Verif.Spec.Trade
import Verif.Props.Sandwich
import Verif.Props.EventsRewards
import Verif.Props.LifeFactory
import Verif.Props.LifePeriphery
import Verif.Props.AvailRewards
import Verif.Props.Position
import Verif.Props.Rights
import Verif.Props.Exit
import Verif.Props.PositionStable
import Verif.Props.StableTrade
import Verif.Props.EventsPeriphery
import Verif.Props.Queries
import Verif.Props.Deposit
import Verif.Props.NoYield
import Verif.Props.Rename
import Verif.Props.Mirror
import Verif.Props.Delay
import Verif.Props.Names
import Verif.Props.ReverseQuote
import Verif.Props.Work
import Verif.Props.Parts
import Verif.Props.Unclaimed
import Verif.Props.StableParts
import Verif.Props.Stray
import Verif.Props.Price
import Verif.Props.Cycle
import Verif.Props.Depth
import Verif.Props.DepositParts
import Verif.Props.Later
import Verif.Props.Stayer
import Verif.Props.Project
import Verif.Props.Fees
import Verif.Props.More
import Verif.Props.Dearer
import Verif.Props.DearerStable
import Verif.Props.MoreIn
import Verif.Props.Habits
import Verif.Model.WorkVesting
import Verif.Spec.WorkVesting
import Verif.Spec.FundingDates
import Verif.Spec.Released
import Verif.Lemmas.CurveExact
import Verif.Lemmas.WorkVesting
import Verif.Props.WorkVesting
import Verif.Model.QueriesVesting
import Verif.Spec.VestingMinter
import Verif.Props.VestingMinter
import Verif.Model.WorkWorld
import Verif.Props.WorkWorld
import Verif.Props.FundingDates
import Verif.Props.Released
import Verif.Props.Covered
import Verif.Props.Repeated
import Verif.Model.WorkRewards
import Verif.Lemmas.WorkRewards
import Verif.Props.WorkRewards
import Verif.Props.Leaver
import Verif.Props.Sybil
import Verif.Props.Lost
import Verif.Props.JustInTime
import Verif.Props.HowOften
import Verif.Props.PayTiming
import Verif.Props.OrderRewards
