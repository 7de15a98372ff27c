import Verif.Spec.World
/-!
What a factory's reports about its pools and about a user should say.
-/
namespace Phoenix.World.Spec
open Phoenix Phoenix.World

/-- `i` is the present state of the pool at `P`: its tokens with the recorded reserves, its share
token with the recorded supply, its stake contract and its fee. -/
def Describes (w : World) (P : Addr) (i : PoolInfo) : Prop :=
  i.pool = P ∧
  ((w.code P = .xyk ∧ ∃ p, w.xyk P = some p ∧ i.assetA = (p.cfg.tokenA, p.resA) ∧ i.assetB = (p.cfg.tokenB, p.resB) ∧
      i.share = (p.cfg.shareToken, p.total) ∧ i.stake = p.cfg.stakeContract ∧ i.feeBps = p.cfg.totalFeeBps) ∨
   (w.code P = .stable ∧ ∃ p, w.stable P = some p ∧ i.assetA = (p.cfg.tokenA, p.resA) ∧ i.assetB = (p.cfg.tokenB, p.resB) ∧
      i.share = (p.cfg.shareToken, p.total) ∧ i.stake = p.cfg.stakeContract ∧ i.feeBps = p.cfg.totalFeeBps))

/-- The recorded stakes of `user` at the stake contract `K`. -/
def stakesOf (w : World) (K user : Addr) : List Stake.Entry := ((w.stake K).info user).stakes

/-- All LP shares of the pool described by `i` that belong to `user`: in the wallet and staked. -/
def lpOf (w : World) (i : PoolInfo) (user : Addr) : Int :=
  w.led.bal i.share.1 user + ((stakesOf w i.stake user).map (·.amount)).sum

/-- What `query_share` of the pool announces for all LP shares of `user`. -/
def worth (w : World) (i : PoolInfo) (user : Addr) : Res ((Addr × Int) × (Addr × Int)) :=
  poolShare w i.pool (lpOf w i user)

end Phoenix.World.Spec
