import Verif.Spec.Life
import Verif.Model.LifeStake
/-! The persistent entries that the calls of the stake contract use. -/
namespace Phoenix.Life.Stake
open Phoenix Phoenix.Store

/-- The configuration, the counter, the reward tokens and the history of the total are shared; apart
from these a user's call uses only the user's own entry, and a call about a reward token only the
history of this token.  `withdraw_rewards` uses the histories of all reward tokens. -/
def uses (dists : List Addr) : Phoenix.Stake.Tx → List Key
  | .token _ _ _ => []
  | .stake _ (.init _ _ _ _ _ _ _) => [.sym "CONFIG", .u32 0, .u32 1, .cons (.sym "TotalStakedHistory") .nil]
  | .stake _ (.bond sender _) => [.sym "CONFIG", .addr sender, .u32 1]
  | .stake _ (.unbond sender _ _) => [.sym "CONFIG", .addr sender, .u32 1]
  | .stake _ (.createFlow _ asset) => [.sym "CONFIG", .u32 2, .cons (.sym "RewardHistory") (.cons (.addr asset) .nil)]
  | .stake _ (.distribute _ _ tok) => [.sym "CONFIG", .u32 2, .u32 1, .cons (.sym "TotalStakedHistory") .nil,
      .cons (.sym "RewardHistory") (.cons (.addr tok) .nil)]
  | .stake _ (.withdraw sender) => [.addr sender, .u32 2] ++
      dists.flatMap (fun a => [.cons (.sym "RewardHistory") (.cons (.addr a) .nil), .cons (.sym "TotalStakedHistory") .nil])

end Phoenix.Life.Stake
