import Verif.Spec.Life
import Verif.Model.LifePool
/-! The persistent entries that the calls of the pool use. -/
namespace Phoenix.Life.Pool
open Phoenix Phoenix.Store

/-- Swaps use the configuration and the reserves, withdrawals the total of the shares as well, deposits
also the default slippage; the administrator's entry is used only by the administrator, and the mark of
the initialisation only by `initialize`. -/
def uses : Phoenix.Pool.Tx → List Key
  | .token _ _ _ => []
  | .pool _ (.init _) => [.u32 4, .sym "CONFIG", .sym "DSLIPBPS", .u32 3, .u32 0, .u32 1, .u32 2]
  | .pool _ (.provide _ _ _ _ _ _ _) => [.sym "CONFIG", .u32 1, .u32 2, .sym "DSLIPBPS", .u32 0]
  | .pool _ (.swap _ _ _ _ _ _ _) => [.sym "CONFIG", .u32 1, .u32 2]
  | .pool _ (.withdraw _ _ _ _ _) => [.sym "CONFIG", .u32 1, .u32 2, .u32 0]
  | .pool _ (.updateConfig _) => [.u32 3, .sym "CONFIG"]
  | .pool _ (.upgrade _) => [.u32 3, .sym "DSLIPBPS"]

/-- The calls that extend the pool's instance: neither `initialize` nor `upgrade` does. -/
def extendsInst : Phoenix.Pool.Tx → Bool
  | .pool _ (.init _) => false
  | .pool _ (.upgrade _) => false
  | .pool _ _ => true
  | .token _ _ _ => false

end Phoenix.Life.Pool
