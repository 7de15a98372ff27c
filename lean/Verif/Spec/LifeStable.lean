import Verif.Spec.Life
import Verif.Model.LifeStable
/-! The persistent entries that the calls of the stable pool use. -/
namespace Phoenix.Life.Stable
open Phoenix Phoenix.Store

/-- Only `initialize` uses a persistent entry, its own mark; everything else is in the instance. -/
def uses : Phoenix.Stable.Tx → List Key
  | .pool _ (.init _) => [.u32 4]
  | _ => []

end Phoenix.Life.Stable
