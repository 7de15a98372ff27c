import Verif.Spec.Life
import Verif.Model.LifeVesting
/-! The persistent entries that the calls of the vesting contract use, and those they keep alive. -/
namespace Phoenix.Life.Vesting
open Phoenix Phoenix.Store

/-- the entry of a schedule -/
def schedule (a : Addr) (i : Nat) : Key := .mcons "index" (.u64 i) (.mcons "recipient" (.addr a) .mnil)

/-- the indices of a recipient's schedules and the next one: those before which every index is taken -/
def upToNext (v : Phoenix.Vesting.State) (a : Addr) : List Nat :=
  (List.range (v.entries + 1)).filter (fun j => (List.range j).all (fun i => (v.sched a i).isSome))

/-- A claim uses the schedule claimed from.  Creating schedules uses the administrator's entry and, of every
recipient, all earlier schedules and the new one.  Setting a first minter or a capacity uses the
administrator's entry.  All else is in the instance. -/
def uses (v : Option Phoenix.Vesting.State) : Phoenix.Vesting.Tx → List Key
  | .token _ _ _ => []
  | .vest _ (.init _ _ _ _) => [.u32 1]
  | .vest _ (.create l) => .u32 1 :: (match v with
    | none => []
    | some s => l.flatMap (fun p => (upToNext s p.1).map (schedule p.1)))
  | .vest _ (.claim sender i) => [schedule sender i]
  | .vest _ (.burn _ _) => []
  | .vest _ (.mint _ _) => []
  | .vest _ (.updateMinter _ _) => match v with
    | some s => if s.minter = none then [.u32 1] else []
    | none => []
  | .vest _ (.updateCapacity _ _) => [.u32 1]

/-- Creating schedules does not keep the earlier ones of the recipients alive; otherwise, what a call uses
it keeps alive. -/
def keepsAlive (v : Option Phoenix.Vesting.State) : Phoenix.Vesting.Tx → List Key
  | .vest _ (.create l) => .u32 1 :: (match v with
    | none => []
    | some s => l.flatMap (fun p => ((upToNext s p.1).filter (fun i => (s.sched p.1 i).isNone)).map (schedule p.1)))
  | t => uses v t

end Phoenix.Life.Vesting
