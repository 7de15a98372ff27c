import Verif.Model.Vesting
/-! The two queries of the vesting contract that read one entry.  Like every query they also prolong
the lifetime of storage, which is modelled in Verif.Model.LifeVesting and left out here. -/
namespace Phoenix.Vesting
open Phoenix

/-- `query_vesting_info`, contracts/vesting/src/contract.rs:419-424.  Before `initialize` there are no
entries, so it fails in the same way. -/
def queryInfo (s : Sys) (a : Addr) (i : Nat) : Res Info :=
  match s.vest with
  | some v => getVesting v a i
  | none => .error (.code 1)

/-- `query_minter`, contracts/vesting/src/contract.rs:440-451. -/
def queryMinter (s : Sys) : Res Minter :=
  match s.vest with
  | some v => needMinter v
  | none => .error (.code 3)

end Phoenix.Vesting
