import Verif.Model.World
/-!
# Replacing the code of a contract

Pools, stake contracts, reward contracts, vesting contracts, the factory and the router have an
entry point that replaces their own code.  What the new code does is unknown, so only the
question whether the replacement is allowed is modelled.
-/
namespace Phoenix.World

/-- The administrator that the contract at `a` has stored: `get_admin`, packages/phoenix and
contracts/{pool,pool_stable}/src/storage.rs (`utils::get_admin`), contracts/stake/src/storage.rs:77-89,
contracts/stake_rewards/src/storage.rs, contracts/vesting/src/storage.rs, contracts/multihop/src/storage.rs,
contracts/factory/src/storage.rs (field of `Config`).  Nothing before `initialize`.  Tokens and traders have
no entry point that replaces their code. -/
def adminOf (w : World) (a : Addr) : Option Addr :=
  match w.code a with
  | .xyk => (w.xyk a).map (·.admin)
  | .stable => (w.stable a).map (·.admin)
  | .stake => (w.stake a).cfg.map (fun _ => (w.stake a).admin)
  | .vesting => (w.vest a).map (·.admin)
  | .factory => (w.fac a).map (·.admin)
  | .multihop => (w.hop a).map (·.admin)
  | .rewards => (w.rew a).cfg.map (fun _ => (w.rew a).admin)
  | .trader | .token | .none => none

/-- Whether the contract at `a` accepts a replacement of its code: `update` (and `upgrade`) of
contracts/factory/src/contract.rs:497-503, contracts/multihop/src/contract.rs:293-298,
contracts/pool/src/contract.rs:583-589 and 780-785, contracts/pool_stable/src/contract.rs:605-610 and 824-829,
contracts/stake/src/contract.rs:389-393, contracts/stake_rewards/src/contract.rs:540-545,
contracts/vesting/src/contract.rs:472-477.  All read the stored administrator, which fails
before `initialize`, and ask for its authorisation. -/
def replace (w : World) (c : Ctx) (a : Addr) : Res Unit :=
  match adminOf w a with
  | some admin => requireAuth c admin
  | none => .error .panic

end Phoenix.World
