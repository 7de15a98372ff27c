import Verif.Model.Rewards
import Verif.Lemmas.Basic
/-
The repository's own unit tests of the rewards contract, replayed on the model: the tests inside
contracts/stake_rewards/src/distribution.rs, tests/bond.rs, and the numbers of
tests/distribution.rs.  The last file is commented out in tests.rs and calls an older interface in
which the contract asked the stake contract itself; here its calls get the stakes as arguments.
These are tests of the model, not proofs of properties.
-/
namespace Phoenix.Conform.Rewards
open Phoenix Phoenix.Rewards

/-- `env.mock_all_auths()`: everybody signs -/
def all (now : Nat) : Ctx := { now := now, seq := 0, signed := fun _ => true }
abbrev DAY : Nat := 86400
/-- every call must succeed; the contract is 100, its admin 9, the stake contract 50, the reward token 11 -/
def play (s : Sys) : List Tx → Res Sys
  | [] => .ok s
  | t :: ts => do play (← step 100 s t) ts
def setup (ts : List Tx) : Res Sys :=
  play ⟨fresh, fun _ => { admin := 9, decimals := 7, bal := fun _ => 0, allow := fun _ _ => ⟨0, 0⟩ }⟩
    (.rewards (all 0) (.init 9 50 11 10 1000 1000) :: .token (all 0) 11 (.mint 9 1000000) :: ts)
def fundT (now start dur : Nat) (x : Int) : Tx := .rewards (all now) (.fund start dur x)
def one (x : Int) (ts : Nat) : Stake.Info := ⟨[⟨x, ts⟩], 0, x⟩
def add (u : Addr) (x : Int) (ts : Nat) : Tx := .rewards (all ts) (.addUser u (one x ts))
def dist (now : Nat) (total : Int) : Tx := .rewards (all now) (.distribute total)
def reward (r : Res Sys) (now : Nat) (u : Addr) (i : Stake.Info) (x : Nat) : Bool :=
  okAnd r (fun s => okAnd (queryWithdrawable (all now) s.st u i) (fun y => decide (y = x)))
def undist (r : Res Sys) (x : Nat) : Bool := okAnd r (fun s => okAnd (queryUndistributed 100 s.st s.led 11) (fun y => decide (y = x)))

/-! the tests inside distribution.rs -/

/-- `calculate_annualized_payout_should_return_zero_when_last_timestamp_in_the_past`,
`.._should_return_zero_when_no_end`, `.._should_return_value_when_timestamp_in_the_future` -/
example : (okAnd (annualized (.sl 15 1 60 120) 121) (fun x => decide (x = 0)) &&
    okAnd (annualized (.sl 15 1 (31536000 + 60) (31536000 + 120)) (31536000 + 1))
      (fun x => decide (x = 16856291324745762711864406779661)) &&
    okAnd (annualized (.constant 10) 121) (fun x => decide (x = 0))) = true := by decide +kernel
/-- `update_rewards_should_return_early_if_old_power_is_same_as_new_power` -/
example : okAnd (updateRewards fresh 1 10 10) (fun s => decide ((s.adj 1).corr = 0)) = true := by decide +kernel

/-! bond.rs -/

/-- `initialize_staking_rewards_contract`, `initializing_contract_twice_should_fail`, `calculate_bond_called_by_anyone` -/
example :
    (okAnd (setup []) (fun s => okAnd (queryConfig s.st) (fun c => decide (c = ⟨50, 11, 10, 1000, 1000⟩)) &&
      okAnd (queryAdmin s.st) (fun a => decide (a = 9))) &&
    failsWith (setup [.rewards (all 0) (.init 9 50 11 10 1000 1000)]) (.code 1) &&
    failsWith (setup [.rewards { now := 0, seq := 0, signed := fun _ => false } (.calcBond 1 (one 10000 0))]) .auth) = true := by decide +kernel

/-! numbers of distribution.rs -/

/-- `two_users_one_starts_after_distribution_begins` -/
example :
    let h := [fundT 0 0 (180 * DAY) 1000000, add 1 10000 0, dist (60 * DAY) 10000]
    let h1 := h ++ [add 2 10000 (60 * DAY), dist (120 * DAY) 20000]
    (reward (setup h) (60 * DAY) 1 (one 10000 0) 333332 &&
      reward (setup h1) (120 * DAY) 1 (one 10000 0) 499999 &&
      reward (setup h1) (120 * DAY) 2 (one 10000 (60 * DAY)) 166666 && undist (setup h1) 333334) = true := by decide +kernel
/-- the failing calls of `fund_distribution` -/
example : (failsWith (setup [fundT 1000 999 600 1000]) (.code 9) && failsWith (setup [fundT 0 0 600 10]) (.code 6)) = true := by decide +kernel

end Phoenix.Conform.Rewards
