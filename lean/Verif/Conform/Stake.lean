import Verif.Model.Stake
import Verif.Lemmas.Basic
/-
The repository's own unit tests of the stake contract, replayed on the model: the same calls, the
same expected numbers (contracts/stake/src/tests/{bond,distribution}.rs).  These are tests of the
model, not proofs of properties.
-/
namespace Phoenix.Conform.Stake
open Phoenix Phoenix.Stake

/-- `env.mock_all_auths()`: everybody signs -/
def at' (now : Nat) : Ctx := { now := now, seq := 0, signed := fun _ => true }
abbrev DAY : Nat := 86400
/-- every call must succeed; the contract is 100, its admin and owner 8, the LP token 10, the reward token 11 -/
def play (s : Sys) : List Tx → Res Sys
  | [] => .ok s
  | t :: ts => do play (← step 100 s t) ts
def setup (ts : List Tx) : Res Sys :=
  play ⟨fresh, fun _ => { admin := 9, decimals := 7, bal := fun _ => 0, allow := fun _ _ => ⟨0, 0⟩ }⟩
    (.stake (at' 0) (.init 8 10 1000 1000 7 8 7) :: ts)
def mint (tok a : Addr) (x : Int) : Tx := .token (at' 0) tok (.mint a x)
def bd (now : Nat) (a : Addr) (x : Int) : Tx := .stake (at' now) (.bond a x)
def flow (now : Nat) : Tx := .stake (at' now) (.createFlow 8 11)
def dist (now : Nat) (x : Int) : Tx := .stake (at' now) (.distribute 8 x 11)
def wd (now : Nat) (a : Addr) : Tx := .stake (at' now) (.withdraw a)
/-- balances of one token -/
def has (r : Res Sys) (tok : Addr) (l : List (Addr × Int)) : Bool :=
  okAnd r (fun s => l.all (fun p => decide (s.led.bal tok p.1 = p.2)))
/-- what `query_staked` answers -/
def staked (r : Res Sys) (a : Addr) (i : Info) : Bool := okAnd r (fun s => decide (queryStaked s.st a = i))
/-- what `query_total_staked` answers -/
def total (r : Res Sys) (x : Int) : Bool := okAnd r (fun s => okAnd (queryTotal s.st) (fun y => decide (y = x)))
/-- what `query_withdrawable_rewards` answers -/
def reward (r : Res Sys) (now : Nat) (a : Addr) (x : Nat) : Bool :=
  okAnd r (fun s => okAnd (queryWithdrawable (at' now) s.st a) (fun y => decide (y = [(11, x)])))
/-- `n` daily distributions of `x` -/
def daily (start : Nat) (x : Int) (n : Nat) : List Tx := (List.range n).map (fun k => dist (start + k * DAY) x)

/-! bond.rs -/

/-- `initialize_staking_contract`, contracts/stake/src/tests/bond.rs -/
example : (okAnd (setup []) (fun s => decide (s.st.cfg = some ⟨10, 1000, 1000, 7, 8, 7⟩) && decide (s.st.admin = 8)) && total (setup []) 0) = true := by
  decide +kernel
/-- `test_deploying_stake_twice_should_fail`, `bond_too_few`, `initialize_staking_contract_should_panic_when_*` -/
example : (failsWith (setup [.stake (at' 0) (.init 8 10 100 50 7 8 7)]) (.code 1) &&
    failsWith (setup [mint 10 1 999, bd 0 1 999]) (.code 4) &&
    failsWith (init fresh 8 10 0 1000 7 8 7) (.code 2) &&
    failsWith (init fresh 8 10 1000 0 7 8 7) (.code 3) &&
    failsWith (init fresh 8 10 1000 1000 7 8 0) (.code 12)) = true := by decide +kernel
/-- `bond_simple` -/
example :
    let r := setup [mint 10 1 10000, bd (7 * DAY) 1 10000]
    (staked r 1 ⟨[⟨10000, 7 * DAY⟩], 0, 10000⟩ && total r 10000 && has r 10 [(1, 0), (100, 10000)]) = true := by decide +kernel
/-- `unbond_simple` -/
example :
    let h := [mint 10 1 35000, mint 10 2 10000, bd DAY 1 10000, bd (2 * DAY) 1 10000, bd (2 * DAY) 2 10000, bd (3 * DAY) 1 15000]
    let r := setup (h ++ [.stake (at' (3 * DAY)) (.unbond 1 10000 (2 * DAY))])
    (has (setup h) 10 [(1, 0), (100, 45000)] &&
      staked r 1 ⟨[⟨10000, DAY⟩, ⟨15000, 3 * DAY⟩], 0, 25000⟩ && total r 35000 &&
      has r 10 [(1, 10000), (2, 0), (100, 35000)]) = true := by decide +kernel
/-- `unbond_wrong_user_stake_not_found` -/
example :
    let h := [mint 10 1 35000, mint 10 2 10000, bd DAY 1 10000, bd (2 * DAY) 1 10000, bd (2 * DAY) 2 10000]
    (has (setup h) 10 [(1, 15000), (2, 0), (100, 30000)] &&
      failsWith (setup (h ++ [.stake (at' (2 * DAY)) (.unbond 2 10000 (DAY / 2))])) (.code 8)) = true := by decide +kernel
/-- `pay_rewards_during_unbond` -/
example :
    let h := [mint 10 1 10000, mint 11 8 20000, bd 0 1 1000, flow (60 * DAY)] ++ daily (60 * DAY) 1000 20
    let r := setup (h ++ [wd (80 * DAY) 1, .stake (at' (80 * DAY)) (.unbond 1 1000 0)])
    (reward (setup h) (80 * DAY) 1 20000 && has (setup h) 11 [(1, 0)] && has (setup (h ++ [wd (80 * DAY) 1])) 11 [(1, 20000)] &&
      has r 10 [(100, 0), (1, 10000)] && staked r 1 ⟨[], 6912000, 0⟩) = true := by decide +kernel

/-! distribution.rs -/

/-- `add_distribution_and_distribute_reward`, contracts/stake/src/tests/distribution.rs -/
example :
    let h := [flow 0, mint 11 8 100000, mint 10 1 1000, bd 0 1 1000] ++ daily (60 * DAY) (100000 / 60) 60
    (reward (setup h) (120 * DAY) 1 99960 && has (setup (h ++ [wd (120 * DAY) 1])) 11 [(1, 99960)]) = true := by decide +kernel
/-- `four_users_with_different_stakes` -/
example :
    let h := [flow 0, mint 11 8 100000, mint 10 1 1000, bd 0 1 1000, mint 10 2 2000, bd 0 2 2000, mint 10 3 3000, bd 0 3 3000,
      mint 10 4 4000, bd 0 4 4000, dist (60 * DAY) 100000]
    let r := setup h
    let n := 60 * DAY
    (reward r n 1 10000 && reward r n 2 20000 && reward r n 3 30000 && reward r n 4 40000 &&
      has (setup (h ++ [wd n 1, wd n 2, wd n 3, wd n 4])) 11 [(1, 10000), (2, 20000), (3, 30000), (4, 40000)]) = true := by decide +kernel
/-- `fund_rewards_without_establishing_distribution` -/
example : failsWith (setup [mint 11 8 1000, dist 0 2000]) (.code 13) = true := by decide +kernel
/-- `multiple_equal_users_with_different_multipliers` and `distribute_rewards_daily_multiple_times_different_stakes` -/
example :
    let all n := [wd n 1, wd n 2, wd n 3, wd n 4]
    let h := [flow 0, mint 10 1 10000, bd 0 1 10000, mint 10 2 10000, bd (15 * DAY) 2 10000, mint 10 3 10000, bd (30 * DAY) 3 10000,
      mint 10 4 10000, bd (45 * DAY) 4 10000, mint 11 8 4000000, dist (60 * DAY) 1000000] ++ all (60 * DAY)
    let h2 := h ++ dist (61 * DAY) 1000000 :: all (61 * DAY)
    let h3 := h2 ++ dist (62 * DAY) 1000000 :: all (62 * DAY)
    let h4 := h3 ++ dist (63 * DAY) 1000000 :: all (63 * DAY)
    (has (setup h) 11 [(1, 250000), (2, 187500), (3, 125000), (4, 62500)] &&
      has (setup h2) 11 [(1, 500000), (2, 379166), (3, 254166), (4, 129166)] &&
      has (setup h3) 11 [(1, 750000), (2, 574999), (3, 387499), (4, 199999)] &&
      has (setup h4) 11 [(1, 1000000), (2, 774999), (3, 524999), (4, 274999)]) = true := by decide +kernel
/-- `distribute_rewards_daily_multiple_times_same_stakes` -/
example :
    let all n := [wd n 1, wd n 2, wd n 3, wd n 4]
    let t := 1715741177 + 60 * DAY
    let h := [flow 0, mint 10 1 1000, bd 1706968777 1 1000, mint 10 2 2000, bd 1714741177 2 2000, mint 10 3 3000, bd 1714741177 3 3000,
      mint 10 4 4000, bd 1715741177 4 4000, mint 11 8 4000000, dist t 1000000] ++ all t
    let h2 := h ++ dist (t + DAY) 1000000 :: all (t + DAY)
    let h3 := h2 ++ dist (t + 2 * DAY) 1000000 :: all (t + 2 * DAY)
    let h4 := h3 ++ dist (t + 3 * DAY) 1000000 :: all (t + 3 * DAY)
    (has (setup h) 11 [(1, 100000), (2, 200000), (3, 300000), (4, 400000)] &&
      has (setup h2) 11 [(1, 200000), (2, 400000), (3, 600000), (4, 800000)] &&
      has (setup h3) 11 [(1, 300000), (2, 600000), (3, 900000), (4, 1200000)] &&
      has (setup h4) 11 [(1, 400000), (2, 800000), (3, 1200000), (4, 1600000), (100, 0)]) = true := by decide +kernel

end Phoenix.Conform.Stake
