import Verif.Model.Pool
import Verif.Lemmas.Basic
/-
The repository's own unit tests of the constant product pool, replayed on the model: the same
calls, the same expected numbers (contracts/pool/src/tests/swap.rs and liquidity.rs).  These are
tests of the model, not proofs of properties.
-/
namespace Phoenix.Conform.Pool
open Phoenix Phoenix.Pool

/-- `env.mock_all_auths()`: everybody signs -/
def at' (now : Nat) : Ctx := { now := now, seq := 0, signed := fun _ => true }
/-- `deploy_liquidity_pool_contract`, contracts/pool/src/tests/setup.rs:41-96 -/
def cfg (fee slip spread : Int) : InitArgs :=
  { admin := 8, swapFeeBps := fee, feeRecipient := 7, maxSlippageBps := slip, maxSpreadBps := spread,
    maxReferralBps := 5000, tokenA := 10, tokenB := 11, minBond := 10, minReward := 5, maxComplexity := 10,
    shareDecimals := 10, defaultSlippageBps := 100, maxAllowedFeeBps := 1000, shareToken := 12, stakeContract := 13 }
/-- every call must succeed -/
def play (s : Sys) : List Tx → Res Sys
  | [] => .ok s
  | t :: ts => do play (← step 100 s t) ts
/-- a fresh pool; user 1 gets `a` and `b` of the two tokens -/
def setup (fee slip spread a b : Int) (ts : List Tx) : Res Sys :=
  play ⟨none, fun _ => { admin := 9, decimals := 7, bal := fun _ => 0, allow := fun _ _ => ⟨0, 0⟩ }⟩
    (.pool (at' 0) (.init (cfg fee slip spread)) :: .token (at' 0) 10 (.mint 1 a) :: .token (at' 0) 11 (.mint 1 b) :: ts)
/-- `provide_liquidity(user, a, a, b, b, None, deadline)` -/
def dep (u : Addr) (a b : Int) (now : Nat := 0) (dl : Option Nat := none) : Tx :=
  .pool (at' now) (.provide u (some a) (some a) (some b) (some b) none dl)
/-- `swap(user1, token, amount, min, spread, deadline, fee)` -/
def sw (tok : Addr) (x : Int) (ms : Option Int) (mo : Option Int := none) (mf : Option Int := none) (now : Nat := 0)
    (dl : Option Nat := none) : Tx := .pool (at' now) (.swap 1 tok x mo ms dl mf)
/-- `query_pool_info` and user 1's balances -/
def view (s : Sys) : Option (Int × Int × Int) × Int × Int :=
  (s.pool.map (fun p => (p.resA, p.resB, p.total)), s.led.bal 10 1, s.led.bal 11 1)
def gives (r : Res Sys) (v : Option (Int × Int × Int) × Int × Int) : Bool := okAnd r (fun s => decide (view s = v))
/-- evaluates a query on the pool -/
def ask {α} [DecidableEq α] (r : Res Sys) (q : State → Res α) (v : α) : Bool :=
  okAnd r (fun s => match s.pool with | some p => okAnd (q p) (fun x => decide (x = v)) | none => false)

/-! swap.rs -/

/-- `simple_swap`, contracts/pool/src/tests/swap.rs:14-159 -/
example : gives (setup 0 5000 1000 110000000000000 110000000000000 [dep 1 100000000000000 100000000000000, sw 10 1000000000000 (some 100)])
      (some (100000000000000 + 1000000000000, 100000000000000 - 1000000000000 + 9900990099, 100000000000000),
       10000000000000 - 1000000000000, 9990099009901 + 1000000000000) = true ∧
    gives (setup 0 5000 1000 110000000000000 110000000000000 [dep 1 100000000000000 100000000000000, sw 10 1000000000000 (some 100),
        sw 11 1000000000000 (some 200)])
      (some (99990099990099, 100009900990099, 100000000000000), 10009900009901, 9990099009901) = true := by decide +kernel
/-- `simple_swap_with_preferred_pool_fee`, swap.rs:161-310 -/
example : gives (setup 300 5000 1000 1001000 1001000 [dep 1 1000000 1000000, sw 10 1 (some 100) none (some 500)])
      (some (1000001, 999999, 1000000), 999, 1001) = true ∧
    gives (setup 300 5000 1000 1001000 1001000 [dep 1 1000000 1000000, sw 10 1 (some 100) none (some 500), sw 11 1000 (some 100)])
      (some (1000001 - 1000, 999999 + 1000, 1000000), 1969, 1001 - 1000) = true := by decide +kernel
/-- `simple_swap_should_panic_when_user_accepted_fee_is_less_than_pool_fee`, swap.rs:312-452 -/
example : failsWith (setup 500 5000 1000 1001000 1001000 [dep 1 1000000 1000000, sw 10 1 (some 100) none (some 100)]) (.code 24) = true := by
  decide +kernel
/-- `swap_should_panic_with_bad_max_spread`, swap.rs:656-708 -/
example : failsWith (setup 0 5000 1000 1001000 2001000
    [.pool (at' 0) (.provide 1 (some 5000) none (some 2000000) none none none), sw 10 50 (some 50)]) (.code 1) = true := by decide +kernel
/-- `swap_with_high_fee`, swap.rs:710-796 -/
example : okAnd (setup 1000 5000 1000 1100000 1000000 [dep 1 1000000 1000000, sw 10 100000 (some 1000)])
    (fun s => decide (view s = (some (1100000, 1000000 - 90910, 1000000), 0, 90910 - 9091) ∧ s.led.bal 11 7 = 9091)) = true := by decide +kernel
/-- `swap_simulation_even_pool`, swap.rs:798-898 -/
example :
    let s := setup 1000 5000 1000 1000000 1000000 [dep 1 1000000 1000000]
    ask s (simulateSwap · 10 100000) (90910 - 9091, 9091, 9090, 100000) = true ∧
    ask s (simulateReverseSwap · 10 (90910 - 9091)) (99999, 9090, 9090) = true ∧
    ask s (simulateSwap · 11 100000) (90910 - 9091, 9091, 9090, 100000) = true ∧
    ask s (simulateReverseSwap · 11 (90910 - 9091)) (99999, 9090, 9090) = true := by decide +kernel
/-- `swap_simulation_one_third_pool`, swap.rs:900-1011 -/
example :
    let s := setup 500 5000 1000 1000000 3000000 [dep 1 1000000 3000000]
    ask s (simulateSwap · 10 100000) (272728 - 13636, 13636, 27272, 300000) = true ∧
    ask s (simulateReverseSwap · 11 (272728 - 13636)) (100000, 27272, 13636) = true ∧
    ask s (simulateSwap · 11 100000) (32259 - 1612, 1612, 1074, 33333) = true ∧
    ask s (simulateReverseSwap · 10 (32259 - 1612)) (100002, 1075, 1612) = true := by decide +kernel
/-- `test_swap_fee_variants`, swap.rs:1013-1090 -/
example : ∀ v ∈ [((1000 : Int), (99102002 : Int)), (100, 9910200), (30, 2973060)],
    let s := setup v.1 10000 10000 110358880127 110358880127 [dep 1 110358880127 110358880127]
    ask s (simulateSwap · 10 1000000000) (991020025 - v.2, v.2, 8979975, 1000000000) = true ∧
    ask s (simulateReverseSwap · 10 (991020025 - v.2)) (1000000000, 8979975, v.2) = true := by decide +kernel
/-- `test_v_phx_vul_021_should_panic_when_max_spread_invalid_range`, swap.rs:1092-1144 -/
example : ∀ v ∈ [(-100 : Int), 600, 501],
    failsWith (setup 0 5000 500 1001000 1001000 [dep 1 1000000 1000000, sw 10 1 (some v)]) (.code 19) = true := by decide +kernel
/-- `test_v_phx_vul_017_...`, swap.rs:1146-1261 -/
example : failsWith (setup 0 5000 1000 0 0 [sw 20 1 (some 100)]) (.code 16) = true ∧
    okAnd (setup 0 5000 1000 0 0 []) (fun s => match s.pool with
      | some p => failsWith (simulateSwap p 20 1) (.code 16) && failsWith (simulateReverseSwap p 20 1) (.code 16)
      | none => false) = true := by decide +kernel
/-- `test_should_swap_with_valid_ask_asset_min_amount`, swap.rs:1263-1335 -/
example : okAnd (setup 0 5000 1000 1050000 1050000 [dep 1 1000000 1000000, sw 10 10 none (some 10)])
      (fun s => decide ((view s).2 = (49990, 50010))) = true ∧
    okAnd (setup 0 5000 1000 1050000 1050000 [dep 1 1000000 1000000, sw 10 10 none (some 10), sw 11 5000 (some 500) (some 4900)])
      (fun s => decide ((view s).2 = (54966, 45010))) = true := by decide +kernel
/-- `test_should_fail_when_invalid_ask_asset_min_amount`, swap.rs:1337-1387 -/
example : failsWith (setup 0 5000 1000 1001000 1001000 [dep 1 1000000 1000000, sw 10 1 (some 100) (some 10)]) (.code 21) = true := by
  decide +kernel
/-- `simple_swap_with_deadline_success`, swap.rs:1389-1503 -/
example : gives (setup 0 5000 1000 1001000 1001000 [dep 1 1000000 1000000 49 (some 50), sw 10 1 (some 100) none none 99 (some 100)])
      (some (1000001, 999999, 1000000), 999, 1001) = true ∧
    gives (setup 0 5000 1000 1001000 1001000 [dep 1 1000000 1000000 49 (some 50), sw 10 1 (some 100) none none 99 (some 100),
        sw 11 1000 (some 100) none none 149 (some 150)])
      (some (1000001 - 1000, 999999 + 1000, 1000000), 1999, 1001 - 1000) = true := by decide +kernel
/-- `simple_swap_with_should_fail_when_after_the_deadline`, swap.rs:1505-1567 -/
example : failsWith (setup 0 5000 1000 1001000 1001000 [dep 1 1000000 1000000, sw 10 1 (some 100) none none 100 (some 99)]) (.code 22) = true := by
  decide +kernel
/-- `simple_swap_with_biggest_possible_decimal_precision`, swap.rs:1569-1657 -/
example : gives (setup 0 5000 10000 999000000000001000 999000000000001000
      [.pool (at' 0) (.provide 1 (some 450000000000000000) (some 405000000000000000) (some 450000000000000000) (some 405000000000000000) none none),
       sw 10 200000000000000000 (some 5000)])
    (some (650000000000000000, 311538461538461538, 450000000000000000), 349000000000001000, 687461538461539462) = true := by decide +kernel

/-! liquidity.rs -/

/-- LP balances of user 1 and of the pool, and the pool's token balances -/
def lp (s : Sys) : Int × Int × Int × Int := (s.led.bal 12 1, s.led.bal 12 100, s.led.bal 10 100, s.led.bal 11 100)
def wd (u : Addr) (sh a b : Int) (now : Nat := 0) (dl : Option Nat := none) : Tx := .pool (at' now) (.withdraw u sh a b dl)

/-- `provide_liquidity`, contracts/pool/src/tests/liquidity.rs:21-134 -/
example : okAnd (setup 0 5000 1000 1000000000000000 1000000000000000 [dep 1 1000000000000000 1000000000000000])
    (fun s => decide (view s = (some (1000000000000000, 1000000000000000, 1000000000000000), 0, 0) ∧
      lp s = (999999999999000, 1000, 1000000000000000, 1000000000000000))) = true := by decide +kernel
/-- `withdraw_liquidity`, liquidity.rs:136-268 -/
example :
    let ts := [dep 1 1000000000000000 1000000000000000, wd 1 500000000000000 500000000000000 500000000000000]
    okAnd (setup 0 5000 1000 1000000000000000 1000000000000000 ts)
      (fun s => decide (view s = (some (500000000000000, 500000000000000, 500000000000000), 500000000000000, 500000000000000) ∧
        lp s = (499999999999000, 1000, 500000000000000, 500000000000000))) = true ∧
    okAnd (setup 0 5000 1000 1000000000000000 1000000000000000 (ts ++ [wd 1 499999999999000 499999999999000 499999999999000]))
      (fun s => decide ((view s).2 = (999999999999000, 999999999999000) ∧ lp s = (0, 1000, 1000, 1000))) = true := by decide +kernel
/-- `swap_with_no_amounts` -/
example : failsWith (setup 0 5000 1000 10001000 10001000 [.pool (at' 0) (.provide 1 none none none none none none)]) (.code 3) = true := by
  decide +kernel
/-- `withdraw_liqudity_below_min` -/
example : failsWith (setup 0 5000 1000 10000 10000 [dep 1 10000 10000, wd 1 5000 30000 30000]) (.code 4) = true := by decide +kernel

/-- the deposits of `query_share_valid_liquidity` -/
def three : List Tx :=
  [.token (at' 0) 10 (.mint 2 150000), .token (at' 0) 10 (.mint 3 600000), .token (at' 0) 11 (.mint 2 200000), .token (at' 0) 11 (.mint 3 800000),
   dep 1 150000 200000, dep 2 150000 200000, dep 3 600000 800000]
def three0 : Res Sys := setup 0 5000 1000 150000 200000 three
/-- reserves, supply, and `query_share` of user `u`'s LP tokens -/
def shareOf (r : Res Sys) (u : Addr) (v : Int × Int) : Bool :=
  okAnd r (fun s => match s.pool with | some p => okAnd (queryShare p (s.led.bal 12 u)) (fun x => decide (x = v)) | none => false)
def info (r : Res Sys) (v : Int × Int × Int) : Bool := okAnd r (fun s => decide ((view s).1 = some v))
/-- `query_share_valid_liquidity` -/
example : info (setup 0 5000 1000 150000 200000 (three.take 5)) (150000, 200000, 173205) = true ∧
    info (setup 0 5000 1000 150000 200000 (three.take 6)) (300000, 400000, 346410) = true ∧
    info three0 (900000, 1200000, 1039230) = true ∧ shareOf three0 1 (149133, 198845) = true ∧
    shareOf three0 2 (149999, 199999) = true ∧ shareOf three0 3 (599999, 799999) = true := by decide +kernel
example :
    let a := three ++ [wd 1 172205 149133 198845]
    let b := a ++ [wd 2 173205 150000 200000]
    let c := b ++ [wd 3 93820 1000 1000]
    let d := c ++ [wd 3 599000 150000 200000]
    info (setup 0 5000 1000 150000 200000 a) (750867, 1001155, 867025) = true ∧
    shareOf (setup 0 5000 1000 150000 200000 a) 1 (0, 0) = true ∧ shareOf (setup 0 5000 1000 150000 200000 a) 2 (150000, 200000) = true ∧
    info (setup 0 5000 1000 150000 200000 b) (600867, 801155, 693820) = true ∧
    shareOf (setup 0 5000 1000 150000 200000 b) 3 (600000, 800000) = true ∧
    info (setup 0 5000 1000 150000 200000 c) (519617, 692821, 600000) = true ∧
    shareOf (setup 0 5000 1000 150000 200000 c) 3 (518750, 691666) = true ∧
    info (setup 0 5000 1000 150000 200000 d) (867, 1155, 1000) = true ∧
    okAnd (setup 0 5000 1000 150000 200000 d) (fun s => decide ((s.led.bal 12 3, s.led.bal 10 3, s.led.bal 11 3) = (0, 600000, 800000) ∧
      (s.led.bal 10 1, s.led.bal 11 1, s.led.bal 10 2, s.led.bal 11 2) = (149133, 198845, 150000, 200000))) = true := by decide +kernel
/-- `query_share_empty_pool` -/
example : shareOf (setup 0 5000 1000 0 0 []) 1 (0, 0) = true := by decide +kernel
/-- `provide_liquidity_slippage_tolerance_too_high` -/
example : failsWith (setup 0 5000 1000 0 0 [.pool (at' 0) (.provide 1 (some 10000) (some 10000) (some 10000) (some 10000) (some 10001) none)])
    (.code 2) = true := by decide +kernel
/-- `provide_liqudity_with_deadline_should_work`, `provide_liqudity_past_deadline_should_panic` -/
example : okAnd (setup 0 5000 1000 10000 10000 [dep 1 10000 10000 99 (some 100)])
      (fun s => decide (view s = (some (10000, 10000, 10000), 0, 0) ∧ lp s = (9000, 1000, 10000, 10000))) = true ∧
    failsWith (setup 0 5000 1000 10000 10000 [dep 1 10000 10000 100 (some 99)]) (.code 22) = true := by decide +kernel
/-- `withdraw_liquidity_with_deadline_should_work`, `withdraw_liquidity_past_deadline_should_panic` -/
example : okAnd (setup 0 5000 1000 10000 10000 [dep 1 10000 10000, wd 1 5000 5000 5000 49 (some 50)])
      (fun s => decide (view s = (some (5000, 5000, 5000), 5000, 5000) ∧ lp s = (4000, 1000, 5000, 5000))) = true ∧
    okAnd (setup 0 5000 1000 10000 10000 [dep 1 10000 10000, wd 1 5000 5000 5000 49 (some 50), wd 1 4000 4000 4000 99 (some 100)])
      (fun s => decide ((view s).2 = (9000, 9000) ∧ lp s = (0, 1000, 1000, 1000))) = true ∧
    failsWith (setup 0 5000 1000 10000 10000 [dep 1 10000 10000, wd 1 5000 5000 5000 50 (some 49)]) (.code 22) = true := by decide +kernel

end Phoenix.Conform.Pool
