import Verif.Model.World
import Verif.Lemmas.Basic
/-
The repository's own unit tests of the router, of the trader and of the factory, replayed on the
model of the whole protocol: the same calls, the same expected numbers
(contracts/multihop/src/tests/{swap,query}.rs, contracts/trader/src/tests/msgs.rs,
contracts/factory/src/tests/queries.rs).  These are tests of the model, not proofs of properties.
-/
namespace Phoenix.Conform.World
open Phoenix Phoenix.World

/-- `env.mock_all_auths()`: everybody signs -/
def all (now : Nat := 0) : Ctx := { now := now, seq := 0, signed := fun _ => true }
def host : Host where
  poolAddr := fun _ a b => 1000 + 20 * a + b
  hopAddr := fun _ _ => 101
  shareAddr := fun p _ _ => 2000 + p
  stakeAddr := fun p => 4000 + p
/-- Tokens 1 to 5, factory 100 (router 101), pools 102 and 103 of no factory, trader 104. -/
def w0 : World where
  led := fun _ => { admin := 9, decimals := 7, bal := fun _ => 0, allow := fun _ _ => ⟨0, 0⟩ }
  code := fun a => if 1 ≤ a ∧ a ≤ 5 then .token else if a = 100 then .factory
    else if a = 102 ∨ a = 103 then .xyk else if a = 104 then .trader else .none
  xyk := fun _ => none
  stable := fun _ => none
  stake := fun _ => Stake.fresh
  vest := fun _ => none
  fac := fun _ => none
  hop := fun _ => none
  trd := fun _ => none
  rew := fun _ => Rewards.fresh
/-- every call must succeed -/
def play (w : World) : List Tx → Res World
  | [] => .ok w
  | t :: ts => do play (← step host w t.ctx t.call) ts
def go (k : Call) : Tx := ⟨all, k⟩
def mint (tok a : Addr) (x : Int) : Tx := go (.token tok (.mint a x))
def give (P user : Addr) (a b : Int) : Tx := go (.xyk P (.provide user (some a) none (some b) none none none))
/-- the `LiquidityPoolInitInfo` of the tests -/
def info (a b : Addr) (fee spread : Int) : Info :=
  { admin := 9, swapFeeBps := fee, feeRecipient := 7, maxSlippageBps := 5000, defaultSlippageBps := 2500, maxSpreadBps := spread,
    maxReferralBps := 5000, tokenA := a, tokenB := b, minBond := 10, minReward := 5, manager := 6, maxComplexity := 10 }
/-- `deploy_factory_contract` -/
def fac : Tx := go (.facInit 100 9 1 2 3 4 [9] 7)
/-- `deploy_and_initialize_pool` of the router's tests for the tokens `a < b` -/
def pool (fee : Int) (a b : Addr) (x y : Int) : List Tx :=
  [mint a 9 x, mint b 9 y, go (.create 100 9 (info a b fee 500) .xyk none 100 1000), give (1000 + 20 * a + b) 9 x y]
def setup (ts : List Tx) : Res World := play w0 (fac :: ts)
def has (r : Res World) (l : List (Addr × Addr × Int)) : Bool :=
  okAnd r (fun w => l.all (fun p => decide (w.led.bal p.1 p.2.1 = p.2.2)))
def op (offer ask : Addr) (min : Option Int := none) : Multihop.Op := ⟨ask, offer, min⟩
def hop (x : Int) (ops : List Multihop.Op) (spread : Option Int := none) : Tx := go (.hopSwap 101 8 ops spread x none none)
def quote (r : Res World) (ops : List Multihop.Op) (x : Int) (q : Quote) : Bool :=
  okAnd r (fun w => okAnd (hopSimulate w 0 101 ops x) (fun y => decide (y = q)))
def quoteR (r : Res World) (ops : List Multihop.Op) (x : Int) (q : Quote) : Bool :=
  okAnd r (fun w => okAnd (hopSimulateReverse w 0 101 ops x) (fun y => decide (y = q)))
def path : List Multihop.Op := [op 1 2, op 2 3, op 3 4]
def htap : List Multihop.Op := [op 3 4, op 2 3, op 1 2]
def M : Int := 1000000

/-! contracts/multihop/src/tests/swap.rs -/

/-- `swap_three_equal_pools_no_fees` -/
example : has (setup (pool 0 1 2 M M ++ pool 0 2 3 M M ++ pool 0 3 4 M M ++ [mint 1 8 50, hop 50 path]))
    [(1, 8, 0), (4, 8, 50)] = true := by decide +kernel
/-- `swap_single_pool_no_fees` -/
example : has (setup (pool 0 1 2 M M ++ [mint 1 8 5000, hop 1000 [op 1 2]])) [(1, 8, 4000), (2, 8, 1000)] = true := by decide +kernel
/-- `swap_should_fail_when_spread_exceeds_the_limit` -/
example : failsWith (setup (pool 0 1 2 5000 (2 * M) ++ [mint 1 8 5000, hop 50 [op 1 2] (some 50)])) (.code 1) = true := by decide +kernel
/-- `swap_single_pool_with_fees` -/
example : has (setup (pool 500 1 2 M M ++ [mint 1 8 1000, hop 300 [op 1 2]])) [(1, 8, 700), (2, 8, 285)] = true := by decide +kernel
/-- `swap_three_different_pools_no_fees` -/
example : has (setup (pool 0 1 2 M M ++ pool 0 2 3 (2 * M) (2 * M) ++ pool 0 3 4 (3 * M) (3 * M) ++ [mint 1 8 5000, hop 5000 path]))
    [(1, 8, 0), (4, 8, 4956)] = true := by decide +kernel
/-- `swap_three_different_pools_with_fees` -/
example : has (setup (pool 1000 1 2 M M ++ pool 1000 2 3 (2 * M) (2 * M) ++ pool 1000 3 4 (3 * M) (3 * M) ++ [mint 1 8 10000, hop 10000 path]))
    [(1, 8, 0), (4, 8, 7168)] = true := by decide +kernel
/-- `swap_panics_with_no_operations` -/
example : failsWith (setup (pool 0 1 2 M M ++ [hop 50 []])) (.code 2) = true := by decide +kernel
/-- a minimum per hop: 1000 is met, 10000 is not (code 21 of the pool) -/
example : (has (setup (pool 0 1 2 M M ++ [mint 1 8 5000, hop 1000 [op 1 2 (some 1000)]])) [(1, 8, 4000), (2, 8, 1000)] &&
    failsWith (setup (pool 0 1 2 M M ++ [mint 1 8 5000, hop 1000 [op 1 2 (some 10000)]])) (.code 21)) = true := by decide +kernel

/-- `deploy_and_initialize_pool` of a stable pool -/
def spool (fee : Int) (a b : Addr) (x y : Int) : List Tx :=
  [mint a 9 x, mint b 9 y, go (.create 100 9 (info a b fee 500) .stable (some 10) 100 1000),
   go (.stable (1000 + 20 * a + b) (.provide 9 x y none none none))]
/-- `swap_three_equal_stable_pool`: the test is `#[ignore]`d in /repo ("fails with NewtonMethodFailed"), which cannot come from the
present code; the model gives the numbers the test asks for -/
example : has (setup (spool 0 1 2 M M ++ spool 0 2 3 M M ++ spool 0 3 4 M M ++ [mint 1 8 50, hop 50 path]))
    [(1, 8, 0), (4, 8, 50)] = true := by decide +kernel

/-! contracts/multihop/src/tests/query.rs -/

/-- `simulate_swap_single_pool_no_fees` and its reverse -/
example : (quote (setup (pool 0 1 2 (100 * M) (200 * M))) [op 1 2] 1000 ⟨2000, [0], [0]⟩ &&
    quoteR (setup (pool 0 1 2 (100 * M) (200 * M))) [op 1 2] 2000 ⟨1000, [0], [0]⟩) = true := by decide +kernel
/-- `simulate_swap_single_pool_with_fees` and its reverse -/
example : (quote (setup (pool 500 1 2 M M)) [op 1 2] 300 ⟨285, [15], [0]⟩ &&
    quoteR (setup (pool 500 1 2 M M)) [op 1 2] 240 ⟨252, [12], [0]⟩) = true := by decide +kernel
/-- `simulate_swap_three_different_pools_no_fees` and its reverse -/
example :
    let r := setup (pool 0 1 2 M M ++ pool 0 2 3 (2 * M) (2 * M) ++ pool 0 3 4 (3 * M) (3 * M))
    (quote r path 5000 ⟨4956, [0, 0, 0], [24, 12, 8]⟩ && quoteR r htap 4956 ⟨5000, [0, 0, 0], [8, 12, 24]⟩) = true := by decide +kernel
/-- `simulate_swap_three_different_pools_with_fees` and its reverse -/
example :
    let r := setup (pool 1000 1 2 M (2 * M) ++ pool 1000 2 3 M (3 * M) ++ pool 1000 3 4 M (5 * M))
    (quote r path 10000 ⟨203143, [1980, 5253, 22571], [198, 936, 10671]⟩ &&
      quoteR r htap 203143 ⟨9999, [22571, 5252, 1980], [10671, 934, 197]⟩) = true := by decide +kernel
/-- `query_swap_panics_with_no_operations` -/
example : okAnd (setup (pool 0 1 2 M M)) (fun w => failsWith (hopSimulate w 0 101 [] 50) (.code 2) &&
    failsWith (hopSimulateReverse w 0 101 [] 50) (.code 2)) = true := by decide +kernel

/-! contracts/trader/src/tests/msgs.rs: XLM 1, USDC 2, PHO 3 -/

/-- `deploy_and_init_lp_client` -/
def lone (P a : Addr) (x y fee : Int) : List Tx := [go (.xykInit P (info a 3 fee 5000) 5 6 100 1000), give P 9 x y]
def tr (tok P : Addr) (x : Nat) (min : Option Int := none) : Tx := go (.trade 104 9 tok P (some x) none none min none)

/-- `simple_trade_token_and_transfer_token`, with and without a minimum -/
example :
    let h := [mint 1 9 M, mint 3 9 (2 * M)] ++ lone 102 1 M M 0 ++ [go (.trdInit 104 9 1 2 3), mint 1 104 1000]
    let r := play w0 (h ++ [tr 1 102 1000])
    let r' := play w0 (h ++ [tr 1 102 1000 (some 1000), go (.trdTransfer 104 9 8 1000 none)])
    (has r [(3, 104, 1000), (1, 104, 0), (2, 104, 0), (3, 8, 0)] && has r' [(3, 104, 0), (3, 8, 1000)]) = true := by decide +kernel
/-- `extended_trade_and_transfer_token`: the first three trades.  The test expects its fourth
trade (another 1500 of USDC) to pay 450 as well.  It was written for an older pool: it is not run
by the repository's Makefile and calls a token `initialize` that no longer exists.  In the present
code 1500 * 999500 / 3001500 rounds down to 499, the payout before the commission is 500, and the
unsigned difference of the two traps (contracts/pool/src/contract.rs:1162-1165). -/
example :
    let h := [mint 1 9 M, mint 2 9 (3 * M), mint 3 9 (2 * M)] ++ lone 102 1 M M 500 ++ lone 103 2 (3 * M) M 1000 ++
      [go (.trdInit 104 9 1 2 3), mint 1 104 2000, mint 2 104 3000]
    let h1 := h ++ [tr 1 102 1000]
    let h2 := h1 ++ [tr 1 102 1000]
    let h3 := h2 ++ [tr 2 103 1500]
    let h4 := h3 ++ [tr 2 103 1500]
    let h5 := h3 ++ [go (.trdTransfer 104 9 8 1000 none)]
    (has (play w0 h1) [(3, 104, 950), (1, 104, 1000), (2, 104, 3000)] &&
      has (play w0 h2) [(3, 104, 1899), (1, 104, 0), (2, 104, 3000)] &&
      has (play w0 h3) [(3, 104, 2349), (2, 104, 1500)] && failsWith (play w0 h4) .overflow &&
      has (play w0 h5) [(3, 8, 1000)]) = true := by decide +kernel
/-- the failing trades: a second `initialize`, somebody else, a foreign token, a bad spread -/
example :
    let h := [mint 1 9 M, mint 3 9 (2 * M)] ++ lone 102 1 M M 0 ++ [go (.trdInit 104 9 1 3 3), mint 1 104 1000]
    let no (k : Call) (e : Err) : Bool := failsWith (play w0 (h ++ [go k])) e
    (no (.trdInit 104 9 1 2 3) (.code 10) && no (.trade 104 8 1 102 (some 1000) none none none none) (.code 6) &&
      no (.trade 104 9 2 102 (some 1000) none none none none) (.code 7) &&
      no (.trdTransfer 104 8 8 1000 none) (.code 6) &&
      no (.trade 104 9 1 102 (some 1000) (some (-1)) none none none) (.code 8) &&
      no (.trade 104 9 1 102 (some 1000) (some 10001) none none none) (.code 8)) = true := by decide +kernel

/-! contracts/factory/src/tests/queries.rs -/

def bd (K user : Addr) (x : Int) : Tx := ⟨all 86400, .stake K (.bond user x)⟩
def port (r : Res World) (user : Addr) (lp : List ((Addr × Int) × (Addr × Int))) (st : List (Addr × List Stake.Entry)) : Bool :=
  okAnd r (fun w => okAnd (portfolio w 100 user true) (fun q => decide (q.lp = lp) && decide (q.stakes = st)))

/-- `test_deploy_multiple_liquidity_pools`, `test_queries_by_tuple` and its failure -/
example :
    let r := setup [go (.create 100 9 (info 1 2 0 500) .xyk none 100 1000), go (.create 100 9 (info 1 4 0 400) .xyk none 100 1000),
      go (.create 100 9 (info 3 5 0 400) .xyk none 100 1000)]
    okAnd r (fun w => okAnd (poolDetails w 1022) (fun i => decide (i = ⟨1022, (1, 0), (2, 0), (3022, 0), 5022, 0⟩)) &&
      okAnd (allPoolsDetails w 100) (fun l => decide (l.map PoolInfo.pool = [1022, 1024, 1065])) &&
      okAnd (findPool w 100 2 1) (fun P => decide (P = 1022)) && okAnd (findPool w 100 1 4) (fun P => decide (P = 1024)) &&
      okAnd (findPool w 100 3 5) (fun P => decide (P = 1065)) && failsWith (findPool w 100 1 3) (.code 4)) = true := by decide +kernel
/-- `test_query_user_portfolio_with_stake` -/
example :
    let h := [mint 1 8 M, mint 2 8 M, mint 3 7 (2 * M), mint 4 7 (2 * M), go (.create 100 9 (info 1 2 0 500) .xyk none 100 1000),
      go (.xyk 1022 (.provide 8 (some M) (some 950000) (some M) (some 950000) none none))]
    let h1 := h ++ [bd 5022 8 173]
    let h2 := h1 ++ [go (.create 100 9 (info 3 4 0 500) .xyk none 100 1000),
      go (.xyk 1064 (.provide 7 (some (2 * M)) (some 1999999) (some (2 * M)) (some 1999999) none none)), bd 5064 7 223]
    (port (setup h) 8 [((1, 999000), (2, 999000))] [] &&
      port (setup h1) 8 [((1, 999000), (2, 999000))] [(5022, [⟨173, 86400⟩])] &&
      port (setup h2) 7 [((3, 1999000), (4, 1999000))] [(5064, [⟨223, 86400⟩])]) = true := by decide +kernel
/-- `test_query_user_portfolio_with_multiple_users_staking_in_multiple_liquidity_pools`, first pool -/
example :
    let h := [mint 1 8 100000, mint 2 8 100000, mint 1 7 2000, mint 2 7 2000, go (.create 100 9 (info 1 2 0 500) .xyk none 100 1000),
      go (.xyk 1022 (.provide 8 (some 50000) (some 900) (some 50000) (some 900) none none)),
      go (.xyk 1022 (.provide 7 (some 2000) (some 1900) (some 2000) (some 1900) none none))]
    let h1 := h ++ [bd 5022 8 1000, bd 5022 7 1000]
    (port (setup h) 8 [((1, 48999), (2, 48999))] [] &&
      port (setup h1) 8 [((1, 48999), (2, 48999))] [(5022, [⟨1000, 86400⟩])] &&
      port (setup h1) 7 [((1, 1999), (2, 1999))] [(5022, [⟨1000, 86400⟩])]) = true := by decide +kernel

end Phoenix.Conform.World
