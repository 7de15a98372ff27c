import Verif.Model.Stable
import Verif.Lemmas.Basic
/-
The repository's own unit tests of the stable pool, replayed on the model
(contracts/pool_stable/src/tests/swap.rs, liquidity.rs and queries.rs).  These are tests of the
model, not proofs of properties.
-/
namespace Phoenix.Conform.Stable
open Phoenix Phoenix.Stable

/-- `env.mock_all_auths()`: everybody signs -/
def at' (now : Nat) : Ctx := { now := now, seq := 0, signed := fun _ => true }
/-- `deploy_stable_liquidity_pool_contract`, contracts/pool_stable/src/tests/setup.rs:40-98 -/
def cfg (fee : Int) : InitArgs :=
  { admin := 8, swapFeeBps := fee, feeRecipient := 7, maxSlippageBps := 5000, defaultSlippageBps := 2500, maxSpreadBps := 1000,
    tokenA := 10, tokenB := 11, minBond := 10, minReward := 5, maxComplexity := 10, amp := 6, maxAllowedFeeBps := 1000,
    shareToken := 12, stakeContract := 13 }
/-- every call must succeed -/
def play (s : Sys) : List Tx → Res Sys
  | [] => .ok s
  | t :: ts => do play (← step 100 s t) ts
/-- a fresh pool; user 1 gets `a` and `b` of the two tokens -/
def setup (fee a b : Int) (ts : List Tx) : Res Sys :=
  play ⟨none, fun _ => { admin := 9, decimals := 7, bal := fun _ => 0, allow := fun _ _ => ⟨0, 0⟩ }⟩
    (.pool (at' 0) (.init (cfg fee)) :: .token (at' 0) 10 (.mint 1 a) :: .token (at' 0) 11 (.mint 1 b) :: ts)
def dep (u : Addr) (a b : Int) (now : Nat := 0) (dl : Option Nat := none) (ms : Option Nat := none) : Tx :=
  .pool (at' now) (.provide u a b none dl ms)
def sw (tok : Addr) (x : Int) (ms : Option Int) (mf : Option Int := none) (now : Nat := 0) (dl : Option Nat := none) : Tx :=
  .pool (at' now) (.swap 1 tok x none ms dl mf)
def wd (u : Addr) (sh a b : Int) (now : Nat := 0) (dl : Option Nat := none) : Tx := .pool (at' now) (.withdraw u sh a b dl)
/-- `query_pool_info` and user 1's balances -/
def view (s : Sys) : Option (Int × Int × Int) × Int × Int :=
  (s.pool.map (fun p => (p.resA, p.resB, p.total)), s.led.bal 10 1, s.led.bal 11 1)
def gives (r : Res Sys) (v : Option (Int × Int × Int) × Int × Int) : Bool := okAnd r (fun s => decide (view s = v))
def ask {α} [DecidableEq α] (r : Res Sys) (q : State → Res α) (v : α) : Bool :=
  okAnd r (fun s => match s.pool with | some p => okAnd (q p) (fun x => decide (x = v)) | none => false)
/-- LP balances of user 1 and of the pool, and the pool's token balances -/
def lp (s : Sys) : Int × Int × Int × Int := (s.led.bal 12 1, s.led.bal 12 100, s.led.bal 10 100, s.led.bal 11 100)

/-! swap.rs -/

/-- `simple_swap`, `simple_swap_with_deadline_should_work`, `simple_swap_should_panic_after_deadline` -/
example : gives (setup 0 1001000 1001000 [dep 1 1000000 1000000, sw 10 1 (some 100) (some 150)])
      (some (1000001, 999999, 1999000), 999, 1001) = true ∧
    gives (setup 0 1001000 1001000 [dep 1 1000000 1000000, sw 10 1 (some 100) (some 150), sw 11 1000 (some 100)])
      (some (1000001 - 1000, 999999 + 1000, 1999000), 1999, 1001 - 1000) = true ∧
    gives (setup 0 1001000 1001000 [dep 1 1000000 1000000 49 (some 50), sw 10 1 (some 100) none 99 (some 100)])
      (some (1000001, 999999, 1999000), 999, 1001) = true ∧
    gives (setup 0 1001000 1001000 [dep 1 1000000 1000000 49 (some 50), sw 10 1 (some 100) none 99 (some 100), sw 11 1000 (some 100) none 149 (some 150)])
      (some (1000001 - 1000, 999999 + 1000, 1999000), 1999, 1001 - 1000) = true ∧
    failsWith (setup 0 1001000 1001000 [dep 1 1000000 1000000, sw 10 1 (some 100) none 100 (some 99)]) (.code 19) = true := by decide +kernel
/-- `swap_with_high_fee` -/
example : okAnd (setup 1000 1100000 1000000 [dep 1 1000000 1000000, sw 10 100000 (some 1000)])
    (fun s => decide (view s = (some (1100000, 1000000 - 98582, 1999000), 0, 98582 - 9858) ∧ s.led.bal 11 7 = 9858)) = true := by decide +kernel
/-- `swap_simulation_even_pool` -/
example :
    let s := setup 1000 1000000 1000000 [dep 1 1000000 1000000]
    ask s (simulateSwap 0 · 10 100000) (98582 - 9858, 100000 - 98582, 9858, 100000) = true ∧
    ask s (simulateReverseSwap 0 · 10 (98582 - 9858)) (100000, 100000 + 9858 - 98582, 9858) = true ∧
    ask s (simulateSwap 0 · 11 100000) (98582 - 9858, 100000 - 98582, 9858, 100000) = true ∧
    ask s (simulateReverseSwap 0 · 11 (98582 - 9858)) (100000, 100000 + 9858 - 98582, 9858) = true := by decide +kernel
/-- `simple_swap_with_low_user_fee_should_panic` -/
example : failsWith (setup 100 1001000 1001000 [dep 1 1000000 1000000, sw 10 1 (some 100) (some 50)]) (.code 23) = true := by decide +kernel

/-! liquidity.rs -/

/-- `provide_liqudity` (also with deadline and with a minimum of shares), `withdraw_liquidity` -/
example : okAnd (setup 0 1000 1000 [dep 1 1000 1000])
      (fun s => decide (view s = (some (1000, 1000, 1000), 0, 0) ∧ lp s = (1000, 0, 1000, 1000))) = true ∧
    okAnd (setup 0 1000 1000 [dep 1 1000 1000 99 (some 100)])
      (fun s => decide (view s = (some (1000, 1000, 1000), 0, 0) ∧ lp s = (1000, 0, 1000, 1000))) = true ∧
    okAnd (setup 0 1000 1000 [dep 1 1000 1000 0 none (some 1000)])
      (fun s => decide (view s = (some (1000, 1000, 1000), 0, 0) ∧ lp s = (1000, 0, 1000, 1000))) = true ∧
    okAnd (setup 0 1000 1000 [dep 1 1000 1000, wd 1 500 500 500])
      (fun s => decide (view s = (some (500, 500, 500), 500, 500) ∧ lp s = (500, 0, 500, 500))) = true ∧
    okAnd (setup 0 1000 1000 [dep 1 1000 1000, wd 1 500 500 500 49 (some 50), wd 1 500 500 500 99 (some 100)])
      (fun s => decide ((view s).2 = (1000, 1000) ∧ lp s = (0, 0, 0, 0))) = true := by decide +kernel
/-- the failing ones: `provide_liqudity_too_high_fees`, `swap_with_no_amounts`, `withdraw_liqudity_below_min`,
`provide_liqudity_past_deadline_should_panic`, `withdraw_liquidity_past_deadline_should_panic`,
`provide_liqudity_with_user_specified_minimum_lp_shares_should_panic_...` -/
example : failsWith (setup 10001 0 0 []) .panic = true ∧
    failsWith (setup 0 1001000 1001000 [dep 1 0 0]) .panic = true ∧
    failsWith (setup 0 1000 1000 [dep 1 1000 1000, wd 1 500 3000 3000]) (.code 3) = true ∧
    failsWith (setup 0 1000 1000 [dep 1 1000 1000 100 (some 99)]) (.code 19) = true ∧
    failsWith (setup 0 1000 1000 [dep 1 1000 1000, wd 1 500 500 500 50 (some 49)]) (.code 19) = true ∧
    failsWith (setup 0 1000 1000 [dep 1 1000 1000 0 none (some 1001)]) (.code 21) = true := by decide +kernel

/-! queries.rs -/

def three : List Tx :=
  [.token (at' 0) 10 (.mint 2 2500), .token (at' 0) 10 (.mint 3 3500), .token (at' 0) 11 (.mint 2 3000), .token (at' 0) 11 (.mint 3 4000),
   dep 1 1500 2000, dep 2 1500 2000, dep 3 1500 2000]
def shareOf (r : Res Sys) (u : Addr) (v : Int × Int) : Bool :=
  okAnd r (fun s => match s.pool with | some p => okAnd (queryShare p (s.led.bal 12 u)) (fun x => decide (x = v)) | none => false)
/-- reserves; the supply is the sum of the three users' LP balances -/
def info (r : Res Sys) (v : Int × Int) : Bool :=
  okAnd r (fun s => decide ((view s).1 = some (v.1, v.2, s.led.bal 12 1 + s.led.bal 12 2 + s.led.bal 12 3)))
/-- `withdraw_liquidity` of all LP tokens of a user -/
def wdAll (r : Res Sys) (u : Addr) (a b : Int) : Res Sys := do
  let s ← r
  step 100 s (wd u (s.led.bal 12 u) a b)
/-- `query_share_valid_liquidity`, `query_share_empty_pool` -/
example :
    let s0 := setup 0 1500 2000 three
    let s1 := wdAll s0 1 1000 1000
    let s2 := wdAll s1 2 1500 2000
    let s3 := (do step 100 (← s2) (wd 3 1499 1 1))
    info s0 (4500, 6000) = true ∧ shareOf s0 1 (1499, 1999) = true ∧
    info s1 (3001, 4001) = true ∧ shareOf s1 2 (1500, 2000) = true ∧
    info s2 (1501, 2001) = true ∧ shareOf s2 3 (1501, 2001) = true ∧
    info s3 (601, 801) = true ∧ okAnd s3 (fun s => decide (s.led.bal 12 3 = 1000)) = true ∧ shareOf s3 3 (601, 801) = true ∧
    shareOf (setup 0 0 0 []) 1 (0, 0) = true := by decide +kernel

end Phoenix.Conform.Stable
