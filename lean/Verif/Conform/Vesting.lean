import Verif.Model.Vesting
import Verif.Lemmas.Basic
/-
The repository's own unit tests of the vesting contract, replayed on the model: the same calls,
the same expected numbers (contracts/vesting/src/tests/{instantiate,claim,minter}.rs).  These are
tests of the model, not proofs of properties.
-/
namespace Phoenix.Conform.Vesting
open Phoenix Phoenix.Vesting

/-- `env.mock_all_auths()`: everybody signs -/
def at' (now : Nat) : Ctx := { now := now, seq := 0, signed := fun _ => true }
/-- every call must succeed; the contract is 100, its admin 8, the token 10 -/
def play (s : Sys) : List Tx → Res Sys
  | [] => .ok s
  | t :: ts => do play (← step 100 s t) ts
def setup (funds : Int) (minter : Option Minter) (ts : List Tx) : Res Sys :=
  play ⟨none, fun _ => { admin := 9, decimals := 6, bal := fun _ => 0, allow := fun _ _ => ⟨0, 0⟩ }⟩
    ((if 0 < funds then [Tx.token (at' 0) 10 (.mint 8 funds)] else []) ++ .vest (at' 0) (.init 8 10 10 minter) :: ts)
def mk (l : List (Addr × Curve)) (now : Nat := 0) : Tx := .vest (at' now) (.create l)
def cl (now : Nat) (a : Addr) (i : Nat := 0) : Tx := .vest (at' now) (.claim a i)
/-- balances of the given accounts -/
def has (r : Res Sys) (l : List (Addr × Int)) : Bool :=
  okAnd r (fun s => l.all (fun p => decide (s.led.bal 10 p.1 = p.2)))
/-- what `query_available_to_claim` answers -/
def avail (r : Res Sys) (now : Nat) (a : Addr) (i : Nat) (x : Int) : Bool :=
  okAnd r (fun s => match s.vest with | some v => okAnd (available (at' now) v a i) (fun y => decide (y = x)) | none => false)
/-- what `query_all_vesting_info` answers -/
def infos (r : Res Sys) (a : Addr) (l : List Info) : Bool :=
  okAnd r (fun s => match s.vest with | some v => decide (queryAll v a = l) | none => false)
/-- what `query_minter` answers -/
def minterIs (r : Res Sys) (m : Minter) : Bool :=
  okAnd r (fun s => match s.vest with | some v => decide (v.minter = some m) | none => false)
def traps {α} : Res α → Bool
  | .ok _ => false
  | .error _ => true

/-! instantiate.rs -/

/-- `instantiate_contract_successfully`, contracts/vesting/src/tests/instantiate.rs -/
example : infos (setup 480 none [mk [(1, .sl 15 120 60 0), (2, .sl 30 240 120 0)]]) 1 [⟨120, 1, .sl 15 120 60 0⟩] = true := by
  decide +kernel
/-- `instantiate_contract_without_any_vesting_balances_should_fail` -/
example : failsWith (setup 100 none [mk []]) (.code 7) = true := by decide +kernel
/-- `create_schedule_panics_when_admin_has_no_tokens_to_fund` -/
example : failsWith (setup 0 none [mk [(1, .sl 15 120 60 0)]]) (.code 25) = true := by decide +kernel
/-- `instantiate_contract_twice_should_fail` -/
example : failsWith (setup 480 none [.vest (at' 0) (.init 8 10 10 none)]) (.code 31) = true := by decide +kernel

/-! claim.rs -/

/-- `claim_tokens_when_fully_vested`, contracts/vesting/src/tests/claim.rs -/
example : (has (setup 320 none [mk [(1, .sl 0 120 60 0), (2, .sl 15 200 60 0)]]) [(8, 0), (100, 320), (1, 0)] &&
    has (setup 320 none [mk [(1, .sl 0 120 60 0), (2, .sl 15 200 60 0)], cl 60 1]) [(1, 120), (100, 200)]) = true := by decide +kernel
/-- `transfer_tokens_when_half_vested`, `claim_tokens_once_then_claim_again`, `user_can_claim_tokens_way_after_the_testing_period` -/
example : (has (setup 120 none [mk [(1, .sl 0 120 60 0)]]) [(8, 0), (100, 120), (1, 0)] &&
    has (setup 120 none [mk [(1, .sl 0 120 60 0)], cl 30 1]) [(1, 60), (100, 60)] &&
    has (setup 120 none [mk [(1, .sl 0 120 60 0)], cl 30 1, cl 60 1]) [(1, 120), (100, 0)] &&
    has (setup 120 none [mk [(1, .sl 0 120 60 0)], cl 61 1]) [(1, 120), (100, 0)]) = true := by decide +kernel
/-- `transfer_vesting_token_before_vesting_period_starts_should_fail`, `claim_after_all_tokens_have_been_claimed` -/
example : (failsWith (setup 1000 none [mk [(1, .sl 15 120 60 0)], cl 5 1]) (.code 14) &&
    has (setup 1000 none [mk [(1, .sl 0 1000 60 0)], cl 61 1]) [(1, 1000)] &&
    failsWith (setup 1000 none [mk [(1, .sl 0 1000 60 0)], cl 61 1, cl 61 1]) (.code 14)) = true := by decide +kernel
/-- `transfer_works_with_multiple_users_and_distributions` -/
example :
    let c := mk [(1, .sl 0 300 1000 0), (2, .sl 0 200 500 0), (3, .sl 125 250 750 0), (4, .sl 250 250 1500 0)]
    let r1 := [cl 500 1, cl 500 2, cl 500 3, cl 500 4]
    let r2 := [cl 1000 1, cl 1000 3, cl 1000 4]
    (has (setup 1000 none (c :: r1)) [(1, 150), (2, 200), (3, 150), (4, 50), (100, 450)] &&
      has (setup 1000 none (c :: (r1 ++ r2))) [(1, 300), (3, 250), (4, 150)] &&
      has (setup 1000 none (c :: (r1 ++ r2 ++ [cl 1500 4]))) [(4, 250), (100, 0)]) = true := by decide +kernel
/-- `claim_works` -/
example : (avail (setup 120 none [mk [(1, .sl 0 120 60 0)]]) 0 1 0 0 &&
    avail (setup 120 none [mk [(1, .sl 0 120 60 0)], cl 30 1]) 30 1 0 0 &&
    avail (setup 120 none [mk [(1, .sl 0 120 60 0)], cl 30 1, cl 60 1]) 60 1 0 0) = true := by decide +kernel
/-- `claim_tokens_from_two_distributions` -/
example :
    let p : Curve := .pl [⟨50, 500⟩, ⟨100, 250⟩, ⟨150, 0⟩]
    let h := [mk [(1, .sl 0 1500 100 0)], cl 50 1]
    let h2 := h ++ [mk [(1, p)] 50]
    (has (setup 2000 none h) [(1, 750), (100, 750)] &&
      infos (setup 2000 none h2) 1 [⟨750, 1, .sl 0 1500 100 0⟩, ⟨500, 1, p⟩] &&
      has (setup 2000 none (h2 ++ [cl 100 1])) [(1, 1500), (100, 500)] &&
      has (setup 2000 none (h2 ++ [cl 100 1, cl 100 1 1])) [(1, 1750), (100, 250)] &&
      has (setup 2000 none (h2 ++ [cl 100 1, cl 100 1 1, cl 150 1 1])) [(1, 2000), (100, 0)]) = true := by decide +kernel
/-- `first_mainnet_simulation` -/
example :
    let k : Curve := .sl 1716817200 100000000 1716820800 0
    let h := [mk [(1, k)] 1716817100]
    (has (setup 100000000 none h) [(8, 0), (100, 100000000), (1, 0)] &&
      infos (setup 100000000 none (h ++ [cl 1716818400 1])) 1 [⟨66666667, 1, k⟩] &&
      has (setup 100000000 none (h ++ [cl 1716818400 1])) [(1, 33333333), (100, 66666667)] &&
      has (setup 100000000 none (h ++ [cl 1716818400 1, cl 1716820801 1])) [(1, 100000000), (100, 0)]) = true := by decide +kernel

/-! minter.rs (the token's admin, who may mint, is the contract itself or signs along) -/

/-- `mint_panics_when_over_the_cap`, `mint_should_panic_when_*`, contracts/vesting/src/tests/minter.rs -/
example : (traps (setup 0 (some ⟨5, 100⟩) [.vest (at' 0) (.mint 5 110)]) &&
    traps (setup 120 (some ⟨5, 500⟩) [.vest (at' 0) (.mint 5 1500)]) &&
    failsWith (setup 120 (some ⟨8, 500⟩) [.vest (at' 0) (.mint 8 0)]) (.code 17) &&
    failsWith (setup 120 (some ⟨5, 500⟩) [.vest (at' 0) (.mint 1 100)]) (.code 13)) = true := by decide +kernel
/-- `burn_works`, `burn_should_panic_when_invalid_amount`, `burning_more_than_balance` -/
example :
    let h := [mk [(1, .sl 15 120 60 0)], cl 100 1]
    (has (setup 1000 (some ⟨5, 10000⟩) [mk [(1, .sl 15 120 60 0)]]) [(100, 120)] &&
      has (setup 1000 (some ⟨5, 10000⟩) h) [(100, 0), (1, 120)] &&
      has (setup 1000 (some ⟨5, 10000⟩) (h ++ [.vest (at' 100) (.burn 1 120)])) [(1, 0)] &&
      failsWith (setup 1000 (some ⟨5, 10000⟩) [.vest (at' 0) (.burn 1 0)]) (.code 16) &&
      traps (setup 120 (some ⟨5, 1000⟩) [.vest (at' 0) (.burn 1 1)])) = true := by decide +kernel
/-- `mint_works` -/
example :
    let h := [mk [(1, .sl 15 120 60 0)], cl 100 1]
    let m := Tx.vest (at' 100) (.mint 5 250)
    (has (setup 120 (some ⟨5, 500⟩) h) [(1, 120), (100, 0), (8, 0)] &&
      has (setup 120 (some ⟨5, 500⟩) (h ++ [m])) [(100, 250)] && minterIs (setup 120 (some ⟨5, 500⟩) (h ++ [m])) ⟨5, 250⟩ &&
      has (setup 120 (some ⟨5, 500⟩) (h ++ [m, m])) [(100, 500)] &&
      minterIs (setup 120 (some ⟨5, 500⟩) (h ++ [m, m])) ⟨5, 0⟩) = true := by decide +kernel
/-- `update_minter_works_correctly`, `update_minter_fails_when_not_authorized`,
`update_minter_capacity_when_replacing_old_capacity`, `updating_minter_capacity_without_auth` -/
example : (minterIs (setup 120 (some ⟨5, 500⟩) [.vest (at' 0) (.updateMinter 5 6)]) ⟨6, 500⟩ &&
    failsWith (setup 120 (some ⟨5, 500⟩) [.vest (at' 0) (.updateMinter 1 6)]) (.code 13) &&
    minterIs (setup 120 (some ⟨5, 50000⟩) [.vest (at' 0) (.updateCapacity 8 1000)]) ⟨5, 1000⟩ &&
    failsWith (setup 120 (some ⟨5, 50000⟩) [.vest (at' 0) (.updateCapacity 1 1000)]) (.code 13)) = true := by decide +kernel

end Phoenix.Conform.Vesting
