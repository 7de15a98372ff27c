import Verif.Spec.World
/-!
A concrete ledger and history with several contracts, used to show that the hypotheses of the
theorems about the whole protocol can be met.
-/
namespace Phoenix.World.Example
open Phoenix Phoenix.World Phoenix.World.Spec

/-- address derivation -/
def host : Host :=
  { poolAddr := fun F a b => 100000 + F * 10000 + a * 100 + b
    hopAddr := fun F _ => 5000 + F
    shareAddr := fun P a b => P + a + b + 10000000
    stakeAddr := fun P => P + 20000000 }

/-- addresses below 20 are accounts -/
def acct : Accounts := fun a => a < 20

/-- tokens 20, 21, 22, a factory at 50, a trader at 60, a vesting contract at 70, a reward contract
at 80; accounts 1 and 2 hold five million of each token -/
def start : World :=
  { led := fun t =>
      { admin := 9, decimals := 7,
        bal := fun a => if (t = 20 ∨ t = 21 ∨ t = 22) ∧ (a = 1 ∨ a = 2) then 5000000 else 0,
        allow := fun _ _ => ⟨0, 0⟩ }
    code := fun a =>
      if a = 20 ∨ a = 21 ∨ a = 22 then .token else if a = 50 then .factory else if a = 60 then .trader
      else if a = 70 then .vesting else if a = 80 then .rewards else .none
    xyk := fun _ => none
    stable := fun _ => none
    stake := fun _ => Stake.fresh
    vest := fun _ => none
    fac := fun _ => none
    hop := fun _ => none
    trd := fun _ => none
    rew := fun _ => Rewards.fresh }

/-- account `a` signs -/
def by' (a : Addr) : Ctx := { now := 10, seq := 20, signed := fun x => x == a }

/-- parameters of a new pool -/
def info (a b : Addr) : Info :=
  { admin := 8, swapFeeBps := 30, feeRecipient := 7, maxSlippageBps := 100, defaultSlippageBps := 100,
    maxSpreadBps := 5000, maxReferralBps := 500, tokenA := a, tokenB := b, minBond := 1, minReward := 1,
    manager := 6, maxComplexity := 7 }

/-- address of the pool for tokens 20 and 21 -/
abbrev pool1 : Addr := 602021
/-- address of the pool for tokens 21 and 22 -/
abbrev pool2 : Addr := 602122
/-- address of the router -/
abbrev router : Addr := 5050

/-- set-up: the factory is initialised, account 3 (not on the whitelist) fails to create a pool,
account 8 creates an XYK pool and a stable pool and fails to create the first one again -/
def setup : List Tx :=
  [ ⟨by' 8, .facInit 50 8 1 2 3 4 [8] 7⟩,
    ⟨by' 3, .create 50 3 (info 20 21) .xyk none 100 1000⟩,
    ⟨by' 8, .create 50 8 (info 20 21) .xyk none 100 1000⟩,
    ⟨by' 8, .create 50 8 (info 21 22) .stable (some 100) 100 1000⟩,
    ⟨by' 8, .create 50 8 (info 20 21) .xyk none 100 1000⟩ ]

/-- account 1 provides liquidity to both pools -/
def liquidity : List Tx :=
  [ ⟨by' 1, .xyk pool1 (.provide 1 (some 1000000) none (some 2000000) none none none)⟩,
    ⟨by' 1, .stable pool2 (.provide 1 1000000 1000000 none none none)⟩ ]

end Phoenix.World.Example
