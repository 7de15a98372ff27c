import Verif.Model.World
/-
The plain read-only queries of pools and traders: what a wallet or an indexer asks first.  Every query also prolongs the lifetime of
the contract's storage, which is modelled in Verif.Model.Life and left out here.
-/
namespace Phoenix.World
open Phoenix

/-- `PoolResponse`, contracts/pool/src/storage.rs:143-155 and contracts/pool_stable/src/storage.rs:176-188: the two assets and the
LP shares with their amounts, and the stake contract. -/
structure PoolResponse where
  assetA : Addr × Int
  assetB : Addr × Int
  share : Addr × Int
  stake : Addr
deriving DecidableEq

/-- `query_pool_info` of whichever pool is at `P`, contracts/pool/src/contract.rs:616-637,
contracts/pool_stable/src/contract.rs:635-656. -/
def queryPoolInfo (w : World) (P : Addr) : Res PoolResponse :=
  match w.code P with
  | .xyk => do
    let p ← Pool.loaded (w.xyk P)
    .ok ⟨(p.cfg.tokenA, p.resA), (p.cfg.tokenB, p.resB), (p.cfg.shareToken, p.total), p.cfg.stakeContract⟩
  | .stable => do
    let p ← Stable.loaded (w.stable P)
    .ok ⟨(p.cfg.tokenA, p.resA), (p.cfg.tokenB, p.resB), (p.cfg.shareToken, p.total), p.cfg.stakeContract⟩
  | _ => .error .panic

/-- `query_config` of a constant product pool, contracts/pool/src/contract.rs:592-598. -/
def queryConfigXyk (w : World) (P : Addr) : Res Pool.Config := do
  expect w P .xyk
  let p ← Pool.loaded (w.xyk P)
  .ok p.cfg

/-- `query_config` of a stable pool, contracts/pool_stable/src/contract.rs:614-619. -/
def queryConfigStable (w : World) (P : Addr) : Res Stable.Config := do
  expect w P .stable
  let p ← Stable.loaded (w.stable P)
  .ok p.cfg

/-- `query_share_token_address`, contracts/pool/src/contract.rs:600-606, contracts/pool_stable/src/contract.rs:621-626. -/
def queryShareToken (w : World) (P : Addr) : Res Addr :=
  match w.code P with
  | .xyk => do
    let p ← Pool.loaded (w.xyk P)
    .ok p.cfg.shareToken
  | .stable => do
    let p ← Stable.loaded (w.stable P)
    .ok p.cfg.shareToken
  | _ => .error .panic

/-- `query_stake_contract_address`, contracts/pool/src/contract.rs:608-614, contracts/pool_stable/src/contract.rs:628-633. -/
def queryStakeContract (w : World) (P : Addr) : Res Addr :=
  match w.code P with
  | .xyk => do
    let p ← Pool.loaded (w.xyk P)
    .ok p.cfg.stakeContract
  | .stable => do
    let p ← Stable.loaded (w.stable P)
    .ok p.cfg.stakeContract
  | _ => .error .panic

/-- `query_total_issued_lp`, contracts/pool/src/contract.rs:769-774, contracts/pool_stable/src/contract.rs:813-818. -/
def queryTotalIssued (w : World) (P : Addr) : Res Int :=
  match w.code P with
  | .xyk => do
    let p ← Pool.loaded (w.xyk P)
    .ok p.total
  | .stable => do
    let p ← Stable.loaded (w.stable P)
    .ok p.total
  | _ => .error .panic

/-- `balance` of the token at `tok`, asked by another contract, contracts/token/src/contract.rs:97-102. -/
def tokenBalance (w : World) (tok a : Addr) : Res Int := do
  expect w tok .token
  .ok (w.led.bal tok a)

/-- `BalanceInfo`, contracts/trader/src/storage.rs:19-34 (`output_token`, `token_a`, `token_b`).  The symbol of a token is replaced by
its address (names and symbols are in Model/Names). -/
structure BalanceInfo where
  output : Addr × Int
  assetA : Addr × Int
  assetB : Addr × Int
deriving DecidableEq

/-- The trader at `T`, read from storage, contracts/trader/src/storage.rs:53-179. -/
def traderAt (w : World) (T : Addr) : Res Trader.State := do
  expect w T .trader
  Trader.loaded (w.trd T)

/-- `query_balances`, contracts/trader/src/contract.rs:201-233. -/
def queryBalances (w : World) (T : Addr) : Res BalanceInfo := do
  let t ← traderAt w T
  let o ← tokenBalance w t.output T
  let a ← tokenBalance w t.tokenA T
  let b ← tokenBalance w t.tokenB T
  .ok ⟨(t.output, o), (t.tokenA, a), (t.tokenB, b)⟩

/-- `query_trading_pairs`, contracts/trader/src/contract.rs:235-240. -/
def queryTradingPairs (w : World) (T : Addr) : Res (Addr × Addr) := do
  let t ← traderAt w T
  .ok (t.tokenA, t.tokenB)

/-- `query_admin_address`, contracts/trader/src/contract.rs:242-247. -/
def queryTraderAdmin (w : World) (T : Addr) : Res Addr := do
  let t ← traderAt w T
  .ok t.admin

/-- `query_output_token_info`, contracts/trader/src/contract.rs:256-269 (address and decimals; name and symbol are in Model/Names). -/
def queryOutputToken (w : World) (T : Addr) : Res (Addr × Nat) := do
  let t ← traderAt w T
  expect w t.output .token
  .ok (t.output, (w.led t.output).decimals)

end Phoenix.World
