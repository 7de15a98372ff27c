import Verif.Model.World
/-! The calls and queries of factory and router that contain loops, once more, this time counting
the work they do.  One unit is one call of another contract, or one entry of a stored list (accounts
on the whitelist, pools, stakes) that is read, written or compared.  The work inside a called contract
is not counted here, except that the stakes a stake contract returns are. -/
namespace Phoenix.WorkW
open Phoenix Phoenix.World

/-- The loop over the operations, contracts/multihop/src/contract.rs:111-142: per operation one call
of the factory and one of the pool. -/
def hopLoop (w : World) (c : Ctx) (F recipient : Addr) (spread : Option Int) (deadline : Option Nat)
    (maxFee : Option Int) : List Multihop.Op → Int → Res ((World × Int) × Nat)
  | [], x => .ok ((w, x), 0)
  | op :: ops, x => do
    let P ← findPool w F op.offer op.ask
    let (w', r) ← poolSwap w c P recipient op.offer x op.min spread deadline maxFee
    let (q, n) ← hopLoop w' c F recipient spread deadline maxFee ops r
    .ok (q, 2 + n)

/-- `swap` of the router, contracts/multihop/src/contract.rs:81-143. -/
def hopSwap (w : World) (c : Ctx) (H recipient : Addr) (ops : List Multihop.Op) (spread : Option Int) (amount : Int)
    (deadline : Option Nat) (maxFee : Option Int) : Res ((World × Int) × Nat) := do
  req (¬ ops = []) (.code 2)
  Multihop.verifySwap ops
  requireAuth c recipient
  let m ← Multihop.loaded (w.hop H)
  hopLoop w (c.as H) m.factory recipient spread deadline maxFee ops amount

/-- The loop of `simulate_swap`, contracts/multihop/src/contract.rs:168-212: per operation the factory,
the pool and the token (for its symbol) are called. -/
def simLoop (w : World) (now : Nat) (F : Addr) : List Multihop.Op → Int → Quote → Res (Quote × Nat)
  | [], _, q => .ok (q, 0)
  | op :: ops, x, q => do
    let P ← findPool w F op.offer op.ask
    let (a, com, spread) ← poolSimulate w now P op.offer x
    let (r, n) ← simLoop w now F ops a ⟨a, q.commissions ++ [com], q.spreads ++ [spread]⟩
    .ok (r, 3 + n)

/-- `simulate_swap` of the router, contracts/multihop/src/contract.rs:145-215. -/
def hopSimulate (w : World) (now : Nat) (H : Addr) (ops : List Multihop.Op) (amount : Int) : Res (Quote × Nat) := do
  req (¬ ops = []) (.code 2)
  Multihop.verifySwap ops
  let m ← Multihop.loaded (w.hop H)
  simLoop w now m.factory ops amount ⟨0, [], []⟩

/-- `query_all_pools_details`, contracts/factory/src/contract.rs:324-341: per pool one entry of the
list and one call. -/
def detailsLoop (w : World) : List Addr → List PoolInfo → Res (List PoolInfo × Nat)
  | [], acc => .ok (acc, 0)
  | P :: l, acc => do
    let i ← poolInfo w P
    let (r, n) ← detailsLoop w l (acc ++ [i])
    .ok (r, 2 + n)

/-- `query_all_pools_details`, contracts/factory/src/contract.rs:324-341. -/
def allPoolsDetails (w : World) (F : Addr) : Res (List PoolInfo × Nat) := do
  let f ← Factory.loaded (w.fac F)
  detailsLoop w f.pools []

/-- The loop over the pools, contracts/factory/src/contract.rs:428-485: per pool one entry of the list,
four calls (pool, share token, stake contract, pool), the stakes returned, and with `staking` a fifth
call that returns the stakes again. -/
def portfolioLoop (w : World) (user : Addr) (staking : Bool) : List Addr → Portfolio → Res (Portfolio × Nat)
  | [], q => .ok (q, 0)
  | P :: l, q => do
    let i ← poolInfo w P
    expect w i.share.1 .token
    expect w i.stake .stake
    let entries := (Stake.queryStaked (w.stake i.stake) user).stakes
    let staked ← sumStakes entries 0
    let total ← addI (w.led.bal i.share.1 user) staked
    let assets ← poolShare w P total
    let (r, n) ← portfolioLoop w user staking l (q.add staking total assets i.stake entries)
    .ok (r, 5 + entries.length + (if staking then 1 + entries.length else 0) + n)

/-- `query_user_portfolio`, contracts/factory/src/contract.rs:420-491. -/
def portfolio (w : World) (F user : Addr) (staking : Bool) : Res (Portfolio × Nat) := do
  let f ← Factory.loaded (w.fac F)
  portfolioLoop w user staking f.pools ⟨[], []⟩

/-- `create_liquidity_pool`, contracts/factory/src/contract.rs:141-235: the configuration with the
whitelist is read twice and the whitelist searched, then one call of the new pool; the list of pools
is read and written back with one more entry (contracts/factory/src/storage.rs: get_lp_vec,
save_lp_vec). -/
def create (h : Host) (w : World) (c : Ctx) (F sender : Addr) (i : Info) (k : Kind) (amp : Option Nat)
    (slippage maxFee : Int) : Res ((World × Addr) × Nat) := do
  let f ← Factory.loaded (w.fac F)
  let r ← World.create h w c F sender i k amp slippage maxFee
  .ok (r, 3 * f.whitelist.length + 1 + f.pools.length + (f.pools.length + 1))

end Phoenix.WorkW
