import Verif.Model.Events
/-! The events of the routers and the traders. -/
namespace Phoenix.World
open Phoenix

/-- The event of a router's `initialize`, contracts/multihop/src/contract.rs:76-77. -/
def routerInit (admin : Addr) : Event := ⟨"initialize", "Multihop factory with admin: ", .addr admin⟩

/-- The events of a trader's `initialize`, contracts/trader/src/contract.rs:92-99.  The second of them, which carries the
contract's name, is left out: names are in Model/Names. -/
def traderInit (admin a b output : Addr) : List Event :=
  [⟨"Trader: Initialize", "admin: ", .addr admin⟩, ⟨"Trader: Initialize", "pairs: ", .pair a b⟩,
   ⟨"Trader: Initialize", "PHO token: ", .addr output⟩]

/-- The events of `trade_token`, contracts/trader/src/contract.rs:165-170. -/
def traderTrade (sender token : Addr) (received : Int) : List Event :=
  [⟨"Trader: Trade Token", "user: ", .addr sender⟩, ⟨"Trader: Trade Token", "offer asset: ", .addr token⟩,
   ⟨"Trader: Trade Token", "amount received: ", .int received⟩]

/-- One transaction with the events of routers and traders, each with the contract that publishes it: `initialize` of a router,
called from outside (contracts/multihop/src/contract.rs:61-78) or by the factory that deploys it
(contracts/factory/src/utils.rs:19-38); `initialize` and `trade_token` of a trader (contracts/trader/src/contract.rs:68-100,
103-171).  `swap` of a router (contracts/multihop/src/contract.rs:81-143) and `transfer` of a trader
(contracts/trader/src/contract.rs:173-199) publish nothing. -/
def stepP (h : Host) (w : World) (c : Ctx) : Call → Res (World × List (Addr × Event))
  | .facInit F admin lp stb stk tok wl dec => do
    let w' ← step h w c (.facInit F admin lp stb stk tok wl dec)
    .ok (w', [(h.hopAddr F admin, routerInit admin)])
  | .hopInit H admin F => do
    let w' ← step h w c (.hopInit H admin F)
    .ok (w', [(H, routerInit admin)])
  | .trdInit T admin a b o => do
    let w' ← step h w c (.trdInit T admin a b o)
    .ok (w', (traderInit admin a b o).map (T, ·))
  | .trade T sender token pool amount spread dl min mf => do
    expect w T .trader
    let (w', received) ← trade w c T sender token pool amount spread dl min mf
    .ok (w', (traderTrade sender token received).map (T, ·))
  | k => do
    let w' ← step h w c k
    .ok (w', [])

/-- The log of routers and traders of a history; failed transactions publish nothing (modelling device, nothing of /repo). -/
def periLog (h : Host) : World → List Tx → List (Addr × Event)
  | _, [] => []
  | w, t :: ts =>
    match stepP h w t.ctx t.call with
    | .ok (w', ev) => ev ++ periLog h w' ts
    | .error _ => periLog h w ts

end Phoenix.World
