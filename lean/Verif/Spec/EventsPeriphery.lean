import Verif.Model.EventsPeriphery
/-! Specification vocabulary: what routers and traders say about themselves. -/
namespace Phoenix.World.Spec
open Phoenix Phoenix.World

/-- The events that the contract at `x` has published, in their order. -/
def publishedBy (x : Addr) (log : List (Addr × Event)) : List Event :=
  log.filterMap (fun e => if e.1 = x then some e.2 else none)

/-- What a router with this setup has said: nothing before it is set up, then who its admin is. -/
def routerStory : Option Multihop.State → List Event
  | none => []
  | some m => [⟨"initialize", "Multihop factory with admin: ", .addr m.admin⟩]

/-- What a trader with this setup has said: nothing before it is set up, then its admin, the two tokens it trades and the
token it pays out. -/
def traderStory : Option Trader.State → List Event
  | none => []
  | some t =>
    [⟨"Trader: Initialize", "admin: ", .addr t.admin⟩, ⟨"Trader: Initialize", "pairs: ", .pair t.tokenA t.tokenB⟩,
     ⟨"Trader: Initialize", "PHO token: ", .addr t.output⟩]

end Phoenix.World.Spec
