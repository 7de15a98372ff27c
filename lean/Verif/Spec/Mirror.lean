import Verif.Model.Pool
import Verif.Model.Stable
/-!
# The other way round

A pool, a stable pool and the calls of both with the two sides of the pair exchanged: what was
the first token is the second one, and all amounts for the two tokens change places.
-/
namespace Phoenix.Mirror
open Phoenix

/-- The pool with its two sides exchanged. -/
def pool (p : Pool.State) : Pool.State :=
  { p with cfg := { p.cfg with tokenA := p.cfg.tokenB, tokenB := p.cfg.tokenA }, resA := p.resB, resB := p.resA }

/-- The same call, with the amounts for the two tokens exchanged. -/
def call : Pool.Call → Pool.Call
  | .provide s dA mA dB mB cu dl => .provide s dB mB dA mA cu dl
  | .withdraw s x mA mB dl => .withdraw s x mB mA dl
  | k => k

/-- The system of a pool and its tokens with the pool's sides exchanged; balances stay as they are. -/
def sys (s : Pool.Sys) : Pool.Sys := ⟨s.pool.map pool, s.led⟩

/-- A transaction with its amounts exchanged; direct calls of token contracts stay as they are. -/
def tx : Pool.Tx → Pool.Tx
  | .pool c k => .pool c (call k)
  | t => t

/-- The stable pool with its two sides exchanged. -/
def stable (p : Stable.State) : Stable.State :=
  { p with
    cfg := { p.cfg with tokenA := p.cfg.tokenB, tokenB := p.cfg.tokenA }, resA := p.resB, resB := p.resA,
    precA := p.precB, precB := p.precA }

/-- The same call, with the amounts for the two tokens exchanged. -/
def stableCall : Stable.Call → Stable.Call
  | .provide s a b cu dl ms => .provide s b a cu dl ms
  | .withdraw s x mA mB dl => .withdraw s x mB mA dl
  | k => k

/-- The system of a stable pool and its tokens with the pool's sides exchanged. -/
def stableSys (s : Stable.Sys) : Stable.Sys := ⟨s.pool.map stable, s.led⟩

/-- A transaction with its amounts exchanged. -/
def stableTx : Stable.Tx → Stable.Tx
  | .pool c k => .pool c (stableCall k)
  | t => t

end Phoenix.Mirror
