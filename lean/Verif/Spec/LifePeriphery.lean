import Verif.Spec.Life
import Verif.Spec.StorePool
import Verif.Model.LifePeriphery
/-! What the stores of a router and of a trader hold, key by key, and the entries that the transactions of
the protocol use of them. -/
namespace Phoenix.Life.Router
open Phoenix Phoenix.Store
open Phoenix.World (World Tx)

/-- The store holds exactly the record of the router, each variable under its own key, and nothing else. -/
structure Holds (σ : Store) (m : Multihop.State) : Prop where
  factory : get σ .inst (.cons (.sym "FactoryKey") .nil) = some (.addr m.factory)
  admin : get σ .inst (.cons (.sym "Admin") .nil) = some (.addr m.admin)
  inited : get σ .pers (.cons (.sym "Initialized") .nil) = some (.bool true)
  /-- nothing else -/
  only : ∀ d k, get σ d k ≠ none →
    (d = .inst ∧ k ∈ [Key.cons (.sym "FactoryKey") .nil, .cons (.sym "Admin") .nil]) ∨ (d = .pers ∧ k = .cons (.sym "Initialized") .nil)

/-- The store of a router that may not be initialised yet. -/
def Stores (σ : Store) : Option Multihop.State → Prop
  | none => Blank σ
  | some m => Holds σ m

/-- the protocol without the variables of the router at `H` -/
def others (H : Addr) (w : World) : World := { w with hop := upd w.hop H none }

/-- The entries of the router at `H` that a transaction uses: the route itself uses none. -/
def uses (H : Addr) (t : Tx) : List Key :=
  match t.call with
  | .hopInit H' _ _ => if H' = H then [.cons (.sym "Initialized") .nil] else []
  | _ => []

/-- A router that is deployed at `H` and may be initialised, in the protocol `w`. -/
structure Begins (H : Addr) (s : LSys World) (w : World) : Prop where
  there : w.code H = .multihop
  store : Stores s.cs.st (w.hop H)
  rest : s.led = others H w

end Phoenix.Life.Router

namespace Phoenix.Life.Trader
open Phoenix Phoenix.Store
open Phoenix.World (World Tx)

/-- The store holds exactly the record of the trader, each variable under its own key, and nothing else. -/
structure Holds (σ : Store) (t : Phoenix.Trader.State) : Prop where
  admin : get σ .pers (.u32 0) = some (.addr t.admin)
  name : get σ .pers (.u32 1) = some (.text "")
  pair : get σ .pers (.u32 2) = some (.addrPair t.tokenA t.tokenB)
  token : get σ .pers (.u32 3) = some (.addr t.output)
  inited : get σ .pers (.u32 5) = some (.bool true)
  /-- nothing else -/
  only : ∀ d k, get σ d k ≠ none → d = .pers ∧ k ∈ [Key.u32 0, .u32 1, .u32 2, .u32 3, .u32 5]

/-- The store of a trader that may not be initialised yet. -/
def Stores (σ : Store) : Option Phoenix.Trader.State → Prop
  | none => Blank σ
  | some t => Holds σ t

/-- the protocol without the variables of the trader at `T` -/
def others (T : Addr) (w : World) : World := { w with trd := upd w.trd T none }

/-- The entries of the trader at `T` that a transaction uses. -/
def uses (T : Addr) (t : Tx) : List Key :=
  match t.call with
  | .trdInit T' _ _ _ _ => if T' = T then [.u32 0, .u32 1, .u32 2, .u32 3, .u32 5] else []
  | .trade T' _ _ _ _ _ _ _ _ => if T' = T then [.u32 0, .u32 2] else []
  | .trdTransfer T' _ _ _ token => if T' = T then .u32 0 :: (if token = none then [.u32 3] else []) else []
  | _ => []

/-- The transactions that extend the trader's instance: all that call it but `initialize`. -/
def extendsInst (T : Addr) (t : Tx) : Bool :=
  match t.call with
  | .trdInit _ _ _ _ _ => false
  | _ => callsOf T t

end Phoenix.Life.Trader
