import Verif.Spec.Life
import Verif.Spec.StorePool
import Verif.Model.LifeFactory
/-! What the store of a factory holds, key by key, and the entries that the transactions of the protocol
use of it. -/
namespace Phoenix.Life.Factory
open Phoenix Phoenix.Store
open Phoenix.World (World Tx)

/-- the entry of a pair of tokens -/
def pairKey (a b : Addr) : Key := .mcons "token_a" (.addr a) (.mcons "token_b" (.addr b) .mnil)

/-- The store holds exactly the record of the factory, each variable under its own key, and nothing else. -/
structure Holds (σ : Store) (f : Phoenix.Factory.State) : Prop where
  config : get σ .pers (.u32 1) = some (.factoryConfig
    ⟨f.admin, f.multihop, f.lpHash, f.stakeHash, f.tokenHash, f.whitelist, f.lpDecimals⟩)
  pools : get σ .pers (.u32 2) = some (.addrs f.pools)
  inited : get σ .pers (.u32 3) = some (.bool true)
  stable : get σ .pers (.sym "stabwasm") = some (.hash f.stableHash)
  /-- the pool of every pair, in the order of its tokens -/
  pair : ∀ a b, get σ .pers (pairKey a b) = (f.pair a b).map .addr
  /-- nothing else -/
  only : ∀ d k, get σ d k ≠ none → d = .pers ∧
    (k ∈ [Key.u32 1, .u32 2, .u32 3, .sym "stabwasm"] ∨ ∃ a b, k = pairKey a b)

/-- The store of a factory that may not be initialised yet. -/
def Stores (σ : Store) : Option Phoenix.Factory.State → Prop
  | none => Blank σ
  | some f => Holds σ f

/-- the protocol without the variables of the factory at `F` -/
def others (F : Addr) (w : World) : World := { w with fac := upd w.fac F none }

/-- the entries that a router's question for the pool of a pair uses: the pair as it is asked for, and if
there is no pool for it, the other way round -/
def asked (f : Option Phoenix.Factory.State) (offer ask : Addr) : List Key :=
  if (f.bind (fun f => f.pair offer ask)).isSome = true then [pairKey offer ask] else [pairKey offer ask, pairKey ask offer]

/-- The entries of the factory at `F` that a transaction uses. -/
def uses (F : Addr) (w : World) (t : Tx) : List Key :=
  match t.call with
  | .facInit F' _ _ _ _ _ _ _ => if F' = F then [.u32 1, .u32 2, .u32 3, .sym "stabwasm"] else []
  | .create F' _ i k _ _ _ =>
    if F' = F then .u32 1 :: .u32 2 :: pairKey i.tokenA i.tokenB :: (if k = .stable then [.sym "stabwasm"] else []) else []
  | .whitelist F' _ _ _ => if F' = F then [.u32 1] else []
  | .hashes F' _ _ _ => if F' = F then [.u32 1] else []
  | .facUpdate F' _ => if F' = F then [.u32 1, .sym "stabwasm"] else []
  | .hopSwap H _ ops _ _ _ _ =>
    if (w.hop H).map (·.factory) = some F then ops.flatMap (fun op => asked (w.fac F) op.offer op.ask) else []
  | _ => []

/-- The transactions that extend the factory's instance: all that call it but `initialize` and `update`. -/
def extendsInst (F : Addr) (w : World) (t : Tx) : Bool :=
  match t.call with
  | .facInit _ _ _ _ _ _ _ _ => false
  | .facUpdate _ _ => false
  | _ => callsOf F t w

end Phoenix.Life.Factory
