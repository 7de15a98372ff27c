import Verif.Spec.World
import Mathlib.Data.List.Chain
/-!
Specification vocabulary for routes over several pools.
-/
namespace Phoenix.World.Spec
open Phoenix Phoenix.World Phoenix.Spec

/-- One hop of a route: `inp` of `offer` goes into the pool, `out` of `ask` comes out, and `fee`
of `ask` goes to `feeTo`. -/
structure Leg where
  pool : Addr
  offer : Addr
  ask : Addr
  inp : Int
  out : Int
  fee : Int
  feeTo : Addr

/-- The token movements of a hop for the account `r`. -/
def Leg.flows (r : Addr) (l : Leg) : List Flow :=
  [⟨l.offer, r, l.pool, l.inp⟩, ⟨l.ask, l.pool, r, l.out⟩, ⟨l.ask, l.pool, l.feeTo, l.fee⟩]

/-- Each operation offers the asset the previous one asked for. -/
def Linked (ops : List Multihop.Op) : Prop := ops.IsChain (fun a b => a.ask = b.offer)

/-- `x` goes into the first hop, each later hop gets exactly what the previous one paid out, and
the last one pays out `y`. -/
def Passes : Int → List Leg → Int → Prop
  | x, [], y => y = x
  | x, l :: ls, y => l.inp = x ∧ Passes l.out ls y

/-- The hop does what the operation asks for, in the pool that the factory at `F` has registered for
the pair, and returns at least the minimum. -/
def Serves (w : World) (F : Addr) (op : Multihop.Op) (l : Leg) : Prop :=
  l.offer = op.offer ∧ l.ask = op.ask ∧ findPool w F op.offer op.ask = .ok l.pool ∧
  PoolFor w l.pool (min op.offer op.ask) (max op.offer op.ask) ∧
  (∀ m, op.min = some m → m ≤ l.out) ∧ 0 < l.inp ∧ 0 ≤ l.out ∧ 0 ≤ l.fee

/-- A direct `swap` call on the pool at `P`, of whichever kind. -/
def swapCall (w : World) (P r offer : Addr) (x : Int) (min spread : Option Int) (deadline : Option Nat)
    (maxFee : Option Int) : Call :=
  if w.code P = .xyk then .xyk P (.swap r offer x min spread deadline maxFee)
  else .stable P (.swap r offer x min spread deadline maxFee)

/-- The transactions of an account that performs the hops itself, one after the other. -/
def directly (w : World) (c : Ctx) (r : Addr) (spread : Option Int) (deadline : Option Nat) (maxFee : Option Int) :
    List Multihop.Op → List Leg → List Tx
  | op :: ops, l :: ls =>
    ⟨c, swapCall w l.pool r l.offer l.inp op.min spread deadline maxFee⟩ :: directly w c r spread deadline maxFee ops ls
  | _, _ => []

/-- All transactions of the list succeed, one after the other. -/
def Succeed (h : Host) : World → List Tx → World → Prop
  | w, [], w' => w' = w
  | w, t :: ts, w' => ∃ w1, step h w t.ctx t.call = .ok w1 ∧ Succeed h w1 ts w'

/-- The pool at `P`, of whichever kind, carries out the `swap` of `x` units of `offer` for `r`: afterwards all is as its own `swap` says,
and `y` is what it pays. -/
def Trades (w : World) (c : Ctx) (P r offer : Addr) (x : Int) (min spread : Option Int) (deadline : Option Nat) (maxFee : Option Int)
    (w' : World) (y : Int) : Prop :=
  (w.code P = .xyk ∧ ∃ p p' L, w.xyk P = some p ∧
    Pool.swap P c p w.led r offer x min spread deadline maxFee = .ok (p', L, y) ∧
    w' = { w with xyk := upd w.xyk P (some p'), led := L }) ∨
  (w.code P = .stable ∧ ∃ p p' L, w.stable P = some p ∧
    Stable.swap P c p w.led r offer x min spread deadline maxFee = .ok (p', L, y) ∧
    w' = { w with stable := upd w.stable P (some p'), led := L })

/-- Direct swaps of the account `r`, each with the amount the previous one returned, in the pools
registered with `F`. -/
inductive Chain (c : Ctx) (F r : Addr) (spread : Option Int) (deadline : Option Nat) (maxFee : Option Int) :
    World → List Multihop.Op → Int → World → Int → Prop where
  | done (w : World) (x : Int) : Chain c F r spread deadline maxFee w [] x w x
  | hop {w w1 w' : World} {op : Multihop.Op} {ops : List Multihop.Op} {x y z : Int} {P : Addr}
      (find : findPool w F op.offer op.ask = .ok P)
      (swap : Trades w c P r op.offer x op.min spread deadline maxFee w1 y)
      (rest : Chain c F r spread deadline maxFee w1 ops y w' z) :
      Chain c F r spread deadline maxFee w (op :: ops) x w' z

/-- What one hop of a quote says. -/
structure HopQuote where
  amount : Int
  commission : Int
  spread : Int

/-- Each operation asks for the asset the previous one offered, as in a route written from its end. -/
def LinkedBack (ops : List Multihop.Op) : Prop := ops.IsChain (fun a b => a.offer = b.ask)

/-- The pool at `P`, of whichever kind, answers to `simulate_swap` of `x` units of `offer`: it pays `q.amount`, keeps the commission
`q.commission` and has the spread `q.spread`. -/
def Quotes (w : World) (now : Nat) (P offer : Addr) (x : Int) (q : HopQuote) : Prop :=
  (w.code P = .xyk ∧ ∃ p tot, w.xyk P = some p ∧ Pool.simulateSwap p offer x = .ok (q.amount, q.commission, q.spread, tot)) ∨
  (w.code P = .stable ∧ ∃ p tot, w.stable P = some p ∧
    Stable.simulateSwap now p offer x = .ok (q.amount, q.spread, q.commission, tot))

/-- The pool at `P`, of whichever kind, answers to `simulate_reverse_swap` of `x` units and the asset `asset`. -/
def QuotesBack (w : World) (now : Nat) (P asset : Addr) (x : Int) (q : HopQuote) : Prop :=
  (w.code P = .xyk ∧ ∃ p, w.xyk P = some p ∧ Pool.simulateReverseSwap p asset x = .ok (q.amount, q.spread, q.commission)) ∨
  (w.code P = .stable ∧ ∃ p, w.stable P = some p ∧
    Stable.simulateReverseSwap now p asset x = .ok (q.amount, q.spread, q.commission))

/-- The answers of the pools registered with `F`, in the order of the operations: the first is asked about `x`, each
later one about the amount the answer before it named. -/
inductive Answers (tells : Addr → Multihop.Op → Int → HopQuote → Prop) (w : World) (F : Addr) :
    List Multihop.Op → Int → List HopQuote → Prop where
  | done (x : Int) : Answers tells w F [] x []
  | hop {op : Multihop.Op} {ops : List Multihop.Op} {x : Int} {q : HopQuote} {P : Addr} {l : List HopQuote}
      (find : findPool w F op.offer op.ask = .ok P) (answer : tells P op x q)
      (rest : Answers tells w F ops q.amount l) : Answers tells w F (op :: ops) x (q :: l)

/-- The router's answer made of the pools' answers: the last amount, and all commissions and spreads. -/
def total (l : List HopQuote) : Quote :=
  ⟨match l.getLast? with | some q => q.amount | none => 0, l.map (·.commission), l.map (·.spread)⟩

end Phoenix.World.Spec
