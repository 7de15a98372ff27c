import Verif.Spec.World
/-!
A single contract seen in a history of the whole protocol.
-/
namespace Phoenix.World.Spec
open Phoenix

/-- The call of the stake contract at `A` that a call of the protocol makes: the call itself, or the initialisation of the
stake contract of a new pool. -/
def stakeCall (h : Host) (A : Addr) : Call → List Stake.Call
  | .stake K k => if K = A then [k] else []
  | .xykInit P i owner _ _ _ =>
    if h.stakeAddr P = A then
      [.init i.admin (h.shareAddr P i.tokenA i.tokenB) i.minBond i.minReward i.manager owner i.maxComplexity]
    else []
  | .stableInit P i owner _ _ =>
    if h.stakeAddr P = A then
      [.init i.admin (h.shareAddr P i.tokenA i.tokenB) i.minBond i.minReward i.manager owner i.maxComplexity]
    else []
  | .create F _ i _ _ _ _ =>
    let P := h.poolAddr F i.tokenA i.tokenB
    if h.stakeAddr P = A then
      [.init i.admin (h.shareAddr P i.tokenA i.tokenB) i.minBond i.minReward i.manager F i.maxComplexity]
    else []
  | _ => []

/-- The call of the vesting contract at `A`. -/
def vestCall (A : Addr) : Call → List Vesting.Call
  | .vest V k => if V = A then [k] else []
  | _ => []

/-- The call of the reward contract at `A`. -/
def rewCall (A : Addr) : Call → List Rewards.Call
  | .rewards R k => if R = A then [k] else []
  | _ => []

/-- The successful calls in a history that `f` selects, with their signers and clock. -/
def callsOf {κ : Type} (h : Host) (f : Call → List κ) : World → List Tx → List (Ctx × κ)
  | _, [] => []
  | w, t :: ts =>
    (if (step h w t.ctx t.call).toOption.isSome then (f t.call).map (fun k => (t.ctx, k)) else []) ++
      callsOf h f (exec h w t) ts

/-- The calls of the stake contract in a history of that contract alone. -/
def stakePart : Stake.Tx → Option (Ctx × Stake.Call)
  | .stake c k => some (c, k)
  | .token _ _ _ => none

/-- The calls of the vesting contract in a history of that contract alone. -/
def vestPart : Vesting.Tx → Option (Ctx × Vesting.Call)
  | .vest c k => some (c, k)
  | .token _ _ _ => none

/-- The calls of the reward contract in a history of that contract alone. -/
def rewPart : Rewards.Tx → Option (Ctx × Rewards.Call)
  | .rewards c k => some (c, k)
  | .token _ _ _ => none

/-- The times never run backwards. -/
def Ordered (l : List Nat) : Prop := l.Pairwise (· ≤ ·)

/-- Tokens at the start of a history of the whole protocol, as one contract at `A` sees them: balances as they are, tokens
that exist as they are, a token still to be deployed already with its first administrator and decimals; and nothing
allowed by `A`. -/
structure SeenFrom (A : Addr) (w : World) (L : Ledger) : Prop where
  bal : ∀ t a, L.bal t a = w.led.bal t a
  same : ∀ t, w.code t ≠ .none → L t = w.led t
  none : Phoenix.Spec.NoAllowance A L

end Phoenix.World.Spec
