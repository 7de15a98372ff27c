import Verif.Lemmas.Order
import Verif.Props.AvailStake
/-!
Property C118: the order of calls that touch different things does not matter.
-/
namespace Phoenix.Props.World
open Phoenix Phoenix.World Phoenix.World.Spec

variable {h : Host} {acct : Accounts} {w0 : World} {ts : List Tx} {c₁ c₂ : Ctx} {k₁ k₂ : Call} {w₁ w₂ w₁₂ w₂₁ : World}

/-- **C118** Two independent calls (different pools, different stakers, different vesting schedules,
or plain token transfers, mints and burns next to anything) that go through in either order lead to
the same state of the whole protocol. -/
theorem C118_order_does_not_matter (hh : HostOK h acct) (g : Genesis acct w0) (hp : ∀ y ∈ ts, Possible acct y)
    (p₁ : Possible acct ⟨c₁, k₁⟩) (p₂ : Possible acct ⟨c₂, k₂⟩) (hi : Independent k₁ k₂)
    (e₁ : step h (run h w0 ts) c₁ k₁ = .ok w₁) (e₁₂ : step h w₁ c₂ k₂ = .ok w₁₂)
    (e₂ : step h (run h w0 ts) c₂ k₂ = .ok w₂) (e₂₁ : step h w₂ c₁ k₁ = .ok w₂₁) :
    w₁₂ = w₂₁ := by
  obtain ⟨I, -⟩ := run_inv hh (Phoenix.World.genesis_inv (h := h) g) hp
  obtain ⟨s₁, s₂, hs₁, hs₂, hne⟩ := hi
  exact commute (local_of_step I.core p₁ hs₁ e₁) (local_of_step I.core p₂ hs₂ e₂) hne e₁₂ e₂₁

/-- **C118** A call that goes through before and after an independent one moves the same amounts of
every token for everybody in both cases: nobody changes the outcome of a swap, a withdrawal, a bond
or a claim by acting first on anything else. -/
theorem C118_same_outcome (hh : HostOK h acct) (g : Genesis acct w0) (hp : ∀ y ∈ ts, Possible acct y)
    (p₁ : Possible acct ⟨c₁, k₁⟩) (p₂ : Possible acct ⟨c₂, k₂⟩) (hi : Independent k₁ k₂)
    (e₁ : step h (run h w0 ts) c₁ k₁ = .ok w₁) (e₁₂ : step h w₁ c₂ k₂ = .ok w₁₂)
    (e₂ : step h (run h w0 ts) c₂ k₂ = .ok w₂) (t a : Addr) :
    w₁₂.led.bal t a - w₁.led.bal t a = w₂.led.bal t a - (run h w0 ts).led.bal t a := by
  obtain ⟨I, -⟩ := run_inv hh (Phoenix.World.genesis_inv (h := h) g) hp
  obtain ⟨s₁, s₂, hs₁, hs₂, hne⟩ := hi
  obtain ⟨ch₁, d₁, rfl, a₁, -⟩ := local_of_step I.core p₁ hs₁ e₁
  obtain ⟨ch₂, d₂, rfl, a₂, f₂⟩ := local_of_step I.core p₂ hs₂ e₂
  rw [(f₂ _ _ (view_keep a₁ hne) e₁₂).bal, a₂.bal]
  ring

section
open Phoenix.World.Example

/-- the two calls, in the given order -/
def both (w : World) (x y : Tx) : Option World :=
  match step host w x.ctx x.call with
  | .ok w' => (step host w' y.ctx y.call).toOption
  | .error _ => none

/-- a swap by account 1 in the XYK pool, one by account 2 in the XYK pool, one by account 2 in the
stable pool, account 1 taking its stake back, account 2 handing token 20 to account 1 -/
def exSwap1 : Tx := ⟨Example.by' 1, .xyk pool1 (.swap 1 20 1000 none none none none)⟩
def exSwap2 : Tx := ⟨Example.by' 2, .xyk pool1 (.swap 2 20 3000 none none none none)⟩
def exSwapS : Tx := ⟨Example.by' 2, .stable pool2 (.swap 2 21 1000 none none none none)⟩
def exUnbond : Tx := ⟨Example.by' 1, .stake exStk (.unbond 1 1000 10)⟩
def exPay : Tx := ⟨Example.by' 2, .token 20 (.transfer 2 1 77)⟩

/-- the hypotheses are met: both calls go through in both orders, and they are independent -/
example : (both (run host start exStaking) exSwap1 exSwapS).isSome = true ∧
    (both (run host start exStaking) exSwapS exSwap1).isSome = true ∧
    (both (run host start exStaking) exUnbond exSwapS).isSome = true ∧
    (both (run host start exStaking) exSwapS exUnbond).isSome = true ∧
    (both (run host start exStaking) exPay exSwap1).isSome = true ∧
    (both (run host start exStaking) exSwap1 exPay).isSome = true := by decide +kernel

example : Independent exSwap1.call exSwapS.call ∧ Independent exUnbond.call exSwapS.call ∧ Independent exPay.call exSwap1.call :=
  ⟨⟨_, _, rfl, rfl, .inl (by decide)⟩, ⟨_, _, rfl, rfl, .inl (by decide)⟩, ⟨_, _, rfl, rfl, .inr rfl⟩⟩

example : Possible Example.acct exSwap1 ∧ Possible Example.acct exSwapS ∧ Possible Example.acct exUnbond ∧ Possible Example.acct exPay :=
  ⟨possible_by (by decide), possible_by (by decide), possible_by (by decide), possible_by (by decide)⟩

/-- two swaps in the same pool are not independent: whoever comes first gets more -/
example : ((both (run host start exStaking) exSwap1 exSwap2).map fun w => (w.led.bal 21 1, w.led.bal 21 2)) =
      some (2001994, 5005954) ∧
    ((both (run host start exStaking) exSwap2 exSwap1).map fun w => (w.led.bal 21 1, w.led.bal 21 2)) =
      some (2001982, 5005966) := by decide +kernel
end

end Phoenix.Props.World
