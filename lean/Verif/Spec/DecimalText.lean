import Mathlib.Data.Rat.Cast.Order
import Mathlib.Tactic.FieldSimp
/-! Specification vocabulary for decimal numbers written as text. -/
namespace Phoenix.Dec.Spec

/-- one or more decimal digits -/
def Digits (l : List Char) : Prop := l ≠ [] ∧ ∀ c ∈ l, c.isDigit = true

/-- the number written by a list of digits (standard library) -/
def number (l : List Char) : Nat := Nat.ofDigitChars 10 l 0

/-- how a non-negative decimal number is written: digits, or digits, a dot and more digits -/
inductive Reads : List Char → ℚ → Prop where
  | whole {w : List Char} (hw : Digits w) : Reads w (number w)
  | frac {w f : List Char} (hw : Digits w) (hf : Digits f) :
      Reads (w ++ '.' :: f) ((number w : ℚ) + number f / 10 ^ f.length)

end Phoenix.Dec.Spec
