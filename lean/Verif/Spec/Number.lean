import Mathlib.Algebra.Order.Field.Rat
import Mathlib.Algebra.Order.Field.Power
import Verif.Model.Json

/-! The mathematical value of a JSON number, as a rational. -/

namespace Bracket.Spec

/-- A finite double denotes `± mant * 2^exp`. -/
def floatValue (f : F64) : ℚ := (if f.neg then -(f.mant : ℚ) else (f.mant : ℚ)) * (2 : ℚ) ^ f.exp

/-- The value of a JSON number. -/
def numValue : Num → ℚ
  | .posInt n => n
  | .negInt m => -(m : ℚ)
  | .float f => floatValue f

/-- A whole number that a double can hold: 53 binary digits, then zeros. -/
def Double (m : Nat) : Prop := ∃ q e, q < 2 ^ 53 ∧ m = q * 2 ^ e

/-- A double whose last digit is even. -/
def EvenDouble (m : Nat) : Prop := ∃ q e, 2 ^ 52 ≤ q ∧ q < 2 ^ 53 ∧ q % 2 = 0 ∧ m = q * 2 ^ e

/-- How far apart. -/
def apart (a b : Nat) : Nat := (a - b) + (b - a)

end Bracket.Spec
