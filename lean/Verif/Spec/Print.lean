import Verif.Spec.Number

/-! Specification of value printing (C07), of numeric value, and of truthiness (C08). -/

namespace Bracket.Spec

/-- The value of a digit character. -/
def digitOf (c : Char) : Nat := c.toNat - '0'.toNat

/-- Positional value of a string of digits. -/
def decimalValue (s : Str) : Nat := s.foldl (fun acc c => acc * 10 + digitOf c) 0

/-- `s` is the decimal numeral of `n`: digits only, at least one, no leading zero. -/
def IsNumeral (n : Nat) (s : Str) : Prop :=
  s ≠ [] ∧ (∀ c ∈ s, '0' ≤ c ∧ c ≤ '9') ∧ decimalValue s = n ∧ (s.head? = some '0' → s = ['0'])

/-- `Prints v s`: rendering the value `v` produces the text `s`. -/
inductive Prints [Host] : Value → Str → Prop
  | str (s : Str) : Prints (.str s) s
  | null : Prints .null c!"null"
  | tt : Prints (.bool true) c!"true"
  | ff : Prints (.bool false) c!"false"
  | nat {n : Nat} {s : Str} (h : IsNumeral n s) : Prints (.num (.posInt n)) s
  | neg {n : Nat} {s : Str} (h : IsNumeral n s) : Prints (.num (.negInt n)) ('-' :: s)
  | float (f : F64) : Prints (.num (.float f)) (Host.showFloat f)
  | arr {l : List Value} {s : Str} (h : IsNumeral l.length s) :
      Prints (.arr l) (c!"Array[" ++ s ++ c!"]")
  | obj (m : List (Str × Value)) : Prints (.obj m) c!"Object"

/-- The falsy values. -/
inductive Falsy : Value → Prop
  | null : Falsy .null
  | false : Falsy (.bool false)
  | zero {n : Num} (h : numValue n = 0) : Falsy (.num n)
  | emptyStr : Falsy (.str [])

end Bracket.Spec
