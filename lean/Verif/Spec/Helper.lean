import Verif.Model.Helpers

/-! What it means for a helper to return a value or an error without touching the
renderer. -/

namespace Bracket.Spec

/-- The type of a value. -/
def kindOf : Value → JType
  | .null => .null
  | .bool _ => .bool
  | .num _ => .number
  | .str _ => .string
  | .arr _ => .array
  | .obj _ => .object

/-- The types as they are named in error messages. -/
def kindWord : JType → Str
  | .null => c!"null"
  | .bool => c!"boolean"
  | .number => c!"number"
  | .string => c!"string"
  | .array => c!"array"
  | .object => c!"object"

/-- Called with positional arguments `args` (any hash parameters, with or without a
block), the helper returns `v` and interacts with the renderer in no way. -/
def Returns (h : HelperFn) (args : List Value) (v : Value) : Prop :=
  ∀ ctx t, ctx.args = args → h ctx t = .ret (some v)

/-- Called with positional arguments `args`, the helper fails with the given error
(which may name the helper) and interacts with the renderer in no way. -/
def Fails (h : HelperFn) (args : List Value) (e : Str → HelperErr) : Prop :=
  ∀ ctx t, ctx.args = args → h ctx t = .fail (e ctx.name)

/-- Called with positional arguments `args`, the helper panics. -/
def Panics (h : HelperFn) (args : List Value) : Prop :=
  ∀ ctx t, ctx.args = args → h ctx t = .panic

/-- The documented number of positional arguments of each built-in helper:
smallest and largest. -/
def arityTable : List (Str × Nat × Nat) :=
  [ (c!"if", 1, 1), (c!"unless", 1, 1), (c!"with", 1, 1), (c!"each", 1, 1), (c!"json", 1, 1),
    (c!"not", 1, 1), (c!"and", 2, 2), (c!"or", 2, 2), (c!"lookup", 2, 2), (c!"eq", 2, 2),
    (c!"ne", 2, 2), (c!"gt", 2, 2), (c!"gte", 2, 2), (c!"lt", 2, 2), (c!"lte", 2, 2),
    (c!"log", 1, 2 ^ 64 - 1) ]

/-- The error for a wrong number of arguments. -/
def arityError (name : Str) (lo hi : Nat) : HelperErr :=
  if lo = hi then .arityExact name lo else .arityRange name lo hi

/-- The error is an arity error. -/
def IsArity : HelperErr → Prop
  | .arityExact _ _ => True
  | .arityRange _ _ _ => True
  | _ => False

end Bracket.Spec
