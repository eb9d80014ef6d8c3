import Verif.Spec.Alone

/-! The branch a conditional takes (C90). -/

namespace Bracket.Spec

/-- `{{else p a}}T…{{else}}Z`: the clauses, and the last one if it is there. -/
def elses : List (SPath × SArgs × STm) → Option STm → SCls
  | [], none => .nil
  | [], some Z => .cons ⟨false, false, [], [], []⟩ none Z .nil
  | (p, a, T) :: r, Z => .cons ⟨false, false, [], c!" ", []⟩ (some (p, a)) T (elses r Z)

/-- `if`, or `unless`. -/
def condName (neg : Bool) : Str := if neg then c!"unless" else c!"if"

/-- `{{#if c}}A{{else …}}…{{/if}}`, or the same with `unless`. -/
def condOn (neg : Bool) (c : SExpr) (A : STm) (cs : List (SPath × SArgs × STm)) (Z : Option STm) : STm :=
  .block false ⟨false, false, [], [], []⟩ (condName neg) (.arg c (.done .nil)) A (elses cs Z) ⟨false, false, [], [], []⟩ .nil

/-- The branch taken is the first whose condition holds, otherwise the last one, if it is there. -/
inductive FallsTo [Host] [Custom] (Γ : Scene) (Z : Option STm) : List (SPath × SArgs × STm) → STm → Prop
  | here {p : SPath} {a : SArgs} {T : STm} {r : List (SPath × SArgs × STm)} {v : Option Value} :
      (SExpr.sub p a).eval Γ .none = said v → isTruthy (v.getD .null) = true → FallsTo Γ Z ((p, a, T) :: r) T
  | next {p : SPath} {a : SArgs} {S T : STm} {r : List (SPath × SArgs × STm)} {v : Option Value} :
      (SExpr.sub p a).eval Γ .none = said v → isTruthy (v.getD .null) = false → FallsTo Γ Z r T → FallsTo Γ Z ((p, a, S) :: r) T
  | last : FallsTo Γ Z [] (Z.getD .nil)

/-- The branch of the whole. -/
inductive Takes [Host] [Custom] (Γ : Scene) (neg : Bool) (c : SExpr) (A : STm) (cs : List (SPath × SArgs × STm)) (Z : Option STm) : STm → Prop
  | body {v : Option Value} : c.eval Γ .none = said v → isTruthy (v.getD .null) = !neg → Takes Γ neg c A cs Z A
  | other {v : Option Value} {T : STm} : c.eval Γ .none = said v → isTruthy (v.getD .null) = neg → FallsTo Γ Z cs T → Takes Γ neg c A cs Z T

end Bracket.Spec
