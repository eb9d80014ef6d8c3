import Verif.Spec.Print
import Verif.Model.Render

/-! Specification of variable lookup, independent of the code: navigation in JSON by
member name or element index, and search through frames from the inside out. -/

namespace Bracket.Spec

/-- `s` denotes the array index `i`: digits, optionally after a `+`. -/
def IndexText (s : Str) (i : Nat) : Prop :=
  ∃ d, (s = d ∨ s = '+' :: d) ∧ d ≠ [] ∧ (∀ c ∈ d, '0' ≤ c ∧ c ≤ '9') ∧ decimalValue d = i

/-- `Field v k w`: `w` is the member (element) of the object (array) `v` named `k`. -/
inductive Field : Value → Str → Value → Prop
  | member {m : List (Str × Value)} {k : Str} {w : Value} (h : m.lookup k = some w) :
      Field (.obj m) k w
  | element {l : List Value} {k : Str} {i : Nat} {w : Value} (hi : IndexText k i)
      (h : l[i]? = some w) : Field (.arr l) k w

/-- `Reach v ks w`: following the names `ks` (at least one) from `v` leads to `w`. -/
inductive Reach : Value → List Str → Value → Prop
  | one {v : Value} {k : Str} {w : Value} (h : Field v k w) : Reach v [k] w
  | step {v : Value} {k : Str} {u : Value} {ks : List Str} {w : Value} (h : Field v k u)
      (r : Reach u ks w) : Reach v (k :: ks) w

/-- `FirstIn vs ks w`: `w` is what `ks` reaches from the first of the values `vs` from
which it reaches anything. -/
inductive FirstIn : List Value → List Str → Value → Prop
  | here {v : Value} {vs : List Value} {ks : List Str} {w : Value} (h : Reach v ks w) :
      FirstIn (v :: vs) ks w
  | there {v : Value} {vs : List Value} {ks : List Str} {w : Value}
      (no : ∀ u, ¬ Reach v ks u) (h : FirstIn vs ks w) : FirstIn (v :: vs) ks w

/-- The values a scope offers, in order of precedence: its local variables, then its
base value. -/
def frame (s : Scope) : List Value := .obj s.locals :: s.value.toList

/-- All frames, innermost first; the template data is the outermost. -/
def frames (root : Value) (scopes : List Scope) : List (List Value) :=
  scopes.map frame ++ [[root]]

/-- The value of `this`: the base value of the innermost scope, else the data. -/
def thisValue (root : Value) (scopes : List Scope) : Value :=
  match scopes with
  | [] => root
  | s :: _ => s.value.getD root

/-- The lookup `r` (`none` = missing) finds exactly what relation `P` allows. -/
def Finds (r : Option Value) (P : Value → Prop) : Prop := ∀ w, r = some w ↔ P w

/-- The component texts of a path (all of its source slices succeed). -/
def HasTexts (p : Path) (ks : List Str) : Prop := p.components.mapM Component.asValue = some ks

/-- A path with no special prefix: `a.b.c`. -/
def Plain (p : Path) : Prop :=
  p.absolute = false ∧ p.root = false ∧ p.explicit = false ∧ p.isLocal = false ∧ p.parents = 0

end Bracket.Spec
