import Verif.Model.Registry

/-! Finishing, and the assumption on helpers under which every render finishes. -/

namespace Bracket.Spec

/-- The computation `f`, run with recursion bound `n`, no longer hits the bound and no longer
depends on it once `n` is large: the recursion of the code ends, with result `r` and state `t`. -/
def FinishesWith {α : Type} (f : Nat → RM α) (s : RS) (r : Res α) (t : RS) : Prop :=
  r ≠ .fuel ∧ ∃ N, ∀ n, N ≤ n → f n s = (r, t)

/-- The computation finishes. -/
def Finishes {α : Type} (f : Nat → RM α) (s : RS) : Prop := ∃ r t, FinishesWith f s r t

/-- The helper body registers local helpers only under names in `L`, and these do the same.
(A body is a well-founded tree, so it makes finitely many calls to the renderer.) -/
def Within (L : List Str) : Prog → Prop
  | .ret _ => True
  | .fail _ => True
  | .panic => True
  | .write _ k => ∀ r, Within L (k r)
  | .writeEscaped _ k => ∀ r, Within L (k r)
  | .outWrite _ k => ∀ r, Within L (k r)
  | .template _ k => ∀ r, Within L (k r)
  | .render _ k => ∀ r, Within L (k r)
  | .inverse _ k => ∀ r, Within L (k r)
  | .buffer _ k => ∀ r, Within L (k r)
  | .once _ _ _ k => ∀ r, Within L (k r)
  | .evaluate _ k => ∀ r, Within L (k r)
  | .pushScope _ k => Within L k
  | .popScope k => ∀ r, Within L (k r)
  | .scopeMut _ k => ∀ r, Within L (k r)
  | .registerLocal n h k => n ∈ L ∧ (∀ ctx content, Within L (h ctx content)) ∧ Within L k
  | .unregisterLocal _ k => Within L k
  | .peek k => ∀ r, Within L (k r)
  | .log _ _ k => Within L k

/-- A helper all of whose bodies register local helpers only under names in `L`. -/
def WithinHelper (L : List Str) (h : HelperFn) : Prop := ∀ ctx content, Within L (h ctx content)

/-- All helpers and handlers of a registry do. -/
structure WithinReg (L : List Str) (reg : Reg) : Prop where
  helpers : ∀ n h, assoc n reg.helpers = some h → WithinHelper L h
  link : ∀ h, reg.link = some h → WithinHelper L h
  helperMissing : ∀ h, reg.helperMissing = some h → WithinHelper L h
  blockHelperMissing : ∀ h, reg.blockHelperMissing = some h → WithinHelper L h

end Bracket.Spec
