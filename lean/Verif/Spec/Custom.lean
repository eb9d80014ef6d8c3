import Verif.Spec.Mentions

/-! Templates that do not use a helper, and calls of one helper (C77). -/

namespace Bracket.Spec

/-- The template does not mention `name` where a helper may be called (nor as a variable). -/
def STm.unaware (name : Str) (T : STm) : Bool := T.every (fun p => p != ⟨0, .name name, []⟩) (fun _ _ => true) (fun _ => true)

/-- The same helpers and handlers, except perhaps the helper `name`. -/
structure Custom.Except (name : Str) (C C' : Custom) : Prop where
  fn : ∀ w, w ≠ name → C'.fn w = C.fn w
  link : C'.link = C.link
  missing : C'.missing = C.missing
  blockMissing : C'.blockMissing = C.blockMissing

end Bracket.Spec
