import Verif.Spec.Full

/-! The name a template is rendered under. -/

namespace Bracket.Spec

/-- The same error, but for the template a missing variable is reported in. -/
inductive Renamed (f g : Str) : RenderErr → RenderErr → Prop
  | same (e : RenderErr) : Renamed f g e e
  | missing (p : Str) : Renamed f g (.variableNotFound p f) (.variableNotFound p g)
  | through {e e' : RenderErr} (h : Renamed f g e e') : Renamed f g (.helper (.render e)) (.helper (.render e'))

/-- The same text, the same error but for that name, or a panic in both cases. -/
def RenamedResult (f g : Str) (a b : Out Str) : Prop :=
  (∃ w, a = .ok w ∧ b = .ok w) ∨ (∃ e e', a = .err (.render e) ∧ b = .err (.render e') ∧ Renamed f g e e') ∨ (a = .panic ∧ b = .panic)

end Bracket.Spec
