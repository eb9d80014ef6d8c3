import Verif.Model.Helpers

/-! What C46 talks about: the writes made to a destination, errors that come from it, and helpers that
pass such errors on. -/

namespace Bracket.Spec

mutual
/-- The error is, or wraps, the destination's error `io`. -/
def Carries (io : IoErr) : RenderErr → Prop
  | .io e => e = io
  | .helper h => CarriesH io h
  | _ => False
/-- The same for a helper's error. -/
def CarriesH (io : IoErr) : HelperErr → Prop
  | .io e => e = io
  | .render e => Carries io e
  | _ => False
end

/-- All writes succeeded. -/
def Clean (ws : List Wr) : Prop := ∀ w ∈ ws, ∃ n, w.res = .ok n

/-- The destination was asked to write exactly these chunks in this order, after the writes `before`, and
gave these answers. -/
def Answers (sink : Sink) : List Wr → List Wr → Prop
  | _, [] => True
  | before, w :: ws => w.res = sink before w.chunk ∧ Answers sink (before ++ [w]) ws

/-- Either every write succeeded, or the last write, and only it, failed with an error `io` that is
passed on in the error `e` of the render. -/
def Aborted (e : Option RenderErr) (ws : List Wr) : Prop :=
  Clean ws ∨ ∃ init w io e', ws = init ++ [w] ∧ Clean init ∧ w.res = .error io ∧ e = some e' ∧ Carries io e'

/-- A helper that passes on the errors of the destination: once an operation reports one, the helper
does nothing more but fail with an error that carries it.  Of other errors it may do what it wants. -/
inductive Honest : Prog → Prop
  | ret (v) : Honest (.ret v)
  | fail (e) : Honest (.fail e)
  | panic : Honest .panic
  | write (s k) (ok : ∀ r, Honest (k r))
      (err : ∀ io e, CarriesH io e → ∃ e', k (.error e) = .fail e' ∧ CarriesH io e') : Honest (.write s k)
  | writeEscaped (s k) (ok : ∀ r, Honest (k r))
      (err : ∀ io e, CarriesH io e → ∃ e', k (.error e) = .fail e' ∧ CarriesH io e') : Honest (.writeEscaped s k)
  | outWrite (s k) (ok : ∀ r, Honest (k r))
      (err : ∀ io, ∃ e', k (.error io) = .fail e' ∧ CarriesH io e') : Honest (.outWrite s k)
  | template (n k) (ok : ∀ r, Honest (k r))
      (err : ∀ io e, CarriesH io e → ∃ e', k (.error e) = .fail e' ∧ CarriesH io e') : Honest (.template n k)
  | render (n k) (ok : ∀ r, Honest (k r))
      (err : ∀ io e, Carries io e → ∃ e', k (.error e) = .fail e' ∧ CarriesH io e') : Honest (.render n k)
  | inverse (n k) (ok : ∀ r, Honest (k r))
      (err : ∀ io e, CarriesH io e → ∃ e', k (.error e) = .fail e' ∧ CarriesH io e') : Honest (.inverse n k)
  | buffer (n k) (ok : ∀ r, Honest (k r)) : Honest (.buffer n k)
  | once (f c d k) (ok : ∀ r, Honest (k r)) : Honest (.once f c d k)
  | evaluate (p k) (ok : ∀ r, Honest (k r)) : Honest (.evaluate p k)
  | pushScope (s k) (ok : Honest k) : Honest (.pushScope s k)
  | popScope (k) (ok : ∀ r, Honest (k r)) : Honest (.popScope k)
  | scopeMut (f k) (ok : ∀ r, Honest (k r)) : Honest (.scopeMut f k)
  | registerLocal (n h k) (hh : ∀ c t, Honest (h c t)) (ok : Honest k) : Honest (.registerLocal n h k)
  | unregisterLocal (n k) (ok : Honest k) : Honest (.unregisterLocal n k)
  | peek (k) (ok : ∀ v, Honest (k v)) : Honest (.peek k)
  | log (l m k) (ok : Honest k) : Honest (.log l m k)

/-- Every helper and handler of the registry passes on the errors of the destination. -/
structure HonestReg (reg : Reg) : Prop where
  helpers : ∀ n h, assoc n reg.helpers = some h → ∀ c t, Honest (h c t)
  link : ∀ h, reg.link = some h → ∀ c t, Honest (h c t)
  helperMissing : ∀ h, reg.helperMissing = some h → ∀ c t, Honest (h c t)
  blockHelperMissing : ∀ h, reg.blockHelperMissing = some h → ∀ c t, Honest (h c t)

end Bracket.Spec
