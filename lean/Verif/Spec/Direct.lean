import Verif.Spec.Io
import Verif.Model.Registry

/-! What C94 talks about: helpers that give up at the first error. -/

namespace Bracket.Spec

/-- The texts handed to a destination, in order. -/
def chunks (ws : List Wr) : List Str := ws.map (·.chunk)

/-- A helper that puts a `?` after everything that can fail while rendering (so that it does nothing more
but fail once an operation has failed) and does not look at the number of bytes a write has taken. -/
inductive Prompt : Prog → Prop
  | ret (v) : Prompt (.ret v)
  | fail (e) : Prompt (.fail e)
  | panic : Prompt .panic
  | write (s k) (ok : ∀ r, Prompt (k r)) (same : ∀ n m, k (.ok n) = k (.ok m)) (err : ∀ e, ∃ e', k (.error e) = .fail e') :
      Prompt (.write s k)
  | writeEscaped (s k) (ok : ∀ r, Prompt (k r)) (same : ∀ n m, k (.ok n) = k (.ok m)) (err : ∀ e, ∃ e', k (.error e) = .fail e') :
      Prompt (.writeEscaped s k)
  | outWrite (s k) (ok : ∀ r, Prompt (k r)) (same : ∀ n m, k (.ok n) = k (.ok m)) (err : ∀ e, ∃ e', k (.error e) = .fail e') :
      Prompt (.outWrite s k)
  | template (n k) (ok : ∀ r, Prompt (k r)) (err : ∀ e, ∃ e', k (.error e) = .fail e') : Prompt (.template n k)
  | render (n k) (ok : ∀ r, Prompt (k r)) (err : ∀ e, ∃ e', k (.error e) = .fail e') : Prompt (.render n k)
  | inverse (n k) (ok : ∀ r, Prompt (k r)) (err : ∀ e, ∃ e', k (.error e) = .fail e') : Prompt (.inverse n k)
  | buffer (n k) (ok : ∀ r, Prompt (k r)) (err : ∀ e, ∃ e', k (.error e) = .fail e') : Prompt (.buffer n k)
  | once (f c d k) (ok : ∀ r, Prompt (k r)) (err : ∀ e, ∃ e', k (.error e) = .fail e') : Prompt (.once f c d k)
  | evaluate (p k) (ok : ∀ r, Prompt (k r)) : Prompt (.evaluate p k)
  | pushScope (s k) (ok : Prompt k) : Prompt (.pushScope s k)
  | popScope (k) (ok : ∀ r, Prompt (k r)) : Prompt (.popScope k)
  | scopeMut (f k) (ok : ∀ r, Prompt (k r)) : Prompt (.scopeMut f k)
  | registerLocal (n h k) (hh : ∀ c t, Prompt (h c t)) (ok : Prompt k) : Prompt (.registerLocal n h k)
  | unregisterLocal (n k) (ok : Prompt k) : Prompt (.unregisterLocal n k)
  | peek (k) (ok : ∀ v, Prompt (k v)) : Prompt (.peek k)
  | log (l m k) (ok : Prompt k) : Prompt (.log l m k)

/-- Every helper and handler of the registry is prompt. -/
structure PromptReg (reg : Reg) : Prop where
  helpers : ∀ n h, assoc n reg.helpers = some h → ∀ c t, Prompt (h c t)
  link : ∀ h, reg.link = some h → ∀ c t, Prompt (h c t)
  helperMissing : ∀ h, reg.helperMissing = some h → ∀ c t, Prompt (h c t)
  blockHelperMissing : ∀ h, reg.blockHelperMissing = some h → ∀ c t, Prompt (h c t)

/-- The same result; in case of success, with this text. -/
def giving (w : Str) : Out Unit → Out Str
  | .ok _ => .ok w
  | .err e => .err e
  | .panic => .panic
  | .fuel => .fuel

end Bracket.Spec
