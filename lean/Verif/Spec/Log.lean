import Verif.Model.Helpers
import Verif.Spec.JsonText

/-! Specification of the `log` helper. -/

namespace Bracket.Spec

/-- The words one after the other with `sep` between them. -/
def between (sep : Str) : List Str → Str
  | [] => []
  | [w] => w
  | w :: x :: r => w ++ (sep ++ between sep (x :: r))

/-- The lines of a text. -/
def IsLines (text : Str) (ls : List Str) : Prop :=
  ls ≠ [] ∧ (∀ l ∈ ls, '\n' ∉ l) ∧ between ['\n'] ls = text

/-- What `log` writes for a value: a string as it is, anything else as JSON on one line. -/
inductive Worded [Host] : Value → Str → Prop
  | str (s : Str) : Worded (.str s) s
  | other {v : Value} {t : Str} (hv : ∀ s, v ≠ .str s) (h : Dense v t) : Worded v t

/-- The levels of the log. -/
def levels : List Str := [c!"error", c!"warn", c!"info", c!"debug", c!"trace"]

end Bracket.Spec
