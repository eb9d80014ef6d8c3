import Verif.Model.Basic

/-! Model of `src/escape.rs`. -/

namespace Bracket

/-- escape.rs:12-19, one iteration of the loop of `html`. -/
def htmlChar (c : Char) : Str :=
  match c with
  | '<' => c!"&lt;"
  | '>' => c!"&gt;"
  | '"' => c!"&quot;"
  | '&' => c!"&amp;"
  | '\'' => c!"&#x27;"
  | c => [c]

/-- escape.rs:9-22 `html`. -/
def escapeHtml (s : Str) : Str := s.flatMap htmlChar

/-- escape.rs:25-27 `noop`. -/
def escapeNoop (s : Str) : Str := s

end Bracket
