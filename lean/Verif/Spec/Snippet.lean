import Verif.Model.ErrorInfo

/-! Which errors can be shown with a source snippet, and what the snippet is. -/

namespace Bracket.Spec

/-- One byte in UTF-8. -/
def Ascii (s : Str) : Prop := ∀ c ∈ s, c.utf8Size = 1

/-- `s` is `before ++ line ++ after` where `line` is a full line of the text (without its
newline) and byte `byte` is one of its bytes. -/
def LineOf (s : Str) (byte : Nat) (before line after : Str) : Prop :=
  s = before ++ (line ++ after) ∧ '\n' ∉ line ∧
  (before = [] ∨ ∃ b, before = b ++ ['\n']) ∧ (after = [] ∨ ∃ a, after = '\n' :: a) ∧
  blen before ≤ byte ∧ byte < blen before + blen line

/-- The snippet of a line: position, the line itself, a pointer under column `cols`, notes. -/
def snippet (fileName line : Str) (lineNo cols : Nat) (notes : List Str) : Str :=
  let label := ' ' :: (showNat lineNo ++ c!" | ")
  let pad := List.replicate (blen label - 3) ' '
  pad ++ c!"--> " ++ (fileName ++ ':' :: (showNat lineNo ++ ':' :: showNat cols)) ++ ['\n'] ++
  pad ++ c!" |\n" ++
  label ++ line ++ ['\n'] ++
  pad ++ c!" | " ++ (List.replicate (cols - 1) '-' ++ ['^']) ++
  (if notes = [] then [] else '\n' :: (notes.flatMap fun n => pad ++ c!" = note: " ++ n))

end Bracket.Spec
