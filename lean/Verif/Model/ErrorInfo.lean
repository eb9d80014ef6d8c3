import Verif.Model.Basic

/-! Model of `src/error/source.rs` (source snippets in error messages) and of the
error kinds of `src/error/syntax.rs`. -/

namespace Bracket

/-- source.rs:54-65 `find_prev_line_offset`: outer `none` = panic of the slice
`&s[counter..counter + 1]`; inner option = Rust's `Option<usize>`. -/
def findPrev (s : Str) : Nat → Option (Option Nat)
  | 0 => some none
  | c + 1 =>
      match slice s (c + 1) (c + 2) with
      | none => none
      | some x => if x = ['\n'] then some (some (c + 1)) else findPrev s c

/-- source.rs:67-78 `find_next_line_offset`; `fuel` is `s.len() - counter`. -/
def findNext (s : Str) : Nat → Nat → Option (Option Nat)
  | 0, _ => some none
  | fuel + 1, c =>
      match slice s c (c + 1) with
      | none => none
      | some x => if x = ['\n'] then some (some c) else findNext s fuel (c + 1)

/-- Notes: source.rs:153-158. -/
def showNotes (pad : Str) : List Str → Str
  | [] => []
  | n :: ns => pad ++ c!" = note: " ++ n ++ showNotes pad ns

/-- source.rs:110-114: start of the line shown. -/
def lineStart : Option Nat → Nat
  | some o => o + 1
  | none => 0

/-- source.rs:115-119: end of the line shown. -/
def lineEnd (s : Str) : Option Nat → Nat
  | some o => o
  | none => blen s

/-- source.rs:105-160 `Debug for ErrorInfo` (also used by `Into<String>`,
source.rs:162-166); `none` = panic.  `byte - prev_line_offset` underflows exactly
when `prev = byte + 1`, and then the earlier slice `&s[prev..next]` has already
panicked (`next = byte < prev`), so `Nat` subtraction is not observable. -/
def errorInfo [Host] (s fileName : Str) (line byte : Nat) (notes : List Str) : Option Str :=
  match findPrev s byte with
  | none => none
  | some prev =>
  let prevOff := lineStart prev
  match findNext s (blen s - byte) byte with
  | none => none
  | some next =>
  let nextOff := lineEnd s next
  match slice s prevOff nextOff with
  | none => none
  | some lineSlice =>
  let linePrefix := ' ' :: (showNat (line + 1) ++ c!" | ")
  let pad := List.replicate (blen linePrefix - 3) ' '
  let diff := (byte - prevOff) + 1
  match slice s prevOff (prevOff + diff) with
  | none => none
  | some diffStr =>
  let cols := Host.width diffStr
  let info := fileName ++ ':' :: (showNat (line + 1) ++ ':' :: showNat cols)
  let pointer := if cols > 0 then List.replicate (cols - 1) '-' ++ ['^'] else ['^']
  some (pad ++ c!"--> " ++ info ++ ['\n'] ++ pad ++ c!" |\n" ++ linePrefix ++ lineSlice ++ ['\n']
    ++ pad ++ c!" | " ++ pointer ++ (match notes with | [] => [] | _ :: _ => '\n' :: showNotes pad notes))

/-- error/syntax.rs:7-169 `SyntaxError` variants (payload kept separately). -/
inductive SynKind where
  | expectedIdentifier | expectedPath | blockName | literalNewline | partialPosition
  | subExprNotOpen | subExprTargetNotAllowed | pathDelimiterNotAllowed | elseNotAllowed
  | unexpectedPathExplicitThis | unexpectedPathParent | unexpectedPathLocal
  | unexpectedPathDelimiter | unexpectedPathParentWithLocal | unexpectedPathParentWithExplicit
  | expectedPathDelimiter | openSubExpression | tagNameMismatch | blockNotOpen
  | subExpressionNotTerminated | linkNotTerminated | rawBlockOpenNotTerminated
  | rawBlockNotTerminated | rawCommentNotTerminated | rawStatementNotTerminated
  | commentNotTerminated | blockTargetSubExpr | emptyPath | componentType
  | mixedPartialConditional | tokenError | tokenCallTarget | tokenJsonLiteral | tokenParameter
  | tokenHashKeyValue | tokenRawLiteral | tokenDoubleQuoteLiteral | tokenSingleQuoteLiteral
  | tokenArrayLiteral | tokenLink | tokenParameterPath | tokenEndRawBlock
deriving DecidableEq, Repr

/-- error/syntax.rs `SyntaxError`: variant and rendered source snippet. -/
structure SyntaxErr where
  kind : SynKind
  info : Str
deriving DecidableEq, Repr

end Bracket
