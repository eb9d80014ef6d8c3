import Verif.Spec.Tree
import Verif.Spec.Snippet

/-! Where a syntax error is shown. -/

namespace Bracket.Spec

/-- The token begins a tag: an opening or end tag, a comment, an escaped tag or a link. -/
def isTag : Kind → Bool
  | .block .text | .block .newline | .block .error => false
  | .block _ => true
  | _ => false

/-- The token is part of the inside of a tag or link. -/
def inCall : Kind → Bool
  | .params _ | .dquote _ | .squote _ | .array _ | .link _ => true
  | _ => false

/-- The tokens `rest` are left, and those before them end in a tag or part of one that begins at byte `a`. -/
def Anchor (all : List Token) (a : Nat) (rest : List Token) : Prop :=
  ∃ l op mid, all = l ++ op :: (mid ++ rest) ∧ isTag op.kind = true ∧ (∀ x ∈ mid, inCall x.kind = true) ∧ op.span.start = a

/-- Byte `byte` lies in the tag that is being read: between where it begins and byte `off`. -/
def Near (all : List Token) (byte off : Nat) (rest : List Token) : Prop := ∃ a, Anchor all a rest ∧ a ≤ byte ∧ byte ≤ off

/-- The tokens begin at byte `stop`, or that is the end of the source. -/
def StartsAt (src : Str) (rest : List Token) (stop : Nat) : Prop :=
  match rest with
  | [] => stop = blen src
  | t :: _ => t.span.start = stop

/-- The source ends in the opening of a tag. -/
def EndsInTag (src : Str) : Prop := ∃ l op, lex src = l ++ [op] ∧ isTag op.kind = true

/-- A comment, an escaped tag or a raw block that is not ended is shown at the last byte of the source. -/
def Unended (src : Str) (kind : SynKind) (byte : Nat) (rest : List Token) : Prop :=
  (kind = .commentNotTerminated ∨ kind = .rawCommentNotTerminated ∨ kind = .rawStatementNotTerminated ∨ kind = .rawBlockNotTerminated) ∧
    rest = [] ∧ byte + 1 = blen src

/-- A comment or an escaped tag that begins with the last token of the source. -/
def Dangling (src : Str) (kind : SynKind) (rest : List Token) : Prop :=
  (kind = .commentNotTerminated ∨ kind = .rawCommentNotTerminated ∨ kind = .rawStatementNotTerminated) ∧ rest = [] ∧
    EndsInTag src

/-- The error was noticed when the tokens `rest` were left, which begin at byte `stop`.  Its message shows the
line of byte `byte`, which lies in the tag being read or is the last of the source, and the number of the line
of byte `stop`.  There are two exceptions: a comment with nothing in it, and a block with nothing named, which
is shown at the beginning of the source. -/
def Located [Host] (src file : Str) (base : Nat) (e : SyntaxErr) : Prop :=
  ∃ line byte stop notes rest, errorInfo src file line byte notes = some e.info ∧ rest <:+ lex src ∧ StartsAt src rest stop ∧
    LnOk src base (lex src) stop line ∧
    (Near (lex src) byte stop rest ∨ Unended src e.kind byte rest ∨ Dangling src e.kind rest ∨ (e.kind = .blockName ∧ byte = 0 ∧ ∃ a, Anchor (lex src) a rest))

/-- A tag begins at byte `a`, and no other begins after it before byte `stop`. -/
def TagFrom (src : Str) (a stop : Nat) : Prop :=
  (∃ t ∈ lex src, isTag t.kind = true ∧ t.span.start = a) ∧ ∀ t ∈ lex src, isTag t.kind = true → t.span.start ≤ a ∨ stop ≤ t.span.start

/-- No tag is broken over lines. -/
def OneLine (src : Str) : Prop :=
  ∀ t ∈ lex src, inCall t.kind = true → ∀ w, slice src t.span.start t.span.stop = some w → '\n' ∉ w

/-- The message `info` shows the line of byte `byte`, with number `no` and a pointer below that byte. -/
def Shows [Host] (src file info : Str) (byte no : Nat) : Prop :=
  ∃ before line after shown rest notes, LineOf src byte before line after ∧ line = shown ++ rest ∧ blen before + blen shown = byte + 1 ∧
    info = snippet file line no (Host.width shown) notes

end Bracket.Spec
