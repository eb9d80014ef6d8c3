import Verif.Spec.Surface

/-! Sources with blocks that are opened and not closed, and failing to compile. -/

namespace Bracket.Spec

/-- A block that has been opened, with what comes after its opening tag. -/
structure OpenBlock where
  part : Bool
  tl : Tilde
  name : Str
  args : SArgs
  body : STm
  clauses : SCls

/-- The text of blocks opened inside one another. -/
def framesSrc : List OpenBlock → Str
  | [] => []
  | f :: r => openText f.part f.tl f.name f.args ++ (f.body.src ++ (f.clauses.src ++ framesSrc r))

/-- The blocks are well formed when followed by `k`. -/
def framesOk [Host] : List OpenBlock → Str → Bool
  | [], _ => true
  | f :: r, k => f.tl.ok && gapOk f.part f.tl.gap && nameOk f.name && f.args.ok && f.body.noBrace && f.body.ok (f.clauses.src ++ (framesSrc r ++ k)) &&
      f.clauses.ok (framesSrc r ++ k) && framesOk r k

/-- The innermost open block, starting from `d` if none is opened. -/
def innermost (d : Option Str) : List OpenBlock → Option Str
  | [] => d
  | f :: r => innermost (some f.name) r

/-- Compiling fails with this kind of error; when the error cannot be shown (C39) it panics. -/
def FailsWith [Host] (src : Str) (o : ParserOptions) (kind : SynKind) : Prop :=
  compile src o = .panic ∨ ∃ e, compile src o = .err e ∧ e.kind = kind

end Bracket.Spec

