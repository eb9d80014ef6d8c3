import Verif.Model.Registry

/-! What an error is about, independently of the helpers it passed through. -/

namespace Bracket.Spec

/-- `Around e x`: `e` is the error `x`, handed on by any number of helpers that rendered a template (a block's
content with `rc.template` and the like, a source text with `rc.once`). -/
inductive Around : RenderErr → RenderErr → Prop where
  | same (x : RenderErr) : Around x x
  | template {e x : RenderErr} (h : Around e x) : Around (.helper (.render e)) x
  | once {e x : RenderErr} (h : Around e x) : Around (.helper (.onceRender e)) x

/-- An error that no helper handed on. -/
def First : RenderErr → Prop
  | .helper (.render _) => False
  | .helper (.onceRender _) => False
  | _ => True

/-- A syntax error met while rendering: a helper evaluated a path or rendered a source text. -/
inductive Syntactic : RenderErr → SyntaxErr → Prop where
  | path (s : SyntaxErr) : Syntactic (.helper (.syntax s)) s
  | once (s : SyntaxErr) : Syntactic (.helper (.onceSyntax s)) s

/-- The errors whose text is chosen by the library: neither an I/O error nor a message of a helper. -/
def Ours : RenderErr → Prop
  | .helper (.message _) => False
  | .helper (.io _) => False
  | .io _ => False
  | _ => True

/-- The name an error is about. -/
inductive Names : RenderErr → Str → Prop where
  | partialNotFound (n : Str) : Names (.partialNotFound n) n
  | variable (p t : Str) : Names (.variableNotFound p t) p
  | variableIn (p t : Str) : Names (.variableNotFound p t) t
  | helperNotFound (n : Str) : Names (.helperNotFound n) n
  | partialCycle (n : Str) : Names (.partialCycle n) n
  | helperCycle (n : Str) : Names (.helperCycle n) n
  | partialIdentifier (n : Str) : Names (.partialIdentifier n) n
  | blockIdentifier (n : Str) : Names (.blockIdentifier n) n
  | blockTemplate (n : Str) : Names (.helper (.blockTemplate n)) n
  | noBlockTemplate (n : Str) : Names (.helper (.blockTemplateNotAllowed n)) n
  | arityExact (n : Str) (k : Nat) : Names (.helper (.arityExact n k)) n
  | arityRange (n : Str) (lo hi : Nat) : Names (.helper (.arityRange n lo hi)) n
  | lookupField (n f : Str) : Names (.helper (.lookupField n f)) n
  | field (n f : Str) : Names (.helper (.lookupField n f)) f
  | operand (n : Str) : Names (.helper (.invalidNumericalOperand n)) n
  | type (n a b : Str) : Names (.helper (.typeAssert n a b)) n
  | expected (n a b : Str) : Names (.helper (.typeAssert n a b)) a
  | got (n a b : Str) : Names (.helper (.typeAssert n a b)) b

end Bracket.Spec
