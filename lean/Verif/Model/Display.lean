import Verif.Model.Parser
import Verif.Model.Registry

/-! Model of the `Display` implementations of `src/parser/ast.rs` and `src/template.rs`, and of the
equality of errors in `src/error`. -/

namespace Bracket

mutual
/-- ast.rs:178-191 `Display for Node` (with 247-251, 316-320, 963-967, 1011-1015, 1482-1486: everything but a
block is written with `as_str`); `none` = panic. -/
def Node.display : Node → Option Str
  | .block b => Block.display b
  | .document src _ => some src
  | .text t => t.asStr
  | .statement c => c.asStr
  | .rawStatement t => t.asStr
  | .rawComment t => t.asStr
  | .comment t => t.asStr
  | .link l => l.asStr
/-- ast.rs:1260-1267 `Display for Block`: only its nodes, neither its tags nor its `else` clauses. -/
def Block.display : Block → Option Str
  | .mk _ ns _ _ _ _ _ _ => displayAll ns
/-- The loop of ast.rs:1262-1264. -/
def displayAll : List Node → Option Str
  | [] => some []
  | n :: ns => match Node.display n with
      | none => none
      | some a => (displayAll ns).map (a ++ ·)
end

/-- error/mod.rs:59-65 `PartialEq for IoError`: the kinds are compared.  In the model an I/O error is
its kind. -/
def ioEq (a b : IoErr) : Bool := a == b

/-- error/render.rs:76-85 `PartialEq for RenderError`. -/
def renderEq : RenderErr → RenderErr → Bool
  | .partialNotFound s, .partialNotFound o => s == o
  | _, _ => false

/-- error/mod.rs:18 the derived `PartialEq for Error`. -/
def apiEq : ApiErr → ApiErr → Bool
  | .syntax a, .syntax b => a == b
  | .render a, .render b => renderEq a b
  | .templateNotFound a, .templateNotFound b => a == b
  | .io a, .io b => ioEq a b
  | _, _ => false

end Bracket
