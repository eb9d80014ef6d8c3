import Verif.Model.Ast
import Verif.Spec.Snippet

/-! The same tree with other line numbers, and the same error under other labels. -/

namespace Bracket.Spec

/-- A range of lines moved down by `d`.  Every node has a range of at least one line, so its end is not
0; the range 0–0 is what a call without a target (`{{else}}`) has there, and it stays. -/
def moveLine (d : Nat) (l : Span) : Span := if l.stop = 0 then l else ⟨l.start + d, l.stop + d⟩

def moveText (d : Nat) (t : Text) : Text := { t with line := moveLine d t.line }
def moveTextBlock (d : Nat) (t : TextBlock) : TextBlock := { t with text := moveText d t.text }
def movePath (d : Nat) (p : Path) : Path := { p with line := moveLine d p.line }
def moveLink (d : Nat) (l : Link) : Link := { l with line := moveLine d l.line }

mutual
def moveValue (d : Nat) : ParamValue → ParamValue
  | .path p => .path (movePath d p)
  | .json src v sp l => .json src v sp (moveLine d l)
  | .subExpr c => .subExpr (moveCall d c)
def moveTarget (d : Nat) : CallTarget → CallTarget
  | .path p => .path (movePath d p)
  | .subExpr c => .subExpr (moveCall d c)
def moveCall (d : Nat) : Call → Call
  | .mk s p c o cl t a ps l => .mk s p c o cl (moveTarget d t) (moveValues d a) (moveParams d ps) (moveLine d l)
def moveValues (d : Nat) : List ParamValue → List ParamValue
  | [] => []
  | v :: vs => moveValue d v :: moveValues d vs
def moveParams (d : Nat) : List (Str × ParamValue) → List (Str × ParamValue)
  | [] => []
  | (k, v) :: r => (k, moveValue d v) :: moveParams d r
end

mutual
/-- The same node with every line number `d` higher; nothing else is different. -/
def moveNode (d : Nat) : Node → Node
  | .document src ns => .document src (moveNodes d ns)
  | .text t => .text (moveText d t)
  | .statement c => .statement (moveCall d c)
  | .block b => .block (moveBlock d b)
  | .rawStatement t => .rawStatement (moveTextBlock d t)
  | .rawComment t => .rawComment (moveTextBlock d t)
  | .comment t => .comment (moveTextBlock d t)
  | .link l => .link (moveLink d l)
def moveBlock (d : Nat) : Block → Block
  | .mk s n r o cl c cs l => .mk s (moveNodes d n) r o cl (moveCall d c) (moveNodes d cs) (moveLine d l)
def moveNodes (d : Nat) : List Node → List Node
  | [] => []
  | n :: ns => moveNode d n :: moveNodes d ns
end

/-- The same error reported under file name `g` instead of `f` and `d` lines further down: same kind,
same source line shown, same column, same notes. -/
def Relabelled (d : Nat) (f g : Str) (e e' : SyntaxErr) : Prop :=
  e'.kind = e.kind ∧ ∃ text lineNo cols notes,
    e.info = snippet f text lineNo cols notes ∧ e'.info = snippet g text (lineNo + d) cols notes

end Bracket.Spec
