import Verif.Model.Registry
import Verif.Lemmas.ExHost

/-! Concrete templates, for the examples beside the theorems. -/

namespace Bracket.Ex
attribute [local instance] exHost

/-- The nodes of a compiled source. -/
def nodes (src : Str) : List Node :=
  match compile src ⟨c!"m", 0, 0⟩ with
  | .ok d => d.children
  | _ => []

/-- The `i`th node of a compiled source, if it is a statement. -/
def stmt (src : Str) (i : Nat := 0) : Option Call :=
  match (nodes src)[i]? with
  | some (.statement c) => some c
  | _ => none

/-- The `i`th node, if it is a block. -/
def block (src : Str) (i : Nat := 0) : Option Block :=
  match (nodes src)[i]? with
  | some (.block b) => some b
  | _ => none

/-- The `i`th node, if it is a link. -/
def link (src : Str) (i : Nat := 0) : Option Link :=
  match (nodes src)[i]? with
  | some (.link b) => some b
  | _ => none

/-- The `i`th node, if it is a text. -/
def text (src : Str) (i : Nat := 0) : Option Text :=
  match (nodes src)[i]? with
  | some (.text b) => some b
  | _ => none

/-- The `i`th node, if it is an escaped tag. -/
def rawStmt (src : Str) (i : Nat := 0) : Option TextBlock :=
  match (nodes src)[i]? with
  | some (.rawStatement b) => some b
  | _ => none

theorem any {α : Type} {o : Option α} {p : α → Bool} (h : o.any p = true) : ∃ a, o = some a ∧ p a = true := by
  cases o with
  | none => cases h
  | some a => exact ⟨a, rfl, h⟩

/-- The path a call is of. -/
def target (c : Call) : Option Path :=
  match c.target with
  | .path p => some p
  | .subExpr _ => none

theorem target_eq {c : Call} {p : Path} (h : target c = some p) : c.target = .path p := by
  unfold target at h
  split at h
  · rename_i q e; cases h; exact e
  · cases h

/-- Rendering a source with a registry and data: the text written, and how it ended. -/
inductive Ended where
  | ok | variableNotFound (name : Str) | helperNotFound (name : Str) | helper | io | error | panic | fuel
deriving DecidableEq

def ended {α : Type} : Res α → Ended
  | .ok _ => .ok
  | .err (.variableNotFound n _) => .variableNotFound n
  | .err (.helperNotFound n) => .helperNotFound n
  | .err (.helper _) => .helper
  | .err (.io _) => .io
  | .err _ => .error
  | .panic => .panic
  | .fuel => .fuel

def render (r : Reg) (src : Str) (data : Value) (sink : Sink := stringSink) : Option (Ended × Str) :=
  match compile src ⟨c!"m", 0, 0⟩ with
  | .ok d => let x := renderTo 60 r sink c!"m" d data; some (ended x.1, outText x.2.out)
  | _ => none

end Bracket.Ex
