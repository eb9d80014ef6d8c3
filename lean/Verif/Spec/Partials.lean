import Verif.Spec.Blocks

/-! Partials: what they render, and in which scope. -/

namespace Bracket.Spec

section
variable [Host]

/-- The object `m` has exactly the members written as `k=v` in a call, a missing value being `null`. -/
def HashIs (ps : List (Str × ParamValue)) (vs : List (Option Value)) (m : List (Str × Value)) : Prop :=
  (∀ (i : Nat) k p v, ps[i]? = some (k, p) → vs[i]? = some v → assoc k m = some (v.getD .null)) ∧
  ∀ k, k ∉ ps.map (·.1) → assoc k m = none

/-- The scope of a partial: with a context argument, that value as `this` and the hash as locals;
without one, the hash as `this` and no locals. -/
structure PartialScope (c : Call) (vs hs : List (Option Value)) (sc : Scope) : Prop where
  context : ∀ v, vs.head? = some v → sc.value = some (v.getD .null) ∧ HashIs c.params hs sc.locals
  hash : vs = [] → sc.locals = [] ∧ ∃ m, sc.value = some (.obj m) ∧ HashIs c.params hs m

/-- What the name of a partial stands for: the content of the block partial being rendered
(`@partial-block`), or a registered template, which then is the current one. -/
inductive PartialIs (E : Env) (blocks : List (Str × Node)) (files : List (Option Str)) (name : Str) :
    Node → List (Option Str) → Prop
  | content {n : Node} : assoc name blocks = some n → PartialIs E blocks files name n files
  | template {t : Template} : assoc name blocks = none → assoc name E.reg.templates = some t →
      PartialIs E blocks files name t.node (t.fileName :: files)

/-- The blocks that partials can refer to, inside a partial called with this content. -/
def blocksIn (content : Option Node) (s : RS) : List (Str × Node) :=
  match content with
  | none => s.partials
  | some n => assocInsert c!"@partial-block" n s.partials

/-- The state in which the hash and the arguments of a partial are evaluated. -/
def insidePartial (s : RS) (name : Str) (content : Option Node) (files : List (Option Str)) : RS :=
  { entered s (.part name) with partials := blocksIn content s, curPartial := files }

/-- The end of a partial. -/
def afterPartial (u : RS) : RS :=
  { u with scopes := u.scopes.tail, curPartial := u.curPartial.tail, stack := u.stack.tail,
           trace := u.trace ++ [.leave] }

/-- The partial `name`, called by `c` (with some content if it is a block), is rendered: its hash and
then its arguments are evaluated, and its nodes are rendered in its own scope, on top of the others. -/
def RendersPartial (E : Env) (c : Call) (name : Str) (content : Option Node) (s t : RS) : Prop :=
  CallSite.part name ∉ s.stack ∧ ∃ node files hs vs s1 s2 sc u,
    PartialIs E (blocksIn content s) s.curPartial name node files ∧
    ArgsEval E (c.params.map (·.2)) (insidePartial s name content files) hs s1 ∧
    ArgsEval E c.args s1 vs s2 ∧ PartialScope c vs hs sc ∧
    RendersList E (hintAfter s2) node.children { s2 with scopes := sc :: s2.scopes } u ∧
    t = afterPartial u

/-- The name a partial is called by, when it is written as a name. -/
structure PartialCall (c : Call) (name : Str) : Prop where
  isPartial : c.isPartial = true
  target : ∃ p, c.target = .path p ∧ p.asStr = some name ∧ (name = c!"@partial-block" ∨ p.isSimple = true)

end

end Bracket.Spec
