import Verif.Model.Registry

/-! Big-step meaning of the renderer's entry points, without the recursion bound of the model, and
what a helper receives from a call. -/

namespace Bracket.Spec

/-- The computation `f` ends with result `r` and state `t` (at some recursion bound; then also at
every larger one). -/
def Eval {α : Type} (f : Nat → RM α) (s : RS) (r : Res α) (t : RS) : Prop :=
  r ≠ .fuel ∧ ∃ n, f n s = (r, t)

section
variable [Host]

/-- Rendering one node. -/
abbrev Renders (E : Env) (node : Node) (trim : TrimState) : RS → Res Unit → RS → Prop :=
  Eval fun n => (sem n).renderNode E node trim
/-- The value of a statement or sub-expression. -/
abbrev Evaluates (E : Env) (c : Call) : RS → Res (Option Value) → RS → Prop :=
  Eval fun n => (sem n).statement E c
/-- The value of a call that is not a partial. -/
abbrev Calls (E : Env) (c : Call) : RS → Res (Option Value) → RS → Prop :=
  Eval fun n => (sem n).call E c
/-- `Render::template`. -/
abbrev Templates (E : Env) (node : Node) : RS → Res Unit → RS → Prop :=
  Eval fun n => template (sem n) E node
/-- `Render::render`: all the children of a node. -/
abbrev RendersAll (E : Env) (node : Node) : RS → Res Unit → RS → Prop :=
  Eval fun n => renderAll (sem n) E node
/-- A helper body. -/
abbrev RunsHelper (E : Env) (p : Prog) : RS → Res (Option Value) → RS → Prop :=
  Eval fun n => run (sem n) E p

/-- The value of an argument or hash parameter (`none`: missing). -/
inductive ParamEval (E : Env) : ParamValue → RS → Option Value → RS → Prop
  | literal (src : Str) (v : Value) (sp l : Span) (s : RS) : ParamEval E (.json src v sp l) s (some v) s
  | path {p : Path} {s : RS} {v : Option Value} : lookup E.root s.scopes p = some v →
      (v = none → p.asStr.isSome) → ParamEval E (.path p) s v s
  | sub {c : Call} {s t : RS} {v : Option Value} : Evaluates E c s (.ok v) t →
      (v = none → c.asStr.isSome) → ParamEval E (.subExpr c) s v t

/-- Arguments are evaluated from left to right. -/
inductive ArgsEval (E : Env) : List ParamValue → RS → List (Option Value) → RS → Prop
  | nil (s : RS) : ArgsEval E [] s [] s
  | cons {p : ParamValue} {ps : List ParamValue} {s t u : RS} {v : Option Value} {vs : List (Option Value)} :
      ParamEval E p s v t → ArgsEval E ps t vs u → ArgsEval E (p :: ps) s (v :: vs) u

/-- The source text kept for a missing value. -/
def missingText (p : ParamValue) : Option Value → Option Value
  | some _ => none
  | none => p.asStr.map Value.str

/-- What a helper receives from a call `c` whose arguments are evaluated in state `s`, leaving the
state `t`: every value in its place, `null` for a missing one, whose source text is kept. -/
structure Receives (E : Env) (c : Call) (s : RS) (ctx : Ctx) (t : RS) : Prop where
  call : ctx.call = c
  values : ∃ vs hs u, ArgsEval E c.args s vs u ∧ ArgsEval E (c.params.map (·.2)) u hs t ∧
    (∀ (i : Nat) p v, c.args[i]? = some p → vs[i]? = some v →
      ctx.get i = some (v.getD .null) ∧ ctx.missingAt i = missingText p v) ∧
    (∀ (i : Nat) k p v, c.params[i]? = some (k, p) → hs[i]? = some v →
      ctx.param k = some (v.getD .null) ∧ ctx.missingKey k = missingText p v)
  arity : ctx.args.length = c.args.length
  noArg : ∀ i, c.args.length ≤ i → ctx.missingAt i = none
  noParam : ∀ k, k ∉ c.params.map (·.1) → ctx.param k = none ∧ ctx.missingKey k = none

/-- The helper a name stands for: local helpers first. -/
def Resolves (E : Env) (s : RS) (name : Str) (h : HelperFn) : Prop :=
  assoc name s.locals = some h ∨ (assoc name s.locals = none ∧ assoc name E.reg.helpers = some h)

/-- The call site of a helper: as a block (with content) or not. -/
def site (name : Str) (content : Option Node) : CallSite :=
  match content with
  | some _ => .block name
  | none => .helper name

/-- How many calls of the helper `name` (as a block, or not) are in progress. -/
def depth (s : RS) (name : Str) (content : Option Node) : Nat := s.stack.count (site name content)

/-- A call is in progress. -/
def entered (s : RS) (x : CallSite) : RS :=
  { s with trace := s.trace ++ [.enter x], stack := x :: s.stack }

/-- Is it a failure, and which? -/
def failOf {α β : Type} : Res α → Option (Res β)
  | .ok _ => none
  | .err e => some (.err e)
  | .panic => some .panic
  | .fuel => none

/-- The call fails with `r` because one of its arguments does: a sub-expression fails, or the source
text of a missing value cannot be sliced. -/
def ArgFails (E : Env) (c : Call) (r : Res (Option Value)) : Prop :=
  ∃ p ∈ c.args ++ c.params.map (·.2),
    (∃ c' s' t' r', p = .subExpr c' ∧ Evaluates E c' s' r' t' ∧ failOf r' = some r) ∨ r = .panic

/-- A call of the helper `h` under the name `name`: refused when 32 such calls are in progress; else
its arguments are evaluated, and it runs on what they give. -/
def HelperCall (E : Env) (name : Str) (h : RS → HelperFn → Prop) (c : Call) (content : Option Node)
    (text : Option Str) (prop : Option (Str × Value)) (s : RS) (r : Res (Option Value)) (t : RS) : Prop :=
  (32 ≤ depth s name content ∧ r = .err (.helperCycle name) ∧ t = s) ∨
  (depth s name content < 32 ∧ ArgFails E c r) ∨
  (depth s name content < 32 ∧ ∃ ctx s1, Receives E c (entered s (site name content)) ctx s1 ∧
    ctx.name = name ∧ ctx.text = text ∧ ctx.property = prop ∧
    ((∃ f t1, h s1 f ∧ RunsHelper E (f ctx content) s1 r t1 ∧ t1.out = t.out ∧ t1.scopes = t.scopes ∧
        t1.locals = t.locals) ∨
     ((∀ f, ¬ h s1 f) ∧ r = .ok none ∧ t.out = s1.out)))

/-- The result of a step whose value is not used. -/
def dropValue {α : Type} : Res α → Res Unit
  | .ok _ => .ok ()
  | .err e => .err e
  | .panic => .panic
  | .fuel => .fuel

/-- The arguments contain no sub-expressions. -/
def PlainArgs (c : Call) : Prop := ∀ p ∈ c.args ++ c.params.map (·.2), ∀ c', p ≠ .subExpr c'

end

end Bracket.Spec
