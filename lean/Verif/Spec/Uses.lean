import Verif.Spec.Robust

/-! Which names a template uses, and helpers that use no other (C93). -/

namespace Bracket.Spec

section
-- `N`: names of variables, helpers and blocks; `T`: names of partials; `D`: partials by computed names.
variable (N T : Str → Prop) (D : Prop)

/-- The call, and the calls in its arguments, use only these names: each plain name that is called (or
included) is one of `N`, each partial is one of `T`, and a partial is included by a computed name only if
`D`. -/
inductive CallUses : Call → Prop
  | mk {c : Call}
      (name : ∀ p, c.target = .path p → p.isSimple = true → ∀ w, p.asStr = some w → N w)
      (part : c.isPartial = true → ∀ p, c.target = .path p → ∀ w, p.asStr = some w → T w)
      (computed : c.isPartial = true → ∀ d, c.target = .subExpr d → D)
      (sub : ∀ d, c.target = .subExpr d → CallUses d)
      (args : ∀ d, .subExpr d ∈ c.args → CallUses d)
      (params : ∀ k d, (k, .subExpr d) ∈ c.params → CallUses d) : CallUses c

/-- Every tag in the template uses only these names. -/
structure NodeUses (n : Node) : Prop where
  statement : ∀ c, Inhabits (.statement c) n → CallUses N T D c
  block : ∀ b, Inhabits (.block b) n → CallUses N T D b.call

/-- The two views differ at most in the templates with names outside `T`. -/
structure ViewSame (v v' : View) : Prop where
  templateName : v.templateName = v'.templateName
  currentName : v.currentName = v'.currentName
  data : v.data = v'.data
  escape : v.escape = v'.escape
  getTemplate : ∀ n, T n → v.getTemplate n = v'.getTemplate n

variable [Host]

/-- A helper body that brings in no other names: it renders only templates that use these names, and reads
only templates named by `T`.  What it does with the answers is arbitrary. -/
inductive ProgUses : Prog → Prop
  | ret (v) : ProgUses (.ret v)
  | fail (e) : ProgUses (.fail e)
  | panic : ProgUses .panic
  | write (s k) (h : ∀ r, ProgUses (k r)) : ProgUses (.write s k)
  | writeEscaped (s k) (h : ∀ r, ProgUses (k r)) : ProgUses (.writeEscaped s k)
  | outWrite (s k) (h : ∀ r, ProgUses (k r)) : ProgUses (.outWrite s k)
  | template (n k) (hn : NodeUses N T D n) (h : ∀ r, ProgUses (k r)) : ProgUses (.template n k)
  | render (n k) (hn : NodeUses N T D n) (h : ∀ r, ProgUses (k r)) : ProgUses (.render n k)
  | inverse (n k) (hn : NodeUses N T D n)
      (h : ∀ r, (∀ m, r = .ok (some m) → NodeUses N T D m) → ProgUses (k r)) : ProgUses (.inverse n k)
  | buffer (n k) (hn : NodeUses N T D n) (h : ∀ r, ProgUses (k r)) : ProgUses (.buffer n k)
  | once (f c d k) (hc : ∀ n, compile c ⟨f, 0, 0⟩ = .ok n → NodeUses N T D n) (h : ∀ r, ProgUses (k r)) :
      ProgUses (.once f c d k)
  | evaluate (p k) (h : ∀ r, ProgUses (k r)) : ProgUses (.evaluate p k)
  | pushScope (s k) (h : ProgUses k) : ProgUses (.pushScope s k)
  | popScope (k) (h : ∀ r, ProgUses (k r)) : ProgUses (.popScope k)
  | scopeMut (f k) (h : ∀ r, ProgUses (k r)) : ProgUses (.scopeMut f k)
  | registerLocal (n g k) (hg : ∀ ctx t, (∀ m, t = some m → NodeUses N T D m) → ProgUses (g ctx t))
      (h : ProgUses k) : ProgUses (.registerLocal n g k)
  | unregisterLocal (n k) (h : ProgUses k) : ProgUses (.unregisterLocal n k)
  | peek (k) (hv : ∀ v v', ViewSame T v v' → k v = k v')
      (h : ∀ v : View, (∀ n t, T n → v.getTemplate n = some t → NodeUses N T D t.node) → ProgUses (k v)) :
      ProgUses (.peek k)
  | log (l m k) (h : ProgUses k) : ProgUses (.log l m k)

/-- A helper that brings in no other names, if its content does not. -/
def HelperUses (h : HelperFn) : Prop :=
  ∀ ctx t, (∀ m, t = some m → NodeUses N T D m) → ProgUses N T D (h ctx t)

/-- What `reg` holds under the names `N` and `T` uses no other names. -/
structure RegUses (reg : Reg) : Prop where
  templates : ∀ n t, T n → reg.get n = some t → NodeUses N T D t.node
  helpers : ∀ n h, N n → assoc n reg.helpers = some h → HelperUses N T D h
  link : ∀ h, reg.link = some h → HelperUses N T D h
  helperMissing : ∀ h, reg.helperMissing = some h → HelperUses N T D h
  blockHelperMissing : ∀ h, reg.blockHelperMissing = some h → HelperUses N T D h

/-- The two registries differ at most in helpers with names outside `N` and templates with names outside
`T`. -/
structure SameOn (r r' : Reg) : Prop where
  templates : ∀ n, T n → r.get n = r'.get n
  helpers : ∀ n, N n → assoc n r.helpers = assoc n r'.helpers
  link : r.link = r'.link
  helperMissing : r.helperMissing = r'.helperMissing
  blockHelperMissing : r.blockHelperMissing = r'.blockHelperMissing
  escape : r.escape = r'.escape
  strict : r.strict = r'.strict

end

/-- The text `w` occurs nowhere in the source of the node's template. -/
def WrittenWithout [Host] (w : Str) (x : Node) : Prop :=
  ∃ src file line n, compile src ⟨file, line, 0⟩ = .ok n ∧ ¬ w <:+: src ∧ Inhabits x n

end Bracket.Spec
