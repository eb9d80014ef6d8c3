import Verif.Spec.Robust
import Verif.Spec.Named
import Verif.Spec.Relabel

/-! Which paths a template looks up, and helpers that look up no other (C95). -/

namespace Bracket.Spec

section
-- `P`: the paths that may be looked up.
variable (P : Path → Prop)

/-- The call, and the calls in its arguments, look up only such paths (its own target only if `t`: the target of
a partial is a name). -/
inductive CallReads : Bool → Call → Prop
  | mk {t : Bool} {c : Call}
      (target : t = true → ∀ p, c.target = .path p → P p)
      (args : ∀ p, .path p ∈ c.args → P p)
      (params : ∀ k p, (k, .path p) ∈ c.params → P p)
      (sub : ∀ d, c.target = .subExpr d → CallReads true d)
      (subArgs : ∀ d, .subExpr d ∈ c.args → CallReads true d)
      (subParams : ∀ k d, (k, .subExpr d) ∈ c.params → CallReads true d) : CallReads t c

/-- Every tag in the template looks up only such paths (a bare `else` looks up nothing). -/
structure NodeReads (n : Node) : Prop where
  statement : ∀ c, Inhabits (.statement c) n → CallReads P (!c.isPartial) c
  block : ∀ b, Inhabits (.block b) n → CallReads P (!b.call.isPartial && !b.call.isEmpty) b.call
  clause : ∀ b x, Inhabits (.block b) n → .block x ∈ b.conditionals → x.call.isEmpty = false → CallReads P true x.call

-- `A`: helpers may see the name of the template; `B`: helpers may see the whole data.
variable (A B : Prop)

/-- The two views differ at most in the name of the template and in the data, and not in what may be seen. -/
structure ViewAlike (v v' : View) : Prop where
  templateName : A → v.templateName = v'.templateName
  currentName : A → v.currentName = v'.currentName
  data : B → v.data = v'.data
  escape : v.escape = v'.escape
  getTemplate : v.getTemplate = v'.getTemplate

/-- What a helper does with the error of what it renders: anything if it may see names, else pass it on or not look
at it. -/
def Passes {α ε : Type} (A : Prop) (f : ε → HelperErr) (k : Except ε α → Prog) : Prop :=
  A ∨ (∀ e, k (.error e) = .fail (f e)) ∨ (∀ e e', k (.error e) = k (.error e'))

variable [Host]

/-- A helper body that renders only templates that look up such paths, and itself evaluates only such paths, or any if
it may see the data. -/
inductive ProgReads : Prog → Prop
  | ret (v) : ProgReads (.ret v)
  | fail (e) : ProgReads (.fail e)
  | panic : ProgReads .panic
  | write (s k) (h : ∀ r, ProgReads (k r)) : ProgReads (.write s k)
  | writeEscaped (s k) (h : ∀ r, ProgReads (k r)) : ProgReads (.writeEscaped s k)
  | outWrite (s k) (h : ∀ r, ProgReads (k r)) : ProgReads (.outWrite s k)
  | template (n k) (hn : NodeReads P n) (he : Passes A id k) (h : ∀ r, ProgReads (k r)) : ProgReads (.template n k)
  | render (n k) (hn : NodeReads P n) (he : Passes A .render k) (h : ∀ r, ProgReads (k r)) : ProgReads (.render n k)
  | inverse (n k) (hn : NodeReads P n) (he : Passes A id k)
      (h : ∀ r, (∀ m, r = .ok (some m) → NodeReads P m) → ProgReads (k r)) : ProgReads (.inverse n k)
  | buffer (n k) (hn : NodeReads P n) (he : Passes A id k) (h : ∀ r, ProgReads (k r)) : ProgReads (.buffer n k)
  | once (f c d k) (h : ∀ r, ProgReads (k r)) : ProgReads (.once f c d k)
  | evaluate (p k) (hp : B ∨ ∀ q, pathFromStr p = .ok (some q) → P q) (h : ∀ r, ProgReads (k r)) : ProgReads (.evaluate p k)
  | pushScope (s k) (h : ProgReads k) : ProgReads (.pushScope s k)
  | popScope (k) (h : ∀ r, ProgReads (k r)) : ProgReads (.popScope k)
  | scopeMut (f k) (h : ∀ r, ProgReads (k r)) : ProgReads (.scopeMut f k)
  | registerLocal (n g k) (hg : ∀ ctx t, (∀ m, t = some m → NodeReads P m) → ProgReads (g ctx t))
      (h : ProgReads k) : ProgReads (.registerLocal n g k)
  | unregisterLocal (n k) (h : ProgReads k) : ProgReads (.unregisterLocal n k)
  | peek (k) (hv : ∀ v v', ViewAlike A B v v' → k v = k v')
      (h : ∀ v : View, (∀ n t, v.getTemplate n = some t → NodeReads P t.node) → ProgReads (k v)) : ProgReads (.peek k)
  | log (l m k) (h : ProgReads k) : ProgReads (.log l m k)

/-- A helper that looks up only such paths, if its content does. -/
def HelperReads (h : HelperFn) : Prop :=
  ∀ ctx t, (∀ m, t = some m → NodeReads P m) → ProgReads P A B (h ctx t)

/-- The templates, helpers and handlers of `reg` look up only such paths. -/
structure RegReads (reg : Reg) : Prop where
  templates : ∀ n t, reg.get n = some t → NodeReads P t.node
  helpers : ∀ n h, assoc n reg.helpers = some h → HelperReads P A B h
  link : ∀ h, reg.link = some h → HelperReads P A B h
  helperMissing : ∀ h, reg.helperMissing = some h → HelperReads P A B h
  blockHelperMissing : ∀ h, reg.blockHelperMissing = some h → HelperReads P A B h

end

/-- The path finds the same in both data, whatever the scopes. -/
def FindsSame (b b' : Value) (p : Path) : Prop := ∀ scopes, lookup b scopes p = lookup b' scopes p

/-- The path is not the data as a whole (`this`), and the first name in it (after `@root`, `this` or `./`) is not `w`. -/
def Beside (w : Str) (p : Path) : Prop :=
  (p.explicit = true → p.root = true ∨ p.components.length ≠ 1) ∧
  ∀ parts, p.components.mapM Component.asValue = some parts →
    (if p.root || p.explicit then parts.drop 1 else parts).head? ≠ some w

/-- The same end, but for the name in an error. -/
inductive EndsAlike (f g : Str) {α : Type} : Res α → Res α → Prop
  | same (r : Res α) : EndsAlike f g r r
  | err {e e' : RenderErr} (h : Renamed f g e e') : EndsAlike f g (.err e) (.err e')

/-- The same outcome, but for the name of the template in it. -/
def SameBut (f g : Str) {α : Type} : Out α → Out α → Prop
  | .ok a, .ok a' => a = a'
  | .err (.render e), .err (.render e') => Renamed f g e e'
  | .err (.syntax e), .err (.syntax e') => Relabelled 0 f g e e'
  | .panic, .panic => True
  | .fuel, .fuel => True
  | _, _ => False

end Bracket.Spec
