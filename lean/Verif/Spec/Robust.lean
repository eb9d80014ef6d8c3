import Verif.Model.Registry
import Verif.Spec.Snippet

/-! What C69 talks about: templates whose end tags are ASCII, and helpers that do not panic themselves. -/

namespace Bracket.Spec

/-- `x` is `n`, or a node or an `else` clause inside of it. -/
inductive Inhabits : Node → Node → Prop
  | self {n : Node} : Inhabits n n
  | child {x y n : Node} (h : Inhabits x n) (hy : y ∈ x.children) : Inhabits y n
  | clause {b : Block} {y n : Node} (h : Inhabits (.block b) n) (hy : y ∈ b.conditionals) : Inhabits y n

/-- The end tag of every block is ASCII.  (For an `else` clause that is followed by another one this is
about the byte before the next `else` tag.) -/
def AsciiEnds (n : Node) : Prop := ∀ b, Inhabits (.block b) n → ∃ w, b.closeStr = some w ∧ Ascii w

/-- The ranges of the label and of the title of a link are ranges: not so for an empty label, as in
`[[href|]]`. -/
def LinksFine (n : Node) : Prop :=
  ∀ l, Inhabits (.link l) n → l.labelSpan.start ≤ l.labelSpan.stop ∧ l.titleSpan.start ≤ l.titleSpan.stop

section
-- `L`: links are given to a link handler; `W`: names of the helpers that may panic.
variable [Host] (L : Bool) (W : Str → Prop)

/-- A compiled template whose end tags are ASCII (and whose links can be given to a link handler). -/
def Fit (n : Node) : Prop := AsciiEnds n ∧ (L = true → LinksFine n)

/-- The node is such a template, compiled from some source (any file name, any line offset), or a node or an
`else` clause inside of one. -/
def OfTemplate (x : Node) : Prop :=
  ∃ src file line n, compile src ⟨file, line, 0⟩ = .ok n ∧ Fit L n ∧ Inhabits x n

/-- A helper body that does not panic by itself (unless `B`): it renders only nodes of templates it was given, compiles
only texts that can be compiled without a panic to such a template, evaluates only paths that can be evaluated without
one, and registers only local helpers of the same kind.  What it does with the answers is arbitrary. -/
inductive Calm : Prop → Prog → Prop
  | panic {B} (h : B) : Calm B .panic
  | ret {B} (v) : Calm B (.ret v)
  | fail {B} (e) : Calm B (.fail e)
  | write {B} (s k) (h : ∀ r, Calm B (k r)) : Calm B (.write s k)
  | writeEscaped {B} (s k) (h : ∀ r, Calm B (k r)) : Calm B (.writeEscaped s k)
  | outWrite {B} (s k) (h : ∀ r, Calm B (k r)) : Calm B (.outWrite s k)
  | template {B} (n k) (hn : OfTemplate L n) (h : ∀ r, Calm B (k r)) : Calm B (.template n k)
  | render {B} (n k) (hn : OfTemplate L n) (h : ∀ r, Calm B (k r)) : Calm B (.render n k)
  | inverse {B} (n k) (hn : OfTemplate L n) (h : ∀ r, (∀ m, r = .ok (some m) → OfTemplate L m) → Calm B (k r)) : Calm B (.inverse n k)
  | buffer {B} (n k) (hn : OfTemplate L n) (h : ∀ r, Calm B (k r)) : Calm B (.buffer n k)
  | once {B} (f c d k) (hc : compile c ⟨f, 0, 0⟩ ≠ .panic) (ha : ∀ n, compile c ⟨f, 0, 0⟩ = .ok n → Fit L n) (h : ∀ r, Calm B (k r)) : Calm B (.once f c d k)
  | evaluate {B} (p k) (hp : ∀ E s, (evaluate E p s).1 ≠ .panic) (h : ∀ r, Calm B (k r)) : Calm B (.evaluate p k)
  | pushScope {B} (s k) (h : Calm B k) : Calm B (.pushScope s k)
  | popScope {B} (k) (h : ∀ r, Calm B (k r)) : Calm B (.popScope k)
  | scopeMut {B} (f k) (h : ∀ r, Calm B (k r)) : Calm B (.scopeMut f k)
  | registerLocal {B} (n g k) (hg : ∀ (ctx : Ctx) t, (∀ i, ctx.raw i ≠ none) → (∀ m, t = some m → OfTemplate L m) → Calm False (g ctx t)) (h : Calm B k) :
      Calm B (.registerLocal n g k)
  | unregisterLocal {B} (n k) (h : Calm B k) : Calm B (.unregisterLocal n k)
  | peek {B} (k) (h : ∀ v : View, (∀ n t, v.getTemplate n = some t → OfTemplate L t.node) → Calm B (k v)) : Calm B (.peek k)
  | log {B} (l m k) (h : Calm B k) : Calm B (.log l m k)

/-- A helper that does not panic (unless `B`), if the texts of its arguments can be read (`ctx.raw`) and its
inner template is part of a compiled template. -/
def CalmHelper (B : Prop) (h : HelperFn) : Prop :=
  ∀ (ctx : Ctx) t, (∀ i, ctx.raw i ≠ none) → (∀ m, t = some m → OfTemplate L m) → Calm L B (h ctx t)

/-- All templates were compiled from sources with ASCII end tags, and only the helpers named by `W` may panic by themselves. -/
structure CalmReg (reg : Reg) : Prop where
  templates : ∀ n t, assoc n reg.templates = some t → OfTemplate L t.node
  helpers : ∀ n h, assoc n reg.helpers = some h → CalmHelper L (W n) h
  link : ∀ h, reg.link = some h → L = true ∧ CalmHelper L False h
  helperMissing : ∀ h, reg.helperMissing = some h → CalmHelper L False h
  blockHelperMissing : ∀ h, reg.blockHelperMissing = some h → CalmHelper L False h

/-- A helper that may panic was called. -/
def Blamed (s : RS) : Prop := ∃ name, W name ∧ (.enter (.helper name) ∈ s.trace ∨ .enter (.block name) ∈ s.trace)

end

end Bracket.Spec
