import Verif.Spec.Html
import Verif.Spec.Robust

/-! What C54 talks about, for every template that compiles: texts made of pieces of sources and of texts without
markup, and helpers that write no others. -/

namespace Bracket.Spec

/-- The source a node of a template was read from. -/
def nodeSource : Node → Str
  | .document src _ => src
  | .text t => t.src
  | .statement c => c.src
  | .block b => b.src
  | .rawStatement t => t.src
  | .rawComment t => t.src
  | .comment t => t.src
  | .link l => l.src

section
-- `A`: the sources of the templates.
variable (A : Str → Prop)

/-- Cut out of one of the sources, or without markup. -/
def Piece (c : Str) : Prop := (∃ src, A src ∧ c <:+: src) ∨ HtmlSafe c

/-- A text made of such pieces. -/
def Pieced (w : Str) : Prop := ∃ cs : List Str, w = cs.flatten ∧ ∀ c ∈ cs, Piece A c

/-- A template read from one of the sources, in which nothing is printed with three braces. -/
structure NodeTame (n : Node) : Prop where
  source : ∀ x, Inhabits x n → A (nodeSource x)
  escaped : ∀ c, Inhabits (.statement c) n → c.isPartial = false → c.isEscaped ≠ some false

variable [Host]

/-- A helper body that renders only such templates, and that writes (other than by `write_escaped`) only texts made of
such pieces, for instance what it got from `buffer` or `once` of such a template. -/
inductive ProgTame : Prog → Prop
  | ret (v) : ProgTame (.ret v)
  | fail (e) : ProgTame (.fail e)
  | panic : ProgTame .panic
  | write (s k) (hs : Pieced A s) (h : ∀ r, ProgTame (k r)) : ProgTame (.write s k)
  | writeEscaped (s k) (h : ∀ r, ProgTame (k r)) : ProgTame (.writeEscaped s k)
  | outWrite (s k) (hs : Pieced A s) (h : ∀ r, ProgTame (k r)) : ProgTame (.outWrite s k)
  | template (n k) (hn : NodeTame A n) (h : ∀ r, ProgTame (k r)) : ProgTame (.template n k)
  | render (n k) (hn : NodeTame A n) (h : ∀ r, ProgTame (k r)) : ProgTame (.render n k)
  | inverse (n k) (hn : NodeTame A n) (h : ∀ r, (∀ m, r = .ok (some m) → NodeTame A m) → ProgTame (k r)) : ProgTame (.inverse n k)
  | buffer (n k) (h : ∀ r, (NodeTame A n → ∀ w, r = .ok w → Pieced A w) → ProgTame (k r)) : ProgTame (.buffer n k)
  | once (f c d k)
      (h : ∀ r, ((∀ n, compile c ⟨f, 0, 0⟩ = .ok n → NodeTame A n) → ∀ w, r = .ok w → Pieced A w) → ProgTame (k r)) :
      ProgTame (.once f c d k)
  | evaluate (p k) (h : ∀ r, ProgTame (k r)) : ProgTame (.evaluate p k)
  | pushScope (s k) (h : ProgTame k) : ProgTame (.pushScope s k)
  | popScope (k) (h : ∀ r, ProgTame (k r)) : ProgTame (.popScope k)
  | scopeMut (f k) (h : ∀ r, ProgTame (k r)) : ProgTame (.scopeMut f k)
  | registerLocal (n g k)
      (hg : ∀ (ctx : Ctx) t, (∀ m, t = some m → NodeTame A m) → (∀ w, ctx.text = some w → Pieced A w) → ProgTame (g ctx t))
      (h : ProgTame k) : ProgTame (.registerLocal n g k)
  | unregisterLocal (n k) (h : ProgTame k) : ProgTame (.unregisterLocal n k)
  | peek (k) (h : ∀ v : View, (∀ n t, v.getTemplate n = some t → NodeTame A t.node) → (∀ w, HtmlSafe (v.escape w)) → ProgTame (k v)) :
      ProgTame (.peek k)
  | log (l m k) (h : ProgTame k) : ProgTame (.log l m k)

/-- A helper that writes only such texts, given such a template as its content (and such a text, in a raw block). -/
def HelperTame (h : HelperFn) : Prop :=
  ∀ (ctx : Ctx) t, (∀ m, t = some m → NodeTame A m) → (∀ w, ctx.text = some w → Pieced A w) → ProgTame A (h ctx t)

/-- The registry escapes what is printed so that it is free of markup, and its templates, helpers and handlers are such. -/
structure RegTame (reg : Reg) : Prop where
  escape : ∀ w, HtmlSafe (reg.escape w)
  templates : ∀ n t, reg.get n = some t → NodeTame A t.node
  helpers : ∀ n h, assoc n reg.helpers = some h → HelperTame A h
  link : ∀ h, reg.link = some h → HelperTame A h
  helperMissing : ∀ h, reg.helperMissing = some h → HelperTame A h
  blockHelperMissing : ∀ h, reg.blockHelperMissing = some h → HelperTame A h

end

/-- A new registry after inserting these templates (name, source), one after another. -/
def inserted [Host] (l : List (Str × Str)) : Reg := l.foldl (fun r x => (r.insert x.1 x.2).2) Reg.new

/-- The source has no `{{{`. -/
def NoTriple (src : Str) : Prop := ¬ c!"{{{" <:+: src

end Bracket.Spec
