import Verif.Spec.Robust

/-! What C81 talks about, for every template that compiles: templates that print with three braces only, and helpers
that do not ask for escaping. -/

namespace Bracket.Spec

/-- Every statement in the template that prints has three braces. -/
def NodeRaw (n : Node) : Prop := ∀ c, Inhabits (.statement c) n → c.isPartial = false → c.isEscaped ≠ some true

/-- The two views differ at most in the escape function. -/
structure ViewBut (v v' : View) : Prop where
  templateName : v.templateName = v'.templateName
  currentName : v.currentName = v'.currentName
  data : v.data = v'.data
  getTemplate : v.getTemplate = v'.getTemplate

variable [Host]

/-- A helper body that never asks for escaping (neither by `write_escaped` nor by calling the escape function) and renders
only such templates.  What it does with the answers is arbitrary. -/
inductive ProgRaw : Prog → Prop
  | ret (v) : ProgRaw (.ret v)
  | fail (e) : ProgRaw (.fail e)
  | panic : ProgRaw .panic
  | write (s k) (h : ∀ r, ProgRaw (k r)) : ProgRaw (.write s k)
  | outWrite (s k) (h : ∀ r, ProgRaw (k r)) : ProgRaw (.outWrite s k)
  | template (n k) (hn : NodeRaw n) (h : ∀ r, ProgRaw (k r)) : ProgRaw (.template n k)
  | render (n k) (hn : NodeRaw n) (h : ∀ r, ProgRaw (k r)) : ProgRaw (.render n k)
  | inverse (n k) (hn : NodeRaw n) (h : ∀ r, (∀ m, r = .ok (some m) → NodeRaw m) → ProgRaw (k r)) : ProgRaw (.inverse n k)
  | buffer (n k) (hn : NodeRaw n) (h : ∀ r, ProgRaw (k r)) : ProgRaw (.buffer n k)
  | once (f c d k) (hc : ∀ n, compile c ⟨f, 0, 0⟩ = .ok n → NodeRaw n) (h : ∀ r, ProgRaw (k r)) : ProgRaw (.once f c d k)
  | evaluate (p k) (h : ∀ r, ProgRaw (k r)) : ProgRaw (.evaluate p k)
  | pushScope (s k) (h : ProgRaw k) : ProgRaw (.pushScope s k)
  | popScope (k) (h : ∀ r, ProgRaw (k r)) : ProgRaw (.popScope k)
  | scopeMut (f k) (h : ∀ r, ProgRaw (k r)) : ProgRaw (.scopeMut f k)
  | registerLocal (n g k) (hg : ∀ ctx t, (∀ m, t = some m → NodeRaw m) → ProgRaw (g ctx t)) (h : ProgRaw k) :
      ProgRaw (.registerLocal n g k)
  | unregisterLocal (n k) (h : ProgRaw k) : ProgRaw (.unregisterLocal n k)
  | peek (k) (hv : ∀ v v', ViewBut v v' → k v = k v')
      (h : ∀ v : View, (∀ n t, v.getTemplate n = some t → NodeRaw t.node) → ProgRaw (k v)) : ProgRaw (.peek k)
  | log (l m k) (h : ProgRaw k) : ProgRaw (.log l m k)

/-- A helper that never asks for escaping, if its content does not. -/
def HelperRaw (h : HelperFn) : Prop := ∀ ctx t, (∀ m, t = some m → NodeRaw m) → ProgRaw (h ctx t)

/-- Nothing in the registry asks for escaping. -/
structure RegRaw (reg : Reg) : Prop where
  templates : ∀ n t, reg.get n = some t → NodeRaw t.node
  helpers : ∀ n h, assoc n reg.helpers = some h → HelperRaw h
  link : ∀ h, reg.link = some h → HelperRaw h
  helperMissing : ∀ h, reg.helperMissing = some h → HelperRaw h
  blockHelperMissing : ∀ h, reg.blockHelperMissing = some h → HelperRaw h

end Bracket.Spec
