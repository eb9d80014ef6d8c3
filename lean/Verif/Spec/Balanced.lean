import Verif.Model.Render

/-! What it means for a helper to pop what it pushes and not to swallow errors. -/

namespace Bracket.Spec

/-- The helper body never returns successfully (and registers no local helpers): what it does
after an error ends in a failure. -/
def NeverReturns : Prog → Prop
  | .ret _ => False
  | .fail _ => True
  | .panic => True
  | .write _ k => ∀ r, NeverReturns (k r)
  | .writeEscaped _ k => ∀ r, NeverReturns (k r)
  | .outWrite _ k => ∀ r, NeverReturns (k r)
  | .template _ k => ∀ r, NeverReturns (k r)
  | .render _ k => ∀ r, NeverReturns (k r)
  | .inverse _ k => ∀ r, NeverReturns (k r)
  | .buffer _ k => ∀ r, NeverReturns (k r)
  | .once _ _ _ k => ∀ r, NeverReturns (k r)
  | .evaluate _ k => ∀ r, NeverReturns (k r)
  | .pushScope _ k => NeverReturns k
  | .popScope k => ∀ r, NeverReturns (k r)
  | .scopeMut _ k => ∀ r, NeverReturns (k r)
  | .registerLocal _ _ _ => False
  | .unregisterLocal _ k => NeverReturns k
  | .peek k => ∀ r, NeverReturns (k r)
  | .log _ _ k => NeverReturns k

/-- The helper body, having pushed `d` scopes so far, pops exactly what it pushes before it
returns, changes no scope it did not push, never returns after an error of rendering into the
destination, and registers only local helpers of the same kind. -/
def Balanced : Prog → Nat → Prop
  | .ret _, d => d = 0
  | .fail _, _ => True
  | .panic, _ => True
  | .write _ k, d => ∀ r, Balanced (k r) d
  | .writeEscaped _ k, d => ∀ r, Balanced (k r) d
  | .outWrite _ k, d => ∀ r, Balanced (k r) d
  | .template _ k, d => Balanced (k (.ok ())) d ∧ ∀ e, NeverReturns (k (.error e))
  | .render _ k, d => Balanced (k (.ok ())) d ∧ ∀ e, NeverReturns (k (.error e))
  | .inverse _ k, d => (∀ n, Balanced (k (.ok n)) d) ∧ ∀ e, NeverReturns (k (.error e))
  | .buffer _ k, d => ∀ r, Balanced (k r) d
  | .once _ _ _ k, d => ∀ r, Balanced (k r) d
  | .evaluate _ k, d => ∀ r, Balanced (k r) d
  | .pushScope _ k, d => Balanced k (d + 1)
  | .popScope k, d => 0 < d ∧ ∀ r, Balanced (k r) (d - 1)
  | .scopeMut _ k, d => 0 < d ∧ ∀ r, Balanced (k r) d
  | .registerLocal _ h k, d => (∀ ctx content, Balanced (h ctx content) 0) ∧ Balanced k d
  | .unregisterLocal _ k, d => Balanced k d
  | .peek k, d => ∀ r, Balanced (k r) d
  | .log _ _ k, d => Balanced k d

/-- A helper all of whose bodies are balanced. -/
def BalancedHelper (h : HelperFn) : Prop := ∀ ctx content, Balanced (h ctx content) 0

/-- All helpers and handlers of a registry are balanced. -/
structure BalancedReg (reg : Reg) : Prop where
  helpers : ∀ n h, assoc n reg.helpers = some h → BalancedHelper h
  link : ∀ h, reg.link = some h → BalancedHelper h
  helperMissing : ∀ h, reg.helperMissing = some h → BalancedHelper h
  blockHelperMissing : ∀ h, reg.blockHelperMissing = some h → BalancedHelper h

end Bracket.Spec
