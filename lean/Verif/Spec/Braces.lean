import Verif.Spec.Full

/-! Two braces and three, and the escape function (C81). -/

namespace Bracket.Spec

mutual
/-- The template with three braces around every statement that prints a value. -/
def STm.braced : STm → STm
  | .nil => .nil
  | .text w r => .text w r.braced
  | .comment w r => .comment w r.braced
  | .longComment w r => .longComment w r.braced
  | .escaped w r => .escaped w r.braced
  | .link e h l t r => .link e h l t r.braced
  | .stmt raw part tl p a r => .stmt (raw || !part) part tl p a r.braced
  | .dyn raw part tl q b a r => .dyn (raw || !part) part tl q b a r.braced
  | .rawBlock tl name a w cl r => .rawBlock tl name a w cl r.braced
  | .block part tl name a body cs cl r => .block part tl name a body.braced cs.braced cl r.braced
def SCls.braced : SCls → SCls
  | .nil => .nil
  | .cons tl cond body r => .cons tl cond body.braced r.braced
end

mutual
/-- Only three braces around statements that print a value. -/
def STm.unescaped : STm → Bool
  | .nil => true
  | .text _ r | .comment _ r | .longComment _ r | .escaped _ r | .link _ _ _ _ r | .rawBlock _ _ _ _ _ r => r.unescaped
  | .stmt raw part _ _ _ r | .dyn raw part _ _ _ _ r => (raw || part) && r.unescaped
  | .block _ _ _ _ body cs _ r => body.unescaped && cs.unescaped && r.unescaped
def SCls.unescaped : SCls → Bool
  | .nil => true
  | .cons _ _ body r => body.unescaped && r.unescaped
end

/-- What the helper writes itself is not escaped. -/
structure CustomFn.direct (f : CustomFn) : Prop where
  value : ∀ vs hs, ∀ x ∈ (f.value vs hs).1, x.escaped = false
  block : ∀ text vs hs l e, f.block text vs hs = .contents l e → ∀ x, Act.print x ∈ l → x.escaped = false

/-- What the helpers and handlers of the application write themselves is not escaped. -/
structure Direct [Custom] : Prop where
  fn : ∀ name f, Custom.fn name = some f → f.direct
  link : ∀ f, Custom.link = some f → f.direct
  missing : ∀ f name, Custom.missing = some f → (f name).direct
  blockMissing : ∀ f name v, Custom.blockMissing = some f → (f name v).direct

end Bracket.Spec
