import Verif.Spec.Comments
import Verif.Spec.Mentions

/-! Partials called with a content that they do not ask for (C91). -/

namespace Bracket.Spec

mutual
/-- The template with `{{> p a}}` for every `{{#> p a}}…{{/p}}`. -/
def STm.unfilled : STm → STm
  | .nil => .nil
  | .text w r => .text w r.unfilled
  | .comment w r => .comment w r.unfilled
  | .longComment w r => .longComment w r.unfilled
  | .escaped w r => .escaped w r.unfilled
  | .link e h l t r => .link e h l t r.unfilled
  | .stmt raw part tl p a r => .stmt raw part tl p a r.unfilled
  | .dyn raw part tl q b a r => .dyn raw part tl q b a r.unfilled
  | .rawBlock tl name a w cl r => .rawBlock tl name a w cl r.unfilled
  | .block true tl name a _ _ _ r => .stmt false true tl ⟨0, .name name, []⟩ a r.unfilled
  | .block false tl name a body cs cl r => .block false tl name a body.unfilled cs.unfilled cl r.unfilled
def SCls.unfilled : SCls → SCls
  | .nil => .nil
  | .cons tl cond body r => .cons tl cond body.unfilled r.unfilled
end

end Bracket.Spec
