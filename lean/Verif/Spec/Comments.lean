import Verif.Spec.Inline

/-! Templates without their comments (C83). -/

namespace Bracket.Spec

/-- A text before a template (which may itself begin with a text). -/
def joinText (w : Str) : STm → STm
  | .text u r => .text (w ++ u) r
  | r => .text w r

mutual
/-- The template without its comments. -/
def STm.uncommented : STm → STm
  | .nil => .nil
  | .text w r => joinText w r.uncommented
  | .comment _ r => r.uncommented
  | .longComment _ r => r.uncommented
  | .escaped w r => .escaped w r.uncommented
  | .link e h l t r => .link e h l t r.uncommented
  | .stmt raw part tl p a r => .stmt raw part tl p a r.uncommented
  | .dyn raw part tl q b a r => .dyn raw part tl q b a r.uncommented
  | .rawBlock tl name a w cl r => .rawBlock tl name a w cl r.uncommented
  | .block part tl name a body cs cl r => .block part tl name a body.uncommented cs.uncommented cl r.uncommented
def SCls.uncommented : SCls → SCls
  | .nil => .nil
  | .cons tl cond body r => .cons tl cond body.uncommented r.uncommented
end

end Bracket.Spec
