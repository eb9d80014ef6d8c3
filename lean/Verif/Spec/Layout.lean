import Verif.Spec.Full

/-! What about the text of a template is only layout (C78). -/

namespace Bracket.Spec

/-- A literal without the choice of its quotes: a string is the text it stands for (escapes at
its end are not part of it: C41). -/
def SLit.tidy : SLit → SLit
  | .str q s => .bracket ((kept s).map (·.value (quote q)))
  | l => l

mutual
/-- One space before each argument, none after the last. -/
def SExpr.tidy : SExpr → SExpr
  | .path p => .path p
  | .lit l => .lit l.tidy
  | .sub p a => .sub p a.tidy
def SArgs.tidy : SArgs → SArgs
  | .done h => .done h.tidy
  | .argW _ x r => .argW [' '] x.tidy r.tidy
def SHash.tidy : SHash → SHash
  | .tail _ => .tail []
  | .pairW _ k x r => .pairW [' '] k x.tidy r.tidy
end

/-- No white space in the tag. -/
def Tilde.tidy (tl : Tilde) : Tilde := ⟨tl.before, tl.after, [], [], []⟩
/-- The same for the tag of a statement, where white space after `{{~` makes the code overlook the `~`. -/
def Tilde.tidyStmt (tl : Tilde) : Tilde := ⟨tl.before && tl.pad.isEmpty, tl.after, [], [], []⟩

mutual
/-- The template with a fixed layout inside its tags: comments are empty, the white space is standard,
strings are written in one way and, if there is no handler for links, links are not escaped. -/
def STm.tidy [Custom] : STm → STm
  | .nil => .nil
  | .text w r => .text w r.tidy
  | .comment _ r => .comment [] r.tidy
  | .longComment _ r => .comment [] r.tidy
  | .escaped w r => .escaped w r.tidy
  | .link e h l t r => .link (e && (Custom.link : Option CustomFn).isSome) h l t r.tidy
  | .stmt raw part tl p a r => .stmt raw part tl.tidyStmt p a.tidy r.tidy
  | .dyn raw part tl q b a r => .dyn raw part tl.tidyStmt q b.tidy a.tidy r.tidy
  | .rawBlock tl name a w cl r => .rawBlock tl.tidy name a.tidy w cl.tidy r.tidy
  | .block part tl name a body cs cl r => .block part tl.tidy name a.tidy body.tidy cs.tidy cl.tidy r.tidy
def SCls.tidy [Custom] : SCls → SCls
  | .nil => .nil
  | .cons tl none body r => .cons tl.tidy none body.tidy r.tidy
  | .cons tl (some (p, a)) body r => .cons tl.tidy (some (p, a.tidy)) body.tidy r.tidy
end

end Bracket.Spec
