import Verif.Spec.Full

/-! Templates that do not need the handlers of the application (C80). -/

namespace Bracket.Spec

mutual
/-- If `l`, there are no links but escaped ones; if `b`, the name of every block is that of a helper. -/
def STm.unhandled [Custom] (l b : Bool) : STm → Bool
  | .nil => true
  | .text _ r | .comment _ r | .longComment _ r | .escaped _ r => r.unhandled l b
  | .link e _ _ _ r => (!l || e) && r.unhandled l b
  | .stmt _ _ _ _ _ r | .dyn _ _ _ _ _ _ r | .rawBlock _ _ _ _ _ r => r.unhandled l b
  | .block part _ name _ body cs _ r => (!b || part || isHelper name) && body.unhandled l b && cs.unhandled l b && r.unhandled l b
def SCls.unhandled [Custom] (l b : Bool) : SCls → Bool
  | .nil => true
  | .cons _ _ body r => body.unhandled l b && r.unhandled l b
end

/-- No links but escaped ones. -/
def STm.linkless [Custom] (T : STm) : Bool := T.unhandled true false
/-- The name of every block is that of a helper. -/
def STm.helperBlocks [Custom] (T : STm) : Bool := T.unhandled false true

/-- The same helpers, and the same handlers except perhaps the one for links (`l`), the one for unknown names (`m`), the
one for blocks (`b`). -/
structure Custom.SameBut (l m b : Bool) (C C' : Custom) : Prop where
  fn : C'.fn = C.fn
  link : l = true ∨ C'.link = C.link
  missing : m = true ∨ C'.missing = C.missing
  blockMissing : b = true ∨ C'.blockMissing = C.blockMissing

end Bracket.Spec
