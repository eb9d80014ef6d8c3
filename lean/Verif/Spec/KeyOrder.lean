import Verif.Spec.Full

/-! Templates that differ only in the order of hash arguments (C51). -/

namespace Bracket.Spec

/-- Neither writes nor calls anything: a path or a literal. -/
def SExpr.plain : SExpr → Bool
  | .sub .. => false
  | _ => true

/-- All hash arguments are paths and literals. -/
def SHash.plain : SHash → Bool
  | .tail _ => true
  | .pairW _ _ x r => x.plain && r.plain

/-- The hash argument at its place in the order of the keys. -/
def SHash.place (ws k : Str) (x : SExpr) : SHash → SHash
  | .tail w => .pairW ws k x (.tail w)
  | .pairW ws' k' x' r => if strLt k k' then .pairW ws k x (.pairW ws' k' x' r) else .pairW ws' k' x' (r.place ws k x)

/-- The same hash arguments in the order of their keys. -/
def SHash.sort : SHash → SHash
  | .tail w => .tail w
  | .pairW ws k x r => r.sort.place ws k x

mutual
/-- Wherever the hash arguments of a call have different keys and are all paths and literals, they are written in the order
of the keys. -/
def SExpr.ordered : SExpr → SExpr
  | .path p => .path p
  | .lit l => .lit l
  | .sub p a => .sub p a.ordered
def SArgs.ordered : SArgs → SArgs
  | .done h => .done (if h.plain && decide h.keys.Nodup then h.sort else h.ordered)
  | .argW ws x r => .argW ws x.ordered r.ordered
def SHash.ordered : SHash → SHash
  | .tail w => .tail w
  | .pairW ws k x r => .pairW ws k x.ordered r.ordered
end

mutual
/-- The same for all calls of a template. -/
def STm.ordered : STm → STm
  | .nil => .nil
  | .text w r => .text w r.ordered
  | .comment w r => .comment w r.ordered
  | .longComment w r => .longComment w r.ordered
  | .escaped w r => .escaped w r.ordered
  | .link e h l t r => .link e h l t r.ordered
  | .stmt raw part tl p a r => .stmt raw part tl p a.ordered r.ordered
  | .dyn raw part tl q b a r => .dyn raw part tl q b.ordered a.ordered r.ordered
  | .rawBlock tl name a w cl r => .rawBlock tl name a.ordered w cl r.ordered
  | .block part tl name a body cs cl r => .block part tl name a.ordered body.ordered cs.ordered cl r.ordered
def SCls.ordered : SCls → SCls
  | .nil => .nil
  | .cons tl none body r => .cons tl none body.ordered r.ordered
  | .cons tl (some (p, a)) body r => .cons tl (some (p, a.ordered)) body.ordered r.ordered
end

end Bracket.Spec
