import Verif.Model.Render

/-! Nesting of calls, read off the record of calls entered and left. -/

namespace Bracket.Spec

/-- The effect of one event on the calls in progress (innermost first). -/
def openStep (calls : List CallSite) : CallEv → List CallSite
  | .enter site => site :: calls
  | .leave => calls.tail

/-- The calls in progress after the given events, innermost first. -/
def openCalls (evs : List CallEv) : List CallSite := evs.foldl openStep []

/-- How deep a call may be nested in calls to the same thing. -/
def nestingLimit : CallSite → Nat
  | .part _ => 1
  | .helper _ => 32
  | .block _ => 32

/-- Nodes rendered one after the other, each successfully: `f` handles the event of a node. -/
inductive Rendered (f : Ev → RM Unit) : List Node → RS → RS → Prop where
  | nil (s : RS) : Rendered f [] s s
  | cons {ev : Ev} {ns : List Node} {s t u : RS} : f ev s = (.ok (), t) → Rendered f ns t u →
      Rendered f (ev.node :: ns) s u

end Bracket.Spec
