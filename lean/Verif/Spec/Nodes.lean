import Verif.Spec.Step

/-! What rendering a node does to the destination. -/

namespace Bracket.Spec

/-- The code points with the Unicode property `White_Space`. -/
def whiteSpace : List Nat :=
  [0x9, 0xA, 0xB, 0xC, 0xD, 0x20, 0x85, 0xA0, 0x1680, 0x2000, 0x2001, 0x2002, 0x2003, 0x2004, 0x2005, 0x2006, 0x2007,
   0x2008, 0x2009, 0x200A, 0x2028, 0x2029, 0x202F, 0x205F, 0x3000]

/-- Unicode whitespace only. -/
def AllSpace (s : Str) : Prop := ∀ c ∈ s, isWs c = true

/-- `r` is `s` less all leading whitespace if `start`, and all trailing whitespace if `stop`. -/
def Trimmed (start stop : Bool) (s r : Str) : Prop :=
  ∃ a b, s = a ++ r ++ b ∧ AllSpace a ∧ AllSpace b ∧
    (start = false → a = []) ∧ (stop = false → b = []) ∧
    (start = true → ∀ c t, r = c :: t → isWs c = false) ∧
    (stop = true → ∀ c t, r = t ++ [c] → isWs c = false)

/-- The text `w` goes to the destination as `chunk`, in one write if `w` is not empty; the step fails
exactly when the destination does. -/
def WritesAs (E : Env) (w chunk : Str) (s : RS) (r : Res Unit) (t : RS) : Prop :=
  if w = [] then r = .ok () ∧ t.out = s.out
  else t.out = s.out ++ [⟨chunk, E.sink s.out chunk⟩] ∧
    r = match E.sink s.out chunk with
      | .ok _ => .ok ()
      | .error e => .err (.io e)

/-- The text `w` goes to the destination as it is. -/
abbrev Writes (E : Env) (w : Str) (s : RS) (r : Res Unit) (t : RS) : Prop := WritesAs E w w s r t

/-- Only the destination (and what the renderer remembers about trimming) changes. -/
structure Quiet (s t : RS) : Prop where
  scopes : t.scopes = s.scopes
  stack : t.stack = s.stack
  curPartial : t.curPartial = s.curPartial
  partials : t.partials = s.partials
  locals : t.locals = s.locals
  logs : t.logs = s.logs
  trace : t.trace = s.trace

/-- Does a node's start get trimmed: because the previous node asks for it (`trim`), or because the
block that just ended does? -/
def startAsked (s : RS) (trim : TrimState) : Bool :=
  trim.start || (match s.endTagHint with | some h => h.after | none => false)

/-- Does the next node, if any, begin with a tag that asks to remove whitespace before it? -/
def asksBefore : List Node → Bool
  | [] => false
  | m :: _ => m.trimBefore == some true

/-- Does a node other than a block end with a tag that asks to remove whitespace after it?  (Blocks
leave that in the renderer's state.) -/
def asksAfter : Node → Bool
  | .block _ => false
  | m => m.trimAfter == some true

/-- Nodes rendered in order, each with what its neighbours ask for. -/
inductive RendersList [Host] (E : Env) : Bool → List Node → RS → RS → Prop
  | nil (start : Bool) (s : RS) : RendersList E start [] s s
  | cons {start : Bool} {n : Node} {ns : List Node} {s t u : RS} :
      Renders E n ⟨start, asksBefore ns⟩ s (.ok ()) t → RendersList E (asksAfter n) ns t u →
      RendersList E start (n :: ns) s u

end Bracket.Spec
