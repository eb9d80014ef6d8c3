import Verif.Spec.Nodes

/-! What block helpers do with their content. -/

namespace Bracket.Spec

section
variable [Host]

/-- What a node asks to be trimmed at the start of its right neighbour inside a block: after a nested
block, the enclosing open tag's request is applied again (`openAfter`). -/
def bodyAfter (openAfter : Bool) : Node → Bool
  | .block _ => openAfter
  | m => asksAfter m

/-- The nodes of a block rendered in order, each with what its neighbours ask for; the block's close
tag (`closeBefore`) is the right neighbour of the last. -/
inductive RendersBody (E : Env) (openAfter closeBefore : Bool) : Bool → List Node → RS → RS → Prop
  | nil (start : Bool) (s : RS) : RendersBody E openAfter closeBefore start [] s s
  | cons {start : Bool} {n : Node} {ns : List Node} {s t u : RS} :
      Renders E n ⟨start, if ns.isEmpty then closeBefore else asksBefore ns⟩ s (.ok ()) t →
      RendersBody E openAfter closeBefore (bodyAfter openAfter n) ns t u →
      RendersBody E openAfter closeBefore start (n :: ns) s u

/-- Does the tag rendered last ask to remove whitespace after it? -/
def hintAfter (s : RS) : Bool :=
  match s.hint with
  | some h => h.after
  | none => false

/-- How a failing step ends a helper that passes errors on. -/
def passOn {α : Type} : Res α → Option (Res (Option Value))
  | .err e => some (.err (.helper (.render e)))
  | .panic => some .panic
  | _ => none

/-! ### Conditionals -/

/-- The condition of an `{{else ...}}` clause. -/
def condition : Node → Option Call
  | .block c => if c.call.isEmpty then none else some c.call
  | _ => none

/-- A plain `{{else}}`. -/
def isElse : Node → Bool
  | .block c => c.call.isEmpty
  | _ => false

/-- The last plain `{{else}}`. -/
def lastElse (cs : List Node) : Option Node := (cs.filter isElse).getLast?

/-- The conditions of these clauses are evaluated in order, and none holds. -/
inductive AllFalse (E : Env) : List Node → RS → RS → Prop
  | nil (s : RS) : AllFalse E [] s s
  | skip {n : Node} {ns : List Node} {s t : RS} : condition n = none → AllFalse E ns s t → AllFalse E (n :: ns) s t
  | cond {n : Node} {ns : List Node} {c : Call} {v : Option Value} {s t u : RS} : condition n = some c →
      Calls E c s (.ok v) t → (∀ x, v = some x → isTruthy x = false) → AllFalse E ns t u →
      AllFalse E (n :: ns) s u

/-- Which clause is chosen: the first whose condition holds (the later ones are not evaluated), else
the last plain `{{else}}`, if any. -/
inductive Chooses (E : Env) (cs : List Node) (s : RS) : Option Node → RS → Prop
  | clause {pre post : List Node} {n : Node} {c : Call} {v : Value} {u t : RS} : cs = pre ++ n :: post →
      AllFalse E pre s u → condition n = some c → Calls E c u (.ok (some v)) t → isTruthy v = true →
      Chooses E cs s (some n) t
  | otherwise {t : RS} : AllFalse E cs s t → Chooses E cs s (lastElse cs) t

/-- The chosen content, if any, is rendered. -/
def RendersChoice (E : Env) : Option Node → RS → RS → Prop
  | some n, s, t => Templates E n s (.ok ()) t
  | none, s, t => t = s

/-! ### Loops -/

/-- One round of `each`. -/
structure Round where
  index : Nat
  first : Bool
  last : Bool
  key : Option Str
  value : Value

/-- The scope of a round. -/
def Round.scope (r : Round) : Scope :=
  ⟨some r.value,
   [(c!"@first", .bool r.first), (c!"@index", .num (.posInt r.index))] ++
     (match r.key with | some k => [(c!"@key", .str k)] | none => []) ++
     [(c!"@last", .bool r.last)]⟩

/-- The rounds over an array. -/
def arrayRounds (l : List Value) : List Round :=
  l.mapIdx fun i v => ⟨i, i == 0, i + 1 == l.length, none, v⟩

/-- The rounds over an object. -/
def objectRounds (m : List (Str × Value)) : List Round :=
  m.mapIdx fun i kv => ⟨i, i == 0, i + 1 == m.length, some kv.1, kv.2⟩

/-- The content is rendered once per round, in order, in the scope of that round on top of `outer`. -/
inductive Iterates (E : Env) (content : Node) (outer : List Scope) : List Round → RS → RS → Prop
  | nil (s : RS) : Iterates E content outer [] s s
  | cons {r : Round} {rs : List Round} {s t u : RS} :
      Templates E content { s with scopes := r.scope :: outer } (.ok ()) t →
      Iterates E content outer rs t u → Iterates E content outer (r :: rs) s u

end

end Bracket.Spec
