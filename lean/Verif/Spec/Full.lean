import Verif.Spec.Core

/-! The reference interpreter of `Spec.Core`, extended to the whole surface language: `~` and partials.

A template is a sequence of pieces.  White space is removed
* at the start of a piece when the tag before it ends with `~`, when it comes first in a block (or after a
  nested block) whose opening tag ends with `~`, and when the block rendered just before ended with a `~}}`;
* at the end of a piece when the tag after it begins with `~`, or when it is last and the end tag does. -/

namespace Bracket.Spec.Full

/-! ### What is carried along -/

/-- What the meaning of the next piece depends on besides the scene:
* `hint`: the tag rendered last ended with `~`;
* `close`: the block rendered last ended with `~}}` and no piece has been rendered since;
* `block`: the content of the block partial called last (what `@partial-block` is);
* `trim`: the white space removed from what the piece rendered last writes (and from what a helper writes after
  it has rendered its content). -/
structure Mood where
  hint : Bool
  close : Bool
  block : Option STm
  trim : Cut

/-- The text written, and how it ended. -/
abbrev Outcome := Str × Except Fault Mood

/-- One thing after the other; nothing after a fault. -/
def Outcome.andThen (a : Outcome) (f : Mood → Outcome) : Outcome :=
  match a.2 with
  | .error x => (a.1, .error x)
  | .ok μ => (a.1 ++ (f μ).1, (f μ).2)

/-- A fault inside the content of a helper is reported through the helper. -/
def Outcome.within (a : Outcome) : Outcome :=
  (a.1, match a.2 with
    | .error x => .error x.within
    | .ok μ => .ok μ)

def wrote (w : Str) (μ : Mood) : Outcome := (w, .ok μ)
def failed (x : Fault) : Outcome := ([], .error x)

/-- Evaluate, then write. -/
def Outcome.after {α : Type} (x : Said α) (f : α → Outcome) : Outcome :=
  match x.2 with
  | .error e => (x.1, .error e)
  | .ok a => (x.1 ++ (f a).1, (f a).2)

/-- At a piece whose tag ends with `~` or not. -/
def Mood.next (μ : Mood) (tilde : Bool) (k : Cut) : Mood := { μ with hint := tilde, close := false, trim := k }

/-- Inside a block partial with this content. -/
def Mood.given (μ : Mood) : Option STm → Mood
  | some t => { μ with block := some t }
  | none => μ

/-- The first tag begins with `~` (the code does not see that of a statement `{{~ foo}}`). -/
def opens : STm → Bool
  | .stmt _ _ tl _ _ _ => tl.before && tl.pad.isEmpty
  | .dyn _ _ tl _ _ _ _ => tl.before && tl.pad.isEmpty
  | .rawBlock tl _ _ _ _ _ => tl.before
  | .block _ tl _ _ _ _ _ _ => tl.before
  | _ => false

def isNil : STm → Bool
  | .nil => true
  | _ => false

/-- Is the end of a piece followed by `r` cut?  (`cls`: the sequence is followed by a `{{~`.) -/
def stops (r : STm) (cls : Bool) : Bool := opens r || (isNil r && cls)

/-! ### Statements and blocks -/

/-- `{{p a}}` or `{{{p a}}}`. -/
def prints [Host] (Γ : Scene) (raw : Bool) (x : Said (Option Value)) (μ : Mood) : Outcome :=
  .after x fun v => match v with
    | none => wrote [] μ
    | some v => wrote (Γ.print μ.trim ⟨!raw, stringify v⟩) μ

/-- The content, once for each round, in its scope. -/
def rounds (body : Scene → Mood → Outcome) (Γ : Scene) : List Round → Mood → Outcome
  | [], μ => wrote [] μ
  | r :: rs, μ => (body (Γ.push r.scope) μ).within.andThen (rounds body Γ rs)

/-- The texts and the content, as often as asked (`none`: in the current scope), and then the error, if there is one. -/
def contents (body : Scene → Mood → Outcome) (Γ : Scene) (e : Option HelperErr) : List Act → Mood → Outcome
  | [], μ => match e with
      | none => wrote [] μ
      | some e => failed (.err (.helper e))
  | .print x :: r, μ => (wrote (Γ.print μ.trim x) μ).andThen (contents body Γ e r)
  | .content none :: r, μ => (body Γ μ).within.andThen (contents body Γ e r)
  | .content (some sc) :: r, μ => (body (Γ.push sc) μ).within.andThen (contents body Γ e r)

/-- A block whose helper is the built-in `name`, called with these arguments: `body` is its content and `alt` what
its `else` clauses come to. -/
def builtinBlock [Host] (name : Str) (vs : List Value) (hs : List (Str × Value)) (body alt : Scene → Mood → Outcome)
    (Γ : Scene) (μ : Mood) : Outcome :=
  match vs with
  | [v] =>
      if name = c!"if" then (if isTruthy v then body Γ μ else alt Γ μ).within
      else if name = c!"unless" then (if isTruthy v then alt Γ μ else body Γ μ).within
      else if name = c!"each" then
        match v with
        | .arr l => rounds body Γ (arrayRounds l) μ
        | .obj m => rounds body Γ (objectRounds m) μ
        | _ => wrote [] μ
      else if name = c!"with" then
        match v with
        | .null => wrote [] μ
        | v => (body (Γ.push ⟨some v, []⟩) μ).within
      else match builtinValue name vs hs with
        | .error f => failed f
        | .ok _ => wrote [] μ
  | vs =>
      match builtinValue name vs hs with
      | .error f => failed f
      | .ok _ => wrote [] μ

/-- A helper of the application with a block. -/
def customBlock (f : CustomFn) (text : Option Str) (vs : List Value) (hs : List (Str × Value)) (body alt : Scene → Mood → Outcome)
    (Γ : Scene) (μ : Mood) : Outcome :=
  match f.block text vs (hs.lookup ·) with
  | .contents l e => contents body Γ e l μ
  | .otherwise => (alt Γ μ).within

/-- A block whose helper is `name`. -/
def blockHelper [Host] [Custom] (name : Str) (text : Option Str) (vs : List Value) (hs : List (Str × Value)) (body alt : Scene → Mood → Outcome)
    (Γ : Scene) (μ : Mood) : Outcome :=
  match Custom.fn name with
  | none => builtinBlock name vs hs body alt Γ μ
  | some f => customBlock f text vs hs body alt Γ μ

/-- A call of the helper `name` with a block. -/
def helped [Host] [Custom] (name : Str) (text : Option Str) (a : SArgs) (body alt : Scene → Mood → Outcome) (Γ : Scene) (μ : Mood) : Outcome :=
  if Γ.full (.block name) then failed (.err (.helperCycle name))
  else .after (a.eval (Γ.enter (.block name)) μ.trim) fun x => blockHelper name text x.1 x.2 body alt (Γ.enter (.block name)) μ

/-- A call of a block handler. -/
def handled [Host] [Custom] (f : CustomFn) (a : SArgs) (body alt : Scene → Mood → Outcome) (Γ : Scene) (μ : Mood) : Outcome :=
  if Γ.full (.block blockMissingName) then failed (.err (.helperCycle blockMissingName))
  else .after (a.eval (Γ.enter (.block blockMissingName)) μ.trim) fun x => customBlock f none x.1 x.2 body alt (Γ.enter (.block blockMissingName)) μ

/-- A block, whose name may be a helper, a variable or neither. -/
def block [Host] [Custom] (name : Str) (a : SArgs) (body alt : Scene → Mood → Outcome) (Γ : Scene) (μ : Mood) : Outcome :=
  if isHelper name then helped name none a body alt Γ μ
  else match Γ.find ⟨0, .name name, []⟩ with
    | some v =>
        match Custom.blockMissing with
        | none => (body Γ μ).within
        | some f => handled (f name v) a body alt Γ μ
    | none =>
        match Custom.missing with
        | none => if Γ.strict then failed (.err (.helperNotFound name)) else wrote [] μ
        | some _ => .after ((SExpr.sub ⟨0, .name name, []⟩ a).eval Γ μ.trim) fun _ => wrote [] μ

/-- `[[h|l|t]]`: its text, or what the handler writes. -/
def link [Custom] (Γ : Scene) (esc : Bool) (h : Str) (l t : Option Str) (μ : Mood) : Outcome :=
  match (if esc then none else Custom.link) with
  | none => wrote (cut μ.trim.start μ.trim.stop (linkText false h l t)) μ
  | some f =>
      if Γ.full (.helper linkName) then failed (.err (.helperCycle linkName))
      else .after (f.said Γ μ.trim (linkValues h l t) []) fun _ => wrote [] μ

/-! ### Partials -/

/-- The registered templates, and what it means to render a template inside another one. -/
structure Library where
  get : Str → Option STm
  render : STm → Scene → Mood → Outcome

/-- The positional arguments, and the hash arguments. -/
def positional [Host] [Custom] : SArgs → Scene → Cut → Said (List Value)
  | .done _, _, _ => said []
  | .argW _ x r, Γ, k => (x.eval Γ k).bind fun v => (positional r Γ k).bind fun vs => said (v.getD .null :: vs)
def named : SArgs → SHash
  | .done h => h
  | .argW _ _ r => named r

/-- The object with these members, in the order of the keys. -/
def object (hs : List (Str × Value)) : List (Str × Value) := hs.foldl (fun m x => mapInsert x.1 x.2 m) []

/-- The scope of a partial: `this` is the first argument and the hash arguments are local variables; without
arguments, `this` is the object of the hash arguments. -/
def partialScope (vs : List Value) (hs : List (Str × Value)) : Scope :=
  match vs with
  | [] => ⟨some (.obj (object hs)), []⟩
  | v :: _ => ⟨some v, object hs⟩

/-- What a name stands for after `>`. -/
def Library.find (L : Library) (μ : Mood) (name : Str) : Option STm :=
  if name = c!"@partial-block" then
    match μ.block with
    | some t => some t
    | none => L.get name
  else L.get name

/-- The partial `name`, called with these arguments. -/
def included [Host] [Custom] (L : Library) (content : Option STm) (name : Str) (a : SArgs) (Γ : Scene) (μ : Mood) : Outcome :=
  if Γ.calls.contains (.part name) then failed (.err (.partialCycle name))
  else
    match L.find (μ.given content) name with
    | none => failed (.err (.partialNotFound name))
    | some t =>
        let Δ := Γ.enter (.part name)
        .after ((named a).eval Δ μ.trim) fun hs =>
          .after (positional a Δ μ.trim) fun vs => L.render t (Δ.push (partialScope vs hs)) (μ.given content)

/-- `{{> p a}}`, or `{{#> p a}}content{{/p}}`. -/
def partialCall [Host] [Custom] (L : Library) (content : Option STm) (p : SPath) (a : SArgs) (Γ : Scene) (μ : Mood) : Outcome :=
  if p.shown ≠ c!"@partial-block" ∧ plainName p = false then failed (.err (.partialIdentifier p.shown))
  else included L content p.shown a Γ μ

/-- `{{> (q b) a}}`: the name of the partial is the printed value of `(q b)`. -/
def computedCall [Host] [Custom] (L : Library) (q : SPath) (b a : SArgs) (Γ : Scene) (μ : Mood) : Outcome :=
  .after ((SExpr.sub q b).eval Γ μ.trim) fun v => included L none (stringify (v.getD .null)) a Γ μ

/-! ### Templates -/

/-- The end of the last clause is the end of the block. -/
def clauseEnd : SCls → Tilde → Bool × Bool
  | .nil, cl => (cl.before, cl.after)
  | .cons .., _ => (false, false)

mutual
/-- What a template writes.  `opn`: the tag before the sequence ends with `~`; `cls`: the tag after it
begins with `~`; `start`: the start of the next piece is cut. -/
def tm [Host] [Custom] (L : Library) : STm → Scene → (opn cls start : Bool) → Mood → Outcome
  | .nil, _, _, _, _, μ => wrote [] μ
  | .text w r, Γ, o, c, s, μ =>
      (wrote (cut (s || μ.close) (stops r c) w) (μ.next false ⟨s || μ.close, stops r c⟩)).andThen (tm L r Γ o c false)
  | .comment _ r, Γ, o, c, s, μ => (wrote [] (μ.next false ⟨s || μ.close, stops r c⟩)).andThen (tm L r Γ o c false)
  | .longComment _ r, Γ, o, c, s, μ => (wrote [] (μ.next false ⟨s || μ.close, stops r c⟩)).andThen (tm L r Γ o c false)
  | .escaped w r, Γ, o, c, s, μ =>
      (wrote (cut (s || μ.close) (stops r c) (c!"{{" ++ (w ++ c!"}}"))) (μ.next false ⟨s || μ.close, stops r c⟩)).andThen (tm L r Γ o c false)
  | .link e h l t r, Γ, o, c, s, μ =>
      (link Γ e h l t (μ.next false ⟨s || μ.close, stops r c⟩)).andThen (tm L r Γ o c false)
  | .stmt raw part tl p a r, Γ, o, c, s, μ =>
      (if part then partialCall L none p a Γ (μ.next tl.after ⟨s || μ.close, stops r c⟩)
       else prints Γ raw ((SExpr.sub p a).eval Γ ⟨s || μ.close, stops r c⟩) (μ.next tl.after ⟨s || μ.close, stops r c⟩)).andThen
        (tm L r Γ o c tl.after)
  | .dyn raw part tl q b a r, Γ, o, c, s, μ =>
      (if part then computedCall L q b a Γ (μ.next tl.after ⟨s || μ.close, stops r c⟩)
       else prints Γ raw ((SExpr.sub q b).eval Γ ⟨s || μ.close, stops r c⟩) (μ.next tl.after ⟨s || μ.close, stops r c⟩)).andThen
        (tm L r Γ o c tl.after)
  | .rawBlock tl name a w cl r, Γ, o, c, s, μ =>
      (if isHelper name then
        helped name (some (cut tl.after cl.before w)) a
          (fun _ μ => wrote (cut (μ.hint || tl.after || μ.close) cl.before w)
            ⟨false, cl.after, μ.block, ⟨μ.hint || tl.after || μ.close, cl.before⟩⟩)
          (fun _ μ => wrote [] μ) Γ { μ.next tl.after ⟨s || μ.close, stops r c⟩ with close := cl.after }
       else wrote (cut (s || μ.close) (stops r c) (cut tl.after cl.before w))
        { μ.next tl.after ⟨s || μ.close, stops r c⟩ with close := cl.after }).andThen (tm L r Γ o c o)
  | .block part tl name a body cs cl r, Γ, o, c, s, μ =>
      (if part then partialCall L (some body) ⟨0, .name name, []⟩ a Γ (μ.next tl.after ⟨s || μ.close, stops r c⟩)
       else block name a
        (fun Δ μ => (tm L body Δ tl.after cl.before (μ.hint || tl.after) μ).andThen fun μ => wrote [] { μ with close := !isNil body && cl.after })
        (fun Δ μ => clauses L cs cl Δ (fun μ => wrote [] μ) μ) Γ (μ.next tl.after ⟨s || μ.close, stops r c⟩)).andThen (tm L r Γ o c o)
/-- What the `else` clauses write: the first whose condition holds, else the last plain `else` (`alt` so far). -/
def clauses [Host] [Custom] (L : Library) : SCls → Tilde → Scene → (Mood → Outcome) → Mood → Outcome
  | .nil, _, _, alt, μ => alt μ
  | .cons tl none body r, cl, Γ, _, μ =>
      clauses L r cl Γ (fun μ => (tm L body Γ tl.after (clauseEnd r cl).1 (μ.hint || tl.after) μ).andThen fun μ =>
        wrote [] { μ with close := !isNil body && (clauseEnd r cl).2 }) μ
  | .cons tl (some (p, a)) body r, cl, Γ, alt, μ =>
      .after ((SExpr.sub p a).eval Γ μ.trim) fun v =>
          if isTruthy (v.getD .null) then
            (tm L body Γ tl.after (clauseEnd r cl).1 (μ.hint || tl.after) μ).andThen fun μ =>
              wrote [] { μ with close := !isNil body && (clauseEnd r cl).2 }
          else clauses L r cl Γ alt μ
end

/-! ### Nested partials -/

/-- Partials inside partials, `n` deep.  A partial that is being rendered cannot be rendered again, so the
depth is limited by the number of names. -/
def depth [Host] [Custom] (get : Str → Option STm) : Nat → Library
  | 0 => ⟨get, fun _ _ _ => failed .panic⟩
  | n + 1 => ⟨get, fun t Γ μ => tm (depth get n) t Γ false false μ.hint μ⟩

/-- What the template `T` writes, with the templates `lib` registered. -/
def meaning [Host] [Custom] (lib : List (Str × STm)) (T : STm) (Γ : Scene) : Outcome :=
  tm (depth (lib.lookup ·) (lib.length + 1)) T Γ false false false ⟨false, false, none, .none⟩

/-- What the caller of a rendering into a string gets. -/
def Outcome.result : Outcome → Out Str
  | (w, .ok _) => .ok w
  | (_, .error (.err e)) => .err (.render e)
  | (_, .error .panic) => .panic

/-- The registry's templates are those of `lib`, compiled. -/
def Holds [Host] (reg : Reg) (lib : List (Str × STm)) : Prop :=
  ∀ name, match lib.lookup name with
    | none => reg.get name = none
    | some T => T.ok [] = true ∧ ∃ o t, compileTemplate T.src o = .ok t ∧ reg.get name = some t

/-! ### White space -/

/-- The characters that are not white space. -/
def ink (w : Str) : Str := w.filter fun c => !isWs c

/-- `u` is `w` without some of its white space. -/
def Thinner (u w : Str) : Prop := u.Sublist w ∧ ink u = ink w

/-- An escape function that leaves white space alone. -/
def Airy (esc : Str → Str) : Prop := esc [] = [] ∧ ∀ u w, Thinner u w → Thinner (esc u) (esc w)

/-- The helpers of the application do not look at the text of a raw block (`~`s may change its white space). -/
def TextBlind [Custom] : Prop := ∀ name f, Custom.fn name = some f → ∀ u w vs hs, f.block (some u) vs hs = f.block (some w) vs hs

/-- A tag without `~`. -/
def bareTag (tl : Tilde) : Tilde := { tl with before := false, after := false }

mutual
/-- The template without its `~`s. -/
def bare : STm → STm
  | .nil => .nil
  | .text w r => .text w (bare r)
  | .comment w r => .comment w (bare r)
  | .longComment w r => .longComment w (bare r)
  | .escaped w r => .escaped w (bare r)
  | .link e h l t r => .link e h l t (bare r)
  | .stmt raw part tl p a r => .stmt raw part (bareTag tl) p a (bare r)
  | .dyn raw part tl q b a r => .dyn raw part (bareTag tl) q b a (bare r)
  | .rawBlock tl name a w cl r => .rawBlock (bareTag tl) name a w (bareTag cl) (bare r)
  | .block part tl name a body cs cl r => .block part (bareTag tl) name a (bare body) (bareCls cs) (bareTag cl) (bare r)
def bareCls : SCls → SCls
  | .nil => .nil
  | .cons tl cond body r => .cons (bareTag tl) cond (bare body) (bareCls r)
end

/-- All of them. -/
def bareLib (lib : List (Str × STm)) : List (Str × STm) := lib.map fun x => (x.1, bare x.2)

end Bracket.Spec.Full
