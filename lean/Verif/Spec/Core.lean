import Verif.Spec.Surface
import Verif.Spec.Blocks
import Verif.Spec.Lookup
import Verif.Spec.Helper
import Verif.Model.Registry

/-! A reference interpreter for templates as an author writes them (`Spec.Surface`): what a template
writes, given the data, with the built-in helpers, the application's own and its handlers (described by what they
write, what they yield and how they use their block, `Custom`).  It works on the abstract syntax and knows nothing of tokens, spans,
nodes, helper objects, destinations or recursion bounds.  It covers every template without `~` and without
partials. -/

namespace Bracket.Spec

/-! ### The fragment -/

/-- No `~`. -/
def Tilde.plain (tl : Tilde) : Bool := !tl.before && !tl.after

mutual
/-- No partials and no `~`. -/
def STm.core : STm → Bool
  | .nil => true
  | .text _ r => r.core
  | .comment _ r => r.core
  | .longComment _ r => r.core
  | .escaped _ r => r.core
  | .link _ _ _ _ r => r.core
  | .stmt _ part tl _ _ r => !part && tl.plain && r.core
  | .dyn _ part tl _ _ _ r => !part && tl.plain && r.core
  | .rawBlock tl _ _ _ cl r => tl.plain && cl.plain && r.core
  | .block part tl _ _ body cs cl r =>
      !part && tl.plain && cl.plain && body.core && cs.core && r.core
def SCls.core : SCls → Bool
  | .nil => true
  | .cons tl _ body r => tl.plain && body.core && r.core
end

/-! ### Faults and effects -/

/-- How evaluation can go wrong. -/
inductive Fault where
  | err (e : RenderErr)
  | panic

/-- The text written, and the fault that ended the rendering, if any. -/
abbrev Written := Str × Option Fault

/-- Write `w`, then the rest. -/
def put (w : Str) (o : Written) : Written := (w ++ o.1, o.2)

/-- One thing after the other; nothing after a fault. -/
def andThen (a b : Written) : Written :=
  match a.2 with
  | none => put a.1 b
  | some f => (a.1, some f)

/-- A fault inside the content of a helper is reported through the helper. -/
def Fault.within : Fault → Fault
  | .err e => .err (.helper (.render e))
  | .panic => .panic

def within (o : Written) : Written := (o.1, o.2.map Fault.within)

/-- What evaluating something writes on the way, and what it yields. -/
abbrev Said (α : Type) := Str × Except Fault α

def said {α : Type} (a : α) : Said α := ([], .ok a)
def fault {α : Type} (f : Fault) : Said α := ([], .error f)

/-- One thing after the other; nothing after a fault. -/
def Said.bind {α β : Type} (x : Said α) (f : α → Said β) : Said β :=
  match x.2 with
  | .error e => (x.1, .error e)
  | .ok a => (x.1 ++ (f a).1, (f a).2)

/-- Evaluate, then write. -/
def Said.andThen {α : Type} (x : Said α) (f : α → Written) : Written :=
  match x.2 with
  | .error e => (x.1, some e)
  | .ok a => put x.1 (f a)

/-! ### White space -/

/-- Is white space removed from the start and from the end of what is written? -/
structure Cut where
  start : Bool
  stop : Bool
deriving DecidableEq

/-- `w` without the white space at its start, at its end. -/
def Full.cut (start stop : Bool) (w : Str) : Str :=
  let w := if start then trimStart w else w
  if stop then trimEnd w else w

/-- Everything is written as it is. -/
def Cut.none : Cut := ⟨false, false⟩

/-! ### Where we are -/

/-- What the meaning of a piece of template depends on: the registry's settings, the template's name
and data, the scopes (innermost first) and the helper calls in progress. -/
structure Scene where
  strict : Bool
  escape : Str → Str
  file : Str
  root : Value
  scopes : List Scope
  calls : List CallSite

namespace Scene

/-- Inside one more helper call. -/
def enter (Γ : Scene) (x : CallSite) : Scene := { Γ with calls := x :: Γ.calls }
/-- Inside one more scope. -/
def push (Γ : Scene) (sc : Scope) : Scene := { Γ with scopes := sc :: Γ.scopes }
/-- Too many calls of this kind are in progress. -/
def full (Γ : Scene) (x : CallSite) : Bool := decide (32 ≤ Γ.calls.count x)

end Scene

/-! ### Variables -/

/-- The number a text says: digits, perhaps after a `+`. -/
def indexOf (k : Str) : Option Nat :=
  let d := match k with
    | '+' :: d => d
    | d => d
  if digitsOk d then some (decimalValue d) else none

/-- The member of an object, or the element of an array. -/
def member (v : Value) (k : Str) : Option Value :=
  match v with
  | .obj m => m.lookup k
  | .arr l => (indexOf k).bind (l[·]?)
  | _ => none

/-- Following names. -/
def walk (v : Value) : List Str → Option Value
  | [] => some v
  | k :: ks => (member v k).bind (walk · ks)

/-- The value of a path: an absolute path is nothing; `this` (or `./`), `@root.x` (alone, `@root` is nothing), a local variable of the innermost
scope, a name in the scope the `../`s lead to, or a name in the innermost scope that has it. -/
def Scene.find (Γ : Scene) (p : SPath) : Option Value :=
  match p.head with
  | .abs _ => none
  | .this | .dot => walk (thisValue Γ.root Γ.scopes) p.names
  | .loc w =>
      if w = c!"root" then (if p.names = [] then none else walk Γ.root p.names)
      else match Γ.scopes with
        | [] => none
        | sc :: _ => walk (.obj sc.locals) (('@' :: w) :: p.names)
  | .name w =>
      match p.parents with
      | 0 => (frames Γ.root Γ.scopes).flatten.findSome? (walk · (w :: p.names))
      | n + 1 => ((frames Γ.root Γ.scopes)[n + 1]?).bind fun f => f.findSome? (walk · (w :: p.names))

/-- A variable in the place of a call that is not there: in strict mode it must be (unless it begins with `this` or `./`). -/
def Scene.absent (Γ : Scene) (p : SPath) : Said (Option Value) :=
  if Γ.strict && !p.head.explicit then fault (.err (.variableNotFound p.shown Γ.file)) else said none

/-- Is the path a plain name (perhaps after `../`, which then belongs to the name)? -/
def Full.plainName (p : SPath) : Bool :=
  match p.head with
  | .name _ => p.rest.isEmpty
  | _ => false

/-! ### Helpers -/

/-- The built-in helpers. -/
def helperNames : List Str :=
  [c!"if", c!"unless", c!"eq", c!"ne", c!"gt", c!"gte", c!"lt", c!"lte", c!"log", c!"lookup", c!"and", c!"or",
   c!"not", c!"with", c!"each", c!"json"]

/-- A text a helper writes: escaped, or as it is. -/
structure Print where
  escaped : Bool
  text : Str

/-- What comes out of it. -/
def Scene.print (Γ : Scene) (k : Cut) (x : Print) : Str :=
  if Full.cut k.start k.stop x.text = [] then [] else if x.escaped then Γ.escape (Full.cut k.start k.stop x.text) else Full.cut k.start k.stop x.text

def Scene.printAll (Γ : Scene) (k : Cut) (l : List Print) : Str := l.flatMap (Γ.print k)

/-- What a helper does while it has a block: write a text, or render the content of the block, in the current scope or
in a new one. -/
inductive Act where
  | print (x : Print)
  | content (sc : Option Scope)

/-- How a helper of the application uses the block it is given: it writes texts and renders the content again and
again, and then returns normally or with an error; or it renders what the `else` clauses come to. -/
inductive Use where
  | contents (l : List Act) (e : Option HelperErr)
  | otherwise

/-- A helper of the application: what it writes and yields for its arguments and hash arguments, and how it uses a
block (which may be a raw block, with a text). -/
structure CustomFn where
  value : List Value → (Str → Option Value) → List Print × Except HelperErr (Option Value)
  block : Option Str → List Value → (Str → Option Value) → Use

/-- The helpers of the application, which may replace built-in ones (a name that begins with a dot would be
found by a path with `../`), and its handlers: for links, for names that are neither helpers nor variables, and
for blocks whose name is a variable (with the name and the value). -/
class Custom where
  fn : Str → Option CustomFn
  plain : ∀ w, fn ('.' :: w) = none
  link : Option CustomFn
  missing : Option (Str → CustomFn)
  blockMissing : Option (Str → Value → CustomFn)

/-- No helpers of the application and no handlers. -/
def noCustom : Custom := ⟨fun _ => none, fun _ => rfl, none, none, none⟩

/-- One more helper of the application. -/
def Custom.with (C : Custom) (name : Str) (f : CustomFn) (hd : name.head? ≠ some '.') : Custom where
  fn w := if w = name then some f else C.fn w
  plain w := by
    rw [if_neg (by rintro rfl; exact hd rfl)]
    exact C.plain w
  link := C.link
  missing := C.missing
  blockMissing := C.blockMissing

/-- Is there a helper with this name? -/
def isHelper [Custom] (w : Str) : Bool := (Custom.fn w).isSome || helperNames.contains w

/-- The helper a path calls, if it does. -/
def SPath.helper [Custom] (p : SPath) : Option Str :=
  match p with
  | ⟨0, .name w, []⟩ => if isHelper w then some w else none
  | _ => none

def helperErr {α : Type} (e : HelperErr) : Except Fault α := .error (.err (.helper e))

/-- A helper of one argument. -/
def unary (name : Str) (vs : List Value) (f : Value → Except Fault (Option Value)) : Except Fault (Option Value) :=
  match vs with
  | [v] => f v
  | _ => helperErr (.arityExact name 1)

/-- A helper of two arguments. -/
def binary (name : Str) (vs : List Value) (f : Value → Value → Except Fault (Option Value)) :
    Except Fault (Option Value) :=
  match vs with
  | [a, b] => f a b
  | _ => helperErr (.arityExact name 2)

def yes (b : Bool) : Except Fault (Option Value) := .ok (some (.bool b))

/-- A comparison of two numbers, as doubles. -/
def comparison (name : Str) (f : F64 → F64 → Bool) (a b : Value) : Except Fault (Option Value) :=
  match a, b with
  | .num m, .num n => yes (f m.asF64 n.asF64)
  | .num _, b => helperErr (.typeAssert name c!"number" (kindWord (kindOf b)))
  | a, _ => helperErr (.typeAssert name c!"number" (kindWord (kindOf a)))

/-- What a built-in helper yields for these arguments when it is not used as a block. -/
def builtinValue [Host] (name : Str) (vs : List Value) (hs : List (Str × Value)) : Except Fault (Option Value) :=
  if name = c!"if" then unary name vs fun v => yes (isTruthy v)
  else if name = c!"unless" ∨ name = c!"each" ∨ name = c!"with" then unary name vs fun _ => .ok none
  else if name = c!"not" then unary name vs fun v => yes (!isTruthy v)
  else if name = c!"and" then binary name vs fun a b => yes (isTruthy a && isTruthy b)
  else if name = c!"or" then binary name vs fun a b => yes (isTruthy a || isTruthy b)
  else if name = c!"eq" then binary name vs (comparison name fun a b => F64.eqb a b)
  else if name = c!"ne" then binary name vs (comparison name fun a b => !F64.eqb a b)
  else if name = c!"lt" then binary name vs (comparison name fun a b => F64.ltb a b)
  else if name = c!"lte" then binary name vs (comparison name fun a b => F64.ltb a b || F64.eqb a b)
  else if name = c!"gt" then binary name vs (comparison name fun a b => F64.ltb b a)
  else if name = c!"gte" then binary name vs (comparison name fun a b => F64.ltb b a || F64.eqb a b)
  else if name = c!"lookup" then binary name vs fun t k =>
    match k with
    | .str f =>
        match member t f with
        | some v => .ok (some v)
        | none => helperErr (.lookupField name f)
    | _ => .error .panic
  else if name = c!"json" then unary name vs fun v =>
    .ok (some (.str (if isTruthy ((hs.lookup c!"pretty").getD (.bool false)) then toJsonPretty 0 v else toJson v)))
  else -- log
    if vs.length = 0 ∨ 2 ^ 64 ≤ vs.length then helperErr (.arityRange name 1 (2 ^ 64 - 1))
    else match hs.lookup c!"level" with
      | none => .ok none
      | some (.str _) => .ok none
      | some _ => .error .panic

/-- A helper of the application, called with these arguments without a block. -/
def CustomFn.said (f : CustomFn) (Γ : Scene) (k : Cut) (vs : List Value) (hs : List (Str × Value)) : Said (Option Value) :=
  (Γ.printAll k (f.value vs (hs.lookup ·)).1,
    match (f.value vs (hs.lookup ·)).2 with
    | .error e => .error (.err (.helper e))
    | .ok v => .ok v)

/-- What a helper writes and yields for these arguments when it is not used as a block. -/
def helperValue [Host] [Custom] (name : Str) (Γ : Scene) (k : Cut) (vs : List Value) (hs : List (Str × Value)) : Said (Option Value) :=
  match Custom.fn name with
  | none => ([], builtinValue name vs hs)
  | some f => f.said Γ k vs hs

/-- The name under which a handler is called. -/
def linkName : Str := c!"link"
def missingName : Str := c!"helperMissing"
def blockMissingName : Str := c!"blockHelperMissing"

/-- The handler for a path that is neither a helper nor a variable. -/
def SPath.handler [Custom] (p : SPath) : Option CustomFn :=
  if Full.plainName p then Custom.missing.map (· p.shown) else none

/-! ### Expressions -/

mutual
/-- The value of an argument (`none`: there is none), and what is written on the way. -/
def SExpr.eval [Host] [Custom] : SExpr → Scene → Cut → Said (Option Value)
  | .path p, Γ, _ => said (Γ.find p)
  | .lit l, _, _ => said (some l.value)
  | .sub p a, Γ, k =>
      match p.helper with
      | some h =>
          if Γ.full (.helper h) then fault (.err (.helperCycle h))
          else (a.eval (Γ.enter (.helper h)) k).bind fun x => helperValue h Γ k x.1 x.2
      | none =>
          match Γ.find p with
          | some v => said (some v)
          | none =>
              match p.handler with
              | none => Γ.absent p
              | some f =>
                  if Γ.full (.helper missingName) then fault (.err (.helperCycle missingName))
                  else (a.eval (Γ.enter (.helper missingName)) k).bind fun x => f.said Γ k x.1 x.2
/-- The values of arguments, from left to right; `null` where there is none. -/
def SArgs.eval [Host] [Custom] : SArgs → Scene → Cut → Said (List Value × List (Str × Value))
  | .done h, Γ, k => (h.eval Γ k).bind fun hs => said ([], hs)
  | .argW _ x r, Γ, k => (x.eval Γ k).bind fun v => (r.eval Γ k).bind fun y => said (v.getD .null :: y.1, y.2)
def SHash.eval [Host] [Custom] : SHash → Scene → Cut → Said (List (Str × Value))
  | .tail _, _, _ => said []
  | .pairW _ k x r, Γ, c => (x.eval Γ c).bind fun v => (r.eval Γ c).bind fun hs => said ((k, v.getD .null) :: hs)
end

/-! ### Templates -/

/-- A value as it is written: printed, and escaped unless `raw`. -/
def Scene.printed [Host] (Γ : Scene) (raw : Bool) (v : Value) : Str :=
  if stringify v = [] then [] else if raw then stringify v else Γ.escape (stringify v)

/-- `{{p a}}` or `{{{p a}}}`. -/
def Scene.says [Host] (Γ : Scene) (raw : Bool) (x : Said (Option Value)) : Written :=
  x.andThen fun v => match v with
    | none => ([], none)
    | some v => (Γ.printed raw v, none)

/-- The content, once for each round, in its scope. -/
def rounds (body : Scene → Written) (Γ : Scene) : List Round → Written
  | [] => ([], none)
  | r :: rs => andThen (within (body (Γ.push r.scope))) (rounds body Γ rs)

/-- The texts and the content, as often as asked (`none`: in the current scope), and then the error, if there is one. -/
def contents (body : Scene → Written) (Γ : Scene) (e : Option HelperErr) : List Act → Written
  | [] => ([], e.map fun e => .err (.helper e))
  | .print x :: r => put (Γ.print .none x) (contents body Γ e r)
  | .content none :: r => andThen (within (body Γ)) (contents body Γ e r)
  | .content (some sc) :: r => andThen (within (body (Γ.push sc))) (contents body Γ e r)

/-- A helper of the application with a block. -/
def CustomFn.blocks (f : CustomFn) (text : Option Str) (vs : List Value) (hs : List (Str × Value)) (body alt : Scene → Written)
    (Γ : Scene) : Written :=
  match f.block text vs (hs.lookup ·) with
  | .contents l e => contents body Γ e l
  | .otherwise => within (alt Γ)

/-- A block whose helper is the built-in `name`, called with these arguments: `body` is its content and `alt` what
its `else` clauses come to. -/
def builtinBlock [Host] (name : Str) (vs : List Value) (hs : List (Str × Value)) (body alt : Scene → Written)
    (Γ : Scene) : Written :=
  match vs with
  | [v] =>
      if name = c!"if" then within (if isTruthy v then body Γ else alt Γ)
      else if name = c!"unless" then within (if isTruthy v then alt Γ else body Γ)
      else if name = c!"each" then
        match v with
        | .arr l => rounds body Γ (arrayRounds l)
        | .obj m => rounds body Γ (objectRounds m)
        | _ => ([], none)
      else if name = c!"with" then
        match v with
        | .null => ([], none)
        | v => within (body (Γ.push ⟨some v, []⟩))
      else match builtinValue name vs hs with
        | .error f => ([], some f)
        | .ok _ => ([], none)
  | vs =>
      match builtinValue name vs hs with
      | .error f => ([], some f)
      | .ok _ => ([], none)

/-- A block whose helper is `name`. -/
def blockHelper [Host] [Custom] (name : Str) (text : Option Str) (vs : List Value) (hs : List (Str × Value)) (body alt : Scene → Written)
    (Γ : Scene) : Written :=
  match Custom.fn name with
  | none => builtinBlock name vs hs body alt Γ
  | some f => f.blocks text vs hs body alt Γ

/-- A block, whose name may be a helper, a variable or neither. -/
def block [Host] [Custom] (name : Str) (text : Option Str) (a : SArgs) (body alt : Scene → Written) (Γ : Scene) : Written :=
  if isHelper name then
    if Γ.full (.block name) then ([], some (.err (.helperCycle name)))
    else (a.eval (Γ.enter (.block name)) .none).andThen fun x => blockHelper name text x.1 x.2 body alt (Γ.enter (.block name))
  else match Γ.find ⟨0, .name name, []⟩ with
    | some v =>
        match Custom.blockMissing with
        | none => within (body Γ)
        | some f =>
            if Γ.full (.block blockMissingName) then ([], some (.err (.helperCycle blockMissingName)))
            else (a.eval (Γ.enter (.block blockMissingName)) .none).andThen fun x =>
              (f name v).blocks none x.1 x.2 body alt (Γ.enter (.block blockMissingName))
    | none =>
        match Custom.missing with
        | none => ([], if Γ.strict then some (.err (.helperNotFound name)) else none)
        | some _ => ((SExpr.sub ⟨0, .name name, []⟩ a).eval Γ .none).andThen fun _ => ([], none)

/-- The values the handler for links gets. -/
def linkValues (h : Str) (l t : Option Str) : List Value :=
  [.str (fieldValue h), .str (fieldValue (l.getD [])), .str (fieldValue (t.getD []))]

/-- `[[h|l|t]]`: its text, or what the handler writes. -/
def Scene.link [Custom] (Γ : Scene) (esc : Bool) (h : Str) (l t : Option Str) : Written :=
  match (if esc then none else Custom.link) with
  | none => (linkText false h l t, none)
  | some f =>
      if Γ.full (.helper linkName) then ([], some (.err (.helperCycle linkName)))
      else (f.said Γ .none (linkValues h l t) []).andThen fun _ => ([], none)

mutual
/-- What a template writes. -/
def STm.den [Host] [Custom] : STm → Scene → Written
  | .nil, _ => ([], none)
  | .text w r, Γ => put w (r.den Γ)
  | .comment _ r, Γ => r.den Γ
  | .longComment _ r, Γ => r.den Γ
  | .escaped w r, Γ => put (c!"{{" ++ (w ++ c!"}}")) (r.den Γ)
  | .link e h l t r, Γ => andThen (Γ.link e h l t) (r.den Γ)
  | .stmt raw _ _ p a r, Γ => andThen (Γ.says raw ((SExpr.sub p a).eval Γ .none)) (r.den Γ)
  | .dyn raw _ _ q b _ r, Γ => andThen (Γ.says raw ((SExpr.sub q b).eval Γ .none)) (r.den Γ)
  | .rawBlock _ name a w _ r, Γ =>
      andThen (if isHelper name then block name (some w) a (fun _ => (w, none)) (fun _ => ([], none)) Γ else (w, none))
        (r.den Γ)
  | .block _ _ name a body cs _ r, Γ =>
      andThen (block name none a (fun Δ => body.den Δ) (fun Δ => cs.den Δ ([], none)) Γ) (r.den Γ)
/-- What the `else` clauses write: the first whose condition holds, else the last plain `else` (`alt` so far). -/
def SCls.den [Host] [Custom] : SCls → Scene → Written → Written
  | .nil, _, alt => alt
  | .cons _ none body r, Γ, _ => r.den Γ (body.den Γ)
  | .cons _ (some (p, a)) body r, Γ, alt =>
      ((SExpr.sub p a).eval Γ .none).andThen fun v => if isTruthy (v.getD .null) then body.den Γ else r.den Γ alt
end

/-! ### Registries and results -/

/-- `rc.write(..)?` or `rc.write_escaped(..)?`, then the rest. -/
def printProg (x : Print) (k : Prog) : Prog :=
  if x.escaped then .writeEscaped x.text fun r => match r with
    | .ok _ => k
    | .error e => .fail e
  else .write x.text fun r => match r with
    | .ok _ => k
    | .error e => .fail e

def printAllProg : List Print → Prog → Prog
  | [], k => k
  | x :: r, k => printProg x (printAllProg r k)

/-- Writing the texts and rendering the block's content, as asked. -/
def contentsProg (n : Node) (e : Option HelperErr) : List Act → Prog
  | [] => match e with
      | none => .ret none
      | some e => .fail e
  | .print x :: r => printProg x (contentsProg n e r)
  | .content none :: r => .tmpl n (contentsProg n e r)
  | .content (some sc) :: r => .pushScope sc (.tmpl n (.popScope fun _ => contentsProg n e r))

/-- A helper of the application as the code it consists of. -/
def CustomFn.prog (f : CustomFn) : HelperFn := fun ctx t =>
  match t with
  | none =>
      printAllProg (f.value ctx.args (ctx.param ·)).1 (match (f.value ctx.args (ctx.param ·)).2 with
        | .error e => .fail e
        | .ok v => .ret v)
  | some n =>
      match f.block ctx.text ctx.args (ctx.param ·) with
      | .contents l e => contentsProg n e l
      | .otherwise => .tryInverse n

/-- The handler for unknown names: it asks the call for the name. -/
def missingProg (f : Str → CustomFn) : HelperFn := fun ctx t =>
  match ctx.call.target with
  | .path p =>
      match p.asStr with
      | some w => (f w).prog ctx t
      | none => .panic
  | .subExpr _ => .panic

/-- The handler for blocks whose name is a variable: it asks for the property. -/
def blockMissingProg (f : Str → Value → CustomFn) : HelperFn := fun ctx t =>
  match ctx.property with
  | some (w, v) => (f w v).prog ctx t
  | none => .panic

/-- The helper with this name. -/
def helperFn [Host] [Custom] (w : Str) : Option HelperFn :=
  match Custom.fn w with
  | some f => some f.prog
  | none => assoc w builtins

/-- The built-in helpers and those of the application, and its handlers (any templates, escape function and
strictness). -/
structure Equipped [Host] [Custom] (reg : Reg) : Prop where
  helpers : ∀ w, assoc w reg.helpers = helperFn w
  link : reg.link = Custom.link.map CustomFn.prog
  helperMissing : reg.helperMissing = Custom.missing.map missingProg
  blockHelperMissing : reg.blockHelperMissing = Custom.blockMissing.map blockMissingProg

/-- Where a template begins. -/
def Scene.start (reg : Reg) (name : Str) (data : Value) : Scene := ⟨reg.strict, reg.escape, name, data, [], []⟩

/-- What the caller of a rendering into a string gets. -/
def Written.result : Written → Out Str
  | (w, none) => .ok w
  | (_, some (.err e)) => .err (.render e)
  | (_, some .panic) => .panic

/-! ### Where the output comes from -/

/-- What the helper writes itself is escaped. -/
structure CustomFn.careful (f : CustomFn) : Prop where
  value : ∀ vs hs, ∀ x ∈ (f.value vs hs).1, x.escaped = true
  block : ∀ text vs hs l e, f.block text vs hs = .contents l e → ∀ x, Act.print x ∈ l → x.escaped = true

/-- What the helpers and handlers of the application write themselves is escaped. -/
structure Careful [Custom] : Prop where
  fn : ∀ name f, Custom.fn name = some f → f.careful
  link : ∀ f, Custom.link = some f → f.careful
  missing : ∀ f name, Custom.missing = some f → (f name).careful
  blockMissing : ∀ f name v, Custom.blockMissing = some f → (f name v).careful

mutual
/-- No `{{{`. -/
def STm.tame : STm → Bool
  | .nil => true
  | .text _ r | .comment _ r | .longComment _ r | .escaped _ r | .link _ _ _ _ r => r.tame
  | .stmt raw _ _ _ _ r => !raw && r.tame
  | .dyn raw _ _ _ _ _ r => !raw && r.tame
  | .rawBlock _ _ _ _ _ r => r.tame
  | .block _ _ _ _ body cs _ r => body.tame && cs.tame && r.tame
def SCls.tame : SCls → Bool
  | .nil => true
  | .cons _ _ body r => body.tame && r.tame
end

mutual
/-- The pieces of text the author of the template wrote. -/
def STm.own : STm → List Str
  | .nil => []
  | .text w r => w :: r.own
  | .comment _ r => r.own
  | .longComment _ r => r.own
  | .escaped w r => (c!"{{" ++ (w ++ c!"}}")) :: r.own
  | .link _ h l t r => linkText false h l t :: r.own
  | .stmt _ _ _ _ _ r => r.own
  | .dyn _ _ _ _ _ _ r => r.own
  | .rawBlock _ _ _ w _ r => w :: r.own
  | .block _ _ _ _ body cs _ r => body.own ++ (cs.own ++ r.own)
def SCls.own : SCls → List Str
  | .nil => []
  | .cons _ _ body r => body.own ++ r.own
end

end Bracket.Spec
