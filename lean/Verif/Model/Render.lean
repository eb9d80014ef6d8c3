import Verif.Model.Parser
import Verif.Model.Escape

/-! Model of `src/render/{mod,scope,context,assert}.rs`, `src/trim.rs`,
`src/parser/iter.rs`, `src/output.rs` and the error types of
`src/error/{helper,render}.rs`. -/

namespace Bracket

/-! ### Errors and results -/

/-- `std::io::Error`, opaque. -/
structure IoErr where
  code : Nat
deriving DecidableEq, Repr

mutual
/-- error/helper.rs:10-68 `HelperError` (the unused `ArgumentTypeString` and the
never occurring `Json` are left out).  `onceSyntax`/`onceRender` stand for the
`Message` built from the display text of the underlying error (render/mod.rs:185-188). -/
inductive HelperErr where
  | message (s : Str)
  | blockTemplate (name : Str)
  | blockTemplateNotAllowed (name : Str)
  | arityExact (name : Str) (n : Nat)
  | arityRange (name : Str) (lo hi : Nat)
  | lookupField (name field : Str)
  | invalidNumericalOperand (name : Str)
  | typeAssert (name expected got : Str)
  | syntax (e : SyntaxErr)
  | render (e : RenderErr)
  | io (e : IoErr)
  | onceSyntax (e : SyntaxErr)
  | onceRender (e : RenderErr)
/-- error/render.rs:8-62 `RenderError`. -/
inductive RenderErr where
  | partialNotFound (name : Str)
  | variableNotFound (path template : Str)
  | helperNotFound (name : Str)
  | partialCycle (name : Str)
  | helperCycle (name : Str)
  | partialIdentifier (path : Str)
  | blockIdentifier (path : Str)
  | blockTargetSubExpr
  | helper (e : HelperErr)
  | io (e : IoErr)
end

/-- Outcome of a render step; `panic` is a Rust panic, `fuel` means the recursion
bound of the model was too small (see `sem`). -/
inductive Res (α : Type) where
  | ok (a : α)
  | err (e : RenderErr)
  | panic
  | fuel

/-! ### Scopes: render/scope.rs -/

/-- scope.rs:11-14 `Scope`; `locals` is always a JSON object, kept here as its
member list. -/
structure Scope where
  value : Option Value
  locals : List (Str × Value)

namespace Scope
/-- scope.rs:18-23 `Scope::new`. -/
def new : Scope := ⟨none, []⟩
/-- scope.rs:34-39 `set_local`. -/
def setLocal (name : Str) (v : Value) (s : Scope) : Scope :=
  { s with locals := mapInsert ('@' :: name) v s.locals }
/-- scope.rs:44-46 `local`. -/
def localVar (s : Scope) (name : Str) : Option Value := assoc name s.locals
/-- scope.rs:53-55 `set_base_value`. -/
def setBase (v : Value) (s : Scope) : Scope := { s with value := some v }
/-- scope.rs:65-69 `From<Map>`. -/
def ofHash (m : List (Str × Value)) : Scope := { new with value := some (.obj m) }
/-- scope.rs:74-79 `From<(Value, Map)>`. -/
def ofContext (v : Value) (m : List (Str × Value)) : Scope := { new with value := some v, locals := m }
end Scope

/-! ### Types: render/assert.rs -/

/-- assert.rs:7-20 `Type`. -/
inductive JType where
  | null | bool | number | string | object | array
deriving DecidableEq, Repr

/-- assert.rs:23-34 `Display for Type`. -/
def JType.name : JType → Str
  | .null => c!"null"
  | .bool => c!"boolean"
  | .number => c!"number"
  | .string => c!"string"
  | .object => c!"object"
  | .array => c!"array"

/-- assert.rs:38-47 `From<&Value> for Type`. -/
def typeOf : Value → JType
  | .null => .null
  | .bool _ => .bool
  | .num _ => .number
  | .str _ => .string
  | .obj _ => .object
  | .arr _ => .array

/-- assert.rs:65-74 `assert_type`. -/
def assertType (v : Value) (k : JType) : Bool :=
  match v with
  | .null => k == .null
  | .bool _ => k == .bool
  | .str _ => k == .string
  | .num _ => k == .number
  | .obj _ => k == .object
  | .arr _ => k == .array

/-- assert.rs:56-63 `assert`: `none` on success, otherwise the kind that failed. -/
def assertKinds (v : Value) : List JType → Option Str
  | [] => none
  | k :: ks => if assertType v k then assertKinds v ks else some k.name

/-! ### Context: render/context.rs -/

/-- context.rs:19-24 `MissingValue` (the value is always a string). -/
inductive Missing where
  | arg (index : Nat) (raw : Str)
  | param (key raw : Str)
deriving DecidableEq, Repr

/-- context.rs:43-52 `Context`; `property` is context.rs:31-36. -/
structure Ctx where
  call : Call
  name : Str
  args : List Value
  params : List (Str × Value)
  text : Option Str
  property : Option (Str × Value)
  missing : List Missing

/-- Search for a missing argument. -/
def missingArg (i : Nat) : List Missing → Option Value
  | [] => none
  | .arg j raw :: r => if j = i then some (.str raw) else missingArg i r
  | .param _ _ :: r => missingArg i r

/-- Search for a missing hash parameter. -/
def missingParam (k : Str) : List Missing → Option Value
  | [] => none
  | .param k' raw :: r => if k' = k then some (.str raw) else missingParam k r
  | .arg _ _ :: r => missingParam k r

namespace Ctx
/-- context.rs:91-93 `get`. -/
def get (c : Ctx) (i : Nat) : Option Value := c.args[i]?
/-- context.rs:96-98 `param`. -/
def param (c : Ctx) (k : Str) : Option Value := assoc k c.params
/-- context.rs:130-139 `missing`. -/
def missingAt (c : Ctx) (i : Nat) : Option Value := missingArg i c.missing
/-- context.rs:147-156 `missing_param`. -/
def missingKey (c : Ctx) (k : Str) : Option Value := missingParam k c.missing
/-- context.rs:102-110 `get_fallback`. -/
def getFallback (c : Ctx) (i : Nat) : Option Value :=
  match c.get i with
  | some .null => match c.missingAt i with | some v => some v | none => some .null
  | v => v
/-- context.rs:114-122 `param_fallback`. -/
def paramFallback (c : Ctx) (k : Str) : Option Value :=
  match c.param k with
  | some .null => match c.missingKey k with | some v => some v | none => some .null
  | v => v
/-- context.rs:164-166 `raw`; the outer option is the panic of the slice. -/
def raw (c : Ctx) (i : Nat) : Option (Option Str) :=
  match c.call.args[i]? with
  | none => some none
  | some v => v.asStr.map some
/-- context.rs:260-270 `assert`. -/
def assert (c : Ctx) (v : Value) (kinds : List JType) : Except HelperErr Unit :=
  match assertKinds v kinds with
  | none => .ok ()
  | some k => .error (.typeAssert c.name k (typeOf v).name)
/-- context.rs:179-188 `try_get`. -/
def tryGet (c : Ctx) (i : Nat) (kinds : List JType) : Except HelperErr Value :=
  let v := (c.get i).getD .null
  match c.assert v kinds with
  | .ok _ => .ok v
  | .error e => .error e
/-- context.rs:196-205 `try_param`. -/
def tryParam (c : Ctx) (k : Str) (kinds : List JType) : Except HelperErr Value :=
  let v := (c.param k).getD .null
  match c.assert v kinds with
  | .ok _ => .ok v
  | .error e => .error e
/-- context.rs:237-257 `arity`. -/
def arity (c : Ctx) (lo hi : Nat) : Except HelperErr Unit :=
  if lo = hi then
    if c.args.length ≠ lo then .error (.arityExact c.name lo) else .ok ()
  else
    if c.args.length < lo ∨ c.args.length > hi then .error (.arityRange c.name lo hi) else .ok ()
/-- context.rs:276-284 `assert_block`. -/
def assertBlock (c : Ctx) (t : Option Node) : Except HelperErr Node :=
  match t with
  | some n => .ok n
  | none => .error (.blockTemplate c.name)
/-- context.rs:290-297 `assert_statement`. -/
def assertStatement (c : Ctx) (t : Option Node) : Except HelperErr Unit :=
  match t with
  | some _ => .error (.blockTemplateNotAllowed c.name)
  | none => .ok ()
end Ctx

/-! ### Templates, helpers and the registry's contents -/

/-- template.rs:34-37 `Template` (the AST owns its source). -/
structure Template where
  fileName : Option Str
  node : Node

/-- What a helper can read from the renderer without changing it: `template_name`
(render/mod.rs:146-148), `current_name` (162-166), `data` (257-259), `get_template`
(208-210), `escape` (222-224). -/
structure View where
  templateName : Str
  currentName : Str
  data : Value
  getTemplate : Str → Option Template
  escape : Str → Str

/-- A helper body (`Helper::call`) as an interaction tree: Rust code that computes
anything and interacts with the renderer only through the public methods of
`Render`, each of whose results it may inspect.  `fail e` returns `Err(e)`. -/
inductive Prog where
  | ret (v : Option Value)
  | fail (e : HelperErr)
  | panic
  /-- render/mod.rs:227-231 `write` -/
  | write (s : Str) (k : Except HelperErr Nat → Prog)
  /-- render/mod.rs:235-239 `write_escaped` -/
  | writeEscaped (s : Str) (k : Except HelperErr Nat → Prog)
  /-- render/mod.rs:217-219 `out()` followed by `write_str` on the destination -/
  | outWrite (s : Str) (k : Except IoErr Nat → Prog)
  /-- render/mod.rs:305-342 `template` -/
  | template (n : Node) (k : Except HelperErr Unit → Prog)
  /-- render/mod.rs:200-205 `render` -/
  | render (n : Node) (k : Except RenderErr Unit → Prog)
  /-- render/mod.rs:263-300 `inverse` -/
  | inverse (n : Node) (k : Except HelperErr (Option Node) → Prog)
  /-- render/mod.rs:349-375 `buffer` -/
  | buffer (n : Node) (k : Except HelperErr Str → Prog)
  /-- render/mod.rs:176-190 `once` -/
  | once (file content : Str) (data : Value) (k : Except HelperErr Str → Prog)
  /-- render/mod.rs:389-397 `evaluate` -/
  | evaluate (path : Str) (k : Except HelperErr (Option Value) → Prog)
  /-- render/mod.rs:242-244 `push_scope` -/
  | pushScope (s : Scope) (k : Prog)
  /-- render/mod.rs:247-249 `pop_scope` -/
  | popScope (k : Option Scope → Prog)
  /-- render/mod.rs:252-254 `scope_mut`: update the innermost scope; yields its old value -/
  | scopeMut (f : Scope → Scope) (k : Option Scope → Prog)
  /-- render/mod.rs:611-618 `register_local_helper` -/
  | registerLocal (name : Str) (h : Ctx → Option Node → Prog) (k : Prog)
  /-- render/mod.rs:624-627 `unregister_local_helper` -/
  | unregisterLocal (name : Str) (k : Prog)
  /-- read-only accessors -/
  | peek (k : View → Prog)
  /-- one `log::*!` line (level, text) -/
  | log (level line : Str) (k : Prog)

/-- helper/mod.rs:165-170 `Helper::call`. -/
abbrev HelperFn := Ctx → Option Node → Prog

/-- registry.rs:22-28 `Registry` with helper/mod.rs:219-221 `HelperRegistry` and
300-307 `HandlerRegistry`.  The escape function is assumed pure. -/
structure Reg where
  helpers : List (Str × HelperFn)
  link : Option HelperFn
  helperMissing : Option HelperFn
  blockHelperMissing : Option HelperFn
  templates : List (Str × Template)
  escape : Str → Str
  strict : Bool

/-! ### The renderer's state -/

/-- One call to `Output::write_str` and its result. -/
structure Wr where
  chunk : Str
  res : Except IoErr Nat

/-- A destination (`output.rs:5-8 Output`): the result of a write, as a function of
the writes so far. -/
abbrev Sink := List Wr → Str → Except IoErr Nat

/-- output.rs:35-68 `StringOutput`: accepts everything. -/
def stringSink : Sink := fun _ s => .ok (blen s)

/-- The contents of a `StringOutput` after the given writes. -/
def outText (ws : List Wr) : Str := ws.flatMap (·.chunk)

/-- render/mod.rs:60-67 `CallSite`. -/
inductive CallSite where
  | part (name : Str)
  | helper (name : Str)
  | block (name : Str)
deriving DecidableEq, Repr

/-- Ghost (not in the code): a call was entered, or the innermost one was left, by
success or by failure. -/
inductive CallEv where
  | enter (site : CallSite)
  | leave
deriving DecidableEq, Repr

/-- render/mod.rs:92-105: the fields of `Render` that never change. -/
structure Env where
  reg : Reg
  name : Str
  root : Value
  sink : Sink

/-- render/mod.rs:92-105: the fields of `Render` that change.  `scopes`, `stack` and
`curPartial` have their last (innermost) element first.  `out` is the history of
the destination, oldest first; `logs` the lines sent to the `log` crate; `trace` is a
ghost record of the calls entered and left, which nothing reads. -/
structure RS where
  out : List Wr
  scopes : List Scope
  trim : TrimState
  hint : Option TrimHint
  endTagHint : Option TrimHint
  stack : List CallSite
  curPartial : List (Option Str)
  partials : List (Str × Node)
  locals : List (Str × HelperFn)
  logs : List (Str × Str)
  trace : List CallEv

/-- render/mod.rs:112-139 `Render::new`. -/
def RS.init (stack : List CallSite) : RS :=
  { out := [], scopes := [], trim := ⟨false, false⟩, hint := none, endTagHint := none, stack,
    curPartial := [], partials := [], locals := [], logs := [], trace := [] }

/-- A render computation; the state survives errors. -/
def RM (α : Type) := RS → Res α × RS

instance : Monad RM where
  pure a := fun s => (.ok a, s)
  bind m f := fun s =>
    match m s with
    | (.ok a, s') => f a s'
    | (.err e, s') => (.err e, s')
    | (.panic, s') => (.panic, s')
    | (.fuel, s') => (.fuel, s')

namespace RM
def fail {α} (e : RenderErr) : RM α := fun s => (.err e, s)
def panic {α} : RM α := fun s => (.panic, s)
def outOfFuel {α} : RM α := fun s => (.fuel, s)
def get : RM RS := fun s => (.ok s, s)
def modify (f : RS → RS) : RM Unit := fun s => (.ok (), f s)
/-- A partial operation whose failure is a panic. -/
def orPanic {α} (o : Option α) : RM α := fun s =>
  match o with
  | some a => (.ok a, s)
  | none => (.panic, s)
/-- Continue with the success or the error of `m`; panics are not caught. -/
def catchErr {α β} (m : RM α) (f : Except RenderErr α → RM β) : RM β := fun s =>
  match m s with
  | (.ok a, s') => f (.ok a) s'
  | (.err e, s') => f (.error e) s'
  | (.panic, s') => (.panic, s')
  | (.fuel, s') => (.fuel, s')
end RM

/-- `map_err(Box::new).map_err(HelperError::from)`: wrap a render error. -/
def toHelper {α} : Except RenderErr α → Except HelperErr α
  | .ok a => .ok a
  | .error e => .error (.render e)

/-! ### Writing -/

/-- render/mod.rs:1097-1098: the part of `s` left by the current trim state. -/
def applyTrim (t : TrimState) (s : Str) : Str :=
  let v := if t.start then trimStart s else s
  if t.stop then trimEnd v else v

/-- One write to the destination. -/
def rawWrite (E : Env) (chunk : Str) : RM (Except IoErr Nat) := fun s =>
  let r := E.sink s.out chunk
  (.ok r, { s with out := s.out ++ [⟨chunk, r⟩] })

/-- render/mod.rs:1096-1109 `write_str`. -/
def writeStr (E : Env) (s : Str) (escape : Bool) : RM Nat := do
  let st ← RM.get
  let val := applyTrim st.trim s
  if val.isEmpty then pure 0
  else do
    match (← rawWrite E (if escape then E.reg.escape val else val)) with
    | .ok n => pure n
    | .error e => RM.fail (.io e)

/-! ### Variable lookup -/

/-- render/mod.rs:422-533 `lookup`, given the texts of the path's components
(outermost scope last). -/
def lookupParts (root : Value) (scopes : List Scope) (p : Path) (parts : List Str) : Option Value :=
  if p.absolute then none
  else if p.root then findParts (parts.drop 1) root
  else if p.explicit then
    let value := match scopes with
      | [] => root
      | s :: _ => match s.value with
          | some base => base
          | none => root
    if p.components.length = 1 then some value else findParts (parts.drop 1) value
  else if p.isLocal then
    match scopes with
    | [] => none
    | s :: _ => findParts parts (.obj s.locals)
  else if p.parents > 0 then
    let all : List (Value × Option Value) :=
      (root, none) :: (scopes.reverse.map fun s => (.obj s.locals, s.value))
    if all.length > p.parents then
      match all[all.length - (p.parents + 1)]? with
      | some (locals, value) =>
          match findParts parts locals with
          | some r => some r
          | none => match value with
              | some v => findParts parts v
              | none => none
      | none => none
    else none
  else
    let values : List (Value × Option Value) :=
      (scopes.map fun s => (Value.obj s.locals, s.value)) ++ [(root, none)]
    values.findSome? fun (locals, value) =>
      match findParts parts locals with
      | some r => some r
      | none => match value with
          | some v => findParts parts v
          | none => none

/-- render/mod.rs:422-533 `lookup`; the outer option is a panic of a slice.
Simplification: Rust slices the component texts lazily. -/
def lookup (root : Value) (scopes : List Scope) (p : Path) : Option (Option Value) :=
  (p.components.mapM Component.asValue).map (lookupParts root scopes p)

/-- `self.lookup(path).cloned()`. -/
def lookupM (E : Env) (p : Path) : RM (Option Value) := do
  let s ← RM.get
  RM.orPanic (lookup E.root s.scopes p)

/-! ### Node events: parser/iter.rs -/

/-- iter.rs:9-18 `NodeEvent`. -/
structure Ev where
  node : Node
  trim : TrimState
  first : Bool
  last : Bool

/-- iter.rs:146-155: does the next node ask to trim before it? -/
def nextBefore : List Node → RM Bool
  | [] => pure false
  | x :: _ => do let t ← RM.orPanic x.trim; pure t.before

/-- iter.rs:156-160: what is remembered of a node for the next one. -/
def trimAfterOf (n : Node) (h : TrimHint) : Option Bool :=
  match n with
  | .block _ => none
  | _ => some h.after

/-- iter.rs:134-145: is the start of the node trimmed? -/
def startTrim (prev : Option Bool) (hint : Option TrimHint) : Bool :=
  match prev with
  | some b => b
  | none => match hint with | some h => h.after | none => false

/-- iter.rs:134-145: the seed hint is taken when it is used. -/
def nextHint (prev : Option Bool) (hint : Option TrimHint) : Option TrimHint :=
  match prev with
  | some _ => hint
  | none => none

/-- iter.rs:128-173 `EventIter::next`, driving `f` over the nodes.  `prev` is
`prev_trim_after`, `hint` the seed hint. -/
def runEvents (f : Ev → RM Unit) : List Node → Option Bool → Option TrimHint → RM Unit
  | [], _, _ => pure ()
  | n :: rest, prev, hint => do
      let stop ← nextBefore rest
      let cur ← RM.orPanic n.trim
      f ⟨n, ⟨startTrim prev hint, stop⟩, prev.isNone, rest.isEmpty⟩
      runEvents f rest (trimAfterOf n cur) (nextHint prev hint)

/-! ### The evaluator -/

/-- The recursive entry points of the renderer at some recursion depth. -/
structure Sem where
  renderNode : Env → Node → TrimState → RM Unit
  statement : Env → Call → RM (Option Value)
  call : Env → Call → RM (Option Value)

/-- render/mod.rs:200-205 `render`. -/
def renderAll (S : Sem) (E : Env) (n : Node) : RM Unit :=
  runEvents (fun ev => S.renderNode E ev.node ev.trim) n.children none none

/-- render/mod.rs:317-321: the open tag's hint, for the first node. -/
def firstHint (n : Node) (ev : Ev) : RM TrimHint :=
  if ev.first then RM.orPanic n.trim else pure ⟨false, false⟩

/-- render/mod.rs:323-331: the close tag's hint, for the last node. -/
def lastHint (n : Node) (ev : Ev) : RM TrimHint :=
  match n with
  | .block b => if ev.last then RM.orPanic b.trimClose else pure ⟨false, false⟩
  | _ => pure ⟨false, false⟩

/-- The trim state of a node given the hints of the enclosing tags. -/
def hintTrim (t : TrimState) (h lh : TrimHint) : TrimState :=
  ⟨t.start || h.after, t.stop || lh.before⟩

/-- render/mod.rs:316-333: the body of `template`'s loop. -/
def templateEvent (S : Sem) (E : Env) (n : Node) (ev : Ev) : RM Unit := do
  let h ← firstHint n ev
  let lh ← lastHint n ev
  S.renderNode E ev.node (hintTrim ev.trim h lh)

/-- The hint left for the next node: render/mod.rs:310, 328, 339. -/
def closeHint (n : Node) : Option (Option TrimHint) :=
  match n with
  | .block b => if b.nodes.isEmpty then some none else b.trimClose.map some
  | _ => some none

/-- render/mod.rs:305-342 `template` (errors are wrapped by the caller). -/
def template (S : Sem) (E : Env) (n : Node) : RM Unit := do
  let s ← RM.get
  runEvents (templateEvent S E n) n.children none s.hint
  let h ← RM.orPanic (closeHint n)
  RM.modify fun s => { s with endTagHint := h }

/-- render/mod.rs:263-300 `inverse`: the loop over the conditionals. -/
def inverseLoop (S : Sem) (E : Env) : List Node → Option Node → RM (Option Node)
  | [], alt => pure alt
  | .block clause :: rest, alt =>
      if clause.call.isEmpty then inverseLoop S E rest (some (.block clause))
      else do
        match (← S.call E clause.call) with
        | some v => if isTruthy v then pure (some (.block clause)) else inverseLoop S E rest alt
        | none => inverseLoop S E rest alt
  | _ :: rest, alt => inverseLoop S E rest alt

/-- render/mod.rs:263-300 `inverse`. -/
def inverse (S : Sem) (E : Env) (n : Node) : RM (Option Node) :=
  match n with
  | .block b => inverseLoop S E b.conditionals none
  | _ => pure none

/-- Run `m` in a fresh renderer writing to a `StringOutput` and return the text;
only the log lines (and the ghost trace) of the inner renderer are visible outside. -/
def nested (init : RS) (m : RM Unit) : RM Str := fun s =>
  match m { init with logs := s.logs, trace := s.trace } with
  | (.ok _, i) => (.ok (outText i.out), { s with logs := i.logs, trace := i.trace })
  | (.err e, i) => (.err e, { s with logs := i.logs, trace := i.trace })
  | (.panic, i) => (.panic, { s with logs := i.logs, trace := i.trace })
  | (.fuel, i) => (.fuel, { s with logs := i.logs, trace := i.trace })

/-- Ghost: record that `m` runs inside the call `site`. -/
def traced {α : Type} (site : CallSite) (m : RM α) : RM α := fun s =>
  match m { s with trace := s.trace ++ [.enter site] } with
  | (r, s') => (r, { s' with trace := s'.trace ++ [.leave] })

/-- render/mod.rs:349-375 `buffer`. -/
def buffer (S : Sem) (E : Env) (n : Node) : RM Str := do
  let s ← RM.get
  nested { RS.init s.stack with scopes := s.scopes } (template S { E with sink := stringSink } n)

/-- render/mod.rs:176-190 `once`, registry.rs:294-312 `once_stack`, template.rs:81-95
`Template::render`. -/
def once [Host] (S : Sem) (E : Env) (file content : Str) (data : Value) :
    RM (Except HelperErr Str) := do
  let s ← RM.get
  match compile content ⟨file, 0, 0⟩ with
  | .ok doc =>
      RM.catchErr
        (nested (RS.init s.stack)
          (renderAll S { E with name := file, root := data, sink := stringSink } doc))
        (fun r => pure (match r with | .ok t => .ok t | .error e => .error (.onceRender e)))
  | .err e => pure (.error (.onceSyntax e))
  | .panic => RM.panic
  | .fuel => RM.outOfFuel

/-- render/mod.rs:389-397 `evaluate`. -/
def evaluate [Host] (E : Env) (path : Str) : RM (Except HelperErr (Option Value)) :=
  match pathFromStr path with
  | .ok (some p) => do let v ← lookupM E p; pure (.ok v)
  | .ok none => pure (.ok none)
  | .err e => pure (.error (.syntax e))
  | .panic => RM.panic
  | .fuel => RM.outOfFuel

/-- render/mod.rs:162-166 `current_name`. -/
def currentName (E : Env) (s : RS) : Str :=
  match s.curPartial with
  | some n :: _ => n
  | none :: _ => E.name
  | [] => E.name

/-- The read-only view of the renderer. -/
def view (E : Env) (s : RS) : View :=
  { templateName := E.name, currentName := currentName E s, data := E.root,
    getTemplate := fun n => assoc n E.reg.templates, escape := E.reg.escape }

/-- Run a helper body. -/
def run [Host] (S : Sem) (E : Env) : Prog → RM (Option Value)
  | .ret v => pure v
  | .fail e => RM.fail (.helper e)
  | .panic => RM.panic
  | .write s k => RM.catchErr (writeStr E s false) fun r => run S E (k (toHelper r))
  | .writeEscaped s k => RM.catchErr (writeStr E s true) fun r => run S E (k (toHelper r))
  | .outWrite s k => do let r ← rawWrite E s; run S E (k r)
  | .template n k => RM.catchErr (template S E n) fun r => run S E (k (toHelper r))
  | .render n k => RM.catchErr (renderAll S E n) fun r => run S E (k r)
  | .inverse n k => RM.catchErr (inverse S E n) fun r => run S E (k (toHelper r))
  | .buffer n k => RM.catchErr (buffer S E n) fun r => run S E (k (toHelper r))
  | .once f c d k => do let r ← once S E f c d; run S E (k r)
  | .evaluate p k => do let r ← evaluate E p; run S E (k r)
  | .pushScope sc k => do
      RM.modify (fun s => { s with scopes := sc :: s.scopes })
      run S E k
  | .popScope k => do
      let s ← RM.get
      RM.modify (fun s => { s with scopes := s.scopes.tail })
      run S E (k s.scopes.head?)
  | .scopeMut f k => do
      let s ← RM.get
      RM.modify (fun s => match s.scopes with
        | [] => s
        | sc :: r => { s with scopes := f sc :: r })
      run S E (k s.scopes.head?)
  | .registerLocal n h k => do
      RM.modify (fun s => { s with locals := assocInsert n h s.locals })
      run S E k
  | .unregisterLocal n k => do
      RM.modify (fun s => { s with locals := assocErase n s.locals })
      run S E k
  | .peek k => do
      let s ← RM.get
      run S E (k (view E s))
  | .log lvl line k => do
      RM.modify (fun s => { s with logs := s.logs ++ [(lvl, line)] })
      run S E k

/-- render/mod.rs:544-563, 578-602: the value of a parameter and, when it is missing, its
source text (then the value is `null`). -/
def paramM (S : Sem) (E : Env) (p : ParamValue) : RM (Value × Option Str) :=
  match p with
  | .json _ v _ _ => pure (v, none)
  | .path path => do
      match (← lookupM E path) with
      | some v => pure (v, none)
      | none => do
          let raw ← RM.orPanic path.asStr
          pure (.null, some raw)
  | .subExpr c => do
      match (← S.statement E c) with
      | some v => pure (v, none)
      | none => do
          let raw ← RM.orPanic c.asStr
          pure (.null, some raw)

/-- `missing.push(..)` when the value is missing. -/
def addMissing (ms : List Missing) (f : Str → Missing) : Option Str → List Missing
  | some raw => ms ++ [f raw]
  | none => ms

/-- render/mod.rs:536-567 `arguments`, from index `i`. -/
def argumentsLoop (S : Sem) (E : Env) :
    Nat → List ParamValue → List Missing → RM (List Value × List Missing)
  | _, [], ms => pure ([], ms)
  | i, p :: ps, ms => do
      let v ← paramM S E p
      let r ← argumentsLoop S E (i + 1) ps (addMissing ms (.arg i) v.2)
      pure (v.1 :: r.1, r.2)

/-- render/mod.rs:570-606 `hash`. -/
def hashLoop (S : Sem) (E : Env) :
    List (Str × ParamValue) → List (Str × Value) → List Missing → RM (List (Str × Value) × List Missing)
  | [], out, ms => pure (out, ms)
  | (k, p) :: ps, out, ms => do
      let v ← paramM S E p
      hashLoop S E ps (mapInsert k v.1 out) (addMissing ms (.param k) v.2)

/-- render/mod.rs:43 `STACK_MAX`. -/
def stackMax : Nat := 32

/-- render/mod.rs:688-691 `has_helper`. -/
def hasHelper (E : Env) (s : RS) (name : Str) : Bool :=
  (assoc name s.locals).isSome || (assoc name E.reg.helpers).isSome

/-- render/mod.rs:45-48 `HelperTarget`: by name, or a handler. -/
inductive Target where
  | name
  | handler (h : HelperFn)

/-- render/mod.rs:660-678: run the helper a call is for; local helpers first. -/
def runTarget [Host] (S : Sem) (E : Env) (name : Str) (target : Target) (ctx : Ctx)
    (content : Option Node) (locals : List (Str × HelperFn)) : RM (Option Value) :=
  match target with
  | .name =>
      match assoc name locals with
      | some h => run S E (h ctx content)
      | none =>
          match assoc name E.reg.helpers with
          | some h => run S E (h ctx content)
          | none => pure none
  | .handler h => run S E (h ctx content)

/-- render/mod.rs:636-640: the call site of a helper call. -/
def siteOf (name : Str) (content : Option Node) : CallSite :=
  match content with
  | some _ => .block name
  | none => .helper name

/-- render/mod.rs:629-686 `invoke`. -/
def invoke [Host] (S : Sem) (E : Env) (name : Str) (target : Target) (c : Call)
    (content : Option Node) (text : Option Str) (prop : Option (Str × Value)) :
    RM (Option Value) := do
  let s ← RM.get
  if (s.stack.filter (· == siteOf name content)).length ≥ stackMax then RM.fail (.helperCycle name)
  else traced (siteOf name content) do
    RM.modify fun s => { s with stack := siteOf name content :: s.stack }
    let a ← argumentsLoop S E 0 c.args []
    let h ← hashLoop S E c.params [] a.2
    let s ← RM.get
    let v ← runTarget S E name target
      { call := c, name, args := a.1, params := h.1, text, property := prop, missing := h.2 }
      content s.locals
    RM.modify fun s => { s with stack := s.stack.tail }
    pure v

/-- render/mod.rs:28 `HELPER_MISSING`. -/
def nmHelperMissing : Str := c!"helperMissing"
/-- render/mod.rs:29 `BLOCK_HELPER_MISSING`. -/
def nmBlockHelperMissing : Str := c!"blockHelperMissing"
/-- render/mod.rs:30 `HELPER_LINK`. -/
def nmLink : Str := c!"link"
/-- render/mod.rs:27 `PARTIAL_BLOCK`. -/
def nmPartialBlock : Str := c!"@partial-block"

/-- render/mod.rs:711-763 `call` (and 694-708 `resolve`). -/
def callF [Host] (S : Sem) (E : Env) (c : Call) : RM (Option Value) :=
  match c.target with
  | .path p =>
      if p.explicit then lookupM E p
      else if p.isSimple then do
        let name ← RM.orPanic p.asStr
        let s ← RM.get
        if hasHelper E s name then invoke S E name .name c none none none
        else do
          match (← lookupM E p) with
          | some v => pure (some v)
          | none =>
              match E.reg.helperMissing with
              | some h => invoke S E nmHelperMissing (.handler h) c none none none
              | none => if E.reg.strict then RM.fail (.variableNotFound name E.name) else pure none
      else do
        match (← lookupM E p) with
        | some v => pure (some v)
        | none =>
            if E.reg.strict then do
              let txt ← RM.orPanic p.asStr
              RM.fail (.variableNotFound txt E.name)
            else pure none
  | .subExpr sub => S.call E sub

/-- render/mod.rs:774-795 `get_partial_name`. -/
def partialName [Host] (S : Sem) (E : Env) (c : Call) : RM Str :=
  match c.target with
  | .path p => do
      let txt ← RM.orPanic p.asStr
      if txt = nmPartialBlock then pure nmPartialBlock
      else if p.isSimple then pure txt
      else RM.fail (.partialIdentifier txt)
  | .subExpr sub => do
      let v ← S.statement E sub
      pure (stringify (v.getD .null))

/-- render/mod.rs:815-825: the node of a partial; a registered template also sets the
current name. -/
def findPartial (E : Env) (name : Str) : RM Node := do
  let s ← RM.get
  match assoc name s.partials with
  | some n => pure n
  | none =>
      match assoc name E.reg.templates with
      | some t => do
          RM.modify fun s => { s with curPartial := t.fileName :: s.curPartial }
          pure t.node
      | none => RM.fail (.partialNotFound name)

/-- render/mod.rs:827-839: the scope of a partial. -/
def partialScope (S : Sem) (E : Env) (c : Call) : RM Scope := do
  let h ← hashLoop S E c.params [] []
  if c.args.isEmpty then pure (Scope.ofHash h.1)
  else do
    let a ← argumentsLoop S E 0 c.args h.2
    pure (match a.1 with
      | ctx :: _ => Scope.ofContext ctx h.1
      | [] => Scope.ofHash h.1)

/-- render/mod.rs:811-813: remember the block of a block partial. -/
def withBlock (pb : Option Node) (ps : List (Str × Node)) : List (Str × Node) :=
  match pb with
  | some n => assocInsert nmPartialBlock n ps
  | none => ps

/-- render/mod.rs:797-852 `render_partial`. -/
def renderPartial [Host] (S : Sem) (E : Env) (c : Call) (partialBlock : Option Node) : RM Unit := do
  let name ← partialName S E c
  let s ← RM.get
  if s.stack.contains (.part name) then RM.fail (.partialCycle name)
  else traced (.part name) do
    RM.modify fun s => { s with
      stack := .part name :: s.stack
      partials := withBlock partialBlock s.partials }
    let node ← findPartial E name
    let scope ← partialScope S E c
    RM.modify fun s => { s with scopes := scope :: s.scopes }
    let s ← RM.get
    runEvents (fun ev => S.renderNode E ev.node ev.trim) node.children none s.hint
    RM.modify fun s => { s with
      scopes := s.scopes.tail, curPartial := s.curPartial.tail, stack := s.stack.tail }

/-- render/mod.rs:765-772 `statement`. -/
def statementF [Host] (S : Sem) (E : Env) (c : Call) : RM (Option Value) :=
  if c.isPartial then do
    renderPartial S E c none
    pure none
  else S.call E c

/-- Wrap the error of `self.template(node)?` as `RenderError::Helper(HelperError::Render)`. -/
def templateQ (S : Sem) (E : Env) (n : Node) : RM Unit :=
  RM.catchErr (template S E n) fun r =>
    match r with
    | .ok _ => pure ()
    | .error e => RM.fail (.helper (.render e))

/-- render/mod.rs:854-915 `block_helper_missing`; `p` is the call's target. -/
def blockHelperMissing [Host] (S : Sem) (E : Env) (node : Node) (c : Call) (p : Path)
    (text : Option Str) (raw : Bool) : RM Unit :=
  if raw then
    match text with
    | some t => do let _ ← writeStr E t false; pure ()
    | none => pure ()
  else do
    match (← lookupM E p) with
    | some v =>
        match E.reg.blockHelperMissing with
        | some h => do
            let name ← RM.orPanic p.asStr
            let _ ← invoke S E nmBlockHelperMissing (.handler h) c (some node) none (some (name, v))
            pure ()
        | none => templateQ S E node
    | none =>
        match E.reg.helperMissing with
        | some h => do
            let _ ← invoke S E nmHelperMissing (.handler h) c none none none
            pure ()
        | none =>
            if E.reg.strict then do
              let name ← RM.orPanic p.asStr
              RM.fail (.helperNotFound name)
            else pure ()

/-- render/mod.rs:932-966: the text of a raw block, trimmed as its tags ask, and the
hint of its close tag. -/
def rawText (b : Block) : Option (Str × TrimHint) := do
  let text ← match b.nodes with
    | [] => some []
    | n :: _ => n.asStr
  let hint ← b.trimClose
  let trim ← (Node.block b).trim
  let text := if trim.after then trimStart text else text
  let text := if hint.before then trimEnd text else text
  some (text, hint)

/-- render/mod.rs:932-966: the text of a raw block; its close tag's hint is remembered. -/
def blockText (b : Block) : RM (Option Str) :=
  if b.raw then do
    let t ← RM.orPanic (rawText b)
    RM.modify fun s => { s with endTagHint := some t.2 }
    pure (some t.1)
  else pure none

/-- render/mod.rs:917-995 `block`. -/
def blockF [Host] (S : Sem) (E : Env) (b : Block) : RM Unit :=
  let node := Node.block b
  if b.call.isPartial then renderPartial S E b.call (some node)
  else
    match b.call.target with
    | .path p =>
        if p.isSimple then do
          let text ← blockText b
          let name ← RM.orPanic p.asStr
          let s ← RM.get
          if hasHelper E s name then do
            let _ ← invoke S E name .name b.call (some node) text none
            pure ()
          else blockHelperMissing S E node b.call p text b.raw
        else do
          let txt ← RM.orPanic p.asStr
          RM.fail (.blockIdentifier txt)
    | .subExpr _ => RM.fail .blockTargetSubExpr

/-- render/mod.rs:998-1040 `link`: the call built for the link handler. -/
def linkCall (l : Link) : Option Call := do
  let href ← l.hrefStr
  let label ← l.labelStr
  let title ← l.titleStr
  some ((((Call.new l.src ⟨0, 0⟩ ⟨0, 0⟩).addArg (.json l.src (.str href) l.hrefSpan l.line)).addArg
    (.json l.src (.str label) l.labelSpan l.line)).addArg (.json l.src (.str title) l.titleSpan l.line))

/-- render/mod.rs:1056-1091: the part of `render_node` that depends on the kind of
node. -/
def renderKind [Host] (S : Sem) (E : Env) (node : Node) : RM Unit :=
  match node with
  | .text t => do
      let txt ← RM.orPanic t.asStr
      let _ ← writeStr E txt false
      pure ()
  | .rawStatement t => do
      let txt ← RM.orPanic t.asStr
      let raw ← RM.orPanic (slice txt 1 (blen txt))
      let _ ← writeStr E raw false
      pure ()
  | .link l => do
      let esc ← RM.orPanic l.isEscaped
      if esc then do
        let txt ← RM.orPanic l.afterEscape
        let _ ← writeStr E txt false
        pure ()
      else
        match E.reg.link with
        | some h => do
            let c ← RM.orPanic (linkCall l)
            let _ ← invoke S E nmLink (.handler h) c none none none
            pure ()
        | none => do
            let txt ← RM.orPanic l.asStr
            let _ ← writeStr E txt false
            pure ()
  | .rawComment _ => pure ()
  | .comment _ => pure ()
  | .document _ _ => pure ()
  | .statement c => do
      match (← S.statement E c) with
      | some v => do
          let esc ← RM.orPanic c.isEscaped
          let _ ← writeStr E (stringify v) esc
          pure ()
      | none => pure ()
  | .block b => blockF S E b

/-- render/mod.rs:1042-1055, 1093: `render_node`. -/
def renderNodeF [Host] (S : Sem) (E : Env) (node : Node) (trim : TrimState) : RM Unit := do
  let h ← RM.orPanic node.trim
  RM.modify fun s => { s with
    trim := match s.endTagHint with
      | some e => if e.after then { trim with start := true } else trim
      | none => trim
    hint := some h
    endTagHint := none }
  renderKind S E node

/-- The renderer with recursion bounded by `n`; Rust's recursion is the limit (the
result no longer changes once it is not `fuel`; see `Verif.Props.Termination`). -/
def sem [Host] : Nat → Sem
  | 0 => ⟨fun _ _ _ => RM.outOfFuel, fun _ _ => RM.outOfFuel, fun _ _ => RM.outOfFuel⟩
  | n + 1 => ⟨renderNodeF (sem n), statementF (sem n), callF (sem n)⟩

end Bracket
