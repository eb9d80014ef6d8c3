import Verif.Model.Json
import Verif.Model.Lexer

/-! Model of `src/parser/ast.rs` and `src/trim.rs`: the syntax tree.

Every node keeps the template source and byte spans into it, exactly as in Rust;
`as_str` and the trim tests slice the source lazily and can therefore panic
(`none`). -/

namespace Bracket

/-- ast.rs:210-214 `Text`. -/
structure Text where
  src : Str
  span : Span
  line : Span
deriving DecidableEq, Repr

/-- ast.rs:237-240 `Text::as_str`. -/
def Text.asStr (t : Text) : Option Str := slice t.src t.span.start t.span.stop

/-- ast.rs:266-271 `TextBlock`. -/
structure TextBlock where
  src : Str
  text : Text
  opn : Span
  clo : Span
deriving DecidableEq, Repr

/-- ast.rs:290-293 `TextBlock::as_str`. -/
def TextBlock.asStr (t : TextBlock) : Option Str := slice t.src t.opn.start t.clo.stop

/-- string.rs:7-18 / ast.rs:336-343 `RawLiteralType`, `RawIdType`. -/
inductive LitType where
  | single | double | array
deriving DecidableEq, Repr

/-- ast.rs:347-362 `ComponentType`. -/
inductive CompKind where
  | parent | thisKeyword | thisDotSlash | identifier | localIdentifier
  | rawIdentifier (t : LitType) | delimiter
deriving DecidableEq, Repr

/-- ast.rs:366-371 `Component`. -/
structure Component where
  src : Str
  kind : CompKind
  span : Span
  value : Option Str
deriving DecidableEq, Repr

/-- ast.rs:454-457 `Component::as_str`. -/
def Component.asStr (c : Component) : Option Str := slice c.src c.span.start c.span.stop

/-- ast.rs:446-451 `Component::as_value`. -/
def Component.asValue (c : Component) : Option Str :=
  match c.value with
  | some v => some v
  | none => c.asStr

/-- ast.rs:410-412 `is_local`. -/
def Component.isLocal (c : Component) : Bool := c.kind == .localIdentifier
/-- ast.rs:431-433 `is_explicit_dot_slash`. -/
def Component.isDotSlash (c : Component) : Bool := c.kind == .thisDotSlash
/-- ast.rs:421-424 `is_explicit`. -/
def Component.isExplicit (c : Component) : Bool := c.kind == .thisKeyword || c.isDotSlash

/-- ast.rs:482-491 `Path`.  `parents` is a `u8`: always below 256 here. -/
structure Path where
  src : Str
  components : List Component
  parents : Nat
  explicit : Bool
  root : Bool
  span : Span
  line : Span
  absolute : Bool
deriving DecidableEq, Repr

/-- `path.span_mut().end = stop`. -/
def Path.extend (p : Path) (stop : Nat) : Path := { p with span := ⟨p.span.start, stop⟩ }

/-- ast.rs:495-512 `Path::new`. -/
def Path.new (src : Str) (span line : Span) : Path :=
  { src, components := [], parents := 0, explicit := false, root := false, span, line,
    absolute := false }

/-- ast.rs:594-597 `Path::as_str`. -/
def Path.asStr (p : Path) : Option Str := slice p.src p.span.start p.span.stop

/-- ast.rs:536-538 `add_component`. -/
def Path.add (p : Path) (c : Component) : Path := { p with components := p.components ++ [c] }

/-- ast.rs:581-584 `is_local`. -/
def Path.isLocal (p : Path) : Bool :=
  match p.components with
  | [] => false
  | c :: _ => c.isLocal

/-- ast.rs:587-591 `is_simple`. -/
def Path.isSimple (p : Path) : Bool :=
  match p.components with
  | [c] => c.kind == .identifier
  | _ => false

mutual
/-- ast.rs:635-651 `ParameterValue`. -/
inductive ParamValue where
  | path (p : Path)
  | json (src : Str) (value : Value) (span line : Span)
  | subExpr (c : Call)
/-- ast.rs:714-719 `CallTarget`. -/
inductive CallTarget where
  | path (p : Path)
  | subExpr (c : Call)
/-- ast.rs:794-805 `Call`.  `parameters` is a `HashMap`: modelled as an association
list in insertion order with unique keys (Rust's iteration order is unspecified;
see DESIGN.md). -/
inductive Call where
  | mk (src : Str) (isPartial conditional : Bool) (opn : Span) (clo : Option Span)
      (target : CallTarget) (args : List ParamValue) (params : List (Str × ParamValue))
      (line : Span)
end

namespace Call
def src : Call → Str | mk s .. => s
/-- ast.rs:877-879 `is_partial`. -/
def isPartial : Call → Bool | mk _ p .. => p
/-- ast.rs:887-889 `is_conditional`. -/
def conditional : Call → Bool | mk _ _ c .. => c
def opn : Call → Span | mk _ _ _ o .. => o
def clo : Call → Option Span | mk _ _ _ _ c .. => c
def target : Call → CallTarget | mk _ _ _ _ _ t .. => t
def args : Call → List ParamValue | mk _ _ _ _ _ _ a .. => a
def params : Call → List (Str × ParamValue) | mk _ _ _ _ _ _ _ p _ => p
def line : Call → Span | mk _ _ _ _ _ _ _ _ l => l

/-- ast.rs:812-828 `Call::new`. -/
def new (src : Str) (opn line : Span) : Call :=
  mk src false false opn none (.path (Path.new src ⟨0, 0⟩ ⟨0, 0⟩)) [] [] line

/-- `Call::default()` (ast.rs:793, 780-784): empty source, empty target. -/
def default : Call :=
  mk [] false false ⟨0, 0⟩ none (.path (Path.new [] ⟨0, 0⟩ ⟨0, 0⟩)) [] [] ⟨0, 0⟩

/-- ast.rs:846-848 `set_target`. -/
def setTarget (t : CallTarget) : Call → Call | mk s p c o cl _ a ps l => mk s p c o cl t a ps l
/-- ast.rs:851-853 `add_argument`. -/
def addArg (x : ParamValue) : Call → Call
  | mk s p c o cl t a ps l => mk s p c o cl t (a ++ [x]) ps l
/-- ast.rs:861-867 `add_parameter` (`HashMap::insert`). -/
def addParam (k : Str) (x : ParamValue) : Call → Call
  | mk s p c o cl t a ps l => mk s p c o cl t a (assocInsert k x ps) l
/-- ast.rs:882-884 `set_partial(true)`. -/
def setPartial : Call → Call | mk s _ c o cl t a ps l => mk s true c o cl t a ps l
/-- ast.rs:892-894 `set_conditional(true)`. -/
def setConditional : Call → Call | mk s p _ o cl t a ps l => mk s p true o cl t a ps l
/-- ast.rs:958-960 `exit`. -/
def exit (sp : Span) : Call → Call | mk s p c o _ t a ps l => mk s p c o (some sp) t a ps l
/-- ast.rs:35-37 `lines_end`. -/
def linesEnd (n : Nat) : Call → Call
  | mk s p c o cl t a ps l => mk s p c o cl t a ps ⟨l.start, n + 1⟩

/-- ast.rs:935-937 `open`. -/
def openStr (c : Call) : Option Str := slice c.src c.opn.start c.opn.stop
/-- ast.rs:939-944 `close`. -/
def closeStr (c : Call) : Option Str :=
  match c.clo with
  | some s => slice c.src s.start s.stop
  | none => some []
/-- ast.rs:912-917 `as_str`. -/
def asStr (c : Call) : Option Str :=
  match c.clo with
  | some s => slice c.src c.opn.start s.stop
  | none => slice c.src c.opn.start c.opn.stop
/-- ast.rs:65-71 `Element::span`. -/
def span (c : Call) : Span :=
  match c.clo with
  | some s => ⟨c.opn.start, s.stop⟩
  | none => c.opn
/-- ast.rs:897-900 `is_escaped`. -/
def isEscaped (c : Call) : Option Bool := c.openStr.map fun o => !(startsWith o c!"{{{")
/-- ast.rs:902-904 `trim_before`. -/
def trimBefore (c : Call) : Option Bool := c.openStr.map fun o => endsWith o ['~']
/-- ast.rs:906-908 `trim_after`. -/
def trimAfter (c : Call) : Option Bool := c.closeStr.map fun o => startsWith o ['~']
end Call

namespace CallTarget
/-- ast.rs:743-748 `CallTarget::as_str`. -/
def asStr : CallTarget → Option Str
  | .path p => p.asStr
  | .subExpr c => c.asStr
/-- ast.rs:734-739 `CallTarget::span`. -/
def span : CallTarget → Span
  | .path p => p.span
  | .subExpr c => c.opn
/-- ast.rs:723-728 `is_empty`: the innermost path has no component. -/
def isEmpty : CallTarget → Bool
  | .path p => p.components.isEmpty
  | .subExpr (.mk _ _ _ _ _ t _ _ _) => isEmpty t
end CallTarget

/-- ast.rs:831-833 `Call::is_empty`. -/
def Call.isEmpty (c : Call) : Bool := c.target.isEmpty

/-- ast.rs:666-675 `ParameterValue::as_str`. -/
def ParamValue.asStr : ParamValue → Option Str
  | .path p => p.asStr
  | .json src _ sp _ => slice src sp.start sp.stop
  | .subExpr c => c.asStr

/-- ast.rs:1283-1296 `Link`. -/
structure Link where
  src : Str
  opn : Span
  clo : Option Span
  line : Span
  hrefSpan : Span
  labelSpan : Span
  titleSpan : Span
  href : Option Str
  label : Option Str
  title : Option Str
deriving DecidableEq, Repr

namespace Link
/-- ast.rs:1300-1317 `Link::new`. -/
def new (src : Str) (opn line : Span) : Link :=
  { src, opn, clo := none, line, hrefSpan := ⟨opn.stop, opn.stop⟩,
    labelSpan := ⟨opn.stop, opn.stop⟩, titleSpan := ⟨opn.stop, opn.stop⟩,
    href := none, label := none, title := none }
/-- Owned value if present, otherwise the source slice. -/
def field (src : Str) (owned : Option Str) (sp : Span) : Option Str :=
  match owned with
  | some v => some v
  | none => slice src sp.start sp.stop
/-- ast.rs:1322-1327 `href`. -/
def hrefStr (l : Link) : Option Str := field l.src l.href l.hrefSpan
/-- ast.rs:1332-1340 `label`. -/
def labelStr (l : Link) : Option Str := field l.src l.label l.labelSpan
/-- ast.rs:1345-1353 `title`. -/
def titleStr (l : Link) : Option Str := field l.src l.title l.titleSpan
/-- End of the close tag; for an unclosed link `self.open.len()` (ast.rs:1426, 1433). -/
def endPos (l : Link) : Nat :=
  match l.clo with
  | some c => c.stop
  | none => l.opn.stop - l.opn.start
/-- ast.rs:1432-1435 `as_str`. -/
def asStr (l : Link) : Option Str := slice l.src l.opn.start l.endPos
/-- ast.rs:1425-1428 `after_escape`. -/
def afterEscape (l : Link) : Option Str := slice l.src (l.opn.start + 1) l.endPos
/-- ast.rs:1420-1422 `is_escaped`. -/
def isEscaped (l : Link) : Option Bool :=
  (slice l.src l.opn.start l.opn.stop).map fun o => startsWith o ['\\']
end Link

mutual
/-- ast.rs:79-101 `Node` (`Document` inlined from ast.rs:988). -/
inductive Node where
  | document (src : Str) (nodes : List Node)
  | text (t : Text)
  | statement (c : Call)
  | block (b : Block)
  | rawStatement (t : TextBlock)
  | rawComment (t : TextBlock)
  | comment (t : TextBlock)
  | link (l : Link)
/-- ast.rs:1031-1040 `Block`. -/
inductive Block where
  | mk (src : Str) (nodes : List Node) (raw : Bool) (opn : Span) (clo : Option Span)
      (call : Call) (conditionals : List Node) (line : Span)
end

/-- trim.rs:36-43 `TrimHint`. -/
structure TrimHint where
  before : Bool
  after : Bool
deriving DecidableEq, Repr

/-- trim.rs:6-14 `TrimState`. -/
structure TrimState where
  start : Bool
  stop : Bool
deriving DecidableEq, Repr

namespace Block
def src : Block → Str | mk s .. => s
def nodes : Block → List Node | mk _ n .. => n
/-- ast.rs:1091-1093 `is_raw`. -/
def raw : Block → Bool | mk _ _ r .. => r
def opn : Block → Span | mk _ _ _ o .. => o
def clo : Block → Option Span | mk _ _ _ _ c .. => c
def call : Block → Call | mk _ _ _ _ _ c .. => c
/-- ast.rs:1102-1104 `conditions`. -/
def conditionals : Block → List Node | mk _ _ _ _ _ _ c _ => c
def line : Block → Span | mk _ _ _ _ _ _ _ l => l

/-- ast.rs:1044-1060 `Block::new`. -/
def new (src : Str) (opn : Span) (raw : Bool) (line : Span) : Block :=
  mk src [] raw opn none Call.default [] line
/-- ast.rs:1068-1070 `set_call`. -/
def setCall (c : Call) : Block → Block | mk s n r o cl _ cs l => mk s n r o cl c cs l
/-- Set the close span only. -/
def setClose (sp : Span) : Block → Block | mk s n r o _ c cs l => mk s n r o (some sp) c cs l
/-- ast.rs:35-37 `lines_end`. -/
def linesEnd (k : Nat) : Block → Block
  | mk s n r o cl c cs l => mk s n r o cl c cs ⟨l.start, k + 1⟩
/-- Push to the block's own node list. -/
def pushOwn (x : Node) : Block → Block | mk s n r o cl c cs l => mk s (n ++ [x]) r o cl c cs l

/-- Apply `f` to the last conditional when it is a block (`last_mut().unwrap()`). -/
def mapLast (f : Block → Block) : List Node → List Node
  | [] => []
  | [.block b] => [.block (f b)]
  | [x] => [x]
  | x :: y :: r => x :: mapLast f (y :: r)

/-- ast.rs:1108-1121 `push`. -/
def push (x : Node) : Block → Block
  | mk s n r o cl c cs l =>
      match cs with
      | [] => mk s (n ++ [x]) r o cl c [] l
      | y :: ys => mk s n r o cl c (mapLast (pushOwn x) (y :: ys)) l

/-- ast.rs:1137-1150 `close_condition`. -/
def closeCondition (sp : Span) : Block → Block
  | mk s n r o cl c cs l =>
      if sp.start > 0 then mk s n r o cl c (mapLast (setClose ⟨sp.start - 1, sp.start⟩) cs) l
      else mk s n r o cl c cs l

/-- ast.rs:1096-1099 `add_condition`. -/
def addCondition (b : Block) (cond : Block) : Block :=
  match closeCondition cond.call.opn b with
  | mk s n r o cl c cs l => mk s n r o cl c (cs ++ [.block cond]) l

/-- ast.rs:1241-1257 `exit`. -/
def exit (sp : Span) : Block → Block
  | mk s n r o _ c cs l => mk s n r o (some sp) c (mapLast (setClose sp) cs) l

/-- ast.rs:1076-1088 `name`; the outer `Option` is the panic of the slice. -/
def name (b : Block) : Option (Option Str) :=
  match b.call.target with
  | .path p =>
      match p.components with
      | [c] => if c.kind = .identifier then c.asStr.map some else some none
      | _ => some none
  | .subExpr _ => some none

/-- ast.rs:1217-1219 `open`. -/
def openStr (b : Block) : Option Str := slice b.src b.opn.start b.opn.stop
/-- ast.rs:1221-1227 `close`. -/
def closeStr (b : Block) : Option Str :=
  match b.clo with
  | some s => slice b.src s.start s.stop
  | none => some []
/-- ast.rs:1196-1199 `as_str`. -/
def asStr (b : Block) : Option Str :=
  match b.clo with
  | some s => slice b.src b.opn.start s.stop
  | none => slice b.src b.opn.start (blen b.src)

/-- `s.len() > n && "~" == &s[n..n+1]`. -/
def tildeAt (s : Str) (n : Nat) : Option Bool :=
  if blen s > n then (slice s n (n + 1)).map fun x => x == ['~'] else some false

/-- ast.rs:1152-1159 `trim_before`. -/
def trimBefore (b : Block) : Option Bool :=
  b.openStr.bind fun o => tildeAt o (if b.raw then 4 else 2)
/-- ast.rs:1161-1163 `trim_after`. -/
def trimAfter (b : Block) : Option Bool := b.call.trimAfter
/-- ast.rs:1165-1172 `trim_before_close`. -/
def trimBeforeClose (b : Block) : Option Bool :=
  b.closeStr.bind fun c => tildeAt c (if b.raw then 4 else 2)
/-- ast.rs:1174-1192 `trim_after_close`. -/
def trimAfterClose (b : Block) : Option Bool :=
  b.closeStr.bind fun c =>
    let k := if b.raw then 5 else 3
    if blen c > k then tildeAt c (blen c - k) else some false
/-- ast.rs:1130-1135 `trim_close`. -/
def trimClose (b : Block) : Option TrimHint :=
  b.trimBeforeClose.bind fun x => b.trimAfterClose.map fun y => ⟨x, y⟩
end Block

namespace Node
/-- ast.rs:118-129 `trim_before`. -/
def trimBefore : Node → Option Bool
  | .statement c => c.trimBefore
  | .block b => b.trimBefore
  | _ => some false
/-- ast.rs:131-142 `trim_after`. -/
def trimAfter : Node → Option Bool
  | .statement c => c.trimAfter
  | .block b => b.trimAfter
  | _ => some false
/-- ast.rs:111-116 `trim`. -/
def trim (n : Node) : Option TrimHint :=
  n.trimBefore.bind fun x => n.trimAfter.map fun y => ⟨x, y⟩
/-- ast.rs:150-162 `as_str`. -/
def asStr : Node → Option Str
  | .document src _ => some src
  | .text t => t.asStr
  | .statement c => c.asStr
  | .block b => b.asStr
  | .link l => l.asStr
  | .rawStatement t => t.asStr
  | .rawComment t => t.asStr
  | .comment t => t.asStr
/-- iter.rs:65-93 `BranchIter`: the nodes iterated for a document or block. -/
def children : Node → List Node
  | .document _ ns => ns
  | .block b => b.nodes
  | _ => []
end Node

end Bracket
