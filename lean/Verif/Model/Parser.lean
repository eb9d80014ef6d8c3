import Verif.Model.Ast
import Verif.Model.ErrorInfo

/-! Model of `src/parser/{mod,block,call,path,string,link}.rs`. -/

namespace Bracket

/-! ### The parser monad -/

/-- Outcome of a parser step.  `panic` is a Rust panic; `fuel` never occurs for
the fuel supplied by `compile`/`lint` (proved in `Verif.Props`). -/
inductive R (α : Type) where
  | ok (a : α)
  | err (e : SyntaxErr)
  | panic
  | fuel

/-- Parser state: the tokens not yet consumed from the lexer, `ParseState`'s
`line` and `byte` (mod.rs:64-69), and the parser's block `stack` and pushed-back
`next_token` (mod.rs:126-133). -/
structure PS where
  toks : List Token
  line : Nat
  byte : Nat
  stack : List (Str × Block)
  next : Option Token

/-- The immutable part: source and file name. -/
structure PEnv where
  src : Str
  fileName : Str

/-- State is kept on errors: lint mode continues from it. -/
def P (α : Type) := PS → R α × PS

instance : Monad P where
  pure a := fun s => (.ok a, s)
  bind m f := fun s =>
    match m s with
    | (.ok a, s') => f a s'
    | (.err e, s') => (.err e, s')
    | (.panic, s') => (.panic, s')
    | (.fuel, s') => (.fuel, s')

namespace P
def panic {α} : P α := fun s => (.panic, s)
def fuel {α} : P α := fun s => (.fuel, s)
def get : P PS := fun s => (.ok s, s)
def modify (f : PS → PS) : P Unit := fun s => (.ok (), f s)
/-- `lexer.next()`. -/
def lexNext : P (Option Token) := fun s =>
  match s.toks with
  | [] => (.ok none, s)
  | t :: ts => (.ok (some t), { s with toks := ts })
/-- `*state.byte_mut() = n`. -/
def setByte (n : Nat) : P Unit := fun s => (.ok (), { s with byte := n })
/-- `*state.line_mut() += 1`. -/
def incLine : P Unit := fun s => (.ok (), { s with line := s.line + 1 })
/-- `*state.line_mut() += 1` when the token kind is a parameter newline. -/
def incLineIf (b : Bool) : P Unit := fun s => (.ok (), if b then { s with line := s.line + 1 } else s)
/-- `state.line()`. -/
def line : P Nat := fun s => (.ok s.line, s)
/-- mod.rs:103-106 `line_range`. -/
def lineRange : P Span := fun s => (.ok ⟨s.line, s.line + 1⟩, s)
/-- Lift a partial operation whose failure is a panic. -/
def orPanic {α} (o : Option α) : P α := fun s =>
  match o with
  | some a => (.ok a, s)
  | none => (.panic, s)
/-- `return Err(SyntaxError::kind(ErrorInfo::from((source, state, notes)).into()))`. -/
def failWith {α} [Host] (E : PEnv) (kind : SynKind) (notes : List Str) : P α := fun s =>
  match errorInfo E.src E.fileName s.line s.byte notes with
  | some i => (.err ⟨kind, i⟩, s)
  | none => (.panic, s)
def fail {α} [Host] (E : PEnv) (kind : SynKind) : P α := failWith E kind []
end P

open P

/-! ### string.rs -/

/-- Rust `str::replace` of the two-character pattern `ab` by `r` (left to right,
non-overlapping). -/
def replace2 (a b : Char) (r : Str) : Str → Str
  | [] => []
  | [x] => [x]
  | x :: y :: rest =>
      if x = a ∧ y = b then r ++ replace2 a b r rest else x :: replace2 a b r (y :: rest)

/-- string.rs:21-28 `RawLiteral`. -/
structure RawLit where
  newline : Bool
  delimiter : Bool
  type : LitType

/-- string.rs:31-33 `has_escape_sequences`. -/
def RawLit.hasEscapes (r : RawLit) : Bool := r.newline || r.delimiter

/-- The closing delimiter of a literal. -/
def LitType.delim : LitType → Char
  | .double => '"'
  | .single => '\''
  | .array => ']'

/-- string.rs:35-53 `into_owned`. -/
def RawLit.intoOwned (r : RawLit) (v : Str) : Str :=
  let v := if r.newline then replace2 '\\' 'n' ['\n'] v else v
  if r.delimiter then replace2 '\\' r.type.delim [r.type.delim] v else v

/-- The token of a literal's own lexer mode, if it is one. -/
def LitType.tok (ty : LitType) (k : Kind) : Option StrTok :=
  match ty, k with
  | .double, .dquote t => some t
  | .single, .squote t => some t
  | .array, .array t => some t
  | _, _ => none

/-- string.rs:96-100, 124-128, 149-153. -/
def LitType.badToken : LitType → SynKind
  | .double => .tokenDoubleQuoteLiteral
  | .single => .tokenSingleQuoteLiteral
  | .array => .tokenArrayLiteral

/-- string.rs:76-157, the loop of `parse`; recursion on the remaining tokens. -/
def strLoop [Host] (E : PEnv) (strStart : Nat) :
    List Token → (strEnd : Nat) → RawLit → P (Span × RawLit)
  | [], _, _ => do modify (fun s => { s with toks := [] }); fail E .tokenRawLiteral
  | t :: ts, strEnd, fl => do
      modify (fun s => { s with toks := ts })
      match fl.type.tok t.kind with
      | none => fail E fl.type.badToken
      | some .newline => fail E .literalNewline
      | some .escapedNewline =>
          match fl.type with
          | .array => do  -- the `Array` lexer has no such token; falls in the `_` arm
              setByte (t.span.stop - 1)
              strLoop E strStart ts t.span.stop fl
          | _ => strLoop E strStart ts strEnd { fl with newline := true }
      | some .escaped => strLoop E strStart ts strEnd { fl with delimiter := true }
      | some .fin => pure (⟨strStart, strEnd⟩, fl)
      | some .text => do setByte (t.span.stop - 1); strLoop E strStart ts t.span.stop fl
      | some .error => do setByte (t.span.stop - 1); strLoop E strStart ts t.span.stop fl

/-- string.rs:59-162 `parse`. -/
def strParse [Host] (E : PEnv) (span : Span) (ty : LitType) : P (Span × RawLit) := do
  let s ← get
  strLoop E span.stop s.toks span.stop ⟨false, false, ty⟩

/-- string.rs:165-179 `literal`. -/
def strLiteral [Host] (E : PEnv) (span : Span) (ty : LitType) : P (Value × Span) := do
  let (sp, fl) ← strParse E span ty
  let raw ← orPanic (slice E.src sp.start sp.stop)
  pure (.str (if fl.hasEscapes then fl.intoOwned raw else raw), sp)

/-! ### path.rs -/

/-- path.rs:14-27 `is_path_component`. -/
def isPathComponent : ParamTok → Bool
  | .explicitThisKeyword | .explicitThisDotSlash | .parentRef | .identifier | .localIdentifier
  | .pathDelimiter | .startArray | .singleQuoteString | .doubleQuoteString => true
  | _ => false

/-- path.rs:48-67: the component kind of a token. -/
def compKind : ParamTok → Option CompKind
  | .explicitThisKeyword => some .thisKeyword
  | .explicitThisDotSlash => some .thisDotSlash
  | .parentRef => some .parent
  | .identifier => some .identifier
  | .localIdentifier => some .localIdentifier
  | .pathDelimiter => some .delimiter
  | .singleQuoteString => some (.rawIdentifier .single)
  | .doubleQuoteString => some (.rawIdentifier .double)
  | .startArray => some (.rawIdentifier .array)
  | _ => none

/-- path.rs:36-46: the owned value of a quoted component with escapes. -/
def compValue (E : PEnv) (span : Span) (raw : Option RawLit) : P (Option Str) :=
  match raw with
  | some r =>
      if r.hasEscapes then do
        let v ← orPanic (slice E.src span.start span.stop)
        pure (some (r.intoOwned v))
      else pure none
  | none => pure none

/-- path.rs:29-70 `to_component`. -/
def toComponent [Host] (E : PEnv) (lex : ParamTok) (span : Span) (raw : Option RawLit) :
    P Component := do
  let value ← compValue E span raw
  match compKind lex with
  | some k => pure { src := E.src, kind := k, span, value }
  | none => fail E .componentType

/-- path.rs:72-90 `parents`, after `set_parents(1)`: count `../` tokens.  The counter
is a `u8`: `+ 1` at 255 panics with overflow checks and wraps to 0 without. -/
def parentsLoop [Host] : List Token → Path → P (Path × Option Token)
  | [], p => do modify (fun s => { s with toks := [] }); pure (p, none)
  | t :: ts, p => do
      modify (fun s => { s with toks := ts })
      if t.kind = .params .parentRef then
        if p.parents = 255 ∧ Host.overflowChecks = true then P.panic
        else parentsLoop ts { p with parents := (p.parents + 1) % 256 }
      else pure (p, some t)

/-- The literal type of a quoted path component token. -/
def litOf : ParamTok → Option LitType
  | .singleQuoteString => some .single
  | .doubleQuoteString => some .double
  | .startArray => some .array
  | _ => none

/-- path.rs:131-173: the span of a component token, parsing a quoted one. -/
def compSpan [Host] (E : PEnv) (lex : ParamTok) (span : Span) : P (Span × Option RawLit) :=
  match litOf lex with
  | some ty => do
      let r ← strParse E span ty
      pure (r.1, some r.2)
  | none => pure (span, none)

/-- path.rs:92-225 `components`. -/
def componentsLoop [Host] (E : PEnv) : Nat → Path → Bool → P (Path × Option Token)
  | 0, _, _ => P.fuel
  | n + 1, path, wantsDelim => do
      match (← lexNext) with
      | none => pure (path, none)
      | some tok =>
        if tok.isNewline then do
          incLine
          let nx ← lexNext
          pure (path, nx)
        else
          match tok.kind with
          | .params lex => do
              setByte tok.span.start
              if lex = .fin then pure (path, some tok)
              else if isPathComponent lex then do
                let path := path.extend tok.span.stop
                match lex with
                | .explicitThisKeyword => fail E .unexpectedPathExplicitThis
                | .explicitThisDotSlash => fail E .unexpectedPathExplicitThis
                | .parentRef => fail E .unexpectedPathParent
                | .localIdentifier => fail E .unexpectedPathLocal
                | lex => do
                  let (span, raw) ← compSpan E lex tok.span
                  if wantsDelim then
                    if lex = .pathDelimiter then componentsLoop E n path false
                    else do setByte span.start; fail E .expectedPathDelimiter
                  else
                    if lex = .pathDelimiter then do
                      setByte span.start
                      fail E .unexpectedPathDelimiter
                    else do
                      let c ← toComponent E lex span raw
                      componentsLoop E n (path.add c) true
              else pure (path, some tok)
          | _ => pure (path, some tok)

/-- path.rs:270-283: what the first component says about the path. -/
def markPath (path : Path) (c : Component) (cs : Str) : Path :=
  { path with
    root := path.root || (path.components.isEmpty && cs == c!"@root")
    explicit := path.explicit || c.isExplicit }

/-- path.rs:285-316: the checks on the first component, then the other components. -/
def pathRest [Host] (E : PEnv) (path : Path) (c : Component) : P (Option Path × Option Token) :=
  if c.isLocal && decide (path.parents > 0) then fail E .unexpectedPathParentWithLocal
  else if c.isExplicit && decide (path.parents > 0) then
    fail E .unexpectedPathParentWithExplicit
  else do
    let s ← get
    let (path, next) ← componentsLoop E (s.toks.length + 1) (path.add c) (!c.isDotSlash)
    if path.components.isEmpty then fail E .emptyPath
    else pure (some path, next)

/-- path.rs:257-321: the loop of `parse` looking for the first component.
Recursion on the remaining tokens. -/
def pathFirst [Host] (E : PEnv) : List Token → Option Token → Path → P (Option Path × Option Token)
  | _, none, _ => pure (none, none)
  | ts, some tok, path =>
      match tok.kind with
      | .params lex => do
          setByte tok.span.start
          if isPathComponent lex then do
            let c ← toComponent E lex tok.span none
            let cs ← orPanic c.asStr
            pathRest E (markPath (path.extend tok.span.stop) c cs) c
          else
            match ts with
            | [] => pure (none, none)
            | t :: ts => do
                modify (fun s => { s with toks := ts })
                pathFirst E ts (some t) path
      | _ => fail E .tokenParameterPath

/-- path.rs:227-324 `parse`. -/
def pathParse [Host] (E : PEnv) (lex : ParamTok) (span : Span) : P (Option Path × Option Token) := do
  let lr ← lineRange
  let path := Path.new E.src span lr
  let initial ← orPanic (slice E.src span.start span.stop)
  match lex with
  | .pathDelimiter =>
      if initial = ['/'] then do
        let next ← lexNext
        let s ← get
        pathFirst E s.toks next { path with absolute := true }
      else fail E .unexpectedPathDelimiter
  | .parentRef => do
      let s ← get
      let (path, next) ← parentsLoop s.toks { path with parents := 1 }
      let s ← get
      pathFirst E s.toks next path
  | lex => do
      let s ← get
      pathFirst E s.toks (some ⟨.params lex, span⟩) path

/-! ### call.rs -/

/-- Digits at the front of a string and the rest. -/
def spanDigits : Str → Str × Str
  | [] => ([], [])
  | c :: cs => if isDigit c then let (d, r) := spanDigits cs; (c :: d, r) else ([], c :: cs)

/-- `str.parse::<serde_json::Number>()` for text accepted by the lexer's number
pattern; `none` = error (a leading zero, or out of range), which call.rs:56 unwraps. -/
def parseNumber [Host] (s : Str) : Option Num :=
  let (neg, body) := match s with
    | '-' :: r => (true, r)
    | r => (false, r)
  let (ip, rest) := spanDigits body
  match ip with
  | '0' :: _ :: _ => none
  | _ =>
    match rest with
    | [] =>
        match parseDigits ip 0 with
        | none => none
        | some n =>
            if n < 2 ^ 64 then
              if neg then
                if n = 0 then some Host.negZero
                else if n ≤ 2 ^ 63 then some (.negInt n)
                else some (.float ⟨true, roundF64 n, 0⟩)
              else some (.posInt n)
            else (Host.parseFloat s).map .float
    | _ :: _ => (Host.parseFloat s).map .float

/-- call.rs:43-104 `json_literal`: the value and the updated end of its range. -/
def jsonLiteral [Host] (E : PEnv) (lex : ParamTok) (span : Span) : P (Value × Nat) :=
  match lex with
  | .nullKw => pure (.null, span.stop)
  | .trueKw => pure (.bool true, span.stop)
  | .falseKw => pure (.bool false, span.stop)
  | .number => do
      let txt ← orPanic (slice E.src span.start span.stop)
      let n ← orPanic (parseNumber txt)
      pure (.num n, span.stop)
  | .doubleQuoteString => do
      let (v, sp) ← strLiteral E span .double
      pure (v, sp.stop + 1)
  | .singleQuoteString => do
      let (v, sp) ← strLiteral E span .single
      pure (v, sp.stop + 1)
  | .startArray => do
      let (v, sp) ← strLiteral E span .array
      pure (v, sp.stop + 1)
  | _ => fail E .tokenJsonLiteral

/-- call.rs:36-39 `CallContext`. -/
inductive CallCtx where
  | call | subExpr
deriving DecidableEq, Repr

mutual
/-- call.rs:106-166 `value`. -/
def valueP [Host] (E : PEnv) : Nat → ParamTok → Span → P (ParamValue × Option Token)
  | 0, _, _ => P.fuel
  | n + 1, lex, span =>
    match lex with
    | .explicitThisKeyword | .pathDelimiter | .explicitThisDotSlash | .identifier
    | .localIdentifier | .parentRef => do
        let (path, tok) ← pathParse E lex span
        match path with
        | some p => pure (.path p, tok)
        | none => fail E .expectedPath
    | .startSubExpression => do
        let (c, tok) ← subExprP E n span
        pure (.subExpr c, tok)
    | .doubleQuoteString | .singleQuoteString | .startArray | .number | .trueKw | .falseKw
    | .nullKw => do
        let lr ← lineRange
        let (v, stop) ← jsonLiteral E lex span
        let nx ← lexNext
        pure (.json E.src v ⟨span.start, stop⟩ lr, nx)
    | _ => fail E .tokenParameter

/-- call.rs:168-246 `key_value`: the first value of a key. -/
def keyValueP [Host] (E : PEnv) : Nat → Call → Span → CallCtx → P (Call × Option Token)
  | 0, _, _, _ => P.fuel
  | n + 1, call, span, ctx => do
      let key ← orPanic (slice E.src span.start (span.stop - 1))
      match (← lexNext) with
      | none => pure (call, none)
      | some tok =>
        match tok.kind with
        | .params lex => do
            let (v, nx) ← valueP E n lex tok.span
            keyValueRest E n (call.addParam key v) nx ctx
        | _ => fail E .tokenParameter

/-- call.rs:199-245: the `while let Some(token) = next` loop of `key_value`. -/
def keyValueRest [Host] (E : PEnv) : Nat → Call → Option Token → CallCtx → P (Call × Option Token)
  | 0, _, _, _ => P.fuel
  | n + 1, call, next, ctx =>
    match next with
    | none => pure (call, none)
    | some tok =>
      match tok.kind with
      | .params lex =>
        match lex with
        | .whiteSpace => do
            let nx ← lexNext
            keyValueRest E n call nx ctx
        | .newline => do
            incLine
            let nx ← lexNext
            keyValueRest E n call nx ctx
        | .hashKey => keyValueP E n call tok.span ctx
        | .fin => pure (call.exit tok.span, none)
        | .endSubExpression =>
            if ctx = .subExpr then do
              let nx ← lexNext
              pure (call.exit tok.span, nx)
            else fail E .subExprNotOpen
        | _ => fail E .tokenHashKeyValue
      | _ => fail E .tokenParameter

/-- call.rs:248-377 `arguments`. -/
def argumentsP [Host] (E : PEnv) : Nat → Call → Option Token → CallCtx → P (Call × Option Token)
  | 0, _, _, _ => P.fuel
  | n + 1, call, next, ctx =>
    match next with
    | none => pure (call, none)
    | some tok =>
      match tok.kind with
      | .params lex =>
        match lex with
        | .whiteSpace => do
            let nx ← lexNext
            argumentsP E n call nx ctx
        | .newline => do
            incLine
            let nx ← lexNext
            argumentsP E n call nx ctx
        | .partialSign => fail E .partialPosition
        | .elseKeyword => pure (call, none)
        | .hashKey => keyValueP E n call tok.span ctx
        | .explicitThisKeyword | .pathDelimiter | .explicitThisDotSlash | .identifier
        | .localIdentifier | .startArray | .parentRef | .startSubExpression
        | .doubleQuoteString | .singleQuoteString | .number | .trueKw | .falseKw | .nullKw => do
            let (v, nx) ← valueP E n lex tok.span
            argumentsP E n (call.addArg v) nx ctx
        | .endSubExpression =>
            if ctx = .subExpr then do
              let nx ← lexNext
              pure (call.exit tok.span, nx)
            else fail E .subExprNotOpen
        | .error => fail E .tokenError
        | .fin => pure (if ctx = .subExpr then call else call.exit tok.span, none)
      | _ => fail E .tokenParameter

/-- call.rs:380-460 `target`. -/
def targetP [Host] (E : PEnv) : Nat → Call → Option Token → CallCtx → P (Call × Option Token)
  | 0, _, _, _ => P.fuel
  | n + 1, call, next, ctx =>
    match next with
    | none => pure (call, none)
    | some tok =>
      match tok.kind with
      | .params lex =>
        match lex with
        | .whiteSpace => do
            let nx ← lexNext
            targetP E n call nx ctx
        | .newline => do
            incLine
            let nx ← lexNext
            targetP E n call nx ctx
        | .elseKeyword => fail E .elseNotAllowed
        | .explicitThisKeyword | .explicitThisDotSlash | .identifier | .localIdentifier
        | .parentRef | .pathDelimiter => do
            let (path, tok) ← pathParse E lex tok.span
            match path with
            | some p => pure (call.setTarget (.path p), tok)
            | none => pure (call, tok)
        | .startSubExpression =>
            if ctx = .subExpr then fail E .subExprTargetNotAllowed
            else do
              let (c, tok) ← subExprP E n tok.span
              pure (call.setTarget (.subExpr c), tok)
        | .fin => do
            let t ← orPanic call.target.asStr
            if t.isEmpty && !call.conditional then fail E .expectedIdentifier
            else pure (if ctx = .subExpr then call else call.exit tok.span, none)
        | _ => fail E .tokenCallTarget
      | _ => fail E .tokenParameter

/-- call.rs:495-518 `sub_expr`. -/
def subExprP [Host] (E : PEnv) : Nat → Span → P (Call × Option Token)
  | 0, _ => P.fuel
  | n + 1, opn => do
      setByte opn.stop
      let lr ← lineRange
      let next ← lexNext
      let (call, next) ← targetP E n (Call.new E.src opn lr) next .subExpr
      let (call, next) ← argumentsP E n call next .subExpr
      match call.clo with
      | none => fail E .subExpressionNotTerminated
      | some _ => do
          let l ← P.line
          pure (call.linesEnd l, next)
end

/-- call.rs:463-493 `flags`; recursion on the remaining tokens. -/
def flagsLoop : List Token → Call → Option Token → P (Call × Option Token)
  | _, call, none => pure (call, none)
  | ts, call, some tok =>
      match tok.kind with
      | .params .whiteSpace =>
          match ts with
          | [] => pure (call, none)
          | t :: ts => do
              modify (fun s => { s with toks := ts })
              flagsLoop ts call (some t)
      | .params .newline =>
          match ts with
          | [] => do incLine; pure (call, none)
          | t :: ts => do
              modify (fun s => { s with toks := ts, line := s.line + 1 })
              flagsLoop ts call (some t)
      | .params .partialSign => do
          let nx ← lexNext
          pure (call.setPartial, nx)
      | .params .elseKeyword => do
          let nx ← lexNext
          pure (call.setConditional, nx)
      | _ => pure (call, some tok)

/-- Recursion bound for the mutually recursive functions of call.rs. -/
def callFuel (s : PS) : Nat := 4 * s.toks.length + 8

/-- call.rs:520-550 `parse`. -/
def callParse [Host] (E : PEnv) (opn : Span) : P Call := do
  setByte opn.stop
  let lr ← lineRange
  let next ← lexNext
  let s ← get
  let (call, next) ← flagsLoop s.toks (Call.new E.src opn lr) next
  if call.isPartial && call.conditional then fail E .mixedPartialConditional
  else do
    let s ← get
    let (call, next) ← targetP E (callFuel s) call next .call
    let s ← get
    let (call, _) ← argumentsP E (callFuel s) call next .call
    let l ← P.line
    pure (call.linesEnd l)

/-! ### link.rs -/

/-- link.rs:14-19 `EscapeFlags`. -/
structure LinkFlags where
  newline : Bool
  pipe : Bool
  bracket : Bool

/-- link.rs:21-23 `has_escape_sequences`. -/
def LinkFlags.any (f : LinkFlags) : Bool := f.newline || f.pipe || f.bracket

/-- link.rs:25-37 `into_owned`. -/
def LinkFlags.intoOwned (f : LinkFlags) (v : Str) : Str :=
  let v := if f.newline then replace2 '\\' 'n' ['\n'] v else v
  let v := if f.pipe then replace2 '\\' '|' ['|'] v else v
  if f.bracket then replace2 '\\' ']' [']'] v else v

/-- link.rs:40-43 `ValueType` together with the href phase. -/
inductive LinkPart where
  | label | title
deriving DecidableEq, Repr

/-- link.rs:47-68 `assign_if_escaped`. -/
def assignIfEscaped (E : PEnv) (l : Link) (f : LinkFlags) (sp : Span) (part : LinkPart) : P Link :=
  if f.any then
    match part with
    | .label => do
        let v ← orPanic (slice E.src l.labelSpan.start sp.start)
        pure { l with label := some (f.intoOwned v) }
    | .title => do
        let v ← orPanic (slice E.src l.titleSpan.start sp.start)
        pure { l with title := some (f.intoOwned v) }
  else pure l

/-- link.rs:71-163 `value`; recursion on the remaining tokens. -/
def linkValue [Host] (E : PEnv) : List Token → Link → LinkFlags → LinkPart → P Link
  | [], l, _, _ => do modify (fun s => { s with toks := [] }); pure l
  | t :: ts, l, f, part => do
      modify (fun s => { s with toks := ts })
      match t.kind with
      | .link lex => do
          setByte (t.span.stop - 1)
          match lex with
          | .newline => do incLine; linkValue E ts l f part
          | .text =>
              match part with
              | .label => linkValue E ts { l with labelSpan := ⟨l.labelSpan.start, t.span.stop⟩ } f part
              | .title => linkValue E ts { l with titleSpan := ⟨l.titleSpan.start, t.span.stop⟩ } f part
          | .pipe =>
              match part with
              | .label => do
                  let l := { l with labelSpan := ⟨l.labelSpan.start, t.span.start⟩ }
                  let l ← assignIfEscaped E l f t.span .label
                  linkValue E ts { l with titleSpan := ⟨t.span.stop, l.titleSpan.stop⟩ }
                    ⟨false, false, false⟩ .title
              | .title => linkValue E ts { l with titleSpan := ⟨l.titleSpan.start, t.span.stop⟩ } f part
          | .escapedNewline => linkValue E ts l { f with newline := true } part
          | .escapedPipe => linkValue E ts l { f with pipe := true } part
          | .escaped => linkValue E ts l { f with bracket := true } part
          | .fin => do
              let l ← assignIfEscaped E l f t.span part
              pure { l with clo := some t.span }
          | .error => fail E .tokenLink
      | _ => fail E .tokenLink

/-- Owned href when escapes were seen: link.rs:189-194, 217-222. -/
def hrefOwned (E : PEnv) (l : Link) (f : LinkFlags) (sp : Span) : P Link :=
  if f.any then do
    let v ← orPanic (slice E.src l.opn.stop sp.start)
    pure { l with href := some (f.intoOwned v) }
  else pure l

/-- link.rs:165-243 `href`; recursion on the remaining tokens. -/
def linkHref [Host] (E : PEnv) : List Token → Link → LinkFlags → P Link
  | [], l, _ => do modify (fun s => { s with toks := [] }); pure l
  | t :: ts, l, f => do
      modify (fun s => { s with toks := ts })
      match t.kind with
      | .link lex => do
          setByte (t.span.stop - 1)
          match lex with
          | .newline => do incLine; pure l
          | .text => linkHref E ts { l with hrefSpan := ⟨l.hrefSpan.start, t.span.stop⟩ } f
          | .pipe => do
              let l ← hrefOwned E l f t.span
              linkValue E ts { l with labelSpan := ⟨t.span.stop, l.labelSpan.stop⟩ }
                ⟨false, false, false⟩ .label
          | .escapedNewline => linkHref E ts l { f with newline := true }
          | .escapedPipe => linkHref E ts l { f with pipe := true }
          | .escaped => linkHref E ts l { f with bracket := true }
          | .fin => do
              let l ← hrefOwned E l f t.span
              pure { l with clo := some t.span }
          | .error => fail E .tokenLink
      | _ => fail E .tokenLink

/-- link.rs:245-264 `parse`. -/
def linkParse [Host] (E : PEnv) (opn : Span) : P Link := do
  setByte opn.stop
  let lr ← lineRange
  let s ← get
  let l ← linkHref E s.toks (Link.new E.src opn lr) ⟨false, false, false⟩
  match l.clo with
  | none => fail E .linkNotTerminated
  | some _ => do
      let n ← P.line
      pure { l with line := ⟨l.line.start, n + 1⟩ }

/-! ### block.rs -/

/-- block.rs:15-35 `until`: extend `span` over tokens until `stop` holds; the
stopping token is returned.  Recursion on the remaining tokens. -/
def untilLoop (stop : Token → Bool) : List Token → Span → P (Span × Option Token)
  | [], span => do modify (fun s => { s with toks := [] }); pure (span, none)
  | t :: ts, span => do
      modify (fun s => { s with toks := ts, line := if t.isNewline then s.line + 1 else s.line })
      if stop t then pure (span, some t)
      else do
        setByte (t.span.stop - 1)
        untilLoop stop ts ⟨span.start, t.span.stop⟩

/-- block.rs:15-35 `until`. -/
def untilP (stop : Token → Bool) (span : Span) : P (Span × Option Token) := do
  let s ← get
  untilLoop stop s.toks span

/-- block.rs:38-57 `text_until`: the text block and the closing token. -/
def textUntil (E : PEnv) (span : Span) (stop : Token → Bool) : P (Option (TextBlock × Token)) := do
  let lr ← lineRange
  let (sp, next) ← untilP stop ⟨span.stop, span.stop⟩
  match next with
  | some close => do
      let l ← P.line
      pure (some (⟨E.src, ⟨E.src, sp, ⟨lr.start, l + 1⟩⟩, span, close.span⟩, close))
  | none => pure none

/-- block.rs:60-149 `raw`.  (The arms for a closing token that is not
`EndRawBlock` are unreachable: `text_until` stops on that token only.) -/
def rawBlock [Host] (E : PEnv) (span : Span) : P Node := do
  let lr ← lineRange
  let call ← callParse E span
  match call.clo with
  | none => fail E .rawBlockOpenNotTerminated
  | some endSpan => do
      let openName ← orPanic call.target.asStr
      let block := (Block.new E.src span true lr).setCall call
      match (← textUntil E endSpan (fun t => t.kind == .block .endRawBlock)) with
      | none => fail E .rawBlockNotTerminated
      | some (tb, close) => do
          let block := block.push (.text tb.text)
          let endTag ← callParse E close.span
          match endTag.clo with
          | none => fail E .rawBlockNotTerminated
          | some cs => do
              let block := block.exit ⟨endTag.opn.start, cs.stop⟩
              let endName ← orPanic endTag.target.asStr
              if openName ≠ endName then
                failWith E .tagNameMismatch [c!"opening name is '" ++ openName ++ ['\'']]
              else do
                let l ← P.line
                pure (.block (block.linesEnd l))

/-- block.rs:152-176 `raw_comment`. -/
def rawComment [Host] (E : PEnv) (span : Span) : P Node := do
  match (← textUntil E span (fun t => t.kind == .rawComment .fin)) with
  | some (tb, _) => pure (.rawComment tb)
  | none => fail E .rawCommentNotTerminated

/-- block.rs:178-202 `raw_statement`. -/
def rawStatement [Host] (E : PEnv) (span : Span) : P Node := do
  match (← textUntil E span (fun t => t.kind == .rawStatement .fin)) with
  | some (tb, _) => pure (.rawStatement tb)
  | none => fail E .rawStatementNotTerminated

/-- block.rs:204-228 `comment`. -/
def commentP [Host] (E : PEnv) (span : Span) : P Node := do
  match (← textUntil E span (fun t => t.kind == .comment .fin)) with
  | some (tb, _) => pure (.comment tb)
  | none => fail E .commentNotTerminated

/-- block.rs:230-241 `scope`. -/
def scopeP [Host] (E : PEnv) (span : Span) : P Block := do
  let lr ← lineRange
  let call ← callParse E span
  pure ((Block.new E.src span false lr).setCall call)

/-! ### mod.rs -/

/-- mod.rs:179-186 `token`. -/
def tokenP : P (Option Token) := fun s =>
  match s.next with
  | some t => (.ok (some t), { s with next := none })
  | none =>
      match s.toks with
      | [] => (.ok none, s)
      | t :: ts => (.ok (some t), { s with toks := ts })

/-- mod.rs:287-318: add a node to the innermost open block. -/
def addToBlock (E : PEnv) (lineRange : Span) (node : Node) (b : Block) : Block :=
  match node with
  | .statement call =>
      if call.conditional then
        b.addCondition ((Block.new E.src call.opn false lineRange).setCall call)
      else b.push (.statement call)
  | n => b.push n

/-- mod.rs:326-395: the `EndBlockScope` arm of `advance`. -/
def endBlock [Host] (E : PEnv) (span : Span) : P (Option Node) := do
  let temp ← scopeP E span
  let name ← orPanic temp.name
  let s ← get
  match s.stack with
  | [] => do
      setByte span.start
      failWith E .blockNotOpen (match name with
        | some close => [c!"perhaps open the block '" ++ close ++ ['\'']]
        | none => [])
  | (openName, block) :: rest => do
      modify (fun s => { s with stack := rest })
      match name with
      | some closeName =>
          if openName ≠ closeName then
            failWith E .tagNameMismatch [c!"opening name is '" ++ openName ++ ['\'']]
          else do
            let span := match temp.call.clo with
              | some _ => ⟨span.start, temp.call.span.stop⟩
              | none => span
            let l ← P.line
            pure (some (.block ((block.exit span).linesEnd l)))
      | none => fail E .expectedIdentifier

mutual
/-- mod.rs:191-436 `advance`. -/
def advance [Host] (E : PEnv) : Nat → Token → P (Option Node)
  | 0, _ => P.fuel
  | n + 1, tok => do
      incLineIf tok.isNewline
      if tok.isText then do
        let lr ← lineRange
        let (span, next) ← untilP (fun t => !t.isText) tok.span
        modify (fun s => { s with next := next })
        let l ← P.line
        pure (some (.text ⟨E.src, span, ⟨lr.start, l + 1⟩⟩))
      else
        match tok.kind with
        | .block .startRawBlock => do let x ← rawBlock E tok.span; pure (some x)
        | .block .startRawComment => do let x ← rawComment E tok.span; pure (some x)
        | .block .startRawStatement => do let x ← rawStatement E tok.span; pure (some x)
        | .block .startComment => do let x ← commentP E tok.span; pure (some x)
        | .block .startBlockScope => do
            let block ← scopeP E tok.span
            let name ← orPanic block.name
            match name with
            | none => do
                setByte block.call.target.span.start
                fail E .blockName
            | some name => do
                -- the test of mod.rs:262-277 cannot fail here: a named block has a path target
                modify (fun s => { s with stack := (name, block) :: s.stack })
                blockLoop E n
        | .block .endBlockScope => endBlock E tok.span
        | .block .startStatement => do
            let call ← callParse E tok.span
            pure (some (.statement call))
        | .block .startLink => do
            let l ← linkParse E tok.span
            pure (some (.link l))
        | _ => pure none

/-- mod.rs:281-324: the loop run after a block has been opened.  The innermost
open block is the head of `stack`. -/
def blockLoop [Host] (E : PEnv) : Nat → P (Option Node)
  | 0 => P.fuel
  | n + 1 => do
      match (← tokenP) with
      | none => pure none
      | some t => do
          let node ← advance E n t
          let s ← get
          match node, s.stack with
          | none, _ => pure none
          | some x, [] => pure (some x)
          | some x, (nm, cur) :: rest => do
              let lr ← lineRange
              modify (fun s => { s with stack := (nm, addToBlock E lr x cur) :: rest })
              blockLoop E n
end

/-- Recursion bound for `advance`. -/
def advFuel (s : PS) : Nat := 4 * s.toks.length + 8

/-- mod.rs:442-461 `Iterator::next` without an error list. -/
def parserNext [Host] (E : PEnv) : P (Option Node) := do
  match (← tokenP) with
  | none => pure none
  | some t => do
      let s ← get
      advance E (advFuel s) t

/-- mod.rs:167-174 `parse`: collect nodes until the iterator ends. -/
def parseLoop [Host] (E : PEnv) : Nat → List Node → P (List Node)
  | 0, _ => P.fuel
  | n + 1, acc => do
      match (← parserNext E) with
      | none => pure acc
      | some x => parseLoop E n (acc ++ [x])

/-- mod.rs:28-37 `ParserOptions`. -/
structure ParserOptions where
  fileName : Str
  lineOffset : Nat
  byteOffset : Nat
deriving DecidableEq, Repr

/-- mod.rs:139-150 `Parser::new` and 108-116. -/
def initPS (src : Str) (o : ParserOptions) : PS :=
  { toks := lex src, line := o.lineOffset, byte := o.byteOffset, stack := [], next := none }

/-- template.rs:42-70 `Template::compile` (= mod.rs `Parser::new(..).parse()`); the
document node on success. -/
def compile [Host] (src : Str) (o : ParserOptions) : R Node :=
  let s := initPS src o
  match (parseLoop ⟨src, o.fileName⟩ (2 * s.toks.length + 2) [] s).1 with
  | .ok ns => .ok (.document src ns)
  | .err e => .err e
  | .panic => .panic
  | .fuel => .fuel

/-- lexer.rs:480-488 `until_mode`: skip tokens up to and including the next token of
the top-level mode. -/
def untilMode : List Token → Option Token × List Token
  | [] => (none, [])
  | t :: ts =>
      match t.kind with
      | .block _ => (some t, ts)
      | _ => untilMode ts

/-- mod.rs:442-461 with an error list, driven by `for _ in parser {}`
(registry.rs:249-256): returns the errors in order. -/
def lintLoop [Host] (E : PEnv) : Nat → List SyntaxErr → PS → R (List SyntaxErr)
  | 0, _, _ => .fuel
  | n + 1, errs, s =>
      match parserNext E s with
      | (.ok none, _) => .ok errs
      | (.ok (some _), s') => lintLoop E n errs s'
      | (.err e, s') =>
          let (nx, ts) := untilMode s'.toks
          lintLoop E n (errs ++ [e]) { s' with next := nx, toks := ts }
      | (.panic, _) => .panic
      | (.fuel, _) => .fuel

/-- registry.rs:244-258 `lint`. -/
def lint [Host] (name src : Str) : R (List SyntaxErr) :=
  let s := initPS src ⟨name, 0, 0⟩
  lintLoop ⟨src, name⟩ (2 * s.toks.length + 4) [] s

/-- path.rs:326-350 `from_str`: parse a path outside a template. -/
def pathFromStr [Host] (src : Str) : R (Option Path) :=
  let E : PEnv := ⟨src, c!"unknown"⟩
  match lexParams src with
  | [] => .ok none
  | t :: ts =>
      let s : PS := { toks := ts, line := 0, byte := 0, stack := [], next := none }
      match t.kind with
      | .params lex =>
          match (pathParse E lex t.span s).1 with
          | .ok (p, _) => .ok p
          | .err e => .err e
          | .panic => .panic
          | .fuel => .fuel
      | _ =>
          match (fail E .tokenParameterPath s : R (Option Path) × PS).1 with
          | .ok p => .ok p
          | .err e => .err e
          | .panic => .panic
          | .fuel => .fuel

end Bracket
