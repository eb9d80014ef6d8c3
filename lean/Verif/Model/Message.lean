import Verif.Model.Registry

/-! Model of the texts of errors: the `#[error(..)]` attributes and the hand written `Debug`
implementations of `src/error`.  The text of an I/O error comes from the standard library and is the
argument `io`. -/

namespace Bracket

/-- error/syntax.rs:9-169 the texts of the variants of `SyntaxError`.  `TokenError` is only built at
call.rs:355-358, with the context `parameters`. -/
def SynKind.message : SynKind → Str
  | .expectedIdentifier => c!"Syntax error, expecting identifier"
  | .expectedPath => c!"Syntax error, expecting path"
  | .blockName => c!"Syntax error, block name must be an identifier"
  | .literalNewline => c!"Syntax error, new lines in raw literals must be escaped (\\n)"
  | .partialPosition => c!"Syntax error, partial operator (>) must come first"
  | .subExprNotOpen => c!"Syntax error, got close sub-expression but no sub-expression is open"
  | .subExprTargetNotAllowed => c!"Syntax error, sub-expression must use an identifier for the target"
  | .pathDelimiterNotAllowed => c!"Syntax error, path delimiter (.) not allowed here"
  | .elseNotAllowed => c!"Syntax error, 'else' keyword is not allowed here"
  | .unexpectedPathExplicitThis => c!"Syntax error, explicit this reference must be at the start of a path"
  | .unexpectedPathParent => c!"Syntax error, parent scopes must be at the start of a path"
  | .unexpectedPathLocal => c!"Syntax error, local scope identifiers must be at the start of a path"
  | .unexpectedPathDelimiter => c!"Syntax error, expected identifier but got path delimiter"
  | .unexpectedPathParentWithLocal => c!"Syntax error, parent scopes and local identifiers are mutually exclusive"
  | .unexpectedPathParentWithExplicit => c!"Syntax error, parent scopes and explicit this are mutually exclusive"
  | .expectedPathDelimiter => c!"Syntax error, expected path delimiter (.)"
  | .openSubExpression => c!"Syntax error, sub-expression not terminated"
  | .tagNameMismatch => c!"Syntax error, closing name does not match"
  | .blockNotOpen => c!"Syntax error, got a closing tag but no block is open"
  | .subExpressionNotTerminated => c!"Syntax error, sub-expression was not terminated"
  | .linkNotTerminated => c!"Syntax error, link was not terminated"
  | .rawBlockOpenNotTerminated => c!"Syntax error, raw block open tag was not terminated"
  | .rawBlockNotTerminated => c!"Syntax error, raw block was not terminated"
  | .rawCommentNotTerminated => c!"Syntax error, raw comment was not terminated"
  | .rawStatementNotTerminated => c!"Syntax error, raw statement was not terminated"
  | .commentNotTerminated => c!"Syntax error, comment was not terminated"
  | .blockTargetSubExpr => c!"Syntax error, block target sub expressions are only supported for partials"
  | .emptyPath => c!"Syntax error, path is empty"
  | .componentType => c!"Syntax error, path component type could not be identified"
  | .mixedPartialConditional => c!"Syntax error, partials and conditionals may not be combined"
  | .tokenError => c!"Syntax error, unexpected error token for context 'parameters'"
  | .tokenCallTarget => c!"Syntax error, expecting path or sub-expression for call target"
  | .tokenJsonLiteral => c!"Syntax error, expecting JSON literal token"
  | .tokenParameter => c!"Syntax error, expecting parameter token"
  | .tokenHashKeyValue => c!"Syntax error, expecting key/value token"
  | .tokenRawLiteral => c!"Syntax error, expecting raw literal token"
  | .tokenDoubleQuoteLiteral => c!"Syntax error, unexpected token parsing quoted literal (\"\")"
  | .tokenSingleQuoteLiteral => c!"Syntax error, unexpected token parsing quoted literal ('')"
  | .tokenArrayLiteral => c!"Syntax error, unexpected token parsing quoted literal ([])"
  | .tokenLink => c!"Syntax error, unexpected token parsing link"
  | .tokenParameterPath => c!"Syntax error, unexpected token parsing path"
  | .tokenEndRawBlock => c!"Syntax error, unexpected token, expecting end of raw block"

/-- error/syntax.rs:7-169 `Display for SyntaxError` (`to_string`): without the source snippet. -/
def SyntaxErr.display (e : SyntaxErr) : Str := e.kind.message

/-- error/syntax.rs:172-222 `Debug for SyntaxError`. -/
def SyntaxErr.debug (e : SyntaxErr) : Str := e.kind.message ++ '\n' :: e.info

section
variable (io : IoErr → Str)

mutual
/-- error/helper.rs:10-68 `Display for HelperError`; `syntax`, `render` and `io` are transparent (helper.rs:54-63).
`onceSyntax` and `onceRender` are the `Message` with the text of the underlying `Error`, itself transparent
(render/mod.rs:185-188, error/mod.rs:20-24). -/
def HelperErr.display : HelperErr → Str
  | .message s => s
  | .blockTemplate name => c!"Helper '" ++ name ++ c!"' expects a block template"
  | .blockTemplateNotAllowed name => c!"Helper '" ++ name ++ c!"' does not allow a block template"
  | .arityExact name n => c!"Helper '" ++ name ++ c!"' got invalid arity expects " ++ showNat n ++ c!" arguments(s)"
  | .arityRange name lo hi =>
      c!"Helper '" ++ name ++ c!"' got invalid arity expects " ++ showNat lo ++ c!"-" ++ showNat hi ++ c!" argument(s)"
  | .lookupField name field => c!"Helper '" ++ name ++ c!"' failed to resolve field '" ++ field ++ c!"'"
  | .invalidNumericalOperand name => c!"Helper '" ++ name ++ c!"' got invalid numerical operand"
  | .typeAssert name expected got =>
      c!"Helper '" ++ name ++ c!"' type assertion failed, expected '" ++ expected ++ c!"' but got '" ++ got ++ c!"'"
  | .syntax e => e.display
  | .render e => RenderErr.display e
  | .io e => io e
  | .onceSyntax e => e.display
  | .onceRender e => RenderErr.display e
/-- error/render.rs:8-62 `Display for RenderError`; also its `Debug` (render.rs:64-69). -/
def RenderErr.display : RenderErr → Str
  | .partialNotFound name => c!"Partial '" ++ name ++ c!"' not found"
  | .variableNotFound path template =>
      c!"Variable '" ++ path ++ c!"' not found in " ++ template ++ c!", check the variable path and verify the template data"
  | .helperNotFound name => c!"Helper '" ++ name ++ c!"' not found, check the name"
  | .partialCycle name => c!"Cycle detected whilst processing partial '" ++ name ++ c!"'"
  | .helperCycle name => c!"Cycle detected whilst processing helper '" ++ name ++ c!"'"
  | .partialIdentifier path => c!"Partial names must be simple identifiers, got path '" ++ path ++ c!"'"
  | .blockIdentifier path => c!"Block names must be simple identifiers, got path '" ++ path ++ c!"'"
  | .blockTargetSubExpr => c!"Block target sub expressions are only supported for partials"
  | .helper e => HelperErr.display e
  | .io e => io e
end

/-- error/mod.rs:18-31 `Display for Error`. -/
def ApiErr.display : ApiErr → Str
  | .syntax e => e.display
  | .render e => e.display io
  | .templateNotFound name => c!"Template not found '" ++ name ++ c!"'"
  | .io e => io e

/-- error/mod.rs:33-42 `Debug for Error` (IoError: mod.rs:69-75 its display text). -/
def ApiErr.debug : ApiErr → Str
  | .syntax e => e.debug
  | .render e => e.display io
  | .templateNotFound name => c!"Template not found '" ++ name ++ c!"'"
  | .io e => io e
end
end Bracket
