import Verif.Model.Basic

/-! Model of `src/lexer.rs`.

The token regexes are compiled by the `logos` crate.  The crate itself is not
modelled; its documented contract is: at each position the token whose pattern
matches the longest non-empty prefix wins, ties go to the higher priority, and
when no pattern matches an `Error` token is produced (here: one character long,
see DESIGN.md, trusted base). -/

namespace Bracket

/-! ### Regular expressions (Brzozowski derivatives) -/

/-- Regular expressions over characters. -/
inductive Re where
  | empty
  | eps
  | cls (p : Char → Bool)
  | seq (a b : Re)
  | alt (a b : Re)
  | star (a : Re)

namespace Re

/-- Does the expression match the empty string? -/
def nullable : Re → Bool
  | empty => false
  | eps => true
  | cls _ => false
  | seq a b => nullable a && nullable b
  | alt a b => nullable a || nullable b
  | star _ => true

/-- `seq` with the trivial cases removed. -/
def mkSeq : Re → Re → Re
  | empty, _ => empty
  | eps, b => b
  | a, b => seq a b

/-- `alt` with the trivial cases removed. -/
def mkAlt : Re → Re → Re
  | empty, b => b
  | a, empty => a
  | a, b => alt a b

/-- Brzozowski derivative. -/
def deriv (c : Char) : Re → Re
  | empty => empty
  | eps => empty
  | cls p => if p c then eps else empty
  | seq a b =>
      if nullable a then mkAlt (mkSeq (deriv c a) b) (deriv c b) else mkSeq (deriv c a) b
  | alt a b => mkAlt (deriv c a) (deriv c b)
  | star a => mkSeq (deriv c a) (star a)

/-- Is this literally the empty language? -/
def isEmpty : Re → Bool
  | empty => true
  | _ => false

/-- Length (in characters) of the longest non-empty prefix matched, continuing
from a residual `r` after `pos` characters with `best` found so far. -/
def longestAux : Str → Re → Nat → Option Nat → Option Nat
  | [], _, _, best => best
  | c :: cs, r, pos, best =>
      let r' := deriv c r
      if isEmpty r' then best
      else longestAux cs r' (pos + 1) (if nullable r' then some (pos + 1) else best)

/-- Length of the longest non-empty prefix of `s` matched by `r`. -/
def longest (r : Re) (s : Str) : Option Nat := longestAux s r 0 none

/-- A literal character. -/
def ch (c : Char) : Re := cls (fun x => x == c)
/-- A literal string. -/
def lit : Str → Re
  | [] => eps
  | [c] => ch c
  | c :: cs => seq (ch c) (lit cs)
/-- `r?` -/
def opt (r : Re) : Re := alt r eps
/-- `r+` -/
def plus (r : Re) : Re := seq r (star r)

end Re

open Re

/-! ### Token kinds -/

/-- lexer.rs:12-58 `enum Block`. -/
inductive BlockTok where
  | startRawBlock | startRawComment | startRawStatement | startComment | startStatement
  | startBlockScope | startLink | endBlockScope | endRawBlock | text | newline | error
deriving DecidableEq, Repr

/-- lexer.rs:67-84, 92-108, 117-133 `enum RawComment`, `RawStatement`, `Comment`
(the three have the same variants). -/
inductive TextTok where
  | text | fin | newline | error
deriving DecidableEq, Repr

/-- lexer.rs:143-229 `enum Parameters`. -/
inductive ParamTok where
  | partialSign | elseKeyword | explicitThisKeyword | explicitThisDotSlash | parentRef
  | identifier | localIdentifier | pathDelimiter | doubleQuoteString | singleQuoteString
  | startArray | startSubExpression | endSubExpression | hashKey | number | trueKw | falseKw
  | nullKw | whiteSpace | fin | newline | error
deriving DecidableEq, Repr

/-- lexer.rs:234-258, 263-287, 292-316 `enum DoubleQuoteString`,
`SingleQuoteString`, `Array` (`Array` has no `EscapedNewline`). -/
inductive StrTok where
  | text | escapedNewline | escaped | fin | newline | error
deriving DecidableEq, Repr

/-- lexer.rs:321-353 `enum Link`. -/
inductive LinkTok where
  | text | pipe | escapedNewline | escapedPipe | escaped | fin | newline | error
deriving DecidableEq, Repr

/-- lexer.rs:357-376 `enum Token`, without the span. -/
inductive Kind where
  | block (t : BlockTok)
  | rawComment (t : TextTok)
  | rawStatement (t : TextTok)
  | comment (t : TextTok)
  | params (t : ParamTok)
  | dquote (t : StrTok)
  | squote (t : StrTok)
  | array (t : StrTok)
  | link (t : LinkTok)
deriving DecidableEq, Repr

/-- lexer.rs:357-376 `enum Token`. -/
structure Token where
  kind : Kind
  span : Span
deriving DecidableEq, Repr

/-- lexer.rs:397-416 `Token::is_text`. -/
def Token.isText (t : Token) : Bool :=
  match t.kind with
  | .block k => k == .text || k == .newline
  | .rawComment k => k == .text || k == .newline
  | .rawStatement k => k == .text || k == .newline
  | .comment k => k == .text || k == .newline
  | _ => false

/-- lexer.rs:419-437 `Token::is_newline`. -/
def Token.isNewline (t : Token) : Bool :=
  match t.kind with
  | .block k => k == .newline
  | .rawComment k => k == .newline
  | .rawStatement k => k == .newline
  | .comment k => k == .newline
  | .params k => k == .newline
  | .dquote k => k == .newline
  | .squote k => k == .newline
  | .array k => k == .newline
  | .link k => k == .newline

/-- lexer.rs:440-450 `enum Modes`. -/
inductive Mode where
  | block | rawComment | rawStatement | comment | params | dquote | squote | array | link
deriving DecidableEq, Repr

/-! ### Token patterns -/

/-- `.`: any character except `\n`. -/
def anyNoNl : Re := cls (fun c => c != '\n')
/-- `[\t ]`. -/
def tabSp : Re := cls (fun c => c == '\t' || c == ' ')
/-- `[0-9]`. -/
def isDigit (c : Char) : Bool := '0'.toNat ≤ c.toNat && c.toNat ≤ '9'.toNat
def digit : Re := cls isDigit

/-- Characters excluded from identifiers besides white space; lexer.rs:11. -/
def identExcluded : List Char :=
  ['"', '!', '#', '%', '&', '\'', '(', ')', '*', '+', ',', '.', '/', ';', '<', '=', '>',
   '@', '[', ']', '^', '`', '{', '|', '}', '~']

/-- lexer.rs:11 and 142: the sub-pattern `identifier`. -/
def isIdent (c : Char) : Bool := !(isWs c) && !(identExcluded.contains c)
def ident : Re := cls isIdent

/-- A pattern, its priority and the token it produces. -/
abbrev Rule := Re × Nat × Kind

/-- lexer.rs:12-58.  Priorities as computed by logos (2 per literal byte, 1 per
class, 0 for optional or starred parts); no two rules match the same string. -/
def blockRules : List Rule :=
  [ (seq (lit c!"{{{{") (seq (opt (ch '~')) (star tabSp)), 8, .block .startRawBlock),
    (lit c!"{{!--", 10, .block .startRawComment),
    (seq (lit ['\\', '{', '{']) (opt (ch '{')), 6, .block .startRawStatement),
    (lit c!"{{!", 6, .block .startComment),
    (seq (lit c!"{{") (seq (opt (ch '{')) (seq (opt (ch '~')) (star tabSp))), 4,
      .block .startStatement),
    (seq (lit c!"{{") (seq (opt (ch '~')) (seq (star tabSp) (seq (ch '#') (star tabSp)))), 6,
      .block .startBlockScope),
    (seq (opt (ch '\\')) (lit c!"[["), 4, .block .startLink),
    (seq (lit c!"{{") (seq (opt (ch '~')) (seq (star tabSp) (ch '/'))), 6,
      .block .endBlockScope),
    (seq (lit c!"{{{{") (seq (opt (ch '~')) (seq (star tabSp) (ch '/'))), 10,
      .block .endRawBlock),
    (anyNoNl, 1, .block .text),
    (ch '\n', 2, .block .newline) ]

/-- lexer.rs:67-84. -/
def rawCommentRules : List Rule :=
  [ (anyNoNl, 1, .rawComment .text), (lit c!"--}}", 8, .rawComment .fin),
    (ch '\n', 2, .rawComment .newline) ]

/-- lexer.rs:92-108. -/
def rawStatementRules : List Rule :=
  [ (anyNoNl, 1, .rawStatement .text),
    (seq (opt (ch '~')) (seq (opt (ch '}')) (lit c!"}}")), 4, .rawStatement .fin),
    (ch '\n', 2, .rawStatement .newline) ]

/-- lexer.rs:117-133. -/
def commentRules : List Rule :=
  [ (anyNoNl, 1, .comment .text), (lit c!"}}", 4, .comment .fin),
    (ch '\n', 2, .comment .newline) ]

/-- lexer.rs:205: `-?([0-9]+\.)?[0-9]+((e|E)[+-]?[0-9]+)?`. -/
def numberRe : Re :=
  seq (opt (ch '-')) (seq (opt (seq (plus digit) (ch '.'))) (seq (plus digit)
    (opt (seq (alt (ch 'e') (ch 'E')) (seq (opt (cls (fun c => c == '+' || c == '-'))) (plus digit))))))

/-- lexer.rs:143-229. -/
def paramRules : List Rule :=
  [ (ch '>', 2, .params .partialSign),
    (lit c!"else", 8, .params .elseKeyword),
    (lit c!"this", 8, .params .explicitThisKeyword),
    (lit c!"./", 4, .params .explicitThisDotSlash),
    (lit c!"../", 6, .params .parentRef),
    (plus ident, 2, .params .identifier),
    (seq (ch '@') (plus ident), 3, .params .localIdentifier),
    (cls (fun c => c == '.' || c == '/'), 1, .params .pathDelimiter),
    (ch '"', 2, .params .doubleQuoteString),
    (ch '\'', 2, .params .singleQuoteString),
    (ch '[', 2, .params .startArray),
    (ch '(', 3, .params .startSubExpression),
    (ch ')', 2, .params .endSubExpression),
    (seq (plus ident) (ch '='), 3, .params .hashKey),
    (numberRe, 3, .params .number),
    (lit c!"true", 8, .params .trueKw),
    (lit c!"false", 10, .params .falseKw),
    (lit c!"null", 8, .params .nullKw),
    (plus tabSp, 1, .params .whiteSpace),
    (seq (opt (ch '~')) (seq (opt (ch '}')) (seq (opt (ch '}')) (lit c!"}}"))), 4, .params .fin),
    (ch '\n', 2, .params .newline) ]

/-- lexer.rs:234-258 (`"`) and 263-287 (`'`): a string literal delimited by `q`. -/
def strRules (q : Char) (k : StrTok → Kind) : List Rule :=
  [ (plus (cls (fun c => c != '\\' && c != q && c != '\n')), 1, k .text),
    (lit ['\\', 'n'], 4, k .escapedNewline),
    (lit ['\\', q], 4, k .escaped),
    (ch q, 2, k .fin),
    (ch '\n', 2, k .newline) ]

/-- lexer.rs:292-316. -/
def arrayRules : List Rule :=
  [ (plus (cls (fun c => c != ']' && c != '\n')), 1, .array .text),
    (lit ['\\', ']'], 4, .array .escaped),
    (ch ']', 2, .array .fin),
    (ch '\n', 2, .array .newline) ]

/-- lexer.rs:321-353. -/
def linkRules : List Rule :=
  [ (plus (cls (fun c => c != '\\' && c != '|' && c != ']')), 1, .link .text),
    (ch '|', 2, .link .pipe),
    (lit ['\\', 'n'], 4, .link .escapedNewline),
    (lit ['\\', '|'], 4, .link .escapedPipe),
    (lit ['\\', ']'], 4, .link .escaped),
    (lit c!"]]", 4, .link .fin),
    (ch '\n', 2, .link .newline) ]

/-- The rules of a mode. -/
def rules : Mode → List Rule
  | .block => blockRules
  | .rawComment => rawCommentRules
  | .rawStatement => rawStatementRules
  | .comment => commentRules
  | .params => paramRules
  | .dquote => strRules '"' .dquote
  | .squote => strRules '\'' .squote
  | .array => arrayRules
  | .link => linkRules

/-- The `#[error]` variant of a mode. -/
def errorKind : Mode → Kind
  | .block => .block .error
  | .rawComment => .rawComment .error
  | .rawStatement => .rawStatement .error
  | .comment => .comment .error
  | .params => .params .error
  | .dquote => .dquote .error
  | .squote => .squote .error
  | .array => .array .error
  | .link => .link .error

/-- Best candidate so far: (length, priority, kind). -/
abbrev Cand := Option (Nat × Nat × Kind)

/-- Longest match, then priority. -/
def better (best : Cand) (n p : Nat) (k : Kind) : Cand :=
  match best with
  | none => some (n, p, k)
  | some (n', p', k') => if n' < n ∨ (n' = n ∧ p' < p) then some (n, p, k) else some (n', p', k')

/-- Maximal munch over a rule table. -/
def pick (s : Str) : List Rule → Cand → Cand
  | [], best => best
  | (r, p, k) :: rs, best =>
      match longest r s with
      | none => pick s rs best
      | some n => pick s rs (better best n p k)

/-- Next token of a mode at a non-empty rest of the input: its kind and length in
characters.  (`Logos::lexer(s).next()`) -/
def nextTok (m : Mode) (s : Str) : Kind × Nat :=
  match pick s (rules m) none with
  | some (n, _, k) => (k, n)
  | none => (errorKind m, 1)

/-- lexer.rs:492-640: the mode after a token. -/
def nextMode (m : Mode) (k : Kind) : Mode :=
  match m, k with
  | .block, .block .startRawBlock => .params
  | .block, .block .endRawBlock => .params
  | .block, .block .startRawComment => .rawComment
  | .block, .block .startRawStatement => .rawStatement
  | .block, .block .startComment => .comment
  | .block, .block .startStatement => .params
  | .block, .block .startBlockScope => .params
  | .block, .block .endBlockScope => .params
  | .block, .block .startLink => .link
  | .rawComment, .rawComment .fin => .block
  | .rawStatement, .rawStatement .fin => .block
  | .comment, .comment .fin => .block
  | .params, .params .doubleQuoteString => .dquote
  | .params, .params .singleQuoteString => .squote
  | .params, .params .startArray => .array
  | .params, .params .fin => .block
  | .dquote, .dquote .fin => .params
  | .squote, .squote .fin => .params
  | .array, .array .fin => .params
  | .link, .link .fin => .block
  | m, _ => m

/-- lexer.rs:492-640 `Lexer::next`, iterated to the end of the input.  The lexer
mode depends only on the tokens already produced, never on the parser, so the
whole token sequence can be computed up front.  `fuel` is the number of
characters left (each token consumes at least one). -/
def lexAux : Nat → Mode → Nat → Str → List Token
  | 0, _, _, _ => []
  | _ + 1, _, _, [] => []
  | fuel + 1, m, off, c :: cs =>
      let (k, n) := nextTok m (c :: cs)
      let w := blen ((c :: cs).take n)
      ⟨k, ⟨off, off + w⟩⟩ :: lexAux fuel (nextMode m k) (off + w) ((c :: cs).drop n)

/-- lexer.rs:673-677 `lex`, run to completion from the top-level mode. -/
def lex (s : Str) : List Token := lexAux s.length .block 0 s

/-- `lex` followed by `set_parameters_mode` (lexer.rs:467-474). -/
def lexParams (s : Str) : List Token := lexAux s.length .params 0 s

/-- lexer.rs:642-668 `normalize`, with the pending text span as accumulator. -/
def normalizeAux : List Token → Option Span → List Token
  | [], none => []
  | [], some sp => [⟨.block .text, sp⟩]
  | t :: ts, pending =>
      if t.isText then
        match pending with
        | some sp => normalizeAux ts (some ⟨sp.start, t.span.stop⟩)
        | none => normalizeAux ts (some t.span)
      else
        match pending with
        | some sp => ⟨.block .text, sp⟩ :: t :: normalizeAux ts none
        | none => t :: normalizeAux ts none

/-- lexer.rs:642-668 `normalize`. -/
def normalize (ts : List Token) : List Token := normalizeAux ts none

/-- lexer.rs:686-694 `collect`. -/
def collect (s : Str) (normalized : Bool) : List Token :=
  if normalized then normalize (lex s) else lex s

end Bracket
