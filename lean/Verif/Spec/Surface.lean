import Verif.Model.Parser

/-! The template language as an author writes it: an abstract syntax, its concrete text, which
abstract templates are well formed, and when a compiled node list says the same thing.  None of this
uses the lexer or the parser. -/

namespace Bracket.Spec

/-! ### Syntax -/

/-- One character of a string literal as it is written: itself, `\\n`, or the escaped quote. -/
inductive SChar where
  | ch (c : Char)
  | nl
  | quote
deriving DecidableEq, Repr

/-- How a path begins: a name, `this`, `./`, a local variable `@name`, or `/name` (an absolute path). -/
inductive Head where
  | name (w : Str)
  | this
  | dot
  | loc (w : Str)
  | abs (w : Str)
deriving DecidableEq, Repr

/-- A further name of a path: as it is, in brackets, or between double or single quotes. -/
inductive SPart where
  | word (w : Str)
  | bracket (w : Str)
  | quoted (single : Bool) (s : List SChar)
deriving DecidableEq, Repr

/-- A further name and what separates it from the one before: `.` or `/`. -/
structure SComp where
  slash : Bool
  part : SPart
deriving DecidableEq, Repr

/-- `.w` -/
abbrev SComp.word (w : Str) : SComp := ⟨false, .word w⟩

/-- A path: `../` some number of times, a beginning, and further names. -/
structure SPath where
  parents : Nat
  head : Head
  rest : List SComp
deriving DecidableEq, Repr

/-- A number with a fraction or an exponent: digits before the point, if there is a point; digits; the
exponent with its letter, sign and digits. -/
structure SNum where
  neg : Bool
  int : Option Str
  digits : Str
  exp : Option (Char × Option Char × Str)
deriving DecidableEq, Repr

/-- Literals.  A string is written between double or single quotes, or in brackets. -/
inductive SLit where
  | null
  | bool (b : Bool)
  | nat (n : Nat)
  | neg (n : Nat)
  | dec (d : SNum)
  | str (single : Bool) (s : List SChar)
  | bracket (w : Str)
deriving DecidableEq, Repr

mutual
/-- Arguments: a path, a literal or a sub-expression. -/
inductive SExpr where
  | path (p : SPath)
  | lit (l : SLit)
  | sub (target : SPath) (args : SArgs)
/-- Positional arguments, then hash arguments.  `ws` is the white space before an argument. -/
inductive SArgs where
  | done (h : SHash)
  | argW (ws : Str) (x : SExpr) (r : SArgs)
/-- Hash arguments, and the white space after the last argument. -/
inductive SHash where
  | tail (ws : Str)
  | pairW (ws : Str) (k : Str) (x : SExpr) (r : SHash)
end

/-- An argument after one space. -/
abbrev SArgs.arg (x : SExpr) (r : SArgs) : SArgs := .argW [' '] x r
/-- No further arguments. -/
abbrev SHash.nil : SHash := .tail []
/-- A hash argument after one space. -/
abbrev SHash.pair (k : Str) (x : SExpr) (r : SHash) : SHash := .pairW [' '] k x r

/-- Do the two sides of a tag carry `~`?  And the white space in the opening of the tag (`{{ foo}}`,
`{{ #if}}`, `{{ /if}}`, `{{{{ raw}}}}`), before the path (after `>` or `else`, or from the first newline
on), and before the end of a tag without arguments (`{{/if }}`, `{{else }}`). -/
structure Tilde where
  before : Bool
  after : Bool
  pad : Str
  gap : Str
  tail : Str
deriving DecidableEq, Repr

mutual
/-- A template: a sequence of pieces. -/
inductive STm where
  | nil
  | text (w : Str) (r : STm)
  | comment (w : Str) (r : STm)
  | longComment (w : Str) (r : STm)
  | escaped (w : Str) (r : STm)
  | link (esc : Bool) (href : Str) (label title : Option Str) (r : STm)
  | stmt (raw part : Bool) (tl : Tilde) (p : SPath) (a : SArgs) (r : STm)
  /-- `{{(q b) a}}` or `{{> (q b) a}}`: what is called is itself computed. -/
  | dyn (raw part : Bool) (tl : Tilde) (q : SPath) (b a : SArgs) (r : STm)
  | rawBlock (tl : Tilde) (name : Str) (a : SArgs) (w : Str) (cl : Tilde) (r : STm)
  | block (part : Bool) (tl : Tilde) (name : Str) (a : SArgs) (body : STm) (cs : SCls) (cl : Tilde) (r : STm)
/-- The `{{else}}` and `{{else if ..}}` clauses of a block. -/
inductive SCls where
  | nil
  | cons (tl : Tilde) (cond : Option (SPath × SArgs)) (body : STm) (r : SCls)
end

/-! ### Concrete text -/

/-- The quote of a string literal. -/
def quote (single : Bool) : Char := if single then '\'' else '"'

def SChar.text (q : Char) : SChar → Str
  | .ch c => [c]
  | .nl => ['\\', 'n']
  | .quote => ['\\', q]

def SChar.value (q : Char) : SChar → Char
  | .ch c => c
  | .nl => '\n'
  | .quote => q

def SChar.isEsc : SChar → Bool
  | .ch _ => false
  | _ => true

/-- What is written between the quotes `q`. -/
def charsText (q : Char) : List SChar → Str
  | [] => []
  | x :: r => x.text q ++ charsText q r

def Head.text : Head → Str
  | .name w => w
  | .this => c!"this"
  | .dot => c!"./"
  | .loc w => '@' :: w
  | .abs w => '/' :: w

/-- `../` repeated. -/
def dots : Nat → Str
  | 0 => []
  | n + 1 => c!"../" ++ dots n

def SPart.text : SPart → Str
  | .word w => w
  | .bracket w => '[' :: (w ++ [']'])
  | .quoted q s => quote q :: (charsText (quote q) s ++ [quote q])

def SComp.sep (c : SComp) : Char := if c.slash then '/' else '.'

/-- `.a/b.[c d]` -/
def dotted : List SComp → Str
  | [] => []
  | c :: r => c.sep :: (c.part.text ++ dotted r)

/-- The names after the beginning; nothing separates the first one from `./`. -/
def following : Head → List SComp → Str
  | .dot, c :: r => c.part.text ++ dotted r
  | _, r => dotted r

def SPath.text (p : SPath) : Str := dots p.parents ++ (p.head.text ++ following p.head p.rest)

def SNum.text (d : SNum) : Str :=
  (if d.neg then ['-'] else []) ++ ((match d.int with
    | none => []
    | some w => w ++ ['.']) ++ (d.digits ++ (match d.exp with
    | none => []
    | some (e, sg, w) => e :: (sg.toList ++ w))))

def SLit.text : SLit → Str
  | .null => c!"null"
  | .bool true => c!"true"
  | .bool false => c!"false"
  | .nat n => showNat n
  | .neg n => '-' :: showNat n
  | .dec d => d.text
  | .str q s => quote q :: (charsText (quote q) s ++ [quote q])
  | .bracket w => '[' :: (w ++ [']'])

mutual
def SExpr.text : SExpr → Str
  | .path p => p.text
  | .lit l => l.text
  | .sub p a => '(' :: (p.text ++ (a.text ++ [')']))
def SArgs.text : SArgs → Str
  | .done h => h.text
  | .argW ws x r => ws ++ (x.text ++ r.text)
def SHash.text : SHash → Str
  | .tail ws => ws
  | .pairW ws k x r => ws ++ (k ++ '=' :: (x.text ++ r.text))
end

/-- `~` if asked. -/
def tilde (b : Bool) : Str := if b then ['~'] else []
/-- What comes after the braces of an opening. -/
def Tilde.mark (tl : Tilde) : Str := tilde tl.before ++ tl.pad
/-- A third brace if asked. -/
def brace (b : Bool) (c : Char) : Str := if b then [c] else []
/-- `>` if asked, and what comes before the path. -/
def gt (b : Bool) (gap : Str) : Str := (if b then ['>'] else []) ++ gap

/-- `|label`, `|title` -/
def piped : Option Str → Str
  | none => []
  | some w => '|' :: w

def commentText (w : Str) : Str := c!"{{!" ++ (w ++ c!"}}")
def longCommentText (w : Str) : Str := c!"{{!--" ++ (w ++ c!"--}}")
def escapedText (w : Str) : Str := c!"\\{{" ++ (w ++ c!"}}")

/-- Does `\\{{w}}` end with a third brace? -/
def escCurly (w : Str) : Bool := (if w.head? = some '{' then w.tail else w).getLast? == some '}'
/-- `\\{{w}}` without the third opening brace, if any, and without the end of the tag. -/
def escInner (w : Str) : Str :=
  let a := if w.head? = some '{' then w.tail else w
  let b := if a.getLast? = some '}' then a.dropLast else a
  if b.getLast? = some '~' then b.dropLast else b
/-- The end of the tag: `}}`, `~}}`, `}}}` or `~}}}`. -/
def escFin (w : Str) : Str :=
  let a := if w.head? = some '{' then w.tail else w
  let b := if a.getLast? = some '}' then a.dropLast else a
  tilde (b.getLast? == some '~') ++ (brace (a.getLast? == some '}') '}' ++ c!"}}")
def linkText (esc : Bool) (href : Str) (label title : Option Str) : Str :=
  (brace esc '\\' ++ c!"[[") ++ (href ++ (piped label ++ (piped title ++ c!"]]")))
def stmtText (raw part : Bool) (tl : Tilde) (p : SPath) (a : SArgs) : Str :=
  (c!"{{" ++ brace raw '{' ++ tl.mark) ++ (gt part tl.gap ++ (p.text ++ (a.text ++
    (tilde tl.after ++ brace raw '}' ++ c!"}}"))))
def dynText (raw part : Bool) (tl : Tilde) (q : SPath) (b a : SArgs) : Str :=
  (c!"{{" ++ brace raw '{' ++ tl.mark) ++ (gt part tl.gap ++ ((SExpr.sub q b).text ++ (a.text ++
    (tilde tl.after ++ brace raw '}' ++ c!"}}"))))
def openText (part : Bool) (tl : Tilde) (name : Str) (a : SArgs) : Str :=
  (c!"{{" ++ tl.mark ++ ['#']) ++ (gt part tl.gap ++ (name ++ (a.text ++ (tilde tl.after ++ c!"}}"))))
def closeText (name : Str) (cl : Tilde) : Str :=
  (c!"{{" ++ cl.mark ++ ['/']) ++ (name ++ (cl.tail ++ (tilde cl.after ++ c!"}}")))
def rawOpenText (tl : Tilde) (name : Str) (a : SArgs) : Str :=
  (c!"{{{{" ++ tl.mark) ++ (name ++ (a.text ++ (tilde tl.after ++ c!"}}}}")))
def rawCloseText (name : Str) (cl : Tilde) : Str :=
  (c!"{{{{" ++ cl.mark ++ ['/']) ++ (name ++ (cl.tail ++ (tilde cl.after ++ c!"}}}}")))
def condText (tl : Tilde) : Option (SPath × SArgs) → Str
  | none => tl.tail
  | some (p, a) => tl.gap ++ (p.text ++ a.text)
def elseText (tl : Tilde) (cond : Option (SPath × SArgs)) : Str :=
  (c!"{{" ++ tl.mark) ++ (c!"else" ++ (condText tl cond ++ (tilde tl.after ++ c!"}}")))

mutual
/-- The source text of a template. -/
def STm.src : STm → Str
  | .nil => []
  | .text w r => w ++ r.src
  | .comment w r => commentText w ++ r.src
  | .longComment w r => longCommentText w ++ r.src
  | .escaped w r => escapedText w ++ r.src
  | .link e h l t r => linkText e h l t ++ r.src
  | .stmt raw part tl p a r => stmtText raw part tl p a ++ r.src
  | .dyn raw part tl q b a r => dynText raw part tl q b a ++ r.src
  | .rawBlock tl name a w cl r => rawOpenText tl name a ++ (w ++ (rawCloseText name cl ++ r.src))
  | .block part tl name a body cs cl r =>
      openText part tl name a ++ (body.src ++ (cs.src ++ (closeText name cl ++ r.src)))
def SCls.src : SCls → Str
  | .nil => []
  | .cons tl cond body r => elseText tl cond ++ (body.src ++ r.src)
end

/-! ### Well-formed templates -/

/-- Words that are not names. -/
def keywords : List Str := [c!"else", c!"this", c!"true", c!"false", c!"null"]

/-- A name that can be written as it is: no white space, none of ``"!#%&'()*+,./;<=>@[]^`{|}~``, not a
keyword, not starting with a digit or `-`. -/
def nameOk (w : Str) : Bool :=
  w.all isIdent && !keywords.contains w &&
    (match w with
     | [] => false
     | c :: _ => !isDigit c && c != '-')

/-- A local variable name or hash key. -/
def wordOk (w : Str) : Bool := !w.isEmpty && w.all isIdent

/-- A backslash must be followed by something it does not escape. -/
def backOk : List SChar → Bool
  | [] => false
  | .ch c :: _ => c != 'n'
  | _ => true

/-- Can be written between the quotes `q`. -/
def charsOk (q : Char) : List SChar → Bool
  | [] => true
  | .ch c :: r => c != q && c != '\n' && (c != '\\' || backOk r) && charsOk q r
  | _ :: r => charsOk q r

/-- Can be written in brackets. -/
def bracketOk (w : Str) : Bool := w.all (fun c => c != ']' && c != '\n') && w != ['\\']

def SPart.ok : SPart → Bool
  | .word w => nameOk w
  | .bracket w => bracketOk w
  | .quoted q s => charsOk (quote q) s

def SPath.ok (p : SPath) : Bool :=
  (match p.head with
   | .name w => nameOk w
   | .this => p.parents == 0
   | .dot => p.parents == 0
   | .loc w => p.parents == 0 && wordOk w
   | .abs _ => false) && p.rest.all (·.part.ok) && decide (p.parents ≤ 255)

/-- As an argument a path may also be absolute. -/
def SPath.argOk (p : SPath) : Bool :=
  match p.head with
  | .abs w => p.parents == 0 && nameOk w && p.rest.all (·.part.ok)
  | _ => p.ok

def digitsOk (w : Str) : Bool := !w.isEmpty && w.all isDigit

/-- A fraction or an exponent, no superfluous zeros in front, not too large to be a number. -/
def SNum.ok [Host] (d : SNum) : Bool :=
  digitsOk d.digits &&
  (match d.int with
   | none => d.exp.isSome && (d.digits.head? != some '0' || d.digits.length == 1)
   | some w => digitsOk w && (w.head? != some '0' || w.length == 1)) &&
  (match d.exp with
   | none => true
   | some (e, sg, w) => (e == 'e' || e == 'E') && (sg == none || sg == some '+' || sg == some '-') && digitsOk w) &&
  (Host.parseFloat d.text).isSome

def SLit.ok [Host] : SLit → Bool
  | .nat n => decide (n < 2 ^ 64)
  | .neg n => decide (0 < n) && decide (n ≤ 2 ^ 63)
  | .dec d => d.ok
  | .str q s => charsOk (quote q) s
  | .bracket w => bracketOk w
  | _ => true

/-- White space inside a tag. -/
def blank (c : Char) : Bool := c == ' ' || c == '\t' || c == '\n'
/-- White space without newlines. -/
def flat (c : Char) : Bool := c == ' ' || c == '\t'
def Tilde.ok (tl : Tilde) : Bool := tl.pad.all flat && tl.gap.all blank && tl.tail.all blank
/-- White space before the path that is not part of the opening. -/
def gapOk (part : Bool) (gap : Str) : Bool := part || gap.isEmpty || gap.head? == some '\n'

def SHash.keys : SHash → List Str
  | .tail _ => []
  | .pairW _ k _ r => k :: r.keys

mutual
def SExpr.ok [Host] : SExpr → Bool
  | .path p => p.argOk
  | .lit l => l.ok
  | .sub p a => p.ok && a.ok
def SArgs.ok [Host] : SArgs → Bool
  | .done h => h.ok
  | .argW ws x r => !ws.isEmpty && ws.all blank && x.ok && r.ok
def SHash.ok [Host] : SHash → Bool
  | .tail ws => ws.all blank
  | .pairW ws k x r => !ws.isEmpty && ws.all blank && wordOk k && x.ok && !r.keys.contains k && r.ok
end

/-- No place inside `w` (followed by `k`) where one of `pats` begins. -/
def clearOf (pats : List Str) : Str → Str → Bool
  | [], _ => true
  | c :: w, k => !(pats.any (startsWith (c :: (w ++ k)))) && clearOf pats w k

/-- What ends a stretch of text. -/
def openers : List Str := [c!"{{", c!"[[", c!"\\{{", c!"\\[["]

/-- The field of a link as it is written: no `|`, `]`, newline or `\`, but `\|`, `\]` and `\n` may occur. -/
def fieldOk : Str → Bool
  | [] => true
  | '\\' :: c :: w => (c == 'n' || c == '|' || c == ']') && fieldOk w
  | c :: w => c != '\\' && c != '|' && c != ']' && c != '\n' && fieldOk w

/-- What the field of a link says: `\n` is a newline, and `\|` and `\]` stand for the character. -/
def fieldValue : Str → Str
  | '\\' :: 'n' :: w => '\n' :: fieldValue w
  | '\\' :: c :: w => c :: fieldValue w
  | c :: w => c :: fieldValue w
  | [] => []

/-- The label or title of a link, if present, is not empty. -/
def optFieldOk : Option Str → Bool
  | none => true
  | some w => !w.isEmpty && fieldOk w

/-- The last character, if any, is ASCII. -/
def asciiEnd (w : Str) : Bool :=
  match w.getLast? with
  | none => true
  | some c => c.utf8Size == 1

def STm.startsText : STm → Bool
  | .text .. => true
  | _ => false

/-- The text after a tag cannot begin with `}`. -/
def STm.noBrace : STm → Bool
  | .text w _ => w.head? != some '}'
  | _ => true

mutual
/-- Well formed when followed by `k`: text is not empty, contains no tag, and is not next to text;
comments do not contain their end; and so on. -/
def STm.ok [Host] : STm → Str → Bool
  | .nil, _ => true
  | .text w r, k => !w.isEmpty && clearOf openers w (r.src ++ k) && !r.startsText && r.ok k
  | .comment w r, k => clearOf [c!"}}"] w c!"}}" && !startsWith w c!"--" && r.ok k
  | .longComment w r, k => clearOf [c!"--}}"] w c!"--}}" && r.ok k
  | .escaped w r, k => clearOf [c!"}}", c!"~}}"] (escInner w) (escFin w) && (escCurly w || r.noBrace) && r.ok k
  | .link _ h l t r, k => fieldOk h && optFieldOk l && optFieldOk t && (l.isSome || t.isNone) && r.ok k
  | .stmt _ part tl p a r, k => tl.ok && gapOk part tl.gap && p.ok && a.ok && r.noBrace && r.ok k
  | .dyn _ part tl q b a r, k => tl.ok && gapOk part tl.gap && q.ok && b.ok && a.ok && r.noBrace && r.ok k
  | .rawBlock tl name a w cl r, k =>
      tl.ok && cl.ok && nameOk name && a.ok && clearOf openers w (rawCloseText name cl ++ (r.src ++ k)) && (cl.after || asciiEnd (name ++ cl.tail)) && r.ok k
  | .block part tl name a body cs cl r, k =>
      tl.ok && gapOk part tl.gap && cl.ok && nameOk name && a.ok && body.noBrace && body.ok (cs.src ++ (closeText name cl ++ (r.src ++ k))) &&
      cs.ok (closeText name cl ++ (r.src ++ k)) &&
      (cl.after || asciiEnd (name ++ cl.tail)) && r.noBrace && r.ok k
def SCls.ok [Host] : SCls → Str → Bool
  | .nil, _ => true
  | .cons tl cond body r, k =>
      tl.ok && (match cond with
       | none => true
       | some (p, a) => !tl.gap.isEmpty && p.ok && a.ok) &&
      body.noBrace && body.ok (r.src ++ k) &&
      (match r with
       | .nil => true
       | .cons .. => asciiEnd body.src) && r.ok k
end

/-! ### What a compiled template says -/

/-- The code drops escapes at the end of a string literal (C41). -/
def kept (s : List SChar) : List SChar := (s.reverse.dropWhile SChar.isEsc).reverse

/-- The recorded place of a literal is right (if nothing was dropped). -/
def SLit.whole : SLit → Bool
  | .str _ s => kept s == s
  | _ => true

/-- The value of a literal. -/
def SLit.value [Host] : SLit → Value
  | .null => .null
  | .bool b => .bool b
  | .nat n => .num (.posInt n)
  | .neg n => .num (.negInt n)
  | .dec d => match Host.parseFloat d.text with
      | some f => .num (.float f)
      | none => .null
  | .str q s => .str ((kept s).map (SChar.value (quote q)))
  | .bracket w => .str w

/-- The name a part of a path says. -/
def SPart.name : SPart → Str
  | .word w => w
  | .bracket w => w
  | .quoted q s => (kept s).map (SChar.value (quote q))

/-- The names after the beginning. -/
def SPath.names (p : SPath) : List Str := p.rest.map (·.part.name)

/-- Begins with `this` or `./`. -/
def Head.explicit : Head → Bool
  | .this => true
  | .dot => true
  | _ => false

/-- Begins with `/`. -/
def Head.absolute : Head → Bool
  | .abs _ => true
  | _ => false

/-- The first name of a path. -/
def Head.word : Head → Str
  | .abs w => w
  | h => h.text

/-- The part as it appears in the recorded text of a path that ends with it: cut after the opening quote or
bracket. -/
def SPart.shown : SPart → Str
  | .word w => w
  | .bracket _ => ['[']
  | .quoted q _ => [quote q]

def dottedShown : List SComp → Str
  | [] => []
  | [c] => c.sep :: c.part.shown
  | c :: d :: r => c.sep :: (c.part.text ++ dottedShown (d :: r))

def followingShown : Head → List SComp → Str
  | .dot, [c] => c.part.shown
  | .dot, c :: r => c.part.text ++ dottedShown r
  | _, r => dottedShown r

/-- The recorded text of a path (in error messages). -/
def SPath.shown (p : SPath) : Str := dots p.parents ++ (p.head.text ++ followingShown p.head p.rest)

def Head.kind : Head → CompKind
  | .name _ => .identifier
  | .this => .thisKeyword
  | .dot => .thisDotSlash
  | .loc _ => .localIdentifier
  | .abs _ => .identifier

def SPart.kind : SPart → CompKind
  | .word _ => .identifier
  | .bracket _ => .rawIdentifier .array
  | .quoted q _ => .rawIdentifier (if q then .single else .double)

/-- The compiled path `q` is `p`. -/
structure PathRep (p : SPath) (q : Path) : Prop where
  parents : q.parents = p.parents
  absolute : q.absolute = p.head.absolute
  explicit : q.explicit = p.head.explicit
  root : q.root = (p.head == .loc c!"root")
  kinds : q.components.map (·.kind) = p.head.kind :: p.rest.map (·.part.kind)
  texts : q.components.mapM Component.asValue = some (p.head.word :: p.names)
  asStr : q.asStr = some p.shown

mutual
/-- The compiled argument is the expression. -/
inductive ExprRep [Host] : SExpr → ParamValue → Prop
  | path {p : SPath} {q : Path} (h : PathRep p q) : ExprRep (.path p) (.path q)
  | lit {l : SLit} {src : Str} {sp ln : Span} (h : l.whole = true → slice src sp.start sp.stop = some l.text) :
      ExprRep (.lit l) (.json src l.value sp ln)
  | sub {p : SPath} {a : SArgs} {c : Call} {q : Path} (ht : c.target = .path q) (hp : PathRep p q)
      (ha : ArgsRep a c.args c.params) (h1 : c.isPartial = false) (h2 : c.conditional = false)
      (hs : c.asStr = some (SExpr.sub p a).text) : ExprRep (.sub p a) (.subExpr c)
/-- The compiled arguments are these. -/
inductive ArgsRep [Host] : SArgs → List ParamValue → List (Str × ParamValue) → Prop
  | done {h : SHash} {hs : List (Str × ParamValue)} (hh : HashRep h hs) : ArgsRep (.done h) [] hs
  | arg {ws : Str} {x : SExpr} {v : ParamValue} {r : SArgs} {vs : List ParamValue} {hs : List (Str × ParamValue)}
      (hx : ExprRep x v) (hr : ArgsRep r vs hs) : ArgsRep (.argW ws x r) (v :: vs) hs
/-- The compiled hash arguments are these. -/
inductive HashRep [Host] : SHash → List (Str × ParamValue) → Prop
  | nil {ws : Str} : HashRep (.tail ws) []
  | pair {ws : Str} {k : Str} {x : SExpr} {v : ParamValue} {r : SHash} {hs : List (Str × ParamValue)}
      (hx : ExprRep x v) (hr : HashRep r hs) : HashRep (.pairW ws k x r) ((k, v) :: hs)
end

/-- The compiled tag content `c` is: a partial or not, an `else` or not, and the call. -/
structure TagRep [Host] (part cond : Bool) (target : Option SPath) (a : SArgs) (c : Call) : Prop where
  isPartial : c.isPartial = part
  conditional : c.conditional = cond
  target : match target with
    | none => c.isEmpty = true
    | some p => ∃ q, c.target = .path q ∧ PathRep p q
  args : ArgsRep a c.args c.params

/-- Its `~`s. -/
structure TildeRep (tl : Tilde) (n : Node) : Prop where
  before : n.trimBefore = some tl.before
  after : n.trimAfter = some tl.after

/-- The code sees the `~` of `{{~foo}}`, but not that of a statement `{{~ foo}}`. -/
def Tilde.seen (tl : Tilde) : Tilde := { tl with before := tl.before && tl.pad.isEmpty }

mutual
/-- The compiled nodes say what the template says. -/
inductive TmRep [Host] : STm → List Node → Prop
  | nil : TmRep .nil []
  | text {w : Str} {r : STm} {t : Text} {ns : List Node} (h : t.asStr = some w) (hr : TmRep r ns) :
      TmRep (.text w r) (.text t :: ns)
  | comment {w : Str} {r : STm} {t : TextBlock} {ns : List Node} (h : t.asStr = some (commentText w))
      (hw : t.text.asStr = some w) (hr : TmRep r ns) : TmRep (.comment w r) (.comment t :: ns)
  | longComment {w : Str} {r : STm} {t : TextBlock} {ns : List Node} (h : t.asStr = some (longCommentText w))
      (hw : t.text.asStr = some w) (hr : TmRep r ns) : TmRep (.longComment w r) (.rawComment t :: ns)
  | escaped {w : Str} {r : STm} {t : TextBlock} {ns : List Node} (h : t.asStr = some (escapedText w))
      (hw : t.text.asStr = some (escInner w)) (hr : TmRep r ns) : TmRep (.escaped w r) (.rawStatement t :: ns)
  | link {e : Bool} {hr : Str} {lb tt : Option Str} {r : STm} {l : Link} {ns : List Node}
      (h : l.asStr = some (linkText e hr lb tt)) (he : l.isEscaped = some e) (h1 : l.hrefStr = some (fieldValue hr))
      (h2 : l.labelStr = some (fieldValue (lb.getD []))) (h3 : l.titleStr = some (fieldValue (tt.getD []))) (hn : TmRep r ns) :
      TmRep (.link e hr lb tt r) (.link l :: ns)
  | stmt {raw part : Bool} {tl : Tilde} {p : SPath} {a : SArgs} {r : STm} {c : Call} {ns : List Node}
      (h : c.asStr = some (stmtText raw part tl p a)) (ht : TagRep part false (some p) a c)
      (he : c.isEscaped = some (!raw)) (hl : TildeRep tl.seen (.statement c)) (hr : TmRep r ns) :
      TmRep (.stmt raw part tl p a r) (.statement c :: ns)
  | dyn {raw part : Bool} {tl : Tilde} {q : SPath} {b a : SArgs} {r : STm} {c d : Call} {ns : List Node}
      (h : c.asStr = some (dynText raw part tl q b a)) (hp : c.isPartial = part) (hcond : c.conditional = false)
      (ht : c.target = .subExpr d) (hd : ExprRep (.sub q b) (.subExpr d)) (ha : ArgsRep a c.args c.params)
      (he : c.isEscaped = some (!raw)) (hl : TildeRep tl.seen (.statement c)) (hr : TmRep r ns) :
      TmRep (.dyn raw part tl q b a r) (.statement c :: ns)
  | rawBlock {tl : Tilde} {name : Str} {a : SArgs} {w : Str} {cl : Tilde} {r : STm} {b : Block} {t : Text}
      {ns : List Node} (h : b.asStr = some (rawOpenText tl name a ++ (w ++ rawCloseText name cl)))
      (hraw : b.raw = true) (ht : TagRep false false (some ⟨0, .name name, []⟩) a b.call)
      (hl : TildeRep tl (.block b)) (hc : b.trimClose = some ⟨cl.before, cl.after⟩)
      (hn : b.nodes = [.text t]) (hw : t.asStr = some w) (hcs : b.conditionals = []) (hr : TmRep r ns) :
      TmRep (.rawBlock tl name a w cl r) (.block b :: ns)
  | block {part : Bool} {tl : Tilde} {name : Str} {a : SArgs} {body : STm} {cs : SCls} {cl : Tilde} {r : STm}
      {b : Block} {ns : List Node}
      (h : b.asStr = some (openText part tl name a ++ (body.src ++ (cs.src ++ closeText name cl))))
      (hraw : b.raw = false) (ht : TagRep part false (some ⟨0, .name name, []⟩) a b.call)
      (hl : TildeRep tl (.block b)) (hc : b.trimClose = some ⟨cl.before, cl.after⟩)
      (hb : TmRep body b.nodes) (hcs : ClsRep cl cs b.conditionals) (hr : TmRep r ns) :
      TmRep (.block part tl name a body cs cl r) (.block b :: ns)
/-- The compiled clauses are these; the last one ends with the end tag `cl` of the block. -/
inductive ClsRep [Host] : Tilde → SCls → List Node → Prop
  | nil {cl : Tilde} : ClsRep cl .nil []
  | cons {cl tl : Tilde} {cond : Option (SPath × SArgs)} {body : STm} {r : SCls} {b : Block} {ns : List Node}
      (hraw : b.raw = false)
      (ht : TagRep false true (cond.map (·.1)) (match cond with | none => .done .nil | some x => x.2) b.call)
      (hl : TildeRep tl (.block b))
      (hc : b.trimClose = some (match r with | .nil => ⟨cl.before, cl.after⟩ | .cons .. => ⟨false, false⟩))
      (hb : TmRep body b.nodes) (hcs : b.conditionals = []) (hr : ClsRep cl r ns) :
      ClsRep cl (.cons tl cond body r) (.block b :: ns)
end

/-- The nodes of a compiled template. -/
def docNodes : Node → List Node
  | .document _ ns => ns
  | _ => []

end Bracket.Spec
