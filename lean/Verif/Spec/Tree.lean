import Verif.Model.Parser
import Verif.Spec.Lexer

/-! What a compiled template is made of, in terms of the source text: where each node starts and ends,
which line it is on, and that everything it refers to lies inside it. -/

namespace Bracket.Spec

/-- Byte offset `n` is on a character boundary of the text. -/
def Bd (src : Str) (n : Nat) : Prop := ∃ a b, src = a ++ b ∧ blen a = n

/-- The range is on character boundaries and lies between `lo` and `hi`. -/
structure In (src : Str) (lo hi : Nat) (sp : Span) : Prop where
  bs : Bd src sp.start
  be : Bd src sp.stop
  lo : lo ≤ sp.start
  le : sp.start ≤ sp.stop
  hi : sp.stop ≤ hi

/-- The number of newlines before byte `n`. -/
def newlines (src : Str) (n : Nat) : Nat := ((takeB n src).getD []).count '\n'

/-- The range holds a word: identifier characters, not followed by another one. -/
def WordAt (src : Str) (sp : Span) : Prop :=
  ∃ a w b, src = a ++ (w ++ b) ∧ sp = ⟨blen a, blen a + blen w⟩ ∧ w ≠ [] ∧ (∀ c ∈ w, isIdent c = true) ∧
    ∀ c r, b = c :: r → isIdent c = false

/-- The range holds a word, and it is a token of its own. -/
def Word (src : Str) (sp : Span) : Prop := WordAt src sp ∧ ⟨.params .identifier, sp⟩ ∈ lex src

/-- Characters an opening tag is made of. -/
def openerChars : List Char := ['{', '!', '-', '[', '~', ' ', '\t', '#', '/', '(', '\\']

/-- The range holds the start of a tag. -/
def OpenerAt (src : Str) (sp : Span) : Prop := ∃ w, slice src sp.start sp.stop = some w ∧ ∀ c ∈ w, c ∈ openerChars

/-- A part of a path. -/
structure CompIn (src : Str) (lo hi : Nat) (c : Component) : Prop where
  source : c.src = src
  span : In src lo hi c.span
  word : c.kind = .identifier → Word src c.span

/-- A path. -/
structure PathIn (src : Str) (lo hi : Nat) (p : Path) : Prop where
  source : p.src = src
  span : In src lo hi p.span
  ne : p.span.start < p.span.stop
  comps : ∀ c ∈ p.components, CompIn src lo hi c

mutual
/-- A call: everything it is made of lies between `lo` and `hi`, and its keys are distinct. -/
inductive CallIn (src : Str) : Nat → Nat → Call → Prop
  | mk {lo hi : Nat} {c : Call} (hs : c.src = src) (ho : In src lo hi c.opn ∧ c.opn.start < c.opn.stop ∧ OpenerAt src c.opn)
      (hc : ∀ sp, c.clo = some sp → In src c.opn.stop hi sp)
      (ht : TargetIn src c.opn.stop hi c.target) (ha : ∀ v ∈ c.args, ParamIn src c.opn.stop hi v)
      (hp : ∀ kv ∈ c.params, ParamIn src c.opn.stop hi kv.2) (hk : (c.params.map (·.1)).Nodup) : CallIn src lo hi c
/-- What is called; nothing for a bare `else`. -/
inductive TargetIn (src : Str) : Nat → Nat → CallTarget → Prop
  | none {lo hi : Nat} : TargetIn src lo hi (.path (Path.new src ⟨0, 0⟩ ⟨0, 0⟩))
  | path {lo hi : Nat} {p : Path} (h : PathIn src lo hi p) : TargetIn src lo hi (.path p)
  | sub {lo hi : Nat} {c : Call} (h : CallIn src lo hi c) (h' : c.clo.isSome) : TargetIn src lo hi (.subExpr c)
/-- An argument. -/
inductive ParamIn (src : Str) : Nat → Nat → ParamValue → Prop
  | path {lo hi : Nat} {p : Path} (h : PathIn src lo hi p) : ParamIn src lo hi (.path p)
  | json {lo hi : Nat} {v : Value} {sp ln : Span} (h : In src lo hi sp) : ParamIn src lo hi (.json src v sp ln)
  | sub {lo hi : Nat} {c : Call} (h : CallIn src lo hi c) (h' : c.clo.isSome) : ParamIn src lo hi (.subExpr c)
end

/-- The range holds text ending with `}}`. -/
def Braces (src : Str) (sp : Span) : Prop := ∃ w, slice src sp.start sp.stop = some (w ++ c!"}}")

/-- The tag of call `c` ends at `e`: it is closed there with `}}`, or it was never closed. -/
def TagEnds (src : Str) (c : Call) (e : Nat) : Prop :=
  (∃ sp, c.clo = some sp ∧ sp.stop = e ∧ Braces src sp) ∨ (c.clo = none ∧ c.opn.stop ≤ e)

/-- The end tag in `sp`, read up to `e`, contains `name` at a place where `P`, or it was never closed. -/
def EndTag (src name : Str) (P : Span → Prop) (sp : Span) (e : Nat) : Prop :=
  (sp.stop = e ∧ Braces src sp ∧ ∃ nm, In src sp.start sp.stop nm ∧ slice src nm.start nm.stop = some name ∧ P nm) ∨
  (sp.stop ≤ e ∧ ∃ w c, slice src sp.start sp.stop = some (w ++ [c]) ∧ c ≠ '}')

/-- A link. -/
structure LinkIn (src : Str) (a b : Nat) (l : Link) : Prop where
  source : l.src = src
  opn : In src a b l.opn
  start : l.opn.start = a
  clo : ∃ sp, l.clo = some sp ∧ In src l.opn.stop b sp ∧ sp.stop = b
  href : In src a b l.hrefSpan
  label : Bd src l.labelSpan.start ∧ Bd src l.labelSpan.stop
  title : Bd src l.titleSpan.start ∧ Bd src l.titleSpan.stop

/-- A comment or an escaped tag. -/
structure TextBlockIn (src : Str) (a b : Nat) (t : TextBlock) : Prop where
  source : t.src = src
  tsource : t.text.src = src
  opn : In src a b t.opn
  opens : t.opn.start < t.opn.stop ∧ OpenerAt src t.opn
  clo : In src a b t.clo
  start : t.opn.start = a
  inner : t.text.span = ⟨t.opn.stop, t.clo.start⟩
  le : t.opn.stop ≤ t.clo.start
  stop : t.clo.stop = b

section
-- `ln a l`: line `l` is right for a node starting at byte `a`; `lt a l`: for a text.
variable (src : Str) (ln lt : Nat → Nat → Prop)

mutual
/-- `Covers x a b`: the node stands for the source from byte `a` to byte `b`. -/
inductive Covers : Node → Nat → Nat → Prop
  | text {t : Text} {a b : Nat} (hs : t.src = src) (hi : In src a b t.span) (hsp : t.span = ⟨a, b⟩) (hl : lt a t.line.start) :
      Covers (.text t) a b
  | statement {c : Call} {a b : Nat} (hc : CallIn src a b c) (ha : c.opn.start = a) (hb : TagEnds src c b)
      (hl : ln a c.line.start) : Covers (.statement c) a b
  | rawStatement {t : TextBlock} {a b : Nat} (h : TextBlockIn src a b t) (hl : ln a t.text.line.start) : Covers (.rawStatement t) a b
  | rawComment {t : TextBlock} {a b : Nat} (h : TextBlockIn src a b t) (hl : ln a t.text.line.start) : Covers (.rawComment t) a b
  | comment {t : TextBlock} {a b : Nat} (h : TextBlockIn src a b t) (hl : ln a t.text.line.start) : Covers (.comment t) a b
  | link {l : Link} {a b : Nat} (h : LinkIn src a b l) (hl : ln a l.line.start) : Covers (.link l) a b
  | raw {b : Block} {t : Text} {a e z y w : Nat} {name : Str} (hs : b.src = src) (hr : b.raw = true) (hc : CallIn src a w b.call)
      (ho : b.opn = b.call.opn) (ha : b.call.opn.start = a)
      (hb : ∃ sp, b.call.clo = some sp ∧ sp.stop = e ∧ Braces src sp)
      (hn : b.nodes = [.text t]) (ht : t.src = src) (hi : In src e z t.span) (hsp : t.span = ⟨e, z⟩) (htl : ln e t.line.start)
      (hcs : b.conditionals = []) (hcl : b.clo = some ⟨z, y⟩) (hz : In src e w ⟨z, y⟩) (hy : y = w)
      (hnm : b.call.target.asStr = some name) (he : EndTag src name (fun _ => True) ⟨z, y⟩ w) (hl : ln a b.line.start) : Covers (.block b) a w
  | block {b : Block} {a z y w : Nat} {name : Str} (h : Inside b a z (some ⟨z, y⟩)) (hcl : b.clo = some ⟨z, y⟩)
      (hz : In src z w ⟨z, y⟩) (hnm : b.name = some (some name)) (he : EndTag src name (Word src) ⟨z, y⟩ w) (hl : ln a b.line.start) :
      Covers (.block b) a w
/-- The nodes stand for the source from `a` to `b`, one after another. -/
inductive CoversL : List Node → Nat → Nat → Prop
  | nil {a : Nat} : CoversL [] a a
  | cons {x : Node} {xs : List Node} {a b c : Nat} (h : Covers x a b) (h' : CoversL xs b c) : CoversL (x :: xs) a c
/-- An `else` clause from its tag to the next clause or the end tag. -/
inductive Branch : Block → Nat → Nat → Option Span → Prop
  | mk {b : Block} {a e z : Nat} {cl : Option Span} (hs : b.src = src) (hr : b.raw = false) (ho : b.opn = b.call.opn)
      (ha : b.call.opn.start = a) (hc : CallIn src a e b.call) (hb : TagEnds src b.call e) (hcond : b.call.conditional = true)
      (hn : CoversL b.nodes e z) (hcs : b.conditionals = []) (hcl : b.clo = cl) : Branch b a z cl
/-- All `else` clauses but the last. -/
inductive Branches : List Node → Nat → Nat → Prop
  | nil {a : Nat} : Branches [] a a
  | cons {b : Block} {xs : List Node} {a e z : Nat} (h : Branch b a e (some ⟨e - 1, e⟩)) (h' : Branches xs e z) :
      Branches (.block b :: xs) a z
/-- A block from its opening tag at `a` to its end tag at `z`; `cl` is how its last clause ends. -/
inductive Inside : Block → Nat → Nat → Option Span → Prop
  | plain {b : Block} {a e z : Nat} {cl : Option Span} (hs : b.src = src) (hr : b.raw = false) (ho : b.opn = b.call.opn)
      (ha : b.call.opn.start = a) (hc : CallIn src a e b.call) (hb : TagEnds src b.call e)
      (hn : CoversL b.nodes e z) (hcs : b.conditionals = []) : Inside b a z cl
  | clauses {b l : Block} {init : List Node} {a e f g z : Nat} {cl : Option Span} (hs : b.src = src) (hr : b.raw = false)
      (ho : b.opn = b.call.opn) (ha : b.call.opn.start = a) (hc : CallIn src a e b.call) (hb : TagEnds src b.call e)
      (hn : CoversL b.nodes e f) (hcs : b.conditionals = init ++ [.block l]) (hi : Branches init f g) (hl : Branch l g z cl) :
      Inside b a z cl
end
end

/-! ### Lines -/

/-- No newline is skipped without being counted: links hold no newline, and after `/` or `../` no newline
comes before the next name. -/
def Tight (src : Str) (all : List Token) : Prop :=
  (∀ t ∈ all, t.kind = .link .text → ∀ w, slice src t.span.start t.span.stop = some w → '\n' ∉ w) ∧
  (∀ l a run b r, all = l ++ a :: (run ++ b :: r) → a.kind = .params .parentRef ∨ a.kind = .params .pathDelimiter →
    (∀ x ∈ run, ∃ k, x.kind = .params k ∧ isPathComponent k = false) → b.kind ≠ .params .newline)

/-- Line `l` is the line of byte `a`, or before it if newlines were skipped. -/
def LnOk (src : Str) (base : Nat) (all : List Token) (a l : Nat) : Prop :=
  l ≤ base + newlines src a ∧ (Tight src all → l = base + newlines src a)

/-- Byte `a` is a newline. -/
def NlAt (src : Str) (a : Nat) : Prop := ∃ p r, src = p ++ '\n' :: r ∧ blen p = a

/-- Line `l` is recorded for a text starting at byte `a`. -/
def LtOk (src : Str) (base : Nat) (all : List Token) (a l : Nat) : Prop :=
  l ≤ base + newlines src a + 1 ∧ (Tight src all → (NlAt src a → l = base + newlines src a + 1) ∧ (¬ NlAt src a → l = base + newlines src a))

/-- The node's closing tag was not read to its end. -/
def Unfinished (src : Str) : Node → Prop
  | .statement c => c.clo = none
  | .block b => ∃ sp w c, b.clo = some sp ∧ slice src sp.start sp.stop = some (w ++ [c]) ∧ c ≠ '}'
  | _ => False

/-- At byte `k` an opening block tag `{{#` starts. -/
def BlockTagAt (src : Str) (k : Nat) : Prop :=
  ∃ p t sp r, src = p ++ (c!"{{" ++ (t ++ (sp ++ '#' :: r))) ∧ blen p = k ∧ (t = [] ∨ t = ['~']) ∧ ∀ c ∈ sp, c = ' ' ∨ c = '\t'

/-- At byte `k` an end tag of a raw block `{{{{/` starts. -/
def RawEndAt (src : Str) (k : Nat) : Prop :=
  ∃ p t sp r, src = p ++ (c!"{{{{" ++ (t ++ (sp ++ '/' :: r))) ∧ blen p = k ∧ (t = [] ∨ t = ['~']) ∧ ∀ c ∈ sp, c = ' ' ∨ c = '\t'

/-! ### Panics -/

/-- A byte errors are reported at: inside the source, or at its end if that is where an opening tag ends. -/
def ByteOk (src : Str) (b : Nat) : Prop :=
  b ≤ blen src ∧ (b = blen src → src = [] ∨ ∃ p c, src = p ++ [c] ∧ c ∈ openerChars)

/-- Why compiling panics: the snippet of a syntax error cannot be shown, a number literal is not a number,
or `../` is repeated 256 times in a build with overflow checks. -/
inductive Cause [Host] (src fileName : Str) : Prop
  | snippet (line byte : Nat) (notes : List Str) (h : errorInfo src fileName line byte notes = none) (hb : ByteOk src byte)
  | number (t : Token) (w : Str) (ht : t ∈ lex src) (hk : t.kind = .params .number)
      (hs : slice src t.span.start t.span.stop = some w) (hn : parseNumber w = none)
  | parents (a b : Str) (ho : Host.overflowChecks = true) (h : src = a ++ ((List.replicate 256 c!"../").flatten ++ b))

/-! ### Reading the compiled tree -/

/-- The node is somewhere in the list: in it, in the body of one of its blocks, or in one of their
`else` clauses. -/
inductive Occurs (x : Node) : List Node → Prop
  | here {ns : List Node} (h : x ∈ ns) : Occurs x ns
  | body {ns : List Node} {b : Block} (h : .block b ∈ ns) (h' : Occurs x b.nodes) : Occurs x ns
  | clause {ns : List Node} {b k : Block} (h : .block b ∈ ns) (hk : .block k ∈ b.conditionals) (h' : Occurs x k.nodes) : Occurs x ns

/-- `c` is the call `d`, or a sub-expression of it. -/
inductive Part (c : Call) : Call → Prop
  | self : Part c c
  | target {d e : Call} (h : d.target = .subExpr e) (h' : Part c e) : Part c d
  | arg {d e : Call} (h : .subExpr e ∈ d.args) (h' : Part c e) : Part c d
  | param {d e : Call} {k : Str} (h : (k, .subExpr e) ∈ d.params) (h' : Part c e) : Part c d

/-- The call is somewhere in the nodes: in a tag, an opening tag or an `else`. -/
def CallOccurs (c : Call) (ns : List Node) : Prop :=
  ∃ d, Part c d ∧ (Occurs (.statement d) ns ∨ (∃ b, Occurs (.block b) ns ∧ (b.call = d ∨ ∃ k, .block k ∈ b.conditionals ∧ k.call = d)))

/-- The byte a node starts at. -/
def nodeStart : Node → Nat
  | .text t => t.span.start
  | .statement c => c.opn.start
  | .block b => b.opn.start
  | .rawStatement t | .rawComment t | .comment t => t.opn.start
  | .link l => l.opn.start
  | .document .. => 0

/-- The line recorded for a node. -/
def nodeLine : Node → Nat
  | .text t => t.line.start
  | .statement c => c.line.start
  | .block b => b.line.start
  | .rawStatement t | .rawComment t | .comment t => t.text.line.start
  | .link l => l.line.start
  | .document .. => 0

/-- The node is a text. -/
def isTextNode : Node → Bool
  | .text _ => true
  | _ => false

end Bracket.Spec
