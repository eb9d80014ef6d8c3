import Verif.Spec.Tags
import Verif.Spec.Snippet

/-! Sources that are well formed except for end tags that match nothing and blocks without a plain name. -/

namespace Bracket.Spec

/-- An end tag where no block is open, a block ended by a tag with another name, the opening tag of a
block whose name is not a plain one (`{{#a.b}}`, `{{#this}}`), or that of a block whose name is computed
(`{{#(f x)}}`, and `{{#> (f x)}}` too). -/
inductive TagFault where
  | stray (name : Str) (cl : Tilde)
  | crossed (f : OpenBlock) (name : Str) (cl : Tilde)
  | named (part : Bool) (tl : Tilde) (p : SPath) (a : SArgs)
  | computed (part : Bool) (tl : Tilde) (q : SPath) (b a : SArgs)

def TagFault.src : TagFault → Str
  | .stray name cl => closeText name cl
  | .crossed f name cl => framesSrc [f] ++ closeText name cl
  | .named part tl p a => openText part tl p.text a
  | .computed part tl q b a => openText part tl (SExpr.sub q b).text a

/-- The error it is reported as. -/
def TagFault.kind : TagFault → SynKind
  | .stray .. => .blockNotOpen
  | .crossed .. => .tagNameMismatch
  | .named .. => .blockName
  | .computed .. => .blockName

/-- The path is a name: `foo`, `../foo`. -/
def justName (p : SPath) : Bool :=
  match p.head with
  | .name _ => p.rest.isEmpty
  | _ => false

def TagFault.ok [Host] : TagFault → Str → Bool
  | .stray name cl, _ => nameOk name && cl.ok
  | .crossed f name cl, k => nameOk name && cl.ok && framesOk [f] (closeText name cl ++ k) && f.name != name
  | .named part tl p a, _ => tl.ok && gapOk part tl.gap && p.ok && a.ok && !justName p
  | .computed part tl q b a, _ => tl.ok && gapOk part tl.gap && (SExpr.sub q b).ok && a.ok

/-- Templates with a fault after each of them, and a last template. -/
def faultsSrc : List (STm × TagFault) → STm → Str
  | [], T => T.src
  | (T, x) :: r, last => T.src ++ (x.src ++ faultsSrc r last)

/-- Apart from the faults everything is well formed; `}}` is not followed by a third brace. -/
def faultsOk [Host] : List (STm × TagFault) → STm → Bool
  | [], T => T.ok []
  | (T, x) :: r, last => T.ok (x.src ++ faultsSrc r last) && x.ok (faultsSrc r last) && (faultsSrc r last).head? != some '}' && faultsOk r last

/-- Where the faults begin. -/
def positions : Nat → List (STm × TagFault) → List (TagFault × Nat)
  | _, [] => []
  | off, (T, x) :: r => (x, off + blen T.src) :: positions (off + blen (T.src ++ x.src)) r

/-- The fault is an end tag with no open block, on a line of one-byte characters. -/
def Clear (src : Str) (x : TagFault) (byte : Nat) : Prop := x.kind = .blockNotOpen ∧ ∃ before line after, LineOf src byte before line after ∧ Ascii line

/-- The error for a fault: an end tag with no open block is reported where it begins. -/
def Reported [Host] (src file : Str) (x : TagFault × Nat) (e : SyntaxErr) : Prop :=
  e.kind = x.1.kind ∧ (x.1.kind = .blockNotOpen → ∃ line notes, errorInfo src file line x.2 notes = some e.info)

end Bracket.Spec
