import Verif.Spec.Registry

/-! When two registries hold the same. -/

namespace Bracket.Spec

/-- Two registries that cannot be told apart by looking names up: under every name the same template
and the same helper, the same three handlers, the same settings.  How, in which order and after what
detours they were filled is not compared. -/
structure HoldSame (r r' : Reg) : Prop where
  templates : ∀ name, r.get name = r'.get name
  helpers : ∀ name, assoc name r.helpers = assoc name r'.helpers
  link : r.link = r'.link
  helperMissing : r.helperMissing = r'.helperMissing
  blockHelperMissing : r.blockHelperMissing = r'.blockHelperMissing
  escape : r.escape = r'.escape
  strict : r.strict = r'.strict

/-- One thing an application can do to a registry. -/
inductive Change where
  | template (op : RegOp)
  | helper (name : Str) (h : HelperFn)
  | noHelper (name : Str)
  | link (h : Option HelperFn)
  | helperMissing (h : Option HelperFn)
  | blockHelperMissing (h : Option HelperFn)
  | escape (f : Str → Str)
  | strict (b : Bool)

/-- What a change is about: one template, one helper, one handler or one setting. -/
inductive Subject where
  | template (name : Str)
  | helper (name : Str)
  | link
  | helperMissing
  | blockHelperMissing
  | escape
  | strict
deriving DecidableEq

/-- What a change is about. -/
def Change.about : Change → Subject
  | .template (.insert name _) => .template name
  | .template (.add name _) => .template name
  | .template (.remove name) => .template name
  | .template (.get name) => .template name
  | .helper name _ => .helper name
  | .noHelper name => .helper name
  | .link _ => .link
  | .helperMissing _ => .helperMissing
  | .blockHelperMissing _ => .blockHelperMissing
  | .escape _ => .escape
  | .strict _ => .strict

/-- The registry after a change. -/
def Change.make [Host] (fs : Fs) (r : Reg) : Change → Reg
  | .template op => (regStep fs r op).2
  | .helper name h => r.insertHelper name h
  | .noHelper name => r.removeHelper name
  | .link h => { r with link := h }
  | .helperMissing h => { r with helperMissing := h }
  | .blockHelperMissing h => { r with blockHelperMissing := h }
  | .escape f => r.setEscape f
  | .strict b => r.setStrict b

/-- The registry after one change after the other. -/
def changed [Host] (fs : Fs) (r : Reg) (cs : List Change) : Reg := cs.foldl (Change.make fs) r

end Bracket.Spec
