import Verif.Spec.Registry

/-! Loading templates from files. -/

namespace Bracket.Spec

/-- The name of a file is `stem.ext`: there is something before the last dot. -/
def Named (name stem ext : Str) : Prop := name = stem ++ '.' :: ext ∧ '.' ∉ ext ∧ stem ≠ []

/-- The entry is a file with this extension, and `stem` is its name without it. -/
def Matching (ext : Str) (e : DirEntry) (stem : Str) : Prop := e.isFile = true ∧ Named e.name stem ext

/-- Setting one name. -/
def TMap.set (m : TMap) (name : Str) (t : Template) : TMap := fun n => if n = name then some t else m n

/-- Reading the entries of a directory turns the templates `m` into `m'` and answers `a`: the files with the
extension are read and compiled in order, each registered under its stem, up to the first failure, which is
the answer. -/
inductive Reads [Host] (fs : Fs) (ext : Str) : TMap → List (Except IoErr DirEntry) → Out Unit → TMap → Prop
  | done {m : TMap} : Reads fs ext m [] (.ok ()) m
  | entry {m : TMap} {x : IoErr} {es : List (Except IoErr DirEntry)} : Reads fs ext m (.error x :: es) (.err (.io x)) m
  | skip {m m' : TMap} {e : DirEntry} {es : List (Except IoErr DirEntry)} {a : Out Unit} (h : ∀ st, ¬ Matching ext e st)
      (hr : Reads fs ext m es a m') : Reads fs ext m (.ok e :: es) a m'
  | file {m m' : TMap} {e : DirEntry} {st src : Str} {t : Template} {es : List (Except IoErr DirEntry)} {a : Out Unit}
      (h : Matching ext e st) (hf : fs e.path = .ok src) (hc : compileTemplate src ⟨e.path, 0, 0⟩ = .ok t)
      (hr : Reads fs ext (m.set st t) es a m') : Reads fs ext m (.ok e :: es) a m'
  | unreadable {m : TMap} {e : DirEntry} {st : Str} {x : IoErr} {es : List (Except IoErr DirEntry)}
      (h : Matching ext e st) (hf : fs e.path = .error x) : Reads fs ext m (.ok e :: es) (.err (.io x)) m
  | bad {m : TMap} {e : DirEntry} {st src : Str} {x : ApiErr} {es : List (Except IoErr DirEntry)}
      (h : Matching ext e st) (hf : fs e.path = .ok src) (hc : compileTemplate src ⟨e.path, 0, 0⟩ = .err x) :
      Reads fs ext m (.ok e :: es) (.err x) m
  | panics {m : TMap} {e : DirEntry} {st src : Str} {es : List (Except IoErr DirEntry)}
      (h : Matching ext e st) (hf : fs e.path = .ok src) (hc : compileTemplate src ⟨e.path, 0, 0⟩ = .panic) :
      Reads fs ext m (.ok e :: es) .panic m

end Bracket.Spec
