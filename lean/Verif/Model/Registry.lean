import Verif.Model.Helpers

/-! Model of `src/registry.rs` and `src/template.rs`. -/

namespace Bracket

/-- error/mod.rs `Error`. -/
inductive ApiErr where
  | syntax (e : SyntaxErr)
  | render (e : RenderErr)
  | templateNotFound (name : Str)
  | io (e : IoErr)

/-- Outcome of a public operation. -/
inductive Out (α : Type) where
  | ok (a : α)
  | err (e : ApiErr)
  | panic
  | fuel

/-- registry.rs:32-40 `Registry::new`. -/
def Reg.new [Host] : Reg :=
  { helpers := builtins, link := none, helperMissing := none, blockHelperMissing := none,
    templates := [], escape := escapeHtml, strict := false }

namespace Reg

/-- registry.rs:43-45 `set_strict`. -/
def setStrict (b : Bool) (r : Reg) : Reg := { r with strict := b }
/-- registry.rs:53-55 `set_escape`. -/
def setEscape (f : Str → Str) (r : Reg) : Reg := { r with escape := f }
/-- helper/mod.rs:280-282 `HelperRegistry::insert`. -/
def insertHelper (name : Str) (h : HelperFn) (r : Reg) : Reg :=
  { r with helpers := assocInsert name h r.helpers }
/-- helper/mod.rs:285-287 `HelperRegistry::remove`. -/
def removeHelper (name : Str) (r : Reg) : Reg := { r with helpers := assocErase name r.helpers }

/-- registry.rs:99-101 `get`. -/
def get (r : Reg) (name : Str) : Option Template := assoc name r.templates

/-- registry.rs:104-106 `remove`. -/
def remove (r : Reg) (name : Str) : Option Template × Reg :=
  (assoc name r.templates, { r with templates := assocErase name r.templates })

end Reg

/-- parser/mod.rs:17 `UNKNOWN`. -/
def unknownName : Str := c!"unknown"

/-- template.rs:41-68 `Template::compile`; registry.rs:221-230 `compile`. -/
def compileTemplate [Host] (src : Str) (o : ParserOptions) : Out Template :=
  match compile src o with
  | .ok doc => .ok ⟨if o.fileName ≠ unknownName then some o.fileName else none, doc⟩
  | .err e => .err (.syntax e)
  | .panic => .panic
  | .fuel => .fuel

/-- registry.rs:236-241 `parse`. -/
def parseTemplate [Host] (name src : Str) : Out Template := compileTemplate src ⟨name, 0, 0⟩

namespace Reg

/-- registry.rs:109-121 `insert`. -/
def insert [Host] (r : Reg) (name src : Str) : Out Unit × Reg :=
  match compileTemplate src ⟨name, 0, 0⟩ with
  | .ok t => (.ok (), { r with templates := assocInsert name t r.templates })
  | .err e => (.err e, r)
  | .panic => (.panic, r)
  | .fuel => (.fuel, r)

end Reg

/-- template.rs:81-95 `Template::render` with an empty call stack: the outcome and the
final state of the renderer. -/
def renderTo [Host] (n : Nat) (r : Reg) (sink : Sink) (name : Str) (doc : Node) (data : Value) :
    Res Unit × RS :=
  renderAll (sem n) { reg := r, name, root := data, sink } doc (RS.init [])

/-- registry.rs:397-409 `render_template` (also the last lines of `once` and `render`). -/
def renderTemplate [Host] (n : Nat) (r : Reg) (name : Str) (t : Template) (data : Value) : Out Str :=
  match renderTo n r stringSink name t.node data with
  | (.ok _, s) => .ok (outText s.out)
  | (.err e, _) => .err (.render e)
  | (.panic, _) => .panic
  | (.fuel, _) => .fuel

/-- registry.rs:262-274 `once`. -/
def Reg.once [Host] (n : Nat) (r : Reg) (name src : Str) (data : Value) : Out Str :=
  match compileTemplate src ⟨name, 0, 0⟩ with
  | .ok t => renderTemplate n r name t data
  | .err e => .err e
  | .panic => .panic
  | .fuel => .fuel

/-- registry.rs:414-430 `render_to_write`: the outcome and the writes made. -/
def Reg.renderToWrite [Host] (n : Nat) (r : Reg) (sink : Sink) (name : Str) (data : Value) :
    Out Unit × List Wr :=
  match assoc name r.templates with
  | none => (.err (.templateNotFound name), [])
  | some t =>
      match renderTo n r sink name t.node data with
      | (.ok _, s) => (.ok (), s.out)
      | (.err e, s) => (.err (.render e), s.out)
      | (.panic, s) => (.panic, s.out)
      | (.fuel, s) => (.fuel, s.out)

/-- registry.rs:386-393 `render`. -/
def Reg.render [Host] (n : Nat) (r : Reg) (name : Str) (data : Value) : Out Str :=
  match r.renderToWrite n stringSink name data with
  | (.ok _, ws) => .ok (outText ws)
  | (.err e, _) => .err e
  | (.panic, _) => .panic
  | (.fuel, _) => .fuel

/-! ### The `fs` feature -/

/-- `std::fs::read_to_string`, as a function of the path. -/
abbrev Fs := Str → Except IoErr Str

/-- registry.rs:127-142 `add`: read a file and register it under `name`. -/
def Reg.add [Host] (r : Reg) (fs : Fs) (name file : Str) : Out Unit × Reg :=
  match fs file with
  | .error e => (.err (.io e), r)
  | .ok content =>
      match compileTemplate content ⟨file, 0, 0⟩ with
      | .ok t => (.ok (), { r with templates := assocInsert name t r.templates })
      | .err e => (.err e, r)
      | .panic => (.panic, r)
      | .fuel => (.fuel, r)

/-- registry.rs:148-160 `load`: the name is the path. -/
def Reg.load [Host] (r : Reg) (fs : Fs) (file : Str) : Out Unit × Reg := r.add fs file file

/-- The last `.` of a file name: what is before and after it (`rsplit_file_at_dot` of `std::path`). -/
def rsplitDot : Str → Option (Str × Str)
  | [] => none
  | c :: s =>
      match rsplitDot s with
      | some (a, b) => some (c :: a, b)
      | none => if c = '.' then some ([], s) else none

/-- `Path::extension` of a file name: what follows its last `.`, unless that is its first character.
Simplification: the name `..`, which no listing contains, is not treated specially. -/
def fileExt (name : Str) : Option Str :=
  match rsplitDot name with
  | some (_ :: _, e) => some e
  | _ => none

/-- `Path::file_stem` of a file name. -/
def fileStem (name : Str) : Str :=
  match rsplitDot name with
  | some (c :: st, _) => c :: st
  | _ => name

/-- A directory entry: its path, its name, and whether it is a file. -/
structure DirEntry where
  path : Str
  name : Str
  isFile : Bool

/-- registry.rs:170-204 `read_dir`, given the entries `std::fs::read_dir` yields. -/
def Reg.readDir [Host] (fs : Fs) (ext : Str) : List (Except IoErr DirEntry) → Reg → Out Unit × Reg
  | [], r => (.ok (), r)
  | .error x :: _, r => (.err (.io x), r)
  | .ok e :: es, r =>
      if e.isFile && fileExt e.name == some ext then
        match r.add fs (fileStem e.name) e.path with
        | (.ok _, r') => Reg.readDir fs ext es r'
        | x => x
      else Reg.readDir fs ext es r

end Bracket
