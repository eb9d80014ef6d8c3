import Verif.Model.Registry

/-! The registry as a plain map from names to templates. -/

namespace Bracket.Spec

/-- Public operations that read or change the set of templates. -/
inductive RegOp where
  | insert (name src : Str)
  | add (name file : Str)
  | remove (name : Str)
  | get (name : Str)

/-- What an operation answers. -/
inductive RegAns where
  | done (r : Out Unit)
  | found (t : Option Template)

/-- A map from names to templates. -/
abbrev TMap := Str → Option Template

/-- The template (or error) an insertion produces: the compiled source under that file
name. -/
def produced [Host] (fs : Fs) : RegOp → Out Template
  | .insert name src => compileTemplate src ⟨name, 0, 0⟩
  | .add _ file => match fs file with
      | .ok src => compileTemplate src ⟨file, 0, 0⟩
      | .error e => .err (.io e)
  | _ => .panic

/-- The abstract step: a successful insertion sets one name, a removal clears one, all
else is unchanged. -/
def mapStep [Host] (fs : Fs) (m : TMap) (op : RegOp) : RegAns × TMap :=
  match op with
  | .insert name _ | .add name _ =>
      match produced fs op with
      | .ok t => (.done (.ok ()), fun n => if n = name then some t else m n)
      | .err e => (.done (.err e), m)
      | .panic => (.done .panic, m)
      | .fuel => (.done .fuel, m)
  | .remove name => (.found (m name), fun n => if n = name then none else m n)
  | .get name => (.found (m name), m)

/-- A history of operations on the map: answers and final map. -/
def mapRun [Host] (fs : Fs) (m : TMap) : List RegOp → List RegAns × TMap
  | [] => ([], m)
  | op :: ops => ((mapStep fs m op).1 :: (mapRun fs (mapStep fs m op).2 ops).1,
      (mapRun fs (mapStep fs m op).2 ops).2)

/-- The same operation on a registry. -/
def regStep [Host] (fs : Fs) (r : Reg) : RegOp → RegAns × Reg
  | .insert name src => (.done (r.insert name src).1, (r.insert name src).2)
  | .add name file => (.done (r.add fs name file).1, (r.add fs name file).2)
  | .remove name => (.found (r.remove name).1, (r.remove name).2)
  | .get name => (.found (r.get name), r)

/-- A history of operations on a registry. -/
def regRun [Host] (fs : Fs) (r : Reg) : List RegOp → List RegAns × Reg
  | [] => ([], r)
  | op :: ops => ((regStep fs r op).1 :: (regRun fs (regStep fs r op).2 ops).1,
      (regRun fs (regStep fs r op).2 ops).2)

/-- The name an operation may set. -/
def RegOp.sets : RegOp → Option Str
  | .insert name _ => some name
  | .add name _ => some name
  | _ => none

/-- The operation has no effect on `name`: it is about another name, a lookup, or an
insertion that fails. -/
def Leaves [Host] (fs : Fs) (name : Str) (op : RegOp) : Prop :=
  op ≠ .remove name ∧ (op.sets = some name → ∀ t, produced fs op ≠ .ok t)

end Bracket.Spec
