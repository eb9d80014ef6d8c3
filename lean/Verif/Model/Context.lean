import Verif.Model.Helpers

/-! Model of the remaining methods of `src/render/context.rs`, and of `Render::try_evaluate`. -/

namespace Bracket

namespace Ctx
/-- context.rs:169-171 `raw_param`; the outer option is the panic of the slice. -/
def rawParam (c : Ctx) (k : Str) : Option (Option Str) :=
  match assoc k c.call.params with
  | none => some none
  | some v => v.asStr.map some
/-- context.rs:208-215 `try_value`. -/
def tryValue (c : Ctx) (v : Value) (kinds : List JType) : Except HelperErr Value :=
  match c.assert v kinds with
  | .ok _ => .ok v
  | .error e => .error e
/-- context.rs:303-309 `lookup`. -/
def lookup (_ : Ctx) (target : Value) (field : Str) : Option Value := findField target field
/-- context.rs:312-314 `is_truthy`. -/
def truthy (_ : Ctx) (v : Value) : Bool := isTruthy v
end Ctx

/-- render/mod.rs:409-418 the part of `try_evaluate` after the evaluation; the error names the path. -/
def typed (path : Str) (kinds : List JType) : Except HelperErr (Option Value) → Except HelperErr Value
  | .error e => .error e
  | .ok v =>
      let v := v.getD .null
      match assertKinds v kinds with
      | none => .ok v
      | some k => .error (.typeAssert path k (typeOf v).name)

/-- render/mod.rs:404-419 `try_evaluate`. -/
def Prog.tryEvaluate (path : Str) (kinds : List JType) (k : Except HelperErr Value → Prog) : Prog :=
  .evaluate path fun r => k (typed path kinds r)

end Bracket
