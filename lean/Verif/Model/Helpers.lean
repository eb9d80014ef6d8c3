import Verif.Model.Render

/-! Model of the built-in helpers: `src/helper/*.rs`. -/

namespace Bracket

/-- `rc.template(node)?` followed by `k`. -/
def Prog.tmpl (n : Node) (k : Prog) : Prog :=
  .template n fun r =>
    match r with
    | .ok _ => k
    | .error e => .fail e

/-- `ctx.arity(lo..hi)?` followed by `k`. -/
def Ctx.withArity (c : Ctx) (lo hi : Nat) (k : Prog) : Prog :=
  match c.arity lo hi with
  | .ok _ => k
  | .error e => .fail e

/-- `if let Some(node) = rc.inverse(template)? { rc.template(node)?; } Ok(None)`. -/
def Prog.tryInverse (n : Node) : Prog :=
  .inverse n fun r =>
    match r with
    | .ok none => .ret none
    | .ok (some m) => .tmpl m (.ret none)
    | .error e => .fail e

/-- if.rs:22-40. -/
def hIf : HelperFn := fun ctx t =>
  ctx.withArity 1 1 <|
    match ctx.get 0 with
    | none => .panic
    | some v =>
        match t with
        | some n => if isTruthy v then .tmpl n (.ret none) else .tryInverse n
        | none => .ret (some (.bool (isTruthy v)))

/-- unless.rs:15-32. -/
def hUnless : HelperFn := fun ctx t =>
  ctx.withArity 1 1 <|
    match t with
    | some n =>
        match ctx.get 0 with
        | none => .panic
        | some v => if !isTruthy v then .tmpl n (.ret none) else .tryInverse n
    | none => .ret none

/-- each.rs:63-72 and 81-88: the locals and base value of one iteration. -/
def eachScope (index : Nat) (last : Bool) (key : Option Str) (v : Value) (s : Scope) : Scope :=
  let s := s.setLocal c!"first" (.bool (index == 0))
  let s := s.setLocal c!"last" (.bool last)
  let s := s.setLocal c!"index" (.num (.posInt index))
  let s := match key with
    | some k => s.setLocal c!"key" (.str k)
    | none => s
  s.setBase v

/-- each.rs:58-75: iterate an object (in key order). -/
def eachObj (n : Node) : Nat → List (Str × Value) → Prog
  | _, [] => .popScope fun _ => .ret none
  | i, (k, v) :: r =>
      .scopeMut (eachScope i r.isEmpty (some k) v) fun _ => .tmpl n (eachObj n (i + 1) r)

/-- each.rs:77-92: iterate an array of length `len`. -/
def eachArr (n : Node) (len : Nat) : Nat → List Value → Prog
  | _, [] => .popScope fun _ => .ret none
  | i, v :: r =>
      .scopeMut (eachScope i (i == len - 1) none v) fun _ => .tmpl n (eachArr n len (i + 1) r)

/-- each.rs:35-98. -/
def hEach : HelperFn := fun ctx t =>
  ctx.withArity 1 1 <|
    match t with
    | some n =>
        match ctx.get 0 with
        | none => .panic
        | some target =>
            .pushScope Scope.new <|
              match target with
              | .obj m => eachObj n 0 m
              | .arr l => eachArr n l.length 0 l
              | _ => .popScope fun _ => .ret none
    | none => .ret none

/-- with.rs:14-37. -/
def hWith : HelperFn := fun ctx t =>
  ctx.withArity 1 1 <|
    match ctx.get 0 with
    | none => .ret none
    | some .null => .ret none
    | some v =>
        match t with
        | some n =>
            .pushScope Scope.new <| .scopeMut (Scope.setBase v) fun _ =>
              .tmpl n (.popScope fun _ => .ret none)
        | none => .ret none

/-- lookup.rs:19-38; `try_get(..).unwrap()` panics on a type error. -/
def hLookup : HelperFn := fun ctx _ =>
  ctx.withArity 2 2 <|
    match ctx.get 0 with
    | none => .panic
    | some target =>
        match ctx.tryGet 1 [.string] with
        | .ok (.str field) =>
            match findField target field with
            | some v => .ret (some v)
            | none => .fail (.lookupField ctx.name field)
        | .ok _ => .panic
        | .error _ => .panic

/-- Rust `split("\n")`. -/
def splitLines : Str → List Str
  | [] => [[]]
  | c :: cs =>
      if c = '\n' then [] :: splitLines cs
      else match splitLines cs with
        | [] => [[c]]
        | l :: ls => (c :: l) :: ls

/-- `Vec<String>::join(" ")`. -/
def joinSpace : List Str → Str
  | [] => []
  | [s] => s
  | s :: t :: r => s ++ ' ' :: joinSpace (t :: r)

/-- One log record per line. -/
def logLines (level : Str) : List Str → Prog
  | [] => .ret none
  | l :: ls => .log level l (logLines level ls)

/-- log.rs:52-58: the level used. -/
def logLevel (s : Str) : Str :=
  if s = c!"error" ∨ s = c!"debug" ∨ s = c!"warn" ∨ s = c!"trace" then s else c!"info"

/-- log.rs:30-63; a non-string `level` panics. -/
def hLog [Host] : HelperFn := fun ctx _ =>
  ctx.withArity 1 (2 ^ 64 - 1) <|
    let message := joinSpace (ctx.args.map unquote)
    match ctx.param c!"level" with
    | none => logLines c!"info" (splitLines message)
    | some (.str lvl) => logLines (logLevel lvl) (splitLines message)
    | some _ => .panic

/-- json.rs (helper):19-37. -/
def hJson [Host] : HelperFn := fun ctx _ =>
  ctx.withArity 1 1 <|
    match ctx.get 0 with
    | none => .panic
    | some v =>
        let pretty := isTruthy ((ctx.param c!"pretty").getD (.bool false))
        .ret (some (.str (if pretty then toJsonPretty 0 v else toJson v)))

/-- logical.rs:14-27. -/
def hAnd : HelperFn := fun ctx _ =>
  ctx.withArity 2 2 <|
    match ctx.get 0, ctx.get 1 with
    | some a, some b => .ret (some (.bool (isTruthy a && isTruthy b)))
    | _, _ => .panic

/-- logical.rs:34-47. -/
def hOr : HelperFn := fun ctx _ =>
  ctx.withArity 2 2 <|
    match ctx.get 0, ctx.get 1 with
    | some a, some b => .ret (some (.bool (isTruthy a || isTruthy b)))
    | _, _ => .panic

/-- logical.rs:54-62. -/
def hNot : HelperFn := fun ctx _ =>
  ctx.withArity 1 1 <|
    match ctx.get 0 with
    | some a => .ret (some (.bool (!isTruthy a)))
    | none => .panic

/-- comparison.rs:16-38 `cmp`.  `as_f64` never fails, so the two
`InvalidNumericalOperand` arms are unreachable. -/
def hCmp (f : F64 → F64 → Bool) : HelperFn := fun ctx _ =>
  ctx.withArity 2 2 <|
    match ctx.tryGet 0 [.number] with
    | .error e => .fail e
    | .ok lhs =>
        match ctx.tryGet 1 [.number] with
        | .error e => .fail e
        | .ok rhs =>
            match lhs, rhs with
            | .num a, .num b => .ret (some (.bool (f a.asF64 b.asF64)))
            | _, _ => .fail (.invalidNumericalOperand ctx.name)

/-- comparison.rs:40-51. -/
def hEq : HelperFn := hCmp F64.eqb
/-- comparison.rs:54-65. -/
def hNe : HelperFn := hCmp fun a b => !F64.eqb a b
/-- comparison.rs:68-79. -/
def hGt : HelperFn := hCmp fun a b => F64.ltb b a
/-- comparison.rs:82-93 (`>=` on finite doubles). -/
def hGte : HelperFn := hCmp fun a b => F64.ltb b a || F64.eqb a b
/-- comparison.rs:96-107. -/
def hLt : HelperFn := hCmp F64.ltb
/-- comparison.rs:110-121 (`<=` on finite doubles). -/
def hLte : HelperFn := hCmp fun a b => F64.ltb a b || F64.eqb a b

/-- helper/mod.rs:239-277 `builtins` (all features enabled). -/
def builtins [Host] : List (Str × HelperFn) :=
  [ (c!"if", hIf), (c!"unless", hUnless), (c!"eq", hEq), (c!"ne", hNe), (c!"gt", hGt),
    (c!"gte", hGte), (c!"lt", hLt), (c!"lte", hLte), (c!"log", hLog), (c!"lookup", hLookup),
    (c!"and", hAnd), (c!"or", hOr), (c!"not", hNot), (c!"with", hWith), (c!"each", hEach),
    (c!"json", hJson) ]

end Bracket
