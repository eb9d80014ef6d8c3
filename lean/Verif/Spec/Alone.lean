import Verif.Spec.Mentions

/-! Templates that look only at the value they are given (C87). -/

namespace Bracket.Spec

/-- The path leads nowhere outside a template given the value `v`, where the data is `d`: no `../`, no `@root`, and no name
that is found in `d` but not in `v`. -/
def SPath.alone (d v : Value) (p : SPath) : Bool :=
  p.parents == 0 && match p.head with
    | .name w => (walk d (w :: p.names)).isNone || (walk v (w :: p.names)).isSome
    | .loc w => w != c!"root"
    | .this | .dot | .abs _ => true

/-- All the paths are like that, and only the partials `names` are included. -/
def STm.alone (names : List Str) (d v : Value) (T : STm) : Bool := T.every (SPath.alone d v) (fun _ _ => true) (fun x => x.any names.contains)

/-- The same without blocks named `with`. -/
def STm.aloneInWith (names : List Str) (d v : Value) (T : STm) : Bool :=
  T.every (fun p => p.alone d v && p != ⟨0, .name c!"with", []⟩) (fun _ _ => true) (fun x => x.any names.contains)

/-- The application's helpers give the scopes they make a value. -/
def Valued [Custom] : Prop :=
  (∀ w f, Custom.fn w = some f → ∀ t vs hs l e, f.block t vs hs = .contents l e → ∀ sc, Act.content (some sc) ∈ l → sc.value.isSome = true) ∧
  (∀ g, Custom.blockMissing = some g → ∀ w v t vs hs l e, (g w v).block t vs hs = .contents l e → ∀ sc, Act.content (some sc) ∈ l → sc.value.isSome = true)

/-- The error says that a block `w` is inside too many others (32), at any depth. -/
inductive TooDeep (w : Str) : RenderErr → Prop
  | here : TooDeep w (.helperCycle w)
  | inside {e : RenderErr} : TooDeep w e → TooDeep w (.helper (.render e))

/-- `{{> p x}}` -/
def callOn (p : Str) (x : SPath) : STm :=
  .stmt false true ⟨false, false, [], c!" ", []⟩ ⟨0, .name p, []⟩ (.arg (.path x) (.done .nil)) .nil

/-- `{{> p k=x …}}` -/
def callWith (p : Str) (h : SHash) : STm :=
  .stmt false true ⟨false, false, [], c!" ", []⟩ ⟨0, .name p, []⟩ (.done h) .nil

/-- `{{#with x}}T{{/with}}` -/
def withOn (x : SPath) (T : STm) : STm :=
  .block false ⟨false, false, [], [], []⟩ c!"with" (.arg (.path x) (.done .nil)) T .nil ⟨false, false, [], [], []⟩ .nil

/-- The path is like that with each of the values `us`, and is none of the variables of `each`. -/
def SPath.aloneInEach (d : Value) (us : List Value) (p : SPath) : Bool :=
  p.parents == 0 && us.all (fun u => p.alone d u) && match p.head with
    | .name w => !(w == c!"@first" || w == c!"@last" || w == c!"@index" || w == c!"@key")
    | .loc w => !(w == c!"first" || w == c!"last" || w == c!"index" || w == c!"key")
    | _ => true

/-- All the paths are like that, and only the partials `names` are included. -/
def STm.aloneInEach (names : List Str) (d : Value) (us : List Value) (T : STm) : Bool :=
  T.every (SPath.aloneInEach d us) (fun _ _ => true) (fun x => x.any names.contains)

/-- There are no blocks `w`. -/
def STm.without (w : Str) (T : STm) : Bool := T.every (· != ⟨0, .name w, []⟩) (fun _ _ => true) (fun _ => true)

/-- `{{#each x}}T{{/each}}` -/
def eachOn (x : SPath) (T : STm) : STm :=
  .block false ⟨false, false, [], [], []⟩ c!"each" (.arg (.path x) (.done .nil)) T .nil ⟨false, false, [], [], []⟩ .nil

/-- What a list has in it: the items of an array, the values of an object in the order of the keys. -/
def items : Value → List Value
  | .arr l => l
  | .obj m => m.map (·.2)
  | _ => []

/-- One rendering after the other, up to the first that fails. -/
def inTurn : List (Out Str) → Out Str
  | [] => .ok []
  | .ok w :: r => match inTurn r with
      | .ok w' => .ok (w ++ w')
      | x => x
  | x :: _ => x

/-- The result of a rendering inside a helper: an error is reported through the helper. -/
def reported : Out Str → Out Str
  | .err (.render e) => .err (.render (.helper (.render e)))
  | o => o

/-- The first is the second, unless it fails because a block `w` is inside too many others. -/
def UnlessDeep (w : Str) (a b : Out Str) : Prop := a = b ∨ ∃ e, TooDeep w e ∧ a = .err (.render e)

end Bracket.Spec
