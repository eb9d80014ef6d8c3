import Verif.Lemmas.Inline

/-! C79: a partial without arguments can be put in the place of its calls. -/

set_option linter.unusedSectionVars false

namespace Bracket.Props
open Bracket Spec Bracket.Props.Inline
open Bracket.Spec.Full hiding block blockHelper contents rounds builtinBlock depth

section
variable [H : Host] [C : Custom]

theorem mapped_result (F : STm → STm) (a : Outcome) : (mapped F a).result = a.result := by
  obtain ⟨w, x⟩ := a
  rcases x with (_ | _) | _ <;> rfl

/-- **C79**: let `X` be registered as `p`, and let it have no `~` and no partials, and no paths relative to the
current scope except inside its own `{{#each}}` and `{{#with}}`.  Then putting the text of `X` in the place of
every `{{> p}}`, in the template and in the partials, changes nothing: the same text, error or panic (in
templates without `~`). -/
theorem C79_inline (p : Str) (X T : STm) (hpb : p ≠ c!"@partial-block") (hX : X.core = true) (hport : X.portable false = true)
    (hok : T.ok [] = true) (hok' : (STm.inline p X T).ok [] = true) (hT : T.tildeless = true) (lib lib' : List (Str × STm))
    (hp : lib.lookup p = some X) (hflat : ∀ x ∈ lib, x.2.tildeless = true) (hlib : ∀ x, lib'.lookup x = (lib.lookup x).map (STm.inline p X))
    (reg reg' : Reg) (hb : Equipped reg) (hb' : Equipped reg') (hl : Full.Holds reg lib) (hl' : Full.Holds reg' lib')
    (hs : reg'.strict = reg.strict) (he : reg'.escape = reg.escape) (name : Str) (data : Value) :
    ∃ N, ∀ n, N ≤ n → Reg.once n reg' name (STm.inline p X T).src data = Reg.once n reg name T.src data := by
  obtain ⟨N1, h1⟩ := whole_once T hok lib reg hb hl (max (lib.length + 1) (lib'.length + 1)) (Nat.le_max_left ..) name data
  obtain ⟨N2, h2⟩ := whole_once _ hok' lib' reg' hb' hl' (max (lib.length + 1) (lib'.length + 1)) (Nat.le_max_right ..) name data
  refine ⟨max N1 N2, fun n hn => ?_⟩
  rw [h1 n (by omega), h2 n (by omega), show Scene.start reg' name data = Scene.start reg name data by unfold Scene.start; rw [hs, he]]
  have hL := depth_inlined hX hport hpb (names := partNames lib) (get := (lib.lookup ·)) (get' := (lib'.lookup ·)) hlib hp
    (fun x U hU => hflat _ (mem_lookup hU)) (known_names lib) (lib.length + 1) (max (lib.length + 1) (lib'.length + 1))
    (max (lib.length + 1) (lib'.length + 1)) (Nat.le_max_left ..) (Nat.le_max_left ..)
  have := (tm_inlined (free := true) hX hL hpb T hT (.inl rfl) (Scene.start reg name data) ⟨false, false, none, .none⟩
    ⟨room_start lib reg name data, fun _ => rfl⟩ ⟨rfl, rfl, (fun U hU => by cases hU), rfl⟩).eq
  exact (congrArg Outcome.result this).trans (mapped_result _ _)

/-- **C79**, when the partials themselves do not call `p`. -/
theorem C79_once (p : Str) (X T : STm) (hpb : p ≠ c!"@partial-block") (hX : X.core = true) (hport : X.portable false = true)
    (hok : T.ok [] = true) (hok' : (STm.inline p X T).ok [] = true) (hT : T.tildeless = true) (lib : List (Str × STm))
    (hp : lib.lookup p = some X) (hflat : ∀ x ∈ lib, x.2.tildeless = true) (hlib : ∀ x ∈ lib, STm.inline p X x.2 = x.2)
    (reg : Reg) (hb : Equipped reg) (hl : Full.Holds reg lib) (name : Str) (data : Value) :
    ∃ N, ∀ n, N ≤ n → Reg.once n reg name (STm.inline p X T).src data = Reg.once n reg name T.src data := by
  refine C79_inline p X T hpb hX hport hok hok' hT lib lib hp hflat (fun x => ?_) reg reg hb hb hl hl rfl rfl name data
  cases h : lib.lookup x with
  | none => rfl
  | some U => rw [Option.map_some, hlib _ (mem_lookup h)]

end

/-! ### Examples -/

attribute [local instance] exHost noCustom

private def t0 : Tilde := ⟨false, false, [], [], []⟩
private def g0 : Tilde := ⟨false, false, [], c!" ", []⟩

/-- `<b>{{title}}</b>{{#each tags}}{{@index}}{{this}}{{/each}}` -/
def headTm : STm :=
  .text c!"<b>" <| .stmt false false t0 ⟨0, .name c!"title", []⟩ (.done .nil) <| .text c!"</b>" <|
  .block false t0 c!"each" (.arg (.path ⟨0, .name c!"tags", []⟩) (.done .nil))
    (.stmt false false t0 ⟨0, .loc c!"index", []⟩ (.done .nil) <| .stmt false false t0 ⟨0, .this, []⟩ (.done .nil) .nil) .nil t0 .nil

/-- `{{#with page}}{{> head}}!{{/with}}` -/
def pageTm : STm :=
  .block false t0 c!"with" (.arg (.path ⟨0, .name c!"page", []⟩) (.done .nil))
    (.stmt false true g0 ⟨0, .name c!"head", []⟩ (.done .nil) <| .text c!"!" .nil) .nil t0 .nil

example : String.ofList pageTm.src = "{{#with page}}{{> head}}!{{/with}}" ∧
    String.ofList (STm.inline c!"head" headTm pageTm).src = "{{#with page}}<b>{{title}}</b>{{#each tags}}{{@index}}{{this}}{{/each}}!{{/with}}" := by decide +kernel
example : headTm.core = true ∧ headTm.portable false = true ∧ headTm.ok [] = true ∧ pageTm.ok [] = true ∧ pageTm.tildeless = true ∧
    headTm.tildeless = true ∧ (STm.inline c!"head" headTm pageTm).ok [] = true := by decide +kernel
example : STm.inline c!"head" headTm headTm = headTm := rfl
example : (Full.meaning [(c!"head", headTm)] pageTm (Scene.start Reg.new c!"t"
    (.obj [(c!"page", .obj [(c!"title", .str c!"T"), (c!"tags", .arr [.str c!"x", .str c!"y"])])]))).1 = c!"<b>T</b>0x1y!" := by decide +kernel

private def selfTm : STm := .stmt false false t0 ⟨0, .this, []⟩ (.done .nil) .nil
private def callTm : STm := .stmt false true g0 ⟨0, .name c!"me", []⟩ (.done .nil) .nil

/-- **C79**, why the partial may not begin a path with `this`: in a partial without arguments `this` is an
empty object. -/
theorem C79_this : ∃ reg : Reg, selfTm.src = c!"{{this}}" ∧ callTm.src = c!"{{> me}}" ∧ STm.inline c!"me" selfTm callTm = selfTm ∧
    ∃ N, ∀ n, N ≤ n → Reg.once n reg c!"t" callTm.src (.str c!"x") = .ok c!"Object" ∧ Reg.once n reg c!"t" selfTm.src (.str c!"x") = .ok c!"x" := by
  obtain ⟨_, h1, h2⟩ := C61_insert [] Reg.new ⟨fun _ => rfl, rfl, rfl, rfl⟩ (fun _ => rfl) c!"me" selfTm (by decide +kernel)
  obtain ⟨N, h⟩ := C61_once callTm (by decide +kernel) _ _ h1 h2 c!"t" (.str c!"x")
  obtain ⟨M, h'⟩ := C61_once selfTm (by decide +kernel) _ _ h1 h2 c!"t" (.str c!"x")
  exact ⟨_, rfl, rfl, rfl, max N M, fun n hn => ⟨(h n (by omega)).trans rfl, (h' n (by omega)).trans rfl⟩⟩

end Bracket.Props
