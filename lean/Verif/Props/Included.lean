import Verif.Props.Uses

/-! C67 for every template that compiles. -/

set_option linter.unusedSectionVars false

namespace Bracket.Props
open Spec

section
variable [Host]

/-- **C67**, for everything that compiles: let the templates `names` include (by name) only templates among `names`, and let
helpers bring in no others.  Then two registries that agree on these templates, on the helpers and in their settings
render each of them, and each text that includes no other, the same: text, error and writes, for all data and
destinations. -/
theorem C67_compiled {r r' : Reg} (names : List Str) (ht : ∀ x ∈ names, r.get x = r'.get x)
    (hh : r.helpers = r'.helpers) (hl : r.link = r'.link) (hm : r.helperMissing = r'.helperMissing)
    (hb : r.blockHelperMissing = r'.blockHelperMissing) (he : r.escape = r'.escape) (hs : r.strict = r'.strict)
    (hu : RegUses (fun _ => True) (· ∈ names) False r) (n : Nat) (data : Value) :
    (∀ x ∈ names, r.render n x data = r'.render n x data) ∧
    (∀ sink, ∀ x ∈ names, r.renderToWrite n sink x data = r'.renderToWrite n sink x data) ∧
    (∀ name src, (∀ d, compile src ⟨name, 0, 0⟩ = .ok d → NodeUses (fun _ => True) (· ∈ names) False d) →
      r.once n name src data = r'.once n name src data) := by
  obtain ⟨h1, h2, h3, -⟩ := C93_same (N := fun _ => True) (T := (· ∈ names)) (D := False) (r := r) (r' := r')
    ⟨ht, fun x _ => by rw [hh], hl, hm, hb, he, hs⟩ False.elim hu n data
  exact ⟨h1, h2, h3⟩

end

section
attribute [local instance] exHost

/-- Whether the source compiles to a template that includes only these. -/
def includesOnly (names : List Str) (src name : Str) : Bool :=
  match compile src ⟨name, 0, 0⟩ with
  | .ok d => nodeUsesB (fun _ => true) (fun w => names.contains w) false 20 d
  | _ => false

theorem includesOnly_sound {names : List Str} {src name : Str} (h : includesOnly names src name = true) {d : Node}
    (hd : compile src ⟨name, 0, 0⟩ = .ok d) : NodeUses (fun _ => True) (· ∈ names) False d := by
  unfold includesOnly at h
  rw [hd] at h
  exact NodeUses.mono (nodeUsesB_sound _ _ _ h) (fun _ _ => trivial) (fun _ hv => by simpa using hv) (fun h => by cases h)

/-- Whatever else is registered. -/
theorem included_extra {r : Reg} {names : List Str} (hu : RegUses (fun _ => True) (· ∈ names) False r)
    (extra : List (Str × Template)) (he : ∀ x ∈ names, assoc x extra = none) (n : Nat) (sink : Sink) (data : Value)
    (x : Str) (hx : x ∈ names) :
    r.renderToWrite n sink x data = ({ r with templates := r.templates ++ extra } : Reg).renderToWrite n sink x data := by
  refine (C67_compiled (r := r) (r' := { r with templates := r.templates ++ extra }) names (fun y hy => ?_) rfl rfl rfl rfl rfl rfl hu n data).2.1 sink _ hx
  have : ∀ (l : List (Str × Template)), assoc y l = assoc y (l ++ extra) := by
    intro l
    induction l with
    | nil => simp [assoc, he y hy]
    | cons z l ih => simp only [List.cons_append, assoc]; split <;> simp [ih]
  exact this r.templates

/-- `all` and `row` render the same whatever else is registered. -/
example (extra : List (Str × Template)) (data : Value) (sink : Sink) (n : Nat)
    (he : ∀ x ∈ [c!"row", c!"all"], assoc x extra = none) (r : Reg)
    (hr : r = ((Reg.new.insert c!"row" c!"{{#if a}}{{b}}{{/if}}").2.insert c!"all" c!"{{#each rows}}{{#> row}}y{{/row}}{{/each}}").2) :
    r.renderToWrite n sink c!"all" data = ({ r with templates := r.templates ++ extra } : Reg).renderToWrite n sink c!"all" data := by
  have hu : RegUses (fun _ => True) (· ∈ [c!"row", c!"all"]) False r := by
    rw [hr]
    exact uses_insert (uses_insert C93_new _ _ fun _ hd => includesOnly_sound (by decide +kernel) hd) _ _
      fun _ hd => includesOnly_sound (by decide +kernel) hd
  exact included_extra hu extra he n sink data _ (by simp)

end
end Bracket.Props
