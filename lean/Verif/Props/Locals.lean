import Verif.Props.Blocks
import Verif.Props.Invoke

/-! C47: local helpers. -/

set_option linter.unusedSectionVars false

namespace Bracket.Props
open Spec RM

section
variable [Host]

theorem assoc_erase_self {β : Type} (k : Str) (l : List (Str × β)) : assoc k (assocErase k l) = none := by
  induction l with
  | nil => rfl
  | cons a l ih =>
      obtain ⟨k', v⟩ := a
      unfold assocErase
      by_cases h : k' = k
      · rw [if_pos h]; exact ih
      · rw [if_neg h]; simp [assoc, h, ih]

theorem assoc_erase_ne {β : Type} {k m : Str} (l : List (Str × β)) (hm : m ≠ k) : assoc m (assocErase k l) = assoc m l := by
  induction l with
  | nil => rfl
  | cons a l ih =>
      obtain ⟨k', v⟩ := a
      unfold assocErase
      by_cases h : k' = k
      · rw [if_pos h, ih]; simp [assoc, h, Ne.symm hm]
      · rw [if_neg h]; simp [assoc, ih]

/-- C47, first half: a helper that registers a local helper `f` as `n` and goes on with `k` runs `k` in a state that
differs from its own in the local helpers only, in which the name `n` stands for `f`, whatever the
registry holds, and every other name for what it stood for before. -/
theorem C47_shadows_partial (E : Env) (n : Str) (f : HelperFn) (k : Prog) (s t : RS) (r : Res (Option Value)) :
    ∃ ls, (RunsHelper E (.registerLocal n f k) s r t ↔ RunsHelper E k { s with locals := ls } r t) ∧
      (∀ g, Resolves E { s with locals := ls } n g ↔ g = f) ∧
      (∀ m, m ≠ n → ∀ g, Resolves E { s with locals := ls } m g ↔ Resolves E s m g) := by
  refine ⟨assocInsert n f s.locals, Spec.Eval.step (m := RM.modify fun s => { s with locals := assocInsert n f s.locals }) rfl, ?_, ?_⟩
  · intro g
    unfold Resolves
    simp only [assoc_insert_self]
    constructor
    · rintro (e | ⟨e, _⟩)
      · cases e; rfl
      · cases e
    · rintro rfl; exact .inl rfl
  · intro m hm g
    unfold Resolves
    simp only [assoc_insert_ne _ _ hm]

/-- C47: a helper that removes the local helper `n` goes on in a state in which `n` stands for the helper
of the registry, if any, and every other name for what it stood for before. -/
theorem C47_removed (E : Env) (n : Str) (k : Prog) (s t : RS) (r : Res (Option Value)) :
    ∃ ls, (RunsHelper E (.unregisterLocal n k) s r t ↔ RunsHelper E k { s with locals := ls } r t) ∧
      (∀ g, Resolves E { s with locals := ls } n g ↔ assoc n E.reg.helpers = some g) ∧
      (∀ m, m ≠ n → ∀ g, Resolves E { s with locals := ls } m g ↔ Resolves E s m g) := by
  refine ⟨assocErase n s.locals, Spec.Eval.step (m := RM.modify fun s => { s with locals := assocErase n s.locals }) rfl, ?_, ?_⟩
  · intro g
    unfold Resolves
    simp only [assoc_erase_self]
    simp
  · intro m hm g
    unfold Resolves
    simp only [assoc_erase_ne _ hm]

end

section Witness
attribute [local instance] exHost

/-- A helper that prints a text. -/
def printHelper (s : Str) : HelperFn := fun _ _ => .write s fun _ => .ret none

/-- A helper that registers a local helper named `loc`, renders its block and returns. -/
def parentHelper : HelperFn := fun _ content => .registerLocal c!"loc" (printHelper c!"local")
  (match content with
  | some n => .template n fun _ => .ret none
  | none => .ret none)

/-- The same, removing the local helper before it returns. -/
def tidyHelper : HelperFn := fun _ content => .registerLocal c!"loc" (printHelper c!"local")
  (match content with
  | some n => .template n fun _ => .unregisterLocal c!"loc" (.ret none)
  | none => .ret none)

/-- A registry with both, and a helper `loc` of its own. -/
def localReg : Reg := ((Reg.new.insertHelper c!"parent" parentHelper).insertHelper c!"tidy" tidyHelper).insertHelper
  c!"loc" (printHelper c!"global")

/-- A local helper shadows the registry's while it is registered, and no longer once it is removed. -/
theorem C47_explicit : Ex.render localReg c!"{{loc}},{{#tidy}}{{loc}}{{/tidy}},{{loc}}" .null =
    some (.ok, c!"global,local,global") := by decide +kernel

/-- C47 is violated: a local helper is not gone when the helper that registered it returns. It goes on
shadowing the registry's helper in the rest of the render. -/
theorem C47_violated : Ex.render localReg c!"{{loc}},{{#parent}}{{loc}}{{/parent}},{{loc}}" .null =
    some (.ok, c!"global,local,local") := by decide +kernel

/-- A state in which the name stands for the local helper although the registry has one too. -/
example (s : RS) (E : Env) (hE : E.reg = localReg) : Resolves E { s with locals := [(c!"loc", printHelper c!"local")] } c!"loc" (printHelper c!"local") ∧
    assoc c!"loc" E.reg.helpers = some (printHelper c!"global") := by
  rw [hE]
  exact ⟨.inl rfl, rfl⟩

end Witness
end Bracket.Props
