import Verif.Lemmas.Named
import Verif.Props.Handlers

/-! C86: the name a template is rendered under. -/

set_option linter.unusedSectionVars false

namespace Bracket.Props
open Bracket Spec
open Bracket.Spec.Full hiding block blockHelper contents rounds builtinBlock depth

namespace Named

def Faults (f g : Str) : Fault → Fault → Prop
  | .panic, .panic => True
  | .err e, .err e' => Renamed f g e e'
  | _, _ => False

/-- The same scene under another name. -/
def Other (f g : Str) (Γ Δ : Scene) : Prop := Γ.file = f ∧ Δ = { Γ with file := g }

theorem twins (f g : Str) : Twins (Faults f g) (Other f g) where
  refl x := by cases x <;> simp [Faults, Renamed.same]
  within {x y} h := by
    cases x <;> cases y
    · exact .through h
    · exact h
    · exact h
    · exact h
  enter h x := ⟨h.1, by rw [h.2]; rfl⟩
  push h x := ⟨h.1, by rw [h.2]; rfl⟩
  calls h := by rw [h.2]
  find h p := by rw [h.2]; rfl
  escape h := by rw [h.2]
  strict h := by rw [h.2]
  absent {Γ Δ} h p := by
    obtain ⟨rfl, rfl⟩ := h
    unfold Scene.absent
    simp only
    split
    · exact .error [] (.missing p.shown)
    · exact .ok [] none

section
variable [H : Host] [C : Custom]

theorem meaning_named (lib : List (Str × STm)) (T : STm) (reg : Reg) (f g : Str) (data : Value) :
    Like (Faults f g) (Full.meaning lib T (Scene.start reg f data)) (Full.meaning lib T (Scene.start reg g data)) :=
  like_tm (twins f g) (like_depth (twins f g) _ _) T ⟨rfl, rfl⟩ false false false _

end

end Named

section
variable [H : Host] [C : Custom]

/-- **C86**: a template given as text renders the same under any name: the same text, or the same error but for the
template in which a missing variable is reported. -/
theorem C86_once (T : STm) (hok : T.ok [] = true) (lib : List (Str × STm)) (reg : Reg) (hb : Equipped reg) (hl : Full.Holds reg lib)
    (f g : Str) (data : Value) :
    ∃ N, ∀ n, N ≤ n → RenamedResult f g (Reg.once n reg f T.src data) (Reg.once n reg g T.src data) := by
  obtain ⟨N, h⟩ := C61_once T hok lib reg hb hl f data
  obtain ⟨M, h'⟩ := C61_once T hok lib reg hb hl g data
  refine ⟨max N M, fun n hn => ?_⟩
  rw [h n (Nat.le_trans (Nat.le_max_left ..) hn), h' n (Nat.le_trans (Nat.le_max_right ..) hn)]
  have := Named.meaning_named lib T reg f g data
  revert this
  generalize Full.meaning lib T (Scene.start reg f data) = a
  generalize Full.meaning lib T (Scene.start reg g data) = b
  intro this
  cases this with
  | ok w μ => exact .inl ⟨w, rfl, rfl⟩
  | @error w x y h =>
      cases x with
      | err e =>
          cases y with
          | err e' => exact .inr (.inl ⟨e, e', rfl, rfl, h⟩)
          | panic => exact h.elim
      | panic =>
          cases y with
          | err e' => exact h.elim
          | panic => exact .inr (.inr ⟨rfl, rfl⟩)

/-- **C86**: a template registered under two names writes the same under both, even when it fails, and it fails
with the same error but for that name. -/
theorem C86_registered (lib : List (Str × STm)) (reg : Reg) (hb : Equipped reg) (hl : Full.Holds reg lib) (f g : Str) (T : STm)
    (hf : lib.lookup f = some T) (hg : lib.lookup g = some T) (data : Value) (sink : Sink) (hs : ∀ ws w, ∃ n, sink ws w = .ok n) :
    ∃ N, ∀ n, N ≤ n →
      outText (reg.renderToWrite n sink f data).2 = outText (reg.renderToWrite n sink g data).2 ∧
      match (reg.renderToWrite n sink f data).1, (reg.renderToWrite n sink g data).1 with
      | .ok _, .ok _ => True
      | .err (.render e), .err (.render e') => Renamed f g e e'
      | .panic, .panic => True
      | _, _ => False := by
  obtain ⟨N, h⟩ := C61_registered lib reg hb hl f T hf data sink hs
  obtain ⟨M, h'⟩ := C61_registered lib reg hb hl g T hg data sink hs
  refine ⟨max N M, fun n hn => ?_⟩
  obtain ⟨ws, g1, g2⟩ := h n (Nat.le_trans (Nat.le_max_left ..) hn)
  obtain ⟨ws', g3, g4⟩ := h' n (Nat.le_trans (Nat.le_max_right ..) hn)
  rw [g2, g4]
  simp only
  rw [g1, g3]
  have := Named.meaning_named lib T reg f g data
  revert this
  generalize Full.meaning lib T (Scene.start reg f data) = a
  generalize Full.meaning lib T (Scene.start reg g data) = b
  intro this
  cases this with
  | ok w μ => exact ⟨rfl, trivial⟩
  | @error w x y h =>
      refine ⟨rfl, ?_⟩
      cases x with
      | err e =>
          cases y with
          | err e' => exact h
          | panic => exact h.elim
      | panic =>
          cases y with
          | err e' => exact h.elim
          | panic => trivial

end

/-! ### Examples -/

attribute [local instance] exHost noCustom

private def t0 : Tilde := ⟨false, false, [], [], []⟩
private def tmA : STm :=
  .text c!"<" <| .block false t0 c!"if" (.arg (.lit (.bool true)) (.done .nil)) (.stmt false false t0 ⟨0, .name c!"x", []⟩ (.done .nil) .nil) .nil t0 .nil

example : String.ofList tmA.src = "<{{#if true}}{{x}}{{/if}}" ∧ tmA.ok [] = true := by decide +kernel

/-- **C86**: the name does show there: in strict mode the error of a missing variable has it, whatever it is. -/
theorem C86_shows (name : Str) : tmA.ok [] = true ∧ tmA.src = c!"<{{#if true}}{{x}}{{/if}}" ∧
    ∃ N, ∀ n, N ≤ n → Reg.once n (Reg.new.setStrict true) name tmA.src .null = .err (.render (.helper (.render (.variableNotFound c!"x" name)))) := by
  obtain ⟨N, h⟩ := C61_once tmA (by decide +kernel) [] (Reg.new.setStrict true) ⟨fun _ => rfl, rfl, rfl, rfl⟩ (fun _ => rfl) name .null
  exact ⟨by decide +kernel, by decide +kernel, N, fun n hn => (h n hn).trans rfl⟩

example : (((Reg.new.insert c!"a" tmA.src).2.insert c!"b" tmA.src).2.get c!"b").isSome = true := by decide +kernel
example : List.lookup c!"a" [(c!"b", tmA), (c!"a", tmA)] = some tmA := rfl

end Bracket.Props
