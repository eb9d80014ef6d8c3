import Verif.Lemmas.Layout
import Verif.Props.Whole

/-! C78: the layout inside tags does not matter. -/

set_option linter.unusedSectionVars false

namespace Bracket.Props
open Bracket Spec Bracket.Props.Layout
open Bracket.Spec.Full hiding block blockHelper contents rounds builtinBlock depth

section
variable [H : Host] [C : Custom]

theorem tidied_result (a : Outcome) : (tidied a).result = a.result := by
  obtain ⟨w, x⟩ := a
  rcases x with (_ | _) | _ <;> rfl

/-- **C78**: two templates that differ only in the layout inside their tags (white space, comments, quotes of
strings and, when there is no handler for links, the escaping of links) give the same text, error or panic, also when the partials differ so. -/
theorem C78_once (T U : STm) (hT : T.ok [] = true) (hU : U.ok [] = true) (h : T.tidy = U.tidy) (lib lib' : List (Str × STm))
    (hlib : ∀ x, (lib.lookup x).map STm.tidy = (lib'.lookup x).map STm.tidy) (reg reg' : Reg) (hb : Equipped reg) (hb' : Equipped reg')
    (hl : Full.Holds reg lib) (hl' : Full.Holds reg' lib') (hs : reg'.strict = reg.strict) (he : reg'.escape = reg.escape) (name : Str) (data : Value) :
    ∃ N, ∀ n, N ≤ n → Reg.once n reg name T.src data = Reg.once n reg' name U.src data := by
  obtain ⟨N1, h1⟩ := whole_once T hT lib reg hb hl (max (lib.length + 1) (lib'.length + 1)) (Nat.le_max_left ..) name data
  obtain ⟨N2, h2⟩ := whole_once U hU lib' reg' hb' hl' (max (lib.length + 1) (lib'.length + 1)) (Nat.le_max_right ..) name data
  refine ⟨max N1 N2, fun n hn => ?_⟩
  rw [h1 n (by omega), h2 n (by omega), show Scene.start reg' name data = Scene.start reg name data by unfold Scene.start; rw [hs, he]]
  generalize max (lib.length + 1) (lib'.length + 1) = k
  have a := tm_tidy (depth_tidy (get := (lib.lookup ·)) (get' := fun x => (lib.lookup x).map STm.tidy) (fun _ => rfl) k) T
    (Scene.start reg name data) false false false ⟨false, false, none, .none⟩
  have b := tm_tidy (depth_tidy (get := (lib'.lookup ·)) (get' := fun x => (lib.lookup x).map STm.tidy) hlib k) U
    (Scene.start reg name data) false false false ⟨false, false, none, .none⟩
  rw [← tidied_result, ← a, h, b, tidied_result]

/-- **C78**, for one registry. -/
theorem C78_same (T U : STm) (hT : T.ok [] = true) (hU : U.ok [] = true) (h : T.tidy = U.tidy) (lib : List (Str × STm)) (reg : Reg)
    (hb : Equipped reg) (hl : Full.Holds reg lib) (name : Str) (data : Value) :
    ∃ N, ∀ n, N ≤ n → Reg.once n reg name T.src data = Reg.once n reg name U.src data :=
  C78_once T U hT hU h lib lib (fun _ => rfl) reg reg hb hb hl hl rfl rfl name data

end

/-! ### Examples -/

attribute [local instance] exHost noCustom

/-- `{{#if  (eq n 'a')}}{{! note }}[[u|l]]{{/if}}` and the same with other layout. -/
def neatTm : STm :=
  .block false ⟨false, true, [], [], []⟩ c!"if"
    (.argW c!" " (.sub ⟨0, .name c!"lookup", []⟩ (.argW c!" " (.path ⟨0, .name c!"n", []⟩) (.argW c!" " (.lit (.str true [.ch 'a'])) (.done (.tail []))))) (.done (.tail [])))
    (.comment c!" note " <| .link false c!"u" (some c!"l") none .nil) .nil ⟨false, false, [], [], []⟩ .nil
def airyTm : STm :=
  .block false ⟨false, true, c!" ", [], []⟩ c!"if"
    (.argW c!"\n  " (.sub ⟨0, .name c!"lookup", []⟩ (.argW c!"  " (.path ⟨0, .name c!"n", []⟩) (.argW c!"\t" (.lit (.str false [.ch 'a'])) (.done (.tail c!" "))))) (.done (.tail c!"\n")))
    (.longComment c!" other " <| .link true c!"u" (some c!"l") none .nil) .nil ⟨false, false, c!" ", [], c!" "⟩ .nil

example : String.ofList neatTm.src = "{{#if (lookup n 'a')~}}{{! note }}[[u|l]]{{/if}}" ∧
    String.ofList airyTm.src = "{{ #if\n  (lookup  n\t\"a\" )\n~}}{{!-- other --}}\\[[u|l]]{{ /if }}" := by decide +kernel
example : neatTm.ok [] = true ∧ airyTm.ok [] = true := by decide +kernel
example : neatTm.tidy = airyTm.tidy := rfl

/-- `a {{~x}}` and `a {{~ x}}`: the second `~` is not seen by the code. -/
private def tight : STm := .text c!"a " <| .stmt false false ⟨true, false, [], [], []⟩ ⟨0, .name c!"x", []⟩ (.done (.tail [])) .nil
private def loose : STm := .text c!"a " <| .stmt false false ⟨true, false, c!" ", [], []⟩ ⟨0, .name c!"x", []⟩ (.done (.tail [])) .nil

/-- **C78**, the one place where white space in a tag matters: after the `~` of a statement. -/
theorem C78_tilde : tight.ok [] = true ∧ loose.ok [] = true ∧ tight.src = c!"a {{~x}}" ∧ loose.src = c!"a {{~ x}}" ∧
    ∃ N, ∀ n, N ≤ n → Reg.once n Reg.new c!"t" tight.src .null = .ok c!"a" ∧ Reg.once n Reg.new c!"t" loose.src .null = .ok c!"a " := by
  obtain ⟨N, h⟩ := C61_once tight (by decide +kernel) [] Reg.new ⟨fun _ => rfl, rfl, rfl, rfl⟩ (fun _ => rfl) c!"t" .null
  obtain ⟨M, h'⟩ := C61_once loose (by decide +kernel) [] Reg.new ⟨fun _ => rfl, rfl, rfl, rfl⟩ (fun _ => rfl) c!"t" .null
  exact ⟨by decide +kernel, by decide +kernel, rfl, rfl, max N M, fun n hn => ⟨(h n (by omega)).trans rfl, (h' n (by omega)).trans rfl⟩⟩

end Bracket.Props
