import Verif.Lemmas.Filled
import Verif.Props.Whole

/-! C96: literals in the place of arguments from the data. -/

set_option linter.unusedSectionVars false

namespace Bracket.Props
open Bracket Spec Bracket.Props.Filled
open Bracket.Spec.Full hiding block blockHelper contents rounds builtinBlock depth

section
variable [H : Host] [C : Custom]

theorem fill_result (σ : SPath → Option SLit) (a : Outcome) : (fill σ a).result = a.result := by
  obtain ⟨w, x⟩ := a
  rcases x with (_ | _) | _ <;> rfl

/-- **C96**: let some paths `@root.a.b` have, in the data, the values of literals (`null` if they are missing).  Then writing these literals in the place
of these paths wherever they are arguments (of helpers, partials, blocks and conditions, in hashes and sub-expressions, at any
depth), in the template and in all partials, changes nothing: the same text, error or panic. -/
theorem C96_once (σ : SPath → Option SLit) (data : Value) (hσ : Known σ data) (T : STm) (hT : T.ok [] = true) (hU : (T.filled σ).ok [] = true)
    (lib lib' : List (Str × STm)) (hlib : ∀ x, lib'.lookup x = (lib.lookup x).map (STm.filled σ)) (reg reg' : Reg) (hb : Equipped reg) (hb' : Equipped reg')
    (hl : Full.Holds reg lib) (hl' : Full.Holds reg' lib') (hs : reg'.strict = reg.strict) (he : reg'.escape = reg.escape) (name : Str) :
    ∃ N, ∀ n, N ≤ n → Reg.once n reg' name (T.filled σ).src data = Reg.once n reg name T.src data := by
  obtain ⟨N1, h1⟩ := whole_once T hT lib reg hb hl (max (lib.length + 1) (lib'.length + 1)) (Nat.le_max_left ..) name data
  obtain ⟨N2, h2⟩ := whole_once (T.filled σ) hU lib' reg' hb' hl' (max (lib.length + 1) (lib'.length + 1)) (Nat.le_max_right ..) name data
  refine ⟨max N1 N2, fun n hn => ?_⟩
  rw [h1 n (by omega), h2 n (by omega), show Scene.start reg' name data = Scene.start reg name data by unfold Scene.start; rw [hs, he]]
  generalize max (lib.length + 1) (lib'.length + 1) = k
  have a := tm_filled hσ (depth_filled hσ (get := (lib.lookup ·)) (get' := (lib'.lookup ·)) hlib k) T
    (Scene.start reg name data) rfl false false false ⟨false, false, none, .none⟩
  exact (congrArg Outcome.result a).trans (fill_result σ _)

/-- **C96**, when the partials have no such arguments. -/
theorem C96_same (σ : SPath → Option SLit) (data : Value) (hσ : Known σ data) (T : STm) (hT : T.ok [] = true) (hU : (T.filled σ).ok [] = true)
    (lib : List (Str × STm)) (hlib : ∀ x ∈ lib, x.2.filled σ = x.2) (reg : Reg) (hb : Equipped reg) (hl : Full.Holds reg lib) (name : Str) :
    ∃ N, ∀ n, N ≤ n → Reg.once n reg name (T.filled σ).src data = Reg.once n reg name T.src data := by
  refine C96_once σ data hσ T hT hU lib lib (fun x => ?_) reg reg hb hb hl hl rfl rfl name
  clear hl
  induction lib with
  | nil => rfl
  | cons y l ih =>
      rw [List.lookup_cons]
      cases x == y.1 with
      | true => rw [Option.map_some, hlib y (List.mem_cons_self ..)]
      | false => exact ih fun z hz => hlib z (List.mem_cons_of_mem _ hz)

end

/-! ### Examples -/

section
attribute [local instance] exHost noCustom

/-- `@root.k`, and the literal `"v"` for it. -/
def rootK : SPath := ⟨0, .loc c!"root", [.word c!"k"]⟩
def fillK (p : SPath) : Option SLit := if p = rootK then some (.str false [.ch 'v']) else none

theorem fillK_known (m : List (Str × Value)) (h : m.lookup c!"k" = some (.str c!"v")) : Known fillK (.obj m) := by
  intro p l hp
  unfold fillK at hp
  split at hp
  · next e =>
      cases hp
      rw [e]
      refine ⟨rfl, ?_⟩
      rw [if_neg (by decide)]
      show ((member (.obj m) c!"k").bind (walk · [])).getD .null = _
      rw [show member (.obj m) c!"k" = m.lookup c!"k" from rfl, h]
      rfl
  · cases hp

/-- `{{#each l}}{{#if (json @root.k)}}{{lookup this @root.k}}{{/if}}{{/each}}` -/
def askK : STm :=
  .block false ⟨false, false, [], [], []⟩ c!"each" (.arg (.path ⟨0, .name c!"l", []⟩) (.done .nil))
    (.block false ⟨false, false, [], [], []⟩ c!"if" (.arg (.sub ⟨0, .name c!"json", []⟩ (.arg (.path rootK) (.done .nil))) (.done .nil))
      (.stmt false false ⟨false, false, [], [], []⟩ ⟨0, .name c!"lookup", []⟩ (.arg (.path ⟨0, .this, []⟩) (.arg (.path rootK) (.done .nil))) .nil)
      .nil ⟨false, false, [], [], []⟩ .nil) .nil ⟨false, false, [], [], []⟩ .nil

example : String.ofList askK.src = "{{#each l}}{{#if (json @root.k)}}{{lookup this @root.k}}{{/if}}{{/each}}" ∧
    String.ofList (askK.filled fillK).src = "{{#each l}}{{#if (json \"v\")}}{{lookup this \"v\"}}{{/if}}{{/each}}" := by decide +kernel

/-- Both render the same for all data whose `k` is the string `v`. -/
example (m : List (Str × Value)) (h : m.lookup c!"k" = some (.str c!"v")) : ∃ N, ∀ n, N ≤ n →
    Reg.once n Reg.new c!"t" (askK.filled fillK).src (.obj m) = Reg.once n Reg.new c!"t" askK.src (.obj m) :=
  C96_same fillK (.obj m) (fillK_known m h) askK (by decide +kernel) (by decide +kernel) [] (fun _ h => by cases h) Reg.new
    ⟨fun _ => rfl, rfl, rfl, rfl⟩ (fun _ => rfl) c!"t"

/-- A missing argument and `null`: `{{#if @root.k}}..{{else}}..` etc. for all data without `k`. -/
theorem fillNull_known (m : List (Str × Value)) (h : m.lookup c!"k" = none) : Known (fun p => if p = rootK then some .null else none) (.obj m) := by
  intro p l hp
  simp only at hp
  split at hp
  · next e =>
      cases hp
      rw [e]
      refine ⟨rfl, ?_⟩
      rw [if_neg (by decide)]
      show ((member (.obj m) c!"k").bind (walk · [])).getD .null = _
      rw [show member (.obj m) c!"k" = m.lookup c!"k" from rfl, h]
      rfl
  · cases hp

end
end Bracket.Props
