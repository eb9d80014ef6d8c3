import Verif.Lemmas.Comments
import Verif.Props.Whole

/-! C83: comments do not matter. -/

set_option linter.unusedSectionVars false

namespace Bracket.Props
open Bracket Spec Bracket.Props.Comments
open Bracket.Spec.Full hiding block blockHelper contents rounds builtinBlock depth

theorem join_join (w u : Str) (X : STm) : joinText (w ++ u) X = joinText w (joinText u X) := by
  cases X <;> simp [joinText]
theorem join_uncommented (w : Str) (X : STm) : (joinText w X).uncommented = joinText w X.uncommented := by
  cases X with
  | text u r => rw [joinText, STm.uncommented, STm.uncommented, join_join]
  | _ => rfl

mutual
theorem uncommented_twice : ∀ T : STm, T.uncommented.uncommented = T.uncommented
  | .nil => rfl
  | .text w r => by rw [STm.uncommented, join_uncommented, uncommented_twice r]
  | .comment _ r | .longComment _ r => by rw [STm.uncommented, uncommented_twice r]
  | .escaped _ r | .link _ _ _ _ r | .stmt _ _ _ _ _ r | .dyn _ _ _ _ _ _ r | .rawBlock _ _ _ _ _ r => by
      rw [STm.uncommented, STm.uncommented, uncommented_twice r]
  | .block _ _ _ _ body cs _ r => by rw [STm.uncommented, STm.uncommented, uncommented_twice r, uncommented_twice body, cls_uncommented_twice cs]
theorem cls_uncommented_twice : ∀ T : SCls, T.uncommented.uncommented = T.uncommented
  | .nil => rfl
  | .cons _ _ body r => by rw [SCls.uncommented, SCls.uncommented, uncommented_twice body, cls_uncommented_twice r]
end

section
variable [H : Host] [C : Custom]

theorem Comments.Bared.result {b a : Outcome} (h : Bared b a) : b.result = a.result := by
  rw [h.eq]
  obtain ⟨w, x⟩ := a
  rcases x with (_ | _) | _ <;> rfl

/-- **C83**: two templates without `~` that are the same but for their comments (and whose partials are) give the same
text, error or panic. -/
theorem C83_once (T U : STm) (hT : T.ok [] = true) (hU : U.ok [] = true) (tT : T.tildeless = true) (tU : U.tildeless = true) (h : T.uncommented = U.uncommented)
    (lib lib' : List (Str × STm)) (tl : ∀ x ∈ lib, x.2.tildeless = true) (tl' : ∀ x ∈ lib', x.2.tildeless = true)
    (hlib : ∀ x, (lib.lookup x).map STm.uncommented = (lib'.lookup x).map STm.uncommented) (reg reg' : Reg) (hb : Equipped reg) (hb' : Equipped reg')
    (hl : Full.Holds reg lib) (hl' : Full.Holds reg' lib') (hs : reg'.strict = reg.strict) (he : reg'.escape = reg.escape) (name : Str) (data : Value) :
    ∃ N, ∀ n, N ≤ n → Reg.once n reg name T.src data = Reg.once n reg' name U.src data := by
  obtain ⟨N1, h1⟩ := whole_once T hT lib reg hb hl (max (lib.length + 1) (lib'.length + 1)) (Nat.le_max_left ..) name data
  obtain ⟨N2, h2⟩ := whole_once U hU lib' reg' hb' hl' (max (lib.length + 1) (lib'.length + 1)) (Nat.le_max_right ..) name data
  refine ⟨max N1 N2, fun n hn => ?_⟩
  rw [h1 n (by omega), h2 n (by omega), show Scene.start reg' name data = Scene.start reg name data by unfold Scene.start; rw [hs, he]]
  generalize max (lib.length + 1) (lib'.length + 1) = k
  have h0 : Still ⟨false, false, none, .none⟩ := ⟨rfl, rfl, rfl, fun _ h => by cases h⟩
  have a := bared_tm (bared_depth (get := (lib.lookup ·)) (get' := fun x => (lib.lookup x).map STm.uncommented) (fun _ => rfl) (fun x U hx => tl _ (mem_lookup hx)) k) T tT
    (Scene.start reg name data) ⟨false, false, none, .none⟩ h0
  have b := bared_tm (bared_depth (get := (lib'.lookup ·)) (get' := fun x => (lib.lookup x).map STm.uncommented) hlib (fun x U hx => tl' _ (mem_lookup hx)) k) U tU
    (Scene.start reg name data) ⟨false, false, none, .none⟩ h0
  rw [← a.result, h, b.result]

/-- **C83**: in particular a template without `~` renders as the same without comments. -/
theorem C83_removed (T : STm) (hT : T.ok [] = true) (hU : T.uncommented.ok [] = true) (tT : T.tildeless = true)
    (lib : List (Str × STm)) (tl : ∀ x ∈ lib, x.2.tildeless = true) (reg : Reg) (hb : Equipped reg) (hl : Full.Holds reg lib) (name : Str) (data : Value) :
    ∃ N, ∀ n, N ≤ n → Reg.once n reg name T.src data = Reg.once n reg name T.uncommented.src data :=
  C83_once T T.uncommented hT hU tT ((tm_tildeless T).trans tT) (uncommented_twice T).symm lib lib tl tl (fun _ => rfl) reg reg hb hb hl hl rfl rfl name data

end

/-! ### Examples -/

attribute [local instance] exHost noCustom

private def t0 : Tilde := ⟨false, false, [], [], []⟩
private def xPath : SPath := ⟨0, .name c!"x", []⟩
/-- `a {{! one }}b{{#if x}}{{!-- two --}}{{x}}{{/if}}`. -/
private def noted : STm :=
  .text c!"a " <| .comment c!" one " <| .text c!"b" <| .block false t0 c!"if" (.arg (.path xPath) (.done .nil))
    (.longComment c!" two " <| .stmt false false t0 xPath (.done .nil) .nil) .nil t0 .nil
example : String.ofList noted.src = "a {{! one }}b{{#if x}}{{!-- two --}}{{x}}{{/if}}" ∧ String.ofList noted.uncommented.src = "a b{{#if x}}{{x}}{{/if}}" := by decide +kernel
example : noted.ok [] = true ∧ noted.uncommented.ok [] = true ∧ noted.tildeless = true := by decide +kernel

/-- `a {{~x}}` and `a {{!}}{{~x}}`. -/
private def near : STm := .text c!"a " <| .stmt false false ⟨true, false, [], [], []⟩ xPath (.done (.tail [])) .nil
private def apart : STm := .text c!"a " <| .comment [] <| .stmt false false ⟨true, false, [], [], []⟩ xPath (.done (.tail [])) .nil

/-- **C83**: with `~` they do: a comment between a text and a tag that begins with `~` keeps the white space of the text. -/
theorem C83_tilde : near.ok [] = true ∧ apart.ok [] = true ∧ near.src = c!"a {{~x}}" ∧ apart.src = c!"a {{!}}{{~x}}" ∧
    ∃ N, ∀ n, N ≤ n → Reg.once n Reg.new c!"t" near.src .null = .ok c!"a" ∧ Reg.once n Reg.new c!"t" apart.src .null = .ok c!"a " := by
  obtain ⟨N, h⟩ := C61_once near (by decide +kernel) [] Reg.new ⟨fun _ => rfl, rfl, rfl, rfl⟩ (fun _ => rfl) c!"t" .null
  obtain ⟨M, h'⟩ := C61_once apart (by decide +kernel) [] Reg.new ⟨fun _ => rfl, rfl, rfl, rfl⟩ (fun _ => rfl) c!"t" .null
  exact ⟨by decide +kernel, by decide +kernel, rfl, rfl, max N M, fun n hn => ⟨(h n (by omega)).trans rfl, (h' n (by omega)).trans rfl⟩⟩

end Bracket.Props
