import Verif.Props.Whole

/-! C82: a new registry, and its settings. -/

set_option linter.unusedSectionVars false

namespace Bracket.Props
open Bracket Spec

section
variable [H : Host]

private theorem plain_stmt (b raw : Bool) (f : Str → Str) (file : Str) (tl : Tilde) (w : Str)
    (hok : (STm.stmt raw false tl ⟨0, .name w, []⟩ (.done (.tail [])) .nil).ok [] = true) (hh : helperNames.contains w = false) (data : Value) :
    ∃ N, ∀ n, N ≤ n → Reg.once n ((Reg.new.setStrict b).setEscape f) file (STm.stmt raw false tl ⟨0, .name w, []⟩ (.done (.tail [])) .nil).src data =
      match member data w with
      | some v => .ok (if stringify v = [] then [] else if raw then stringify v else f (stringify v))
      | none => if b then .err (.render (.variableNotFound w file)) else .ok [] := by
  obtain ⟨N, h⟩ := @C61_once H noCustom _ hok [] ((Reg.new.setStrict b).setEscape f) (@Equipped.mk _ noCustom _ (fun _ => rfl) rfl rfl rfl) (fun _ => rfl) file data
  refine ⟨N, fun n hn => ?_⟩
  rw [h n hn]
  have hp : @SPath.helper noCustom ⟨0, .name w, []⟩ = none := by
    unfold SPath.helper isHelper
    simp only
    rw [show @Custom.fn noCustom w = none from rfl, hh]
    rfl
  have hfind : (Scene.start ((Reg.new.setStrict b).setEscape f) file data).find ⟨0, .name w, []⟩ = member data w := by
    show ([[data]] : List (List Value)).flatten.findSome? (walk · [w]) = member data w
    cases hm : member data w <;> simp [walk, hm]
  have hsh : (⟨0, .name w, []⟩ : SPath).shown = w := by simp [SPath.shown, Head.text, dots, followingShown, dottedShown]
  have hev : @SExpr.eval H noCustom (.sub ⟨0, .name w, []⟩ (.done (.tail []))) (Scene.start ((Reg.new.setStrict b).setEscape f) file data) .none =
      match member data w with
      | some v => said (some v)
      | none => if b then fault (.err (.variableNotFound w file)) else said none := by
    unfold SExpr.eval
    rw [hp]
    simp only
    rw [hfind]
    cases member data w with
    | some v => rfl
    | none =>
        simp only
        have : @SPath.handler noCustom ⟨0, .name w, []⟩ = none := rfl
        rw [this]
        simp only
        unfold Scene.absent
        rw [hsh]
        cases b <;> rfl
  have hnil : ∀ (L : Full.Library) (Γ : Scene) (o c s : Bool), @Full.tm H noCustom L .nil Γ o c s = Full.wrote [] := by
    intro L Γ o c s; funext μ; unfold Full.tm; rfl
  unfold Full.meaning
  unfold Full.tm
  have hk : (⟨false || (⟨false, false, none, .none⟩ : Full.Mood).close, Full.stops .nil false⟩ : Cut) = .none := rfl
  rw [hk, hev, hnil]
  cases member data w with
  | none =>
      cases b
      · rfl
      · rfl
  | some v =>
      cases raw <;> simp [Full.prints, Scene.print, Full.cut, Full.Mood.next, Cut.none, Full.wrote, Full.Outcome.after, Full.Outcome.andThen, Full.Outcome.result, Scene.start, Reg.setEscape, said]

/-- **C82**: a new registry has no templates; `{{w}}` and `{{{w}}}`, where `w` is not a built-in helper, write what the data
has for `w`, with two braces escaped for HTML, and nothing if it has nothing. -/
theorem C82_new (file : Str) (raw : Bool) (tl : Tilde) (w : Str) (hok : (STm.stmt raw false tl ⟨0, .name w, []⟩ (.done (.tail [])) .nil).ok [] = true)
    (hh : helperNames.contains w = false) (data : Value) :
    (∀ name, Reg.new.get name = none) ∧ ∃ N, ∀ n, N ≤ n → Reg.once n Reg.new file (STm.stmt raw false tl ⟨0, .name w, []⟩ (.done (.tail [])) .nil).src data =
      match member data w with
      | some v => .ok (if raw then stringify v else escapeHtml (stringify v))
      | none => .ok [] := by
  refine ⟨fun _ => rfl, ?_⟩
  obtain ⟨N, h⟩ := plain_stmt false raw escapeHtml file tl w hok hh data
  refine ⟨N, fun n hn => (h n hn).trans ?_⟩
  cases member data w with
  | none => rfl
  | some v =>
      by_cases hv : stringify v = []
      · simp [hv, escapeHtml]
      · simp [hv]

/-- **C82**: after `set_strict(true)` what the data does not have is an error that names it and the template;
after `set_escape(f)` two braces write what `f` makes of a (non-empty) value. -/
theorem C82_settings (b : Bool) (f : Str → Str) (file : Str) (raw : Bool) (tl : Tilde) (w : Str) (hok : (STm.stmt raw false tl ⟨0, .name w, []⟩ (.done (.tail [])) .nil).ok [] = true)
    (hh : helperNames.contains w = false) (data : Value) :
    ∃ N, ∀ n, N ≤ n → Reg.once n ((Reg.new.setStrict b).setEscape f) file (STm.stmt raw false tl ⟨0, .name w, []⟩ (.done (.tail [])) .nil).src data =
      match member data w with
      | some v => .ok (if stringify v = [] then [] else if raw then stringify v else f (stringify v))
      | none => if b then .err (.render (.variableNotFound w file)) else .ok [] :=
  plain_stmt b raw f file tl w hok hh data

/-- **C82**: in a new registry a link is written as its text, and a block with a name that is neither a helper nor in the data writes nothing. -/
theorem C82_unhandled (file : Str) (data : Value) :
    (∀ h l t, (STm.link false h l t .nil).ok [] = true → ∃ N, ∀ n, N ≤ n → Reg.once n Reg.new file (STm.link false h l t .nil).src data = .ok (linkText false h l t)) ∧
    (∀ tl cl w body, (STm.block false tl w (.done (.tail [])) body .nil cl .nil).ok [] = true → helperNames.contains w = false → member data w = none →
      ∃ N, ∀ n, N ≤ n → Reg.once n Reg.new file (STm.block false tl w (.done (.tail [])) body .nil cl .nil).src data = .ok []) := by
  have hnil : ∀ (L : Full.Library) (Γ : Scene) (o c s : Bool), @Full.tm H noCustom L .nil Γ o c s = Full.wrote [] := by
    intro L Γ o c s; funext μ; unfold Full.tm; rfl
  constructor
  · intro h l t hok
    obtain ⟨N, hN⟩ := @C61_once H noCustom _ hok [] Reg.new (@Equipped.mk _ noCustom _ (fun _ => rfl) rfl rfl rfl) (fun _ => rfl) file data
    refine ⟨N, fun n hn => ?_⟩
    rw [hN n hn]
    unfold Full.meaning
    unfold Full.tm
    rw [hnil]
    unfold Full.link
    rw [show (if false = true then none else @Custom.link noCustom) = none from rfl]
    simp [Full.wrote, Full.Outcome.andThen, Full.Outcome.result, Full.cut, Full.Mood.next, Full.stops, Full.opens]
  · intro tl cl w body hok hh hd
    obtain ⟨N, hN⟩ := @C61_once H noCustom _ hok [] Reg.new (@Equipped.mk _ noCustom _ (fun _ => rfl) rfl rfl rfl) (fun _ => rfl) file data
    refine ⟨N, fun n hn => ?_⟩
    rw [hN n hn]
    have hfind : (Scene.start Reg.new file data).find ⟨0, .name w, []⟩ = none := by
      show ([[data]] : List (List Value)).flatten.findSome? (walk · [w]) = none
      simp [walk, hd]
    unfold Full.meaning
    unfold Full.tm
    rw [hnil]
    unfold Full.block
    have hi : @isHelper noCustom w = false := by
      unfold isHelper
      rw [show @Custom.fn noCustom w = none from rfl, hh]
      rfl
    rw [hi, hfind]
    rfl

end

/-! ### Examples -/

attribute [local instance] exHost noCustom

private def t0 : Tilde := ⟨false, false, [], [], []⟩
example : (STm.stmt false false t0 ⟨0, .name c!"x", []⟩ (.done (.tail [])) .nil).ok [] = true ∧ helperNames.contains c!"x" = false ∧
    String.ofList (STm.stmt false false t0 ⟨0, .name c!"x", []⟩ (.done (.tail [])) .nil).src = "{{x}}" := by decide +kernel
example : (STm.block false t0 c!"x" (.done (.tail [])) (.text c!"a" .nil) .nil t0 .nil).ok [] = true ∧
    String.ofList (STm.block false t0 c!"x" (.done (.tail [])) (.text c!"a" .nil) .nil t0 .nil).src = "{{#x}}a{{/x}}" ∧
    (STm.link false c!"a" (some c!"b") none .nil).ok [] = true := by decide +kernel

end Bracket.Props
