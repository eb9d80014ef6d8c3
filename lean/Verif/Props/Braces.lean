import Verif.Lemmas.Braces
import Verif.Props.Handlers

/-! C81: the escape function acts on what two braces print, and only on that. -/

set_option linter.unusedSectionVars false

namespace Bracket.Props
open Bracket Spec Bracket.Props.Braces
open Bracket.Spec.Full hiding block blockHelper contents rounds builtinBlock depth

mutual
theorem tm_unescaped : ∀ T : STm, T.unescaped = true → T.braced = T
  | .nil, _ => rfl
  | .text _ r, h | .comment _ r, h | .longComment _ r, h | .escaped _ r, h | .link _ _ _ _ r, h | .rawBlock _ _ _ _ _ r, h => by
      unfold STm.unescaped at h
      unfold STm.braced
      rw [tm_unescaped r h]
  | .stmt raw part _ _ _ r, h => by
      unfold STm.unescaped at h
      unfold STm.braced
      simp only [Bool.and_eq_true] at h
      rw [tm_unescaped r h.2]
      revert h
      cases raw <;> cases part <;> simp
  | .dyn raw part _ _ _ _ r, h => by
      unfold STm.unescaped at h
      unfold STm.braced
      simp only [Bool.and_eq_true] at h
      rw [tm_unescaped r h.2]
      revert h
      cases raw <;> cases part <;> simp
  | .block _ _ _ _ body cs _ r, h => by
      unfold STm.unescaped at h
      unfold STm.braced
      simp only [Bool.and_eq_true] at h
      rw [tm_unescaped body h.1.1, cls_unescaped cs h.1.2, tm_unescaped r h.2]
theorem cls_unescaped : ∀ cs : SCls, cs.unescaped = true → cs.braced = cs
  | .nil, _ => rfl
  | .cons _ _ body r, h => by
      unfold SCls.unescaped at h
      unfold SCls.braced
      simp only [Bool.and_eq_true] at h
      rw [tm_unescaped body h.1, cls_unescaped r h.2]
end

theorem braced_result (a : Outcome) : (braced a).result = a.result := by
  obtain ⟨w, x⟩ := a
  rcases x with (_ | _) | _ <;> rfl

section
variable [H : Host] [C : Custom]

/-- **C81**: with the escape function that does nothing, it does not matter whether a statement has two or three braces. -/
theorem C81_noop (T U : STm) (hT : T.ok [] = true) (hU : U.ok [] = true) (h : T.braced = U.braced) (lib lib' : List (Str × STm))
    (hlib : ∀ x, (lib.lookup x).map STm.braced = (lib'.lookup x).map STm.braced) (reg reg' : Reg) (hb : Equipped reg) (hb' : Equipped reg')
    (hl : Full.Holds reg lib) (hl' : Full.Holds reg' lib') (hs : reg'.strict = reg.strict) (he : reg.escape = escapeNoop) (he' : reg'.escape = escapeNoop)
    (name : Str) (data : Value) :
    ∃ N, ∀ n, N ≤ n → Reg.once n reg name T.src data = Reg.once n reg' name U.src data := by
  obtain ⟨N1, h1⟩ := whole_once T hT lib reg hb hl (max (lib.length + 1) (lib'.length + 1)) (Nat.le_max_left ..) name data
  obtain ⟨N2, h2⟩ := whole_once U hU lib' reg' hb' hl' (max (lib.length + 1) (lib'.length + 1)) (Nat.le_max_right ..) name data
  refine ⟨max N1 N2, fun n hn => ?_⟩
  rw [h1 n (by omega), h2 n (by omega), show Scene.start reg' name data = Scene.start reg name data by unfold Scene.start; rw [hs, he, he']]
  generalize max (lib.length + 1) (lib'.length + 1) = k
  have hΓ : (Scene.start reg name data).escape = escapeNoop := he
  have a := tm_braced (e := escapeNoop) (.inl rfl) (depth_braced (.inl rfl) (get := (lib.lookup ·)) (get' := fun x => (lib.lookup x).map STm.braced) (fun _ => rfl) k) T
    hΓ false false false ⟨false, false, none, .none⟩
  have b := tm_braced (e := escapeNoop) (.inl rfl) (depth_braced (.inl rfl) (get := (lib'.lookup ·)) (get' := fun x => (lib.lookup x).map STm.braced) hlib k) U
    hΓ false false false ⟨false, false, none, .none⟩
  rw [← braced_result, ← a, h, b, braced_result]

/-- **C81**: where every statement that prints has three braces, and what helpers and handlers of the application write
themselves is not escaped, the escape function does not matter. -/
theorem C81_raw (hC : Direct) (T : STm) (hT : T.ok [] = true) (hu : T.unescaped = true) (lib : List (Str × STm)) (hlib : ∀ x ∈ lib, x.2.unescaped = true)
    (reg : Reg) (hb : Equipped reg) (hl : Full.Holds reg lib) (f : Str → Str) (name : Str) (data : Value) :
    ∃ N, ∀ n, N ≤ n → Reg.once n (reg.setEscape f) name T.src data = Reg.once n reg name T.src data := by
  obtain ⟨N1, h1⟩ := C61_once T hT lib reg hb hl name data
  obtain ⟨N2, h2⟩ := C61_once T hT lib (reg.setEscape f) ⟨hb.1, hb.2, hb.3, hb.4⟩ hl name data
  refine ⟨max N1 N2, fun n hn => ?_⟩
  rw [h1 n (by omega), h2 n (by omega)]
  have key : ∀ e, (Full.meaning lib T { Scene.start reg name data with escape := e }).result = (Full.meaning lib T { Scene.start reg name data with escape := escapeNoop }).result := by
    intro e
    have hg : ∀ x, lib.lookup x = (lib.lookup x).map STm.braced := by
      intro x
      cases hx : lib.lookup x with
      | none => rfl
      | some U => exact congrArg some (tm_unescaped U (hlib _ (mem_lookup hx))).symm
    have a := tm_braced (e := e) (.inr hC) (depth_braced (.inr hC) (get := (lib.lookup ·)) (get' := (lib.lookup ·)) hg (lib.length + 1)) T
      (Γ := { Scene.start reg name data with escape := escapeNoop }) rfl false false false ⟨false, false, none, .none⟩
    rw [tm_unescaped T hu] at a
    exact (congrArg Full.Outcome.result a).trans (braced_result _)
  exact (key f).trans (key reg.escape).symm

end

/-! ### Examples -/

attribute [local instance] exHost noCustom

private def t0 : Tilde := ⟨false, false, [], [], []⟩
private def xPath : SPath := ⟨0, .name c!"x", []⟩
private def two (raw : Bool) : STm :=
  .text c!"<" <| .stmt raw false t0 xPath (.done .nil) <| .block false t0 c!"if" (.arg (.path xPath) (.done .nil)) (.stmt false false t0 xPath (.done .nil) .nil) .nil t0 .nil
private def three : STm := .text c!"<" <| .stmt true false t0 xPath (.done .nil) <| .stmt false true t0 ⟨0, .name c!"p", []⟩ (.done .nil) .nil

example : String.ofList (two false).src = "<{{x}}{{#if x}}{{x}}{{/if}}" ∧ String.ofList (two true).src = "<{{{x}}}{{#if x}}{{x}}{{/if}}" ∧
    (two false).ok [] = true ∧ (two true).ok [] = true := by decide +kernel
example : (two false).braced = (two true).braced := rfl
example : String.ofList three.src = "<{{{x}}}{{>p}}" ∧ three.ok [] = true ∧ three.unescaped = true ∧ (two true).unescaped = false := by decide +kernel
example : (Reg.new.setEscape escapeNoop).escape = escapeNoop := rfl
example : Direct := ⟨(by intro _ _ h; cases h), (by intro _ h; cases h), (by intro _ _ h; cases h), (by intro _ _ _ h; cases h)⟩
example : (match Reg.once 40 (Reg.new.setEscape escapeNoop) c!"t" (two false).src (.obj [(c!"x", .str c!"&")]), Reg.once 40 Reg.new c!"t" (two false).src (.obj [(c!"x", .str c!"&")]) with
    | .ok u, .ok w => (String.ofList u, String.ofList w)
    | _, _ => ("", "")) = ("<&&", "<&amp;&amp;") := by decide +kernel

end Bracket.Props
