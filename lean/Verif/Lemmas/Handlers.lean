import Verif.Spec.Handlers
import Verif.Lemmas.Tied

/-! A handler that is not needed does not matter. -/

set_option linter.unusedSectionVars false

namespace Bracket.Props.Handlers
open Bracket Spec Bracket.Props
open Bracket.Spec.Full hiding block blockHelper contents rounds builtinBlock depth

section
variable [H : Host] {C C' : Custom} {l m b : Bool}

/-- The same, or (if `m`) the second fails. -/
def Same {α : Type} (m : Bool) (x y : Said α) : Prop := x = y ∨ (m = true ∧ ∃ f, y.2 = .error f)

theorem Same.refl {α : Type} (x : Said α) : Same m x x := .inl rfl
theorem Same.bind {α β : Type} {x y : Said α} {f g : α → Said β} (h : Same m x y) (hf : ∀ v, Same m (f v) (g v)) : Same m (x.bind f) (y.bind g) := by
  obtain ⟨w, y⟩ := y
  rcases h with rfl | ⟨hm, e, he⟩
  · cases y with
    | error e => exact .inl rfl
    | ok v =>
        rcases hf v with h | ⟨hm, e, he⟩
        · left
          show (w ++ (f v).1, (f v).2) = (w ++ (g v).1, (g v).2)
          rw [h]
        · exact .inr ⟨hm, e, he⟩
  · simp only at he
    subst he
    exact .inr ⟨hm, e, rfl⟩

/-- Where the handlers may differ. -/
structure Setting (m : Bool) (C : Custom) (Γ : Scene) : Prop where
  strict : m = true → Γ.strict = true
  missing : m = true → C.missing = none

theorem Setting.enter {Γ : Scene} (h : Setting m C Γ) (x : CallSite) : Setting m C (Γ.enter x) := ⟨h.strict, h.missing⟩
theorem Setting.push {Γ : Scene} (h : Setting m C Γ) (sc : Scope) : Setting m C (Γ.push sc) := ⟨h.strict, h.missing⟩

variable (hC : Custom.SameBut l m b C C')

include hC

theorem isHelper_same (w : Str) : @isHelper C' w = @isHelper C w := by
  unfold isHelper
  rw [show @Custom.fn C' = @Custom.fn C from hC.fn]

theorem pathHelper_same (p : SPath) : @SPath.helper C' p = @SPath.helper C p := by
  unfold SPath.helper
  split
  · rw [isHelper_same hC]
  · rfl

theorem value_same (w : Str) (Γ : Scene) (k : Cut) (vs : List Value) (hs : List (Str × Value)) :
    @helperValue H C' w Γ k vs hs = @helperValue H C w Γ k vs hs := by
  unfold helperValue
  rw [show @Custom.fn C' = @Custom.fn C from hC.fn]

mutual
theorem expr_same : ∀ (x : SExpr) {Γ : Scene} (k : Cut), Setting m C Γ → Same m (@SExpr.eval H C' x Γ k) (@SExpr.eval H C x Γ k)
  | .path p, Γ, k, h => by unfold SExpr.eval; exact .refl _
  | .lit q, Γ, k, h => by unfold SExpr.eval; exact .refl _
  | .sub p a, Γ, k, h => by
      unfold SExpr.eval
      rw [pathHelper_same hC]
      cases @SPath.helper C p with
      | some w =>
          simp only
          split
          · exact .refl _
          · refine (args_same a k (h.enter (.helper w))).bind fun x => ?_
            rw [value_same hC]
            exact .refl _
      | none =>
          simp only
          cases Γ.find p with
          | some v => exact .refl _
          | none =>
              simp only
              rcases hC.missing with hm | hm
              · have hn : @SPath.handler C p = none := by
                  unfold SPath.handler
                  rw [show @Custom.missing C = none from h.missing hm]
                  split <;> rfl
                rw [hn]
                simp only
                unfold Scene.absent
                rw [h.strict hm]
                cases hx : p.head.explicit with
                | false => exact .inr ⟨hm, _, rfl⟩
                | true =>
                    have hn' : @SPath.handler C' p = none := by
                      unfold SPath.handler
                      rw [if_neg]
                      unfold Full.plainName
                      revert hx
                      cases p.head <;> simp [Head.explicit]
                    rw [hn']
                    exact .refl _
              · have hh : @SPath.handler C' p = @SPath.handler C p := by
                  unfold SPath.handler
                  rw [show @Custom.missing C' = @Custom.missing C from hm]
                rw [hh]
                cases @SPath.handler C p with
                | none => exact .refl _
                | some f =>
                    simp only
                    split
                    · exact .refl _
                    · exact (args_same a k (h.enter (.helper missingName))).bind fun x => .refl _
theorem args_same : ∀ (a : SArgs) {Γ : Scene} (k : Cut), Setting m C Γ → Same m (@SArgs.eval H C' a Γ k) (@SArgs.eval H C a Γ k)
  | .done hh, Γ, k, h => by
      unfold SArgs.eval
      exact (hash_same hh k h).bind fun _ => .refl _
  | .argW w x r, Γ, k, h => by
      unfold SArgs.eval
      exact (expr_same x k h).bind fun _ => (args_same r k h).bind fun _ => .refl _
theorem hash_same : ∀ (hh : SHash) {Γ : Scene} (k : Cut), Setting m C Γ → Same m (@SHash.eval H C' hh Γ k) (@SHash.eval H C hh Γ k)
  | .tail _, Γ, k, h => by unfold SHash.eval; exact .refl _
  | .pairW w j x r, Γ, k, h => by
      unfold SHash.eval
      exact (expr_same x k h).bind fun _ => (hash_same r k h).bind fun _ => .refl _
end

theorem positional_same : ∀ (a : SArgs) {Γ : Scene} (k : Cut), Setting m C Γ → Same m (@positional H C' a Γ k) (@positional H C a Γ k)
  | .done hh, Γ, k, h => .refl _
  | .argW w x r, Γ, k, h => by
      unfold positional
      exact (expr_same hC x k h).bind fun _ => (positional_same r k h).bind fun _ => .refl _

omit hC

/-- The content of the block partial called last needs no handler. -/
def Free (C : Custom) (l b : Bool) (μ : Mood) : Prop := ∀ T, μ.block = some T → @STm.unhandled C l b T = true

theorem Free.next {μ : Mood} (h : Free C l b μ) (t : Bool) (k : Cut) : Free C l b (μ.next t k) := h

/-- The same, or (if `m`) the second fails. -/
structure Kept (C : Custom) (l m b : Bool) (x y : Outcome) : Prop where
  same : x = y ∨ (m = true ∧ ∃ f, y.2 = .error f)
  free : ∀ μ, y.2 = .ok μ → Free C l b μ

theorem kept_wrote (w : Str) {μ : Mood} (h : Free C l b μ) : Kept C l m b (wrote w μ) (wrote w μ) :=
  ⟨.inl rfl, fun ν hν => by injection hν with hν; exact hν ▸ h⟩
theorem kept_failed (f : Fault) : Kept C l m b (failed f) (failed f) := ⟨.inl rfl, fun ν hν => by cases hν⟩

theorem Kept.andThen {x y : Outcome} (h : Kept C l m b x y) {f g : Mood → Outcome} (hf : ∀ μ, Free C l b μ → Kept C l m b (f μ) (g μ)) :
    Kept C l m b (x.andThen f) (y.andThen g) := by
  obtain ⟨w, y⟩ := y
  obtain ⟨h, hk⟩ := h
  cases y with
  | error e =>
      refine ⟨?_, fun ν hν => by cases hν⟩
      rcases h with rfl | ⟨hm, _⟩
      · exact .inl rfl
      · exact .inr ⟨hm, e, rfl⟩
  | ok μ =>
      have hh := hf μ (hk μ rfl)
      refine ⟨?_, hh.free⟩
      rcases h with rfl | ⟨_, e, he⟩
      · rcases hh.same with h | ⟨hm, e, he⟩
        · left
          show (w ++ (f μ).1, (f μ).2) = (w ++ (g μ).1, (g μ).2)
          rw [h]
        · exact .inr ⟨hm, e, he⟩
      · cases he

theorem Kept.after {α : Type} {x y : Said α} (h : Same m x y) {f g : α → Outcome} (hf : ∀ v, Kept C l m b (f v) (g v)) :
    Kept C l m b (.after x f) (.after y g) := by
  obtain ⟨w, y⟩ := y
  cases y with
  | error e =>
      refine ⟨?_, fun ν hν => by cases hν⟩
      rcases h with rfl | ⟨hm, _⟩
      · exact .inl rfl
      · exact .inr ⟨hm, e, rfl⟩
  | ok v =>
      refine ⟨?_, (hf v).free⟩
      rcases h with rfl | ⟨_, e, he⟩
      · rcases (hf v).same with h | ⟨hm, e, he⟩
        · left
          show (w ++ (f v).1, (f v).2) = (w ++ (g v).1, (g v).2)
          rw [h]
        · exact .inr ⟨hm, e, he⟩
      · cases he

theorem Kept.within {x y : Outcome} (h : Kept C l m b x y) : Kept C l m b x.within y.within := by
  obtain ⟨w, y⟩ := y
  obtain ⟨h, hk⟩ := h
  cases y with
  | error e =>
      refine ⟨?_, fun ν hν => by cases hν⟩
      rcases h with rfl | ⟨hm, _⟩
      · exact .inl rfl
      · exact .inr ⟨hm, _, rfl⟩
  | ok μ =>
      refine ⟨?_, hk⟩
      rcases h with rfl | ⟨_, e, he⟩
      · exact .inl rfl
      · cases he

/-- The contents of a block. -/
def KeptIn (C : Custom) (l m b : Bool) (D' D : Scene → Mood → Outcome) : Prop :=
  ∀ Γ μ, Setting m C Γ → Free C l b μ → Kept C l m b (D' Γ μ) (D Γ μ)

section
variable {D D' A A' : Scene → Mood → Outcome} (hD : KeptIn C l m b D' D) (hA : KeptIn C l m b A' A)

include hD in
theorem kept_rounds {Γ : Scene} (h : Setting m C Γ) : ∀ rs μ, Free C l b μ → Kept C l m b (Full.rounds D' Γ rs μ) (Full.rounds D Γ rs μ)
  | [], μ, hm => kept_wrote _ hm
  | r :: rs, μ, hm => (hD _ μ (h.push _) hm).within.andThen fun ν hν => kept_rounds h rs ν hν

include hD in
theorem kept_contents {Γ : Scene} (h : Setting m C Γ) (e : Option HelperErr) :
    ∀ a μ, Free C l b μ → Kept C l m b (Full.contents D' Γ e a μ) (Full.contents D Γ e a μ)
  | [], μ, hm => by
      cases e with
      | none => exact kept_wrote _ hm
      | some e => exact kept_failed _
  | .print x :: rs, μ, hm => (kept_wrote _ hm).andThen fun ν hν => kept_contents h e rs ν hν
  | .content none :: rs, μ, hm => (hD _ μ h hm).within.andThen fun ν hν => kept_contents h e rs ν hν
  | .content (some _) :: rs, μ, hm => (hD _ μ (h.push _) hm).within.andThen fun ν hν => kept_contents h e rs ν hν

include hD hA in
theorem kept_builtin (w : Str) (vs : List Value) (hs : List (Str × Value)) {Γ : Scene} (h : Setting m C Γ) {μ : Mood} (hm : Free C l b μ) :
    Kept C l m b (Full.builtinBlock w vs hs D' A' Γ μ) (Full.builtinBlock w vs hs D A Γ μ) := by
  have val : Kept C l m b (match builtinValue w vs hs with
      | .error f => failed f
      | .ok _ => wrote [] μ) (match builtinValue w vs hs with
      | .error f => failed f
      | .ok _ => wrote [] μ) := by
    cases builtinValue w vs hs with
    | error f => exact kept_failed f
    | ok _ => exact kept_wrote _ hm
  unfold Full.builtinBlock
  match vs, val with
  | [v], val =>
      simp only
      split
      · split
        · exact (hD Γ μ h hm).within
        · exact (hA Γ μ h hm).within
      split
      · split
        · exact (hA Γ μ h hm).within
        · exact (hD Γ μ h hm).within
      split
      · cases v with
        | arr l => exact kept_rounds hD h _ μ hm
        | obj l => exact kept_rounds hD h _ μ hm
        | _ => exact kept_wrote _ hm
      split
      · cases v with
        | null => exact kept_wrote _ hm
        | _ => exact (hD _ μ (h.push _) hm).within
      · exact val
  | [], val => exact val
  | _ :: _ :: _, val => exact val

include hD hA in
theorem kept_custom (f : CustomFn) (t : Option Str) (vs : List Value) (hs : List (Str × Value)) {Γ : Scene} (h : Setting m C Γ) {μ : Mood} (hm : Free C l b μ) :
    Kept C l m b (customBlock f t vs hs D' A' Γ μ) (customBlock f t vs hs D A Γ μ) := by
  unfold customBlock
  cases f.block t vs (fun k => hs.lookup k) with
  | contents a e => exact kept_contents hD h e a μ hm
  | otherwise => exact (hA _ μ h hm).within

include hD hA hC in
theorem kept_helped (w : Str) (t : Option Str) (a : SArgs) {Γ : Scene} (h : Setting m C Γ) {μ : Mood} (hm : Free C l b μ) :
    Kept C l m b (@helped H C' w t a D' A' Γ μ) (@helped H C w t a D A Γ μ) := by
  unfold helped
  split
  · exact kept_failed _
  refine Kept.after (args_same hC a _ (h.enter (.block w))) fun v => ?_
  unfold Full.blockHelper
  rw [show @Custom.fn C' = @Custom.fn C from hC.fn]
  cases @Custom.fn C w with
  | none => exact kept_builtin hD hA w _ _ (h.enter _) hm
  | some f => exact kept_custom hD hA f t _ _ (h.enter _) hm

include hD hA hC in
theorem kept_block {w : Str} (hw : b = true → @isHelper C w = true) (a : SArgs) {Γ : Scene} (h : Setting m C Γ) {μ : Mood} (hm : Free C l b μ) :
    Kept C l m b (@Full.block H C' w a D' A' Γ μ) (@Full.block H C w a D A Γ μ) := by
  unfold Full.block
  rw [isHelper_same hC]
  split
  · exact kept_helped hC hD hA w none a h hm
  · rename_i hn
    have hb : @Custom.blockMissing C' = @Custom.blockMissing C := hC.blockMissing.resolve_left fun e => hn (hw e)
    rw [hb]
    cases Γ.find ⟨0, .name w, []⟩ with
    | some v =>
        simp only
        cases @Custom.blockMissing C with
        | none => exact (hD Γ μ h hm).within
        | some f =>
            simp only [handled]
            split
            · exact kept_failed _
            · exact Kept.after (args_same hC a _ (h.enter (.block blockMissingName))) fun x => kept_custom hD hA (f w v) none _ _ (h.enter _) hm
    | none =>
        simp only
        rcases hC.missing with hx | hx
        · rw [show @Custom.missing C = none from h.missing hx]
          simp only
          rw [h.strict hx]
          exact ⟨.inr ⟨hx, _, rfl⟩, fun ν hν => by cases hν⟩
        · rw [show @Custom.missing C' = @Custom.missing C from hx]
          cases @Custom.missing C with
          | none =>
              simp only
              split
              · exact kept_failed _
              · exact kept_wrote _ hm
          | some f => exact Kept.after (expr_same hC (.sub ⟨0, .name w, []⟩ a) _ h) fun _ => kept_wrote _ hm

include hC in
theorem kept_link (Γ : Scene) {e : Bool} (he : l = true → e = true) (hr : Str) (lb t : Option Str) {μ : Mood} (hm : Free C l b μ) :
    Kept C l m b (@Full.link C' Γ e hr lb t μ) (@Full.link C Γ e hr lb t μ) := by
  unfold Full.link
  have : (if e then none else @Custom.link C') = if e then none else @Custom.link C := by
    rcases hC.link with h | h
    · rw [he h]; rfl
    · rw [show @Custom.link C' = @Custom.link C from h]
  rw [this]
  generalize (if e then none else @Custom.link C) = o
  cases o with
  | none => exact kept_wrote _ hm
  | some f =>
      simp only
      split
      · exact kept_failed _
      · exact Kept.after (.refl _) fun _ => kept_wrote _ hm
end

/-- Two libraries that render the same. -/
structure KeptLib (C : Custom) (l m b : Bool) (L' L : Library) : Prop where
  get : ∀ x, L'.get x = L.get x
  good : ∀ x T, L.get x = some T → @STm.unhandled C l b T = true
  render : ∀ T Γ μ, @STm.unhandled C l b T = true → Setting m C Γ → Free C l b μ → Kept C l m b (L'.render T Γ μ) (L.render T Γ μ)

include hC in
theorem kept_included {L L' : Library} (hL : KeptLib C l m b L' L) {content : Option STm} (hc : ∀ T, content = some T → @STm.unhandled C l b T = true)
    (w : Str) (a : SArgs) {Γ : Scene} (h : Setting m C Γ) {μ : Mood} (hm : Free C l b μ) :
    Kept C l m b (@included H C' L' content w a Γ μ) (@included H C L content w a Γ μ) := by
  unfold included
  split
  · exact kept_failed _
  have hg : Free C l b (μ.given content) := by
    cases content with
    | none => exact hm
    | some T => intro U hU; injection hU with hU; exact hU ▸ hc T rfl
  revert hg
  generalize μ.given content = ν
  intro hg
  have hf : L'.find ν w = L.find ν w := by unfold Library.find; rw [hL.get]
  have hgood : ∀ T, L.find ν w = some T → @STm.unhandled C l b T = true := by
    intro T
    unfold Library.find
    split
    · cases hb : ν.block with
      | none => exact hL.good _ T
      | some U => intro e; injection e with e; exact e ▸ hg U hb
    · exact hL.good _ T
  rw [hf]
  cases hfe : L.find ν w with
  | none => exact kept_failed _
  | some T =>
      exact Kept.after (hash_same hC _ _ (h.enter (.part w))) fun hs => Kept.after (positional_same hC a _ (h.enter (.part w))) fun vs =>
        hL.render T _ ν (hgood T hfe) ((h.enter (.part w)).push _) hg

include hC in
theorem kept_partial {L L' : Library} (hL : KeptLib C l m b L' L) {content : Option STm} (hc : ∀ T, content = some T → @STm.unhandled C l b T = true)
    (p : SPath) (a : SArgs) {Γ : Scene} (h : Setting m C Γ) {μ : Mood} (hm : Free C l b μ) :
    Kept C l m b (@partialCall H C' L' content p a Γ μ) (@partialCall H C L content p a Γ μ) := by
  unfold partialCall
  split
  · exact kept_failed _
  · exact kept_included hC hL hc _ a h hm

include hC in
theorem kept_prints {Γ : Scene} (h : Setting m C Γ) (raw : Bool) (k : Cut) (x : SExpr) {μ : Mood} (hm : Free C l b μ) :
    Kept C l m b (prints Γ raw (@SExpr.eval H C' x Γ k) μ) (prints Γ raw (@SExpr.eval H C x Γ k) μ) := by
  unfold prints
  exact Kept.after (expr_same hC x k h) fun v => by cases v <;> exact kept_wrote _ hm

include hC
mutual
theorem kept_tm {L L' : Library} (hL : KeptLib C l m b L' L) : ∀ (T : STm), @STm.unhandled C l b T = true →
    ∀ {Γ : Scene} (_ : Setting m C Γ) (o c s : Bool) (μ : Mood), Free C l b μ → Kept C l m b (@tm H C' L' T Γ o c s μ) (@tm H C L T Γ o c s μ)
  | .nil, hT, Γ, h, o, c, s, μ, hm => by unfold tm; exact kept_wrote _ hm
  | .text w r, hT, Γ, h, o, c, s, μ, hm => by
      unfold STm.unhandled at hT
      unfold tm
      exact (kept_wrote _ (hm.next _ _)).andThen fun ν hν => kept_tm hL r hT h o c false ν hν
  | .comment w r, hT, Γ, h, o, c, s, μ, hm => by
      unfold STm.unhandled at hT
      unfold tm
      exact (kept_wrote _ (hm.next _ _)).andThen fun ν hν => kept_tm hL r hT h o c false ν hν
  | .longComment w r, hT, Γ, h, o, c, s, μ, hm => by
      unfold STm.unhandled at hT
      unfold tm
      exact (kept_wrote _ (hm.next _ _)).andThen fun ν hν => kept_tm hL r hT h o c false ν hν
  | .escaped w r, hT, Γ, h, o, c, s, μ, hm => by
      unfold STm.unhandled at hT
      unfold tm
      exact (kept_wrote _ (hm.next _ _)).andThen fun ν hν => kept_tm hL r hT h o c false ν hν
  | .link e hr lb t r, hT, Γ, h, o, c, s, μ, hm => by
      unfold STm.unhandled at hT
      simp only [Bool.and_eq_true, Bool.or_eq_true, Bool.not_eq_true'] at hT
      unfold tm
      exact (kept_link hC Γ (fun e => hT.1.resolve_left (by rw [e]; exact Bool.noConfusion)) hr lb t (hm.next _ _)).andThen fun ν hν => kept_tm hL r hT.2 h o c false ν hν
  | .stmt raw part tl p a r, hT, Γ, h, o, c, s, μ, hm => by
      unfold STm.unhandled at hT
      unfold tm
      refine Kept.andThen ?_ fun ν hν => kept_tm hL r hT h o c tl.after ν hν
      cases part with
      | true =>
          simp only [if_true]
          exact kept_partial hC hL (content := none) (fun _ h => by cases h) p a h (hm.next _ _)
      | false =>
          simp only [Bool.false_eq_true, if_false]
          exact kept_prints hC h raw _ (.sub p a) (hm.next _ _)
  | .dyn raw part tl q d a r, hT, Γ, h, o, c, s, μ, hm => by
      unfold STm.unhandled at hT
      unfold tm
      refine Kept.andThen ?_ fun ν hν => kept_tm hL r hT h o c tl.after ν hν
      cases part with
      | true =>
          simp only [if_true]
          unfold computedCall
          exact Kept.after (expr_same hC _ _ h) fun v => kept_included hC hL (fun _ h => by cases h) _ a h (hm.next _ _)
      | false =>
          simp only [Bool.false_eq_true, if_false]
          exact kept_prints hC h raw _ (.sub q d) (hm.next _ _)
  | .rawBlock tl w a x cl r, hT, Γ, h, o, c, s, μ, hm => by
      unfold STm.unhandled at hT
      unfold tm
      rw [isHelper_same hC]
      refine Kept.andThen ?_ fun ν hν => kept_tm hL r hT h o c o ν hν
      split
      · exact kept_helped hC (D := fun _ μ => wrote (cut (μ.hint || tl.after || μ.close) cl.before x) ⟨false, cl.after, μ.block, ⟨μ.hint || tl.after || μ.close, cl.before⟩⟩)
          (A := fun _ μ => wrote [] μ) (fun _ ν _ hν => kept_wrote _ hν) (fun _ ν _ hν => kept_wrote _ hν) w (some _) a h
          (μ := { μ.next tl.after ⟨s || μ.close, stops r c⟩ with close := cl.after }) hm
      · exact kept_wrote _ hm
  | .block part tl w a body cs cl r, hT, Γ, h, o, c, s, μ, hm => by
      unfold STm.unhandled at hT
      simp only [Bool.and_eq_true, Bool.or_eq_true, Bool.not_eq_true'] at hT
      obtain ⟨⟨⟨h1, h3⟩, h4⟩, h5⟩ := hT
      unfold tm
      refine Kept.andThen ?_ fun ν hν => kept_tm hL r h5 h o c o ν hν
      cases part with
      | true =>
          simp only [if_true]
          exact kept_partial hC hL (content := some body) (by intro T hT; injection hT with hT; exact hT ▸ h3) _ a h (hm.next _ _)
      | false =>
          simp only [Bool.false_eq_true, if_false, or_false] at h1 ⊢
          refine kept_block hC (D := fun Δ μ => (@tm H C L body Δ tl.after cl.before (μ.hint || tl.after) μ).andThen fun μ => wrote [] { μ with close := !isNil body && cl.after })
            (A := fun Δ μ => @clauses H C L cs cl Δ (fun μ => wrote [] μ) μ)
            (D' := fun Δ μ => (@tm H C' L' body Δ tl.after cl.before (μ.hint || tl.after) μ).andThen fun μ => wrote [] { μ with close := !isNil body && cl.after })
            (A' := fun Δ μ => @clauses H C' L' cs cl Δ (fun μ => wrote [] μ) μ) (fun Δ ν hΔ hν => ?_) (fun Δ ν hΔ hν => ?_)
            (fun e => h1.resolve_left (by rw [e]; exact Bool.noConfusion)) a h (hm.next _ _)
          · exact (kept_tm hL body h3 hΔ _ _ _ ν hν).andThen fun κ hκ => kept_wrote _ hκ
          · exact kept_cls hL cs h4 cl hΔ (fun μ hμ => kept_wrote _ hμ) ν hν
theorem kept_cls {L L' : Library} (hL : KeptLib C l m b L' L) : ∀ (cs : SCls), @SCls.unhandled C l b cs = true →
    ∀ (cl : Tilde) {Γ : Scene} (_ : Setting m C Γ) {f g : Mood → Outcome}, (∀ μ, Free C l b μ → Kept C l m b (f μ) (g μ)) →
      ∀ μ, Free C l b μ → Kept C l m b (@clauses H C' L' cs cl Γ f μ) (@clauses H C L cs cl Γ g μ)
  | .nil, h1, cl, Γ, h, f, g, hf, μ, hm => by unfold clauses; exact hf μ hm
  | .cons tl none body r, h1, cl, Γ, h, f, g, hf, μ, hm => by
      unfold SCls.unhandled at h1
      simp only [Bool.and_eq_true] at h1
      unfold clauses
      exact kept_cls hL r h1.2 cl h
        (f := fun μ => (@tm H C' L' body Γ tl.after (clauseEnd r cl).1 (μ.hint || tl.after) μ).andThen fun μ =>
          wrote [] { μ with close := !isNil body && (clauseEnd r cl).2 })
        (g := fun μ => (@tm H C L body Γ tl.after (clauseEnd r cl).1 (μ.hint || tl.after) μ).andThen fun μ =>
          wrote [] { μ with close := !isNil body && (clauseEnd r cl).2 })
        (fun ν hν => (kept_tm hL body h1.1 h _ _ _ ν hν).andThen fun κ hκ => kept_wrote _ hκ) μ hm
  | .cons tl (some (p, a)) body r, h1, cl, Γ, h, f, g, hf, μ, hm => by
      unfold SCls.unhandled at h1
      simp only [Bool.and_eq_true] at h1
      unfold clauses
      refine Kept.after (expr_same hC (.sub p a) _ h) fun v => ?_
      split
      · exact (kept_tm hL body h1.1 h _ _ _ μ hm).andThen fun κ hκ => kept_wrote _ hκ
      · exact kept_cls hL r h1.2 cl h hf μ hm
end

theorem kept_depth {get : Str → Option STm} (h : ∀ x T, get x = some T → @STm.unhandled C l b T = true) :
    ∀ n, KeptLib C l m b (@Full.depth H C' get n) (@Full.depth H C get n)
  | 0 => ⟨fun _ => rfl, h, fun T Γ μ _ _ _ => kept_failed _⟩
  | n + 1 => ⟨fun _ => rfl, h, fun T Γ μ hT hs hm => kept_tm hC (kept_depth h n) T hT hs false false μ.hint μ hm⟩

end

end Bracket.Props.Handlers
