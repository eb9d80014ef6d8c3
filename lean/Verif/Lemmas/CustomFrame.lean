import Verif.Spec.Custom
import Verif.Lemmas.Tied

/-! A helper that is not mentioned does not matter. -/

set_option linter.unusedSectionVars false

namespace Bracket.Props.Unaware
open Bracket Spec Bracket.Props Bracket.Props.Tied
open Bracket.Spec.Full hiding block blockHelper contents rounds builtinBlock depth

section
variable [H : Host] {C C' : Custom} {name : Str} (hC : Custom.Except name C C')

/-- No mention of `name`. -/
abbrev other (name : Str) : SPath → Bool := fun p => p != ⟨0, .name name, []⟩
abbrev anyCall : SPath → SArgs → Bool := fun _ _ => true
abbrev anyPart : Option Str → Bool := fun _ => true

theorem other_iff {p : SPath} : other name p = true ↔ p ≠ ⟨0, .name name, []⟩ := by simp [other]
theorem other_name {w : Str} (h : other name ⟨0, .name w, []⟩ = true) : w ≠ name := by
  rw [other_iff] at h
  rintro rfl
  exact h rfl

include hC

theorem isHelper_other {w : Str} (h : w ≠ name) : @isHelper C' w = @isHelper C w := by
  unfold isHelper
  rw [show @Custom.fn C' w = @Custom.fn C w from hC.fn w h]

theorem pathHelper_other {p : SPath} (h : other name p = true) : @SPath.helper C' p = @SPath.helper C p := by
  rw [other_iff] at h
  unfold SPath.helper
  split
  · rename_i w
    rw [isHelper_other hC (fun e => h (by rw [e]))]
  · rfl

theorem value_other {w : Str} (h : w ≠ name) (Γ : Scene) (k : Cut) (vs : List Value) (hs : List (Str × Value)) :
    @helperValue H C' w Γ k vs hs = @helperValue H C w Γ k vs hs := by
  unfold helperValue
  rw [show @Custom.fn C' w = @Custom.fn C w from hC.fn w h]

theorem helper_other {p : SPath} {w : Str} (h : other name p = true) (hp : @SPath.helper C p = some w) : w ≠ name :=
  other_name ((@Tied.helper_path H C _ _ hp).1 ▸ h)

theorem handler_other (p : SPath) : @SPath.handler C' p = @SPath.handler C p := by
  unfold SPath.handler
  rw [show @Custom.missing C' = @Custom.missing C from hC.missing]

mutual
theorem expr_other : ∀ (x : SExpr), x.every (other name) anyCall = true → ∀ Γ k, @SExpr.eval H C' x Γ k = @SExpr.eval H C x Γ k
  | .path p, hx, Γ, k => by unfold SExpr.eval; rfl
  | .lit l, hx, Γ, k => by unfold SExpr.eval; rfl
  | .sub p a, hx, Γ, k => by
      rw [SExpr.every] at hx
      simp only [Bool.and_eq_true] at hx
      unfold SExpr.eval
      rw [pathHelper_other hC hx.1.1, handler_other hC]
      cases hp : @SPath.helper C p with
      | none =>
          simp only
          rw [args_other a hx.2]
      | some w =>
          simp only
          rw [args_other a hx.2]
          split
          · rfl
          · congr 1
            funext x
            exact value_other hC (helper_other hC hx.1.1 hp) _ _ _ _
theorem args_other : ∀ (a : SArgs), a.every (other name) anyCall = true → ∀ Γ k, @SArgs.eval H C' a Γ k = @SArgs.eval H C a Γ k
  | .done h, hx, Γ, k => by
      rw [SArgs.every] at hx
      unfold SArgs.eval
      rw [hash_other h hx]
  | .argW w x r, hx, Γ, k => by
      rw [SArgs.every] at hx
      simp only [Bool.and_eq_true] at hx
      unfold SArgs.eval
      rw [expr_other x hx.1, args_other r hx.2]
theorem hash_other : ∀ (h : SHash), h.every (other name) anyCall = true → ∀ Γ k, @SHash.eval H C' h Γ k = @SHash.eval H C h Γ k
  | .tail _, hx, Γ, k => by unfold SHash.eval; rfl
  | .pairW w j x r, hx, Γ, k => by
      rw [SHash.every] at hx
      simp only [Bool.and_eq_true] at hx
      unfold SHash.eval
      rw [expr_other x hx.1, hash_other r hx.2]
end

theorem positional_other : ∀ (a : SArgs), a.every (other name) anyCall = true → ∀ Γ k, @positional H C' a Γ k = @positional H C a Γ k
  | .done h, hx, Γ, k => rfl
  | .argW w x r, hx, Γ, k => by
      rw [SArgs.every] at hx
      simp only [Bool.and_eq_true] at hx
      unfold positional
      rw [expr_other hC x hx.1, positional_other r hx.2]

omit hC

/-- The same, and the content of the block partial called last does not mention `name` either. -/
structure Unmoved (name : Str) (a b : Outcome) : Prop where
  eq : a = b
  kind : ∀ μ, b.2 = .ok μ → Tied.Kind (other name) anyCall anyPart μ

theorem unmoved_wrote (w : Str) {μ : Mood} (h : Tied.Kind (other name) anyCall anyPart μ) : Unmoved name (wrote w μ) (wrote w μ) :=
  ⟨rfl, fun ν hν => by injection hν with hν; exact hν ▸ h⟩
theorem unmoved_failed (f : Fault) : Unmoved name (failed f) (failed f) := ⟨rfl, fun ν hν => by cases hν⟩

theorem Unmoved.andThen {a b : Outcome} (h : Unmoved name a b) {f g : Mood → Outcome}
    (hf : ∀ μ, Tied.Kind (other name) anyCall anyPart μ → Unmoved name (f μ) (g μ)) : Unmoved name (a.andThen f) (b.andThen g) := by
  obtain ⟨rfl, hk⟩ := h
  obtain ⟨w, x⟩ := a
  cases x with
  | error e => exact ⟨rfl, fun ν hν => by cases hν⟩
  | ok μ =>
      have := hf μ (hk μ rfl)
      refine ⟨?_, this.kind⟩
      show (w ++ (f μ).1, (f μ).2) = (w ++ (g μ).1, (g μ).2)
      rw [this.eq]

theorem Unmoved.after {α : Type} (x : Said α) {f g : α → Outcome} (hf : ∀ v, Unmoved name (f v) (g v)) : Unmoved name (.after x f) (.after x g) := by
  obtain ⟨w, x⟩ := x
  cases x with
  | error e => exact ⟨rfl, fun ν hν => by cases hν⟩
  | ok v =>
      refine ⟨?_, (hf v).kind⟩
      show (w ++ (f v).1, (f v).2) = (w ++ (g v).1, (g v).2)
      rw [(hf v).eq]

theorem Unmoved.within {a b : Outcome} (h : Unmoved name a b) : Unmoved name a.within b.within := by
  obtain ⟨rfl, hk⟩ := h
  refine ⟨rfl, fun μ hμ => ?_⟩
  obtain ⟨w, x⟩ := a
  cases x with
  | error e => cases hμ
  | ok ν => exact hk μ hμ

/-- The contents of a block. -/
def UnmovedIn (name : Str) (D' D : Scene → Mood → Outcome) : Prop := ∀ Γ μ, Tied.Kind (other name) anyCall anyPart μ → Unmoved name (D' Γ μ) (D Γ μ)

variable {D D' A A' : Scene → Mood → Outcome} (hD : UnmovedIn name D' D) (hA : UnmovedIn name A' A)

include hD in
theorem unmoved_rounds (Γ : Scene) : ∀ rs μ, Tied.Kind (other name) anyCall anyPart μ → Unmoved name (Full.rounds D' Γ rs μ) (Full.rounds D Γ rs μ)
  | [], μ, hm => unmoved_wrote _ hm
  | r :: rs, μ, hm => (hD _ μ hm).within.andThen fun ν hν => unmoved_rounds Γ rs ν hν

include hD in
theorem unmoved_contents (Γ : Scene) (e : Option HelperErr) :
    ∀ l μ, Tied.Kind (other name) anyCall anyPart μ → Unmoved name (Full.contents D' Γ e l μ) (Full.contents D Γ e l μ)
  | [], μ, hm => by
      cases e with
      | none => exact unmoved_wrote _ hm
      | some e => exact unmoved_failed _
  | .print x :: rs, μ, hm => (unmoved_wrote _ hm).andThen fun ν hν => unmoved_contents Γ e rs ν hν
  | .content none :: rs, μ, hm => (hD _ μ hm).within.andThen fun ν hν => unmoved_contents Γ e rs ν hν
  | .content (some _) :: rs, μ, hm => (hD _ μ hm).within.andThen fun ν hν => unmoved_contents Γ e rs ν hν

include hD hA in
theorem unmoved_builtin (w : Str) (vs : List Value) (hs : List (Str × Value)) (Γ : Scene) {μ : Mood} (hm : Tied.Kind (other name) anyCall anyPart μ) :
    Unmoved name (Full.builtinBlock w vs hs D' A' Γ μ) (Full.builtinBlock w vs hs D A Γ μ) := by
  have val : Unmoved name (match builtinValue w vs hs with
      | .error f => failed f
      | .ok _ => wrote [] μ) (match builtinValue w vs hs with
      | .error f => failed f
      | .ok _ => wrote [] μ) := by
    cases builtinValue w vs hs with
    | error f => exact unmoved_failed f
    | ok _ => exact unmoved_wrote _ hm
  unfold Full.builtinBlock
  match vs, val with
  | [v], val =>
      simp only
      split
      · split
        · exact (hD Γ μ hm).within
        · exact (hA Γ μ hm).within
      split
      · split
        · exact (hA Γ μ hm).within
        · exact (hD Γ μ hm).within
      split
      · cases v with
        | arr l => exact unmoved_rounds hD _ _ μ hm
        | obj l => exact unmoved_rounds hD _ _ μ hm
        | _ => exact unmoved_wrote _ hm
      split
      · cases v with
        | null => exact unmoved_wrote _ hm
        | _ => exact (hD _ μ hm).within
      · exact val
  | [], val => exact val
  | _ :: _ :: _, val => exact val

include hD hA in
theorem unmoved_custom (f : CustomFn) (t : Option Str) (vs : List Value) (hs : List (Str × Value)) (Γ : Scene) {μ : Mood} (hm : Tied.Kind (other name) anyCall anyPart μ) :
    Unmoved name (customBlock f t vs hs D' A' Γ μ) (customBlock f t vs hs D A Γ μ) := by
  unfold customBlock
  cases f.block t vs (fun k => hs.lookup k) with
  | contents l e => exact unmoved_contents hD _ e l μ hm
  | otherwise => exact (hA _ μ hm).within

include hD hA hC in
theorem unmoved_helped {w : Str} (hw : w ≠ name) (t : Option Str) {a : SArgs} (ha : a.every (other name) anyCall = true) (Γ : Scene) {μ : Mood} (hm : Tied.Kind (other name) anyCall anyPart μ) :
    Unmoved name (@helped H C' w t a D' A' Γ μ) (@helped H C w t a D A Γ μ) := by
  unfold helped
  rw [args_other hC a ha]
  split
  · exact unmoved_failed _
  refine Unmoved.after _ fun v => ?_
  unfold Full.blockHelper
  rw [show @Custom.fn C' w = @Custom.fn C w from hC.fn w hw]
  cases @Custom.fn C w with
  | none => exact unmoved_builtin hD hA w _ _ _ hm
  | some f => exact unmoved_custom hD hA f t _ _ _ hm

include hD hA hC in
theorem unmoved_block {w : Str} (hw : w ≠ name) {a : SArgs} (ha : a.every (other name) anyCall = true) (Γ : Scene) {μ : Mood} (hm : Tied.Kind (other name) anyCall anyPart μ) :
    Unmoved name (@Full.block H C' w a D' A' Γ μ) (@Full.block H C w a D A Γ μ) := by
  unfold Full.block
  rw [isHelper_other hC hw]
  split
  · exact unmoved_helped hC hD hA hw none ha Γ hm
  · rw [show @Custom.missing C' = @Custom.missing C from hC.missing, show @Custom.blockMissing C' = @Custom.blockMissing C from hC.blockMissing]
    cases Γ.find ⟨0, .name w, []⟩ with
    | some v =>
        simp only
        cases @Custom.blockMissing C with
        | none => exact (hD Γ μ hm).within
        | some f =>
            simp only [handled]
            rw [args_other hC a ha]
            split
            · exact unmoved_failed _
            · exact Unmoved.after _ fun x => unmoved_custom hD hA (f w v) none _ _ _ hm
    | none =>
        simp only
        cases @Custom.missing C with
        | none =>
            simp only
            split
            · exact unmoved_failed _
            · exact unmoved_wrote _ hm
        | some f =>
            simp only
            rw [expr_other hC (.sub ⟨0, .name w, []⟩ a) (by
              rw [SExpr.every]
              simp only [Bool.and_eq_true]
              exact ⟨⟨other_iff.2 (by rintro ⟨⟩; exact hw rfl), trivial⟩, ha⟩)]
            exact Unmoved.after _ fun _ => unmoved_wrote _ hm

include hC in
theorem unmoved_link (Γ : Scene) (e : Bool) (h : Str) (l t : Option Str) {μ : Mood} (hm : Tied.Kind (other name) anyCall anyPart μ) :
    Unmoved name (@Full.link C' Γ e h l t μ) (@Full.link C Γ e h l t μ) := by
  unfold Full.link
  rw [show @Custom.link C' = @Custom.link C from hC.link]
  generalize (if e then none else @Custom.link C) = o
  cases o with
  | none => exact unmoved_wrote _ hm
  | some f =>
      simp only
      split
      · exact unmoved_failed _
      · exact Unmoved.after _ fun _ => unmoved_wrote _ hm

/-- Two libraries that render the same, as long as `name` is not mentioned. -/
structure UnmovedLib (name : Str) (L' L : Library) : Prop where
  get : ∀ x, L'.get x = L.get x
  good : ∀ x T, L.get x = some T → T.every (other name) anyCall anyPart = true
  render : ∀ T Γ μ, T.every (other name) anyCall anyPart = true → Tied.Kind (other name) anyCall anyPart μ → Unmoved name (L'.render T Γ μ) (L.render T Γ μ)

include hC in
theorem unmoved_included {L L' : Library} (hL : UnmovedLib name L' L) {content : Option STm}
    (hc : ∀ T, content = some T → T.every (other name) anyCall anyPart = true) {w : Str} {a : SArgs} (hae : a.every (other name) anyCall = true)
    (Γ : Scene) {μ : Mood} (hm : Tied.Kind (other name) anyCall anyPart μ) :
    Unmoved name (@included H C' L' content w a Γ μ) (@included H C L content w a Γ μ) := by
  unfold included
  split
  · exact unmoved_failed _
  have hg : Tied.Kind (other name) anyCall anyPart (μ.given content) := by
    cases content with
    | none => exact hm
    | some T => intro U hU; injection hU with hU; exact hU ▸ hc T rfl
  revert hg
  generalize μ.given content = ν
  intro hg
  have hf : L'.find ν w = L.find ν w := by unfold Library.find; rw [hL.get]
  have hgood : ∀ T, L.find ν w = some T → T.every (other name) anyCall anyPart = true := by
    intro T
    unfold Library.find
    split
    · cases hb : ν.block with
      | none => exact hL.good _ T
      | some U => intro e; injection e with e; exact e ▸ hg U hb
    · exact hL.good _ T
  rw [hf]
  cases hfe : L.find ν w with
  | none => exact unmoved_failed _
  | some T =>
      simp only
      rw [hash_other hC _ (named_every hae), positional_other hC a hae]
      exact Unmoved.after _ fun hs => Unmoved.after _ fun vs => hL.render T _ ν (hgood T hfe) hg

include hC in
theorem unmoved_partial {L L' : Library} (hL : UnmovedLib name L' L) {content : Option STm}
    (hc : ∀ T, content = some T → T.every (other name) anyCall anyPart = true) {p : SPath} {a : SArgs} (hae : a.every (other name) anyCall = true)
    (Γ : Scene) {μ : Mood} (hm : Tied.Kind (other name) anyCall anyPart μ) :
    Unmoved name (@partialCall H C' L' content p a Γ μ) (@partialCall H C L content p a Γ μ) := by
  unfold partialCall
  split
  · exact unmoved_failed _
  · exact unmoved_included hC hL hc hae Γ hm

include hC in
theorem unmoved_prints (Γ : Scene) (raw : Bool) (k : Cut) (x : SExpr) (hx : x.every (other name) anyCall = true) {μ : Mood} (hm : Tied.Kind (other name) anyCall anyPart μ) :
    Unmoved name (prints Γ raw (@SExpr.eval H C' x Γ k) μ) (prints Γ raw (@SExpr.eval H C x Γ k) μ) := by
  rw [expr_other hC x hx]
  unfold prints
  exact Unmoved.after _ fun v => by cases v <;> exact unmoved_wrote _ hm

include hC
mutual
theorem unmoved_tm {L L' : Library} (hL : UnmovedLib name L' L) : ∀ (T : STm), T.every (other name) anyCall anyPart = true →
    ∀ (Γ : Scene) (o c s : Bool) (μ : Mood), Tied.Kind (other name) anyCall anyPart μ →
      Unmoved name (@tm H C' L' T Γ o c s μ) (@tm H C L T Γ o c s μ)
  | .nil, hT, Γ, o, c, s, μ, hm => by unfold tm; exact unmoved_wrote _ hm
  | .text w r, hT, Γ, o, c, s, μ, hm => by
      rw [STm.every] at hT
      unfold tm
      exact (unmoved_wrote _ (hm.next _ _)).andThen fun ν hν => unmoved_tm hL r hT Γ o c false ν hν
  | .comment w r, hT, Γ, o, c, s, μ, hm => by
      rw [STm.every] at hT
      unfold tm
      exact (unmoved_wrote _ (hm.next _ _)).andThen fun ν hν => unmoved_tm hL r hT Γ o c false ν hν
  | .longComment w r, hT, Γ, o, c, s, μ, hm => by
      rw [STm.every] at hT
      unfold tm
      exact (unmoved_wrote _ (hm.next _ _)).andThen fun ν hν => unmoved_tm hL r hT Γ o c false ν hν
  | .escaped w r, hT, Γ, o, c, s, μ, hm => by
      rw [STm.every] at hT
      unfold tm
      exact (unmoved_wrote _ (hm.next _ _)).andThen fun ν hν => unmoved_tm hL r hT Γ o c false ν hν
  | .link e h l t r, hT, Γ, o, c, s, μ, hm => by
      rw [STm.every] at hT
      unfold tm
      exact (unmoved_link hC Γ e h l t (hm.next _ _)).andThen fun ν hν => unmoved_tm hL r hT Γ o c false ν hν
  | .stmt raw part tl p a r, hT, Γ, o, c, s, μ, hm => by
      rw [STm.every] at hT
      simp only [Bool.and_eq_true] at hT
      obtain ⟨⟨h1, h2⟩, h3⟩ := hT
      unfold tm
      refine Unmoved.andThen ?_ fun ν hν => unmoved_tm hL r h3 Γ o c tl.after ν hν
      cases part with
      | true =>
          simp only [if_true]
          exact unmoved_partial hC hL (content := none) (fun _ h => by cases h) h2 Γ (hm.next _ _)
      | false =>
          simp only [Bool.false_eq_true, if_false, Bool.and_eq_true] at h1 ⊢
          exact unmoved_prints hC Γ raw _ (.sub p a) (by rw [SExpr.every]; simp only [Bool.and_eq_true]; exact ⟨h1, h2⟩) (hm.next _ _)
  | .dyn raw part tl q b a r, hT, Γ, o, c, s, μ, hm => by
      rw [STm.every] at hT
      simp only [Bool.and_eq_true] at hT
      obtain ⟨⟨⟨_, h1⟩, h2⟩, h3⟩ := hT
      have hq : (SExpr.sub q b).every (other name) anyCall = true := by rw [SExpr.every]; simp only [Bool.and_eq_true]; exact h1
      unfold tm
      refine Unmoved.andThen ?_ fun ν hν => unmoved_tm hL r h3 Γ o c tl.after ν hν
      cases part with
      | true =>
          simp only [if_true]
          unfold computedCall
          rw [expr_other hC _ hq]
          exact Unmoved.after _ fun v => unmoved_included hC hL (fun _ h => by cases h) h2 Γ (hm.next _ _)
      | false =>
          simp only [Bool.false_eq_true, if_false]
          exact unmoved_prints hC Γ raw _ (.sub q b) hq (hm.next _ _)
  | .rawBlock tl w a x cl r, hT, Γ, o, c, s, μ, hm => by
      rw [STm.every] at hT
      simp only [Bool.and_eq_true] at hT
      obtain ⟨⟨⟨h1, h2⟩, h3⟩, h4⟩ := hT
      unfold tm
      rw [isHelper_other hC (other_name h1)]
      refine Unmoved.andThen ?_ fun ν hν => unmoved_tm hL r h4 Γ o c o ν hν
      split
      · exact unmoved_helped hC (D := fun _ μ => wrote (cut (μ.hint || tl.after || μ.close) cl.before x) ⟨false, cl.after, μ.block, ⟨μ.hint || tl.after || μ.close, cl.before⟩⟩)
          (A := fun _ μ => wrote [] μ) (fun _ ν hν => unmoved_wrote _ hν) (fun _ ν hν => unmoved_wrote _ hν) (other_name h1) (some _) h3 Γ
          (μ := { μ.next tl.after ⟨s || μ.close, stops r c⟩ with close := cl.after }) hm
      · exact unmoved_wrote _ hm
  | .block part tl w a body cs cl r, hT, Γ, o, c, s, μ, hm => by
      rw [STm.every] at hT
      simp only [Bool.and_eq_true] at hT
      obtain ⟨⟨⟨⟨h1, h2⟩, h3⟩, h4⟩, h5⟩ := hT
      unfold tm
      refine Unmoved.andThen ?_ fun ν hν => unmoved_tm hL r h5 Γ o c o ν hν
      cases part with
      | true =>
          simp only [if_true]
          exact unmoved_partial hC hL (content := some body) (by intro T hT; injection hT with hT; exact hT ▸ h3) h2 Γ (hm.next _ _)
      | false =>
          simp only [Bool.false_eq_true, if_false, Bool.and_eq_true] at h1 ⊢
          refine unmoved_block hC (D := fun Δ μ => (@tm H C L body Δ tl.after cl.before (μ.hint || tl.after) μ).andThen fun μ => wrote [] { μ with close := !isNil body && cl.after })
            (A := fun Δ μ => @clauses H C L cs cl Δ (fun μ => wrote [] μ) μ)
            (D' := fun Δ μ => (@tm H C' L' body Δ tl.after cl.before (μ.hint || tl.after) μ).andThen fun μ => wrote [] { μ with close := !isNil body && cl.after })
            (A' := fun Δ μ => @clauses H C' L' cs cl Δ (fun μ => wrote [] μ) μ) (fun Δ ν hν => ?_) (fun Δ ν hν => ?_) (other_name h1.1) h2 Γ (hm.next _ _)
          · exact (unmoved_tm hL body h3 Δ _ _ _ ν hν).andThen fun κ hκ => unmoved_wrote _ hκ
          · exact unmoved_cls hL cs h4 cl Δ (fun μ hμ => unmoved_wrote _ hμ) ν hν
theorem unmoved_cls {L L' : Library} (hL : UnmovedLib name L' L) : ∀ (cs : SCls), cs.every (other name) anyCall anyPart = true →
    ∀ (cl : Tilde) (Γ : Scene) {f g : Mood → Outcome}, (∀ μ, Tied.Kind (other name) anyCall anyPart μ → Unmoved name (f μ) (g μ)) →
      ∀ μ, Tied.Kind (other name) anyCall anyPart μ → Unmoved name (@clauses H C' L' cs cl Γ f μ) (@clauses H C L cs cl Γ g μ)
  | .nil, h1, cl, Γ, f, g, hf, μ, hm => by unfold clauses; exact hf μ hm
  | .cons tl none body r, h1, cl, Γ, f, g, hf, μ, hm => by
      rw [SCls.every] at h1
      simp only [Bool.and_eq_true] at h1
      unfold clauses
      exact unmoved_cls hL r h1.2 cl Γ
        (f := fun μ => (@tm H C' L' body Γ tl.after (clauseEnd r cl).1 (μ.hint || tl.after) μ).andThen fun μ =>
          wrote [] { μ with close := !isNil body && (clauseEnd r cl).2 })
        (g := fun μ => (@tm H C L body Γ tl.after (clauseEnd r cl).1 (μ.hint || tl.after) μ).andThen fun μ =>
          wrote [] { μ with close := !isNil body && (clauseEnd r cl).2 })
        (fun ν hν => (unmoved_tm hL body h1.1 Γ _ _ _ ν hν).andThen fun κ hκ => unmoved_wrote _ hκ) μ hm
  | .cons tl (some (p, a)) body r, h1, cl, Γ, f, g, hf, μ, hm => by
      rw [SCls.every] at h1
      simp only [Bool.and_eq_true] at h1
      obtain ⟨⟨⟨⟨h1, h2⟩, h3⟩, h4⟩, h5⟩ := h1
      unfold clauses
      rw [expr_other hC (.sub p a) (by rw [SExpr.every]; simp only [Bool.and_eq_true]; exact ⟨⟨h1, h2⟩, h3⟩)]
      refine Unmoved.after _ fun v => ?_
      split
      · exact (unmoved_tm hL body h4 Γ _ _ _ μ hm).andThen fun κ hκ => unmoved_wrote _ hκ
      · exact unmoved_cls hL r h5 cl Γ hf μ hm
end

theorem unmoved_depth {get : Str → Option STm} (h : ∀ x T, get x = some T → T.every (other name) anyCall anyPart = true) :
    ∀ n, UnmovedLib name (@Full.depth H C' get n) (@Full.depth H C get n)
  | 0 => ⟨fun _ => rfl, h, fun T Γ μ _ _ => unmoved_failed _⟩
  | n + 1 => ⟨fun _ => rfl, h, fun T Γ μ hT hm => unmoved_tm hC (unmoved_depth h n) T hT Γ false false μ.hint μ hm⟩

end

end Bracket.Props.Unaware
