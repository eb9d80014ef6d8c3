import Verif.Spec.Named
import Verif.Lemmas.Tied

/-! Two runs of the reference interpreter in scenes that no path, helper or partial can tell apart. -/

set_option linter.unusedSectionVars false

namespace Bracket.Props.Named
open Bracket Spec Bracket.Props
open Bracket.Spec.Full hiding block blockHelper contents rounds builtinBlock depth

/-- The same, with related faults. -/
inductive Like (F : Fault → Fault → Prop) {α : Type} : Str × Except Fault α → Str × Except Fault α → Prop
  | ok (w : Str) (a : α) : Like F (w, .ok a) (w, .ok a)
  | error (w : Str) {f g : Fault} (h : F f g) : Like F (w, .error f) (w, .error g)

/-- Scenes that look the same, up to the faults `F`. -/
structure Twins (F : Fault → Fault → Prop) (S : Scene → Scene → Prop) : Prop where
  refl : ∀ f, F f f
  within : ∀ {f g}, F f g → F f.within g.within
  enter : ∀ {Γ Δ}, S Γ Δ → ∀ x, S (Γ.enter x) (Δ.enter x)
  push : ∀ {Γ Δ}, S Γ Δ → ∀ x, S (Γ.push x) (Δ.push x)
  calls : ∀ {Γ Δ}, S Γ Δ → Δ.calls = Γ.calls
  find : ∀ {Γ Δ}, S Γ Δ → ∀ p, Δ.find p = Γ.find p
  escape : ∀ {Γ Δ}, S Γ Δ → Δ.escape = Γ.escape
  strict : ∀ {Γ Δ}, S Γ Δ → Δ.strict = Γ.strict
  absent : ∀ {Γ Δ}, S Γ Δ → ∀ p, Like F (Γ.absent p) (Δ.absent p)

section
variable {F : Fault → Fault → Prop} {S : Scene → Scene → Prop} (t : Twins F S)
include t

theorem like_refl {α : Type} (x : Str × Except Fault α) : Like F x x := by
  obtain ⟨w, x⟩ := x
  cases x with
  | ok a => exact .ok w a
  | error f => exact .error w (t.refl f)

theorem like_bind {α β : Type} {x y : Said α} (h : Like F x y) {f g : α → Said β} (hf : ∀ a, Like F (f a) (g a)) : Like F (x.bind f) (y.bind g) := by
  cases h with
  | error w h => exact .error w h
  | ok w a =>
      have := hf a
      unfold Said.bind
      simp only
      revert this
      generalize f a = p
      generalize g a = q
      intro this
      cases this with
      | ok v b => exact .ok _ b
      | error v h => exact .error _ h

theorem like_after {α : Type} {x y : Said α} (h : Like F x y) {f g : α → Outcome} (hf : ∀ a, Like F (f a) (g a)) : Like F (Outcome.after x f) (Outcome.after y g) := by
  cases h with
  | error w h => exact .error w h
  | ok w a =>
      have := hf a
      unfold Outcome.after
      simp only
      revert this
      generalize f a = p
      generalize g a = q
      intro this
      cases this with
      | ok v b => exact .ok _ b
      | error v h => exact .error _ h

theorem like_andThen {x y : Outcome} (h : Like F x y) {f g : Mood → Outcome} (hf : ∀ a, Like F (f a) (g a)) : Like F (x.andThen f) (y.andThen g) := by
  cases h with
  | error w h => exact .error w h
  | ok w a => exact like_after t (.ok w a) hf

theorem like_within {x y : Outcome} (h : Like F x y) : Like F x.within y.within := by
  cases h with
  | error w h => exact .error w (t.within h)
  | ok w a => exact .ok w a

theorem like_full {Γ Δ : Scene} (h : S Γ Δ) (x : CallSite) : Δ.full x = Γ.full x := by unfold Scene.full; rw [t.calls h]
theorem like_print {Γ Δ : Scene} (h : S Γ Δ) (k : Cut) (x : Print) : Δ.print k x = Γ.print k x := by unfold Scene.print; rw [t.escape h]

variable [H : Host] [C : Custom]

theorem like_said {Γ Δ : Scene} (h : S Γ Δ) (k : Cut) (f : CustomFn) (vs : List Value) (hs : List (Str × Value)) : f.said Δ k vs hs = f.said Γ k vs hs := by
  unfold CustomFn.said Scene.printAll
  rw [show Δ.print k = Γ.print k from funext (like_print t h k)]
theorem like_value {Γ Δ : Scene} (h : S Γ Δ) (k : Cut) (w : Str) (vs : List Value) (hs : List (Str × Value)) : helperValue w Δ k vs hs = helperValue w Γ k vs hs := by
  unfold helperValue
  cases (Custom.fn w : Option CustomFn) with
  | none => rfl
  | some f => exact like_said t h k f vs hs

mutual
theorem like_expr : ∀ (x : SExpr) {Γ Δ : Scene} (_ : S Γ Δ) (k : Cut), Like F (x.eval Γ k) (x.eval Δ k)
  | .path p, Γ, Δ, h, k => by rw [SExpr.eval, SExpr.eval, t.find h]; exact like_refl t _
  | .lit l, Γ, Δ, h, k => by rw [SExpr.eval, SExpr.eval]; exact like_refl t _
  | .sub p a, Γ, Δ, h, k => by
      rw [SExpr.eval, SExpr.eval]
      cases p.helper with
      | some w =>
          simp only
          rw [like_full t h]
          split
          · exact like_refl t _
          · exact like_bind t (like_args a (t.enter h _) k) fun v => by rw [like_value t h]; exact like_refl t _
      | none =>
          simp only
          rw [t.find h]
          cases Γ.find p with
          | some v => exact like_refl t _
          | none =>
              simp only
              cases (SPath.handler p : Option CustomFn) with
              | none => exact t.absent h p
              | some f =>
                  simp only
                  rw [like_full t h]
                  split
                  · exact like_refl t _
                  · exact like_bind t (like_args a (t.enter h _) k) fun v => by rw [like_said t h]; exact like_refl t _
theorem like_args : ∀ (a : SArgs) {Γ Δ : Scene} (_ : S Γ Δ) (k : Cut), Like F (a.eval Γ k) (a.eval Δ k)
  | .done x, Γ, Δ, h, k => by rw [SArgs.eval, SArgs.eval]; exact like_bind t (like_hash x h k) fun _ => like_refl t _
  | .argW w x r, Γ, Δ, h, k => by
      rw [SArgs.eval, SArgs.eval]
      exact like_bind t (like_expr x h k) fun _ => like_bind t (like_args r h k) fun _ => like_refl t _
theorem like_hash : ∀ (x : SHash) {Γ Δ : Scene} (_ : S Γ Δ) (k : Cut), Like F (x.eval Γ k) (x.eval Δ k)
  | .tail w, Γ, Δ, h, k => by rw [SHash.eval, SHash.eval]; exact like_refl t _
  | .pairW w n x r, Γ, Δ, h, k => by
      rw [SHash.eval, SHash.eval]
      exact like_bind t (like_expr x h k) fun _ => like_bind t (like_hash r h k) fun _ => like_refl t _
end

theorem like_positional : ∀ (a : SArgs) {Γ Δ : Scene} (_ : S Γ Δ) (k : Cut), Like F (positional a Γ k) (positional a Δ k)
  | .done x, Γ, Δ, h, k => by rw [positional, positional]; exact like_refl t _
  | .argW w x r, Γ, Δ, h, k => by
      rw [positional, positional]
      exact like_bind t (like_expr t x h k) fun _ => like_bind t (like_positional r h k) fun _ => like_refl t _

/-- The contents of a block. -/
def Same (F : Fault → Fault → Prop) (S : Scene → Scene → Prop) (D D' : Scene → Mood → Outcome) : Prop := ∀ Γ Δ μ, S Γ Δ → Like F (D Γ μ) (D' Δ μ)

variable {D D' A A' : Scene → Mood → Outcome} (hD : Same F S D D') (hA : Same F S A A')

include hD in
theorem like_rounds {Γ Δ : Scene} (h : S Γ Δ) : ∀ rs μ, Like F (Full.rounds D Γ rs μ) (Full.rounds D' Δ rs μ)
  | [], μ => like_refl t _
  | r :: rs, μ => by
      rw [Full.rounds, Full.rounds]
      exact like_andThen t (like_within t (hD _ _ μ (t.push h _))) (like_rounds h rs)

include hD in
theorem like_contents {Γ Δ : Scene} (h : S Γ Δ) (x : Option HelperErr) : ∀ l μ, Like F (Full.contents D Γ x l μ) (Full.contents D' Δ x l μ)
  | [], μ => by cases x <;> exact like_refl t _
  | .print y :: l, μ => by
      rw [Full.contents, Full.contents, like_print t h]
      exact like_andThen t (like_refl t _) (like_contents h x l)
  | .content none :: l, μ => by
      rw [Full.contents, Full.contents]
      exact like_andThen t (like_within t (hD _ _ μ h)) (like_contents h x l)
  | .content (some sc) :: l, μ => by
      rw [Full.contents, Full.contents]
      exact like_andThen t (like_within t (hD _ _ μ (t.push h _))) (like_contents h x l)

include hD hA in
theorem like_builtin (w : Str) (vs : List Value) (hs : List (Str × Value)) {Γ Δ : Scene} (h : S Γ Δ) (μ : Mood) :
    Like F (Full.builtinBlock w vs hs D A Γ μ) (Full.builtinBlock w vs hs D' A' Δ μ) := by
  unfold Full.builtinBlock
  match vs with
  | [v] =>
      simp only
      split
      · split
        · exact like_within t (hD _ _ μ h)
        · exact like_within t (hA _ _ μ h)
      split
      · split
        · exact like_within t (hA _ _ μ h)
        · exact like_within t (hD _ _ μ h)
      split
      · cases v with
        | arr l => exact like_rounds t hD h _ μ
        | obj l => exact like_rounds t hD h _ μ
        | _ => exact like_refl t _
      split
      · cases v with
        | null => exact like_refl t _
        | _ => exact like_within t (hD _ _ μ (t.push h _))
      · exact like_refl t _
  | [] => exact like_refl t _
  | _ :: _ :: _ => exact like_refl t _

include hD hA in
theorem like_custom (f : CustomFn) (x : Option Str) (vs : List Value) (hs : List (Str × Value)) {Γ Δ : Scene} (h : S Γ Δ) (μ : Mood) :
    Like F (customBlock f x vs hs D A Γ μ) (customBlock f x vs hs D' A' Δ μ) := by
  unfold customBlock
  cases f.block x vs (fun k => hs.lookup k) with
  | contents l e => exact like_contents t hD h e l μ
  | otherwise => exact like_within t (hA _ _ μ h)

include hD hA in
theorem like_helped (w : Str) (x : Option Str) (a : SArgs) {Γ Δ : Scene} (h : S Γ Δ) (μ : Mood) :
    Like F (helped w x a D A Γ μ) (helped w x a D' A' Δ μ) := by
  unfold helped
  rw [like_full t h]
  split
  · exact like_refl t _
  refine like_after t (like_args t a (t.enter h _) _) fun v => ?_
  unfold Full.blockHelper
  cases (Custom.fn w : Option CustomFn) with
  | none => exact like_builtin t hD hA w _ _ (t.enter h _) μ
  | some f => exact like_custom t hD hA f x _ _ (t.enter h _) μ

include hD hA in
theorem like_block (w : Str) (a : SArgs) {Γ Δ : Scene} (h : S Γ Δ) (μ : Mood) : Like F (Full.block w a D A Γ μ) (Full.block w a D' A' Δ μ) := by
  unfold Full.block
  split
  · exact like_helped t hD hA w none a h μ
  · rw [t.find h]
    cases Γ.find ⟨0, .name w, []⟩ with
    | some v =>
        simp only
        cases (Custom.blockMissing : Option (Str → Value → CustomFn)) with
        | none => exact like_within t (hD _ _ μ h)
        | some f =>
            simp only [handled]
            rw [like_full t h]
            split
            · exact like_refl t _
            · exact like_after t (like_args t a (t.enter h _) _) fun v => like_custom t hD hA _ none _ _ (t.enter h _) μ
    | none =>
        simp only
        cases (Custom.missing : Option (Str → CustomFn)) with
        | none => simp only; rw [t.strict h]; exact like_refl t _
        | some f => exact like_after t (like_expr t (.sub ⟨0, .name w, []⟩ a) h _) fun _ => like_refl t _

theorem like_link {Γ Δ : Scene} (hS : S Γ Δ) (b : Bool) (h : Str) (l r : Option Str) (μ : Mood) : Like F (Full.link Γ b h l r μ) (Full.link Δ b h l r μ) := by
  unfold Full.link
  cases (if b then none else (Custom.link : Option CustomFn)) with
  | none => exact like_refl t _
  | some f =>
      simp only
      rw [like_full t hS, like_said t hS]
      exact like_refl t _

/-- The library. -/
structure SameLib (F : Fault → Fault → Prop) (S : Scene → Scene → Prop) (L L' : Library) : Prop where
  get : ∀ x, L'.get x = L.get x
  render : ∀ T Γ Δ μ, S Γ Δ → Like F (L.render T Γ μ) (L'.render T Δ μ)

theorem like_included {L L' : Library} (hL : SameLib F S L L') (content : Option STm) (w : Str) (a : SArgs) {Γ Δ : Scene} (h : S Γ Δ) (μ : Mood) :
    Like F (included L content w a Γ μ) (included L' content w a Δ μ) := by
  unfold included
  rw [t.calls h]
  split
  · exact like_refl t _
  have hf : L'.find (μ.given content) w = L.find (μ.given content) w := by unfold Library.find; rw [hL.get]
  rw [hf]
  cases L.find (μ.given content) w with
  | none => exact like_refl t _
  | some T =>
      exact like_after t (like_hash t _ (t.enter h _) _) fun hs => like_after t (like_positional t a (t.enter h _) _) fun vs =>
        hL.render T _ _ _ (t.push (t.enter h _) _)

theorem like_partial {L L' : Library} (hL : SameLib F S L L') (content : Option STm) (p : SPath) (a : SArgs) {Γ Δ : Scene} (h : S Γ Δ) (μ : Mood) :
    Like F (partialCall L content p a Γ μ) (partialCall L' content p a Δ μ) := by
  unfold partialCall
  split
  · exact like_refl t _
  · exact like_included t hL content _ a h μ

theorem like_prints {Γ Δ : Scene} (h : S Γ Δ) (raw : Bool) {x y : Said (Option Value)} (hx : Like F x y) (μ : Mood) : Like F (prints Γ raw x μ) (prints Δ raw y μ) := by
  unfold prints
  refine like_after t hx fun v => ?_
  cases v with
  | none => exact like_refl t _
  | some v => simp only; rw [like_print t h]; exact like_refl t _

mutual
theorem like_tm {L L' : Library} (hL : SameLib F S L L') : ∀ (T : STm) {Γ Δ : Scene} (_ : S Γ Δ) (o c s : Bool) (μ : Mood),
    Like F (tm L T Γ o c s μ) (tm L' T Δ o c s μ)
  | .nil, Γ, Δ, h, o, c, s, μ => by rw [tm, tm]; exact like_refl t _
  | .text w r, Γ, Δ, h, o, c, s, μ => by rw [tm, tm]; exact like_andThen t (like_refl t _) (like_tm hL r h o c false)
  | .comment w r, Γ, Δ, h, o, c, s, μ => by rw [tm, tm]; exact like_andThen t (like_refl t _) (like_tm hL r h o c false)
  | .longComment w r, Γ, Δ, h, o, c, s, μ => by rw [tm, tm]; exact like_andThen t (like_refl t _) (like_tm hL r h o c false)
  | .escaped w r, Γ, Δ, h, o, c, s, μ => by rw [tm, tm]; exact like_andThen t (like_refl t _) (like_tm hL r h o c false)
  | .link b x l y r, Γ, Δ, h, o, c, s, μ => by rw [tm, tm]; exact like_andThen t (like_link t h b x l y _) (like_tm hL r h o c false)
  | .stmt raw part tl p a r, Γ, Δ, h, o, c, s, μ => by
      rw [tm, tm]
      refine like_andThen t ?_ (like_tm hL r h o c tl.after)
      split
      · exact like_partial t hL none p a h _
      · exact like_prints t h raw (like_expr t (.sub p a) h _) _
  | .dyn raw part tl q b a r, Γ, Δ, h, o, c, s, μ => by
      rw [tm, tm]
      refine like_andThen t ?_ (like_tm hL r h o c tl.after)
      split
      · exact like_after t (like_expr t (.sub q b) h _) fun v => like_included t hL none _ a h _
      · exact like_prints t h raw (like_expr t (.sub q b) h _) _
  | .rawBlock tl w a x cl r, Γ, Δ, h, o, c, s, μ => by
      rw [tm, tm]
      refine like_andThen t ?_ (like_tm hL r h o c o)
      split
      · exact like_helped t (D := fun _ μ => wrote (cut (μ.hint || tl.after || μ.close) cl.before x) ⟨false, cl.after, μ.block, ⟨μ.hint || tl.after || μ.close, cl.before⟩⟩)
          (A := fun _ μ => wrote [] μ) (fun _ _ _ _ => like_refl t _) (fun _ _ _ _ => like_refl t _) w _ a h _
      · exact like_refl t _
  | .block part tl w a body cs cl r, Γ, Δ, h, o, c, s, μ => by
      rw [tm, tm]
      refine like_andThen t ?_ (like_tm hL r h o c o)
      split
      · exact like_partial t hL (some body) _ a h _
      · refine like_block t (fun Γ Δ ν h => ?_) (fun Γ Δ ν h => ?_) w a h _
        · exact like_andThen t (like_tm hL body h _ _ _ ν) fun _ => like_refl t _
        · exact like_cls hL cs cl h _ _ (fun _ => like_refl t _) ν
theorem like_cls {L L' : Library} (hL : SameLib F S L L') : ∀ (cs : SCls) (cl : Tilde) {Γ Δ : Scene} (_ : S Γ Δ) (f g : Mood → Outcome),
    (∀ μ, Like F (f μ) (g μ)) → ∀ μ, Like F (clauses L cs cl Γ f μ) (clauses L' cs cl Δ g μ)
  | .nil, cl, Γ, Δ, h, f, g, hf, μ => by rw [clauses, clauses]; exact hf μ
  | .cons tl none body r, cl, Γ, Δ, h, f, g, hf, μ => by
      rw [clauses, clauses]
      exact like_cls hL r cl h _ _ (fun ν => like_andThen t (like_tm hL body h _ _ _ ν) fun _ => like_refl t _) μ
  | .cons tl (some (p, a)) body r, cl, Γ, Δ, h, f, g, hf, μ => by
      rw [clauses, clauses]
      refine like_after t (like_expr t (.sub p a) h _) fun v => ?_
      split
      · exact like_andThen t (like_tm hL body h _ _ _ μ) fun _ => like_refl t _
      · exact like_cls hL r cl h f g hf μ
end

theorem like_depth (get : Str → Option STm) : ∀ n, SameLib F S (Full.depth get n) (Full.depth get n)
  | 0 => ⟨fun _ => rfl, fun _ _ _ _ _ => like_refl t _⟩
  | n + 1 => ⟨fun _ => rfl, fun T Γ Δ μ h => like_tm t (like_depth get n) T h false false μ.hint μ⟩

end

end Bracket.Props.Named
