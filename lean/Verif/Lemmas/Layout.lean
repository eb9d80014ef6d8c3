import Verif.Spec.Layout
import Verif.Lemmas.Tied

/-! The reference interpreter does not see the layout of tags. -/

set_option linter.unusedSectionVars false

namespace Bracket.Props.Layout
open Bracket Spec Bracket.Props
open Bracket.Spec.Full hiding block blockHelper contents rounds builtinBlock depth

section
variable [H : Host] [C : Custom]

theorem lit_tidy (l : SLit) : l.tidy.value = l.value := by cases l <;> rfl

mutual
theorem expr_tidy : ∀ (x : SExpr) (Γ : Scene) (k : Cut), x.tidy.eval Γ k = x.eval Γ k
  | .path p, Γ, k => by rw [SExpr.tidy]
  | .lit l, Γ, k => by rw [SExpr.tidy, SExpr.eval, SExpr.eval, lit_tidy]
  | .sub p a, Γ, k => by
      rw [SExpr.tidy, SExpr.eval, SExpr.eval]
      simp only [args_tidy a]
theorem args_tidy : ∀ (a : SArgs) (Γ : Scene) (k : Cut), a.tidy.eval Γ k = a.eval Γ k
  | .done h, Γ, k => by rw [SArgs.tidy, SArgs.eval, SArgs.eval, hash_tidy h]
  | .argW w x r, Γ, k => by rw [SArgs.tidy, SArgs.eval, SArgs.eval, expr_tidy x, args_tidy r]
theorem hash_tidy : ∀ (h : SHash) (Γ : Scene) (k : Cut), h.tidy.eval Γ k = h.eval Γ k
  | .tail w, Γ, k => by rw [SHash.tidy, SHash.eval, SHash.eval]
  | .pairW w n x r, Γ, k => by rw [SHash.tidy, SHash.eval, SHash.eval, expr_tidy x, hash_tidy r]
end

theorem positional_tidy : ∀ (a : SArgs) (Γ : Scene) (k : Cut), positional a.tidy Γ k = positional a Γ k
  | .done h, Γ, k => by rw [SArgs.tidy, positional, positional]
  | .argW w x r, Γ, k => by rw [SArgs.tidy, positional, positional, expr_tidy x, positional_tidy r]
theorem named_tidy : ∀ (a : SArgs), named a.tidy = (named a).tidy
  | .done h => by rw [SArgs.tidy, named, named]
  | .argW w x r => by rw [SArgs.tidy, named, named, named_tidy r]

theorem opens_tidy (r : STm) : opens r.tidy = opens r := by
  cases r <;> simp [STm.tidy, opens, Tilde.tidy, Tilde.tidyStmt]
theorem isNil_tidy (r : STm) : isNil r.tidy = isNil r := by
  cases r <;> rfl
theorem stops_tidy (r : STm) (c : Bool) : stops r.tidy c = stops r c := by
  rw [stops, stops, opens_tidy, isNil_tidy]

/-- The content of the block partial called last, in the standard layout. -/
def tidyMood (μ : Mood) : Mood := { μ with block := μ.block.map STm.tidy }
def tidied (a : Outcome) : Outcome := (a.1, match a.2 with
  | .error x => .error x
  | .ok μ => .ok (tidyMood μ))

theorem tidied_wrote (w : Str) (μ : Mood) : tidied (wrote w μ) = wrote w (tidyMood μ) := rfl
theorem tidied_failed (f : Fault) : tidied (failed f) = failed f := rfl
theorem tidied_within (a : Outcome) : (tidied a).within = tidied a.within := by
  obtain ⟨w, x⟩ := a; cases x <;> rfl
theorem tidied_andThen (a : Outcome) (f g : Mood → Outcome) (h : ∀ μ, g (tidyMood μ) = tidied (f μ)) :
    (tidied a).andThen g = tidied (a.andThen f) := by
  obtain ⟨w, x⟩ := a
  cases x with
  | error e => rfl
  | ok μ =>
      show (w ++ (g (tidyMood μ)).1, (g (tidyMood μ)).2) = _
      rw [h μ]
      rfl

/-- Then: first what is the same, and then what is the same. -/
theorem andThen_tidied {a b : Outcome} (e : b = tidied a) {f g : Mood → Outcome} (h : ∀ μ, g (tidyMood μ) = tidied (f μ)) :
    b.andThen g = tidied (a.andThen f) := by rw [e, tidied_andThen a f g h]

theorem after_tidied {α : Type} (x : Said α) {f g : α → Outcome} (h : ∀ a, g a = tidied (f a)) :
    Outcome.after x g = tidied (Outcome.after x f) := by
  obtain ⟨w, x⟩ := x
  cases x with
  | error e => rfl
  | ok a =>
      show (w ++ (g a).1, (g a).2) = _
      rw [h a]
      rfl

/-- The contents of a block. -/
def Same (D' D : Scene → Mood → Outcome) : Prop := ∀ Γ μ, D' Γ (tidyMood μ) = tidied (D Γ μ)

variable {D D' A A' : Scene → Mood → Outcome} (hD : Same D' D) (hA : Same A' A)

include hD in
theorem rounds_tidy (Γ : Scene) : ∀ rs μ, Full.rounds D' Γ rs (tidyMood μ) = tidied (Full.rounds D Γ rs μ)
  | [], μ => rfl
  | r :: rs, μ => by
      rw [Full.rounds, Full.rounds, hD, tidied_within]
      exact tidied_andThen _ _ _ (rounds_tidy Γ rs)

include hD in
theorem contents_tidy (Γ : Scene) (e : Option HelperErr) : ∀ l μ, Full.contents D' Γ e l (tidyMood μ) = tidied (Full.contents D Γ e l μ)
  | [], μ => by cases e <;> rfl
  | .print x :: l, μ => by
      rw [Full.contents, Full.contents]
      exact andThen_tidied (b := wrote (Γ.print μ.trim x) (tidyMood μ)) rfl (contents_tidy Γ e l)
  | .content none :: l, μ => by
      rw [Full.contents, Full.contents, hD, tidied_within]
      exact tidied_andThen _ _ _ (contents_tidy Γ e l)
  | .content (some sc) :: l, μ => by
      rw [Full.contents, Full.contents, hD, tidied_within]
      exact tidied_andThen _ _ _ (contents_tidy Γ e l)

include hD hA in
theorem builtin_tidy (w : Str) (vs : List Value) (hs : List (Str × Value)) (Γ : Scene) (μ : Mood) :
    Full.builtinBlock w vs hs D' A' Γ (tidyMood μ) = tidied (Full.builtinBlock w vs hs D A Γ μ) := by
  have val : (match builtinValue w vs hs with
      | .error f => failed f
      | .ok _ => wrote [] (tidyMood μ)) = tidied (match builtinValue w vs hs with
      | .error f => failed f
      | .ok _ => wrote [] μ) := by
    cases builtinValue w vs hs <;> rfl
  unfold Full.builtinBlock
  match vs, val with
  | [v], val =>
      simp only
      split
      · split
        · rw [hD, tidied_within]
        · rw [hA, tidied_within]
      split
      · split
        · rw [hA, tidied_within]
        · rw [hD, tidied_within]
      split
      · cases v with
        | arr l => exact rounds_tidy hD _ _ μ
        | obj l => exact rounds_tidy hD _ _ μ
        | _ => rfl
      split
      · cases v with
        | null => rfl
        | _ => exact (congrArg Outcome.within (hD _ μ)).trans (tidied_within _)
      · exact val
  | [], val => exact val
  | _ :: _ :: _, val => exact val

include hD hA in
theorem custom_tidy (f : CustomFn) (t : Option Str) (vs : List Value) (hs : List (Str × Value)) (Γ : Scene) (μ : Mood) :
    customBlock f t vs hs D' A' Γ (tidyMood μ) = tidied (customBlock f t vs hs D A Γ μ) := by
  unfold customBlock
  cases f.block t vs (fun k => hs.lookup k) with
  | contents l e => exact contents_tidy hD _ e l μ
  | otherwise => exact (congrArg Outcome.within (hA _ μ)).trans (tidied_within _)

include hD hA in
theorem helped_tidy (w : Str) (t : Option Str) (a : SArgs) (Γ : Scene) (μ : Mood) :
    helped w t a.tidy D' A' Γ (tidyMood μ) = tidied (helped w t a D A Γ μ) := by
  unfold helped
  rw [args_tidy]
  split
  · rfl
  refine after_tidied (a.eval (Γ.enter (.block w)) μ.trim) fun v => ?_
  unfold Full.blockHelper
  cases Custom.fn w with
  | none => exact builtin_tidy hD hA w _ _ _ μ
  | some f => exact custom_tidy hD hA f t _ _ _ μ

include hD hA in
theorem handled_tidy (f : CustomFn) (a : SArgs) (Γ : Scene) (μ : Mood) :
    handled f a.tidy D' A' Γ (tidyMood μ) = tidied (handled f a D A Γ μ) := by
  unfold handled
  rw [args_tidy]
  split
  · rfl
  exact after_tidied (a.eval (Γ.enter (.block blockMissingName)) μ.trim) fun v => custom_tidy hD hA f none _ _ _ μ

theorem sub_tidy (p : SPath) (a : SArgs) (Γ : Scene) (k : Cut) : (SExpr.sub p a.tidy).eval Γ k = (SExpr.sub p a).eval Γ k := by
  have := expr_tidy (.sub p a) Γ k
  rwa [SExpr.tidy] at this

include hD hA in
theorem block_tidy (w : Str) (a : SArgs) (Γ : Scene) (μ : Mood) :
    Full.block w a.tidy D' A' Γ (tidyMood μ) = tidied (Full.block w a D A Γ μ) := by
  unfold Full.block
  split
  · exact helped_tidy hD hA w none a Γ μ
  · cases Γ.find ⟨0, .name w, []⟩ with
    | some v =>
        simp only
        cases (Custom.blockMissing : Option (Str → Value → CustomFn)) with
        | none => exact (congrArg Outcome.within (hD _ μ)).trans (tidied_within _)
        | some f => exact handled_tidy hD hA _ a Γ μ
    | none =>
        simp only
        cases (Custom.missing : Option (Str → CustomFn)) with
        | none =>
            simp only
            split <;> rfl
        | some f =>
            simp only
            rw [sub_tidy]
            exact after_tidied ((SExpr.sub ⟨0, .name w, []⟩ a).eval Γ μ.trim) fun _ => rfl

theorem link_tidy (Γ : Scene) (e : Bool) (h : Str) (l t : Option Str) (μ : Mood) :
    Full.link Γ (e && (Custom.link : Option CustomFn).isSome) h l t (tidyMood μ) = tidied (Full.link Γ e h l t μ) := by
  unfold Full.link
  have he : (if (e && (Custom.link : Option CustomFn).isSome) = true then none else (Custom.link : Option CustomFn)) = if e = true then none else Custom.link := by
    cases e <;> cases (Custom.link : Option CustomFn) <;> rfl
  rw [he]
  cases (if e then none else (Custom.link : Option CustomFn)) with
  | none => rfl
  | some f =>
      simp only
      split
      · rfl
      · exact after_tidied (f.said Γ μ.trim (linkValues h l t) []) fun _ => rfl

/-- The library with all its templates in the standard layout. -/
structure SameLib (L' L : Library) : Prop where
  get : ∀ x, L'.get x = (L.get x).map STm.tidy
  render : ∀ T Γ μ, L'.render T.tidy Γ (tidyMood μ) = tidied (L.render T Γ μ)

theorem included_tidy {L L' : Library} (hL : SameLib L' L) (content : Option STm) (w : Str) (a : SArgs) (Γ : Scene) (μ : Mood) :
    included L' (content.map STm.tidy) w a.tidy Γ (tidyMood μ) = tidied (included L content w a Γ μ) := by
  unfold included
  split
  · rfl
  have hg : (tidyMood μ).given (content.map STm.tidy) = tidyMood (μ.given content) := by cases content <;> rfl
  rw [hg]
  have ht : (tidyMood μ).trim = μ.trim := rfl
  rw [ht]
  generalize μ.given content = ν
  have hf : L'.find (tidyMood ν) w = (L.find ν w).map STm.tidy := by
    unfold Library.find
    rw [hL.get]
    split
    · obtain ⟨a, b, c, d⟩ := ν
      cases c <;> rfl
    · rfl
  rw [hf]
  cases L.find ν w with
  | none => rfl
  | some T =>
      simp only [Option.map_some]
      rw [named_tidy, hash_tidy, positional_tidy]
      exact after_tidied ((named a).eval (Γ.enter (.part w)) μ.trim) fun hs =>
        after_tidied (positional a (Γ.enter (.part w)) μ.trim) fun vs => hL.render T _ ν

theorem partial_tidy {L L' : Library} (hL : SameLib L' L) (content : Option STm) (p : SPath) (a : SArgs) (Γ : Scene) (μ : Mood) :
    partialCall L' (content.map STm.tidy) p a.tidy Γ (tidyMood μ) = tidied (partialCall L content p a Γ μ) := by
  unfold partialCall
  split
  · rfl
  · exact included_tidy hL content _ a Γ μ

theorem computed_tidy {L L' : Library} (hL : SameLib L' L) (q : SPath) (b a : SArgs) (Γ : Scene) (μ : Mood) :
    computedCall L' q b.tidy a.tidy Γ (tidyMood μ) = tidied (computedCall L q b a Γ μ) := by
  unfold computedCall
  rw [sub_tidy]
  exact after_tidied ((SExpr.sub q b).eval Γ μ.trim) fun v => included_tidy hL none _ a Γ μ

theorem prints_tidy (Γ : Scene) (raw : Bool) (p : SPath) (a : SArgs) (k : Cut) (μ : Mood) :
    prints Γ raw ((SExpr.sub p a.tidy).eval Γ k) (tidyMood μ) = tidied (prints Γ raw ((SExpr.sub p a).eval Γ k) μ) := by
  rw [sub_tidy]
  unfold prints
  exact after_tidied ((SExpr.sub p a).eval Γ k) fun v => by cases v <;> rfl

theorem clauseEnd_tidy (cs : SCls) (cl : Tilde) : clauseEnd cs.tidy cl.tidy = clauseEnd cs cl := by
  match cs with
  | .nil => rfl
  | .cons _ none _ _ => rfl
  | .cons _ (some (_, _)) _ _ => rfl

mutual
theorem tm_tidy {L L' : Library} (hL : SameLib L' L) : ∀ (T : STm) (Γ : Scene) (o c s : Bool) (μ : Mood),
    tm L' T.tidy Γ o c s (tidyMood μ) = tidied (tm L T Γ o c s μ)
  | .nil, Γ, o, c, s, μ => by rw [STm.tidy, tm, tm, tidied_wrote]
  | .text w r, Γ, o, c, s, μ => by
      rw [STm.tidy, tm, tm, stops_tidy]
      exact andThen_tidied (b := wrote _ ((tidyMood μ).next false ⟨s || μ.close, stops r c⟩)) rfl (tm_tidy hL r Γ o c false)
  | .comment w r, Γ, o, c, s, μ => by
      rw [STm.tidy, tm, tm, stops_tidy]
      exact andThen_tidied (b := wrote _ ((tidyMood μ).next false ⟨s || μ.close, stops r c⟩)) rfl (tm_tidy hL r Γ o c false)
  | .longComment w r, Γ, o, c, s, μ => by
      rw [STm.tidy, tm, tm, stops_tidy]
      exact andThen_tidied (b := wrote _ ((tidyMood μ).next false ⟨s || μ.close, stops r c⟩)) rfl (tm_tidy hL r Γ o c false)
  | .escaped w r, Γ, o, c, s, μ => by
      rw [STm.tidy, tm, tm, stops_tidy]
      exact andThen_tidied (b := wrote _ ((tidyMood μ).next false ⟨s || μ.close, stops r c⟩)) rfl (tm_tidy hL r Γ o c false)
  | .link e h l t r, Γ, o, c, s, μ => by
      rw [STm.tidy, tm, tm, stops_tidy]
      exact andThen_tidied (link_tidy Γ e h l t (μ.next false ⟨s || μ.close, stops r c⟩)) (tm_tidy hL r Γ o c false)
  | .stmt raw part tl p a r, Γ, o, c, s, μ => by
      rw [STm.tidy, tm, tm, stops_tidy]
      refine andThen_tidied ?_ (tm_tidy hL r Γ o c tl.after)
      split
      · exact partial_tidy hL none p a Γ (μ.next tl.after ⟨s || μ.close, stops r c⟩)
      · exact prints_tidy Γ raw p a _ (μ.next tl.after ⟨s || μ.close, stops r c⟩)
  | .dyn raw part tl q b a r, Γ, o, c, s, μ => by
      rw [STm.tidy, tm, tm, stops_tidy]
      refine andThen_tidied ?_ (tm_tidy hL r Γ o c tl.after)
      split
      · exact computed_tidy hL q b a Γ (μ.next tl.after ⟨s || μ.close, stops r c⟩)
      · exact prints_tidy Γ raw q b _ (μ.next tl.after ⟨s || μ.close, stops r c⟩)
  | .rawBlock tl w a x cl r, Γ, o, c, s, μ => by
      rw [STm.tidy, tm, tm, stops_tidy]
      refine andThen_tidied ?_ (tm_tidy hL r Γ o c o)
      split
      · exact helped_tidy (D := fun _ μ => wrote (cut (μ.hint || tl.after || μ.close) cl.before x) ⟨false, cl.after, μ.block, ⟨μ.hint || tl.after || μ.close, cl.before⟩⟩)
          (A := fun _ μ => wrote [] μ) (fun _ _ => rfl) (fun _ _ => rfl) w (some (cut tl.after cl.before x)) a Γ { μ.next tl.after ⟨s || μ.close, stops r c⟩ with close := cl.after }
      · rfl
  | .block part tl w a body cs cl r, Γ, o, c, s, μ => by
      rw [STm.tidy, tm, tm, stops_tidy]
      refine andThen_tidied ?_ (tm_tidy hL r Γ o c o)
      split
      · exact partial_tidy hL (some body) _ a Γ (μ.next tl.after ⟨s || μ.close, stops r c⟩)
      · refine block_tidy (D := fun Δ μ => (tm L body Δ tl.after cl.before (μ.hint || tl.after) μ).andThen fun μ => wrote [] { μ with close := !isNil body && cl.after })
          (A := fun Δ μ => clauses L cs cl Δ (fun μ => wrote [] μ) μ) (fun Δ ν => ?_) (fun Δ ν => ?_) w a Γ (μ.next tl.after ⟨s || μ.close, stops r c⟩)
        · refine andThen_tidied (tm_tidy hL body Δ _ _ _ ν) fun κ => ?_
          rw [isNil_tidy]
          rfl
        · exact cls_tidy hL cs cl Δ _ _ (fun _ => rfl) ν
theorem cls_tidy {L L' : Library} (hL : SameLib L' L) : ∀ (cs : SCls) (cl : Tilde) (Γ : Scene) (f g : Mood → Outcome),
    (∀ μ, g (tidyMood μ) = tidied (f μ)) → ∀ μ, clauses L' cs.tidy cl.tidy Γ g (tidyMood μ) = tidied (clauses L cs cl Γ f μ)
  | .nil, cl, Γ, f, g, hf, μ => by rw [SCls.tidy, clauses, clauses]; exact hf μ
  | .cons tl none body r, cl, Γ, f, g, hf, μ => by
      rw [SCls.tidy, clauses, clauses, clauseEnd_tidy, isNil_tidy]
      exact cls_tidy hL r cl Γ _ _ (fun ν => andThen_tidied (tm_tidy hL body Γ _ _ _ ν) fun κ => rfl) μ
  | .cons tl (some (p, a)) body r, cl, Γ, f, g, hf, μ => by
      rw [SCls.tidy, clauses, clauses, clauseEnd_tidy, isNil_tidy]
      rw [sub_tidy]
      refine after_tidied ((SExpr.sub p a).eval Γ μ.trim) fun v => ?_
      split
      · exact andThen_tidied (tm_tidy hL body Γ _ _ _ μ) fun κ => rfl
      · exact cls_tidy hL r cl Γ f g hf μ
end

theorem depth_tidy {get get' : Str → Option STm} (h : ∀ x, get' x = (get x).map STm.tidy) : ∀ n, SameLib (Full.depth get' n) (Full.depth get n)
  | 0 => ⟨h, fun _ _ _ => rfl⟩
  | n + 1 => ⟨h, fun T Γ μ => tm_tidy (depth_tidy h n) T Γ false false μ.hint μ⟩

end

end Bracket.Props.Layout
