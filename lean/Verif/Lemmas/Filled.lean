import Verif.Spec.Filled
import Verif.Lemmas.Tied

/-! The reference interpreter, with literals in the place of known arguments. -/

set_option linter.unusedSectionVars false

namespace Bracket.Props.Filled
open Bracket Spec Bracket.Props
open Bracket.Spec.Full hiding block blockHelper contents rounds builtinBlock depth

section
variable [H : Host] [C : Custom] {σ : SPath → Option SLit} {R : Value} (hσ : Known σ R)
include hσ

theorem find_known {p : SPath} {l : SLit} (h : σ p = some l) {Γ : Scene} (hΓ : Γ.root = R) : (Γ.find p).getD .null = l.value := by
  obtain ⟨h1, h2⟩ := hσ p l h
  unfold Scene.find
  rw [h1]
  simp only [if_true]
  rw [hΓ, h2]

mutual
theorem expr_filled : ∀ (x : SExpr) (Γ : Scene) (k : Cut), Γ.root = R → ∀ {β : Type} (f : Value → Said β),
    ((x.filled σ).eval Γ k).bind (fun v => f (v.getD .null)) = (x.eval Γ k).bind (fun v => f (v.getD .null))
  | .path p, Γ, k, hΓ, β, f => by
      rw [SExpr.filled]
      cases h : σ p with
      | none => rfl
      | some l =>
          simp only
          rw [SExpr.eval, SExpr.eval]
          show ([] ++ (f l.value).1, (f l.value).2) = ([] ++ (f ((Γ.find p).getD .null)).1, (f ((Γ.find p).getD .null)).2)
          rw [find_known hσ h hΓ]
  | .lit l, Γ, k, hΓ, β, f => by rw [SExpr.filled]
  | .sub p a, Γ, k, hΓ, β, f => by
      have e : ∀ x, (a.filled σ).eval (Γ.enter x) k = a.eval (Γ.enter x) k := fun x => args_filled a (Γ.enter x) k hΓ
      rw [SExpr.filled, SExpr.eval, SExpr.eval]
      simp only [e]
theorem args_filled : ∀ (a : SArgs) (Γ : Scene) (k : Cut), Γ.root = R → (a.filled σ).eval Γ k = a.eval Γ k
  | .done h, Γ, k, hΓ => by rw [SArgs.filled, SArgs.eval, SArgs.eval, hash_filled h _ _ hΓ]
  | .argW w x r, Γ, k, hΓ => by
      rw [SArgs.filled, SArgs.eval, SArgs.eval, args_filled r _ _ hΓ]
      exact expr_filled x Γ k hΓ fun v => (r.eval Γ k).bind fun y => said (v :: y.1, y.2)
theorem hash_filled : ∀ (h : SHash) (Γ : Scene) (k : Cut), Γ.root = R → (h.filled σ).eval Γ k = h.eval Γ k
  | .tail w, Γ, k, hΓ => by rw [SHash.filled]
  | .pairW w n x r, Γ, k, hΓ => by
      rw [SHash.filled, SHash.eval, SHash.eval, hash_filled r _ _ hΓ]
      exact expr_filled x Γ k hΓ fun v => (r.eval Γ k).bind fun hs => said ((n, v) :: hs)
end

theorem positional_filled : ∀ (a : SArgs) (Γ : Scene) (k : Cut), Γ.root = R → positional (a.filled σ) Γ k = positional a Γ k
  | .done h, Γ, k, hΓ => by rw [SArgs.filled, positional, positional]
  | .argW w x r, Γ, k, hΓ => by
      rw [SArgs.filled, positional, positional, positional_filled r _ _ hΓ]
      exact expr_filled hσ x Γ k hΓ fun v => (positional r Γ k).bind fun vs => said (v :: vs)
omit hσ in
theorem named_filled : ∀ (a : SArgs), named (a.filled σ) = (named a).filled σ
  | .done h => by rw [SArgs.filled, named, named]
  | .argW w x r => by rw [SArgs.filled, named, named, named_filled r]

omit hσ in
theorem opens_filled (r : STm) : opens (r.filled σ) = opens r := by
  cases r <;> simp [STm.filled, opens]
omit hσ in
theorem isNil_filled (r : STm) : isNil (r.filled σ) = isNil r := by
  cases r <;> rfl
omit hσ in
theorem stops_filled (r : STm) (c : Bool) : stops (r.filled σ) c = stops r c := by
  rw [stops, stops, opens_filled, isNil_filled]

end

section
variable [H : Host] [C : Custom] {σ : SPath → Option SLit} {R : Value} (hσ : Known σ R)

/-- The content of the block partial called last, with its arguments filled in. -/
def fillMood (σ : SPath → Option SLit) (μ : Mood) : Mood := { μ with block := μ.block.map (STm.filled σ) }
def fill (σ : SPath → Option SLit) (a : Outcome) : Outcome := (a.1, match a.2 with
  | .error x => .error x
  | .ok μ => .ok (fillMood σ μ))

theorem filled_wrote (w : Str) (μ : Mood) : fill σ (wrote w μ) = wrote w (fillMood σ μ) := rfl
theorem filled_failed (f : Fault) : fill σ (failed f) = failed f := rfl
theorem filled_within (a : Outcome) : (fill σ a).within = fill σ a.within := by
  obtain ⟨w, x⟩ := a; cases x <;> rfl
theorem filled_andThen (a : Outcome) (f g : Mood → Outcome) (h : ∀ μ, g (fillMood σ μ) = fill σ (f μ)) :
    (fill σ a).andThen g = fill σ (a.andThen f) := by
  obtain ⟨w, x⟩ := a
  cases x with
  | error e => rfl
  | ok μ =>
      show (w ++ (g (fillMood σ μ)).1, (g (fillMood σ μ)).2) = _
      rw [h μ]
      rfl

/-- Then: first what is the same, and then what is the same. -/
theorem andThen_fill {a b : Outcome} (e : b = fill σ a) {f g : Mood → Outcome} (h : ∀ μ, g (fillMood σ μ) = fill σ (f μ)) :
    b.andThen g = fill σ (a.andThen f) := by rw [e, filled_andThen a f g h]

theorem after_fill {α : Type} (x : Said α) {f g : α → Outcome} (h : ∀ a, g a = fill σ (f a)) :
    Outcome.after x g = fill σ (Outcome.after x f) := by
  obtain ⟨w, x⟩ := x
  cases x with
  | error e => rfl
  | ok a =>
      show (w ++ (g a).1, (g a).2) = _
      rw [h a]
      rfl

/-- The contents of a block. -/
def Same (σ : SPath → Option SLit) (R : Value) (D' D : Scene → Mood → Outcome) : Prop := ∀ (Γ : Scene) (μ : Mood), Γ.root = R → D' Γ (fillMood σ μ) = fill σ (D Γ μ)

variable {D D' A A' : Scene → Mood → Outcome} (hD : Same σ R D' D) (hA : Same σ R A' A)

include hD in
theorem rounds_filled (Γ : Scene) (hΓ : Γ.root = R) : ∀ rs μ, Full.rounds D' Γ rs (fillMood σ μ) = fill σ (Full.rounds D Γ rs μ)
  | [], μ => rfl
  | r :: rs, μ => by
      rw [Full.rounds, Full.rounds, hD (Γ.push r.scope) μ hΓ, filled_within]
      exact filled_andThen _ _ _ (rounds_filled Γ hΓ rs)

include hD in
theorem contents_filled (Γ : Scene) (hΓ : Γ.root = R) (e : Option HelperErr) : ∀ l μ, Full.contents D' Γ e l (fillMood σ μ) = fill σ (Full.contents D Γ e l μ)
  | [], μ => by cases e <;> rfl
  | .print x :: l, μ => by
      rw [Full.contents, Full.contents]
      exact andThen_fill (b := wrote (Γ.print μ.trim x) (fillMood σ μ)) rfl (contents_filled Γ hΓ e l)
  | .content none :: l, μ => by
      rw [Full.contents, Full.contents, hD Γ μ hΓ, filled_within]
      exact filled_andThen _ _ _ (contents_filled Γ hΓ e l)
  | .content (some sc) :: l, μ => by
      rw [Full.contents, Full.contents, hD (Γ.push sc) μ hΓ, filled_within]
      exact filled_andThen _ _ _ (contents_filled Γ hΓ e l)

include hD hA in
theorem builtin_filled (w : Str) (vs : List Value) (hs : List (Str × Value)) (Γ : Scene) (hΓ : Γ.root = R) (μ : Mood) :
    Full.builtinBlock w vs hs D' A' Γ (fillMood σ μ) = fill σ (Full.builtinBlock w vs hs D A Γ μ) := by
  have val : (match builtinValue w vs hs with
      | .error f => failed f
      | .ok _ => wrote [] (fillMood σ μ)) = fill σ (match builtinValue w vs hs with
      | .error f => failed f
      | .ok _ => wrote [] μ) := by
    cases builtinValue w vs hs <;> rfl
  unfold Full.builtinBlock
  match vs, val with
  | [v], val =>
      simp only
      split
      · split
        · rw [hD _ _ hΓ, filled_within]
        · rw [hA _ _ hΓ, filled_within]
      split
      · split
        · rw [hA _ _ hΓ, filled_within]
        · rw [hD _ _ hΓ, filled_within]
      split
      · cases v with
        | arr l => exact rounds_filled hD _ hΓ _ μ
        | obj l => exact rounds_filled hD _ hΓ _ μ
        | _ => rfl
      split
      · cases v with
        | null => rfl
        | _ => exact (congrArg Outcome.within (hD _ μ (by exact hΓ))).trans (filled_within _)
      · exact val
  | [], val => exact val
  | _ :: _ :: _, val => exact val

include hD hA in
theorem custom_filled (f : CustomFn) (t : Option Str) (vs : List Value) (hs : List (Str × Value)) (Γ : Scene) (hΓ : Γ.root = R) (μ : Mood) :
    customBlock f t vs hs D' A' Γ (fillMood σ μ) = fill σ (customBlock f t vs hs D A Γ μ) := by
  unfold customBlock
  cases f.block t vs (fun k => hs.lookup k) with
  | contents l e => exact contents_filled hD _ hΓ e l μ
  | otherwise => exact (congrArg Outcome.within (hA _ μ hΓ)).trans (filled_within _)

include hσ hD hA in
theorem helped_filled (w : Str) (t : Option Str) (a : SArgs) (Γ : Scene) (hΓ : Γ.root = R) (μ : Mood) :
    helped w t (a.filled σ) D' A' Γ (fillMood σ μ) = fill σ (helped w t a D A Γ μ) := by
  unfold helped
  rw [args_filled hσ a (Γ.enter (.block w)) _ hΓ]
  split
  · rfl
  refine after_fill (a.eval (Γ.enter (.block w)) μ.trim) fun v => ?_
  unfold Full.blockHelper
  cases Custom.fn w with
  | none => exact builtin_filled hD hA w _ _ _ (by exact hΓ) μ
  | some f => exact custom_filled hD hA f t _ _ _ (by exact hΓ) μ

include hσ hD hA in
theorem handled_filled (f : CustomFn) (a : SArgs) (Γ : Scene) (hΓ : Γ.root = R) (μ : Mood) :
    handled f (a.filled σ) D' A' Γ (fillMood σ μ) = fill σ (handled f a D A Γ μ) := by
  unfold handled
  rw [args_filled hσ a (Γ.enter (.block blockMissingName)) _ hΓ]
  split
  · rfl
  exact after_fill (a.eval (Γ.enter (.block blockMissingName)) μ.trim) fun v => custom_filled hD hA f none _ _ _ (by exact hΓ) μ

include hσ in
theorem sub_filled (p : SPath) (a : SArgs) (Γ : Scene) (hΓ : Γ.root = R) (k : Cut) :
    (SExpr.sub p (a.filled σ)).eval Γ k = (SExpr.sub p a).eval Γ k := by
  have e : ∀ x, (a.filled σ).eval (Γ.enter x) k = a.eval (Γ.enter x) k := fun x => args_filled hσ a (Γ.enter x) k hΓ
  rw [SExpr.eval, SExpr.eval]
  simp only [e]

include hσ hD hA in
theorem block_filled (w : Str) (a : SArgs) (Γ : Scene) (hΓ : Γ.root = R) (μ : Mood) :
    Full.block w (a.filled σ) D' A' Γ (fillMood σ μ) = fill σ (Full.block w a D A Γ μ) := by
  unfold Full.block
  split
  · exact helped_filled hσ hD hA w none a Γ hΓ μ
  · cases Γ.find ⟨0, .name w, []⟩ with
    | some v =>
        simp only
        cases (Custom.blockMissing : Option (Str → Value → CustomFn)) with
        | none => exact (congrArg Outcome.within (hD _ μ hΓ)).trans (filled_within _)
        | some f => exact handled_filled hσ hD hA _ a Γ hΓ μ
    | none =>
        simp only
        cases (Custom.missing : Option (Str → CustomFn)) with
        | none =>
            simp only
            split <;> rfl
        | some f =>
            simp only
            rw [sub_filled hσ _ _ _ hΓ]
            exact after_fill ((SExpr.sub ⟨0, .name w, []⟩ a).eval Γ μ.trim) fun _ => rfl

theorem link_filled (Γ : Scene) (e : Bool) (h : Str) (l t : Option Str) (μ : Mood) :
    Full.link Γ e h l t (fillMood σ μ) = fill σ (Full.link Γ e h l t μ) := by
  unfold Full.link
  cases (if e then none else (Custom.link : Option CustomFn)) with
  | none => rfl
  | some f =>
      simp only
      split
      · rfl
      · exact after_fill (f.said Γ μ.trim (linkValues h l t) []) fun _ => rfl

/-- The library with all its templates with their arguments filled in. -/
structure SameLib (σ : SPath → Option SLit) (R : Value) (L' L : Library) : Prop where
  get : ∀ x, L'.get x = (L.get x).map (STm.filled σ)
  render : ∀ (T : STm) (Γ : Scene) (μ : Mood), Γ.root = R → L'.render (T.filled σ) Γ (fillMood σ μ) = fill σ (L.render T Γ μ)

include hσ in
theorem included_filled {L L' : Library} (hL : SameLib σ R L' L) (content : Option STm) (w : Str) (a : SArgs) (Γ : Scene) (hΓ : Γ.root = R) (μ : Mood) :
    included L' (content.map (STm.filled σ)) w (a.filled σ) Γ (fillMood σ μ) = fill σ (included L content w a Γ μ) := by
  unfold included
  split
  · rfl
  have hg : (fillMood σ μ).given (content.map (STm.filled σ)) = fillMood σ (μ.given content) := by cases content <;> rfl
  rw [hg]
  have ht : (fillMood σ μ).trim = μ.trim := rfl
  rw [ht]
  generalize μ.given content = ν
  have hf : L'.find (fillMood σ ν) w = (L.find ν w).map (STm.filled σ) := by
    unfold Library.find
    rw [hL.get]
    split
    · obtain ⟨a, b, c, d⟩ := ν
      cases c <;> rfl
    · rfl
  rw [hf]
  cases L.find ν w with
  | none => rfl
  | some T =>
      simp only [Option.map_some]
      rw [named_filled, hash_filled hσ _ (Γ.enter (.part w)) _ hΓ, positional_filled hσ _ (Γ.enter (.part w)) _ hΓ]
      exact after_fill ((named a).eval (Γ.enter (.part w)) μ.trim) fun hs =>
        after_fill (positional a (Γ.enter (.part w)) μ.trim) fun vs => hL.render T _ ν hΓ

include hσ in
theorem partial_filled {L L' : Library} (hL : SameLib σ R L' L) (content : Option STm) (p : SPath) (a : SArgs) (Γ : Scene) (hΓ : Γ.root = R) (μ : Mood) :
    partialCall L' (content.map (STm.filled σ)) p (a.filled σ) Γ (fillMood σ μ) = fill σ (partialCall L content p a Γ μ) := by
  unfold partialCall
  split
  · rfl
  · exact included_filled hσ hL content _ a Γ hΓ μ

include hσ in
theorem computed_filled {L L' : Library} (hL : SameLib σ R L' L) (q : SPath) (b a : SArgs) (Γ : Scene) (hΓ : Γ.root = R) (μ : Mood) :
    computedCall L' q (b.filled σ) (a.filled σ) Γ (fillMood σ μ) = fill σ (computedCall L q b a Γ μ) := by
  unfold computedCall
  rw [sub_filled hσ _ _ _ hΓ]
  exact after_fill ((SExpr.sub q b).eval Γ μ.trim) fun v => included_filled hσ hL none _ a Γ hΓ μ

include hσ in
theorem prints_filled (Γ : Scene) (hΓ : Γ.root = R) (raw : Bool) (p : SPath) (a : SArgs) (k : Cut) (μ : Mood) :
    prints Γ raw ((SExpr.sub p (a.filled σ)).eval Γ k) (fillMood σ μ) = fill σ (prints Γ raw ((SExpr.sub p a).eval Γ k) μ) := by
  rw [sub_filled hσ _ _ _ hΓ]
  unfold prints
  exact after_fill ((SExpr.sub p a).eval Γ k) fun v => by cases v <;> rfl

theorem clauseEnd_filled (cs : SCls) (cl : Tilde) : clauseEnd (cs.filled σ) cl = clauseEnd cs cl := by
  match cs with
  | .nil => rfl
  | .cons _ none _ _ => rfl
  | .cons _ (some (_, _)) _ _ => rfl

mutual
theorem tm_filled (hσ : Known σ R) {L L' : Library} (hL : SameLib σ R L' L) : ∀ (T : STm) (Γ : Scene) (_ : Γ.root = R) (o c s : Bool) (μ : Mood),
    tm L' (T.filled σ) Γ o c s (fillMood σ μ) = fill σ (tm L T Γ o c s μ)
  | .nil, Γ, hΓ, o, c, s, μ => by rw [STm.filled, tm, tm, filled_wrote]
  | .text w r, Γ, hΓ, o, c, s, μ => by
      rw [STm.filled, tm, tm, stops_filled]
      exact andThen_fill (b := wrote _ ((fillMood σ μ).next false ⟨s || μ.close, stops r c⟩)) rfl (tm_filled hσ hL r Γ hΓ o c false)
  | .comment w r, Γ, hΓ, o, c, s, μ => by
      rw [STm.filled, tm, tm, stops_filled]
      exact andThen_fill (b := wrote _ ((fillMood σ μ).next false ⟨s || μ.close, stops r c⟩)) rfl (tm_filled hσ hL r Γ hΓ o c false)
  | .longComment w r, Γ, hΓ, o, c, s, μ => by
      rw [STm.filled, tm, tm, stops_filled]
      exact andThen_fill (b := wrote _ ((fillMood σ μ).next false ⟨s || μ.close, stops r c⟩)) rfl (tm_filled hσ hL r Γ hΓ o c false)
  | .escaped w r, Γ, hΓ, o, c, s, μ => by
      rw [STm.filled, tm, tm, stops_filled]
      exact andThen_fill (b := wrote _ ((fillMood σ μ).next false ⟨s || μ.close, stops r c⟩)) rfl (tm_filled hσ hL r Γ hΓ o c false)
  | .link e h l t r, Γ, hΓ, o, c, s, μ => by
      rw [STm.filled, tm, tm, stops_filled]
      exact andThen_fill (link_filled Γ e h l t (μ.next false ⟨s || μ.close, stops r c⟩)) (tm_filled hσ hL r Γ hΓ o c false)
  | .stmt raw part tl p a r, Γ, hΓ, o, c, s, μ => by
      rw [STm.filled, tm, tm, stops_filled]
      refine andThen_fill ?_ (tm_filled hσ hL r Γ hΓ o c tl.after)
      split
      · exact partial_filled hσ hL none p a Γ hΓ (μ.next tl.after ⟨s || μ.close, stops r c⟩)
      · exact prints_filled hσ Γ hΓ raw p a _ (μ.next tl.after ⟨s || μ.close, stops r c⟩)
  | .dyn raw part tl q b a r, Γ, hΓ, o, c, s, μ => by
      rw [STm.filled, tm, tm, stops_filled]
      refine andThen_fill ?_ (tm_filled hσ hL r Γ hΓ o c tl.after)
      split
      · exact computed_filled hσ hL q b a Γ hΓ (μ.next tl.after ⟨s || μ.close, stops r c⟩)
      · exact prints_filled hσ Γ hΓ raw q b _ (μ.next tl.after ⟨s || μ.close, stops r c⟩)
  | .rawBlock tl w a x cl r, Γ, hΓ, o, c, s, μ => by
      rw [STm.filled, tm, tm, stops_filled]
      refine andThen_fill ?_ (tm_filled hσ hL r Γ hΓ o c o)
      split
      · exact helped_filled hσ (D := fun _ μ => wrote (cut (μ.hint || tl.after || μ.close) cl.before x) ⟨false, cl.after, μ.block, ⟨μ.hint || tl.after || μ.close, cl.before⟩⟩)
          (A := fun _ μ => wrote [] μ) (fun _ _ _ => rfl) (fun _ _ _ => rfl) w (some (cut tl.after cl.before x)) a Γ hΓ { μ.next tl.after ⟨s || μ.close, stops r c⟩ with close := cl.after }
      · rfl
  | .block part tl w a body cs cl r, Γ, hΓ, o, c, s, μ => by
      rw [STm.filled, tm, tm, stops_filled]
      refine andThen_fill ?_ (tm_filled hσ hL r Γ hΓ o c o)
      split
      · exact partial_filled hσ hL (some body) _ a Γ hΓ (μ.next tl.after ⟨s || μ.close, stops r c⟩)
      · refine block_filled hσ (D := fun Δ μ => (tm L body Δ tl.after cl.before (μ.hint || tl.after) μ).andThen fun μ => wrote [] { μ with close := !isNil body && cl.after })
          (A := fun Δ μ => clauses L cs cl Δ (fun μ => wrote [] μ) μ) (fun Δ ν hΔ => ?_) (fun Δ ν hΔ => ?_) w a Γ hΓ (μ.next tl.after ⟨s || μ.close, stops r c⟩)
        · refine andThen_fill (tm_filled hσ hL body Δ hΔ _ _ _ ν) fun κ => ?_
          rw [isNil_filled]
          rfl
        · exact cls_filled hσ hL cs cl Δ hΔ _ _ (fun _ => rfl) ν
theorem cls_filled (hσ : Known σ R) {L L' : Library} (hL : SameLib σ R L' L) : ∀ (cs : SCls) (cl : Tilde) (Γ : Scene) (_ : Γ.root = R) (f g : Mood → Outcome),
    (∀ μ, g (fillMood σ μ) = fill σ (f μ)) → ∀ μ, clauses L' (cs.filled σ) cl Γ g (fillMood σ μ) = fill σ (clauses L cs cl Γ f μ)
  | .nil, cl, Γ, hΓ, f, g, hf, μ => by rw [SCls.filled, clauses, clauses]; exact hf μ
  | .cons tl none body r, cl, Γ, hΓ, f, g, hf, μ => by
      rw [SCls.filled, clauses, clauses, clauseEnd_filled, isNil_filled]
      exact cls_filled hσ hL r cl Γ hΓ _ _ (fun ν => andThen_fill (tm_filled hσ hL body Γ hΓ _ _ _ ν) fun κ => rfl) μ
  | .cons tl (some (p, a)) body r, cl, Γ, hΓ, f, g, hf, μ => by
      rw [SCls.filled, clauses, clauses, clauseEnd_filled, isNil_filled]
      rw [sub_filled hσ _ _ _ hΓ]
      refine after_fill ((SExpr.sub p a).eval Γ μ.trim) fun v => ?_
      split
      · exact andThen_fill (tm_filled hσ hL body Γ hΓ _ _ _ μ) fun κ => rfl
      · exact cls_filled hσ hL r cl Γ hΓ f g hf μ
end

theorem depth_filled (hσ : Known σ R) {get get' : Str → Option STm} (h : ∀ x, get' x = (get x).map (STm.filled σ)) : ∀ n, SameLib σ R (Full.depth get' n) (Full.depth get n)
  | 0 => ⟨h, fun _ _ _ _ => rfl⟩
  | n + 1 => ⟨h, fun T Γ μ hΓ => tm_filled hσ (depth_filled hσ h n) T Γ hΓ false false μ.hint μ⟩

end

end Bracket.Props.Filled
