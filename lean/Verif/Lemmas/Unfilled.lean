import Verif.Spec.Unfilled
import Verif.Lemmas.Comments

/-! A content that is not asked for does not matter. -/

set_option linter.unusedSectionVars false

namespace Bracket.Props.Unfilled
open Bracket Spec Bracket.Props
open Bracket.Props.Comments (plain_before plain_after clauseEnd_plain)
open Bracket.Spec.Full hiding block blockHelper contents rounds builtinBlock depth

section
variable [H : Host] [C : Custom]

/-- Nothing is trimmed. -/
structure Still (μ : Mood) : Prop where
  hint : μ.hint = false
  close : μ.close = false
  trim : μ.trim = .none

/-- No block partial was called. -/
def bared (μ : Mood) : Mood := { μ with block := none }

/-- The same, but for the content. -/
structure Bared (b a : Outcome) : Prop where
  eq : b = (a.1, match a.2 with
    | .error x => .error x
    | .ok μ => .ok (bared μ))
  still : ∀ μ, a.2 = .ok μ → Still μ

theorem bared_wrote (w : Str) {μ : Mood} (h : Still μ) : Bared (wrote w (bared μ)) (wrote w μ) :=
  ⟨rfl, fun ν hν => by injection hν with hν; exact hν ▸ h⟩
theorem bared_failed (f : Fault) : Bared (failed f) (failed f) := ⟨rfl, fun ν hν => by cases hν⟩
theorem Bared.within {a b : Outcome} (h : Bared b a) : Bared b.within a.within := by
  obtain ⟨w, x⟩ := a
  obtain ⟨rfl, hs⟩ := h
  cases x with
  | error e => exact ⟨rfl, fun ν hν => by cases hν⟩
  | ok μ => exact ⟨rfl, hs⟩
theorem Bared.andThen {a b : Outcome} (h : Bared b a) {f g : Mood → Outcome} (hf : ∀ μ, Still μ → Bared (g (bared μ)) (f μ)) : Bared (b.andThen g) (a.andThen f) := by
  obtain ⟨w, x⟩ := a
  obtain ⟨rfl, hs⟩ := h
  cases x with
  | error e => exact ⟨rfl, fun ν hν => by cases hν⟩
  | ok μ =>
      have := hf μ (hs μ rfl)
      refine ⟨?_, this.still⟩
      show (w ++ (g (bared μ)).1, (g (bared μ)).2) = _
      rw [this.eq]
      rfl
theorem Bared.after {α : Type} (x : Said α) {f g : α → Outcome} (h : ∀ a, Bared (g a) (f a)) : Bared (.after x g) (.after x f) := by
  obtain ⟨w, x⟩ := x
  cases x with
  | error e => exact ⟨rfl, fun ν hν => by cases hν⟩
  | ok a =>
      refine ⟨?_, (h a).still⟩
      show (w ++ (g a).1, (g a).2) = _
      rw [(h a).eq]
      rfl

theorem next_still {μ : Mood} (h : Still μ) {s c : Bool} (hs : s = false) (hc : c = false) : μ.next false ⟨s || μ.close, c⟩ = μ := by
  obtain ⟨a, b, d, e⟩ := μ
  obtain ⟨h1, h2, h3⟩ := h
  simp only at h1 h2 h3
  subst h1 h2 h3 hs hc
  rfl

theorem opens_same : ∀ r : STm, r.unfilled.tildeless = true → opens r = false ∧ opens r.unfilled = false
  | .nil, _ | .text .., _ | .comment .., _ | .longComment .., _ | .escaped .., _ | .link .., _ => ⟨rfl, rfl⟩
  | .stmt _ _ tl _ _ _, h | .dyn _ _ tl _ _ _ _, h => by
      simp only [STm.unfilled, STm.tildeless, Bool.and_eq_true] at h
      simp [opens, STm.unfilled, plain_before h.1]
  | .rawBlock tl _ _ _ _ _, h => by
      simp only [STm.unfilled, STm.tildeless, Bool.and_eq_true] at h
      simp [opens, STm.unfilled, plain_before h.1.1]
  | .block true tl _ _ _ _ _ _, h => by
      simp only [STm.unfilled, STm.tildeless, Bool.and_eq_true] at h
      simp [opens, STm.unfilled, plain_before h.1]
  | .block false tl _ _ _ _ _ _, h => by
      simp only [STm.unfilled, STm.tildeless, Bool.and_eq_true] at h
      simp [opens, STm.unfilled, plain_before h.1.1.1.1]
theorem stops_still {r : STm} (h : r.unfilled.tildeless = true) : stops r false = false := by
  unfold stops; rw [(opens_same r h).1, Bool.and_false]; rfl
theorem stops_still' {r : STm} (h : r.unfilled.tildeless = true) : stops r.unfilled false = false := by
  unfold stops; rw [(opens_same r h).2, Bool.and_false]; rfl

/-- The contents of a block. -/
def Same (D' D : Scene → Mood → Outcome) : Prop := ∀ Γ μ, Still μ → Bared (D' Γ (bared μ)) (D Γ μ)

variable {D D' A A' : Scene → Mood → Outcome} (hD : Same D' D) (hA : Same A' A)

include hD in
theorem bared_rounds (Γ : Scene) : ∀ rs μ, Still μ → Bared (Full.rounds D' Γ rs (bared μ)) (Full.rounds D Γ rs μ)
  | [], μ, h => bared_wrote _ h
  | r :: rs, μ, h => (hD _ μ h).within.andThen fun ν hν => bared_rounds Γ rs ν hν

include hD in
theorem bared_contents (Γ : Scene) (e : Option HelperErr) : ∀ l μ, Still μ → Bared (Full.contents D' Γ e l (bared μ)) (Full.contents D Γ e l μ)
  | [], μ, h => by
      cases e with
      | none => exact bared_wrote _ h
      | some e => exact bared_failed _
  | .print x :: l, μ, h => (bared_wrote (Γ.print μ.trim x) h).andThen fun ν hν => bared_contents Γ e l ν hν
  | .content none :: l, μ, h => (hD _ μ h).within.andThen fun ν hν => bared_contents Γ e l ν hν
  | .content (some sc) :: l, μ, h => (hD _ μ h).within.andThen fun ν hν => bared_contents Γ e l ν hν

include hD hA in
theorem bared_builtin (w : Str) (vs : List Value) (hs : List (Str × Value)) (Γ : Scene) {μ : Mood} (h : Still μ) :
    Bared (Full.builtinBlock w vs hs D' A' Γ (bared μ)) (Full.builtinBlock w vs hs D A Γ μ) := by
  have val : Bared (match builtinValue w vs hs with
      | .error f => failed f
      | .ok _ => wrote [] (bared μ)) (match builtinValue w vs hs with
      | .error f => failed f
      | .ok _ => wrote [] μ) := by
    cases builtinValue w vs hs with
    | error f => exact bared_failed f
    | ok _ => exact bared_wrote _ h
  unfold Full.builtinBlock
  match vs, val with
  | [v], val =>
      simp only
      split
      · split
        · exact (hD _ _ h).within
        · exact (hA _ _ h).within
      split
      · split
        · exact (hA _ _ h).within
        · exact (hD _ _ h).within
      split
      · cases v with
        | arr l => exact bared_rounds hD _ _ μ h
        | obj l => exact bared_rounds hD _ _ μ h
        | _ => exact bared_wrote _ h
      split
      · cases v with
        | null => exact bared_wrote _ h
        | _ => exact (hD _ _ h).within
      · exact val
  | [], val => exact val
  | _ :: _ :: _, val => exact val

include hD hA in
theorem bared_custom (f : CustomFn) (t : Option Str) (vs : List Value) (hs : List (Str × Value)) (Γ : Scene) {μ : Mood} (h : Still μ) :
    Bared (customBlock f t vs hs D' A' Γ (bared μ)) (customBlock f t vs hs D A Γ μ) := by
  unfold customBlock
  cases f.block t vs (fun k => hs.lookup k) with
  | contents l e => exact bared_contents hD _ e l μ h
  | otherwise => exact (hA _ _ h).within

include hD hA in
theorem bared_helped (w : Str) (t : Option Str) (a : SArgs) (Γ : Scene) {μ : Mood} (h : Still μ) :
    Bared (helped w t a D' A' Γ (bared μ)) (helped w t a D A Γ μ) := by
  unfold helped
  split
  · exact bared_failed _
  refine Bared.after (a.eval (Γ.enter (.block w)) μ.trim) fun v => ?_
  unfold Full.blockHelper
  cases Custom.fn w with
  | none => exact bared_builtin hD hA w _ _ _ h
  | some f => exact bared_custom hD hA f t _ _ _ h

include hD hA in
theorem bared_block (w : Str) (a : SArgs) (Γ : Scene) {μ : Mood} (h : Still μ) : Bared (Full.block w a D' A' Γ (bared μ)) (Full.block w a D A Γ μ) := by
  unfold Full.block
  split
  · exact bared_helped hD hA w none a Γ h
  · cases Γ.find ⟨0, .name w, []⟩ with
    | some v =>
        simp only
        cases (Custom.blockMissing : Option (Str → Value → CustomFn)) with
        | none => exact (hD _ _ h).within
        | some f =>
            simp only [handled]
            split
            · exact bared_failed _
            · exact Bared.after (a.eval (Γ.enter (.block blockMissingName)) μ.trim) fun v => bared_custom hD hA _ none _ _ _ h
    | none =>
        simp only
        cases (Custom.missing : Option (Str → CustomFn)) with
        | none =>
            simp only
            split
            · exact bared_failed _
            · exact bared_wrote _ h
        | some f => exact Bared.after ((SExpr.sub ⟨0, .name w, []⟩ a).eval Γ μ.trim) fun _ => bared_wrote _ h

theorem bared_link (Γ : Scene) (e : Bool) (h : Str) (l t : Option Str) {μ : Mood} (hm : Still μ) : Bared (Full.link Γ e h l t (bared μ)) (Full.link Γ e h l t μ) := by
  unfold Full.link
  cases (if e then none else (Custom.link : Option CustomFn)) with
  | none => exact bared_wrote _ hm
  | some f =>
      simp only
      split
      · exact bared_failed _
      · exact Bared.after (f.said Γ μ.trim (linkValues h l t) []) fun _ => bared_wrote _ hm

/-- The library without the contents. -/
structure SameLib (names : List Str) (L' L : Library) : Prop where
  get : ∀ x ∈ names, L'.get x = (L.get x).map STm.unfilled
  good : ∀ x ∈ names, ∀ T, L.get x = some T → T.unfilled.tildeless = true ∧ T.unfilled.includes names = true
  render : ∀ T Γ μ, T.unfilled.tildeless = true → T.unfilled.includes names = true → Still μ → Bared (L'.render T.unfilled Γ (bared μ)) (L.render T Γ μ)

variable {names : List Str} (hn : c!"@partial-block" ∉ names)

include hn in
theorem bared_included {L L' : Library} (hL : SameLib names L' L) (content : Option STm) (w : Str) (hw : w ∈ names) (a : SArgs) (Γ : Scene) {μ : Mood} (h : Still μ) :
    Bared (included L' none w a Γ (bared μ)) (included L content w a Γ μ) := by
  unfold included
  split
  · exact bared_failed _
  have hg : (bared μ).given none = bared (μ.given content) := by cases content <;> rfl
  rw [hg]
  have ht : (bared μ).trim = μ.trim := rfl
  rw [ht]
  have hs : Still (μ.given content) := by cases content <;> exact ⟨h.hint, h.close, h.trim⟩
  revert hs
  generalize μ.given content = ν
  intro hs
  have hb : w ≠ c!"@partial-block" := fun e => hn (e ▸ hw)
  have hf : L'.find (bared ν) w = (L.find ν w).map STm.unfilled := by
    unfold Library.find
    rw [if_neg hb, if_neg hb, hL.get w hw]
  have hgood : ∀ T, L.find ν w = some T → T.unfilled.tildeless = true ∧ T.unfilled.includes names = true := by
    intro T
    unfold Library.find
    rw [if_neg hb]
    exact hL.good w hw T
  rw [hf]
  cases hfe : L.find ν w with
  | none => exact bared_failed _
  | some T =>
      simp only [Option.map_some]
      exact Bared.after ((named a).eval (Γ.enter (.part w)) μ.trim) fun hs' =>
        Bared.after (positional a (Γ.enter (.part w)) μ.trim) fun vs => hL.render T _ ν (hgood T hfe).1 (hgood T hfe).2 hs

include hn in
theorem bared_partial {L L' : Library} (hL : SameLib names L' L) (content : Option STm) (p : SPath) (hp : p.shown ∈ names) (a : SArgs) (Γ : Scene) {μ : Mood} (h : Still μ) :
    Bared (partialCall L' none p a Γ (bared μ)) (partialCall L content p a Γ μ) := by
  unfold partialCall
  split
  · exact bared_failed _
  · exact bared_included hn hL content _ hp a Γ h

theorem bared_prints (Γ : Scene) (raw : Bool) (x : Said (Option Value)) {μ : Mood} (h : Still μ) : Bared (prints Γ raw x (bared μ)) (prints Γ raw x μ) := by
  unfold prints
  exact Bared.after x fun v => by cases v <;> exact bared_wrote _ h

theorem bared_next (μ : Mood) (t : Bool) (k : Cut) : (bared μ).next t k = bared (μ.next t k) := rfl

/-- What holds of the templates without the contents. -/
def Good (names : List Str) (T : STm) : Prop := T.unfilled.tildeless = true ∧ T.unfilled.includes names = true
def GoodCls (names : List Str) (T : SCls) : Prop :=
  T.unfilled.tildeless = true ∧ T.unfilled.every (fun _ => true) (fun _ _ => true) (fun x => x.any names.contains) = true

include hn in
mutual
theorem bared_tm {L L' : Library} (hL : SameLib names L' L) : ∀ (T : STm), Good names T → ∀ (Γ : Scene) (μ : Mood), Still μ →
    Bared (tm L' T.unfilled Γ false false false (bared μ)) (tm L T Γ false false false μ)
  | .nil, hT, Γ, μ, h => by rw [STm.unfilled, tm, tm]; exact bared_wrote _ h
  | .text w r, hT, Γ, μ, h => by
      simp only [Good, STm.unfilled, STm.tildeless, STm.includes, STm.every] at hT
      rw [STm.unfilled, tm, tm, stops_still' hT.1, stops_still hT.1, bared_next, show (bared μ).close = μ.close from rfl, next_still h rfl rfl]
      exact (bared_wrote _ h).andThen fun ν hν => bared_tm hL r hT Γ ν hν
  | .comment w r, hT, Γ, μ, h => by
      simp only [Good, STm.unfilled, STm.tildeless, STm.includes, STm.every] at hT
      rw [STm.unfilled, tm, tm, stops_still' hT.1, stops_still hT.1, bared_next, show (bared μ).close = μ.close from rfl, next_still h rfl rfl]
      exact (bared_wrote _ h).andThen fun ν hν => bared_tm hL r hT Γ ν hν
  | .longComment w r, hT, Γ, μ, h => by
      simp only [Good, STm.unfilled, STm.tildeless, STm.includes, STm.every] at hT
      rw [STm.unfilled, tm, tm, stops_still' hT.1, stops_still hT.1, bared_next, show (bared μ).close = μ.close from rfl, next_still h rfl rfl]
      exact (bared_wrote _ h).andThen fun ν hν => bared_tm hL r hT Γ ν hν
  | .escaped w r, hT, Γ, μ, h => by
      simp only [Good, STm.unfilled, STm.tildeless, STm.includes, STm.every] at hT
      rw [STm.unfilled, tm, tm, stops_still' hT.1, stops_still hT.1, bared_next, show (bared μ).close = μ.close from rfl, next_still h rfl rfl]
      exact (bared_wrote _ h).andThen fun ν hν => bared_tm hL r hT Γ ν hν
  | .link e hr l t r, hT, Γ, μ, h => by
      simp only [Good, STm.unfilled, STm.tildeless, STm.includes, STm.every] at hT
      rw [STm.unfilled, tm, tm, stops_still' hT.1, stops_still hT.1, bared_next, show (bared μ).close = μ.close from rfl, next_still h rfl rfl]
      exact (bared_link Γ e hr l t h).andThen fun ν hν => bared_tm hL r hT Γ ν hν
  | .stmt raw part tl p a r, hT, Γ, μ, h => by
      simp only [Good, STm.unfilled, STm.tildeless, STm.includes, STm.every, Bool.and_eq_true] at hT
      obtain ⟨⟨h1, h2⟩, ⟨h3, h4⟩, h5⟩ := hT
      rw [STm.unfilled, tm, tm, stops_still' h2, stops_still h2, plain_after h1, bared_next, show (bared μ).close = μ.close from rfl, next_still h rfl rfl]
      refine Bared.andThen ?_ fun ν hν => bared_tm hL r ⟨h2, h5⟩ Γ ν hν
      cases part with
      | true =>
          simp only [if_true] at h3 ⊢
          exact bared_partial hn hL none p (List.contains_iff_mem.1 h3) a Γ h
      | false =>
          simp only [Bool.false_eq_true, if_false]
          exact bared_prints Γ raw _ h
  | .dyn raw part tl q b a r, hT, Γ, μ, h => by
      simp only [Good, STm.unfilled, STm.tildeless, STm.includes, STm.every, Bool.and_eq_true] at hT
      obtain ⟨⟨h1, h2⟩, ⟨⟨h3, _⟩, h4⟩, h5⟩ := hT
      rw [STm.unfilled, tm, tm, stops_still' h2, stops_still h2, plain_after h1, bared_next, show (bared μ).close = μ.close from rfl, next_still h rfl rfl]
      refine Bared.andThen ?_ fun ν hν => bared_tm hL r ⟨h2, h5⟩ Γ ν hν
      cases part with
      | true => simp at h3
      | false =>
          simp only [Bool.false_eq_true, if_false]
          exact bared_prints Γ raw _ h
  | .rawBlock tl w a x cl r, hT, Γ, μ, h => by
      simp only [Good, STm.unfilled, STm.tildeless, STm.includes, STm.every, Bool.and_eq_true] at hT
      obtain ⟨⟨⟨h1, h2⟩, h3⟩, _, h5⟩ := hT
      rw [STm.unfilled, tm, tm, stops_still' h3, stops_still h3, plain_after h1, plain_after h2, plain_before h2, bared_next, show (bared μ).close = μ.close from rfl,
        next_still h rfl rfl]
      refine Bared.andThen ?_ fun ν hν => bared_tm hL r ⟨h3, h5⟩ Γ ν hν
      have hs : Still { μ with close := false } := ⟨h.hint, rfl, h.trim⟩
      split
      · refine bared_helped (D := fun _ μ => wrote (cut (μ.hint || false || μ.close) false x) ⟨false, false, μ.block, ⟨μ.hint || false || μ.close, false⟩⟩)
          (A := fun _ μ => wrote [] μ) (fun Δ ν hν => ?_) (fun _ ν hν => bared_wrote _ hν) w (some _) a Γ hs
        refine bared_wrote _ (μ := ⟨false, false, ν.block, ⟨ν.hint || false || ν.close, false⟩⟩) ⟨rfl, rfl, ?_⟩
        rw [hν.hint, hν.close]; rfl
      · exact bared_wrote _ hs
  | .block true tl w a body cs cl r, hT, Γ, μ, h => by
      simp only [Good, STm.unfilled, STm.tildeless, STm.includes, STm.every, Bool.and_eq_true] at hT
      obtain ⟨⟨h1, h2⟩, ⟨h3, h4⟩, h5⟩ := hT
      rw [STm.unfilled, tm, tm, stops_still' h2, stops_still h2, plain_after h1, bared_next, show (bared μ).close = μ.close from rfl, next_still h rfl rfl]
      refine Bared.andThen ?_ fun ν hν => bared_tm hL r ⟨h2, h5⟩ Γ ν hν
      simp only [if_true] at h3 ⊢
      exact bared_partial hn hL (some body) ⟨0, .name w, []⟩ (List.contains_iff_mem.1 h3) a Γ h
  | .block false tl w a body cs cl r, hT, Γ, μ, h => by
      simp only [Good, STm.unfilled, STm.tildeless, STm.includes, STm.every, Bool.and_eq_true] at hT
      obtain ⟨⟨⟨⟨⟨h1, h2⟩, h3⟩, h4⟩, h5⟩, ⟨⟨_, g3⟩, g4⟩, g5⟩ := hT
      rw [STm.unfilled, tm, tm, stops_still' h5, stops_still h5, plain_after h1, plain_after h2, plain_before h2, bared_next, show (bared μ).close = μ.close from rfl,
        next_still h rfl rfl]
      refine Bared.andThen ?_ fun ν hν => bared_tm hL r ⟨h5, g5⟩ Γ ν hν
      simp only [Bool.false_eq_true, if_false]
      refine bared_block (D := fun Δ μ => (tm L body Δ false false (μ.hint || false) μ).andThen fun μ => wrote [] { μ with close := !isNil body && false })
          (A := fun Δ μ => clauses L cs cl Δ (fun μ => wrote [] μ) μ)
          (D' := fun Δ μ => (tm L' body.unfilled Δ false false (μ.hint || false) μ).andThen fun μ => wrote [] { μ with close := !isNil body.unfilled && false })
          (A' := fun Δ μ => clauses L' cs.unfilled cl Δ (fun μ => wrote [] μ) μ) (fun Δ ν hν => ?_) (fun Δ ν hν => ?_) w a Γ h
      · show Bared ((tm L' body.unfilled Δ false false ((bared ν).hint || false) (bared ν)).andThen _) _
        show Bared _ ((tm L body Δ false false (ν.hint || false) ν).andThen _)
        rw [show (bared ν).hint = ν.hint from rfl, hν.hint]
        refine (bared_tm hL body ⟨h3, g3⟩ Δ ν hν).andThen fun κ hκ => ?_
        rw [Bool.and_false, Bool.and_false]
        exact bared_wrote [] (μ := { κ with close := false }) ⟨hκ.hint, rfl, hκ.trim⟩
      · exact bared_cls hL cs ⟨h4, g4⟩ h2 Δ (fun μ hμ => bared_wrote _ hμ) ν hν
theorem bared_cls {L L' : Library} (hL : SameLib names L' L) : ∀ (cs : SCls), GoodCls names cs → ∀ {cl : Tilde} (_ : cl.plain = true) (Γ : Scene) {f g : Mood → Outcome},
    (∀ μ, Still μ → Bared (g (bared μ)) (f μ)) → ∀ μ, Still μ → Bared (clauses L' cs.unfilled cl Γ g (bared μ)) (clauses L cs cl Γ f μ)
  | .nil, hT, cl, hcl, Γ, f, g, hf, μ, h => by rw [SCls.unfilled, clauses, clauses]; exact hf μ h
  | .cons tl none body r, hT, cl, hcl, Γ, f, g, hf, μ, h => by
      simp only [GoodCls, SCls.unfilled, SCls.tildeless, SCls.every, Bool.and_eq_true] at hT
      obtain ⟨⟨⟨h1, h2⟩, h3⟩, g2, g3⟩ := hT
      rw [SCls.unfilled, clauses, clauses, clauseEnd_plain hcl, clauseEnd_plain hcl, plain_after h1]
      refine bared_cls hL r ⟨h3, g3⟩ hcl Γ
        (f := fun μ => (tm L body Γ false false (μ.hint || false) μ).andThen fun μ => wrote [] { μ with close := !isNil body && false })
        (g := fun μ => (tm L' body.unfilled Γ false false (μ.hint || false) μ).andThen fun μ => wrote [] { μ with close := !isNil body.unfilled && false })
        (fun ν hν => ?_) μ h
      rw [show (bared ν).hint = ν.hint from rfl, hν.hint]
      refine (bared_tm hL body ⟨h2, g2⟩ Γ ν hν).andThen fun κ hκ => ?_
      rw [Bool.and_false, Bool.and_false]
      exact bared_wrote [] (μ := { κ with close := false }) ⟨hκ.hint, rfl, hκ.trim⟩
  | .cons tl (some (p, a)) body r, hT, cl, hcl, Γ, f, g, hf, μ, h => by
      simp only [GoodCls, SCls.unfilled, SCls.tildeless, SCls.every, Bool.and_eq_true] at hT
      obtain ⟨⟨⟨h1, h2⟩, h3⟩, ⟨_, g2⟩, g3⟩ := hT
      rw [SCls.unfilled, clauses, clauses, clauseEnd_plain hcl, clauseEnd_plain hcl, plain_after h1]
      refine Bared.after ((SExpr.sub p a).eval Γ μ.trim) fun v => ?_
      split
      · rw [show (bared μ).hint = μ.hint from rfl, h.hint]
        refine (bared_tm hL body ⟨h2, g2⟩ Γ μ h).andThen fun κ hκ => ?_
        rw [Bool.and_false, Bool.and_false]
        exact bared_wrote [] (μ := { κ with close := false }) ⟨hκ.hint, rfl, hκ.trim⟩
      · exact bared_cls hL r ⟨h3, g3⟩ hcl Γ hf μ h
end

include hn in
theorem bared_depth {get get' : Str → Option STm} (h : ∀ x ∈ names, get' x = (get x).map STm.unfilled)
    (hg : ∀ x ∈ names, ∀ T, get x = some T → T.unfilled.tildeless = true ∧ T.unfilled.includes names = true) :
    ∀ n, SameLib names (Full.depth get' n) (Full.depth get n)
  | 0 => ⟨h, hg, fun _ _ _ _ _ _ => bared_failed _⟩
  | n + 1 => ⟨h, hg, fun T Γ μ hT hi hm => by
      have := bared_tm hn (bared_depth h hg n) T ⟨hT, hi⟩ Γ μ hm
      show Bared (tm _ T.unfilled Γ false false (bared μ).hint (bared μ)) (tm _ T Γ false false μ.hint μ)
      rw [show (bared μ).hint = μ.hint from rfl, hm.hint]
      exact this⟩

theorem Bared.result {b a : Outcome} (h : Bared b a) : b.result = a.result := by
  rw [h.eq]
  obtain ⟨w, x⟩ := a
  rcases x with (_ | _) | _ <;> rfl

end

end Bracket.Props.Unfilled
