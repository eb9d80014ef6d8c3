import Verif.Spec.Comments
import Verif.Lemmas.Tied

/-! Without `~`, comments do not matter. -/

set_option linter.unusedSectionVars false

namespace Bracket.Props.Comments
open Bracket Spec Bracket.Props
open Bracket.Spec.Full hiding block blockHelper contents rounds builtinBlock depth

section
variable [H : Host] [C : Custom]

/-- Nothing is trimmed. -/
structure Still (μ : Mood) : Prop where
  hint : μ.hint = false
  close : μ.close = false
  trim : μ.trim = .none
  block : ∀ T, μ.block = some T → T.tildeless = true

/-- The content of the block partial called last, without comments. -/
def bared (μ : Mood) : Mood := { μ with block := μ.block.map STm.uncommented }

/-- The same, without comments. -/
structure Bared (b a : Outcome) : Prop where
  eq : b = (a.1, match a.2 with
    | .error x => .error x
    | .ok μ => .ok (bared μ))
  still : ∀ μ, a.2 = .ok μ → Still μ

theorem bared_wrote (w : Str) {μ : Mood} (h : Still μ) : Bared (wrote w (bared μ)) (wrote w μ) :=
  ⟨rfl, fun ν hν => by injection hν with hν; exact hν ▸ h⟩
theorem bared_failed (f : Fault) : Bared (failed f) (failed f) := ⟨rfl, fun ν hν => by cases hν⟩
theorem Bared.within {a b : Outcome} (h : Bared b a) : Bared b.within a.within := by
  obtain ⟨w, x⟩ := a
  obtain ⟨rfl, hs⟩ := h
  cases x with
  | error e => exact ⟨rfl, fun ν hν => by cases hν⟩
  | ok μ => exact ⟨rfl, hs⟩
theorem Bared.andThen {a b : Outcome} (h : Bared b a) {f g : Mood → Outcome} (hf : ∀ μ, Still μ → Bared (g (bared μ)) (f μ)) : Bared (b.andThen g) (a.andThen f) := by
  obtain ⟨w, x⟩ := a
  obtain ⟨rfl, hs⟩ := h
  cases x with
  | error e => exact ⟨rfl, fun ν hν => by cases hν⟩
  | ok μ =>
      have := hf μ (hs μ rfl)
      refine ⟨?_, this.still⟩
      show (w ++ (g (bared μ)).1, (g (bared μ)).2) = _
      rw [this.eq]
      rfl
theorem Bared.after {α : Type} (x : Said α) {f g : α → Outcome} (h : ∀ a, Bared (g a) (f a)) : Bared (.after x g) (.after x f) := by
  obtain ⟨w, x⟩ := x
  cases x with
  | error e => exact ⟨rfl, fun ν hν => by cases hν⟩
  | ok a =>
      refine ⟨?_, (h a).still⟩
      show (w ++ (g a).1, (g a).2) = _
      rw [(h a).eq]
      rfl

theorem plain_before {tl : Tilde} (h : tl.plain = true) : tl.before = false := by
  unfold Tilde.plain at h; revert h; cases tl.before <;> simp
theorem plain_after {tl : Tilde} (h : tl.plain = true) : tl.after = false := by
  unfold Tilde.plain at h; revert h; cases tl.after <;> simp

theorem opens_still : ∀ r : STm, r.tildeless = true → opens r = false
  | .nil, _ | .text .., _ | .comment .., _ | .longComment .., _ | .escaped .., _ | .link .., _ => rfl
  | .stmt _ _ tl _ _ _, h | .dyn _ _ tl _ _ _ _, h => by
      unfold STm.tildeless at h
      simp only [Bool.and_eq_true] at h
      show (tl.before && _) = false
      rw [plain_before h.1]
      rfl
  | .rawBlock tl _ _ _ _ _, h => by
      unfold STm.tildeless at h
      simp only [Bool.and_eq_true] at h
      exact plain_before h.1.1
  | .block _ tl _ _ _ _ _ _, h => by
      unfold STm.tildeless at h
      simp only [Bool.and_eq_true] at h
      exact plain_before h.1.1.1.1
theorem stops_still {r : STm} (h : r.tildeless = true) : stops r false = false := by
  unfold stops; rw [opens_still r h, Bool.and_false]; rfl

theorem join_tildeless (w : Str) (r : STm) : (joinText w r).tildeless = r.tildeless := by
  cases r <;> simp [joinText, STm.tildeless]

mutual
theorem tm_tildeless : ∀ T : STm, T.uncommented.tildeless = T.tildeless
  | .nil => rfl
  | .text w r => by rw [STm.uncommented, join_tildeless, tm_tildeless r, STm.tildeless]
  | .comment _ r | .longComment _ r => by rw [STm.uncommented, tm_tildeless r, STm.tildeless]
  | .escaped _ r | .link _ _ _ _ r | .stmt _ _ _ _ _ r | .dyn _ _ _ _ _ _ r | .rawBlock _ _ _ _ _ r => by
      rw [STm.uncommented, STm.tildeless, STm.tildeless, tm_tildeless r]
  | .block _ _ _ _ body cs _ r => by
      rw [STm.uncommented, STm.tildeless, STm.tildeless, tm_tildeless r, tm_tildeless body, cls_tildeless cs]
theorem cls_tildeless : ∀ T : SCls, T.uncommented.tildeless = T.tildeless
  | .nil => rfl
  | .cons _ _ body r => by rw [SCls.uncommented, SCls.tildeless, SCls.tildeless, tm_tildeless body, cls_tildeless r]
end

theorem next_still {μ : Mood} (h : Still μ) {s c : Bool} (hs : s = false) (hc : c = false) : μ.next false ⟨s || μ.close, c⟩ = μ := by
  obtain ⟨a, b, d, e⟩ := μ
  obtain ⟨h1, h2, h3, _⟩ := h
  simp only at h1 h2 h3
  subst h1 h2 h3 hs hc
  rfl

theorem join_tm (L : Library) (w : Str) {r : STm} (hr : r.tildeless = true) (Γ : Scene) {μ : Mood} (h : Still μ) :
    tm L (joinText w r) Γ false false false μ = (wrote w μ).andThen (tm L r Γ false false false) := by
  have one : ∀ (u : Str) {r : STm}, r.tildeless = true → tm L (.text u r) Γ false false false μ = (wrote u μ).andThen (tm L r Γ false false false) := by
    intro u r hr
    rw [tm, next_still h rfl (stops_still hr), stops_still hr, h.close]
    rfl
  cases r with
  | text u r =>
      have hr' : r.tildeless = true := by rw [STm.tildeless] at hr; exact hr
      rw [joinText, one _ hr']
      show _ = (w ++ (tm L (.text u r) Γ false false false μ).1, (tm L (.text u r) Γ false false false μ).2)
      rw [one _ hr']
      show ((w ++ u) ++ _, _) = (w ++ (u ++ _), _)
      rw [List.append_assoc]
      rfl
  | _ => exact one w hr

/-- The contents of a block. -/
def Same (D' D : Scene → Mood → Outcome) : Prop := ∀ Γ μ, Still μ → Bared (D' Γ (bared μ)) (D Γ μ)

variable {D D' A A' : Scene → Mood → Outcome} (hD : Same D' D) (hA : Same A' A)

include hD in
theorem bared_rounds (Γ : Scene) : ∀ rs μ, Still μ → Bared (Full.rounds D' Γ rs (bared μ)) (Full.rounds D Γ rs μ)
  | [], μ, h => bared_wrote _ h
  | r :: rs, μ, h => (hD _ μ h).within.andThen fun ν hν => bared_rounds Γ rs ν hν

include hD in
theorem bared_contents (Γ : Scene) (e : Option HelperErr) : ∀ l μ, Still μ → Bared (Full.contents D' Γ e l (bared μ)) (Full.contents D Γ e l μ)
  | [], μ, h => by
      cases e with
      | none => exact bared_wrote _ h
      | some e => exact bared_failed _
  | .print x :: l, μ, h => (bared_wrote (Γ.print μ.trim x) h).andThen fun ν hν => bared_contents Γ e l ν hν
  | .content none :: l, μ, h => (hD _ μ h).within.andThen fun ν hν => bared_contents Γ e l ν hν
  | .content (some sc) :: l, μ, h => (hD _ μ h).within.andThen fun ν hν => bared_contents Γ e l ν hν

include hD hA in
theorem bared_builtin (w : Str) (vs : List Value) (hs : List (Str × Value)) (Γ : Scene) {μ : Mood} (h : Still μ) :
    Bared (Full.builtinBlock w vs hs D' A' Γ (bared μ)) (Full.builtinBlock w vs hs D A Γ μ) := by
  have val : Bared (match builtinValue w vs hs with
      | .error f => failed f
      | .ok _ => wrote [] (bared μ)) (match builtinValue w vs hs with
      | .error f => failed f
      | .ok _ => wrote [] μ) := by
    cases builtinValue w vs hs with
    | error f => exact bared_failed f
    | ok _ => exact bared_wrote _ h
  unfold Full.builtinBlock
  match vs, val with
  | [v], val =>
      simp only
      split
      · split
        · exact (hD _ _ h).within
        · exact (hA _ _ h).within
      split
      · split
        · exact (hA _ _ h).within
        · exact (hD _ _ h).within
      split
      · cases v with
        | arr l => exact bared_rounds hD _ _ μ h
        | obj l => exact bared_rounds hD _ _ μ h
        | _ => exact bared_wrote _ h
      split
      · cases v with
        | null => exact bared_wrote _ h
        | _ => exact (hD _ _ h).within
      · exact val
  | [], val => exact val
  | _ :: _ :: _, val => exact val

include hD hA in
theorem bared_custom (f : CustomFn) (t : Option Str) (vs : List Value) (hs : List (Str × Value)) (Γ : Scene) {μ : Mood} (h : Still μ) :
    Bared (customBlock f t vs hs D' A' Γ (bared μ)) (customBlock f t vs hs D A Γ μ) := by
  unfold customBlock
  cases f.block t vs (fun k => hs.lookup k) with
  | contents l e => exact bared_contents hD _ e l μ h
  | otherwise => exact (hA _ _ h).within

include hD hA in
theorem bared_helped (w : Str) (t : Option Str) (a : SArgs) (Γ : Scene) {μ : Mood} (h : Still μ) :
    Bared (helped w t a D' A' Γ (bared μ)) (helped w t a D A Γ μ) := by
  unfold helped
  split
  · exact bared_failed _
  refine Bared.after (a.eval (Γ.enter (.block w)) μ.trim) fun v => ?_
  unfold Full.blockHelper
  cases Custom.fn w with
  | none => exact bared_builtin hD hA w _ _ _ h
  | some f => exact bared_custom hD hA f t _ _ _ h

include hD hA in
theorem bared_block (w : Str) (a : SArgs) (Γ : Scene) {μ : Mood} (h : Still μ) : Bared (Full.block w a D' A' Γ (bared μ)) (Full.block w a D A Γ μ) := by
  unfold Full.block
  split
  · exact bared_helped hD hA w none a Γ h
  · cases Γ.find ⟨0, .name w, []⟩ with
    | some v =>
        simp only
        cases (Custom.blockMissing : Option (Str → Value → CustomFn)) with
        | none => exact (hD _ _ h).within
        | some f =>
            simp only [handled]
            split
            · exact bared_failed _
            · exact Bared.after (a.eval (Γ.enter (.block blockMissingName)) μ.trim) fun v => bared_custom hD hA _ none _ _ _ h
    | none =>
        simp only
        cases (Custom.missing : Option (Str → CustomFn)) with
        | none =>
            simp only
            split
            · exact bared_failed _
            · exact bared_wrote _ h
        | some f => exact Bared.after ((SExpr.sub ⟨0, .name w, []⟩ a).eval Γ μ.trim) fun _ => bared_wrote _ h

theorem bared_link (Γ : Scene) (e : Bool) (h : Str) (l t : Option Str) {μ : Mood} (hm : Still μ) : Bared (Full.link Γ e h l t (bared μ)) (Full.link Γ e h l t μ) := by
  unfold Full.link
  cases (if e then none else (Custom.link : Option CustomFn)) with
  | none => exact bared_wrote _ hm
  | some f =>
      simp only
      split
      · exact bared_failed _
      · exact Bared.after (f.said Γ μ.trim (linkValues h l t) []) fun _ => bared_wrote _ hm

/-- The library without comments. -/
structure SameLib (L' L : Library) : Prop where
  get : ∀ x, L'.get x = (L.get x).map STm.uncommented
  good : ∀ x T, L.get x = some T → T.tildeless = true
  render : ∀ T Γ μ, T.tildeless = true → Still μ → Bared (L'.render T.uncommented Γ (bared μ)) (L.render T Γ μ)

theorem bared_included {L L' : Library} (hL : SameLib L' L) {content : Option STm} (hc : ∀ T, content = some T → T.tildeless = true) (w : Str) (a : SArgs) (Γ : Scene) {μ : Mood} (h : Still μ) :
    Bared (included L' (content.map STm.uncommented) w a Γ (bared μ)) (included L content w a Γ μ) := by
  unfold included
  split
  · exact bared_failed _
  have hg : (bared μ).given (content.map STm.uncommented) = bared (μ.given content) := by cases content <;> rfl
  rw [hg]
  have ht : (bared μ).trim = μ.trim := rfl
  rw [ht]
  have hs : Still (μ.given content) := by
    cases content with
    | none => exact h
    | some T => exact ⟨h.hint, h.close, h.trim, fun U hU => by injection hU with hU; exact hU ▸ hc T rfl⟩
  revert hs
  generalize μ.given content = ν
  intro hs
  have hf : L'.find (bared ν) w = (L.find ν w).map STm.uncommented := by
    unfold Library.find
    rw [hL.get]
    split
    · obtain ⟨a, b, c, d⟩ := ν
      cases c <;> rfl
    · rfl
  have hgood : ∀ T, L.find ν w = some T → T.tildeless = true := by
    intro T
    unfold Library.find
    split
    · cases hb : ν.block with
      | none => exact hL.good _ T
      | some U => intro e; injection e with e; exact e ▸ hs.block U hb
    · exact hL.good _ T
  rw [hf]
  cases hfe : L.find ν w with
  | none => exact bared_failed _
  | some T =>
      simp only [Option.map_some]
      exact Bared.after ((named a).eval (Γ.enter (.part w)) μ.trim) fun hs' =>
        Bared.after (positional a (Γ.enter (.part w)) μ.trim) fun vs => hL.render T _ ν (hgood T hfe) hs

theorem bared_partial {L L' : Library} (hL : SameLib L' L) {content : Option STm} (hc : ∀ T, content = some T → T.tildeless = true) (p : SPath) (a : SArgs) (Γ : Scene) {μ : Mood} (h : Still μ) :
    Bared (partialCall L' (content.map STm.uncommented) p a Γ (bared μ)) (partialCall L content p a Γ μ) := by
  unfold partialCall
  split
  · exact bared_failed _
  · exact bared_included hL hc _ a Γ h

theorem bared_prints (Γ : Scene) (raw : Bool) (x : Said (Option Value)) {μ : Mood} (h : Still μ) : Bared (prints Γ raw x (bared μ)) (prints Γ raw x μ) := by
  unfold prints
  exact Bared.after x fun v => by cases v <;> exact bared_wrote _ h

theorem bared_next {μ : Mood} (h : Still μ) (t : Bool) (k : Cut) : (bared μ).next t k = bared (μ.next t k) := rfl

theorem stops_bared {r : STm} (h : r.tildeless = true) : stops r.uncommented false = stops r false := by
  rw [stops_still h, stops_still (by rw [tm_tildeless, h])]

theorem clauseEnd_bared {cs : SCls} {cl : Tilde} : clauseEnd cs.uncommented cl = clauseEnd cs cl := by cases cs <;> rfl
theorem clauseEnd_plain {cs : SCls} {cl : Tilde} (h : cl.plain = true) : clauseEnd cs cl = (false, false) := by
  cases cs
  · show (cl.before, cl.after) = _
    rw [plain_before h, plain_after h]
  · rfl

mutual
theorem bared_tm {L L' : Library} (hL : SameLib L' L) : ∀ (T : STm), T.tildeless = true → ∀ (Γ : Scene) (μ : Mood), Still μ →
    Bared (tm L' T.uncommented Γ false false false (bared μ)) (tm L T Γ false false false μ)
  | .nil, hT, Γ, μ, h => by rw [STm.uncommented, tm, tm]; exact bared_wrote _ h
  | .text w r, hT, Γ, μ, h => by
      rw [STm.tildeless] at hT
      have hb : Still (bared μ) := by
        refine ⟨h.hint, h.close, h.trim, fun T hT => ?_⟩
        simp only [bared, Option.map_eq_some_iff] at hT
        obtain ⟨U, hU, rfl⟩ := hT
        rw [tm_tildeless]
        exact h.block U hU
      rw [STm.uncommented, join_tm L' w (by rw [tm_tildeless, hT]) Γ hb, tm, next_still h rfl (stops_still hT), stops_still hT, h.close]
      exact (bared_wrote w h).andThen fun ν hν => bared_tm hL r hT Γ ν hν
  | .comment w r, hT, Γ, μ, h => by
      rw [STm.tildeless] at hT
      rw [STm.uncommented, tm, next_still h rfl (stops_still hT)]
      have := bared_tm hL r hT Γ μ h
      refine ⟨this.eq, this.still⟩
  | .longComment w r, hT, Γ, μ, h => by
      rw [STm.tildeless] at hT
      rw [STm.uncommented, tm, next_still h rfl (stops_still hT)]
      have := bared_tm hL r hT Γ μ h
      refine ⟨this.eq, this.still⟩
  | .escaped w r, hT, Γ, μ, h => by
      rw [STm.tildeless] at hT
      rw [STm.uncommented, tm, tm, stops_bared hT, bared_next h, show (bared μ).close = μ.close from rfl, next_still h rfl (stops_still hT)]
      exact (bared_wrote _ h).andThen fun ν hν => bared_tm hL r hT Γ ν hν
  | .link e hr l t r, hT, Γ, μ, h => by
      rw [STm.tildeless] at hT
      rw [STm.uncommented, tm, tm, stops_bared hT, bared_next h, show (bared μ).close = μ.close from rfl, next_still h rfl (stops_still hT)]
      exact (bared_link Γ e hr l t h).andThen fun ν hν => bared_tm hL r hT Γ ν hν
  | .stmt raw part tl p a r, hT, Γ, μ, h => by
      rw [STm.tildeless, Bool.and_eq_true] at hT
      rw [STm.uncommented, tm, tm, stops_bared hT.2, plain_after hT.1, bared_next h, show (bared μ).close = μ.close from rfl, next_still h rfl (stops_still hT.2)]
      refine Bared.andThen ?_ fun ν hν => bared_tm hL r hT.2 Γ ν hν
      split
      · exact bared_partial hL (content := none) (fun _ h => by cases h) p a Γ h
      · exact bared_prints Γ raw _ h
  | .dyn raw part tl q b a r, hT, Γ, μ, h => by
      rw [STm.tildeless, Bool.and_eq_true] at hT
      rw [STm.uncommented, tm, tm, stops_bared hT.2, plain_after hT.1, bared_next h, show (bared μ).close = μ.close from rfl, next_still h rfl (stops_still hT.2)]
      refine Bared.andThen ?_ fun ν hν => bared_tm hL r hT.2 Γ ν hν
      split
      · unfold computedCall
        exact Bared.after ((SExpr.sub q b).eval Γ μ.trim) fun v => bared_included hL (content := none) (fun _ h => by cases h) _ a Γ h
      · exact bared_prints Γ raw _ h
  | .rawBlock tl w a x cl r, hT, Γ, μ, h => by
      rw [STm.tildeless, Bool.and_eq_true, Bool.and_eq_true] at hT
      obtain ⟨⟨h1, h2⟩, h3⟩ := hT
      rw [STm.uncommented, tm, tm, stops_bared h3, plain_after h1, plain_after h2, plain_before h2, bared_next h, show (bared μ).close = μ.close from rfl,
        next_still h rfl (stops_still h3)]
      refine Bared.andThen ?_ fun ν hν => bared_tm hL r h3 Γ ν hν
      have hs : Still { μ with close := false } := ⟨h.hint, rfl, h.trim, h.block⟩
      split
      · refine bared_helped (D := fun _ μ => wrote (cut (μ.hint || false || μ.close) false x) ⟨false, false, μ.block, ⟨μ.hint || false || μ.close, false⟩⟩)
          (A := fun _ μ => wrote [] μ) (fun Δ ν hν => ?_) (fun _ ν hν => bared_wrote _ hν) w (some _) a Γ hs
        refine bared_wrote _ (μ := ⟨false, false, ν.block, ⟨ν.hint || false || ν.close, false⟩⟩) ⟨rfl, rfl, ?_, hν.block⟩
        rw [hν.hint, hν.close]; rfl
      · exact bared_wrote _ hs
  | .block part tl w a body cs cl r, hT, Γ, μ, h => by
      rw [STm.tildeless] at hT
      simp only [Bool.and_eq_true] at hT
      obtain ⟨⟨⟨⟨h1, h2⟩, h3⟩, h4⟩, h5⟩ := hT
      rw [STm.uncommented, tm, tm, stops_bared h5, plain_after h1, plain_after h2, plain_before h2, bared_next h, show (bared μ).close = μ.close from rfl,
        next_still h rfl (stops_still h5)]
      refine Bared.andThen ?_ fun ν hν => bared_tm hL r h5 Γ ν hν
      split
      · exact bared_partial hL (content := some body) (by intro T hT; injection hT with hT; exact hT ▸ h3) _ a Γ h
      · refine bared_block (D := fun Δ μ => (tm L body Δ false false (μ.hint || false) μ).andThen fun μ => wrote [] { μ with close := !isNil body && false })
          (A := fun Δ μ => clauses L cs cl Δ (fun μ => wrote [] μ) μ)
          (D' := fun Δ μ => (tm L' body.uncommented Δ false false (μ.hint || false) μ).andThen fun μ => wrote [] { μ with close := !isNil body.uncommented && false })
          (A' := fun Δ μ => clauses L' cs.uncommented cl Δ (fun μ => wrote [] μ) μ) (fun Δ ν hν => ?_) (fun Δ ν hν => ?_) w a Γ h
        · show Bared ((tm L' body.uncommented Δ false false ((bared ν).hint || false) (bared ν)).andThen _) _
          show Bared _ ((tm L body Δ false false (ν.hint || false) ν).andThen _)
          rw [show (bared ν).hint = ν.hint from rfl, hν.hint]
          refine (bared_tm hL body h3 Δ ν hν).andThen fun κ hκ => ?_
          rw [Bool.and_false, Bool.and_false]
          exact bared_wrote [] (μ := { κ with close := false }) ⟨hκ.hint, rfl, hκ.trim, hκ.block⟩
        · exact bared_cls hL cs h4 h2 Δ (fun μ hμ => bared_wrote _ hμ) ν hν
theorem bared_cls {L L' : Library} (hL : SameLib L' L) : ∀ (cs : SCls), cs.tildeless = true → ∀ {cl : Tilde} (_ : cl.plain = true) (Γ : Scene) {f g : Mood → Outcome},
    (∀ μ, Still μ → Bared (g (bared μ)) (f μ)) → ∀ μ, Still μ → Bared (clauses L' cs.uncommented cl Γ g (bared μ)) (clauses L cs cl Γ f μ)
  | .nil, hT, cl, hcl, Γ, f, g, hf, μ, h => by rw [SCls.uncommented, clauses, clauses]; exact hf μ h
  | .cons tl none body r, hT, cl, hcl, Γ, f, g, hf, μ, h => by
      rw [SCls.tildeless] at hT
      simp only [Bool.and_eq_true] at hT
      rw [SCls.uncommented, clauses, clauses, clauseEnd_plain hcl, clauseEnd_plain hcl, plain_after hT.1.1]
      refine bared_cls hL r hT.2 hcl Γ
        (f := fun μ => (tm L body Γ false false (μ.hint || false) μ).andThen fun μ => wrote [] { μ with close := !isNil body && false })
        (g := fun μ => (tm L' body.uncommented Γ false false (μ.hint || false) μ).andThen fun μ => wrote [] { μ with close := !isNil body.uncommented && false })
        (fun ν hν => ?_) μ h
      rw [show (bared ν).hint = ν.hint from rfl, hν.hint]
      refine (bared_tm hL body hT.1.2 Γ ν hν).andThen fun κ hκ => ?_
      rw [Bool.and_false, Bool.and_false]
      exact bared_wrote [] (μ := { κ with close := false }) ⟨hκ.hint, rfl, hκ.trim, hκ.block⟩
  | .cons tl (some (p, a)) body r, hT, cl, hcl, Γ, f, g, hf, μ, h => by
      rw [SCls.tildeless] at hT
      simp only [Bool.and_eq_true] at hT
      rw [SCls.uncommented, clauses, clauses, clauseEnd_plain hcl, clauseEnd_plain hcl, plain_after hT.1.1]
      refine Bared.after ((SExpr.sub p a).eval Γ μ.trim) fun v => ?_
      split
      · rw [show (bared μ).hint = μ.hint from rfl, h.hint]
        refine (bared_tm hL body hT.1.2 Γ μ h).andThen fun κ hκ => ?_
        rw [Bool.and_false, Bool.and_false]
        exact bared_wrote [] (μ := { κ with close := false }) ⟨hκ.hint, rfl, hκ.trim, hκ.block⟩
      · exact bared_cls hL r hT.2 hcl Γ hf μ h
end

theorem bared_depth {get get' : Str → Option STm} (h : ∀ x, get' x = (get x).map STm.uncommented) (hg : ∀ x T, get x = some T → T.tildeless = true) :
    ∀ n, SameLib (Full.depth get' n) (Full.depth get n)
  | 0 => ⟨h, hg, fun _ _ _ _ _ => bared_failed _⟩
  | n + 1 => ⟨h, hg, fun T Γ μ hT hm => by
      have := bared_tm (bared_depth h hg n) T hT Γ μ hm
      show Bared (tm _ T.uncommented Γ false false (bared μ).hint (bared μ)) (tm _ T Γ false false μ.hint μ)
      rw [show (bared μ).hint = μ.hint from rfl, hm.hint]
      exact this⟩

end

end Bracket.Props.Comments
