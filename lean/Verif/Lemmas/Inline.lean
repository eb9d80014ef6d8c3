import Verif.Spec.Inline
import Verif.Lemmas.Tied
import Verif.Props.Whole

/-! A template under one more empty scope, and a template with a partial put in place. -/

set_option linter.unusedSectionVars false

namespace Bracket.Props.Inline
open Bracket Spec Bracket.Props Bracket.Props.Tied
open Bracket.Spec.Full hiding block blockHelper contents rounds builtinBlock depth
open Bracket.Props.Whole (Room)

section
variable [H : Host] [C : Custom]

/-! ### One more empty scope -/

/-- `Δ` is `Γ` inside a partial without arguments. -/
structure Wider (inner : Bool) (Γ Δ : Scene) : Prop where
  strict : Δ.strict = Γ.strict
  escape : Δ.escape = Γ.escape
  file : Δ.file = Γ.file
  root : Δ.root = Γ.root
  scopes : ∃ s1 s2, Γ.scopes = s1 ++ s2 ∧ Δ.scopes = s1 ++ ⟨some (.obj []), []⟩ :: s2 ∧ (inner = true → s1 ≠ [])
  calls : ∀ x, (∀ w, x ≠ .part w) → Δ.calls.count x = Γ.calls.count x

theorem Wider.enter {i : Bool} {Γ Δ : Scene} (h : Wider i Γ Δ) (x : CallSite) : Wider i (Γ.enter x) (Δ.enter x) :=
  ⟨h.strict, h.escape, h.file, h.root, h.scopes, fun y hy => by simp only [Scene.enter, List.count_cons, h.calls y hy]⟩
theorem Wider.push {i : Bool} {Γ Δ : Scene} (h : Wider i Γ Δ) (j : Bool) (sc : Scope) : Wider j (Γ.push sc) (Δ.push sc) := by
  obtain ⟨s1, s2, e1, e2, _⟩ := h.scopes
  exact ⟨h.strict, h.escape, h.file, h.root, ⟨sc :: s1, s2, by simp [Scene.push, e1], by simp [Scene.push, e2], fun _ => by simp⟩, h.calls⟩
theorem Wider.full {i : Bool} {Γ Δ : Scene} (h : Wider i Γ Δ) {x : CallSite} (hx : ∀ w, x ≠ .part w) : Δ.full x = Γ.full x := by
  unfold Scene.full; rw [h.calls x hx]

theorem walk_empty (k : Str) (ks : List Str) : walk (.obj []) (k :: ks) = none := rfl

theorem Wider.find {i : Bool} {Γ Δ : Scene} (h : Wider i Γ Δ) {p : SPath} (hp : p.portable i = true) : Δ.find p = Γ.find p := by
  obtain ⟨s1, s2, e1, e2, hne⟩ := h.scopes
  unfold SPath.portable at hp
  simp only [Bool.and_eq_true, beq_iff_eq] at hp
  obtain ⟨h0, hp⟩ := hp
  unfold Scene.find
  rw [h0, h.root, e1, e2]
  cases hh : p.head with
  | abs w => rfl
  | name w =>
      simp only
      unfold frames
      simp only [List.map_append, List.map_cons, List.flatten_append, List.flatten_cons, List.findSome?_append, List.append_assoc]
      rw [show frame ⟨some (.obj []), []⟩ = [.obj [], .obj []] from rfl]
      simp only [List.cons_append, List.findSome?_cons, walk_empty, List.nil_append, List.findSome?_append, List.findSome?_nil, Option.none_or]
  | loc w =>
      rw [hh] at hp
      simp only [Bool.or_eq_true, beq_iff_eq] at hp
      simp only
      by_cases hw : w = c!"root"
      · rw [if_pos hw, if_pos hw]
      · rw [if_neg hw, if_neg hw]
        have := hne (hp.resolve_right hw)
        cases s1 with
        | nil => exact absurd rfl this
        | cons sc r => rfl
  | this =>
      rw [hh] at hp
      have := hne hp
      cases s1 with
      | nil => exact absurd rfl this
      | cons sc r => rfl
  | dot =>
      rw [hh] at hp
      have := hne hp
      cases s1 with
      | nil => exact absurd rfl this
      | cons sc r => rfl

theorem Wider.absent {i : Bool} {Γ Δ : Scene} (h : Wider i Γ Δ) (p : SPath) : Δ.absent p = Γ.absent p := by
  unfold Scene.absent
  rw [h.strict, h.file]
theorem Wider.print {i : Bool} {Γ Δ : Scene} (h : Wider i Γ Δ) (k : Cut) (x : Print) : Δ.print k x = Γ.print k x := by
  unfold Scene.print; rw [h.escape]
theorem Wider.said {i : Bool} {Γ Δ : Scene} (h : Wider i Γ Δ) (k : Cut) (f : CustomFn) (vs : List Value) (hs : List (Str × Value)) :
    f.said Δ k vs hs = f.said Γ k vs hs := by
  unfold CustomFn.said Scene.printAll
  rw [show Δ.print k = Γ.print k from funext (h.print k)]
theorem Wider.value {i : Bool} {Γ Δ : Scene} (h : Wider i Γ Δ) (k : Cut) (w : Str) (vs : List Value) (hs : List (Str × Value)) :
    helperValue w Δ k vs hs = helperValue w Γ k vs hs := by
  unfold helperValue
  cases Custom.fn w with
  | none => rfl
  | some f => exact h.said k f vs hs

abbrev anyCall : SPath → SArgs → Bool := fun _ _ => true

mutual
theorem expr_wider {i : Bool} : ∀ (x : SExpr), x.every (SPath.portable i) anyCall = true → ∀ {Γ Δ : Scene} (k : Cut), Wider i Γ Δ → x.eval Δ k = x.eval Γ k
  | .path p, hx, Γ, Δ, k, h => by
      rw [SExpr.every] at hx
      rw [SExpr.eval, SExpr.eval, h.find hx]
  | .lit l, hx, Γ, Δ, k, h => by rw [SExpr.eval, SExpr.eval]
  | .sub p a, hx, Γ, Δ, k, h => by
      rw [SExpr.every] at hx
      simp only [Bool.and_eq_true] at hx
      rw [SExpr.eval, SExpr.eval]
      cases p.helper with
      | none =>
          simp only
          rw [h.find hx.1.1, h.absent, h.full (by intro w e; cases e), args_wider a hx.2 k (h.enter (.helper missingName))]
          simp only [h.said]
      | some w =>
          simp only
          rw [h.full (by intro w e; cases e), args_wider a hx.2 k (h.enter (.helper w))]
          simp only [h.value]
theorem args_wider {i : Bool} : ∀ (a : SArgs), a.every (SPath.portable i) anyCall = true → ∀ {Γ Δ : Scene} (k : Cut), Wider i Γ Δ → a.eval Δ k = a.eval Γ k
  | .done h, hx, Γ, Δ, k, hw => by
      rw [SArgs.every] at hx
      rw [SArgs.eval, SArgs.eval, hash_wider h hx k hw]
  | .argW w x r, hx, Γ, Δ, k, hw => by
      rw [SArgs.every] at hx
      simp only [Bool.and_eq_true] at hx
      rw [SArgs.eval, SArgs.eval, expr_wider x hx.1 k hw, args_wider r hx.2 k hw]
theorem hash_wider {i : Bool} : ∀ (h : SHash), h.every (SPath.portable i) anyCall = true → ∀ {Γ Δ : Scene} (k : Cut), Wider i Γ Δ → h.eval Δ k = h.eval Γ k
  | .tail _, hx, Γ, Δ, k, hw => by rw [SHash.eval, SHash.eval]
  | .pairW w n x r, hx, Γ, Δ, k, hw => by
      rw [SHash.every] at hx
      simp only [Bool.and_eq_true] at hx
      rw [SHash.eval, SHash.eval, expr_wider x hx.1 k hw, hash_wider r hx.2 k hw]
end

/-! ### Outcomes -/

variable (F : STm → STm)

/-- The content of the block partial called last, changed by `F`. -/
def mapMood (μ : Mood) : Mood := { μ with block := μ.block.map F }
def mapped (a : Outcome) : Outcome := (a.1, match a.2 with
  | .error x => .error x
  | .ok μ => .ok (mapMood F μ))

variable {F}

theorem mapped_within (a : Outcome) : (mapped F a).within = mapped F a.within := by
  obtain ⟨w, x⟩ := a; cases x <;> rfl
theorem andThen_mapped {a b : Outcome} (e : b = mapped F a) {f g : Mood → Outcome} (h : ∀ μ, a.2 = .ok μ → g (mapMood F μ) = mapped F (f μ)) :
    b.andThen g = mapped F (a.andThen f) := by
  subst e
  obtain ⟨w, x⟩ := a
  cases x with
  | error e => rfl
  | ok μ =>
      show (w ++ (g (mapMood F μ)).1, (g (mapMood F μ)).2) = _
      rw [h μ rfl]
      rfl

theorem after_mapped {α : Type} (x : Said α) {f g : α → Outcome} (h : ∀ a, g a = mapped F (f a)) :
    Outcome.after x g = mapped F (Outcome.after x f) := by
  obtain ⟨w, x⟩ := x
  cases x with
  | error e => rfl
  | ok a =>
      show (w ++ (g a).1, (g a).2) = _
      rw [h a]
      rfl

/-- The contents of a block, in a scene and in a wider one. -/
def Same (F : STm → STm) (i : Bool) (D' D : Scene → Mood → Outcome) : Prop := ∀ Γ Δ μ, Wider i Γ Δ → D' Γ (mapMood F μ) = mapped F (D Δ μ)

section
variable {D D' A A' : Scene → Mood → Outcome}

theorem rounds_wider (hD : Same F true D' D) {i : Bool} {Γ Δ : Scene} (h : Wider i Γ Δ) :
    ∀ rs μ, Full.rounds D' Γ rs (mapMood F μ) = mapped F (Full.rounds D Δ rs μ)
  | [], μ => rfl
  | r :: rs, μ => by
      rw [Full.rounds, Full.rounds, hD _ _ μ (h.push true _), mapped_within]
      exact andThen_mapped rfl fun μ _ => rounds_wider hD h rs μ

theorem contents_wider {i : Bool} (hD : Same F i D' D) {Γ Δ : Scene} (h : Wider i Γ Δ) (e : Option HelperErr) :
    ∀ l μ, Full.contents D' Γ e l (mapMood F μ) = mapped F (Full.contents D Δ e l μ)
  | [], μ => by cases e <;> rfl
  | .print x :: l, μ => by
      rw [Full.contents, Full.contents, h.print]
      exact andThen_mapped (b := wrote (Γ.print μ.trim x) (mapMood F μ)) rfl fun μ _ => contents_wider hD h e l μ
  | .content none :: l, μ => by
      rw [Full.contents, Full.contents, hD _ _ μ h, mapped_within]
      exact andThen_mapped rfl fun μ _ => contents_wider hD h e l μ
  | .content (some sc) :: l, μ => by
      rw [Full.contents, Full.contents, hD _ _ μ (h.push i _), mapped_within]
      exact andThen_mapped rfl fun μ _ => contents_wider hD h e l μ

theorem within_same {i : Bool} (hD : Same F i D' D) {Γ Δ : Scene} (h : Wider i Γ Δ) (μ : Mood) :
    (D' Γ (mapMood F μ)).within = mapped F (D Δ μ).within := by rw [hD _ _ μ h, mapped_within]

theorem builtin_wider {i : Bool} {w : Str} (hc : Custom.fn w = none) (hD : Same F (i || ownScope w) D' D) (hA : Same F i A' A)
    (vs : List Value) (hs : List (Str × Value)) {Γ Δ : Scene} (h : Wider i Γ Δ) (μ : Mood) :
    Full.builtinBlock w vs hs D' A' Γ (mapMood F μ) = mapped F (Full.builtinBlock w vs hs D A Δ μ) := by
  have val : (match builtinValue w vs hs with
      | .error f => failed f
      | .ok _ => wrote [] (mapMood F μ)) = mapped F (match builtinValue w vs hs with
      | .error f => failed f
      | .ok _ => wrote [] μ) := by
    cases builtinValue w vs hs <;> rfl
  unfold Full.builtinBlock
  match vs, val with
  | [v], val =>
      simp only
      split
      · rename_i hw
        have hD' : Same F i D' D := by
          have : ownScope w = false := by subst hw; unfold ownScope; exact Bool.and_false _
          rwa [this, Bool.or_false] at hD
        split
        · exact within_same hD' h μ
        · exact within_same hA h μ
      split
      · rename_i hw
        have hD' : Same F i D' D := by
          have : ownScope w = false := by subst hw; unfold ownScope; exact Bool.and_false _
          rwa [this, Bool.or_false] at hD
        split
        · exact within_same hA h μ
        · exact within_same hD' h μ
      split
      · rename_i hw
        have hD' : Same F true D' D := by
          have : ownScope w = true := by unfold ownScope; rw [hc, hw]; rfl
          rwa [this, Bool.or_true] at hD
        cases v with
        | arr l => exact rounds_wider hD' h _ μ
        | obj l => exact rounds_wider hD' h _ μ
        | _ => rfl
      split
      · rename_i hw
        have hD' : Same F true D' D := by
          have : ownScope w = true := by unfold ownScope; rw [hc, hw]; rfl
          rwa [this, Bool.or_true] at hD
        cases v with
        | null => rfl
        | _ => exact within_same hD' (h.push true _) μ
      · exact val
  | [], val => exact val
  | _ :: _ :: _, val => exact val

theorem custom_wider {i : Bool} (hD : Same F i D' D) (hA : Same F i A' A) (f : CustomFn) (t : Option Str) (vs : List Value) (hs : List (Str × Value))
    {Γ Δ : Scene} (h : Wider i Γ Δ) (μ : Mood) : customBlock f t vs hs D' A' Γ (mapMood F μ) = mapped F (customBlock f t vs hs D A Δ μ) := by
  unfold customBlock
  cases f.block t vs (fun k => hs.lookup k) with
  | contents l e => exact contents_wider hD h e l μ
  | otherwise => exact within_same hA h μ

theorem link_wider {i : Bool} {Γ Δ : Scene} (h : Wider i Γ Δ) (e : Bool) (hr : Str) (l t : Option Str) (μ : Mood) :
    Full.link Γ e hr l t (mapMood F μ) = mapped F (Full.link Δ e hr l t μ) := by
  unfold Full.link
  cases (if e then none else (Custom.link : Option CustomFn)) with
  | none => rfl
  | some f =>
      simp only
      rw [h.full (by intro w e; cases e), h.said]
      split
      · rfl
      · exact after_mapped (f.said Γ μ.trim (linkValues hr l t) []) fun _ => rfl

theorem helped_wider {i : Bool} {w : Str} (t : Option Str) (hD : Same F (i || ownScope w) D' D) (hA : Same F i A' A) {a : SArgs}
    (ha : a.every (SPath.portable i) anyCall = true) {Γ Δ : Scene} (h : Wider i Γ Δ) (μ : Mood) :
    helped w t a D' A' Γ (mapMood F μ) = mapped F (helped w t a D A Δ μ) := by
  unfold helped
  rw [h.full (by intro w e; cases e), args_wider a ha _ (h.enter (.block w))]
  split
  · rfl
  refine after_mapped (a.eval (Γ.enter (.block w)) μ.trim) fun v => ?_
  unfold Full.blockHelper
  cases hc : Custom.fn w with
  | none => exact builtin_wider hc hD hA _ _ (h.enter _) μ
  | some f =>
      have hD' : Same F i D' D := by
        have : ownScope w = false := by simp [ownScope, hc]
        rwa [this, Bool.or_false] at hD
      exact custom_wider hD' hA f t _ _ (h.enter _) μ

theorem block_wider {i : Bool} {w : Str} (hD : Same F (i || ownScope w) D' D) (hA : Same F i A' A) {a : SArgs}
    (ha : a.every (SPath.portable i) anyCall = true) {Γ Δ : Scene} (h : Wider i Γ Δ) (μ : Mood) :
    Full.block w a D' A' Γ (mapMood F μ) = mapped F (Full.block w a D A Δ μ) := by
  unfold Full.block
  split
  · exact helped_wider none hD hA ha h μ
  · rename_i hn
    rw [h.find (p := ⟨0, .name w, []⟩) rfl, h.strict]
    have hs : ownScope w = false := by
      cases hc : ownScope w with
      | false => rfl
      | true =>
          unfold ownScope at hc
          simp only [Bool.and_eq_true, Bool.or_eq_true, beq_iff_eq] at hc
          refine absurd ?_ hn
          unfold isHelper
          rcases hc.2 with rfl | rfl <;> simp [helperNames]
    rw [hs, Bool.or_false] at hD
    cases Γ.find ⟨0, .name w, []⟩ with
    | some v =>
        simp only
        cases (Custom.blockMissing : Option (Str → Value → CustomFn)) with
        | none => exact within_same hD h μ
        | some f =>
            simp only [handled]
            rw [h.full (by intro w e; cases e), args_wider a ha _ (h.enter (.block blockMissingName))]
            split
            · rfl
            · exact after_mapped (a.eval (Γ.enter (.block blockMissingName)) μ.trim) fun v => custom_wider hD hA _ none _ _ (h.enter _) μ
    | none =>
        simp only
        cases (Custom.missing : Option (Str → CustomFn)) with
        | none =>
            simp only
            split <;> rfl
        | some f =>
            simp only
            rw [expr_wider (.sub ⟨0, .name w, []⟩ a) (by rw [SExpr.every]; simp [ha, SPath.portable]) _ h]
            exact after_mapped ((SExpr.sub ⟨0, .name w, []⟩ a).eval Γ μ.trim) fun _ => rfl
end

theorem prints_wider {i : Bool} {Γ Δ : Scene} (h : Wider i Γ Δ) (raw : Bool) {p : SPath} {a : SArgs} (hp : p.portable i = true)
    (ha : a.every (SPath.portable i) anyCall = true) (k : Cut) (μ : Mood) :
    prints Γ raw ((SExpr.sub p a).eval Γ k) (mapMood F μ) = mapped F (prints Δ raw ((SExpr.sub p a).eval Δ k) μ) := by
  rw [expr_wider (.sub p a) (by rw [SExpr.every]; simp [hp, ha]) k h]
  unfold prints
  refine after_mapped ((SExpr.sub p a).eval Γ k) fun v => ?_
  cases v with
  | none => rfl
  | some v => simp only [h.print]; rfl

theorem plain_iff {tl : Tilde} : tl.plain = true ↔ tl.before = false ∧ tl.after = false := by
  simp [Tilde.plain]

mutual
/-- Without partials, a portable template writes the same in a wider scene. -/
theorem tm_wider {L L' : Library} : ∀ (X : STm) {i : Bool}, X.core = true → X.portable i = true → ∀ (Γ Δ : Scene), Wider i Γ Δ → ∀ (o c s : Bool) (μ : Mood),
    tm L' X Γ o c s (mapMood F μ) = mapped F (tm L X Δ o c s μ)
  | .nil, i, hc, hp, Γ, Δ, h, o, c, s, μ => by rw [tm, tm]; rfl
  | .text w r, i, hc, hp, Γ, Δ, h, o, c, s, μ => by
      rw [STm.core] at hc; rw [STm.portable] at hp
      rw [tm, tm]
      exact andThen_mapped (b := wrote _ ((mapMood F μ).next false ⟨s || μ.close, stops r c⟩)) rfl fun ν _ => tm_wider r hc hp Γ Δ h o c false ν
  | .comment w r, i, hc, hp, Γ, Δ, h, o, c, s, μ => by
      rw [STm.core] at hc; rw [STm.portable] at hp
      rw [tm, tm]
      exact andThen_mapped (b := wrote _ ((mapMood F μ).next false ⟨s || μ.close, stops r c⟩)) rfl fun ν _ => tm_wider r hc hp Γ Δ h o c false ν
  | .longComment w r, i, hc, hp, Γ, Δ, h, o, c, s, μ => by
      rw [STm.core] at hc; rw [STm.portable] at hp
      rw [tm, tm]
      exact andThen_mapped (b := wrote _ ((mapMood F μ).next false ⟨s || μ.close, stops r c⟩)) rfl fun ν _ => tm_wider r hc hp Γ Δ h o c false ν
  | .escaped w r, i, hc, hp, Γ, Δ, h, o, c, s, μ => by
      rw [STm.core] at hc; rw [STm.portable] at hp
      rw [tm, tm]
      exact andThen_mapped (b := wrote _ ((mapMood F μ).next false ⟨s || μ.close, stops r c⟩)) rfl fun ν _ => tm_wider r hc hp Γ Δ h o c false ν
  | .link e h' l t r, i, hc, hp, Γ, Δ, h, o, c, s, μ => by
      rw [STm.core] at hc; rw [STm.portable] at hp
      rw [tm, tm]
      exact andThen_mapped (link_wider h e h' l t (μ.next false ⟨s || μ.close, stops r c⟩)) fun ν _ => tm_wider r hc hp Γ Δ h o c false ν
  | .stmt raw part tl p a r, i, hc, hp, Γ, Δ, h, o, c, s, μ => by
      rw [STm.core] at hc; rw [STm.portable] at hp
      simp only [Bool.and_eq_true, Bool.not_eq_true'] at hc hp
      rw [tm, tm, hc.1.1]
      exact andThen_mapped (prints_wider h raw hp.1.1 hp.1.2 _ (μ.next tl.after ⟨s || μ.close, stops r c⟩)) fun ν _ => tm_wider r hc.2 hp.2 Γ Δ h o c _ ν
  | .dyn raw part tl q b a r, i, hc, hp, Γ, Δ, h, o, c, s, μ => by
      rw [STm.core] at hc; rw [STm.portable] at hp
      simp only [Bool.and_eq_true, Bool.not_eq_true'] at hc hp
      rw [tm, tm, hc.1.1]
      exact andThen_mapped (prints_wider h raw hp.1.1.1 hp.1.1.2 _ (μ.next tl.after ⟨s || μ.close, stops r c⟩)) fun ν _ => tm_wider r hc.2 hp.2 Γ Δ h o c _ ν
  | .rawBlock tl w a x cl r, i, hc, hp, Γ, Δ, h, o, c, s, μ => by
      rw [STm.core] at hc; rw [STm.portable] at hp
      simp only [Bool.and_eq_true, Bool.not_eq_true'] at hc hp
      rw [tm, tm]
      refine andThen_mapped ?_ fun ν _ => tm_wider r hc.2 hp.2 Γ Δ h o c _ ν
      split
      · exact helped_wider (some _) (D := fun _ μ => wrote (cut (μ.hint || tl.after || μ.close) cl.before x) ⟨false, cl.after, μ.block, ⟨μ.hint || tl.after || μ.close, cl.before⟩⟩)
          (A := fun _ μ => wrote [] μ) (fun _ _ _ _ => rfl) (fun _ _ _ _ => rfl) hp.1 h { μ.next tl.after ⟨s || μ.close, stops r c⟩ with close := cl.after }
      · rfl
  | .block part tl w a body cs cl r, i, hc, hp, Γ, Δ, h, o, c, s, μ => by
      rw [STm.core] at hc; rw [STm.portable] at hp
      simp only [Bool.and_eq_true, Bool.not_eq_true'] at hc hp
      obtain ⟨⟨⟨⟨⟨hc1, hc2⟩, hc3⟩, hc4⟩, hc5⟩, hc6⟩ := hc
      obtain ⟨⟨⟨hp1, hp2⟩, hp3⟩, hp4⟩ := hp
      rw [tm, tm, hc1]
      refine andThen_mapped ?_ fun ν _ => tm_wider r hc6 hp4 Γ Δ h o c _ ν
      refine block_wider (F := F) (D' := fun Δ μ => (tm L' body Δ tl.after cl.before (μ.hint || tl.after) μ).andThen fun μ => wrote [] { μ with close := !isNil body && cl.after })
          (A' := fun Δ μ => clauses L' cs cl Δ (fun μ => wrote [] μ) μ) (D := fun Δ μ => (tm L body Δ tl.after cl.before (μ.hint || tl.after) μ).andThen fun μ => wrote [] { μ with close := !isNil body && cl.after })
          (A := fun Δ μ => clauses L cs cl Δ (fun μ => wrote [] μ) μ) (fun Γ Δ ν h => ?_) (fun Γ Δ ν h => ?_) hp1 h (μ.next tl.after ⟨s || μ.close, stops r c⟩)
      · exact andThen_mapped (tm_wider body hc4 hp2 Γ Δ h _ _ _ ν) fun κ _ => rfl
      · exact cls_wider cs hc5 hp3 cl Γ Δ h _ _ (fun _ => rfl) ν
theorem cls_wider {L L' : Library} : ∀ (cs : SCls) {i : Bool}, cs.core = true → cs.portable i = true → ∀ (cl : Tilde) (Γ Δ : Scene), Wider i Γ Δ → ∀ (f g : Mood → Outcome),
    (∀ μ, g (mapMood F μ) = mapped F (f μ)) → ∀ μ, clauses L' cs cl Γ g (mapMood F μ) = mapped F (clauses L cs cl Δ f μ)
  | .nil, i, hc, hp, cl, Γ, Δ, h, f, g, hf, μ => by rw [clauses, clauses]; exact hf μ
  | .cons tl none body r, i, hc, hp, cl, Γ, Δ, h, f, g, hf, μ => by
      rw [SCls.core] at hc; rw [SCls.portable] at hp
      simp only [Bool.and_eq_true, Bool.not_eq_true'] at hc hp
      rw [clauses, clauses]
      exact cls_wider r hc.2 hp.2 cl Γ Δ h _ _ (fun ν => andThen_mapped (tm_wider body hc.1.2 hp.1 Γ Δ h _ _ _ ν) fun κ _ => rfl) μ
  | .cons tl (some (p, a)) body r, i, hc, hp, cl, Γ, Δ, h, f, g, hf, μ => by
      rw [SCls.core] at hc; rw [SCls.portable] at hp
      simp only [Bool.and_eq_true, Bool.not_eq_true'] at hc hp
      obtain ⟨⟨⟨hp1, hp2⟩, hp3⟩, hp4⟩ := hp
      rw [clauses, clauses]
      rw [expr_wider (.sub p a) (by rw [SExpr.every]; simp [hp1, hp2]) _ h]
      refine after_mapped ((SExpr.sub p a).eval Γ μ.trim) fun v => ?_
      split
      · exact andThen_mapped (tm_wider body hc.1.2 hp3 Γ Δ h _ _ _ μ) fun κ _ => rfl
      · exact cls_wider r hc.2 hp4 cl Γ Δ h f g hf μ
end

/-! ### The partial put in place -/

theorem tildeless_core : (∀ {X : STm}, X.core = true → opens X = false) := fun h => opens_calm (calm_core h)

variable {p : Str} {X : STm} (hX : X.core = true) (hport : X.portable false = true)

include hX in
theorem opens_append {U : STm} (hU : opens U = false) : opens (X.append U) = false := by
  have := opens_calm (calm_core hX)
  cases X <;> first | exact hU | exact this

theorem opens_tildeless : ∀ {T : STm}, T.tildeless = true → opens T = false
  | .nil, _ | .text _ _, _ | .comment _ _, _ | .longComment _ _, _ | .escaped _ _, _ | .link _ _ _ _ _, _ => rfl
  | .stmt _ _ tl _ _ _, h | .dyn _ _ tl _ _ _ _, h => by
      rw [STm.tildeless] at h
      simp only [Bool.and_eq_true, plain_iff] at h
      simp [opens, h.1.1]
  | .rawBlock tl _ _ _ _ _, h => by
      rw [STm.tildeless] at h
      simp only [Bool.and_eq_true, plain_iff] at h
      exact h.1.1.1
  | .block _ tl _ _ _ _ _ _, h => by
      rw [STm.tildeless] at h
      simp only [Bool.and_eq_true, plain_iff] at h
      exact h.1.1.1.1.1

include hX in
theorem opens_inline : ∀ {T : STm}, T.tildeless = true → opens (STm.inline p X T) = false
  | .nil, _ | .text _ _, _ | .comment _ _, _ | .longComment _ _, _ | .escaped _ _, _ | .link _ _ _ _ _, _ => rfl
  | .stmt raw part tl q a r, h => by
      have ho := opens_tildeless h
      rw [STm.tildeless] at h
      simp only [Bool.and_eq_true] at h
      rw [STm.inline]
      split
      · exact opens_append hX (opens_inline h.2)
      · exact ho
  | .dyn raw part tl q b a r, h => by
      have ho := opens_tildeless h
      rw [STm.inline]
      exact ho
  | .rawBlock tl _ _ _ _ _, h => by
      have ho := opens_tildeless h
      rw [STm.inline]
      exact ho
  | .block _ tl _ _ _ _ _ _, h => by
      have ho := opens_tildeless h
      rw [STm.inline]
      exact ho

/-- After a tag without `~`; the content of the block partial called last has none. -/
def Quiet (μ : Mood) : Prop := μ.hint = false ∧ μ.close = false ∧ (∀ T, μ.block = some T → T.tildeless = true) ∧ μ.trim = .none

theorem Quiet.next {μ : Mood} (h : Quiet μ) : Quiet (μ.next false ⟨false || μ.close, false⟩) := ⟨rfl, rfl, h.2.2.1, by rw [h.2.1]; rfl⟩
theorem Quiet.next_eq {μ : Mood} (h : Quiet μ) : μ.next false ⟨false || μ.close, false⟩ = μ := by
  obtain ⟨a, b, c, d⟩ := μ
  obtain ⟨h1, h2, _, h4⟩ := h
  simp only at h1 h2 h4
  subst h1 h2 h4
  rfl

/-- The same up to the content of the block partial called last. -/
structure Inlined (p : Str) (X : STm) (a b : Outcome) : Prop where
  eq : b = mapped (STm.inline p X) a
  quiet : ∀ μ, a.2 = .ok μ → Quiet μ

abbrev im (p : Str) (X : STm) : Mood → Mood := mapMood (STm.inline p X)

theorem inlined_wrote (w : Str) {μ : Mood} (h : Quiet μ) : Inlined p X (wrote w μ) (wrote w (im p X μ)) :=
  ⟨rfl, fun ν hν => by injection hν with hν; exact hν ▸ h⟩
theorem inlined_failed (f : Fault) : Inlined p X (failed f) (failed f) := ⟨rfl, fun ν hν => by cases hν⟩

theorem Inlined.andThen {a b : Outcome} (h : Inlined p X a b) {f g : Mood → Outcome} (hf : ∀ μ, Quiet μ → Inlined p X (f μ) (g (im p X μ))) :
    Inlined p X (a.andThen f) (b.andThen g) := by
  refine ⟨andThen_mapped h.eq fun μ hμ => (hf μ (h.quiet μ hμ)).eq, fun ν hν => ?_⟩
  obtain ⟨w, x⟩ := a
  cases x with
  | error e => cases hν
  | ok μ => exact (hf μ (h.quiet μ rfl)).quiet ν hν

theorem Inlined.after {α : Type} {x : Said α} {f g : α → Outcome} (hf : ∀ v, Inlined p X (f v) (g v)) :
    Inlined p X (.after x f) (.after x g) := by
  refine ⟨after_mapped x fun v => (hf v).eq, fun ν hν => ?_⟩
  obtain ⟨w, x⟩ := x
  cases x with
  | error e => cases hν
  | ok v => exact (hf v).quiet ν hν

theorem Inlined.within {a b : Outcome} (h : Inlined p X a b) : Inlined p X a.within b.within := by
  refine ⟨by rw [h.eq, mapped_within], fun ν hν => ?_⟩
  obtain ⟨w, x⟩ := a
  cases x with
  | error e => cases hν
  | ok μ => exact h.quiet ν hν

/-- Where `{{> p}}` may be called: `p` is not being rendered. -/
structure Place (p : Str) (names : List Str) (n : Nat) (free : Bool) (Γ : Scene) : Prop where
  room : Room names n Γ
  free : free = true → Γ.calls.contains (.part p) = false

theorem Place.enter {names : List Str} {n : Nat} {f : Bool} {Γ : Scene} (h : Place p names n f Γ) (x : Str) : Place p names n f (Γ.enter (.block x)) :=
  ⟨h.room.enter x, fun e => by have := h.free e; simpa [Scene.enter, List.contains_cons] using this⟩
theorem Place.push {names : List Str} {n : Nat} {f : Bool} {Γ : Scene} (h : Place p names n f Γ) (sc : Scope) : Place p names n f (Γ.push sc) :=
  ⟨h.room.push sc, h.free⟩

/-- The contents of a block. -/
def InlinedIn (p : Str) (X : STm) (P : Scene → Prop) (D D' : Scene → Mood → Outcome) : Prop :=
  ∀ Γ μ, P Γ → Quiet μ → Inlined p X (D Γ μ) (D' Γ (im p X μ))

section
variable {names : List Str} {n : Nat} {free : Bool} {D D' A A' : Scene → Mood → Outcome}

theorem rounds_inlined (hD : InlinedIn p X (Place p names n free) D D') {Γ : Scene} (h : Place p names n free Γ) :
    ∀ rs μ, Quiet μ → Inlined p X (Full.rounds D Γ rs μ) (Full.rounds D' Γ rs (im p X μ))
  | [], μ, hμ => inlined_wrote _ hμ
  | r :: rs, μ, hμ => (hD _ μ (h.push _) hμ).within.andThen fun ν hν => rounds_inlined hD h rs ν hν

theorem contents_inlined (hD : InlinedIn p X (Place p names n free) D D') {Γ : Scene} (h : Place p names n free Γ) (e : Option HelperErr) :
    ∀ l μ, Quiet μ → Inlined p X (Full.contents D Γ e l μ) (Full.contents D' Γ e l (im p X μ))
  | [], μ, hμ => by
      cases e with
      | none => exact inlined_wrote _ hμ
      | some e => exact inlined_failed _
  | .print x :: rs, μ, hμ => (inlined_wrote (Γ.print μ.trim x) hμ).andThen fun ν hν => contents_inlined hD h e rs ν hν
  | .content none :: rs, μ, hμ => (hD _ μ h hμ).within.andThen fun ν hν => contents_inlined hD h e rs ν hν
  | .content (some _) :: rs, μ, hμ => (hD _ μ (h.push _) hμ).within.andThen fun ν hν => contents_inlined hD h e rs ν hν

theorem builtin_inlined (hD : InlinedIn p X (Place p names n free) D D') (hA : InlinedIn p X (Place p names n free) A A') (w : Str) (vs : List Value)
    (hs : List (Str × Value)) {Γ : Scene} (h : Place p names n free Γ) {μ : Mood} (hμ : Quiet μ) :
    Inlined p X (Full.builtinBlock w vs hs D A Γ μ) (Full.builtinBlock w vs hs D' A' Γ (im p X μ)) := by
  have val : Inlined p X (match builtinValue w vs hs with
      | .error f => failed f
      | .ok _ => wrote [] μ) (match builtinValue w vs hs with
      | .error f => failed f
      | .ok _ => wrote [] (im p X μ)) := by
    cases builtinValue w vs hs with
    | error f => exact inlined_failed f
    | ok _ => exact inlined_wrote _ hμ
  unfold Full.builtinBlock
  match vs, val with
  | [v], val =>
      simp only
      split
      · split
        · exact (hD Γ μ h hμ).within
        · exact (hA Γ μ h hμ).within
      split
      · split
        · exact (hA Γ μ h hμ).within
        · exact (hD Γ μ h hμ).within
      split
      · cases v with
        | arr l => exact rounds_inlined hD h _ μ hμ
        | obj l => exact rounds_inlined hD h _ μ hμ
        | _ => exact inlined_wrote _ hμ
      split
      · cases v with
        | null => exact inlined_wrote _ hμ
        | _ => exact (hD _ μ (h.push _) hμ).within
      · exact val
  | [], val => exact val
  | _ :: _ :: _, val => exact val

theorem custom_inlined (hD : InlinedIn p X (Place p names n free) D D') (hA : InlinedIn p X (Place p names n free) A A') (f : CustomFn) (t : Option Str)
    (vs : List Value) (hs : List (Str × Value)) {Γ : Scene} (h : Place p names n free Γ) {μ : Mood} (hμ : Quiet μ) :
    Inlined p X (customBlock f t vs hs D A Γ μ) (customBlock f t vs hs D' A' Γ (im p X μ)) := by
  unfold customBlock
  cases f.block t vs (fun k => hs.lookup k) with
  | contents l e => exact contents_inlined hD h e l μ hμ
  | otherwise => exact (hA _ μ h hμ).within

theorem link_inlined (Γ : Scene) (e : Bool) (hr : Str) (l t : Option Str) {μ : Mood} (hμ : Quiet μ) :
    Inlined p X (Full.link Γ e hr l t μ) (Full.link Γ e hr l t (im p X μ)) := by
  unfold Full.link
  cases (if e then none else (Custom.link : Option CustomFn)) with
  | none => exact inlined_wrote _ hμ
  | some f =>
      simp only
      split
      · exact inlined_failed _
      · exact Inlined.after (x := f.said Γ μ.trim (linkValues hr l t) []) fun _ => inlined_wrote _ hμ

theorem helped_inlined (hD : InlinedIn p X (Place p names n free) D D') (hA : InlinedIn p X (Place p names n free) A A') (w : Str) (t : Option Str) (a : SArgs)
    {Γ : Scene} (h : Place p names n free Γ) {μ : Mood} (hμ : Quiet μ) :
    Inlined p X (helped w t a D A Γ μ) (helped w t a D' A' Γ (im p X μ)) := by
  unfold helped
  split
  · exact inlined_failed _
  refine Inlined.after (x := a.eval (Γ.enter (.block w)) μ.trim) fun v => ?_
  unfold Full.blockHelper
  cases Custom.fn w with
  | none => exact builtin_inlined hD hA w _ _ (h.enter w) hμ
  | some f => exact custom_inlined hD hA f t _ _ (h.enter w) hμ

theorem block_inlined (hD : InlinedIn p X (Place p names n free) D D') (hA : InlinedIn p X (Place p names n free) A A') (w : Str) (a : SArgs)
    {Γ : Scene} (h : Place p names n free Γ) {μ : Mood} (hμ : Quiet μ) :
    Inlined p X (Full.block w a D A Γ μ) (Full.block w a D' A' Γ (im p X μ)) := by
  unfold Full.block
  split
  · exact helped_inlined hD hA w none a h hμ
  · cases Γ.find ⟨0, .name w, []⟩ with
    | some v =>
        simp only
        cases (Custom.blockMissing : Option (Str → Value → CustomFn)) with
        | none => exact (hD Γ μ h hμ).within
        | some f =>
            simp only [handled]
            split
            · exact inlined_failed _
            · exact Inlined.after (x := a.eval (Γ.enter (.block blockMissingName)) μ.trim) fun v => custom_inlined hD hA _ none _ _ (h.enter _) hμ
    | none =>
        simp only
        cases (Custom.missing : Option (Str → CustomFn)) with
        | none =>
            simp only
            split
            · exact inlined_failed _
            · exact inlined_wrote _ hμ
        | some f => exact Inlined.after (x := (SExpr.sub ⟨0, .name w, []⟩ a).eval Γ μ.trim) fun _ => inlined_wrote _ hμ
end

/-- The library, and the same with `X` in the place of the calls of `p`; `n` more partials can be nested. -/
structure InlinedLib (p : Str) (X : STm) (names : List Str) (n : Nat) (L L' : Library) : Prop where
  get : ∀ x, L'.get x = (L.get x).map (STm.inline p X)
  here : L.get p = some X
  flat : ∀ x T, L.get x = some T → T.tildeless = true
  known : ∀ x, (x = c!"@partial-block" ∨ (L.get x).isSome = true) → x ∈ names
  render : ∀ T Γ μ m free, n = m + 1 → T.tildeless = true → (free = true ∨ T.core = true) → Place p names m free Γ → Quiet μ →
    Inlined p X (L.render T Γ μ) (L'.render (STm.inline p X T) Γ (im p X μ))
  /-- `X` itself, where `p` is called without arguments. -/
  there : ∀ Γ Δ μ m, n = m + 1 → Wider false Γ Δ → Room names m Δ → Quiet μ → Inlined p X (L.render X Δ μ) (tm L' X Γ false false false (im p X μ))

section
variable {names : List Str} {n : Nat} {L L' : Library} (hL : InlinedLib p X names n L L') (hpb : p ≠ c!"@partial-block")

include hX hL hpb

theorem included_inlined {content : Option STm} (hc : ∀ T, content = some T → T.tildeless = true) (w : Str) (a : SArgs) {Γ : Scene}
    (h : Place p names n true Γ) {μ : Mood} (hμ : Quiet μ) :
    Inlined p X (included L content w a Γ μ) (included L' (content.map (STm.inline p X)) w a Γ (im p X μ)) := by
  unfold included
  split
  · exact inlined_failed _
  rename_i hin
  have hcon : Γ.calls.contains (.part w) = false := by simpa using hin
  have hg : (im p X μ).given (content.map (STm.inline p X)) = im p X (μ.given content) := by cases content <;> rfl
  have hq : Quiet (μ.given content) := by
    cases content with
    | none => exact hμ
    | some T => exact ⟨hμ.1, hμ.2.1, fun U hU => by injection hU with hU; exact hU ▸ hc T rfl, hμ.2.2.2⟩
  rw [hg]
  revert hq
  generalize μ.given content = ν
  intro hq
  have hf : L'.find (im p X ν) w = (L.find ν w).map (STm.inline p X) := by
    unfold Library.find
    rw [hL.get]
    split
    · obtain ⟨a, b, c, d⟩ := ν
      cases c <;> rfl
    · rfl
  have hflat : ∀ T, L.find ν w = some T → T.tildeless = true ∧ w ∈ names ∧ (w = p → T = X) := by
    intro T hT
    unfold Library.find at hT
    by_cases hw : w = c!"@partial-block"
    · rw [if_pos hw] at hT
      refine ⟨?_, hL.known _ (.inl hw), fun e => absurd (e ▸ hw) hpb⟩
      cases hb : ν.block with
      | none => rw [hb] at hT; exact hL.flat _ T hT
      | some U =>
          rw [hb] at hT
          injection hT with hT
          exact hT ▸ hq.2.2.1 U hb
    · rw [if_neg hw] at hT
      exact ⟨hL.flat _ T hT, hL.known _ (.inr (by rw [hT]; rfl)), fun e => by rw [e, hL.here] at hT; injection hT with hT; exact hT.symm⟩
  rw [hf]
  cases hfe : L.find ν w with
  | none => exact inlined_failed _
  | some T =>
      obtain ⟨hT, hn, hTX⟩ := hflat T hfe
      simp only [Option.map_some]
      refine Inlined.after (x := (named a).eval (Γ.enter (.part w)) μ.trim) fun hs =>
        Inlined.after (x := positional a (Γ.enter (.part w)) μ.trim) fun vs => ?_
      cases n with
      | zero => rw [h.room.zero hn] at hcon; cases hcon
      | succ m =>
          by_cases hw : w = p
          · exact hL.render T _ ν m false rfl hT (.inr (hTX hw ▸ hX)) ⟨(h.room.part hn hcon).push _, fun e => by cases e⟩ hq
          · refine hL.render T _ ν m true rfl hT (.inl rfl) ⟨(h.room.part hn hcon).push _, fun _ => ?_⟩ hq
            have := h.free rfl
            simp only [Scene.push, Scene.enter, List.contains_cons, this, Bool.or_false, beq_eq_false_iff_ne, ne_eq, CallSite.part.injEq]
            exact fun e => hw e.symm

theorem partial_inlined {content : Option STm} (hc : ∀ T, content = some T → T.tildeless = true) (q : SPath) (a : SArgs) {Γ : Scene}
    (h : Place p names n true Γ) {μ : Mood} (hμ : Quiet μ) :
    Inlined p X (partialCall L content q a Γ μ) (partialCall L' (content.map (STm.inline p X)) q a Γ (im p X μ)) := by
  unfold partialCall
  split
  · exact inlined_failed _
  · exact included_inlined hX hL hpb hc _ a h hμ

/-- `{{> p}}` writes what `X` does in its place. -/
theorem call_inlined {a : SArgs} (ha : a.isBlank = true) {Γ : Scene} (h : Place p names n true Γ) {μ : Mood} (hμ : Quiet μ) :
    Inlined p X (partialCall L none ⟨0, .name p, []⟩ a Γ μ) (tm L' X Γ false false false (im p X μ)) := by
  have hs : (⟨0, .name p, []⟩ : SPath).shown = p := plain_shown rfl rfl
  have hcon := h.free rfl
  unfold partialCall
  rw [if_neg (by rintro ⟨_, e⟩; cases e), hs]
  unfold included
  rw [if_neg (by rw [hcon]; exact Bool.false_ne_true)]
  have hf : L.find (μ.given none) p = some X := by
    unfold Library.find
    rw [if_neg hpb]
    exact hL.here
  rw [hf]
  match a, ha with
  | .done (.tail ws), _ =>
      simp only [named, SHash.eval, positional]
      cases n with
      | zero => rw [h.room.zero (hL.known _ (.inr (by rw [hL.here]; rfl)))] at hcon; cases hcon
      | succ m =>
          refine hL.there Γ _ μ m rfl ⟨rfl, rfl, rfl, rfl, ⟨[], Γ.scopes, rfl, rfl, fun e => by cases e⟩, fun x hx => ?_⟩
            ((h.room.part (hL.known _ (.inr (by rw [hL.here]; rfl))) hcon).push _) hμ
          simp only [Scene.push, Scene.enter, List.count_cons]
          rw [if_neg (by simpa using (hx p).symm)]
          rfl
end

theorem prints_inlined (Γ : Scene) (raw : Bool) (x : Said (Option Value)) {μ : Mood} (hμ : Quiet μ) :
    Inlined p X (prints Γ raw x μ) (prints Γ raw x (im p X μ)) := by
  unfold prints
  exact Inlined.after (x := x) fun v => by cases v <;> exact inlined_wrote _ hμ

theorem stops_false (r : STm) (h : opens r = false) : stops r false = false := by simp [stops, h]

mutual
theorem tm_inlined (hX : X.core = true) {names : List Str} {n : Nat} {L L' : Library} (hL : InlinedLib p X names n L L') (hpb : p ≠ c!"@partial-block") {free : Bool} :
    ∀ (T : STm), T.tildeless = true → (free = true ∨ T.core = true) → ∀ (Γ : Scene) (μ : Mood), Place p names n free Γ → Quiet μ →
      Inlined p X (tm L T Γ false false false μ) (tm L' (STm.inline p X T) Γ false false false (im p X μ))
  | .nil, hT, hf, Γ, μ, h, hμ => by rw [STm.inline, tm, tm]; exact inlined_wrote _ hμ
  | .text w r, hT, hf, Γ, μ, h, hμ => by
      rw [STm.tildeless] at hT
      rw [STm.core] at hf
      rw [STm.inline, tm, tm, stops_false _ (opens_inline hX hT), stops_false _ (opens_tildeless hT)]
      exact (inlined_wrote _ hμ.next).andThen fun ν hν => tm_inlined hX hL hpb r hT hf Γ ν h hν
  | .comment w r, hT, hf, Γ, μ, h, hμ => by
      rw [STm.tildeless] at hT
      rw [STm.core] at hf
      rw [STm.inline, tm, tm, stops_false _ (opens_inline hX hT), stops_false _ (opens_tildeless hT)]
      exact (inlined_wrote _ hμ.next).andThen fun ν hν => tm_inlined hX hL hpb r hT hf Γ ν h hν
  | .longComment w r, hT, hf, Γ, μ, h, hμ => by
      rw [STm.tildeless] at hT
      rw [STm.core] at hf
      rw [STm.inline, tm, tm, stops_false _ (opens_inline hX hT), stops_false _ (opens_tildeless hT)]
      exact (inlined_wrote _ hμ.next).andThen fun ν hν => tm_inlined hX hL hpb r hT hf Γ ν h hν
  | .escaped w r, hT, hf, Γ, μ, h, hμ => by
      rw [STm.tildeless] at hT
      rw [STm.core] at hf
      rw [STm.inline, tm, tm, stops_false _ (opens_inline hX hT), stops_false _ (opens_tildeless hT)]
      exact (inlined_wrote _ hμ.next).andThen fun ν hν => tm_inlined hX hL hpb r hT hf Γ ν h hν
  | .link e h' l t r, hT, hf, Γ, μ, h, hμ => by
      rw [STm.tildeless] at hT
      rw [STm.core] at hf
      rw [STm.inline, tm, tm, stops_false _ (opens_inline hX hT), stops_false _ (opens_tildeless hT)]
      exact (link_inlined Γ e h' l t hμ.next).andThen fun ν hν => tm_inlined hX hL hpb r hT hf Γ ν h hν
  | .stmt raw part tl q a r, hT, hf, Γ, μ, h, hμ => by
      rw [STm.tildeless] at hT
      simp only [Bool.and_eq_true, plain_iff] at hT
      have hfr : free = true ∨ r.core = true := by
        rw [STm.core] at hf
        simp only [Bool.and_eq_true] at hf
        exact hf.imp_right (·.2)
      rw [STm.inline]
      by_cases hin : (part && q == ⟨0, .name p, []⟩ && a.isBlank) = true
      · rw [if_pos hin]
        simp only [Bool.and_eq_true, beq_iff_eq] at hin
        obtain ⟨⟨rfl, rfl⟩, ha⟩ := hin
        have hfree : free = true := by
          rcases hf with hf | hf
          · exact hf
          · rw [STm.core] at hf; simp at hf
        subst hfree
        rw [tm_append L' (opens_inline hX hT.2) X (calm_core hX), tm, stops_false _ (opens_tildeless hT.2), hT.1.2, hμ.next_eq]
        simp only [if_true]
        exact (call_inlined hX hL hpb ha h hμ).andThen fun ν hν => tm_inlined hX hL hpb r hT.2 hfr Γ ν h hν
      · rw [if_neg hin, tm, tm, stops_false _ (opens_inline hX hT.2), stops_false _ (opens_tildeless hT.2), hT.1.2]
        refine Inlined.andThen ?_ fun ν hν => tm_inlined hX hL hpb r hT.2 hfr Γ ν h hν
        cases part with
        | true =>
            have hfree : free = true := by
              rcases hf with hf | hf
              · exact hf
              · rw [STm.core] at hf; simp at hf
            subst hfree
            simp only [if_true]
            exact partial_inlined hX hL hpb (content := none) (fun _ e => by cases e) q a h hμ.next
        | false =>
            simp only [Bool.false_eq_true, if_false]
            exact prints_inlined Γ raw _ hμ.next
  | .dyn raw part tl q b a r, hT, hf, Γ, μ, h, hμ => by
      rw [STm.tildeless] at hT
      simp only [Bool.and_eq_true, plain_iff] at hT
      have hfr : free = true ∨ r.core = true := by
        rw [STm.core] at hf
        simp only [Bool.and_eq_true] at hf
        exact hf.imp_right (·.2)
      rw [STm.inline, tm, tm, stops_false _ (opens_inline hX hT.2), stops_false _ (opens_tildeless hT.2), hT.1.2]
      refine Inlined.andThen ?_ fun ν hν => tm_inlined hX hL hpb r hT.2 hfr Γ ν h hν
      cases part with
      | true =>
          have hfree : free = true := by
            rcases hf with hf | hf
            · exact hf
            · rw [STm.core] at hf; simp at hf
          subst hfree
          simp only [if_true]
          unfold computedCall
          exact Inlined.after (x := (SExpr.sub q b).eval Γ _) fun v => included_inlined hX hL hpb (content := none) (fun _ e => by cases e) _ a h hμ.next
      | false =>
          simp only [Bool.false_eq_true, if_false]
          exact prints_inlined Γ raw _ hμ.next
  | .rawBlock tl w a x cl r, hT, hf, Γ, μ, h, hμ => by
      rw [STm.tildeless] at hT
      simp only [Bool.and_eq_true, plain_iff] at hT
      have hfr : free = true ∨ r.core = true := by
        rw [STm.core] at hf
        simp only [Bool.and_eq_true] at hf
        exact hf.imp_right (·.2)
      rw [STm.inline, tm, tm, stops_false _ (opens_inline hX hT.2), stops_false _ (opens_tildeless hT.2), hT.1.1.2, hT.1.2.2, hT.1.2.1]
      refine Inlined.andThen ?_ fun ν hν => tm_inlined hX hL hpb r hT.2 hfr Γ ν h hν
      split
      · exact helped_inlined (D := fun _ μ => wrote (cut (μ.hint || false || μ.close) false x) ⟨false, false, μ.block, ⟨μ.hint || false || μ.close, false⟩⟩)
          (D' := fun _ μ => wrote (cut (μ.hint || false || μ.close) false x) ⟨false, false, μ.block, ⟨μ.hint || false || μ.close, false⟩⟩)
          (A := fun _ μ => wrote [] μ) (A' := fun _ μ => wrote [] μ) (fun _ ν _ hν => inlined_wrote _ (μ := ⟨false, false, ν.block, ⟨ν.hint || false || ν.close, false⟩⟩) ⟨rfl, rfl, hν.2.2.1, by rw [hν.1, hν.2.1]; rfl⟩)
          (fun _ ν _ hν => inlined_wrote _ hν) w _ a h
          (μ := { μ.next false ⟨false || μ.close, false⟩ with close := false }) ⟨rfl, rfl, hμ.2.2.1, by show Cut.mk (false || μ.close) false = _; rw [hμ.2.1]; rfl⟩
      · exact inlined_wrote _ (μ := { μ.next false ⟨false || μ.close, false⟩ with close := false }) ⟨rfl, rfl, hμ.2.2.1, by show Cut.mk (false || μ.close) false = _; rw [hμ.2.1]; rfl⟩
  | .block part tl w a body cs cl r, hT, hf, Γ, μ, h, hμ => by
      rw [STm.tildeless] at hT
      simp only [Bool.and_eq_true, plain_iff] at hT
      obtain ⟨⟨⟨⟨⟨_, h2⟩, h3, h4⟩, hb⟩, hcs⟩, hr⟩ := hT
      rw [STm.core] at hf
      simp only [Bool.and_eq_true] at hf
      have hfr : free = true ∨ r.core = true := hf.imp_right (·.2)
      have hfb : free = true ∨ body.core = true := hf.imp_right (·.1.1.2)
      have hfc : free = true ∨ cs.core = true := hf.imp_right (·.1.2)
      rw [STm.inline, tm, tm, stops_false _ (opens_inline hX hr), stops_false _ (opens_tildeless hr), h2, h3, h4]
      refine Inlined.andThen ?_ fun ν hν => tm_inlined hX hL hpb r hr hfr Γ ν h hν
      cases part with
      | true =>
          have hfree : free = true := by
            rcases hf with hf | hf
            · exact hf
            · simp at hf
          subst hfree
          simp only [if_true]
          exact partial_inlined hX hL hpb (content := some body) (fun T e => by injection e with e; exact e ▸ hb) _ a h hμ.next
      | false =>
          simp only [Bool.false_eq_true, if_false]
          refine block_inlined (D := fun Δ μ => (tm L body Δ false false (μ.hint || false) μ).andThen fun μ => wrote [] { μ with close := !isNil body && false })
            (A := fun Δ μ => clauses L cs cl Δ (fun μ => wrote [] μ) μ)
            (D' := fun Δ μ => (tm L' (STm.inline p X body) Δ false false (μ.hint || false) μ).andThen fun μ => wrote [] { μ with close := !isNil (STm.inline p X body) && false })
            (A' := fun Δ μ => clauses L' (SCls.inline p X cs) cl Δ (fun μ => wrote [] μ) μ) (fun Δ ν hpl hν => ?_) (fun Δ ν hpl hν => ?_) w a h hμ.next
          · have hh : (ν.hint || false) = false := by rw [hν.1]; rfl
            have hh' : ((im p X ν).hint || false) = false := hh
            simp only [hh, hh']
            refine (tm_inlined hX hL hpb body hb hfb Δ ν hpl hν).andThen fun κ hκ => ?_
            simp only [Bool.and_false]
            exact inlined_wrote _ (μ := { κ with close := false }) ⟨hκ.1, rfl, hκ.2.2.1, hκ.2.2.2⟩
          · exact cls_inlined hX hL hpb cs hcs hfc cl ⟨h3, h4⟩ Δ hpl _ _ (fun κ hκ => inlined_wrote _ hκ) ν hν
theorem cls_inlined (hX : X.core = true) {names : List Str} {n : Nat} {L L' : Library} (hL : InlinedLib p X names n L L') (hpb : p ≠ c!"@partial-block") {free : Bool} :
    ∀ (cs : SCls), cs.tildeless = true → (free = true ∨ cs.core = true) → ∀ (cl : Tilde), cl.before = false ∧ cl.after = false → ∀ (Γ : Scene), Place p names n free Γ →
      ∀ (f g : Mood → Outcome), (∀ μ, Quiet μ → Inlined p X (f μ) (g (im p X μ))) → ∀ μ, Quiet μ →
        Inlined p X (clauses L cs cl Γ f μ) (clauses L' (SCls.inline p X cs) cl Γ g (im p X μ))
  | .nil, hT, hf, cl, hcl, Γ, h, f, g, hfg, μ, hμ => by rw [SCls.inline, clauses, clauses]; exact hfg μ hμ
  | .cons tl cond body r, hT, hf, cl, hcl, Γ, h, f, g, hfg, μ, hμ => by
      rw [SCls.tildeless] at hT
      simp only [Bool.and_eq_true, plain_iff] at hT
      rw [SCls.core] at hf
      simp only [Bool.and_eq_true] at hf
      have hfr : free = true ∨ r.core = true := hf.imp_right (·.2)
      have hfb : free = true ∨ body.core = true := hf.imp_right (·.1.2)
      have he : clauseEnd r cl = (false, false) := by
        cases r with
        | nil => simp [clauseEnd, hcl.1, hcl.2]
        | cons => rfl
      have he' : clauseEnd (SCls.inline p X r) cl = (false, false) := by
        cases r with
        | nil => simp [SCls.inline, clauseEnd, hcl.1, hcl.2]
        | cons => rfl
      have hbody : ∀ ν, Quiet ν → Inlined p X
          ((tm L body Γ tl.after (clauseEnd r cl).1 (ν.hint || tl.after) ν).andThen fun μ => wrote [] { μ with close := !isNil body && (clauseEnd r cl).2 })
          ((tm L' (STm.inline p X body) Γ tl.after (clauseEnd (SCls.inline p X r) cl).1 ((im p X ν).hint || tl.after) (im p X ν)).andThen fun μ =>
            wrote [] { μ with close := !isNil (STm.inline p X body) && (clauseEnd (SCls.inline p X r) cl).2 }) := by
        intro ν hν
        have hh : (ν.hint || false) = false := by rw [hν.1]; rfl
        have hh' : ((im p X ν).hint || false) = false := hh
        rw [he, he', hT.1.1.2]
        simp only [hh, hh', Bool.and_false]
        exact (tm_inlined hX hL hpb body hT.1.2 hfb Γ ν h hν).andThen fun κ hκ => inlined_wrote _ (μ := { κ with close := false }) ⟨hκ.1, rfl, hκ.2.2.1, hκ.2.2.2⟩
      rw [SCls.inline]
      match cond with
      | none =>
          rw [clauses, clauses]
          exact cls_inlined hX hL hpb r hT.2 hfr cl hcl Γ h _ _ hbody μ hμ
      | some (q, a) =>
          rw [clauses, clauses]
          refine Inlined.after (x := (SExpr.sub q a).eval Γ μ.trim) fun v => ?_
          split
          · exact hbody μ hμ
          · exact cls_inlined hX hL hpb r hT.2 hfr cl hcl Γ h f g hfg μ hμ
end

theorem depth_inlined (hX : X.core = true) (hport : X.portable false = true) (hpb : p ≠ c!"@partial-block") {names : List Str} {get get' : Str → Option STm}
    (h1 : ∀ x, get' x = (get x).map (STm.inline p X)) (h2 : get p = some X) (h3 : ∀ x T, get x = some T → T.tildeless = true)
    (h4 : ∀ x, (x = c!"@partial-block" ∨ (get x).isSome = true) → x ∈ names) :
    ∀ n d d', n ≤ d → n ≤ d' → InlinedLib p X names n (Full.depth get d) (Full.depth get' d')
  | 0, d, d', _, _ => by
      refine ⟨?_, ?_, ?_, ?_, fun T Γ μ m f h => (by cases h), fun Γ Δ μ m h => (by cases h)⟩
      · cases d <;> cases d' <;> exact h1
      · cases d <;> exact h2
      · cases d <;> exact h3
      · cases d <;> exact h4
  | n + 1, d + 1, d' + 1, hd, hd' => by
      have ih := depth_inlined hX hport hpb h1 h2 h3 h4 n d d' (Nat.le_of_succ_le_succ hd) (Nat.le_of_succ_le_succ hd')
      refine ⟨h1, h2, h3, h4, fun T Γ μ m f hm hT hf hpl hμ => ?_, fun Γ Δ μ m hm hw hro hμ => ?_⟩
      · injection hm with hm
        subst hm
        have := tm_inlined hX ih hpb T hT hf Γ μ hpl hμ
        show Inlined p X (tm (Full.depth get d) T Γ false false μ.hint μ) (tm (Full.depth get' d') (STm.inline p X T) Γ false false (im p X μ).hint (im p X μ))
        rw [show (im p X μ).hint = μ.hint from rfl, hμ.1]
        exact this
      · injection hm with hm
        subst hm
        show Inlined p X (tm (Full.depth get d) X Δ false false μ.hint μ) _
        rw [hμ.1]
        exact ⟨tm_wider X hX hport Γ Δ hw false false false μ,
          (tm_inlined (free := false) hX ih hpb X (h3 _ _ h2) (.inr hX) Δ μ ⟨hro, fun e => by cases e⟩ hμ).quiet⟩

end

end Bracket.Props.Inline
