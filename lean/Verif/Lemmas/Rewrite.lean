import Verif.Spec.Rewrite
import Verif.Lemmas.Comments

/-! Rewritten conditionals mean the same. -/

set_option linter.unusedSectionVars false

namespace Bracket.Props.Rewrite
open Bracket Spec Bracket.Props
open Bracket.Spec.Full hiding block blockHelper contents rounds builtinBlock depth
open Bracket.Props.Comments (plain_before plain_after)

/-! ### The same but for the limit -/

def Fault.core : Fault → Fault
  | .err e => .err (RenderErr.core e)
  | .panic => .panic

/-- It ended because the recursion limit of a helper was reached. -/
def Ends {α : Type} (o : Str × Except Fault α) : Prop := ∃ e, o.2 = .error (.err e) ∧ RenderErr.isLimit e

inductive Like {α β : Type} (R : α → β → Prop) : Str × Except Fault α → Str × Except Fault β → Prop
  | left {o o'} : Ends o → Like R o o'
  | right {o o'} : Ends o' → Like R o o'
  | ok (w : Str) {a b} : R a b → Like R (w, .ok a) (w, .ok b)
  | error (w : Str) {f g : Fault} : Fault.core f = Fault.core g → Like R (w, .error f) (w, .error g)

variable {α β γ δ : Type}

theorem Like.symm {R : α → β → Prop} {o o'} (h : Like R o o') : Like (fun b a => R a b) o' o := by
  cases h with
  | left h => exact .right h
  | right h => exact .left h
  | ok w h => exact .ok w h
  | error w h => exact .error w h.symm

theorem Like.refl {R : α → α → Prop} (hR : ∀ a, R a a) (o) : Like R o o := by
  obtain ⟨w, f | a⟩ := o
  · exact .error w rfl
  · exact .ok w (hR a)

theorem Like.imp {R S : α → β → Prop} (hR : ∀ a b, R a b → S a b) {o o'} (h : Like R o o') : Like S o o' := by
  cases h with
  | left h => exact .left h
  | right h => exact .right h
  | ok w h => exact .ok w (hR _ _ h)
  | error w h => exact .error w h

theorem ends_prepend {o : Str × Except Fault α} (h : Ends o) (w : Str) : Ends (w ++ o.1, o.2) := h

theorem Like.prepend {R : α → β → Prop} {o o'} (h : Like R o o') (w : Str) : Like R (w ++ o.1, o.2) (w ++ o'.1, o'.2) := by
  cases h with
  | left h => exact .left h
  | right h => exact .right h
  | ok u h => exact .ok _ h
  | error u h => exact .error _ h

theorem ends_bind {x : Said α} (h : Ends x) (f : α → Said β) : Ends (x.bind f) := by
  obtain ⟨e, he, hl⟩ := h
  obtain ⟨w, x⟩ := x
  subst he
  exact ⟨e, rfl, hl⟩

theorem Like.bind {R : α → β → Prop} {S : γ → δ → Prop} {x : Said α} {x' : Said β} (h : Like R x x') {f : α → Said γ} {f' : β → Said δ}
    (hf : ∀ a b, R a b → Like S (f a) (f' b)) : Like S (x.bind f) (x'.bind f') := by
  cases h with
  | left h => exact .left (ends_bind h f)
  | right h => exact .right (ends_bind h f')
  | ok w h => exact (hf _ _ h).prepend w
  | error w h => exact .error w h

/-- Only the left one goes on. -/
theorem Like.bindL {R : α → β → Prop} {S : γ → β → Prop} {x : Said α} {x' : Said β} (h : Like R x x') {f : α → Said γ}
    (hf : ∀ a b, R a b → Like S (f a) ([], .ok b)) : Like S (x.bind f) x' := by
  cases h with
  | left h => exact .left (ends_bind h f)
  | right h => exact .right h
  | ok w h =>
      have := (hf _ _ h).prepend w
      rw [List.append_nil] at this
      exact this
  | error w h => exact .error w h

theorem Like.after {R : α → β → Prop} {S : Mood → Mood → Prop} {x : Said α} {x' : Said β} (h : Like R x x') {f : α → Outcome} {f' : β → Outcome}
    (hf : ∀ a b, R a b → Like S (f a) (f' b)) : Like S (Outcome.after x f) (Outcome.after x' f') := Like.bind h hf
theorem Like.andThen {R S : Mood → Mood → Prop} {x x' : Outcome} (h : Like R x x') {f f' : Mood → Outcome}
    (hf : ∀ a b, R a b → Like S (f a) (f' b)) : Like S (x.andThen f) (x'.andThen f') := by
  cases h with
  | left h =>
      obtain ⟨e, he, hl⟩ := h
      obtain ⟨w, x⟩ := x
      simp only at he
      subst he
      exact .left ⟨e, rfl, hl⟩
  | right h =>
      obtain ⟨e, he, hl⟩ := h
      obtain ⟨w, x⟩ := x'
      simp only at he
      subst he
      exact .right ⟨e, rfl, hl⟩
  | ok w h => exact (hf _ _ h).prepend w
  | error w h => exact .error w h

theorem core_within (f : Fault) : Fault.core f.within = Fault.core f := by
  cases f <;> rfl
theorem ends_within {o : Outcome} (h : Ends o) : Ends o.within := by
  obtain ⟨w, x⟩ := o
  obtain ⟨e, he, hl⟩ := h
  simp only at he
  subst he
  exact ⟨_, rfl, hl⟩
theorem Like.within {R : Mood → Mood → Prop} {o o' : Outcome} (h : Like R o o') : Like R o.within o'.within := by
  cases h with
  | left h => exact .left (ends_within h)
  | right h => exact .right (ends_within h)
  | ok w h => exact .ok w h
  | error w h => exact .error w (by rw [core_within, core_within, h])
theorem Like.withinR {R : Mood → Mood → Prop} {o o' : Outcome} (h : Like R o o') : Like R o o'.within := by
  cases h with
  | left h => exact .left h
  | right h => exact .right (ends_within h)
  | ok w h => exact .ok w h
  | error w h => exact .error w (by rw [core_within, h])
theorem Like.withinL {R : Mood → Mood → Prop} {o o' : Outcome} (h : Like R o o') : Like R o.within o' := by
  cases h with
  | left h => exact .left (ends_within h)
  | right h => exact .right h
  | ok w h => exact .ok w h
  | error w h => exact .error w (by rw [core_within, h])

theorem ends_cycle (w : Str) : Ends (failed (.err (.helperCycle w))) := ⟨_, rfl, w, rfl⟩
theorem ends_fault (w : Str) : Ends (fault (.err (.helperCycle w)) : Said α) := ⟨_, rfl, w, rfl⟩

/-! ### Scenes -/

/-- The same scene, but for the helper calls in progress. -/
structure Near (Γ Γ' : Scene) : Prop where
  strict : Γ.strict = Γ'.strict
  escape : Γ.escape = Γ'.escape
  file : Γ.file = Γ'.file
  root : Γ.root = Γ'.root
  scopes : Γ.scopes = Γ'.scopes
  part : ∀ w, Γ.calls.contains (.part w) = Γ'.calls.contains (.part w)

theorem Near.rfl' (Γ : Scene) : Near Γ Γ := ⟨rfl, rfl, rfl, rfl, rfl, fun _ => rfl⟩
theorem Near.symm {Γ Γ' : Scene} (h : Near Γ Γ') : Near Γ' Γ := ⟨h.1.symm, h.2.symm, h.3.symm, h.4.symm, h.5.symm, fun w => (h.6 w).symm⟩
theorem Near.enter {Γ Γ' : Scene} (h : Near Γ Γ') (x : CallSite) : Near (Γ.enter x) (Γ'.enter x) :=
  ⟨h.1, h.2, h.3, h.4, h.5, fun w => by
    show List.contains (x :: Γ.calls) _ = List.contains (x :: Γ'.calls) _
    rw [List.contains_cons, List.contains_cons, h.6 w]⟩
theorem Near.enterL {Γ Γ' : Scene} (h : Near Γ Γ') {x : CallSite} (hx : ∀ w, x ≠ .part w) : Near (Γ.enter x) Γ' :=
  ⟨h.1, h.2, h.3, h.4, h.5, fun w => by
    show List.contains (x :: Γ.calls) _ = _
    rw [List.contains_cons, beq_eq_false_iff_ne.mpr (fun e => hx w e.symm), Bool.false_or, h.6 w]⟩
theorem Near.enterR {Γ Γ' : Scene} (h : Near Γ Γ') {x : CallSite} (hx : ∀ w, x ≠ .part w) : Near Γ (Γ'.enter x) := (h.symm.enterL hx).symm
theorem Near.push {Γ Γ' : Scene} (h : Near Γ Γ') (sc : Scope) : Near (Γ.push sc) (Γ'.push sc) :=
  ⟨h.1, h.2, h.3, h.4, congrArg (sc :: ·) h.5, h.6⟩

theorem Near.find {Γ Γ' : Scene} (h : Near Γ Γ') (p : SPath) : Γ.find p = Γ'.find p := by
  unfold Scene.find; rw [h.root, h.scopes]
theorem Near.print {Γ Γ' : Scene} (h : Near Γ Γ') (k : Cut) (x : Print) : Γ.print k x = Γ'.print k x := by
  unfold Scene.print; rw [h.escape]
theorem Near.absent {Γ Γ' : Scene} (h : Near Γ Γ') (p : SPath) : Γ.absent p = Γ'.absent p := by
  unfold Scene.absent; rw [h.strict, h.file]
theorem Near.said {Γ Γ' : Scene} (h : Near Γ Γ') (k : Cut) (f : CustomFn) (vs : List Value) (hs : List (Str × Value)) :
    f.said Γ k vs hs = f.said Γ' k vs hs := by
  unfold CustomFn.said Scene.printAll
  rw [show Γ.print k = Γ'.print k from funext (h.print k)]

section
variable [H : Host] [C : Custom]

theorem Near.value {Γ Γ' : Scene} (h : Near Γ Γ') (k : Cut) (w : Str) (vs : List Value) (hs : List (Str × Value)) :
    helperValue w Γ k vs hs = helperValue w Γ' k vs hs := by
  unfold helperValue
  cases Custom.fn w with
  | none => rfl
  | some f => exact h.said k f vs hs

mutual
theorem like_expr : ∀ (x : SExpr) {Γ Γ' : Scene} (k : Cut), Near Γ Γ' → Like Eq (x.eval Γ k) (x.eval Γ' k)
  | .path p, Γ, Γ', k, h => by rw [SExpr.eval, SExpr.eval, h.find]; exact Like.refl (fun _ => rfl) _
  | .lit l, Γ, Γ', k, h => by rw [SExpr.eval, SExpr.eval]; exact Like.refl (fun _ => rfl) _
  | .sub p a, Γ, Γ', k, h => by
      rw [SExpr.eval, SExpr.eval]
      cases p.helper with
      | none =>
          simp only
          rw [h.find]
          cases Γ'.find p with
          | some v => exact Like.refl (fun _ => rfl) _
          | none =>
              cases p.handler with
              | none => simp only; rw [h.absent]; exact Like.refl (fun _ => rfl) _
              | some f =>
                  simp only
                  split
                  · exact .left (ends_fault _)
                  split
                  · exact .right (ends_fault _)
                  refine (like_args a k (h.enter _)).bind fun x y e => ?_
                  subst e
                  rw [h.said]
                  exact Like.refl (fun _ => rfl) _
      | some w =>
          simp only
          split
          · exact .left (ends_fault _)
          split
          · exact .right (ends_fault _)
          refine (like_args a k (h.enter _)).bind fun x y e => ?_
          subst e
          rw [h.value]
          exact Like.refl (fun _ => rfl) _
theorem like_args : ∀ (a : SArgs) {Γ Γ' : Scene} (k : Cut), Near Γ Γ' → Like Eq (a.eval Γ k) (a.eval Γ' k)
  | .done hs, Γ, Γ', k, h => by
      rw [SArgs.eval, SArgs.eval]
      exact (like_hash hs k h).bind fun x y e => by subst e; exact Like.refl (fun _ => rfl) _
  | .argW w x r, Γ, Γ', k, h => by
      rw [SArgs.eval, SArgs.eval]
      exact (like_expr x k h).bind fun x y e => by
        subst e
        exact (like_args r k h).bind fun x y e => by subst e; exact Like.refl (fun _ => rfl) _
theorem like_hash : ∀ (a : SHash) {Γ Γ' : Scene} (k : Cut), Near Γ Γ' → Like Eq (a.eval Γ k) (a.eval Γ' k)
  | .tail w, Γ, Γ', k, h => by rw [SHash.eval, SHash.eval]; exact Like.refl (fun _ => rfl) _
  | .pairW w n x r, Γ, Γ', k, h => by
      rw [SHash.eval, SHash.eval]
      exact (like_expr x k h).bind fun x y e => by
        subst e
        exact (like_hash r k h).bind fun x y e => by subst e; exact Like.refl (fun _ => rfl) _
end

theorem like_positional : ∀ (a : SArgs) {Γ Γ' : Scene} (k : Cut), Near Γ Γ' → Like Eq (positional a Γ k) (positional a Γ' k)
  | .done hs, Γ, Γ', k, h => by rw [positional, positional]; exact Like.refl (fun _ => rfl) _
  | .argW w x r, Γ, Γ', k, h => by
      rw [positional, positional]
      exact (like_expr x k h).bind fun x y e => by
        subst e
        exact (like_positional r k h).bind fun x y e => by subst e; exact Like.refl (fun _ => rfl) _

/-! ### Moods -/

/-- Nothing is trimmed. -/
structure Idle (μ : Mood) : Prop where
  hint : μ.hint = false
  close : μ.close = false
  trim : μ.trim = .none

structure Moods (μ μ' : Mood) : Prop where
  left : Idle μ
  right : Idle μ'
  block : Option.Rel Recast μ.block μ'.block

theorem rel_symm : ∀ {a b : Option STm}, Option.Rel Recast a b → Option.Rel Recast b a
  | _, _, .none => .none
  | _, _, .some h => .some h.symm

theorem Moods.symm {μ μ' : Mood} (h : Moods μ μ') : Moods μ' μ := ⟨h.right, h.left, rel_symm h.block⟩
theorem Moods.trim {μ μ' : Mood} (h : Moods μ μ') : μ'.trim = μ.trim := by rw [h.left.trim, h.right.trim]

theorem Alike.symm {o o' : Outcome} (h : Like Moods o o') : Like Moods o' o := (Like.symm h).imp fun _ _ h => h.symm

theorem next_idle {μ : Mood} (h : Idle μ) : μ.next false ⟨false || μ.close, false⟩ = μ := by
  obtain ⟨a, b, d, e⟩ := μ
  obtain ⟨h1, h2, h3⟩ := h
  simp only at h1 h2 h3
  subst h1 h2 h3
  rfl

theorem like_wrote (w : Str) {μ μ' : Mood} (h : Moods μ μ') : Like Moods (wrote w μ) (wrote w μ') := .ok w h
theorem like_failed (f : Fault) : Like Moods (failed f) (failed f) := .error [] rfl

def Bodies (D D' : Scene → Mood → Outcome) : Prop := ∀ {Γ Γ' μ μ'}, Near Γ Γ' → Moods μ μ' → Like Moods (D Γ μ) (D' Γ' μ')

theorem Bodies.symm {D D' : Scene → Mood → Outcome} (h : Bodies D D') : Bodies D' D := fun hn hm => Alike.symm (h hn.symm hm.symm)

variable {D D' A A' : Scene → Mood → Outcome}

theorem like_rounds (hD : Bodies D D') {Γ Γ' : Scene} (h : Near Γ Γ') : ∀ rs {μ μ'}, Moods μ μ' → Like Moods (Full.rounds D Γ rs μ) (Full.rounds D' Γ' rs μ')
  | [], _, _, hm => like_wrote _ hm
  | r :: rs, _, _, hm => (hD (h.push _) hm).within.andThen fun _ _ hm => like_rounds hD h rs hm

theorem like_contents (hD : Bodies D D') {Γ Γ' : Scene} (h : Near Γ Γ') (e : Option HelperErr) :
    ∀ l {μ μ'}, Moods μ μ' → Like Moods (Full.contents D Γ e l μ) (Full.contents D' Γ' e l μ')
  | [], μ, μ', hm => by
      cases e with
      | none => exact like_wrote _ hm
      | some e => exact like_failed _
  | .print x :: l, μ, μ', hm => by
      rw [Full.contents, Full.contents, h.print, hm.trim]
      exact (like_wrote _ hm).andThen fun _ _ hm => like_contents hD h e l hm
  | .content none :: l, _, _, hm => (hD h hm).within.andThen fun _ _ hm => like_contents hD h e l hm
  | .content (some sc) :: l, _, _, hm => (hD (h.push _) hm).within.andThen fun _ _ hm => like_contents hD h e l hm

theorem like_builtin (hD : Bodies D D') (hA : Bodies A A') (w : Str) (vs : List Value) (hs : List (Str × Value)) {Γ Γ' : Scene} (h : Near Γ Γ') {μ μ' : Mood}
    (hm : Moods μ μ') : Like Moods (Full.builtinBlock w vs hs D A Γ μ) (Full.builtinBlock w vs hs D' A' Γ' μ') := by
  have val : Like Moods (match builtinValue w vs hs with
      | .error f => failed f
      | .ok _ => wrote [] μ) (match builtinValue w vs hs with
      | .error f => failed f
      | .ok _ => wrote [] μ') := by
    cases builtinValue w vs hs with
    | error f => exact like_failed f
    | ok _ => exact like_wrote _ hm
  unfold Full.builtinBlock
  match vs, val with
  | [v], val =>
      simp only
      split
      · split
        · exact (hD h hm).within
        · exact (hA h hm).within
      split
      · split
        · exact (hA h hm).within
        · exact (hD h hm).within
      split
      · cases v with
        | arr l => exact like_rounds hD h _ hm
        | obj l => exact like_rounds hD h _ hm
        | _ => exact like_wrote _ hm
      split
      · cases v with
        | null => exact like_wrote _ hm
        | _ => exact (hD (h.push _) hm).within
      · exact val
  | [], val => exact val
  | _ :: _ :: _, val => exact val

theorem like_custom (hD : Bodies D D') (hA : Bodies A A') (f : CustomFn) (t : Option Str) (vs : List Value) (hs : List (Str × Value)) {Γ Γ' : Scene} (h : Near Γ Γ')
    {μ μ' : Mood} (hm : Moods μ μ') : Like Moods (customBlock f t vs hs D A Γ μ) (customBlock f t vs hs D' A' Γ' μ') := by
  unfold customBlock
  cases f.block t vs (fun k => hs.lookup k) with
  | contents l e => exact like_contents hD h e l hm
  | otherwise => exact (hA h hm).within

theorem like_helped (hD : Bodies D D') (hA : Bodies A A') (w : Str) (t : Option Str) (a : SArgs) {Γ Γ' : Scene} (h : Near Γ Γ') {μ μ' : Mood} (hm : Moods μ μ') :
    Like Moods (helped w t a D A Γ μ) (helped w t a D' A' Γ' μ') := by
  unfold helped
  split
  · exact .left (ends_cycle _)
  split
  · exact .right (ends_cycle _)
  rw [hm.trim]
  refine (like_args a _ (h.enter _)).after fun x y e => ?_
  subst e
  unfold Full.blockHelper
  cases Custom.fn w with
  | none => exact like_builtin hD hA w _ _ (h.enter _) hm
  | some f => exact like_custom hD hA f t _ _ (h.enter _) hm

theorem like_block (hD : Bodies D D') (hA : Bodies A A') (w : Str) (a : SArgs) {Γ Γ' : Scene} (h : Near Γ Γ') {μ μ' : Mood} (hm : Moods μ μ') :
    Like Moods (Full.block w a D A Γ μ) (Full.block w a D' A' Γ' μ') := by
  unfold Full.block
  split
  · exact like_helped hD hA w none a h hm
  · rw [h.find]
    cases Γ'.find ⟨0, .name w, []⟩ with
    | some v =>
        simp only
        cases (Custom.blockMissing : Option (Str → Value → CustomFn)) with
        | none => exact (hD h hm).within
        | some f =>
            simp only [handled]
            split
            · exact .left (ends_cycle _)
            split
            · exact .right (ends_cycle _)
            rw [hm.trim]
            refine (like_args a _ (h.enter _)).after fun x y e => ?_
            subst e
            exact like_custom hD hA _ none _ _ (h.enter _) hm
    | none =>
        simp only
        cases (Custom.missing : Option (Str → CustomFn)) with
        | none =>
            simp only
            rw [h.strict]
            split
            · exact like_failed _
            · exact like_wrote _ hm
        | some f =>
            simp only
            rw [hm.trim]
            exact (like_expr _ _ h).after fun _ _ _ => like_wrote _ hm

theorem like_link {Γ Γ' : Scene} (h : Near Γ Γ') (e : Bool) (hr : Str) (l t : Option Str) {μ μ' : Mood} (hm : Moods μ μ') :
    Like Moods (Full.link Γ e hr l t μ) (Full.link Γ' e hr l t μ') := by
  unfold Full.link
  cases (if e then none else (Custom.link : Option CustomFn)) with
  | none => simp only; rw [hm.trim]; exact like_wrote _ hm
  | some f =>
      simp only
      split
      · exact .left (ends_cycle _)
      split
      · exact .right (ends_cycle _)
      rw [h.said, hm.trim]
      exact (Like.refl (R := Eq) (fun _ => rfl) (f.said Γ' μ.trim (linkValues hr l t) [])).after fun _ _ _ => like_wrote _ hm

theorem like_prints {Γ Γ' : Scene} (h : Near Γ Γ') (raw : Bool) {x x' : Said (Option Value)} (hx : Like Eq x x') {μ μ' : Mood} (hm : Moods μ μ') :
    Like Moods (prints Γ raw x μ) (prints Γ' raw x' μ') := by
  unfold prints
  refine hx.after fun v v' e => ?_
  subst e
  cases v with
  | none => exact like_wrote _ hm
  | some v => simp only; rw [h.print, hm.trim]; exact like_wrote _ hm

structure Libs (L L' : Library) : Prop where
  get : ∀ x, Option.Rel Recast (L.get x) (L'.get x)
  render : ∀ {T T'}, Recast T T' → Bodies (L.render T) (L'.render T')

theorem Libs.symm {L L' : Library} (h : Libs L L') : Libs L' L := ⟨fun x => rel_symm (h.get x), fun hT => by intro Γ Γ' μ μ' hn hm; exact Alike.symm (h.render hT.symm hn.symm hm.symm)⟩

theorem like_included {L L' : Library} (hL : Libs L L') {c c' : Option STm} (hc : Option.Rel Recast c c') (w : Str) (a : SArgs) {Γ Γ' : Scene} (h : Near Γ Γ')
    {μ μ' : Mood} (hm : Moods μ μ') : Like Moods (included L c w a Γ μ) (included L' c' w a Γ' μ') := by
  unfold included
  rw [h.part]
  split
  · exact like_failed _
  have hg : Moods (μ.given c) (μ'.given c') := by
    cases hc with
    | none => exact hm
    | some hT => exact ⟨⟨hm.left.1, hm.left.2, hm.left.3⟩, ⟨hm.right.1, hm.right.2, hm.right.3⟩, .some hT⟩
  have hf : Option.Rel Recast (L.find (μ.given c) w) (L'.find (μ'.given c') w) := by
    unfold Library.find
    split
    · have := hg.block
      revert this
      generalize (μ.given c).block = x
      generalize (μ'.given c').block = y
      intro hxy
      cases hxy with
      | none => exact hL.get _
      | some hT => exact .some hT
    · exact hL.get _
  revert hf
  generalize L.find (μ.given c) w = x
  generalize L'.find (μ'.given c') w = y
  intro hf
  cases hf with
  | none => exact like_failed _
  | some hT =>
      simp only
      rw [hm.trim]
      refine (like_hash _ _ (h.enter _)).after fun x y e => ?_
      subst e
      refine (like_positional _ _ (h.enter _)).after fun x y e => ?_
      subst e
      exact hL.render hT ((h.enter _).push _) hg

theorem like_partial {L L' : Library} (hL : Libs L L') {c c' : Option STm} (hc : Option.Rel Recast c c') (p : SPath) (a : SArgs) {Γ Γ' : Scene} (h : Near Γ Γ')
    {μ μ' : Mood} (hm : Moods μ μ') : Like Moods (partialCall L c p a Γ μ) (partialCall L' c' p a Γ' μ') := by
  unfold partialCall
  split
  · exact like_failed _
  · exact like_included hL hc _ a h hm

/-! ### Pieces without `~` -/

/-- The content of a block. -/
def body (L : Library) (b : STm) (Δ : Scene) (μ : Mood) : Outcome :=
  (tm L b Δ false false μ.hint μ).andThen fun ν => wrote [] { ν with close := false }
/-- What the `else` clauses come to. -/
def others (L : Library) (cs : SCls) (cl : Tilde) (Δ : Scene) (μ : Mood) : Outcome := clauses L cs cl Δ (fun μ => wrote [] μ) μ
/-- A template. -/
def run (L : Library) (T : STm) (Γ : Scene) (μ : Mood) : Outcome := tm L T Γ false false false μ

theorem like_body {L L' : Library} {b b' : STm} (h : Bodies (run L b) (run L' b')) : Bodies (body L b) (body L' b') := by
  intro Γ Γ' μ μ' hn hm
  unfold body
  rw [hm.left.hint, hm.right.hint]
  refine (h hn hm).andThen fun ν ν' hν => like_wrote [] ⟨⟨hν.left.1, rfl, hν.left.3⟩, ⟨hν.right.1, rfl, hν.right.3⟩, hν.block⟩

theorem clauseEnd_plain {cs : SCls} {cl : Tilde} (h : cl.plain = true) : clauseEnd cs cl = (false, false) := by
  cases cs
  · show (cl.before, cl.after) = _
    rw [plain_before h, plain_after h]
  · rfl

theorem block_run (L : Library) {part : Bool} {tl cl : Tilde} (name : Str) (a : SArgs) (b : STm) (cs : SCls) {r : STm} (h1 : tl.plain = true) (h2 : cl.plain = true)
    (hr : opens r = false) (Γ : Scene) {μ : Mood} (hm : Idle μ) :
    run L (.block part tl name a b cs cl r) Γ μ =
      (if part then partialCall L (some b) ⟨0, .name name, []⟩ a Γ μ else Full.block name a (body L b) (others L cs cl) Γ μ).andThen (run L r Γ) := by
  unfold run body others
  rw [tm, show stops r false = false by unfold stops; rw [hr, Bool.and_false]; rfl, plain_after h1, plain_after h2, plain_before h2, next_idle hm]
  simp only [Bool.or_false, Bool.and_false]

theorem plain_run (L : Library) (tl : Tilde) (b : STm) (r : SCls) {cl : Tilde} (h1 : tl.plain = true) (h2 : cl.plain = true) (Γ : Scene) (f : Mood → Outcome) (μ : Mood) :
    clauses L (.cons tl none b r) cl Γ f μ = clauses L r cl Γ (body L b Γ) μ := by
  unfold body
  rw [clauses, clauseEnd_plain h2, plain_after h1]
  simp only [Bool.or_false, Bool.and_false]

theorem cond_run (L : Library) (tl : Tilde) (p : SPath) (a : SArgs) (b : STm) (r : SCls) {cl : Tilde} (h1 : tl.plain = true) (h2 : cl.plain = true) (Γ : Scene)
    (f : Mood → Outcome) (μ : Mood) :
    clauses L (.cons tl (some (p, a)) b r) cl Γ f μ =
      .after ((SExpr.sub p a).eval Γ μ.trim) fun v => if isTruthy (v.getD .null) then body L b Γ μ else clauses L r cl Γ f μ := by
  unfold body
  rw [clauses, clauseEnd_plain h2, plain_after h1]
  simp only [Bool.or_false, Bool.and_false]

/-! ### Conditions -/

theorem after_bind {α β : Type} (x : Said α) (f : α → Said β) (g : β → Outcome) : Outcome.after (x.bind f) g = Outcome.after x fun a => Outcome.after (f a) g := by
  obtain ⟨w, e | a⟩ := x
  · rfl
  · show Outcome.after (w ++ (f a).1, (f a).2) g = (w ++ (Outcome.after (f a) g).1, (Outcome.after (f a) g).2)
    generalize f a = y
    obtain ⟨u, e | b⟩ := y
    · rfl
    · show ((w ++ u) ++ _, _) = (w ++ (u ++ _), _)
      rw [List.append_assoc]
      rfl
theorem after_said {α : Type} (a : α) (g : α → Outcome) : Outcome.after (said a) g = g a := rfl
theorem bind_said {α β : Type} (a : α) (g : α → Said β) : (said a).bind g = g a := rfl
theorem bind_bind {α β γ : Type} (x : Said α) (f : α → Said β) (g : β → Said γ) : (x.bind f).bind g = x.bind fun a => (f a).bind g := by
  obtain ⟨w, e | a⟩ := x
  · rfl
  · show Said.bind (w ++ (f a).1, (f a).2) g = (w ++ ((f a).bind g).1, ((f a).bind g).2)
    generalize f a = y
    obtain ⟨u, e | b⟩ := y
    · rfl
    · show ((w ++ u) ++ _, _) = (w ++ (u ++ _), _)
      rw [List.append_assoc]
      rfl

theorem only_eval (s t : Str) (x : SExpr) (Γ : Scene) (k : Cut) : (SArgs.only s t x).eval Γ k = (x.eval Γ k).bind fun v => said ([v.getD .null], []) := by
  unfold SArgs.only
  rw [SArgs.eval, SArgs.eval, SHash.eval]
  rfl
theorem two_eval (s s' t : Str) (x y : SExpr) (Γ : Scene) (k : Cut) :
    (SArgs.two s s' t x y).eval Γ k = (x.eval Γ k).bind fun v => (y.eval Γ k).bind fun u => said ([v.getD .null, u.getD .null], []) := by
  unfold SArgs.two
  rw [SArgs.eval, SArgs.eval, SArgs.eval, SHash.eval]
  simp only [bind_said, bind_bind]

theorem if_block (hC : Conditionals) (s t : Str) (x : SExpr) (Γ : Scene) (μ : Mood) :
    Full.block c!"if" (.only s t x) D A Γ μ = if Γ.full (.block c!"if") then failed (.err (.helperCycle c!"if")) else
      .after (x.eval (Γ.enter (.block c!"if")) μ.trim) fun v =>
        (if isTruthy (v.getD .null) then D (Γ.enter (.block c!"if")) μ else A (Γ.enter (.block c!"if")) μ).within := by
  unfold Full.block
  rw [if_pos (by simp [isHelper, helperNames])]
  unfold helped
  rw [only_eval, after_bind]
  simp only [after_said]
  unfold Full.blockHelper
  rw [hC.ifs]
  rfl

theorem unless_block (hC : Conditionals) (s t : Str) (x : SExpr) (Γ : Scene) (μ : Mood) :
    Full.block c!"unless" (.only s t x) D A Γ μ = if Γ.full (.block c!"unless") then failed (.err (.helperCycle c!"unless")) else
      .after (x.eval (Γ.enter (.block c!"unless")) μ.trim) fun v =>
        (if isTruthy (v.getD .null) then A (Γ.enter (.block c!"unless")) μ else D (Γ.enter (.block c!"unless")) μ).within := by
  unfold Full.block
  rw [if_pos (by simp [isHelper, helperNames])]
  unfold helped
  rw [only_eval, after_bind]
  simp only [after_said]
  unfold Full.blockHelper
  rw [hC.unlesses]
  rfl

theorem word_helper {w : Str} (h : helperNames.contains w = true) : (SPath.word w).helper = some w := by
  unfold SPath.word SPath.helper isHelper
  simp only
  rw [h, Bool.or_true, if_pos rfl]

theorem if_value (hC : Conditionals) (s t : Str) (x : SExpr) (Γ : Scene) (k : Cut) :
    (SExpr.sub (.word c!"if") (.only s t x)).eval Γ k = if Γ.full (.helper c!"if") then fault (.err (.helperCycle c!"if")) else
      (x.eval (Γ.enter (.helper c!"if")) k).bind fun v => said (some (.bool (isTruthy (v.getD .null)))) := by
  rw [SExpr.eval, word_helper (by decide)]
  simp only
  rw [only_eval, bind_bind]
  simp only [bind_said]
  unfold helperValue
  rw [hC.ifs]
  rfl
theorem unless_value (hC : Conditionals) (s t : Str) (x : SExpr) (Γ : Scene) (k : Cut) :
    (SExpr.sub (.word c!"unless") (.only s t x)).eval Γ k = if Γ.full (.helper c!"unless") then fault (.err (.helperCycle c!"unless")) else
      (x.eval (Γ.enter (.helper c!"unless")) k).bind fun _ => said none := by
  rw [SExpr.eval, word_helper (by decide)]
  simp only
  rw [only_eval, bind_bind]
  simp only [bind_said]
  unfold helperValue
  rw [hC.unlesses]
  rfl
theorem not_value (hC : Conditionals) (s t : Str) (x : SExpr) (Γ : Scene) (k : Cut) :
    (SExpr.sub (.word c!"not") (.only s t x)).eval Γ k = if Γ.full (.helper c!"not") then fault (.err (.helperCycle c!"not")) else
      (x.eval (Γ.enter (.helper c!"not")) k).bind fun v => said (some (.bool (!isTruthy (v.getD .null)))) := by
  rw [SExpr.eval, word_helper (by decide)]
  simp only
  rw [only_eval, bind_bind]
  simp only [bind_said]
  unfold helperValue
  rw [hC.nots]
  rfl
theorem and_value (hC : Conditionals) (s s' t : Str) (x y : SExpr) (Γ : Scene) (k : Cut) :
    (SExpr.sub (.word c!"and") (.two s s' t x y)).eval Γ k = if Γ.full (.helper c!"and") then fault (.err (.helperCycle c!"and")) else
      (x.eval (Γ.enter (.helper c!"and")) k).bind fun v => (y.eval (Γ.enter (.helper c!"and")) k).bind fun u =>
        said (some (.bool (isTruthy (v.getD .null) && isTruthy (u.getD .null)))) := by
  rw [SExpr.eval, word_helper (by decide)]
  simp only
  rw [two_eval, bind_bind]
  simp only [bind_bind, bind_said]
  unfold helperValue
  rw [hC.ands]
  rfl

theorem truthy_bool (b : Bool) : isTruthy ((some (Value.bool b)).getD .null) = b := by
  cases b <;> rfl

/-- What a variable or a literal is. -/
theorem silent_eval {x : SExpr} (h : x.silent = true) (Γ : Scene) : ∃ v, ∀ Γ' k, Near Γ Γ' → x.eval Γ' k = said v := by
  cases x with
  | path p => exact ⟨Γ.find p, fun Γ' k hn => by rw [SExpr.eval, hn.find]⟩
  | lit l => exact ⟨some l.value, fun Γ' k _ => by rw [SExpr.eval]⟩
  | sub p a => cases h

theorem notPart_block (x : Str) : ∀ w, CallSite.block x ≠ .part w := fun _ h => by cases h
theorem notPart_helper (x : Str) : ∀ w, CallSite.helper x ≠ .part w := fun _ h => by cases h

/-! ### The rules -/

theorem recast_opens {T T' : STm} (h : Recast T T') : opens T = false ∧ opens T' = false := by
  refine Recast.rec (motive_1 := fun T T' _ => opens T = false ∧ opens T' = false) (motive_2 := fun _ _ _ _ => True)
    ?_ ?_ ?_ ?_ ?_ ?_ ?_ ?_ ?_ ?_ ?_ ?_ ?_ ?_ ?_ ?_ ?_ ?_ ?_ ?_ ?_ ?_ ?_ h
  all_goals intros
  all_goals first
    | trivial
    | exact ⟨rfl, rfl⟩
    | (rename_i h; exact ⟨h.2, h.1⟩)
    | (refine ⟨?_, ?_⟩ <;> (unfold opens; simp only [plain_before, *, Bool.false_and]))

/-- What the rules say about clauses. -/
def Clauses (L L' : Library) (fresh : Bool) (cs cs' : SCls) : Prop :=
  ∀ {cl cl' : Tilde}, cl.plain = true → cl'.plain = true → ∀ {f f' : Mood → Outcome}, (fresh = true → (f = fun μ => wrote [] μ) ∧ f' = fun μ => wrote [] μ) →
    (∀ μ μ', Moods μ μ' → Like Moods (f μ) (f' μ')) → ∀ {Γ Γ' : Scene}, Near Γ Γ' → ∀ {μ μ' : Mood}, Moods μ μ' →
    Like Moods (clauses L cs cl Γ f μ) (clauses L' cs' cl' Γ' f' μ')

theorem like_others {L L' : Library} {cs cs' : SCls} (h : Clauses L L' true cs cs') {cl cl' : Tilde} (h1 : cl.plain = true) (h2 : cl'.plain = true) :
    Bodies (others L cs cl) (others L' cs' cl') := fun hn hm =>
  h h1 h2 (fun _ => ⟨rfl, rfl⟩) (fun _ _ hm => like_wrote _ hm) hn hm

theorem Clauses.symm {L L' : Library} {fresh : Bool} {cs cs' : SCls} (h : Clauses L' L fresh cs' cs) : Clauses L L' fresh cs cs' := by
  intro cl cl' h1 h2 f f' hf hff Γ Γ' hn μ μ' hm
  exact Alike.symm (h h2 h1 (fun e => ⟨(hf e).2, (hf e).1⟩) (fun ν ν' hν => Alike.symm (hff ν' ν hν.symm)) hn.symm hm.symm)

theorem like_tailL {o o' : Outcome} (h : Like Moods o o') {g : Mood → Outcome} (hg : ∀ ν, Idle ν → g ν = wrote [] ν) : Like Moods (o.andThen g) o' := by
  cases h with
  | left h =>
      obtain ⟨e, he, hl⟩ := h
      obtain ⟨w, x⟩ := o
      simp only at he
      subst he
      exact .left ⟨e, rfl, hl⟩
  | right h => exact .right h
  | @ok w a b h =>
      show Like Moods (w ++ (g a).1, (g a).2) _
      rw [hg a h.left]
      show Like Moods (w ++ [], _) _
      rw [List.append_nil]
      exact .ok w h
  | error w h => exact .error w h
theorem like_tailR {o o' : Outcome} (h : Like Moods o o') {g : Mood → Outcome} (hg : ∀ ν, Idle ν → g ν = wrote [] ν) : Like Moods o (o'.andThen g) :=
  Alike.symm (like_tailL (Alike.symm h) hg)

theorem idle_close {ν : Mood} (h : Idle ν) : wrote [] { ν with close := false } = wrote [] ν := by
  obtain ⟨a, b, d, e⟩ := ν
  obtain ⟨h1, h2, h3⟩ := h
  simp only at h1 h2 h3
  subst h2
  rfl

theorem ends_after {α : Type} {x : Said α} (h : Ends x) (f : α → Outcome) : Ends (Outcome.after x f) := ends_bind h f

theorem like_unlessNot (hC : Conditionals) (hD : Bodies D D') (hA : Bodies A A') (s t u v s' t' : Str) (x : SExpr) {Γ Γ' : Scene} (hn : Near Γ Γ') {μ μ' : Mood}
    (hm : Moods μ μ') : Like Moods (Full.block c!"unless" (.only s t x) D A Γ μ)
      (Full.block c!"if" (.only s' t' (.sub (.word c!"not") (.only u v x))) D' A' Γ' μ') := by
  rw [unless_block hC, if_block hC]
  split
  · exact .left (ends_cycle _)
  split
  · exact .right (ends_cycle _)
  rw [not_value hC]
  split
  · exact .right (ends_after (ends_fault _) _)
  rw [after_bind, hm.trim]
  have hn' : Near (Γ.enter (.block c!"unless")) (Γ'.enter (.block c!"if")) := (hn.enterL (notPart_block _)).enterR (notPart_block _)
  refine (like_expr x _ (hn'.enterR (notPart_helper _))).after fun v v' e => ?_
  subst e
  rw [after_said, truthy_bool]
  cases isTruthy (v.getD .null) with
  | true => exact (hA hn' hm).within
  | false => exact (hD hn' hm).within

theorem like_unlessElse (hC : Conditionals) (hD : Bodies D D') (hA : Bodies A A') (s t s' t' : Str) (x : SExpr) {Γ Γ' : Scene} (hn : Near Γ Γ') {μ μ' : Mood}
    (hm : Moods μ μ') : Like Moods (Full.block c!"unless" (.only s t x) D A Γ μ) (Full.block c!"if" (.only s' t' x) A' D' Γ' μ') := by
  rw [unless_block hC, if_block hC]
  split
  · exact .left (ends_cycle _)
  split
  · exact .right (ends_cycle _)
  rw [hm.trim]
  have hn' : Near (Γ.enter (.block c!"unless")) (Γ'.enter (.block c!"if")) := (hn.enterL (notPart_block _)).enterR (notPart_block _)
  refine (like_expr x _ hn').after fun v v' e => ?_
  subst e
  cases isTruthy (v.getD .null) with
  | true => exact (hA hn' hm).within
  | false => exact (hD hn' hm).within

theorem nil_run (L : Library) (Γ : Scene) (ν : Mood) : run L .nil Γ ν = wrote [] ν := by unfold run; rw [tm]
theorem others_nil (L : Library) (cl : Tilde) (Γ : Scene) (μ : Mood) : others L .nil cl Γ μ = wrote [] μ := by unfold others; rw [clauses]

/-- A block that is the whole content. -/
theorem body_block (L : Library) {tl cl : Tilde} (name : Str) (a : SArgs) (b : STm) (cs : SCls) (h1 : tl.plain = true) (h2 : cl.plain = true)
    (Γ : Scene) {μ : Mood} (hm : Idle μ) : body L (.block false tl name a b cs cl .nil) Γ μ =
      ((Full.block name a (body L b) (others L cs cl) Γ μ).andThen (run L .nil Γ)).andThen fun ν => wrote [] { ν with close := false } := by
  have := block_run (part := false) L name a b cs (r := .nil) h1 h2 rfl Γ hm
  rw [if_neg (by decide)] at this
  rw [← this]
  unfold body
  rw [hm.hint]
  rfl

theorem like_bodyL {L : Library} {tl cl : Tilde} {name : Str} {a : SArgs} {b : STm} {cs : SCls} (h1 : tl.plain = true) (h2 : cl.plain = true)
    {Γ : Scene} {μ : Mood} (hm : Idle μ) {o : Outcome} (h : Like Moods (Full.block name a (body L b) (others L cs cl) Γ μ) o) :
    Like Moods (body L (.block false tl name a b cs cl .nil) Γ μ) o := by
  rw [body_block L name a b cs h1 h2 Γ hm]
  exact like_tailL (like_tailL h fun ν _ => nil_run L Γ ν) fun ν hν => idle_close hν

theorem like_ifAnd (hC : Conditionals) {L : Library} {b : STm} {tm cm cl : Tilde} (hy : tm.plain = true) (hcm : cm.plain = true)
    (hD : Bodies (body L b) D') (hA : ∀ Γ μ, A' Γ μ = wrote [] μ) (s t s1 t1 s' t' u u' v : Str) (x y : SExpr) (hsy : y.silent = true)
    {Γ Γ' : Scene} (hn : Near Γ Γ') {μ μ' : Mood} (hm : Moods μ μ') :
    Like Moods (Full.block c!"if" (.only s t x) (body L (.block false tm c!"if" (.only s1 t1 y) b .nil cm .nil)) (others L .nil cl) Γ μ)
      (Full.block c!"if" (.only s' t' (.sub (.word c!"and") (.two u u' v x y))) D' A' Γ' μ') := by
  rw [if_block hC, if_block hC]
  split
  · exact .left (ends_cycle _)
  split
  · exact .right (ends_cycle _)
  rw [and_value hC]
  split
  · exact .right (ends_after (ends_fault _) _)
  rw [after_bind, hm.trim]
  have hn' : Near (Γ.enter (.block c!"if")) (Γ'.enter (.block c!"if")) := hn.enter _
  refine (like_expr x _ (hn'.enterR (notPart_helper _))).after fun v v' e => ?_
  subst e
  obtain ⟨w, hw⟩ := silent_eval hsy Γ
  rw [hw _ _ (((hn.enterR (notPart_block _))).enterR (notPart_helper _)), bind_said, after_said, truthy_bool]
  cases isTruthy (v.getD .null) with
  | false => exact (by rw [others_nil, Bool.false_and, hA]; exact like_wrote [] hm : Like Moods (others L .nil cl _ μ) _).within
  | true =>
      rw [Bool.true_and]
      refine Like.within ?_
      refine like_bodyL hy hcm hm.left ?_
      rw [if_block hC]
      split
      · exact .left (ends_cycle _)
      rw [hw _ _ (((Near.rfl' Γ).enterR (notPart_block _)).enterR (notPart_block _)), after_said]
      cases isTruthy (w.getD .null) with
      | false => exact Like.withinL (by rw [others_nil]; exact (hA _ _).symm ▸ like_wrote [] hm)
      | true => exact (hD (hn'.enterL (notPart_block _)) hm).withinL

theorem like_nest (hC : Conditionals) {L L' : Library} {b b' : STm} {cs cs' : SCls} {cl tm cm : Tilde} (htm : tm.plain = true) (hcm : cm.plain = true) 
    (hD : Bodies (body L b) (body L' b')) (hA : Bodies (others L cs cl) (others L' cs' cm)) (s t : Str) (p : SPath) (a : SArgs) {Γ Γ' : Scene} (hn : Near Γ Γ') {μ μ' : Mood}
    (hm : Moods μ μ') :
    Like Moods (Outcome.after ((SExpr.sub p a).eval Γ μ.trim) fun v => if isTruthy (v.getD .null) then body L b Γ μ else others L cs cl Γ μ)
      (body L' (.block false tm c!"if" (.only s t (.sub p a)) b' cs' cm .nil) Γ' μ') := by
  refine Alike.symm (like_bodyL htm hcm hm.right (Alike.symm ?_))
  rw [if_block hC]
  split
  · exact .right (ends_cycle _)
  rw [hm.trim]
  refine (like_expr _ _ (hn.enterR (notPart_block _))).after fun v v' e => ?_
  subst e
  cases isTruthy (v.getD .null) with
  | false => exact (hA (hn.enterR (notPart_block _)) hm).withinR
  | true => exact (hD (hn.enterR (notPart_block _)) hm).withinR

theorem like_elseIf (hC : Conditionals) {L L' : Library} {b b' : STm} {cs cs' : SCls} {cl tm cm : Tilde} (htm : tm.plain = true) (hcm : cm.plain = true)
    (hD : Bodies (body L b) (body L' b')) (hA : Bodies (others L cs cl) (others L' cs' cm)) (s t s' t' : Str) (x : SExpr) {Γ Γ' : Scene} (hn : Near Γ Γ') {μ μ' : Mood}
    (hm : Moods μ μ') :
    Like Moods (Outcome.after ((SExpr.sub (.word c!"if") (.only s t x)).eval Γ μ.trim) fun v => if isTruthy (v.getD .null) then body L b Γ μ else others L cs cl Γ μ)
      (body L' (.block false tm c!"if" (.only s' t' x) b' cs' cm .nil) Γ' μ') := by
  refine Alike.symm (like_bodyL htm hcm hm.right (Alike.symm ?_))
  rw [if_block hC, if_value hC]
  split
  · exact .left (ends_after (ends_fault _) _)
  split
  · exact .right (ends_cycle _)
  rw [after_bind, hm.trim]
  refine (like_expr _ _ ((hn.enterL (notPart_helper _)).enterR (notPart_block _))).after fun v v' e => ?_
  subst e
  rw [after_said, truthy_bool]
  cases isTruthy (v.getD .null) with
  | false => exact (hA (hn.enterR (notPart_block _)) hm).withinR
  | true => exact (hD (hn.enterR (notPart_block _)) hm).withinR

/-! ### Everything -/

def Means (T T' : STm) : Prop := ∀ L L' : Library, Libs L L' → Bodies (run L T) (run L' T')
def MeansCls (fresh : Bool) (cs cs' : SCls) : Prop := ∀ L L' : Library, Libs L L' → Clauses L L' fresh cs cs'

theorem stops_of {r : STm} (h : opens r = false) : stops r false = false := by unfold stops; rw [h, Bool.and_false]; rfl

theorem like_blocks {T T' : STm} (hr : Recast T T') (ih : Means T T') {L L' : Library} (hL : Libs L L') {part : Bool} {tl tl' cl cl' : Tilde} {name name' : Str} {a a' : SArgs}
    {b b' : STm} {cs cs' : SCls} (h1 : tl.plain = true) (h2 : tl'.plain = true) (h3 : cl.plain = true) (h4 : cl'.plain = true) {Γ Γ' : Scene} (hn : Near Γ Γ') {μ μ' : Mood}
    (hm : Moods μ μ')
    (h : Like Moods (if part then partialCall L (some b) ⟨0, .name name, []⟩ a Γ μ else Full.block name a (body L b) (others L cs cl) Γ μ)
      (if part then partialCall L' (some b') ⟨0, .name name', []⟩ a' Γ' μ' else Full.block name' a' (body L' b') (others L' cs' cl') Γ' μ')) :
    Like Moods (run L (.block part tl name a b cs cl T) Γ μ) (run L' (.block part tl' name' a' b' cs' cl' T') Γ' μ') := by
  rw [block_run L name a b cs h1 h3 (recast_opens hr).1 Γ hm.left, block_run L' name' a' b' cs' h2 h4 (recast_opens hr).2 Γ' hm.right]
  exact h.andThen fun ν ν' hν => ih L L' hL hn hν

theorem recast_means (hC : Conditionals) {T T' : STm} (h : Recast T T') : Means T T' := by
  refine Recast.rec (motive_1 := fun T T' _ => Means T T') (motive_2 := fun f cs cs' _ => MeansCls f cs cs')
    ?symm ?nil ?text ?comment ?longComment ?escaped ?link ?stmt ?dyn ?rawBlock ?block ?unlessNot ?unlessElse ?ifAnd
    ?csymm ?cnil ?plain ?cond ?empty ?last ?nest ?elseIf ?elseUnless h
  case symm =>
    intro T T' _ ih L L' hL Γ Γ' μ μ' hn hm
    exact Alike.symm (ih L' L hL.symm hn.symm hm.symm)
  case nil =>
    intro L L' hL Γ Γ' μ μ' hn hm
    rw [nil_run, nil_run]; exact like_wrote _ hm
  case text =>
    intro w r r' hr ih L L' hL Γ Γ' μ μ' hn hm
    unfold run
    rw [tm, tm, stops_of (recast_opens hr).1, stops_of (recast_opens hr).2, next_idle hm.left, next_idle hm.right, hm.left.close, hm.right.close]
    exact (like_wrote _ hm).andThen fun ν ν' hν => ih L L' hL hn hν
  case comment =>
    intro w r r' hr ih L L' hL Γ Γ' μ μ' hn hm
    unfold run
    rw [tm, tm, stops_of (recast_opens hr).1, stops_of (recast_opens hr).2, next_idle hm.left, next_idle hm.right]
    exact (like_wrote _ hm).andThen fun ν ν' hν => ih L L' hL hn hν
  case longComment =>
    intro w r r' hr ih L L' hL Γ Γ' μ μ' hn hm
    unfold run
    rw [tm, tm, stops_of (recast_opens hr).1, stops_of (recast_opens hr).2, next_idle hm.left, next_idle hm.right]
    exact (like_wrote _ hm).andThen fun ν ν' hν => ih L L' hL hn hν
  case escaped =>
    intro w r r' hr ih L L' hL Γ Γ' μ μ' hn hm
    unfold run
    rw [tm, tm, stops_of (recast_opens hr).1, stops_of (recast_opens hr).2, next_idle hm.left, next_idle hm.right, hm.left.close, hm.right.close]
    exact (like_wrote _ hm).andThen fun ν ν' hν => ih L L' hL hn hν
  case link =>
    intro e h l t r r' hr ih L L' hL Γ Γ' μ μ' hn hm
    unfold run
    rw [tm, tm, stops_of (recast_opens hr).1, stops_of (recast_opens hr).2, next_idle hm.left, next_idle hm.right]
    exact (like_link hn e h l t hm).andThen fun ν ν' hν => ih L L' hL hn hν
  case stmt =>
    intro raw part tl tl' p a r r' h1 h2 hr ih L L' hL Γ Γ' μ μ' hn hm
    unfold run
    rw [tm, tm, stops_of (recast_opens hr).1, stops_of (recast_opens hr).2, plain_after h1, plain_after h2, next_idle hm.left, next_idle hm.right, hm.left.close, hm.right.close]
    refine Like.andThen ?_ fun ν ν' hν => ih L L' hL hn hν
    split
    · exact like_partial hL .none p a hn hm
    · exact like_prints hn raw (like_expr _ _ hn) hm
  case dyn =>
    intro raw part tl tl' q b a r r' h1 h2 hr ih L L' hL Γ Γ' μ μ' hn hm
    unfold run
    rw [tm, tm, stops_of (recast_opens hr).1, stops_of (recast_opens hr).2, plain_after h1, plain_after h2, next_idle hm.left, next_idle hm.right, hm.left.close, hm.right.close]
    refine Like.andThen ?_ fun ν ν' hν => ih L L' hL hn hν
    split
    · unfold computedCall
      rw [hm.trim]
      refine (like_expr _ _ hn).after fun v v' e => ?_
      subst e
      exact like_included hL .none _ a hn hm
    · exact like_prints hn raw (like_expr _ _ hn) hm
  case rawBlock =>
    intro tl tl' name a w cl cl' r r' h1 h2 h3 h4 hr ih L L' hL Γ Γ' μ μ' hn hm
    unfold run
    rw [tm, tm, stops_of (recast_opens hr).1, stops_of (recast_opens hr).2, plain_after h1, plain_after h2, plain_after h3, plain_after h4, plain_before h3, plain_before h4,
      next_idle hm.left, next_idle hm.right, hm.left.close, hm.right.close]
    refine Like.andThen ?_ fun ν ν' hν => ih L L' hL hn hν
    have hm' : Moods { μ with close := false } { μ' with close := false } := ⟨⟨hm.left.1, rfl, hm.left.3⟩, ⟨hm.right.1, rfl, hm.right.3⟩, hm.block⟩
    split
    · refine like_helped (D := fun _ μ => wrote (cut (μ.hint || false || μ.close) false w) ⟨false, false, μ.block, ⟨μ.hint || false || μ.close, false⟩⟩)
          (A := fun _ μ => wrote [] μ) (D' := fun _ μ => wrote (cut (μ.hint || false || μ.close) false w) ⟨false, false, μ.block, ⟨μ.hint || false || μ.close, false⟩⟩)
          (A' := fun _ μ => wrote [] μ) ?_ (fun _ hν => like_wrote _ hν) name (some _) a hn hm'
      intro Γ Γ' ν ν' hn hν
      simp only [hν.left.hint, hν.right.hint, hν.left.close, hν.right.close, Bool.or_false]
      exact like_wrote _ ⟨⟨rfl, rfl, rfl⟩, ⟨rfl, rfl, rfl⟩, hν.block⟩
    · exact like_wrote _ hm'
  case block =>
    intro part tl tl' name a b b' cs cs' cl cl' r r' h1 h2 h3 h4 hb hcs hr ihb ihc ih L L' hL Γ Γ' μ μ' hn hm
    refine like_blocks hr ih hL h1 h2 h3 h4 hn hm ?_
    split
    · exact like_partial hL (.some hb) _ a hn hm
    · exact like_block (like_body (ihb L L' hL)) (like_others (ihc L L' hL) h3 h4) name a hn hm
  case unlessNot =>
    intro tl tl' s t u v s' t' x b b' cs cs' cl cl' r r' h1 h2 h3 h4 hb hcs hr ihb ihc ih L L' hL Γ Γ' μ μ' hn hm
    refine like_blocks hr ih hL h1 h2 h3 h4 hn hm ?_
    rw [if_neg (by decide), if_neg (by decide)]
    exact like_unlessNot hC (like_body (ihb L L' hL)) (like_others (ihc L L' hL) h3 h4) s t u v s' t' x hn hm
  case unlessElse =>
    intro tl tl' te te' s t s' t' x b b' c c' cl cl' r r' h1 h2 h5 h6 h3 h4 hb hc hr ihb ihc ih L L' hL Γ Γ' μ μ' hn hm
    refine like_blocks hr ih hL h1 h2 h3 h4 hn hm ?_
    rw [if_neg (by decide), if_neg (by decide)]
    have e1 : others L (.cons te none c .nil) cl = body L c := by
      funext Γ μ; unfold others; rw [plain_run L te c .nil h5 h3, clauses]
    have e2 : others L' (.cons te' none b' .nil) cl' = body L' b' := by
      funext Γ μ; unfold others; rw [plain_run L' te' b' .nil h6 h4, clauses]
    rw [e1, e2]
    exact like_unlessElse hC (like_body (ihb L L' hL)) (like_body (ihc L L' hL)) s t s' t' x hn hm
  case ifAnd =>
    intro tl tl' tm s t s1 t1 s' t' u u' v x y b b' cl cl' cm r r' hy h1 h2 h5 h3 h4 h6 hb hr ihb ih L L' hL Γ Γ' μ μ' hn hm
    refine like_blocks hr ih hL h1 h2 h3 h4 hn hm ?_
    rw [if_neg (by decide), if_neg (by decide)]
    exact like_ifAnd hC h5 h6 (like_body (ihb L L' hL)) (fun Γ μ => others_nil L' cl' Γ μ) s t s1 t1 s' t' u u' v x y hy hn hm
  case csymm =>
    intro f cs cs' _ ih L L' hL
    exact Clauses.symm (ih L' L hL.symm)
  case cnil =>
    intro fresh L L' hL cl cl' h1 h2 f f' hf hff Γ Γ' hn μ μ' hm
    rw [clauses, clauses]; exact hff _ _ hm
  case plain =>
    intro fresh tl tl' b b' cs cs' h1 h2 hb hc ihb ihc L L' hL cl cl' h3 h4 f f' hf hff Γ Γ' hn μ μ' hm
    rw [plain_run L tl b cs h1 h3, plain_run L' tl' b' cs' h2 h4]
    exact ihc L L' hL h3 h4 (fun e => by cases e) (fun ν ν' hν => like_body (ihb L L' hL) hn hν) hn hm
  case cond =>
    intro fresh tl tl' p a b b' cs cs' h1 h2 hb hc ihb ihc L L' hL cl cl' h3 h4 f f' hf hff Γ Γ' hn μ μ' hm
    rw [cond_run L tl p a b cs h1 h3, cond_run L' tl' p a b' cs' h2 h4, hm.trim]
    refine (like_expr _ _ hn).after fun v v' e => ?_
    subst e
    split
    · exact like_body (ihb L L' hL) hn hm
    · exact ihc L L' hL h3 h4 hf hff hn hm
  case empty =>
    intro tl h1 L L' hL cl cl' h3 h4 f f' hf hff Γ Γ' hn μ μ' hm
    rw [plain_run L tl _ _ h1 h3, clauses, clauses, (hf rfl).2]
    unfold body
    rw [tm]
    exact like_tailL (like_wrote [] hm) fun ν hν => idle_close hν
  case last =>
    intro fresh tl tm tl' z b b' cs cs' h1 h2 h5 hb hc ihb ihc L L' hL cl cl' h3 h4 f f' hf hff Γ Γ' hn μ μ' hm
    rw [plain_run L tl z _ h1 h3, plain_run L tm b cs h2 h3, plain_run L' tl' b' cs' h5 h4]
    exact ihc L L' hL h3 h4 (fun e => by cases e) (fun ν ν' hν => like_body (ihb L L' hL) hn hν) hn hm
  case nest =>
    intro tl tl' tm cm s t p a b b' cs cs' h1 h2 h5 h6 hb hc ihb ihc L L' hL cl cl' h3 h4 f f' hf hff Γ Γ' hn μ μ' hm
    rw [cond_run L tl p a b cs h1 h3, plain_run L' tl' _ _ h2 h4, clauses, (hf rfl).1]
    exact like_nest hC h5 h6 (like_body (ihb L L' hL)) (like_others (ihc L L' hL) h3 h6) s t p a hn hm
  case elseIf =>
    intro tl tl' tm cm s t s' t' x b b' cs cs' h1 h2 h5 h6 hb hc ihb ihc L L' hL cl cl' h3 h4 f f' hf hff Γ Γ' hn μ μ' hm
    rw [cond_run L tl _ _ b cs h1 h3, plain_run L' tl' _ _ h2 h4, clauses, (hf rfl).1]
    exact like_elseIf hC h5 h6 (like_body (ihb L L' hL)) (like_others (ihc L L' hL) h3 h6) s t s' t' x hn hm
  case elseUnless =>
    intro fresh tl s t x b cs cs' hx h1 hc ihc L L' hL cl cl' h3 h4 f f' hf hff Γ Γ' hn μ μ' hm
    rw [cond_run L tl _ _ b cs h1 h3, unless_value hC]
    split
    · exact .left (ends_after (ends_fault _) _)
    obtain ⟨w, hw⟩ := silent_eval hx Γ
    rw [hw _ _ ((Near.rfl' Γ).enterR (notPart_helper _)), bind_said, after_said]
    exact ihc L L' hL h3 h4 hf hff hn hm

theorem like_depth (hC : Conditionals) {get get' : Str → Option STm} (h : ∀ x, Option.Rel Recast (get x) (get' x)) : ∀ n, Libs (Full.depth get n) (Full.depth get' n)
  | 0 => ⟨h, fun _ => fun _ _ => like_failed _⟩
  | n + 1 => ⟨h, fun {T T'} hT => by
      intro Γ Γ' μ μ' hn hm
      have := recast_means hC hT _ _ (like_depth hC h n) hn hm
      show Like Moods (tm _ T Γ false false μ.hint μ) (tm _ T' Γ' false false μ'.hint μ')
      rw [hm.left.hint, hm.right.hint]
      exact this⟩

theorem like_result {o o' : Outcome} (h : Like Moods o o') : SameResult o.result o'.result := by
  cases h with
  | left h =>
      obtain ⟨w, x⟩ := o
      obtain ⟨e, he, hl⟩ := h
      simp only at he
      subst he
      exact .inl ⟨e, .inl rfl, hl⟩
  | right h =>
      obtain ⟨w, x⟩ := o'
      obtain ⟨e, he, hl⟩ := h
      simp only at he
      subst he
      exact .inl ⟨e, .inr rfl, hl⟩
  | ok w h => exact .inr (.inl ⟨w, rfl, rfl⟩)
  | @error w f g h =>
      cases f with
      | panic =>
          cases g with
          | panic => exact .inr (.inr (.inr ⟨rfl, rfl⟩))
          | err e => cases h
      | err e =>
          cases g with
          | panic => cases h
          | err e' =>
              injection h with h
              exact .inr (.inr (.inl ⟨e, e', rfl, rfl, h⟩))

end

end Bracket.Props.Rewrite
