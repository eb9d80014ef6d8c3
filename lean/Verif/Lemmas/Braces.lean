import Verif.Spec.Braces
import Verif.Lemmas.Tied

/-! With an escape function that does nothing, the number of braces does not matter. -/

set_option linter.unusedSectionVars false

namespace Bracket.Props.Braces
open Bracket Spec Bracket.Props
open Bracket.Spec.Full hiding block blockHelper contents rounds builtinBlock depth

section
variable [H : Host] [C : Custom]

/-- The scene with another escape function. -/
def esc (e : Str → Str) (Γ : Scene) : Scene := { Γ with escape := e }

/-- Nothing is escaped, or the application never asks for it. -/
def Loud (e : Str → Str) : Prop := e = escapeNoop ∨ Direct
def LoudFn (e : Str → Str) (f : CustomFn) : Prop := e = escapeNoop ∨ f.direct

variable {e : Str → Str} (he : Loud e)

theorem print_esc {Γ : Scene} (hΓ : Γ.escape = escapeNoop) (k : Cut) {x : Print} (hx : e = escapeNoop ∨ x.escaped = false) : (esc e Γ).print k x = Γ.print k x := by
  unfold Scene.print
  rw [hΓ]
  rcases hx with rfl | hx
  · rfl
  · rw [hx]; rfl

theorem said_esc {Γ : Scene} (hΓ : Γ.escape = escapeNoop) (k : Cut) {f : CustomFn} (hf : LoudFn e f) (vs : List Value) (hs : List (Str × Value)) :
    f.said (esc e Γ) k vs hs = f.said Γ k vs hs := by
  unfold CustomFn.said
  congr 1
  unfold Scene.printAll
  have hv : ∀ x ∈ (f.value vs (fun k => hs.lookup k)).1, e = escapeNoop ∨ x.escaped = false := fun x hx => hf.imp id fun h => h.value _ _ x hx
  generalize (f.value vs (fun k => hs.lookup k)).1 = l at hv
  induction l with
  | nil => rfl
  | cons x l ih =>
      rw [List.flatMap_cons, List.flatMap_cons, print_esc hΓ k (hv x (.head _)), ih fun y hy => hv y (.tail _ hy)]

include he

theorem loud_fn {name : Str} {f : CustomFn} (h : Custom.fn name = some f) : LoudFn e f := he.imp id fun d => d.fn _ _ h

theorem value_esc {Γ : Scene} (hΓ : Γ.escape = escapeNoop) (k : Cut) (w : Str) (vs : List Value) (hs : List (Str × Value)) :
    helperValue w (esc e Γ) k vs hs = helperValue w Γ k vs hs := by
  unfold helperValue
  cases hf : (Custom.fn w : Option CustomFn) with
  | none => rfl
  | some f => exact said_esc hΓ k (loud_fn he hf) vs hs

mutual
theorem expr_esc : ∀ (x : SExpr) {Γ : Scene} (_ : Γ.escape = escapeNoop) (k : Cut), x.eval (esc e Γ) k = x.eval Γ k
  | .path p, Γ, h, k => by rw [SExpr.eval, SExpr.eval]; rfl
  | .lit l, Γ, h, k => by rw [SExpr.eval, SExpr.eval]
  | .sub p a, Γ, h, k => by
      rw [SExpr.eval, SExpr.eval]
      cases p.helper with
      | some w =>
          simp only
          show (if Γ.full _ then _ else Said.bind (a.eval (esc e (Γ.enter _)) k) _) = _
          rw [args_esc a (Γ := Γ.enter (.helper w)) h]
          simp only [value_esc he h]
      | none =>
          simp only
          show (match Γ.find p with | some v => _ | none => _) = _
          cases Γ.find p with
          | some v => rfl
          | none =>
              simp only
              cases hf : (SPath.handler p : Option CustomFn) with
              | none => rfl
              | some f =>
                  have hl : LoudFn e f := by
                    unfold SPath.handler at hf
                    split at hf
                    · cases hm : (Custom.missing : Option (Str → CustomFn)) with
                      | none => rw [hm] at hf; cases hf
                      | some g =>
                          rw [hm] at hf
                          injection hf with hf
                          exact hf ▸ he.imp id fun d => d.missing _ _ hm
                    · cases hf
                  simp only
                  show (if Γ.full _ then _ else Said.bind (a.eval (esc e (Γ.enter _)) k) _) = _
                  rw [args_esc a (Γ := Γ.enter (.helper missingName)) h]
                  simp only [said_esc h k hl]
theorem args_esc : ∀ (a : SArgs) {Γ : Scene} (_ : Γ.escape = escapeNoop) (k : Cut), a.eval (esc e Γ) k = a.eval Γ k
  | .done x, Γ, h, k => by rw [SArgs.eval, SArgs.eval, hash_esc x h]
  | .argW w x r, Γ, h, k => by rw [SArgs.eval, SArgs.eval, expr_esc x h, args_esc r h]
theorem hash_esc : ∀ (x : SHash) {Γ : Scene} (_ : Γ.escape = escapeNoop) (k : Cut), x.eval (esc e Γ) k = x.eval Γ k
  | .tail w, Γ, h, k => by rw [SHash.eval, SHash.eval]
  | .pairW w n x r, Γ, h, k => by rw [SHash.eval, SHash.eval, expr_esc x h, hash_esc r h]
end

theorem positional_esc : ∀ (a : SArgs) {Γ : Scene} (_ : Γ.escape = escapeNoop) (k : Cut), positional a (esc e Γ) k = positional a Γ k
  | .done x, Γ, h, k => by rw [positional, positional]
  | .argW w x r, Γ, h, k => by rw [positional, positional, expr_esc he x h, positional_esc r h]

omit he

theorem opens_braced (r : STm) : opens r.braced = opens r := by cases r <;> simp [STm.braced, opens]
theorem isNil_braced (r : STm) : isNil r.braced = isNil r := by cases r <;> rfl
theorem stops_braced (r : STm) (c : Bool) : stops r.braced c = stops r c := by rw [stops, stops, opens_braced, isNil_braced]

/-- The content of the block partial called last, with three braces. -/
def bracedMood (μ : Mood) : Mood := { μ with block := μ.block.map STm.braced }
def braced (a : Outcome) : Outcome := (a.1, match a.2 with
  | .error x => .error x
  | .ok μ => .ok (bracedMood μ))

theorem braced_within (a : Outcome) : (braced a).within = braced a.within := by
  obtain ⟨w, x⟩ := a; cases x <;> rfl
theorem braced_andThen (a : Outcome) (f g : Mood → Outcome) (h : ∀ μ, g (bracedMood μ) = braced (f μ)) :
    (braced a).andThen g = braced (a.andThen f) := by
  obtain ⟨w, x⟩ := a
  cases x with
  | error e => rfl
  | ok μ =>
      show (w ++ (g (bracedMood μ)).1, (g (bracedMood μ)).2) = _
      rw [h μ]
      rfl
theorem andThen_braced {a b : Outcome} (e : b = braced a) {f g : Mood → Outcome} (h : ∀ μ, g (bracedMood μ) = braced (f μ)) :
    b.andThen g = braced (a.andThen f) := by rw [e, braced_andThen a f g h]
theorem after_braced {α : Type} (x : Said α) {f g : α → Outcome} (h : ∀ a, g a = braced (f a)) :
    Outcome.after x g = braced (Outcome.after x f) := by
  obtain ⟨w, x⟩ := x
  cases x with
  | error e => rfl
  | ok a =>
      show (w ++ (g a).1, (g a).2) = _
      rw [h a]
      rfl

/-- The contents of a block. -/
def Same (e : Str → Str) (D' D : Scene → Mood → Outcome) : Prop := ∀ Γ μ, Γ.escape = escapeNoop → D' (esc e Γ) (bracedMood μ) = braced (D Γ μ)

variable {D D' A A' : Scene → Mood → Outcome} (hD : Same e D' D) (hA : Same e A' A)

include hD in
theorem rounds_braced {Γ : Scene} (h : Γ.escape = escapeNoop) : ∀ rs μ, Full.rounds D' (esc e Γ) rs (bracedMood μ) = braced (Full.rounds D Γ rs μ)
  | [], μ => rfl
  | r :: rs, μ => by
      rw [Full.rounds, Full.rounds]
      show (D' (esc e (Γ.push _)) _).within.andThen _ = _
      rw [hD (Γ.push r.scope) μ h, braced_within]
      exact braced_andThen _ _ _ (rounds_braced h rs)

include hD in
theorem contents_braced {Γ : Scene} (h : Γ.escape = escapeNoop) (x : Option HelperErr) : ∀ l μ, (∀ y, Act.print y ∈ l → e = escapeNoop ∨ y.escaped = false) →
    Full.contents D' (esc e Γ) x l (bracedMood μ) = braced (Full.contents D Γ x l μ)
  | [], μ, _ => by cases x <;> rfl
  | .print y :: l, μ, hl => by
      rw [Full.contents, Full.contents, print_esc h _ (hl y (.head _))]
      exact andThen_braced (b := wrote (Γ.print μ.trim y) (bracedMood μ)) rfl fun ν => contents_braced h x l ν fun y hy => hl y (.tail _ hy)
  | .content none :: l, μ, hl => by
      rw [Full.contents, Full.contents, hD _ _ h, braced_within]
      exact braced_andThen _ _ _ fun ν => contents_braced h x l ν fun y hy => hl y (.tail _ hy)
  | .content (some sc) :: l, μ, hl => by
      rw [Full.contents, Full.contents]
      show (D' (esc e (Γ.push _)) _).within.andThen _ = _
      rw [hD (Γ.push sc) μ h, braced_within]
      exact braced_andThen _ _ _ fun ν => contents_braced h x l ν fun y hy => hl y (.tail _ hy)

include hD hA in
theorem builtin_braced (w : Str) (vs : List Value) (hs : List (Str × Value)) {Γ : Scene} (h : Γ.escape = escapeNoop) (μ : Mood) :
    Full.builtinBlock w vs hs D' A' (esc e Γ) (bracedMood μ) = braced (Full.builtinBlock w vs hs D A Γ μ) := by
  have val : (match builtinValue w vs hs with
      | .error f => failed f
      | .ok _ => wrote [] (bracedMood μ)) = braced (match builtinValue w vs hs with
      | .error f => failed f
      | .ok _ => wrote [] μ) := by
    cases builtinValue w vs hs <;> rfl
  unfold Full.builtinBlock
  match vs, val with
  | [v], val =>
      simp only
      split
      · split
        · rw [hD _ _ h, braced_within]
        · rw [hA _ _ h, braced_within]
      split
      · split
        · rw [hA _ _ h, braced_within]
        · rw [hD _ _ h, braced_within]
      split
      · cases v with
        | arr l => exact rounds_braced hD h _ μ
        | obj l => exact rounds_braced hD h _ μ
        | _ => rfl
      split
      · cases v with
        | null => rfl
        | _ => exact (congrArg Outcome.within (hD (Γ.push _) μ h)).trans (braced_within _)
      · exact val
  | [], val => exact val
  | _ :: _ :: _, val => exact val

include hD hA in
theorem custom_braced {f : CustomFn} (hf : LoudFn e f) (t : Option Str) (vs : List Value) (hs : List (Str × Value)) {Γ : Scene} (h : Γ.escape = escapeNoop) (μ : Mood) :
    customBlock f t vs hs D' A' (esc e Γ) (bracedMood μ) = braced (customBlock f t vs hs D A Γ μ) := by
  unfold customBlock
  cases hb : f.block t vs (fun k => hs.lookup k) with
  | contents l x => exact contents_braced hD h x l μ fun y hy => hf.imp id fun d => d.block _ _ _ _ _ hb y hy
  | otherwise => exact (congrArg Outcome.within (hA _ μ h)).trans (braced_within _)

include he hD hA in
theorem helped_braced (w : Str) (t : Option Str) (a : SArgs) {Γ : Scene} (h : Γ.escape = escapeNoop) (μ : Mood) :
    helped w t a D' A' (esc e Γ) (bracedMood μ) = braced (helped w t a D A Γ μ) := by
  unfold helped
  show (if Γ.full _ then _ else Outcome.after (a.eval (esc e (Γ.enter _)) μ.trim) _) = _
  rw [args_esc he a (Γ := Γ.enter (.block w)) h]
  split
  · rfl
  refine after_braced (a.eval (Γ.enter (.block w)) μ.trim) fun v => ?_
  unfold Full.blockHelper
  cases hf : (Custom.fn w : Option CustomFn) with
  | none => exact builtin_braced (Γ := Γ.enter (.block w)) hD hA w _ _ h μ
  | some f => exact custom_braced (Γ := Γ.enter (.block w)) hD hA (loud_fn he hf) t _ _ h μ

include he hD hA in
theorem handled_braced {f : CustomFn} (hf : LoudFn e f) (a : SArgs) {Γ : Scene} (h : Γ.escape = escapeNoop) (μ : Mood) :
    handled f a D' A' (esc e Γ) (bracedMood μ) = braced (handled f a D A Γ μ) := by
  unfold handled
  show (if Γ.full _ then _ else Outcome.after (a.eval (esc e (Γ.enter _)) μ.trim) _) = _
  rw [args_esc he a (Γ := Γ.enter (.block blockMissingName)) h]
  split
  · rfl
  exact after_braced (a.eval (Γ.enter (.block blockMissingName)) μ.trim) fun v => custom_braced (Γ := Γ.enter (.block blockMissingName)) hD hA hf none _ _ h μ

include he hD hA in
theorem block_braced (w : Str) (a : SArgs) {Γ : Scene} (h : Γ.escape = escapeNoop) (μ : Mood) :
    Full.block w a D' A' (esc e Γ) (bracedMood μ) = braced (Full.block w a D A Γ μ) := by
  unfold Full.block
  split
  · exact helped_braced he hD hA w none a h μ
  · show (match Γ.find ⟨0, .name w, []⟩ with | some v => _ | none => _) = _
    cases Γ.find ⟨0, .name w, []⟩ with
    | some v =>
        simp only
        cases hm : (Custom.blockMissing : Option (Str → Value → CustomFn)) with
        | none => exact (congrArg Outcome.within (hD _ μ h)).trans (braced_within _)
        | some f => exact handled_braced he hD hA (he.imp id fun d => d.blockMissing _ _ _ hm) a h μ
    | none =>
        simp only
        cases (Custom.missing : Option (Str → CustomFn)) with
        | none =>
            simp only
            show (if Γ.strict then _ else _) = _
            split <;> rfl
        | some f =>
            simp only
            rw [expr_esc he _ h]
            exact after_braced ((SExpr.sub ⟨0, .name w, []⟩ a).eval Γ μ.trim) fun _ => rfl

include he in
theorem link_braced {Γ : Scene} (hΓ : Γ.escape = escapeNoop) (b : Bool) (h : Str) (l t : Option Str) (μ : Mood) :
    Full.link (esc e Γ) b h l t (bracedMood μ) = braced (Full.link Γ b h l t μ) := by
  unfold Full.link
  cases hf : (if b then none else (Custom.link : Option CustomFn)) with
  | none => rfl
  | some f =>
      have hl : LoudFn e f := by
        split at hf
        · cases hf
        · exact he.imp id fun d => d.link _ hf
      simp only
      rw [said_esc hΓ _ hl]
      show (if Γ.full _ then _ else _) = _
      split
      · rfl
      · exact after_braced (f.said Γ μ.trim (linkValues h l t) []) fun _ => rfl

/-- The library with three braces everywhere. -/
structure SameLib (e : Str → Str) (L' L : Library) : Prop where
  get : ∀ x, L'.get x = (L.get x).map STm.braced
  render : ∀ T Γ μ, Γ.escape = escapeNoop → L'.render T.braced (esc e Γ) (bracedMood μ) = braced (L.render T Γ μ)

include he in
theorem included_braced {L L' : Library} (hL : SameLib e L' L) (content : Option STm) (w : Str) (a : SArgs) {Γ : Scene} (h : Γ.escape = escapeNoop) (μ : Mood) :
    included L' (content.map STm.braced) w a (esc e Γ) (bracedMood μ) = braced (included L content w a Γ μ) := by
  unfold included
  show (if Γ.calls.contains _ then _ else _) = _
  split
  · rfl
  have hg : (bracedMood μ).given (content.map STm.braced) = bracedMood (μ.given content) := by cases content <;> rfl
  rw [hg]
  have ht : (bracedMood μ).trim = μ.trim := rfl
  rw [ht]
  generalize μ.given content = ν
  have hf : L'.find (bracedMood ν) w = (L.find ν w).map STm.braced := by
    unfold Library.find
    rw [hL.get]
    split
    · obtain ⟨a, b, c, d⟩ := ν
      cases c <;> rfl
    · rfl
  rw [hf]
  cases L.find ν w with
  | none => rfl
  | some T =>
      simp only [Option.map_some]
      show Outcome.after ((named a).eval (esc e (Γ.enter _)) μ.trim) (fun hs => Outcome.after (positional a (esc e (Γ.enter _)) μ.trim) _) = _
      rw [hash_esc he _ (Γ := Γ.enter (.part w)) h, positional_esc he _ (Γ := Γ.enter (.part w)) h]
      exact after_braced ((named a).eval (Γ.enter (.part w)) μ.trim) fun hs =>
        after_braced (positional a (Γ.enter (.part w)) μ.trim) fun vs => hL.render T ((Γ.enter (.part w)).push _) ν h

include he in
theorem partial_braced {L L' : Library} (hL : SameLib e L' L) (content : Option STm) (p : SPath) (a : SArgs) {Γ : Scene} (h : Γ.escape = escapeNoop) (μ : Mood) :
    partialCall L' (content.map STm.braced) p a (esc e Γ) (bracedMood μ) = braced (partialCall L content p a Γ μ) := by
  unfold partialCall
  split
  · rfl
  · exact included_braced he hL content _ a h μ

include he in
theorem computed_braced {L L' : Library} (hL : SameLib e L' L) (q : SPath) (b a : SArgs) {Γ : Scene} (h : Γ.escape = escapeNoop) (μ : Mood) :
    computedCall L' q b a (esc e Γ) (bracedMood μ) = braced (computedCall L q b a Γ μ) := by
  unfold computedCall
  rw [expr_esc he _ h]
  exact after_braced ((SExpr.sub q b).eval Γ μ.trim) fun v => included_braced he hL none _ a h μ

include he in
theorem prints_braced {Γ : Scene} (h : Γ.escape = escapeNoop) (raw : Bool) (p : SPath) (a : SArgs) (k : Cut) (μ : Mood) :
    prints (esc e Γ) true ((SExpr.sub p a).eval (esc e Γ) k) (bracedMood μ) = braced (prints Γ raw ((SExpr.sub p a).eval Γ k) μ) := by
  rw [expr_esc he _ h]
  unfold prints
  refine after_braced ((SExpr.sub p a).eval Γ k) fun v => ?_
  cases v with
  | none => rfl
  | some v =>
      show wrote ((esc e Γ).print μ.trim ⟨false, stringify v⟩) (bracedMood μ) = braced (wrote (Γ.print μ.trim ⟨!raw, stringify v⟩) μ)
      have : (esc e Γ).print μ.trim ⟨false, stringify v⟩ = Γ.print μ.trim ⟨!raw, stringify v⟩ := by
        unfold Scene.print
        rw [h]
        cases raw <;> rfl
      rw [this]
      rfl

theorem clauseEnd_braced (cs : SCls) (cl : Tilde) : clauseEnd cs.braced cl = clauseEnd cs cl := by
  cases cs <;> rfl

include he
mutual
theorem tm_braced {L L' : Library} (hL : SameLib e L' L) : ∀ (T : STm) {Γ : Scene} (_ : Γ.escape = escapeNoop) (o c s : Bool) (μ : Mood),
    tm L' T.braced (esc e Γ) o c s (bracedMood μ) = braced (tm L T Γ o c s μ)
  | .nil, Γ, hΓ, o, c, s, μ => by rw [STm.braced, tm, tm]; rfl
  | .text w r, Γ, hΓ, o, c, s, μ => by
      rw [STm.braced, tm, tm, stops_braced]
      exact andThen_braced (b := wrote _ ((bracedMood μ).next false ⟨s || μ.close, stops r c⟩)) rfl (tm_braced hL r hΓ o c false)
  | .comment w r, Γ, hΓ, o, c, s, μ => by
      rw [STm.braced, tm, tm, stops_braced]
      exact andThen_braced (b := wrote _ ((bracedMood μ).next false ⟨s || μ.close, stops r c⟩)) rfl (tm_braced hL r hΓ o c false)
  | .longComment w r, Γ, hΓ, o, c, s, μ => by
      rw [STm.braced, tm, tm, stops_braced]
      exact andThen_braced (b := wrote _ ((bracedMood μ).next false ⟨s || μ.close, stops r c⟩)) rfl (tm_braced hL r hΓ o c false)
  | .escaped w r, Γ, hΓ, o, c, s, μ => by
      rw [STm.braced, tm, tm, stops_braced]
      exact andThen_braced (b := wrote _ ((bracedMood μ).next false ⟨s || μ.close, stops r c⟩)) rfl (tm_braced hL r hΓ o c false)
  | .link b h l t r, Γ, hΓ, o, c, s, μ => by
      rw [STm.braced, tm, tm, stops_braced]
      exact andThen_braced (link_braced he hΓ b h l t (μ.next false ⟨s || μ.close, stops r c⟩)) (tm_braced hL r hΓ o c false)
  | .stmt raw part tl p a r, Γ, hΓ, o, c, s, μ => by
      rw [STm.braced, tm, tm, stops_braced]
      refine andThen_braced ?_ (tm_braced hL r hΓ o c tl.after)
      cases part with
      | true =>
          simp only [if_true]
          exact partial_braced he hL none p a hΓ (μ.next tl.after ⟨s || μ.close, stops r c⟩)
      | false =>
          rw [show (raw || !false) = true by cases raw <;> rfl]
          simp only [Bool.false_eq_true, if_false]
          exact prints_braced he hΓ raw p a _ (μ.next tl.after ⟨s || μ.close, stops r c⟩)
  | .dyn raw part tl q b a r, Γ, hΓ, o, c, s, μ => by
      rw [STm.braced, tm, tm, stops_braced]
      refine andThen_braced ?_ (tm_braced hL r hΓ o c tl.after)
      cases part with
      | true =>
          simp only [if_true]
          exact computed_braced he hL q b a hΓ (μ.next tl.after ⟨s || μ.close, stops r c⟩)
      | false =>
          rw [show (raw || !false) = true by cases raw <;> rfl]
          simp only [Bool.false_eq_true, if_false]
          exact prints_braced he hΓ raw q b _ (μ.next tl.after ⟨s || μ.close, stops r c⟩)
  | .rawBlock tl w a x cl r, Γ, hΓ, o, c, s, μ => by
      rw [STm.braced, tm, tm, stops_braced]
      refine andThen_braced ?_ (tm_braced hL r hΓ o c o)
      split
      · exact helped_braced he (D := fun _ μ => wrote (cut (μ.hint || tl.after || μ.close) cl.before x) ⟨false, cl.after, μ.block, ⟨μ.hint || tl.after || μ.close, cl.before⟩⟩)
          (A := fun _ μ => wrote [] μ) (fun _ _ _ => rfl) (fun _ _ _ => rfl) w (some (cut tl.after cl.before x)) a hΓ { μ.next tl.after ⟨s || μ.close, stops r c⟩ with close := cl.after }
      · rfl
  | .block part tl w a body cs cl r, Γ, hΓ, o, c, s, μ => by
      rw [STm.braced, tm, tm, stops_braced]
      refine andThen_braced ?_ (tm_braced hL r hΓ o c o)
      split
      · exact partial_braced he hL (some body) _ a hΓ (μ.next tl.after ⟨s || μ.close, stops r c⟩)
      · refine block_braced he (D := fun Δ μ => (tm L body Δ tl.after cl.before (μ.hint || tl.after) μ).andThen fun μ => wrote [] { μ with close := !isNil body && cl.after })
          (A := fun Δ μ => clauses L cs cl Δ (fun μ => wrote [] μ) μ) (fun Δ ν hΔ => ?_) (fun Δ ν hΔ => ?_) w a hΓ (μ.next tl.after ⟨s || μ.close, stops r c⟩)
        · refine andThen_braced (tm_braced hL body hΔ _ _ _ ν) fun κ => ?_
          rw [isNil_braced]
          rfl
        · exact cls_braced hL cs cl hΔ _ _ (fun _ => rfl) ν
theorem cls_braced {L L' : Library} (hL : SameLib e L' L) : ∀ (cs : SCls) (cl : Tilde) {Γ : Scene} (_ : Γ.escape = escapeNoop) (f g : Mood → Outcome),
    (∀ μ, g (bracedMood μ) = braced (f μ)) → ∀ μ, clauses L' cs.braced cl (esc e Γ) g (bracedMood μ) = braced (clauses L cs cl Γ f μ)
  | .nil, cl, Γ, hΓ, f, g, hf, μ => by rw [SCls.braced, clauses, clauses]; exact hf μ
  | .cons tl none body r, cl, Γ, hΓ, f, g, hf, μ => by
      rw [SCls.braced, clauses, clauses, clauseEnd_braced, isNil_braced]
      exact cls_braced hL r cl hΓ _ _ (fun ν => andThen_braced (tm_braced hL body hΓ _ _ _ ν) fun κ => rfl) μ
  | .cons tl (some (p, a)) body r, cl, Γ, hΓ, f, g, hf, μ => by
      rw [SCls.braced, clauses, clauses, clauseEnd_braced, isNil_braced]
      rw [expr_esc he _ hΓ]
      refine after_braced ((SExpr.sub p a).eval Γ μ.trim) fun v => ?_
      split
      · exact andThen_braced (tm_braced hL body hΓ _ _ _ μ) fun κ => rfl
      · exact cls_braced hL r cl hΓ f g hf μ
end

theorem depth_braced {get get' : Str → Option STm} (h : ∀ x, get' x = (get x).map STm.braced) : ∀ n, SameLib e (Full.depth get' n) (Full.depth get n)
  | 0 => ⟨h, fun _ _ _ _ => rfl⟩
  | n + 1 => ⟨h, fun T Γ μ hΓ => tm_braced he (depth_braced h n) T hΓ false false μ.hint μ⟩

end

end Bracket.Props.Braces
