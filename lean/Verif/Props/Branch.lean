import Verif.Spec.Branch
import Verif.Props.Items

/-! C90: a conditional renders as the branch it takes. -/

set_option linter.unusedSectionVars false

namespace Bracket.Props
open Bracket Spec
open Bracket.Spec.Full hiding block blockHelper contents rounds builtinBlock depth

namespace Branch
open Bracket.Props.Alike Bracket.Props.Alone

/-- `Γ` is `Δ` inside `x`. -/
structure Under (x : CallSite) (Γ Δ : Scene) : Prop where
  strict : Δ.strict = Γ.strict
  escape : Δ.escape = Γ.escape
  file : Δ.file = Γ.file
  root : Δ.root = Γ.root
  scopes : Δ.scopes = Γ.scopes
  calls : Γ.calls = Δ.calls ++ [x]

theorem Under.alike {w : Str} {N : SPath → Bool} {Q : Option Str → Bool} {X : Str → Prop}
    (hX : ∀ u, (u = blockMissingName ∨ N ⟨0, .name u, []⟩ = true) → u ≠ w ∨ X u) : Alike False X N Q (Under (.block w)) where
  enter h y := ⟨h.strict, h.escape, h.file, h.root, h.scopes, by simp [Scene.enter, h.calls]⟩
  push h sc _ := ⟨h.strict, h.escape, h.file, h.root, by simp [Scene.push, h.scopes], h.calls⟩
  helper h u := by
    unfold Scene.full
    rw [h.calls, List.count_append, List.count_eq_zero.2 (by simp : CallSite.helper u ∉ [CallSite.block w]), Nat.add_zero]
  block h u hu := full_block h.calls ((hX u hu).imp_left fun h e => h (by injection e with e; exact e.symm))
  part h u _ := by
    rw [h.calls, Bool.eq_iff_iff, List.contains_iff_mem, List.contains_iff_mem, List.mem_append]
    constructor
    · exact .inl
    · rintro (h | h)
      · exact h
      · cases List.mem_singleton.1 h
  find h p _ := by unfold Scene.find; rw [h.root, h.scopes]
  escape h := h.escape
  strict h := h.strict
  file h := h.file

end Branch

section
variable [H : Host] [C : Custom]
open Alone Alike Branch

/-- What the clauses come to is the one picked. -/
theorem clauses_pick (L : Library) {Γ : Scene} {Z : Option STm} {cs : List (SPath × SArgs × STm)} {T : STm} (h : FallsTo Γ Z cs T) (f : Mood → Outcome) (hf : f fresh = wrote [] fresh) :
    ∃ b : Mood → Bool, clauses L (elses cs Z) ⟨false, false, [], [], []⟩ Γ f fresh = (tm L T Γ false false false fresh).andThen fun μ => wrote [] { μ with close := b μ } := by
  induction h with
  | @here p a T r v h1 h2 =>
      refine ⟨fun _ => !isNil T && (clauseEnd (elses r Z) ⟨false, false, [], [], []⟩).2, ?_⟩
      rw [elses, clauses, show fresh.trim = .none from rfl, h1]
      simp only [said, Outcome.after, h2, if_true, List.nil_append]
      cases r with
      | nil => cases Z <;> rfl
      | cons x r => rfl
  | @next p a S T r v h1 h2 h3 ih =>
      obtain ⟨b, ih⟩ := ih
      refine ⟨b, ?_⟩
      rw [elses, clauses, show fresh.trim = .none from rfl, h1]
      simp only [said, Outcome.after, h2, Bool.false_eq_true, if_false, List.nil_append]
      exact ih
  | last =>
      cases Z with
      | none => exact ⟨(·.close), by rw [elses, clauses, hf, Option.getD_none, tm]; rfl⟩
      | some Z => exact ⟨fun _ => !isNil Z && false, by rw [elses, clauses, clauses]; rfl⟩

theorem cond_name (neg : Bool) : isHelper (condName neg) = true := by
  unfold isHelper
  rw [show helperNames.contains (condName neg) = true from by cases neg <;> decide, Bool.or_true]

/-- A condition means the same inside a block. -/
theorem eval_under (w : Str) {Γ Δ : Scene} (h : Under (.block w) Γ Δ) (x : SExpr) : x.eval Δ .none = x.eval Γ .none :=
  same_expr (Under.alike (X := fun _ => True) (N := fun _ => true) (Q := fun _ => true) fun _ _ => .inr trivial) x (every_expr (fun _ => rfl) (fun _ _ => rfl) x) h .none

theorem chooses_under {w : Str} {Γ Δ : Scene} (h : Under (.block w) Γ Δ) {Z : Option STm} {cs : List (SPath × SArgs × STm)} {T : STm} (hp : FallsTo Δ Z cs T) : FallsTo Γ Z cs T := by
  induction hp with
  | here h1 h2 => exact .here ((eval_under w h _).symm.trans h1) h2
  | next h1 h2 _ ih => exact .next ((eval_under w h _).symm.trans h1) h2 ih
  | last => exact .last

theorem cond_taken (neg : Bool) (hw : Custom.fn (condName neg) = none) (c : SExpr) (A : STm) (cs : List (SPath × SArgs × STm)) (Z : Option STm) (T : STm) (d : Value)
    (lib : List (Str × STm)) (reg : Reg) (hb : Equipped reg) (hl : Full.Holds reg lib) (K : SPath → Bool) (X : Str → Prop)
    (hX : ∀ w, (w = blockMissingName ∨ K ⟨0, .name w, []⟩ = true) → w ≠ condName neg ∨ X w)
    (hT : T.every K anyCall (fun _ => true) = true) (hlib : ∀ q U, lib.lookup q = some U → U.every K anyCall (fun _ => true) = true)
    (name : Str) (ht : Takes (Scene.start reg name d) neg c A cs Z T) (hTok : T.ok [] = true) (hok : (condOn neg c A cs Z).ok [] = true) :
    ∃ N, ∀ n, N ≤ n → Reg.once n reg name (condOn neg c A cs Z).src d = reported (Reg.once n reg name T.src d) ∨
      ∃ w e, X w ∧ TooDeep w e ∧ Reg.once n reg name (condOn neg c A cs Z).src d = .err (.render e) := by
  obtain ⟨N, h⟩ := whole_once _ hok lib reg hb hl (lib.length + 1) (Nat.le_refl _) name d
  obtain ⟨M, h'⟩ := whole_once T hTok lib reg hb hl (lib.length + 1) (Nat.le_refl _) name d
  refine ⟨max N M, fun n hn' => ?_⟩
  rw [h n (Nat.le_trans (Nat.le_max_left ..) hn'), h' n (Nat.le_trans (Nat.le_max_right ..) hn')]
  have hu : Under (.block (condName neg)) ((Scene.start reg name d).enter (.block (condName neg))) (Scene.start reg name d) := ⟨rfl, rfl, rfl, rfl, rfl, rfl⟩
  have t : Alike False X K (fun _ => true) (Under (.block (condName neg))) := Under.alike hX
  have key := (agree_tm t (fun h => h.elim) (agree_depth t (fun h => h.elim) (get := (lib.lookup ·)) (fun _ _ => rfl) (fun q U _ hU => hlib q U hU) (lib.length + 1)) T hT
    hu false false false fresh (fun _ h => by cases h)).same
  have fin : ∀ b : Mood → Bool, (((tm (Full.depth (lib.lookup ·) (lib.length + 1)) T ((Scene.start reg name d).enter (.block (condName neg))) false false false fresh).andThen
      fun μ => wrote [] { μ with close := b μ }).within.result = reported (tm (Full.depth (lib.lookup ·) (lib.length + 1)) T (Scene.start reg name d) false false false fresh).result) ∨
      ∃ w e, X w ∧ TooDeep w e ∧ ((tm (Full.depth (lib.lookup ·) (lib.length + 1)) T ((Scene.start reg name d).enter (.block (condName neg))) false false false fresh).andThen
      fun μ => wrote [] { μ with close := b μ }).within.result = .err (.render e) := by
    intro b
    rcases key with key | key
    · left
      rw [key]
      generalize tm (Full.depth (lib.lookup ·) (lib.length + 1)) T ((Scene.start reg name d).enter (.block (condName neg))) false false false fresh = o
      obtain ⟨w, o⟩ := o
      cases o with
      | error e => cases e <;> rfl
      | ok μ => simp [Outcome.andThen, Outcome.within, wrote, Outcome.result, reported]
    · exact .inr (over_result (over_within (over_andThen key)))
  obtain ⟨v, hv, hpick⟩ : ∃ v : Option Value, c.eval (Scene.start reg name d) .none = said v ∧
      ((isTruthy (v.getD .null) = !neg ∧ T = A) ∨ (isTruthy (v.getD .null) = neg ∧ FallsTo (Scene.start reg name d) Z cs T)) := by
    cases ht with
    | body h1 h2 => exact ⟨_, h1, .inl ⟨h2, rfl⟩⟩
    | other h1 h2 h3 => exact ⟨_, h1, .inr ⟨h2, h3⟩⟩
  have hev : (SArgs.arg c (.done .nil)).eval ((Scene.start reg name d).enter (.block (condName neg))) .none = said ([v.getD .null], []) := by
    rw [SArgs.arg, SArgs.eval, ← eval_under _ hu, hv]
    rfl
  unfold condOn
  rw [Full.tm, if_neg (by simp), result_nil]
  unfold Full.block
  rw [if_pos (cond_name neg)]
  unfold helped
  rw [if_neg (by simp [Scene.full, Scene.start])]
  rw [show (Mood.next ⟨false, false, none, .none⟩ false ⟨false || false, stops .nil false⟩) = fresh from rfl, show fresh.trim = .none from rfl, hev]
  unfold Full.blockHelper
  rw [hw]
  unfold Full.builtinBlock
  simp only [said, Outcome.after, List.nil_append]
  have go : ∀ o : Outcome, (∃ b : Mood → Bool, o = (tm (Full.depth (lib.lookup ·) (lib.length + 1)) T ((Scene.start reg name d).enter (.block (condName neg))) false false false fresh).andThen
      fun μ => wrote [] { μ with close := b μ }) →
      o.within.result = reported (tm (Full.depth (lib.lookup ·) (lib.length + 1)) T (Scene.start reg name d) false false false fresh).result ∨
      ∃ w e, X w ∧ TooDeep w e ∧ o.within.result = .err (.render e) := by
    rintro o ⟨b, rfl⟩
    exact fin b
  have halt := fun hp : FallsTo (Scene.start reg name d) Z cs T =>
    go _ (clauses_pick (Full.depth (lib.lookup ·) (lib.length + 1)) (chooses_under hu hp) (fun μ => wrote [] μ) rfl)
  cases neg with
  | false =>
      rw [if_pos (show condName false = c!"if" from rfl)]
      rcases hpick with ⟨h1, h2⟩ | ⟨h1, h2⟩
      · rw [h1, Bool.not_false, if_pos rfl]
        subst h2
        exact go _ ⟨fun _ => !isNil T && false, rfl⟩
      · rw [h1, if_neg (by simp)]
        exact halt h2
  | true =>
      rw [if_neg (by decide), if_pos (show condName true = c!"unless" from rfl)]
      rcases hpick with ⟨h1, h2⟩ | ⟨h1, h2⟩
      · rw [h1, Bool.not_true, if_neg (by simp)]
        subst h2
        exact go _ ⟨fun _ => !isNil T && false, rfl⟩
      · rw [h1, if_pos rfl]
        exact halt h2

/-- **C90**: `{{#if c}}A{{else …}}…{{else}}Z{{/if}}` (or `unless`) renders as the branch it takes does on its own, with the same
data: the same text, the same error reported through the helper, or a panic.  The others are as if they were not there.  With
more such blocks inside, this holds unless there are too many inside one another. -/
theorem C90 (neg : Bool) (hw : Custom.fn (condName neg) = none) (c : SExpr) (A : STm) (cs : List (SPath × SArgs × STm)) (Z : Option STm) (T : STm) (d : Value)
    (lib : List (Str × STm)) (reg : Reg) (hb : Equipped reg) (hl : Full.Holds reg lib)
    (name : Str) (ht : Takes (Scene.start reg name d) neg c A cs Z T) (hTok : T.ok [] = true) (hok : (condOn neg c A cs Z).ok [] = true) :
    ∃ N, ∀ n, N ≤ n → UnlessDeep (condName neg) (Reg.once n reg name (condOn neg c A cs Z).src d) (reported (Reg.once n reg name T.src d)) := by
  obtain ⟨N, h⟩ := cond_taken neg hw c A cs Z T d lib reg hb hl (fun _ => true) (· = condName neg) (fun w hw => by
    by_cases h : w = condName neg
    · exact .inr h
    · exact .inl h) (every_tm (fun _ => rfl) (fun _ _ => rfl) (fun _ => rfl) T) (fun _ U _ => every_tm (fun _ => rfl) (fun _ _ => rfl) (fun _ => rfl) U) name ht hTok hok
  refine ⟨N, fun n hn => (h n hn).imp_right ?_⟩
  rintro ⟨w, e, rfl, h⟩
  exact ⟨e, h⟩

/-- **C90**: without more such blocks in the branch and in the partials it always holds. -/
theorem C90_single (neg : Bool) (hw : Custom.fn (condName neg) = none) (c : SExpr) (A : STm) (cs : List (SPath × SArgs × STm)) (Z : Option STm) (T : STm) (d : Value)
    (lib : List (Str × STm)) (reg : Reg) (hb : Equipped reg) (hl : Full.Holds reg lib)
    (hT : T.without (condName neg) = true) (hlib : ∀ q U, lib.lookup q = some U → U.without (condName neg) = true)
    (name : Str) (ht : Takes (Scene.start reg name d) neg c A cs Z T) (hTok : T.ok [] = true) (hok : (condOn neg c A cs Z).ok [] = true) :
    ∃ N, ∀ n, N ≤ n → Reg.once n reg name (condOn neg c A cs Z).src d = reported (Reg.once n reg name T.src d) := by
  obtain ⟨N, h⟩ := cond_taken neg hw c A cs Z T d lib reg hb hl (· != ⟨0, .name (condName neg), []⟩) (fun _ => False) (fun w hw => .inl fun h => by
      subst h
      rcases hw with hw | hw
      · exact absurd hw (by cases neg <;> decide)
      · simp at hw) hT hlib name ht hTok hok
  refine ⟨N, fun n hn => ?_⟩
  rcases h n hn with h | ⟨_, _, h, _⟩
  · exact h
  · cases h

end

/-! ### Examples -/

attribute [local instance] exHost noCustom

private def t0 : Tilde := ⟨false, false, [], [], []⟩
private def nm (w : Str) : SPath := ⟨0, .name w, []⟩
private def oneTm : STm := .text c!"one" .nil
/-- `{{~x}} {{#unless y}}u{{/unless}}` -/
private def twoTm : STm := .stmt false false ⟨true, false, [], [], []⟩ (nm c!"x") (.done .nil) <| .text c!" " <|
  .block false t0 c!"unless" (.arg (.path (nm c!"y")) (.done .nil)) (.text c!"u" .nil) .nil t0 .nil
private def chainTm : STm := condOn false (.path (nm c!"a")) oneTm [(nm c!"if", .arg (.path (nm c!"b")) (.done .nil), twoTm)] (some (.text c!"none" .nil))

example : String.ofList chainTm.src = "{{#if a}}one{{else if b}}{{~x}} {{#unless y}}u{{/unless}}{{else}}none{{/if}}" := by decide +kernel
example : chainTm.ok [] = true ∧ twoTm.ok [] = true ∧ twoTm.without c!"if" = true ∧ twoTm.without c!"unless" = false := by decide +kernel
example : Takes (Scene.start Reg.new c!"t" (.obj [(c!"b", .bool true), (c!"x", .str c!"X")])) false (.path (nm c!"a")) oneTm
    [(nm c!"if", .arg (.path (nm c!"b")) (.done .nil), twoTm)] (some (.text c!"none" .nil)) twoTm :=
  .other (v := none) rfl rfl (.here (v := some (.bool true)) rfl rfl)
example : Takes (Scene.start Reg.new c!"t" (.obj [])) false (.path (nm c!"a")) oneTm
    [(nm c!"if", .arg (.path (nm c!"b")) (.done .nil), twoTm)] (some (.text c!"none" .nil)) (.text c!"none" .nil) :=
  .other (v := none) rfl rfl (.next (v := some (.bool false)) rfl rfl .last)
example : (Full.meaning [] chainTm (Scene.start Reg.new c!"t" (.obj [(c!"b", .bool true), (c!"x", .str c!"X")]))).1 = c!"X u" ∧
    (Full.meaning [] twoTm (Scene.start Reg.new c!"t" (.obj [(c!"b", .bool true), (c!"x", .str c!"X")]))).1 = c!"X u" := by decide +kernel

end Bracket.Props
