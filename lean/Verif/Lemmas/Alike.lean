import Verif.Spec.Alone
import Verif.Lemmas.Tied

/-! Two runs of the reference interpreter, in scenes that the paths, the blocks and the partials a template mentions
cannot tell apart. -/

set_option linter.unusedSectionVars false

namespace Bracket.Props.Alike
open Bracket Spec Bracket.Props
open Bracket.Spec.Full hiding block blockHelper contents rounds builtinBlock depth
open Bracket.Props.Tied (named_every)

/-- Any call. -/
abbrev anyCall : SPath → SArgs → Bool := fun _ _ => true

/-- Scenes that the paths `N` and the partials `Q` cannot tell apart, and which stay so; in the first there may be no room for
one more block `X`. -/
structure Alike (V : Prop) (X : Str → Prop) (N : SPath → Bool) (Q : Option Str → Bool) (S : Scene → Scene → Prop) : Prop where
  enter : ∀ {Γ Δ}, S Γ Δ → ∀ x, S (Γ.enter x) (Δ.enter x)
  push : ∀ {Γ Δ}, S Γ Δ → ∀ x : Scope, (V → x.value.isSome = true) → S (Γ.push x) (Δ.push x)
  helper : ∀ {Γ Δ}, S Γ Δ → ∀ w, Δ.full (.helper w) = Γ.full (.helper w)
  block : ∀ {Γ Δ}, S Γ Δ → ∀ w, (w = blockMissingName ∨ N ⟨0, .name w, []⟩ = true) → Δ.full (.block w) = Γ.full (.block w) ∨ (X w ∧ Γ.full (.block w) = true)
  part : ∀ {Γ Δ}, S Γ Δ → ∀ w, Q (some w) = true → Δ.calls.contains (.part w) = Γ.calls.contains (.part w)
  find : ∀ {Γ Δ}, S Γ Δ → ∀ p, N p = true → Δ.find p = Γ.find p
  escape : ∀ {Γ Δ}, S Γ Δ → Δ.escape = Γ.escape
  strict : ∀ {Γ Δ}, S Γ Δ → Δ.strict = Γ.strict
  file : ∀ {Γ Δ}, S Γ Δ → Δ.file = Γ.file

section
variable {V : Prop} {X : Str → Prop} {N : SPath → Bool} {Q : Option Str → Bool} {S : Scene → Scene → Prop}

/-- A block `X` is too deep. -/
def Over (X : Str → Prop) (a : Outcome) : Prop := ∃ w e, X w ∧ a.2 = .error (.err e) ∧ TooDeep w e

theorem over_andThen {a : Outcome} {k : Mood → Outcome} : Over X a → Over X (a.andThen k) := by
  rintro ⟨w, e, h1, h2, h3⟩
  obtain ⟨u, x⟩ := a
  cases h2
  exact ⟨w, e, h1, rfl, h3⟩
theorem over_within {a : Outcome} : Over X a → Over X a.within := by
  rintro ⟨w, e, h1, h2, h3⟩
  obtain ⟨u, x⟩ := a
  cases h2
  exact ⟨w, _, h1, rfl, .inside h3⟩

/-- The same outcome, unless a block is too deep, and a content for `@partial-block` of the kind considered. -/
structure Agree (X : Str → Prop) (N : SPath → Bool) (Q : Option Str → Bool) (a b : Outcome) : Prop where
  same : b = a ∨ Over X a
  kind : ∀ μ, a.2 = .ok μ → Tied.Kind N anyCall Q μ

theorem agree_wrote (w : Str) {μ : Mood} (h : Tied.Kind N anyCall Q μ) : Agree X N Q (wrote w μ) (wrote w μ) :=
  ⟨.inl rfl, fun ν hν => by cases hν; exact h⟩
theorem agree_failed (f : Fault) : Agree X N Q (failed f) (failed f) := ⟨.inl rfl, fun ν hν => by cases hν⟩
theorem agree_over {a b : Outcome} (h : Over X a) : Agree X N Q a b := ⟨.inr h, fun ν hν => by obtain ⟨w, e, _, h, _⟩ := h; rw [h] at hν; cases hν⟩

theorem agree_andThen {a b : Outcome} {k l : Mood → Outcome} (h : Agree X N Q a b) (hk : ∀ μ, Tied.Kind N anyCall Q μ → Agree X N Q (k μ) (l μ)) :
    Agree X N Q (a.andThen k) (b.andThen l) := by
  obtain ⟨rfl | h, h2⟩ := h
  · obtain ⟨u, x⟩ := b
    cases x with
    | error f => exact ⟨.inl rfl, fun ν hν => by cases hν⟩
    | ok μ =>
        obtain ⟨g1, g2⟩ := hk μ (h2 μ rfl)
        refine ⟨?_, fun ν hν => g2 ν hν⟩
        rcases g1 with g1 | ⟨w, e, g1, g2, g3⟩
        · exact .inl (by show (u ++ (l μ).1, (l μ).2) = (u ++ (k μ).1, (k μ).2); rw [g1])
        · exact .inr ⟨w, e, g1, g2, g3⟩
  · exact agree_over (over_andThen h)

theorem agree_within {a b : Outcome} (h : Agree X N Q a b) : Agree X N Q a.within b.within := by
  obtain ⟨rfl | h, h2⟩ := h
  · obtain ⟨u, x⟩ := b
    refine ⟨.inl rfl, fun μ hμ => ?_⟩
    cases x with
    | error g => cases hμ
    | ok κ => cases hμ; exact h2 _ rfl
  · exact agree_over (over_within h)

theorem agree_after {α : Type} {x y : Said α} {k l : α → Outcome} (h : y = x) (hk : ∀ v, Agree X N Q (k v) (l v)) : Agree X N Q (.after x k) (.after y l) := by
  subst h
  obtain ⟨u, y⟩ := y
  cases y with
  | error f => exact ⟨.inl rfl, fun ν hν => by cases hν⟩
  | ok v =>
      obtain ⟨g1, g2⟩ := hk v
      refine ⟨?_, fun ν hν => g2 ν hν⟩
      rcases g1 with g1 | ⟨w, e, g1, g2, g3⟩
      · exact .inl (by show (u ++ (l v).1, (l v).2) = (u ++ (k v).1, (k v).2); rw [g1])
      · exact .inr ⟨w, e, g1, g2, g3⟩

theorem Agree.exact {a b : Outcome} (h : Agree (fun _ => False) N Q a b) : b = a := by
  rcases h.same with h | ⟨_, _, h, _⟩
  · exact h
  · cases h

variable (t : Alike V X N Q S)
include t

theorem same_print {Γ Δ : Scene} (h : S Γ Δ) (k : Cut) (x : Print) : Δ.print k x = Γ.print k x := by unfold Scene.print; rw [t.escape h]
theorem same_absent {Γ Δ : Scene} (h : S Γ Δ) (p : SPath) : Δ.absent p = Γ.absent p := by unfold Scene.absent; rw [t.strict h, t.file h]

variable [H : Host] [C : Custom]

theorem same_said {Γ Δ : Scene} (h : S Γ Δ) (k : Cut) (f : CustomFn) (vs : List Value) (hs : List (Str × Value)) : f.said Δ k vs hs = f.said Γ k vs hs := by
  unfold CustomFn.said Scene.printAll
  rw [show Δ.print k = Γ.print k from funext (same_print t h k)]
theorem same_value {Γ Δ : Scene} (h : S Γ Δ) (k : Cut) (w : Str) (vs : List Value) (hs : List (Str × Value)) : helperValue w Δ k vs hs = helperValue w Γ k vs hs := by
  unfold helperValue
  cases (Custom.fn w : Option CustomFn) with
  | none => rfl
  | some f => exact same_said t h k f vs hs

mutual
theorem same_expr : ∀ (x : SExpr), x.every N anyCall = true → ∀ {Γ Δ : Scene} (_ : S Γ Δ) (k : Cut), x.eval Δ k = x.eval Γ k
  | .path p, hx, Γ, Δ, h, k => by rw [SExpr.every] at hx; rw [SExpr.eval, SExpr.eval, t.find h p hx]
  | .lit l, hx, Γ, Δ, h, k => by rw [SExpr.eval, SExpr.eval]
  | .sub p a, hx, Γ, Δ, h, k => by
      rw [SExpr.every] at hx
      simp only [Bool.and_eq_true] at hx
      rw [SExpr.eval, SExpr.eval]
      cases p.helper with
      | some w =>
          simp only
          rw [t.helper h, same_args a hx.2 (t.enter h (.helper w)) k]
          simp only [same_value t h]
      | none =>
          simp only
          rw [t.find h p hx.1.1, same_absent t h, t.helper h, same_args a hx.2 (t.enter h (.helper missingName)) k]
          simp only [same_said t h]
theorem same_args : ∀ (a : SArgs), a.every N anyCall = true → ∀ {Γ Δ : Scene} (_ : S Γ Δ) (k : Cut), a.eval Δ k = a.eval Γ k
  | .done x, hx, Γ, Δ, h, k => by rw [SArgs.every] at hx; rw [SArgs.eval, SArgs.eval, same_hash x hx h k]
  | .argW w x r, hx, Γ, Δ, h, k => by
      rw [SArgs.every] at hx
      simp only [Bool.and_eq_true] at hx
      rw [SArgs.eval, SArgs.eval, same_expr x hx.1 h k, same_args r hx.2 h k]
theorem same_hash : ∀ (x : SHash), x.every N anyCall = true → ∀ {Γ Δ : Scene} (_ : S Γ Δ) (k : Cut), x.eval Δ k = x.eval Γ k
  | .tail w, hx, Γ, Δ, h, k => by rw [SHash.eval, SHash.eval]
  | .pairW w n x r, hx, Γ, Δ, h, k => by
      rw [SHash.every] at hx
      simp only [Bool.and_eq_true] at hx
      rw [SHash.eval, SHash.eval, same_expr x hx.1 h k, same_hash r hx.2 h k]
end

theorem same_sub {p : SPath} {a : SArgs} (hp : N p = true) (ha : a.every N anyCall = true) {Γ Δ : Scene} (h : S Γ Δ) (k : Cut) :
    (SExpr.sub p a).eval Δ k = (SExpr.sub p a).eval Γ k :=
  same_expr t (.sub p a) (by rw [SExpr.every, hp, ha]; rfl) h k

theorem same_positional : ∀ (a : SArgs), a.every N anyCall = true → ∀ {Γ Δ : Scene} (_ : S Γ Δ) (k : Cut), positional a Δ k = positional a Γ k
  | .done x, hx, Γ, Δ, h, k => by rw [positional, positional]
  | .argW w x r, hx, Γ, Δ, h, k => by
      rw [SArgs.every] at hx
      simp only [Bool.and_eq_true] at hx
      rw [positional, positional, same_expr t x hx.1 h k, same_positional r hx.2 h k]

/-- The contents of a block. -/
def AgreeIn (X : Str → Prop) (N : SPath → Bool) (Q : Option Str → Bool) (S : Scene → Scene → Prop) (D D' : Scene → Mood → Outcome) : Prop :=
  ∀ Γ Δ, S Γ Δ → ∀ μ, Tied.Kind N anyCall Q μ → Agree X N Q (D Γ μ) (D' Δ μ)

variable {D D' A A' : Scene → Mood → Outcome} (hD : AgreeIn X N Q S D D') (hA : AgreeIn X N Q S A A')

include hD in
theorem agree_rounds {Γ Δ : Scene} (h : S Γ Δ) : ∀ rs μ, Tied.Kind N anyCall Q μ → Agree X N Q (Full.rounds D Γ rs μ) (Full.rounds D' Δ rs μ)
  | [], μ, hm => agree_wrote _ hm
  | r :: rs, μ, hm => by
      rw [Full.rounds, Full.rounds]
      exact agree_andThen (agree_within (hD _ _ (t.push h _ fun _ => rfl) μ hm)) (agree_rounds h rs)

include hD in
theorem agree_contents {Γ Δ : Scene} (h : S Γ Δ) (x : Option HelperErr) : ∀ l, (∀ sc, Act.content (some sc) ∈ l → V → sc.value.isSome = true) → ∀ μ, Tied.Kind N anyCall Q μ →
    Agree X N Q (Full.contents D Γ x l μ) (Full.contents D' Δ x l μ)
  | [], hl, μ, hm => by
      cases x with
      | none => exact agree_wrote _ hm
      | some e => exact agree_failed _
  | .print y :: l, hl, μ, hm => by
      rw [Full.contents, Full.contents, same_print t h]
      exact agree_andThen (agree_wrote _ hm) (agree_contents h x l fun sc hs => hl sc (List.mem_cons_of_mem _ hs))
  | .content none :: l, hl, μ, hm => by
      rw [Full.contents, Full.contents]
      exact agree_andThen (agree_within (hD _ _ h μ hm)) (agree_contents h x l fun sc hs => hl sc (List.mem_cons_of_mem _ hs))
  | .content (some sc) :: l, hl, μ, hm => by
      rw [Full.contents, Full.contents]
      exact agree_andThen (agree_within (hD _ _ (t.push h sc (hl sc List.mem_cons_self)) μ hm)) (agree_contents h x l fun sc hs => hl sc (List.mem_cons_of_mem _ hs))

include hD hA in
theorem agree_builtin (w : Str) (vs : List Value) (hs : List (Str × Value)) {Γ Δ : Scene} (h : S Γ Δ) (μ : Mood) (hm : Tied.Kind N anyCall Q μ) :
    Agree X N Q (Full.builtinBlock w vs hs D A Γ μ) (Full.builtinBlock w vs hs D' A' Δ μ) := by
  have val : Agree X N Q (match builtinValue w vs hs with
      | .error f => failed f
      | .ok _ => wrote [] μ) (match builtinValue w vs hs with
      | .error f => failed f
      | .ok _ => wrote [] μ) := by
    cases builtinValue w vs hs with
    | error f => exact agree_failed f
    | ok _ => exact agree_wrote _ hm
  unfold Full.builtinBlock
  match vs, val with
  | [v], val =>
      simp only
      split
      · split
        · exact agree_within (hD _ _ h μ hm)
        · exact agree_within (hA _ _ h μ hm)
      split
      · split
        · exact agree_within (hA _ _ h μ hm)
        · exact agree_within (hD _ _ h μ hm)
      split
      · cases v with
        | arr l => exact agree_rounds t hD h _ μ hm
        | obj l => exact agree_rounds t hD h _ μ hm
        | _ => exact agree_wrote _ hm
      split
      · cases v with
        | null => exact agree_wrote _ hm
        | _ => exact agree_within (hD _ _ (t.push h ⟨some _, []⟩ fun _ => rfl) μ hm)
      · exact val
  | [], val => exact val
  | _ :: _ :: _, val => exact val

include hD hA in
theorem agree_custom (f : CustomFn) (x : Option Str) (vs : List Value) (hs : List (Str × Value))
    (hf : ∀ l e, f.block x vs (hs.lookup ·) = .contents l e → ∀ sc, Act.content (some sc) ∈ l → V → sc.value.isSome = true)
    {Γ Δ : Scene} (h : S Γ Δ) (μ : Mood) (hm : Tied.Kind N anyCall Q μ) :
    Agree X N Q (customBlock f x vs hs D A Γ μ) (customBlock f x vs hs D' A' Δ μ) := by
  unfold customBlock
  cases hb : f.block x vs (fun k => hs.lookup k) with
  | contents l e => exact agree_contents t hD h e l (hf l e hb) μ hm
  | otherwise => exact agree_within (hA _ _ h μ hm)

variable (hV : V → Valued)

include hD hA hV in
theorem agree_helped (w : Str) (hw : N ⟨0, .name w, []⟩ = true) (x : Option Str) {a : SArgs} (ha : a.every N anyCall = true) {Γ Δ : Scene} (h : S Γ Δ) (μ : Mood)
    (hm : Tied.Kind N anyCall Q μ) : Agree X N Q (helped w x a D A Γ μ) (helped w x a D' A' Δ μ) := by
  unfold helped
  rcases t.block h w (.inr hw) with e | ⟨hX, hf⟩
  case inr => exact agree_over ⟨w, _, hX, by rw [if_pos hf]; rfl, .here⟩
  rw [e]
  split
  · exact agree_failed _
  refine agree_after (same_args t a ha (t.enter h _) _) fun v => ?_
  unfold Full.blockHelper
  cases hc : (Custom.fn w : Option CustomFn) with
  | none => exact agree_builtin t hD hA w _ _ (t.enter h _) μ hm
  | some f => exact agree_custom t hD hA f x _ _ (fun l e hl sc hs v => (hV v).1 w f hc _ _ _ l e hl sc hs) (t.enter h _) μ hm

include hD hA hV in
theorem agree_block (w : Str) (hw : N ⟨0, .name w, []⟩ = true) {a : SArgs} (ha : a.every N anyCall = true) {Γ Δ : Scene} (h : S Γ Δ) (μ : Mood) (hm : Tied.Kind N anyCall Q μ) :
    Agree X N Q (Full.block w a D A Γ μ) (Full.block w a D' A' Δ μ) := by
  unfold Full.block
  split
  · exact agree_helped t hD hA hV w hw none ha h μ hm
  · rw [t.find h _ hw]
    cases Γ.find ⟨0, .name w, []⟩ with
    | some v =>
        simp only
        cases hg : (Custom.blockMissing : Option (Str → Value → CustomFn)) with
        | none => exact agree_within (hD _ _ h μ hm)
        | some f =>
            simp only [handled]
            rcases t.block h _ (.inl rfl) with e | ⟨hX, hf⟩
            case inr => exact agree_over ⟨_, _, hX, by rw [if_pos hf]; rfl, .here⟩
            rw [e]
            split
            · exact agree_failed _
            · exact agree_after (same_args t a ha (t.enter h _) _) fun u =>
                agree_custom t hD hA _ none _ _ (fun l e hl sc hs hv => (hV hv).2 f hg w v _ _ _ l e hl sc hs) (t.enter h _) μ hm
    | none =>
        simp only
        cases (Custom.missing : Option (Str → CustomFn)) with
        | none =>
            simp only
            rw [t.strict h]
            split
            · exact agree_failed _
            · exact agree_wrote _ hm
        | some f => exact agree_after (same_sub t hw ha h _) fun _ => agree_wrote _ hm

theorem agree_link {Γ Δ : Scene} (hS : S Γ Δ) (b : Bool) (h : Str) (l r : Option Str) (μ : Mood) (hm : Tied.Kind N anyCall Q μ) :
    Agree X N Q (Full.link Γ b h l r μ) (Full.link Δ b h l r μ) := by
  unfold Full.link
  cases (if b then none else (Custom.link : Option CustomFn)) with
  | none => exact agree_wrote _ hm
  | some f =>
      simp only
      rw [t.helper hS, same_said t hS]
      split
      · exact agree_failed _
      · exact agree_after rfl fun _ => agree_wrote _ hm

/-- The library, for scenes alike. -/
structure AgreeLib (X : Str → Prop) (N : SPath → Bool) (Q : Option Str → Bool) (S : Scene → Scene → Prop) (L : Library) : Prop where
  all : Q none = true → ∀ x, Q (some x) = true
  good : ∀ x T, Q (some x) = true → L.get x = some T → T.every N anyCall Q = true
  render : ∀ T Γ Δ μ, T.every N anyCall Q = true → S Γ Δ → Tied.Kind N anyCall Q μ → Agree X N Q (L.render T Γ μ) (L.render T Δ μ)

theorem partial_valued (vs : List Value) (hs : List (Str × Value)) : (Full.partialScope vs hs).value.isSome = true := by
  cases vs <;> rfl

theorem agree_included {L : Library} (hL : AgreeLib X N Q S L) (content : Option STm) (hc : ∀ T, content = some T → T.every N anyCall Q = true)
    (w : Str) (hq : Q (some w) = true) {a : SArgs} (ha : a.every N anyCall = true) {Γ Δ : Scene} (h : S Γ Δ) (μ : Mood) (hm : Tied.Kind N anyCall Q μ) :
    Agree X N Q (included L content w a Γ μ) (included L content w a Δ μ) := by
  unfold included
  rw [t.part h w hq]
  split
  · exact agree_failed _
  have hg : Tied.Kind N anyCall Q (μ.given content) := by
    cases content with
    | none => exact hm
    | some T => intro U hU; injection hU with hU; exact hU ▸ hc T rfl
  revert hg
  generalize μ.given content = ν
  intro hg
  have hgood : ∀ T, L.find ν w = some T → T.every N anyCall Q = true := by
    intro T
    unfold Full.Library.find
    split
    · cases hb : ν.block with
      | none => exact hL.good _ T hq
      | some U => intro e; injection e with e; exact e ▸ hg U hb
    · exact hL.good _ T hq
  cases hf : L.find ν w with
  | none => exact agree_failed _
  | some T =>
      exact agree_after (same_hash t _ (named_every ha) (t.enter h _) _) fun hs => agree_after (same_positional t a ha (t.enter h _) _) fun vs =>
        hL.render T _ _ _ (hgood T hf) (t.push (t.enter h _) _ (fun _ => partial_valued t vs hs)) hg

theorem agree_partial {L : Library} (hL : AgreeLib X N Q S L) (content : Option STm) (hc : ∀ T, content = some T → T.every N anyCall Q = true)
    (p : SPath) (hq : Q (some p.shown) = true) {a : SArgs} (ha : a.every N anyCall = true) {Γ Δ : Scene} (h : S Γ Δ) (μ : Mood) (hm : Tied.Kind N anyCall Q μ) :
    Agree X N Q (partialCall L content p a Γ μ) (partialCall L content p a Δ μ) := by
  unfold partialCall
  split
  · exact agree_failed _
  · exact agree_included t hL content hc _ hq ha h μ hm

theorem agree_prints {Γ Δ : Scene} (h : S Γ Δ) (raw : Bool) {x y : Said (Option Value)} (hx : y = x) (μ : Mood) (hm : Tied.Kind N anyCall Q μ) :
    Agree X N Q (prints Γ raw x μ) (prints Δ raw y μ) := by
  unfold prints
  refine agree_after hx fun v => ?_
  cases v with
  | none => exact agree_wrote _ hm
  | some v => simp only; rw [same_print t h]; exact agree_wrote _ hm

include hV
mutual
theorem agree_tm {L : Library} (hL : AgreeLib X N Q S L) : ∀ (T : STm), T.every N anyCall Q = true → ∀ {Γ Δ : Scene} (_ : S Γ Δ) (o c s : Bool) (μ : Mood), Tied.Kind N anyCall Q μ →
    Agree X N Q (tm L T Γ o c s μ) (tm L T Δ o c s μ)
  | .nil, hT, Γ, Δ, h, o, c, s, μ, hm => by rw [tm, tm]; exact agree_wrote _ hm
  | .text w r, hT, Γ, Δ, h, o, c, s, μ, hm => by
      rw [STm.every] at hT
      rw [tm, tm]; exact agree_andThen (agree_wrote _ (hm.next _ _)) (agree_tm hL r hT h o c false)
  | .comment w r, hT, Γ, Δ, h, o, c, s, μ, hm => by
      rw [STm.every] at hT
      rw [tm, tm]; exact agree_andThen (agree_wrote _ (hm.next _ _)) (agree_tm hL r hT h o c false)
  | .longComment w r, hT, Γ, Δ, h, o, c, s, μ, hm => by
      rw [STm.every] at hT
      rw [tm, tm]; exact agree_andThen (agree_wrote _ (hm.next _ _)) (agree_tm hL r hT h o c false)
  | .escaped w r, hT, Γ, Δ, h, o, c, s, μ, hm => by
      rw [STm.every] at hT
      rw [tm, tm]; exact agree_andThen (agree_wrote _ (hm.next _ _)) (agree_tm hL r hT h o c false)
  | .link b x l y r, hT, Γ, Δ, h, o, c, s, μ, hm => by
      rw [STm.every] at hT
      rw [tm, tm]; exact agree_andThen (agree_link t h b x l y _ (hm.next _ _)) (agree_tm hL r hT h o c false)
  | .stmt raw part tl p a r, hT, Γ, Δ, h, o, c, s, μ, hm => by
      rw [STm.every] at hT
      simp only [Bool.and_eq_true] at hT
      obtain ⟨⟨h1, h2⟩, h3⟩ := hT
      rw [tm, tm]
      refine agree_andThen ?_ (agree_tm hL r h3 h o c tl.after)
      cases part with
      | true =>
          simp only [if_true] at h1 ⊢
          exact agree_partial t hL none (fun _ h => by cases h) p h1 h2 h _ (hm.next _ _)
      | false =>
          simp only [Bool.false_eq_true, if_false, Bool.and_eq_true] at h1 ⊢
          exact agree_prints t h raw (same_sub t h1.1 h2 h _) _ (hm.next _ _)
  | .dyn raw part tl q b a r, hT, Γ, Δ, h, o, c, s, μ, hm => by
      rw [STm.every] at hT
      simp only [Bool.and_eq_true] at hT
      obtain ⟨⟨⟨h0, ⟨h1, h1'⟩, h1''⟩, h2⟩, h3⟩ := hT
      rw [tm, tm]
      refine agree_andThen ?_ (agree_tm hL r h3 h o c tl.after)
      cases part with
      | true =>
          simp only [if_true]
          exact agree_after (same_sub t h1 h1'' h _) fun v => agree_included t hL none (fun _ h => by cases h) _ (hL.all (by simpa using h0) _) h2 h _ (hm.next _ _)
      | false =>
          simp only [Bool.false_eq_true, if_false]
          exact agree_prints t h raw (same_sub t h1 h1'' h _) _ (hm.next _ _)
  | .rawBlock tl w a x cl r, hT, Γ, Δ, h, o, c, s, μ, hm => by
      rw [STm.every] at hT
      simp only [Bool.and_eq_true] at hT
      obtain ⟨⟨⟨h1, h2⟩, h3⟩, h4⟩ := hT
      rw [tm, tm]
      refine agree_andThen ?_ (agree_tm hL r h4 h o c o)
      split
      · exact agree_helped t (D := fun _ μ => wrote (cut (μ.hint || tl.after || μ.close) cl.before x) ⟨false, cl.after, μ.block, ⟨μ.hint || tl.after || μ.close, cl.before⟩⟩)
          (A := fun _ μ => wrote [] μ) (fun _ _ _ ν hν => agree_wrote _ hν) (fun _ _ _ ν hν => agree_wrote _ hν) hV w h1 _ h3 h _ hm
      · exact agree_wrote _ hm
  | .block part tl w a body cs cl r, hT, Γ, Δ, h, o, c, s, μ, hm => by
      rw [STm.every] at hT
      simp only [Bool.and_eq_true] at hT
      obtain ⟨⟨⟨⟨h1, h2⟩, h3⟩, h4⟩, h5⟩ := hT
      rw [tm, tm]
      refine agree_andThen ?_ (agree_tm hL r h5 h o c o)
      cases part with
      | true =>
          simp only [if_true] at h1 ⊢
          exact agree_partial t hL (some body) (by intro T hT; injection hT with hT; exact hT ▸ h3) ⟨0, .name w, []⟩
            (by rw [show (⟨0, .name w, []⟩ : SPath).shown = w from plain_shown rfl rfl]; exact h1) h2 h _ (hm.next _ _)
      | false =>
          simp only [Bool.false_eq_true, if_false, Bool.and_eq_true] at h1 ⊢
          refine agree_block t (fun Γ Δ h ν hν => ?_) (fun Γ Δ h ν hν => ?_) hV w h1.1 h2 h _ (hm.next _ _)
          · exact agree_andThen (agree_tm hL body h3 h _ _ _ ν hν) fun _ hκ => agree_wrote _ hκ
          · exact agree_cls hL cs h4 cl h _ _ (fun _ hκ => agree_wrote _ hκ) ν hν
theorem agree_cls {L : Library} (hL : AgreeLib X N Q S L) : ∀ (cs : SCls), cs.every N anyCall Q = true → ∀ (cl : Tilde) {Γ Δ : Scene} (_ : S Γ Δ) (f g : Mood → Outcome),
    (∀ μ, Tied.Kind N anyCall Q μ → Agree X N Q (f μ) (g μ)) → ∀ μ, Tied.Kind N anyCall Q μ → Agree X N Q (clauses L cs cl Γ f μ) (clauses L cs cl Δ g μ)
  | .nil, hT, cl, Γ, Δ, h, f, g, hf, μ, hm => by rw [clauses, clauses]; exact hf μ hm
  | .cons tl none body r, hT, cl, Γ, Δ, h, f, g, hf, μ, hm => by
      rw [SCls.every] at hT
      simp only [Bool.and_eq_true] at hT
      rw [clauses, clauses]
      exact agree_cls hL r hT.2 cl h
        (fun μ => (tm L body Γ tl.after (clauseEnd r cl).1 (μ.hint || tl.after) μ).andThen fun μ => wrote [] { μ with close := !isNil body && (clauseEnd r cl).2 })
        (fun μ => (tm L body Δ tl.after (clauseEnd r cl).1 (μ.hint || tl.after) μ).andThen fun μ => wrote [] { μ with close := !isNil body && (clauseEnd r cl).2 })
        (fun ν hν => agree_andThen (agree_tm hL body hT.1 h _ _ _ ν hν) fun _ hκ => agree_wrote _ hκ) μ hm
  | .cons tl (some (p, a)) body r, hT, cl, Γ, Δ, h, f, g, hf, μ, hm => by
      rw [SCls.every] at hT
      simp only [Bool.and_eq_true] at hT
      obtain ⟨⟨⟨⟨h1, h2⟩, h3⟩, h4⟩, h5⟩ := hT
      rw [clauses, clauses]
      refine agree_after (same_sub t h1 h3 h _) fun v => ?_
      split
      · exact agree_andThen (agree_tm hL body h4 h _ _ _ μ hm) fun _ hκ => agree_wrote _ hκ
      · exact agree_cls hL r h5 cl h f g hf μ hm
end

theorem agree_depth {get : Str → Option STm} (h0 : Q none = true → ∀ x, Q (some x) = true)
    (hg : ∀ x T, Q (some x) = true → get x = some T → T.every N anyCall Q = true) : ∀ n, AgreeLib X N Q S (Full.depth get n)
  | 0 => ⟨h0, hg, fun _ _ _ _ _ _ _ => agree_failed _⟩
  | n + 1 => ⟨h0, hg, fun T Γ Δ μ hT h hm => agree_tm t hV (agree_depth h0 hg n) T hT h false false μ.hint μ hm⟩

end

end Bracket.Props.Alike
