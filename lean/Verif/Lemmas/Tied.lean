import Verif.Spec.Mentions
import Verif.Lemmas.FullTm

/-! Two runs of the reference interpreter, on related scenes and libraries. -/

set_option linter.unusedSectionVars false
set_option linter.unusedSimpArgs false

namespace Bracket.Props.Tied
open Bracket Spec
open Bracket.Spec.Full (Mood Outcome wrote failed cut opens isNil stops Library)
open Bracket.Props.Whole (Room)

/-- Not a panic, unless panics are allowed. -/
def Fine (pan : Bool) : Fault → Prop
  | .err _ => True
  | .panic => pan = true

theorem Fine.within {pan : Bool} {f : Fault} (h : Fine pan f) : Fine pan f.within := by
  cases f with
  | err e => trivial
  | panic => exact h

/-- The same, or (if `loose`) the first fails, having written what the second begins with. -/
structure Tie (pan loose : Bool) {α : Type} (x y : Said α) : Prop where
  fine : ∀ f, x.2 = .error f → Fine pan f
  same : x = y ∨ (loose = true ∧ (∃ f, x.2 = .error f) ∧ x.1 <+: y.1)

section
variable [Host] [Custom] {N : SPath → Bool} {K : SPath → SArgs → Bool} {Q : Option Str → Bool} {pan loose : Bool}

theorem Tie.refl {α : Type} {x : Said α} (h : ∀ f, x.2 = .error f → Fine pan f) : Tie pan loose x x := ⟨h, .inl rfl⟩
theorem Tie.ok {α : Type} (v : α) : Tie pan loose (said v) (said v) := .refl fun _ h => by cases h
theorem Tie.err {α : Type} (e : RenderErr) : Tie pan loose (fault (.err e) : Said α) (fault (.err e)) :=
  .refl fun f h => by injection h with h; subst h; trivial
theorem Tie.lax {α : Type} {f : Fault} (hf : Fine pan f) (hl : loose = true) (y : Said α) : Tie pan loose (fault f) y :=
  ⟨fun g h => by injection h with h; exact h ▸ hf, .inr ⟨hl, ⟨f, rfl⟩, List.nil_prefix⟩⟩

theorem prefix_bind {α β : Type} (y : Said α) (g : α → Said β) : y.1 <+: (y.bind g).1 := by
  obtain ⟨w, y⟩ := y
  cases y with
  | error f => exact List.prefix_rfl
  | ok v => exact List.prefix_append _ _

theorem Tie.bind {α β : Type} {x y : Said α} {f g : α → Said β} (h : Tie pan loose x y) (hf : ∀ v, x.2 = .ok v → Tie pan loose (f v) (g v)) :
    Tie pan loose (x.bind f) (y.bind g) := by
  obtain ⟨h1, h2⟩ := h
  obtain ⟨u, x⟩ := x
  cases x with
  | error e =>
      refine ⟨fun k hk => h1 k (by cases hk; rfl), ?_⟩
      rcases h2 with rfl | ⟨hl, he, hp⟩
      · exact .inl rfl
      · exact .inr ⟨hl, ⟨e, rfl⟩, hp.trans (prefix_bind y g)⟩
  | ok v =>
      rcases h2 with rfl | ⟨_, ⟨e, he⟩, _⟩
      · obtain ⟨g1, g2⟩ := hf v rfl
        refine ⟨fun k hk => g1 k hk, ?_⟩
        rcases g2 with g2 | ⟨hl, he, hp⟩
        · left
          show (u ++ (f v).1, (f v).2) = (u ++ (g v).1, (g v).2)
          rw [g2]
        · exact .inr ⟨hl, he, (List.prefix_append_right_inj u).2 hp⟩
      · cases he

/-- Two scenes that differ in nothing the paths `N` can see (if `loose`, the second may be lenient). -/
structure Akin (N : SPath → Bool) (loose : Bool) (Γ Δ : Scene) : Prop where
  escape : Δ.escape = Γ.escape
  file : Δ.file = Γ.file
  scopes : Δ.scopes = Γ.scopes
  calls : Δ.calls = Γ.calls
  strict : Δ.strict = Γ.strict ∨ (loose = true ∧ Δ.strict = false)
  root : ∀ p sc, N p = true → ({ Γ with scopes := sc } : Scene).find p = ({ Δ with scopes := sc } : Scene).find p

theorem Akin.enter {Γ Δ : Scene} (h : Akin N loose Γ Δ) (x : CallSite) : Akin N loose (Γ.enter x) (Δ.enter x) :=
  ⟨h.escape, h.file, h.scopes, by simp [Scene.enter, h.calls], h.strict, h.root⟩
theorem Akin.push {Γ Δ : Scene} (h : Akin N loose Γ Δ) (sc : Scope) : Akin N loose (Γ.push sc) (Δ.push sc) :=
  ⟨h.escape, h.file, by simp [Scene.push, h.scopes], h.calls, h.strict, h.root⟩
theorem Akin.full {Γ Δ : Scene} (h : Akin N loose Γ Δ) (x : CallSite) : Δ.full x = Γ.full x := by
  unfold Scene.full; rw [h.calls]
theorem Akin.find {Γ Δ : Scene} (h : Akin N loose Γ Δ) {p : SPath} (hp : N p = true) : Δ.find p = Γ.find p := by
  have := h.root p Γ.scopes hp
  have e : ({ Δ with scopes := Γ.scopes } : Scene) = Δ := by rw [← h.scopes]
  rw [e] at this
  exact this.symm

theorem Akin.absent {Γ Δ : Scene} (h : Akin N loose Γ Δ) (p : SPath) : Tie pan loose (Γ.absent p) (Δ.absent p) := by
  unfold Scene.absent
  rw [h.file]
  rcases h.strict with hs | ⟨hl, hs⟩
  · rw [hs]
    split
    · exact .err _
    · exact .ok _
  · by_cases hc : (Γ.strict && !p.head.explicit) = true
    · rw [if_pos hc]
      exact .lax (f := .err _) trivial hl _
    · rw [if_neg hc, hs]
      exact .ok _

theorem Akin.print {Γ Δ : Scene} (h : Akin N loose Γ Δ) (k : Cut) (x : Print) : Δ.print k x = Γ.print k x := by
  unfold Scene.print; rw [h.escape]
theorem Akin.printAll {Γ Δ : Scene} (h : Akin N loose Γ Δ) (k : Cut) (l : List Print) : Δ.printAll k l = Γ.printAll k l := by
  unfold Scene.printAll
  rw [show Δ.print k = Γ.print k from funext (h.print k)]
theorem Akin.said {Γ Δ : Scene} (h : Akin N loose Γ Δ) (k : Cut) (f : CustomFn) (vs : List Value) (hs : List (Str × Value)) :
    f.said Δ k vs hs = f.said Γ k vs hs := by
  unfold CustomFn.said; rw [h.printAll]
theorem Akin.value {Γ Δ : Scene} (h : Akin N loose Γ Δ) (k : Cut) (w : Str) (vs : List Value) (hs : List (Str × Value)) :
    helperValue w Δ k vs hs = helperValue w Γ k vs hs := by
  unfold helperValue
  cases Custom.fn w with
  | none => rfl
  | some f => exact h.said k f vs hs

theorem fine_said {Γ : Scene} {k : Cut} {f : CustomFn} {vs : List Value} {hs : List (Str × Value)} : ∀ g, (f.said Γ k vs hs).2 = .error g → Fine pan g := by
  intro g hg
  unfold CustomFn.said at hg
  simp only at hg
  cases h : (f.value vs fun x => hs.lookup x).2 with
  | error e => rw [h] at hg; injection hg with hg; subst hg; trivial
  | ok v => rw [h] at hg; cases hg

/-- The calls of `K` do not fail otherwise. -/
def Sound (K : SPath → SArgs → Bool) (pan : Bool) : Prop :=
  ∀ w a Γ k vs hs, K ⟨0, .name w, []⟩ a = true → isHelper w = true → (a.eval Γ k).2 = .ok (vs, hs) → ∀ Δ c f, (helperValue w Δ c vs hs).2 = .error f → Fine pan f

theorem helper_path {p : SPath} {h : Str} (hp : p.helper = some h) : p = ⟨0, .name h, []⟩ ∧ isHelper h = true := by
  unfold SPath.helper at hp
  split at hp
  · split at hp
    · rename_i hc; injection hp with hp; subst hp; exact ⟨rfl, hc⟩
    · cases hp
  · cases hp

mutual
theorem tie_expr (hK : Sound K pan) : ∀ (x : SExpr), x.every N K = true → ∀ {Γ Δ : Scene} (k : Cut), Akin N loose Γ Δ → Tie pan loose (x.eval Γ k) (x.eval Δ k)
  | .path p, hx, Γ, Δ, k, h => by
      rw [SExpr.every] at hx
      rw [SExpr.eval, SExpr.eval, h.find hx]
      exact .ok _
  | .lit l, hx, Γ, Δ, k, h => by rw [SExpr.eval, SExpr.eval]; exact .ok _
  | .sub p a, hx, Γ, Δ, k, h => by
      rw [SExpr.every] at hx
      simp only [Bool.and_eq_true] at hx
      exact tie_sub hK p a hx.1.1 hx.1.2 (fun k h => tie_args hK a hx.2 k h) k h
theorem tie_args (hK : Sound K pan) : ∀ (a : SArgs), a.every N K = true → ∀ {Γ Δ : Scene} (k : Cut), Akin N loose Γ Δ → Tie pan loose (a.eval Γ k) (a.eval Δ k)
  | .done hh, hx, Γ, Δ, k, h => by
      rw [SArgs.every] at hx
      rw [SArgs.eval, SArgs.eval]
      exact (tie_hash hK hh hx k h).bind fun _ _ => .ok _
  | .argW w x r, hx, Γ, Δ, k, h => by
      rw [SArgs.every] at hx
      simp only [Bool.and_eq_true] at hx
      rw [SArgs.eval, SArgs.eval]
      exact (tie_expr hK x hx.1 k h).bind fun _ _ => (tie_args hK r hx.2 k h).bind fun _ _ => .ok _
theorem tie_hash (hK : Sound K pan) : ∀ (a : SHash), a.every N K = true → ∀ {Γ Δ : Scene} (k : Cut), Akin N loose Γ Δ → Tie pan loose (a.eval Γ k) (a.eval Δ k)
  | .tail _, hx, Γ, Δ, k, h => by rw [SHash.eval, SHash.eval]; exact .ok _
  | .pairW w j x r, hx, Γ, Δ, k, h => by
      rw [SHash.every] at hx
      simp only [Bool.and_eq_true] at hx
      rw [SHash.eval, SHash.eval]
      exact (tie_expr hK x hx.1 k h).bind fun _ _ => (tie_hash hK r hx.2 k h).bind fun _ _ => .ok _
theorem tie_sub (hK : Sound K pan) (p : SPath) (a : SArgs) (hp : N p = true) (hk : K p a = true)
    (ha : ∀ {Γ Δ : Scene} (k : Cut), Akin N loose Γ Δ → Tie pan loose (a.eval Γ k) (a.eval Δ k)) {Γ Δ : Scene} (k : Cut) (h : Akin N loose Γ Δ) :
    Tie pan loose ((SExpr.sub p a).eval Γ k) ((SExpr.sub p a).eval Δ k) := by
  rw [SExpr.eval, SExpr.eval]
  cases hh : p.helper with
  | none =>
      simp only
      rw [h.find hp]
      cases Γ.find p with
      | some v => exact .ok _
      | none =>
          simp only
          cases p.handler with
          | none => exact h.absent p
          | some f =>
              simp only
              rw [h.full]
              split
              · exact .err _
              · refine (ha k (h.enter _)).bind fun v _ => ?_
                rw [h.said]
                exact .refl fine_said
  | some w =>
      simp only
      rw [h.full]
      split
      · exact .err _
      · obtain ⟨rfl, hw⟩ := helper_path hh
        refine (ha k (h.enter (.helper w))).bind fun v hv => ?_
        rw [h.value]
        exact .refl fun f hf => hK w a _ k v.1 v.2 hk hw hv _ _ f hf
end

/-! ### Outcomes -/

/-- A content for `@partial-block` of the kind considered. -/
def Kind (N : SPath → Bool) (K : SPath → SArgs → Bool) (Q : Option Str → Bool) (μ : Mood) : Prop :=
  ∀ T, μ.block = some T → T.every N K Q = true

/-- The same, or (if `loose`) the first fails, having written what the second begins with. -/
structure Joined (N : SPath → Bool) (K : SPath → SArgs → Bool) (Q : Option Str → Bool) (pan loose : Bool) (a b : Outcome) : Prop where
  fine : ∀ f, a.2 = .error f → Fine pan f
  kind : ∀ μ, a.2 = .ok μ → Kind N K Q μ
  same : a = b ∨ (loose = true ∧ (∃ f, a.2 = .error f) ∧ a.1 <+: b.1)

theorem joined_wrote (w : Str) {μ : Mood} (h : Kind N K Q μ) : Joined N K Q pan loose (wrote w μ) (wrote w μ) :=
  ⟨fun f hf => (by cases hf), fun ν hν => (by cases hν; exact h), .inl rfl⟩
theorem joined_failed {f : Fault} (h : Fine pan f) : Joined N K Q pan loose (failed f) (failed f) :=
  ⟨fun g hg => (by cases hg; exact h), fun ν hν => (by cases hν), .inl rfl⟩
theorem joined_lax {f : Fault} (h : Fine pan f) (hl : loose = true) (b : Outcome) : Joined N K Q pan loose (failed f) b :=
  ⟨fun g hg => (by cases hg; exact h), fun ν hν => (by cases hν), .inr ⟨hl, ⟨f, rfl⟩, List.nil_prefix⟩⟩

theorem prefix_andThen (b : Outcome) (l : Mood → Outcome) : b.1 <+: (b.andThen l).1 := by
  obtain ⟨w, y⟩ := b
  cases y with
  | error f => exact List.prefix_rfl
  | ok μ => exact List.prefix_append _ _

theorem Joined.andThen {a b : Outcome} {k l : Mood → Outcome} (h : Joined N K Q pan loose a b)
    (hk : ∀ μ, Kind N K Q μ → Joined N K Q pan loose (k μ) (l μ)) : Joined N K Q pan loose (a.andThen k) (b.andThen l) := by
  obtain ⟨h1, h2, h3⟩ := h
  obtain ⟨u, x⟩ := a
  cases x with
  | error f =>
      refine ⟨fun g hg => h1 g hg, fun ν hν => (by cases hν), ?_⟩
      rcases h3 with rfl | ⟨hl, _, hp⟩
      · exact .inl rfl
      · exact .inr ⟨hl, ⟨f, rfl⟩, hp.trans (prefix_andThen b l)⟩
  | ok μ =>
      rcases h3 with rfl | ⟨_, ⟨f, hf⟩, _⟩
      · obtain ⟨g1, g2, g3⟩ := hk μ (h2 μ rfl)
        refine ⟨fun g hg => g1 g hg, fun ν hν => g2 ν hν, ?_⟩
        rcases g3 with g3 | ⟨hl, he, hp⟩
        · left
          show (u ++ (k μ).1, (k μ).2) = (u ++ (l μ).1, (l μ).2)
          rw [g3]
        · exact .inr ⟨hl, he, (List.prefix_append_right_inj u).2 hp⟩
      · cases hf

theorem Joined.within {a b : Outcome} (h : Joined N K Q pan loose a b) : Joined N K Q pan loose a.within b.within := by
  obtain ⟨h1, h2, h3⟩ := h
  obtain ⟨u, x⟩ := a
  refine ⟨fun f hf => ?_, fun μ hμ => ?_, ?_⟩
  · cases x with
    | error g => cases hf; exact (h1 g rfl).within
    | ok μ => cases hf
  · cases x with
    | error g => cases hμ
    | ok κ => cases hμ; exact h2 _ rfl
  · rcases h3 with rfl | ⟨hl, ⟨f, hf⟩, hp⟩
    · exact .inl rfl
    · refine .inr ⟨hl, ?_, hp⟩
      simp only at hf
      subst hf
      exact ⟨f.within, rfl⟩

/-! ### Pieces -/

theorem prefix_after {α : Type} (y : Said α) (l : α → Outcome) : y.1 <+: (Outcome.after y l).1 := by
  obtain ⟨w, y⟩ := y
  cases y with
  | error f => exact List.prefix_rfl
  | ok μ => exact List.prefix_append _ _

theorem Joined.after {α : Type} {x y : Said α} {k l : α → Outcome} (h : Tie pan loose x y)
    (hk : ∀ v, x.2 = .ok v → Joined N K Q pan loose (k v) (l v)) : Joined N K Q pan loose (.after x k) (.after y l) := by
  obtain ⟨h1, h3⟩ := h
  obtain ⟨u, x⟩ := x
  cases x with
  | error f =>
      refine ⟨fun g hg => h1 g (by cases hg; rfl), fun ν hν => (by cases hν), ?_⟩
      rcases h3 with rfl | ⟨hl, _, hp⟩
      · exact .inl rfl
      · exact .inr ⟨hl, ⟨f, rfl⟩, hp.trans (prefix_after y l)⟩
  | ok v =>
      rcases h3 with rfl | ⟨_, ⟨f, hf⟩, _⟩
      · obtain ⟨g1, g2, g3⟩ := hk v rfl
        refine ⟨fun g hg => g1 g hg, fun ν hν => g2 ν hν, ?_⟩
        rcases g3 with g3 | ⟨hl, he, hp⟩
        · left
          show (u ++ (k v).1, (k v).2) = (u ++ (l v).1, (l v).2)
          rw [g3]
        · exact .inr ⟨hl, he, (List.prefix_append_right_inj u).2 hp⟩
      · cases hf

theorem joined_prints {Γ Δ : Scene} (ha : Akin N loose Γ Δ) (raw : Bool) {x y : Said (Option Value)} (h : Tie pan loose x y) {μ : Mood}
    (hm : Kind N K Q μ) : Joined N K Q pan loose (Full.prints Γ raw x μ) (Full.prints Δ raw y μ) := by
  unfold Full.prints
  refine Joined.after h fun v _ => ?_
  cases v with
  | none => exact joined_wrote _ hm
  | some v => simp only [ha.print]; exact joined_wrote _ hm

theorem joined_link {Γ Δ : Scene} (ha : Akin N loose Γ Δ) (e : Bool) (h : Str) (l t : Option Str) {μ : Mood}
    (hm : Kind N K Q μ) : Joined N K Q pan loose (Full.link Γ e h l t μ) (Full.link Δ e h l t μ) := by
  unfold Full.link
  generalize (if e then none else (Custom.link : Option CustomFn)) = o
  cases o with
  | none => exact joined_wrote _ hm
  | some f =>
      simp only
      rw [ha.full, ha.said]
      split
      · exact joined_failed trivial
      · exact Joined.after (.refl fine_said) fun _ _ => joined_wrote _ hm

/-- The contents of a block. -/
def JoinedIn (P : Scene → Prop) (N : SPath → Bool) (K : SPath → SArgs → Bool) (Q : Option Str → Bool) (pan loose : Bool) (D D' : Scene → Mood → Outcome) : Prop :=
  ∀ Γ Δ, P Γ → Akin N loose Γ Δ → ∀ μ, Kind N K Q μ → Joined N K Q pan loose (D Γ μ) (D' Δ μ)

variable {names : List Str} {n : Nat}

theorem joined_rounds {D D' : Scene → Mood → Outcome} (h : JoinedIn (Room names n) N K Q pan loose D D') {Γ Δ : Scene} (hr : Room names n Γ) (ha : Akin N loose Γ Δ) :
    ∀ rs μ, Kind N K Q μ → Joined N K Q pan loose (Full.rounds D Γ rs μ) (Full.rounds D' Δ rs μ)
  | [], μ, hm => joined_wrote _ hm
  | r :: rs, μ, hm => by
      rw [Full.rounds, Full.rounds]
      exact ((h (Γ.push r.scope) (Δ.push r.scope) (hr.push _) (ha.push _) μ hm).within).andThen fun ν hν => joined_rounds h hr ha rs ν hν

theorem joined_builtin {D D' A A' : Scene → Mood → Outcome} (hD : JoinedIn (Room names n) N K Q pan loose D D')
    (hA : JoinedIn (Room names n) N K Q pan loose A A') {Γ Δ : Scene} (hr : Room names n Γ) (ha : Akin N loose Γ Δ)
    (name : Str) (vs : List Value) (hs : List (Str × Value)) (hv : ∀ f, builtinValue name vs hs = .error f → Fine pan f) {μ : Mood} (hm : Kind N K Q μ) :
    Joined N K Q pan loose (Full.builtinBlock name vs hs D A Γ μ) (Full.builtinBlock name vs hs D' A' Δ μ) := by
  have none : Joined N K Q pan loose (wrote [] μ) (wrote [] μ) := joined_wrote _ hm
  have val : Joined N K Q pan loose (match builtinValue name vs hs with
      | .error f => failed f
      | .ok _ => wrote [] μ) (match builtinValue name vs hs with
      | .error f => failed f
      | .ok _ => wrote [] μ) := by
    revert hv
    cases builtinValue name vs hs with
    | error f => intro hv; exact joined_failed (hv f rfl)
    | ok _ => intro _; exact none
  unfold Full.builtinBlock
  match vs, val with
  | [v], val =>
      simp only
      split
      · split
        · exact (hD Γ Δ hr ha μ hm).within
        · exact (hA Γ Δ hr ha μ hm).within
      split
      · split
        · exact (hA Γ Δ hr ha μ hm).within
        · exact (hD Γ Δ hr ha μ hm).within
      split
      · cases v with
        | arr l => exact joined_rounds hD hr ha _ μ hm
        | obj l => exact joined_rounds hD hr ha _ μ hm
        | _ => exact none
      split
      · cases v with
        | null => exact none
        | _ => exact (hD (Γ.push ⟨some _, []⟩) (Δ.push ⟨some _, []⟩) (hr.push _) (ha.push _) μ hm).within
      · exact val
  | [], val => exact val
  | _ :: _ :: _, val => exact val

theorem joined_contents {D D' : Scene → Mood → Outcome} (h : JoinedIn (Room names n) N K Q pan loose D D') {Γ Δ : Scene} (hr : Room names n Γ) (ha : Akin N loose Γ Δ)
    (e : Option HelperErr) : ∀ l μ, Kind N K Q μ → Joined N K Q pan loose (Full.contents D Γ e l μ) (Full.contents D' Δ e l μ)
  | [], μ, hm => by
      cases e with
      | none => exact joined_wrote _ hm
      | some e => exact joined_failed trivial
  | .print x :: l, μ, hm => by
      rw [Full.contents, Full.contents, ha.print]
      exact (joined_wrote _ hm).andThen fun ν hν => joined_contents h hr ha e l ν hν
  | .content none :: l, μ, hm => ((h Γ Δ hr ha μ hm).within).andThen fun ν hν => joined_contents h hr ha e l ν hν
  | .content (some sc) :: l, μ, hm => ((h (Γ.push sc) (Δ.push sc) (hr.push _) (ha.push _) μ hm).within).andThen fun ν hν => joined_contents h hr ha e l ν hν

theorem joined_custom {D D' A A' : Scene → Mood → Outcome} (hD : JoinedIn (Room names n) N K Q pan loose D D')
    (hA : JoinedIn (Room names n) N K Q pan loose A A') {Γ Δ : Scene} (hr : Room names n Γ) (ha : Akin N loose Γ Δ)
    (f : CustomFn) (t : Option Str) (vs : List Value) (hs : List (Str × Value)) {μ : Mood} (hm : Kind N K Q μ) :
    Joined N K Q pan loose (Full.customBlock f t vs hs D A Γ μ) (Full.customBlock f t vs hs D' A' Δ μ) := by
  unfold Full.customBlock
  cases f.block t vs (fun k => hs.lookup k) with
  | contents l e => exact joined_contents hD hr ha e l μ hm
  | otherwise => exact (hA Γ Δ hr ha μ hm).within

theorem joined_helper {D D' A A' : Scene → Mood → Outcome} (hD : JoinedIn (Room names n) N K Q pan loose D D')
    (hA : JoinedIn (Room names n) N K Q pan loose A A') {Γ Δ : Scene} (hr : Room names n Γ) (ha : Akin N loose Γ Δ)
    (name : Str) (t : Option Str) (vs : List Value) (hs : List (Str × Value)) (hv : ∀ f, (helperValue name Γ .none vs hs).2 = .error f → Fine pan f)
    {μ : Mood} (hm : Kind N K Q μ) :
    Joined N K Q pan loose (Full.blockHelper name t vs hs D A Γ μ) (Full.blockHelper name t vs hs D' A' Δ μ) := by
  unfold Full.blockHelper
  unfold helperValue at hv
  cases hc : Custom.fn name with
  | none => rw [hc] at hv; exact joined_builtin hD hA hr ha name vs hs hv hm
  | some f => exact joined_custom hD hA hr ha f t vs hs hm

theorem joined_helped (hK : Sound K pan) {D D' A A' : Scene → Mood → Outcome} (hD : JoinedIn (Room names n) N K Q pan loose D D')
    (hA : JoinedIn (Room names n) N K Q pan loose A A') {Γ Δ : Scene} (hr : Room names n Γ) (ha : Akin N loose Γ Δ)
    {name : Str} (hn : isHelper name = true) (t : Option Str) {a : SArgs} (hk : K ⟨0, .name name, []⟩ a = true) (hae : a.every N K = true) {μ : Mood} (hm : Kind N K Q μ) :
    Joined N K Q pan loose (Full.helped name t a D A Γ μ) (Full.helped name t a D' A' Δ μ) := by
  unfold Full.helped
  rw [ha.full]
  split
  · exact joined_failed trivial
  · exact Joined.after (tie_args hK a hae _ (ha.enter (.block name))) fun v hv =>
      joined_helper hD hA (hr.enter name) (ha.enter (.block name)) name t v.1 v.2 (fun f hf => hK name a _ _ v.1 v.2 hk hn hv _ _ f hf) hm

theorem joined_block (hK : Sound K pan) {D D' A A' : Scene → Mood → Outcome} (hD : JoinedIn (Room names n) N K Q pan loose D D')
    (hA : JoinedIn (Room names n) N K Q pan loose A A') {Γ Δ : Scene} (hr : Room names n Γ) (ha : Akin N loose Γ Δ)
    {name : Str} {a : SArgs} (hp : N ⟨0, .name name, []⟩ = true) (hk : K ⟨0, .name name, []⟩ a = true) (hae : a.every N K = true) {μ : Mood} (hm : Kind N K Q μ) :
    Joined N K Q pan loose (Full.block name a D A Γ μ) (Full.block name a D' A' Δ μ) := by
  unfold Full.block
  split
  · rename_i hn
    exact joined_helped hK hD hA hr ha hn none hk hae hm
  · rw [ha.find hp]
    cases Γ.find ⟨0, .name name, []⟩ with
    | some v =>
        simp only
        cases (Custom.blockMissing : Option (Str → Value → CustomFn)) with
        | none => exact (hD Γ Δ hr ha μ hm).within
        | some f =>
            simp only [Full.handled]
            rw [ha.full]
            split
            · exact joined_failed trivial
            · exact Joined.after (tie_args hK a hae _ (ha.enter (.block blockMissingName))) fun x _ =>
                joined_custom hD hA (hr.enter blockMissingName) (ha.enter (.block blockMissingName)) (f name v) none x.1 x.2 hm
    | none =>
        simp only
        cases (Custom.missing : Option (Str → CustomFn)) with
        | none =>
            simp only
            rcases ha.strict with hs | ⟨hl, hs⟩
            · rw [hs]
              split
              · exact joined_failed trivial
              · exact joined_wrote _ hm
            · rw [hs]
              split
              · exact joined_lax (f := .err (.helperNotFound name)) trivial hl _
              · exact joined_wrote _ hm
        | some f => exact Joined.after (tie_sub hK _ a hp hk (fun k h => tie_args hK a hae k h) _ ha) fun _ _ => joined_wrote _ hm

/-! ### Partials -/

/-- Two libraries that agree on the partials `Q`, for scenes with room for `n` more of them. -/
structure JoinedLib (names : List Str) (n : Nat) (N : SPath → Bool) (K : SPath → SArgs → Bool) (Q : Option Str → Bool) (pan loose : Bool) (L L' : Library) : Prop where
  all : Q none = true → ∀ x, Q (some x) = true
  get : ∀ x, Q (some x) = true → L'.get x = L.get x
  good : ∀ x T, Q (some x) = true → L.get x = some T → T.every N K Q = true
  known : ∀ x, (x = c!"@partial-block" ∨ (L.get x).isSome = true) → x ∈ names
  render : ∀ T Γ Δ μ, T.every N K Q = true → (∃ m, n = m + 1 ∧ Room names m Γ) → Akin N loose Γ Δ → Kind N K Q μ → Joined N K Q pan loose (L.render T Γ μ) (L'.render T Δ μ)

theorem tie_positional (hK : Sound K pan) : ∀ (a : SArgs), a.every N K = true → ∀ {Γ Δ : Scene} (k : Cut), Akin N loose Γ Δ →
    Tie pan loose (Full.positional a Γ k) (Full.positional a Δ k)
  | .done hh, hx, Γ, Δ, k, h => .ok _
  | .argW w x r, hx, Γ, Δ, k, h => by
      rw [SArgs.every] at hx
      simp only [Bool.and_eq_true] at hx
      rw [Full.positional, Full.positional]
      exact (tie_expr hK x hx.1 k h).bind fun _ _ => (tie_positional hK r hx.2 k h).bind fun _ _ => .ok _

theorem named_every : ∀ {a : SArgs}, a.every N K = true → (Full.named a).every N K = true
  | .done h, hx => by rw [SArgs.every] at hx; exact hx
  | .argW w x r, hx => by
      rw [SArgs.every] at hx
      simp only [Bool.and_eq_true] at hx
      exact named_every (a := r) hx.2

theorem joined_included (hK : Sound K pan) {L L' : Library} (hL : JoinedLib names n N K Q pan loose L L') {content : Option STm}
    (hc : ∀ T, content = some T → T.every N K Q = true) {name : Str} {a : SArgs} (hq : Q (some name) = true) (hae : a.every N K = true)
    {Γ Δ : Scene} (hr : Room names n Γ) (ha : Akin N loose Γ Δ) {μ : Mood} (hm : Kind N K Q μ) :
    Joined N K Q pan loose (Full.included L content name a Γ μ) (Full.included L' content name a Δ μ) := by
  unfold Full.included
  rw [ha.calls]
  split
  · exact joined_failed trivial
  rename_i hin
  have hg : Kind N K Q (μ.given content) := by
    cases content with
    | none => exact hm
    | some T => intro U hU; injection hU with hU; exact hU ▸ hc T rfl
  revert hg
  generalize μ.given content = ν
  intro hg
  have hf : L'.find ν name = L.find ν name := by
    unfold Full.Library.find
    rw [hL.get _ hq]
  have hgood : ∀ T, L.find ν name = some T → T.every N K Q = true := by
    intro T
    unfold Full.Library.find
    split
    · cases hb : ν.block with
      | none => exact hL.good _ T hq
      | some U => intro e; injection e with e; exact e ▸ hg U hb
    · exact hL.good _ T hq
  have hkn : ∀ T, L.find ν name = some T → name ∈ names := by
    intro T hT
    unfold Full.Library.find at hT
    split at hT
    · rename_i h; exact hL.known _ (.inl h)
    · exact hL.known _ (.inr (by rw [hT]; rfl))
  rw [hf]
  cases hfe : L.find ν name with
  | none => exact joined_failed trivial
  | some T =>
      simp only
      have hx := hkn T hfe
      have hcon : Γ.calls.contains (.part name) = false := by simpa using hin
      have hen := ha.enter (.part name)
      refine Joined.after (tie_hash hK (Full.named a) (named_every hae) _ hen) fun hs _ =>
        Joined.after (tie_positional hK a hae _ hen) fun vs _ => ?_
      refine hL.render T _ _ ν (hgood T hfe) ?_ (hen.push _) hg
      cases n with
      | zero => rw [hr.zero hx] at hcon; cases hcon
      | succ m => exact ⟨m, rfl, (hr.part hx hcon).push _⟩

theorem joined_partial (hK : Sound K pan) {L L' : Library} (hL : JoinedLib names n N K Q pan loose L L') {content : Option STm}
    (hc : ∀ T, content = some T → T.every N K Q = true) {p : SPath} {a : SArgs} (hq : Q (some p.shown) = true) (hae : a.every N K = true)
    {Γ Δ : Scene} (hr : Room names n Γ) (ha : Akin N loose Γ Δ) {μ : Mood} (hm : Kind N K Q μ) :
    Joined N K Q pan loose (Full.partialCall L content p a Γ μ) (Full.partialCall L' content p a Δ μ) := by
  unfold Full.partialCall
  split
  · exact joined_failed trivial
  · exact joined_included hK hL hc hq hae hr ha hm

theorem joined_computed (hK : Sound K pan) {L L' : Library} (hL : JoinedLib names n N K Q pan loose L L') {q : SPath} {b a : SArgs}
    (hq : Q none = true) (hp : N q = true) (hk : K q b = true) (hbe : b.every N K = true) (hae : a.every N K = true)
    {Γ Δ : Scene} (hr : Room names n Γ) (ha : Akin N loose Γ Δ) {μ : Mood} (hm : Kind N K Q μ) :
    Joined N K Q pan loose (Full.computedCall L q b a Γ μ) (Full.computedCall L' q b a Δ μ) := by
  unfold Full.computedCall
  exact Joined.after (tie_sub hK q b hp hk (fun k h => tie_args hK b hbe k h) _ ha) fun v _ =>
    joined_included hK hL (fun _ h => by cases h) (hL.all hq _) hae hr ha hm

theorem Kind.next {μ : Mood} (h : Kind N K Q μ) (b : Bool) (k : Cut) : Kind N K Q (μ.next b k) := h

/-! ### Templates -/

mutual
theorem joined_tm (hK : Sound K pan) {L L' : Library} (hL : JoinedLib names n N K Q pan loose L L') : ∀ (T : STm), T.every N K Q = true →
    ∀ (Γ Δ : Scene), Room names n Γ → Akin N loose Γ Δ → ∀ (o c s : Bool) (μ : Mood), Kind N K Q μ →
      Joined N K Q pan loose (Full.tm L T Γ o c s μ) (Full.tm L' T Δ o c s μ)
  | .nil, hT, Γ, Δ, hr, ha, o, c, s, μ, hm => by rw [Full.tm, Full.tm]; exact joined_wrote _ hm
  | .text w r, hT, Γ, Δ, hr, ha, o, c, s, μ, hm => by
      rw [STm.every] at hT
      rw [Full.tm, Full.tm]
      exact (joined_wrote _ (hm.next _ _)).andThen fun ν hν => joined_tm hK hL r hT Γ Δ hr ha o c false ν hν
  | .comment w r, hT, Γ, Δ, hr, ha, o, c, s, μ, hm => by
      rw [STm.every] at hT
      rw [Full.tm, Full.tm]
      exact (joined_wrote _ (hm.next _ _)).andThen fun ν hν => joined_tm hK hL r hT Γ Δ hr ha o c false ν hν
  | .longComment w r, hT, Γ, Δ, hr, ha, o, c, s, μ, hm => by
      rw [STm.every] at hT
      rw [Full.tm, Full.tm]
      exact (joined_wrote _ (hm.next _ _)).andThen fun ν hν => joined_tm hK hL r hT Γ Δ hr ha o c false ν hν
  | .escaped w r, hT, Γ, Δ, hr, ha, o, c, s, μ, hm => by
      rw [STm.every] at hT
      rw [Full.tm, Full.tm]
      exact (joined_wrote _ (hm.next _ _)).andThen fun ν hν => joined_tm hK hL r hT Γ Δ hr ha o c false ν hν
  | .link e h l t r, hT, Γ, Δ, hr, ha, o, c, s, μ, hm => by
      rw [STm.every] at hT
      rw [Full.tm, Full.tm]
      exact (joined_link ha e h l t (hm.next _ _)).andThen fun ν hν => joined_tm hK hL r hT Γ Δ hr ha o c false ν hν
  | .stmt raw part tl p a r, hT, Γ, Δ, hr, ha, o, c, s, μ, hm => by
      rw [STm.every] at hT
      simp only [Bool.and_eq_true] at hT
      obtain ⟨⟨h1, h2⟩, h3⟩ := hT
      rw [Full.tm, Full.tm]
      refine Joined.andThen ?_ fun ν hν => joined_tm hK hL r h3 Γ Δ hr ha o c tl.after ν hν
      cases part with
      | true =>
          simp only [if_true] at h1 ⊢
          exact joined_partial hK hL (content := none) (fun _ h => by cases h) h1 h2 hr ha (hm.next _ _)
      | false =>
          simp only [Bool.false_eq_true, if_false, Bool.and_eq_true] at h1 ⊢
          exact joined_prints ha raw (tie_sub hK p a h1.1 h1.2 (fun k h => tie_args hK a h2 k h) _ ha) (hm.next _ _)
  | .dyn raw part tl q b a r, hT, Γ, Δ, hr, ha, o, c, s, μ, hm => by
      rw [STm.every] at hT
      simp only [Bool.and_eq_true] at hT
      obtain ⟨⟨⟨h0, ⟨h1, h1'⟩, h1''⟩, h2⟩, h3⟩ := hT
      rw [Full.tm, Full.tm]
      refine Joined.andThen ?_ fun ν hν => joined_tm hK hL r h3 Γ Δ hr ha o c tl.after ν hν
      cases part with
      | true =>
          simp only [if_true]
          exact joined_computed hK hL (by simpa using h0) h1 h1' h1'' h2 hr ha (hm.next _ _)
      | false =>
          simp only [Bool.false_eq_true, if_false]
          exact joined_prints ha raw (tie_sub hK q b h1 h1' (fun k h => tie_args hK b h1'' k h) _ ha) (hm.next _ _)
  | .rawBlock tl name a w cl r, hT, Γ, Δ, hr, ha, o, c, s, μ, hm => by
      rw [STm.every] at hT
      simp only [Bool.and_eq_true] at hT
      obtain ⟨⟨⟨h1, h2⟩, h3⟩, h4⟩ := hT
      rw [Full.tm, Full.tm]
      refine Joined.andThen ?_ fun ν hν => joined_tm hK hL r h4 Γ Δ hr ha o c o ν hν
      split
      · rename_i hn
        have hD : JoinedIn (Room names n) N K Q pan loose (fun _ μ => wrote (cut (μ.hint || tl.after || μ.close) cl.before w) ⟨false, cl.after, μ.block, ⟨μ.hint || tl.after || μ.close, cl.before⟩⟩)
            (fun _ μ => wrote (cut (μ.hint || tl.after || μ.close) cl.before w) ⟨false, cl.after, μ.block, ⟨μ.hint || tl.after || μ.close, cl.before⟩⟩) :=
          fun Γ Δ _ _ ν hν => joined_wrote _ hν
        have hA : JoinedIn (Room names n) N K Q pan loose (fun _ μ => wrote [] μ) (fun _ μ => wrote [] μ) := fun Γ Δ _ _ ν hν => joined_wrote _ hν
        exact joined_helped hK hD hA hr ha hn (some _) h2 h3 (μ := { μ.next tl.after ⟨s || μ.close, stops r c⟩ with close := cl.after }) hm
      · exact joined_wrote _ hm
  | .block part tl name a body cs cl r, hT, Γ, Δ, hr, ha, o, c, s, μ, hm => by
      rw [STm.every] at hT
      simp only [Bool.and_eq_true] at hT
      obtain ⟨⟨⟨⟨h1, h2⟩, h3⟩, h4⟩, h5⟩ := hT
      rw [Full.tm, Full.tm]
      refine Joined.andThen ?_ fun ν hν => joined_tm hK hL r h5 Γ Δ hr ha o c o ν hν
      cases part with
      | true =>
          simp only [if_true] at h1 ⊢
          exact joined_partial hK hL (content := some body) (by intro T hT; injection hT with hT; exact hT ▸ h3)
            (p := ⟨0, .name name, []⟩) (by rw [show (⟨0, .name name, []⟩ : SPath).shown = name from plain_shown rfl rfl]; exact h1) h2 hr ha (hm.next _ _)
      | false =>
          simp only [Bool.false_eq_true, if_false, Bool.and_eq_true] at h1 ⊢
          have hD : JoinedIn (Room names n) N K Q pan loose
              (fun Δ μ => (Full.tm L body Δ tl.after cl.before (μ.hint || tl.after) μ).andThen fun μ => wrote [] { μ with close := !isNil body && cl.after })
              (fun Δ μ => (Full.tm L' body Δ tl.after cl.before (μ.hint || tl.after) μ).andThen fun μ => wrote [] { μ with close := !isNil body && cl.after }) :=
            fun Γ Δ hr ha ν hν => (joined_tm hK hL body h3 Γ Δ hr ha _ _ _ ν hν).andThen fun κ hκ => joined_wrote _ hκ
          have hA : JoinedIn (Room names n) N K Q pan loose (fun Δ μ => Full.clauses L cs cl Δ (fun μ => wrote [] μ) μ)
              (fun Δ μ => Full.clauses L' cs cl Δ (fun μ => wrote [] μ) μ) :=
            fun Γ Δ hr ha ν hν => joined_cls hK hL cs h4 cl Γ Δ hr ha (fun μ hμ => joined_wrote _ hμ) ν hν
          exact joined_block hK hD hA hr ha h1.1 h1.2 h2 (hm.next _ _)
theorem joined_cls (hK : Sound K pan) {L L' : Library} (hL : JoinedLib names n N K Q pan loose L L') : ∀ (cs : SCls), cs.every N K Q = true →
    ∀ (cl : Tilde) (Γ Δ : Scene), Room names n Γ → Akin N loose Γ Δ → ∀ {f g : Mood → Outcome}, (∀ μ, Kind N K Q μ → Joined N K Q pan loose (f μ) (g μ)) →
      ∀ μ, Kind N K Q μ → Joined N K Q pan loose (Full.clauses L cs cl Γ f μ) (Full.clauses L' cs cl Δ g μ)
  | .nil, h1, cl, Γ, Δ, hr, ha, f, g, hf, μ, hm => by rw [Full.clauses, Full.clauses]; exact hf μ hm
  | .cons tl none body r, h1, cl, Γ, Δ, hr, ha, f, g, hf, μ, hm => by
      rw [SCls.every] at h1
      simp only [Bool.and_eq_true] at h1
      rw [Full.clauses, Full.clauses]
      exact joined_cls hK hL r h1.2 cl Γ Δ hr ha
        (f := fun μ => (Full.tm L body Γ tl.after (Full.clauseEnd r cl).1 (μ.hint || tl.after) μ).andThen fun μ =>
          wrote [] { μ with close := !isNil body && (Full.clauseEnd r cl).2 })
        (g := fun μ => (Full.tm L' body Δ tl.after (Full.clauseEnd r cl).1 (μ.hint || tl.after) μ).andThen fun μ =>
          wrote [] { μ with close := !isNil body && (Full.clauseEnd r cl).2 })
        (fun ν hν => (joined_tm hK hL body h1.1 Γ Δ hr ha _ _ _ ν hν).andThen fun κ hκ => joined_wrote _ hκ) μ hm
  | .cons tl (some (p, a)) body r, h1, cl, Γ, Δ, hr, ha, f, g, hf, μ, hm => by
      rw [SCls.every] at h1
      simp only [Bool.and_eq_true] at h1
      obtain ⟨⟨⟨⟨h1, h2⟩, h3⟩, h4⟩, h5⟩ := h1
      rw [Full.clauses, Full.clauses]
      refine Joined.after (tie_sub hK p a h1 h2 (fun k h => tie_args hK a h3 k h) _ ha) fun v _ => ?_
      split
      · exact (joined_tm hK hL body h4 Γ Δ hr ha _ _ _ μ hm).andThen fun κ hκ => joined_wrote _ hκ
      · exact joined_cls hK hL r h5 cl Γ Δ hr ha hf μ hm
end

theorem joined_depth (hK : Sound K pan) {get get' : Str → Option STm} (h0 : Q none = true → ∀ x, Q (some x) = true)
    (h1 : ∀ x, Q (some x) = true → get' x = get x) (h2 : ∀ x T, Q (some x) = true → get x = some T → T.every N K Q = true)
    (h3 : ∀ x, (x = c!"@partial-block" ∨ (get x).isSome = true) → x ∈ names) :
    ∀ n d d', n ≤ d → n ≤ d' → JoinedLib names n N K Q pan loose (Full.depth get d) (Full.depth get' d')
  | 0, d, d', _, _ => by
      refine ⟨h0, ?_, ?_, ?_, fun T Γ Δ μ _ h => ?_⟩
      · cases d <;> cases d' <;> exact h1
      · cases d <;> exact h2
      · cases d <;> exact h3
      · obtain ⟨m, hm, _⟩ := h; cases hm
  | n + 1, d + 1, d' + 1, hd, hd' => by
      refine ⟨h0, h1, h2, h3, fun T Γ Δ μ hT h ha hm => ?_⟩
      obtain ⟨m, hm', hro⟩ := h
      injection hm' with hm'
      subst hm'
      exact joined_tm hK (joined_depth hK h0 h1 h2 h3 n d d' (Nat.le_of_succ_le_succ hd) (Nat.le_of_succ_le_succ hd')) T hT Γ Δ hro ha false false μ.hint μ hm

end
end Bracket.Props.Tied
