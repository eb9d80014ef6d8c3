import Verif.Spec.KeyOrder
import Verif.Lemmas.Tied
import Verif.Props.Hash

/-! The reference interpreter does not see the order of hash arguments. -/

set_option linter.unusedSectionVars false

namespace Bracket.Props.KeyOrder
open Bracket Spec Bracket.Props
open Bracket.Spec.Full hiding block blockHelper contents rounds builtinBlock depth

section
variable [H : Host] [C : Custom]

/-! ### Hashes -/

/-- No helper and no partial can tell the two apart. -/
structure Like (a b : List (Str × Value)) : Prop where
  get : ∀ k, a.lookup k = b.lookup k
  object : object a = object b

theorem Like.refl (a : List (Str × Value)) : Like a a := ⟨fun _ => rfl, rfl⟩

theorem lookup_cons' (k k' : Str) (v : Value) (l : List (Str × Value)) :
    ((k', v) :: l).lookup k = if k = k' then some v else l.lookup k := by
  rw [List.lookup_cons]
  by_cases h : k = k'
  · simp [h]
  · rw [if_neg h, show (k == k') = false from beq_false_of_ne h]

theorem lookup_none {k : Str} : ∀ {l : List (Str × Value)}, k ∉ l.map (·.1) → l.lookup k = none
  | [], _ => rfl
  | (k', v) :: l, h => by
      simp only [List.map_cons, List.mem_cons, not_or] at h
      rw [lookup_cons', if_neg h.1]
      exact lookup_none h.2

theorem object_get (k : Str) : ∀ (l m : List (Str × Value)), (l.map (·.1)).Nodup →
    assoc k (l.foldl (fun m x => mapInsert x.1 x.2 m) m) = match l.lookup k with
      | some v => some v
      | none => assoc k m
  | [], m, _ => rfl
  | (k', v) :: l, m, h => by
      simp only [List.map_cons, List.nodup_cons] at h
      rw [List.foldl_cons, object_get k l _ h.2, lookup_cons', assoc_mapInsert]
      by_cases e : k = k'
      · subst e
        rw [lookup_none h.1, if_pos rfl, if_pos rfl]
      · rw [if_neg e, if_neg e]

theorem object_sorted : ∀ (l m : List (Str × Value)), SortedMap m → SortedMap (l.foldl (fun m x => mapInsert x.1 x.2 m) m)
  | [], _, h => h
  | x :: l, m, h => object_sorted l _ (sorted_mapInsert x.1 x.2 h)

theorem lookup_perm {a b : List (Str × Value)} (h : a.Perm b) (k : Str) : (a.map (·.1)).Nodup → a.lookup k = b.lookup k := by
  induction h with
  | nil => intro _; rfl
  | cons x _ ih =>
      intro hn
      simp only [List.map_cons, List.nodup_cons] at hn
      rw [lookup_cons', lookup_cons', ih hn.2]
  | swap x y l =>
      intro hn
      simp only [List.map_cons, List.nodup_cons, List.mem_cons, not_or] at hn
      rw [lookup_cons', lookup_cons', lookup_cons', lookup_cons']
      by_cases h1 : k = y.1
      · rw [if_pos h1, if_neg (by rw [h1]; exact hn.1.1), if_pos h1]
      · rw [if_neg h1, if_neg h1]
  | trans h1 _ ih1 ih2 =>
      intro hn
      exact (ih1 hn).trans (ih2 ((h1.map (·.1)).nodup_iff.1 hn))

theorem Like.perm {a b : List (Str × Value)} (h : a.Perm b) (hn : (a.map (·.1)).Nodup) : Like a b := by
  refine ⟨fun k => lookup_perm h k hn, sorted_ext (object_sorted _ _ .nil) (object_sorted _ _ .nil) fun k => ?_⟩
  unfold Full.object
  rw [object_get k a [] hn, object_get k b [] ((h.map (·.1)).nodup_iff.1 hn), lookup_perm h k hn]

/-! ### Arguments -/

/-- The same is written, and the values are related. -/
def Rel {α : Type} (R : α → α → Prop) (a b : Said α) : Prop :=
  a.1 = b.1 ∧ match a.2, b.2 with
    | .ok x, .ok y => R x y
    | .error e, .error e' => e = e'
    | _, _ => False

theorem Rel.said {α : Type} {R : α → α → Prop} {x y : α} (h : R x y) : Rel R (said x) (said y) := ⟨rfl, h⟩

theorem Rel.refl {α : Type} {R : α → α → Prop} (h : ∀ x, R x x) (a : Said α) : Rel R a a := by
  obtain ⟨w, x⟩ := a
  cases x <;> exact ⟨rfl, by first | rfl | exact h _⟩

theorem Rel.bind {α β : Type} {R : α → α → Prop} {Q : β → β → Prop} {a b : Said α} (h : Rel R a b) {f g : α → Said β}
    (hf : ∀ x y, R x y → Rel Q (f x) (g y)) : Rel Q (a.bind f) (b.bind g) := by
  obtain ⟨w, x⟩ := a
  obtain ⟨w', y⟩ := b
  obtain ⟨h1, h2⟩ := h
  cases h1
  cases x with
  | error e => cases y with
      | error e' => cases h2; exact ⟨rfl, rfl⟩
      | ok y => exact h2.elim
  | ok x => cases y with
      | error e' => exact h2.elim
      | ok y =>
          obtain ⟨h3, h4⟩ := hf x y h2
          exact ⟨congrArg (w ++ ·) h3, h4⟩

theorem Rel.eq {α : Type} {a b : Said α} (h : Rel (· = ·) a b) : a = b := by
  obtain ⟨w, x⟩ := a
  obtain ⟨w', y⟩ := b
  obtain ⟨h1, h2⟩ := h
  cases h1
  cases x with
  | error e => cases y with
      | error e' => cases h2; rfl
      | ok y => exact h2.elim
  | ok x => cases y with
      | error e' => exact h2.elim
      | ok y => cases h2; rfl

/-- The values of literals and paths. -/
def plainValue (Γ : Scene) : SExpr → Option Value
  | .path p => Γ.find p
  | .lit l => some l.value
  | .sub .. => none

def plainValues (Γ : Scene) : SHash → List (Str × Value)
  | .tail _ => []
  | .pairW _ k x r => (k, (plainValue Γ x).getD .null) :: plainValues Γ r

theorem expr_plain {x : SExpr} (h : x.plain = true) (Γ : Scene) (k : Cut) : x.eval Γ k = said (plainValue Γ x) := by
  cases x with
  | path p => rw [SExpr.eval]; rfl
  | lit l => rw [SExpr.eval]; rfl
  | sub p a => cases h

theorem hash_plain (Γ : Scene) (k : Cut) : ∀ {h : SHash}, h.plain = true → h.eval Γ k = said (plainValues Γ h)
  | .tail w, _ => by rw [SHash.eval]; rfl
  | .pairW w n x r, h => by
      simp only [SHash.plain, Bool.and_eq_true] at h
      rw [SHash.eval, expr_plain h.1, hash_plain Γ k h.2]
      rfl

theorem place_plain (ws k : Str) (x : SExpr) : ∀ h : SHash, (h.place ws k x).plain = (x.plain && h.plain)
  | .tail w => by simp [SHash.place, SHash.plain]
  | .pairW w n y r => by
      rw [SHash.place]
      split
      · rfl
      · simp only [SHash.plain, place_plain ws k x r]
        cases x.plain <;> cases y.plain <;> rfl

theorem sort_plain : ∀ h : SHash, h.sort.plain = h.plain
  | .tail w => rfl
  | .pairW w n y r => by rw [SHash.sort, place_plain, sort_plain r]; rfl

theorem place_values (Γ : Scene) (ws k : Str) (x : SExpr) : ∀ h : SHash,
    ((k, (plainValue Γ x).getD .null) :: plainValues Γ h).Perm (plainValues Γ (h.place ws k x))
  | .tail w => .refl _
  | .pairW w n y r => by
      rw [SHash.place]
      split
      · exact .refl _
      · exact (List.Perm.swap _ _ _).trans (.cons _ (place_values Γ ws k x r))

theorem sort_values (Γ : Scene) : ∀ h : SHash, (plainValues Γ h).Perm (plainValues Γ h.sort)
  | .tail w => .refl _
  | .pairW w n y r => (List.Perm.cons _ (sort_values Γ r)).trans (place_values Γ w n y r.sort)

theorem keys_values (Γ : Scene) : ∀ h : SHash, (plainValues Γ h).map (·.1) = h.keys
  | .tail w => rfl
  | .pairW w n y r => by rw [plainValues, SHash.keys, List.map_cons, keys_values Γ r]

theorem hash_sort {h : SHash} (hp : h.plain = true) (hk : h.keys.Nodup) (Γ : Scene) (k : Cut) : Rel Like (h.sort.eval Γ k) (h.eval Γ k) := by
  rw [hash_plain Γ k hp, hash_plain Γ k ((sort_plain h).trans hp)]
  refine Rel.said (Like.perm (sort_values Γ h).symm ?_)
  rw [((sort_values Γ h).map (·.1)).symm.nodup_iff, keys_values]
  exact hk

theorem builtinValue_like (w : Str) (vs : List Value) {a b : List (Str × Value)} (h : Like a b) : builtinValue w vs a = builtinValue w vs b := by
  unfold builtinValue
  rw [h.get, h.get]

theorem said_like (f : CustomFn) (Γ : Scene) (k : Cut) (vs : List Value) {a b : List (Str × Value)} (h : Like a b) :
    f.said Γ k vs a = f.said Γ k vs b := by
  unfold CustomFn.said
  rw [show (fun x => a.lookup x) = (fun x => b.lookup x) from funext h.get]

theorem helperValue_like (w : Str) (Γ : Scene) (k : Cut) (vs : List Value) {a b : List (Str × Value)} (h : Like a b) :
    helperValue w Γ k vs a = helperValue w Γ k vs b := by
  unfold helperValue
  cases Custom.fn w with
  | none => exact congrArg _ (builtinValue_like w vs h)
  | some f => exact said_like f Γ k vs h

/-- The same arguments, and hashes that cannot be told apart. -/
def Both (a b : List Value × List (Str × Value)) : Prop := a.1 = b.1 ∧ Like a.2 b.2

/-- The hash arguments of a call, in the order of the keys if they may. -/
def hashOrdered (h : SHash) : SHash := if h.plain && decide h.keys.Nodup then h.sort else h.ordered

mutual
theorem expr_ordered : ∀ (x : SExpr) (Γ : Scene) (k : Cut), x.ordered.eval Γ k = x.eval Γ k
  | .path p, Γ, k => by rw [SExpr.ordered]
  | .lit l, Γ, k => by rw [SExpr.ordered]
  | .sub p a, Γ, k => by
      rw [SExpr.ordered, SExpr.eval, SExpr.eval]
      cases p.helper with
      | some h =>
          simp only
          split
          · rfl
          refine Rel.eq (Rel.bind (args_ordered a _ k) fun x y hxy => ?_)
          obtain ⟨h1, h2⟩ := hxy
          rw [h1, helperValue_like h Γ k y.1 h2]
          exact Rel.refl (fun _ => rfl) _
      | none =>
          simp only
          cases Γ.find p with
          | some v => rfl
          | none =>
              simp only
              cases p.handler with
              | none => rfl
              | some f =>
                  simp only
                  split
                  · rfl
                  refine Rel.eq (Rel.bind (args_ordered a _ k) fun x y hxy => ?_)
                  obtain ⟨h1, h2⟩ := hxy
                  rw [h1, said_like f Γ k y.1 h2]
                  exact Rel.refl (fun _ => rfl) _
theorem args_ordered : ∀ (a : SArgs) (Γ : Scene) (k : Cut), Rel Both (a.ordered.eval Γ k) (a.eval Γ k)
  | .done h, Γ, k => by
      rw [SArgs.ordered, SArgs.eval, SArgs.eval]
      refine Rel.bind (R := Like) ?_ fun x y hxy => Rel.said ⟨rfl, hxy⟩
      split
      · next hh =>
          rw [Bool.and_eq_true, decide_eq_true_eq] at hh
          exact hash_sort hh.1 hh.2 Γ k
      · rw [hash_ordered h]
        exact Rel.refl Like.refl _
  | .argW w x r, Γ, k => by
      rw [SArgs.ordered, SArgs.eval, SArgs.eval, expr_ordered x]
      refine Rel.bind (R := (· = ·)) (Rel.refl (fun _ => rfl) _) fun v v' hv => ?_
      refine Rel.bind (args_ordered r Γ k) fun y y' hy => Rel.said ⟨?_, hy.2⟩
      rw [hv, hy.1]
theorem hash_ordered : ∀ (h : SHash) (Γ : Scene) (k : Cut), h.ordered.eval Γ k = h.eval Γ k
  | .tail w, Γ, k => by rw [SHash.ordered]
  | .pairW w n x r, Γ, k => by rw [SHash.ordered, SHash.eval, SHash.eval, expr_ordered x, hash_ordered r]
end

theorem positional_ordered : ∀ (a : SArgs) (Γ : Scene) (k : Cut), positional a.ordered Γ k = positional a Γ k
  | .done h, Γ, k => by rw [SArgs.ordered, positional, positional]
  | .argW w x r, Γ, k => by rw [SArgs.ordered, positional, positional, expr_ordered x, positional_ordered r]
theorem named_ordered : ∀ (a : SArgs) (Γ : Scene) (k : Cut), Rel Like ((named a.ordered).eval Γ k) ((named a).eval Γ k)
  | .done h, Γ, k => by
      rw [SArgs.ordered, named, named]
      split
      · next hh =>
          rw [Bool.and_eq_true, decide_eq_true_eq] at hh
          exact hash_sort hh.1 hh.2 Γ k
      · rw [hash_ordered h]
        exact Rel.refl Like.refl _
  | .argW w x r, Γ, k => by rw [SArgs.ordered, named, named]; exact named_ordered r Γ k

theorem opens_ordered (r : STm) : opens r.ordered = opens r := by
  cases r <;> simp [STm.ordered, opens]
theorem isNil_ordered (r : STm) : isNil r.ordered = isNil r := by
  cases r <;> rfl
theorem stops_ordered (r : STm) (c : Bool) : stops r.ordered c = stops r c := by
  rw [stops, stops, opens_ordered, isNil_ordered]

/-- The content of the block partial called last, in the standard order. -/
def ordMood (μ : Mood) : Mood := { μ with block := μ.block.map STm.ordered }
def ord (a : Outcome) : Outcome := (a.1, match a.2 with
  | .error x => .error x
  | .ok μ => .ok (ordMood μ))

theorem ord_wrote (w : Str) (μ : Mood) : ord (wrote w μ) = wrote w (ordMood μ) := rfl
theorem ord_failed (f : Fault) : ord (failed f) = failed f := rfl
theorem ord_within (a : Outcome) : (ord a).within = ord a.within := by
  obtain ⟨w, x⟩ := a; cases x <;> rfl
theorem ord_andThen (a : Outcome) (f g : Mood → Outcome) (h : ∀ μ, g (ordMood μ) = ord (f μ)) :
    (ord a).andThen g = ord (a.andThen f) := by
  obtain ⟨w, x⟩ := a
  cases x with
  | error e => rfl
  | ok μ =>
      show (w ++ (g (ordMood μ)).1, (g (ordMood μ)).2) = _
      rw [h μ]
      rfl

/-- Then: first what is the same, and then what is the same. -/
theorem andThen_ord {a b : Outcome} (e : b = ord a) {f g : Mood → Outcome} (h : ∀ μ, g (ordMood μ) = ord (f μ)) :
    b.andThen g = ord (a.andThen f) := by rw [e, ord_andThen a f g h]

theorem after_ord {α : Type} (x : Said α) {f g : α → Outcome} (h : ∀ a, g a = ord (f a)) :
    Outcome.after x g = ord (Outcome.after x f) := by
  obtain ⟨w, x⟩ := x
  cases x with
  | error e => rfl
  | ok a =>
      show (w ++ (g a).1, (g a).2) = _
      rw [h a]
      rfl

theorem after_rel {α : Type} {R : α → α → Prop} {x y : Said α} (h : Rel R x y) {f g : α → Outcome} (hf : ∀ a b, R a b → g a = ord (f b)) :
    Outcome.after x g = ord (Outcome.after y f) := by
  obtain ⟨w, x⟩ := x
  obtain ⟨w', y⟩ := y
  obtain ⟨h1, h2⟩ := h
  cases h1
  cases x with
  | error e => cases y with
      | error e' => cases h2; rfl
      | ok y => exact h2.elim
  | ok x => cases y with
      | error e' => exact h2.elim
      | ok y =>
          show (w ++ (g x).1, (g x).2) = _
          rw [hf x y h2]
          rfl

/-- The contents of a block. -/
def Same (D' D : Scene → Mood → Outcome) : Prop := ∀ Γ μ, D' Γ (ordMood μ) = ord (D Γ μ)

variable {D D' A A' : Scene → Mood → Outcome} (hD : Same D' D) (hA : Same A' A)

include hD in
theorem rounds_ordered (Γ : Scene) : ∀ rs μ, Full.rounds D' Γ rs (ordMood μ) = ord (Full.rounds D Γ rs μ)
  | [], μ => rfl
  | r :: rs, μ => by
      rw [Full.rounds, Full.rounds, hD, ord_within]
      exact ord_andThen _ _ _ (rounds_ordered Γ rs)

include hD in
theorem contents_ordered (Γ : Scene) (e : Option HelperErr) : ∀ l μ, Full.contents D' Γ e l (ordMood μ) = ord (Full.contents D Γ e l μ)
  | [], μ => by cases e <;> rfl
  | .print x :: l, μ => by
      rw [Full.contents, Full.contents]
      exact andThen_ord (b := wrote (Γ.print μ.trim x) (ordMood μ)) rfl (contents_ordered Γ e l)
  | .content none :: l, μ => by
      rw [Full.contents, Full.contents, hD, ord_within]
      exact ord_andThen _ _ _ (contents_ordered Γ e l)
  | .content (some sc) :: l, μ => by
      rw [Full.contents, Full.contents, hD, ord_within]
      exact ord_andThen _ _ _ (contents_ordered Γ e l)

include hD hA in
theorem builtin_ordered (w : Str) (vs : List Value) {hs' hs : List (Str × Value)} (hh : Like hs' hs) (Γ : Scene) (μ : Mood) :
    Full.builtinBlock w vs hs' D' A' Γ (ordMood μ) = ord (Full.builtinBlock w vs hs D A Γ μ) := by
  have val : (match builtinValue w vs hs with
      | .error f => failed f
      | .ok _ => wrote [] (ordMood μ)) = ord (match builtinValue w vs hs with
      | .error f => failed f
      | .ok _ => wrote [] μ) := by
    cases builtinValue w vs hs <;> rfl
  rw [show Full.builtinBlock w vs hs' D' A' Γ (ordMood μ) = Full.builtinBlock w vs hs D' A' Γ (ordMood μ) by
    unfold Full.builtinBlock
    match vs with
    | [v] => simp only [builtinValue_like w [v] hh]
    | [] => simp only [builtinValue_like w [] hh]
    | a :: b :: l => simp only [builtinValue_like w (a :: b :: l) hh]]
  unfold Full.builtinBlock
  match vs, val with
  | [v], val =>
      simp only
      split
      · split
        · rw [hD, ord_within]
        · rw [hA, ord_within]
      split
      · split
        · rw [hA, ord_within]
        · rw [hD, ord_within]
      split
      · cases v with
        | arr l => exact rounds_ordered hD _ _ μ
        | obj l => exact rounds_ordered hD _ _ μ
        | _ => rfl
      split
      · cases v with
        | null => rfl
        | _ => exact (congrArg Outcome.within (hD _ μ)).trans (ord_within _)
      · exact val
  | [], val => exact val
  | _ :: _ :: _, val => exact val

include hD hA in
theorem custom_ordered (f : CustomFn) (t : Option Str) (vs : List Value) {hs' hs : List (Str × Value)} (hh : Like hs' hs) (Γ : Scene) (μ : Mood) :
    customBlock f t vs hs' D' A' Γ (ordMood μ) = ord (customBlock f t vs hs D A Γ μ) := by
  unfold customBlock
  rw [show (fun x => hs'.lookup x) = (fun x => hs.lookup x) from funext hh.get]
  cases f.block t vs (fun k => hs.lookup k) with
  | contents l e => exact contents_ordered hD _ e l μ
  | otherwise => exact (congrArg Outcome.within (hA _ μ)).trans (ord_within _)

include hD hA in
theorem helped_ordered (w : Str) (t : Option Str) (a : SArgs) (Γ : Scene) (μ : Mood) :
    helped w t a.ordered D' A' Γ (ordMood μ) = ord (helped w t a D A Γ μ) := by
  unfold helped
  split
  · rfl
  refine after_rel (args_ordered a (Γ.enter (.block w)) μ.trim) fun v v' hv => ?_
  obtain ⟨h1, h2⟩ := hv
  rw [h1]
  unfold Full.blockHelper
  cases Custom.fn w with
  | none => exact builtin_ordered hD hA w _ h2 _ μ
  | some f => exact custom_ordered hD hA f t _ h2 _ μ

include hD hA in
theorem handled_ordered (f : CustomFn) (a : SArgs) (Γ : Scene) (μ : Mood) :
    handled f a.ordered D' A' Γ (ordMood μ) = ord (handled f a D A Γ μ) := by
  unfold handled
  split
  · rfl
  refine after_rel (args_ordered a (Γ.enter (.block blockMissingName)) μ.trim) fun v v' hv => ?_
  obtain ⟨h1, h2⟩ := hv
  rw [h1]
  exact custom_ordered hD hA f none _ h2 _ μ

theorem sub_ordered (p : SPath) (a : SArgs) (Γ : Scene) (k : Cut) : (SExpr.sub p a.ordered).eval Γ k = (SExpr.sub p a).eval Γ k := by
  have := expr_ordered (.sub p a) Γ k
  rwa [SExpr.ordered] at this

include hD hA in
theorem block_ordered (w : Str) (a : SArgs) (Γ : Scene) (μ : Mood) :
    Full.block w a.ordered D' A' Γ (ordMood μ) = ord (Full.block w a D A Γ μ) := by
  unfold Full.block
  split
  · exact helped_ordered hD hA w none a Γ μ
  · cases Γ.find ⟨0, .name w, []⟩ with
    | some v =>
        simp only
        cases (Custom.blockMissing : Option (Str → Value → CustomFn)) with
        | none => exact (congrArg Outcome.within (hD _ μ)).trans (ord_within _)
        | some f => exact handled_ordered hD hA _ a Γ μ
    | none =>
        simp only
        cases (Custom.missing : Option (Str → CustomFn)) with
        | none =>
            simp only
            split <;> rfl
        | some f =>
            simp only
            rw [sub_ordered]
            exact after_ord ((SExpr.sub ⟨0, .name w, []⟩ a).eval Γ μ.trim) fun _ => rfl

theorem link_ordered (Γ : Scene) (e : Bool) (h : Str) (l t : Option Str) (μ : Mood) :
    Full.link Γ e h l t (ordMood μ) = ord (Full.link Γ e h l t μ) := by
  unfold Full.link
  cases (if e then none else (Custom.link : Option CustomFn)) with
  | none => rfl
  | some f =>
      simp only
      split
      · rfl
      · exact after_ord (f.said Γ μ.trim (linkValues h l t) []) fun _ => rfl

/-- The library with all its templates in the standard order. -/
structure SameLib (L' L : Library) : Prop where
  get : ∀ x, L'.get x = (L.get x).map STm.ordered
  render : ∀ T Γ μ, L'.render T.ordered Γ (ordMood μ) = ord (L.render T Γ μ)

theorem included_ordered {L L' : Library} (hL : SameLib L' L) (content : Option STm) (w : Str) (a : SArgs) (Γ : Scene) (μ : Mood) :
    included L' (content.map STm.ordered) w a.ordered Γ (ordMood μ) = ord (included L content w a Γ μ) := by
  unfold included
  split
  · rfl
  have hg : (ordMood μ).given (content.map STm.ordered) = ordMood (μ.given content) := by cases content <;> rfl
  rw [hg]
  have ht : (ordMood μ).trim = μ.trim := rfl
  rw [ht]
  generalize μ.given content = ν
  have hf : L'.find (ordMood ν) w = (L.find ν w).map STm.ordered := by
    unfold Library.find
    rw [hL.get]
    split
    · obtain ⟨a, b, c, d⟩ := ν
      cases c <;> rfl
    · rfl
  rw [hf]
  cases L.find ν w with
  | none => rfl
  | some T =>
      simp only [Option.map_some]
      rw [positional_ordered]
      refine after_rel (named_ordered a (Γ.enter (.part w)) μ.trim) fun hs' hs hh =>
        after_ord (positional a (Γ.enter (.part w)) μ.trim) fun vs => ?_
      rw [show Full.partialScope vs hs' = Full.partialScope vs hs by unfold Full.partialScope; rw [hh.object]]
      exact hL.render T _ ν

theorem partial_ordered {L L' : Library} (hL : SameLib L' L) (content : Option STm) (p : SPath) (a : SArgs) (Γ : Scene) (μ : Mood) :
    partialCall L' (content.map STm.ordered) p a.ordered Γ (ordMood μ) = ord (partialCall L content p a Γ μ) := by
  unfold partialCall
  split
  · rfl
  · exact included_ordered hL content _ a Γ μ

theorem computed_ordered {L L' : Library} (hL : SameLib L' L) (q : SPath) (b a : SArgs) (Γ : Scene) (μ : Mood) :
    computedCall L' q b.ordered a.ordered Γ (ordMood μ) = ord (computedCall L q b a Γ μ) := by
  unfold computedCall
  rw [sub_ordered]
  exact after_ord ((SExpr.sub q b).eval Γ μ.trim) fun v => included_ordered hL none _ a Γ μ

theorem prints_ordered (Γ : Scene) (raw : Bool) (p : SPath) (a : SArgs) (k : Cut) (μ : Mood) :
    prints Γ raw ((SExpr.sub p a.ordered).eval Γ k) (ordMood μ) = ord (prints Γ raw ((SExpr.sub p a).eval Γ k) μ) := by
  rw [sub_ordered]
  unfold prints
  exact after_ord ((SExpr.sub p a).eval Γ k) fun v => by cases v <;> rfl

theorem clauseEnd_ordered (cs : SCls) (cl : Tilde) : clauseEnd cs.ordered cl = clauseEnd cs cl := by
  match cs with
  | .nil => rfl
  | .cons _ none _ _ => rfl
  | .cons _ (some (_, _)) _ _ => rfl

mutual
theorem tm_ordered {L L' : Library} (hL : SameLib L' L) : ∀ (T : STm) (Γ : Scene) (o c s : Bool) (μ : Mood),
    tm L' T.ordered Γ o c s (ordMood μ) = ord (tm L T Γ o c s μ)
  | .nil, Γ, o, c, s, μ => by rw [STm.ordered, tm, tm, ord_wrote]
  | .text w r, Γ, o, c, s, μ => by
      rw [STm.ordered, tm, tm, stops_ordered]
      exact andThen_ord (b := wrote _ ((ordMood μ).next false ⟨s || μ.close, stops r c⟩)) rfl (tm_ordered hL r Γ o c false)
  | .comment w r, Γ, o, c, s, μ => by
      rw [STm.ordered, tm, tm, stops_ordered]
      exact andThen_ord (b := wrote _ ((ordMood μ).next false ⟨s || μ.close, stops r c⟩)) rfl (tm_ordered hL r Γ o c false)
  | .longComment w r, Γ, o, c, s, μ => by
      rw [STm.ordered, tm, tm, stops_ordered]
      exact andThen_ord (b := wrote _ ((ordMood μ).next false ⟨s || μ.close, stops r c⟩)) rfl (tm_ordered hL r Γ o c false)
  | .escaped w r, Γ, o, c, s, μ => by
      rw [STm.ordered, tm, tm, stops_ordered]
      exact andThen_ord (b := wrote _ ((ordMood μ).next false ⟨s || μ.close, stops r c⟩)) rfl (tm_ordered hL r Γ o c false)
  | .link e h l t r, Γ, o, c, s, μ => by
      rw [STm.ordered, tm, tm, stops_ordered]
      exact andThen_ord (link_ordered Γ e h l t (μ.next false ⟨s || μ.close, stops r c⟩)) (tm_ordered hL r Γ o c false)
  | .stmt raw part tl p a r, Γ, o, c, s, μ => by
      rw [STm.ordered, tm, tm, stops_ordered]
      refine andThen_ord ?_ (tm_ordered hL r Γ o c tl.after)
      split
      · exact partial_ordered hL none p a Γ (μ.next tl.after ⟨s || μ.close, stops r c⟩)
      · exact prints_ordered Γ raw p a _ (μ.next tl.after ⟨s || μ.close, stops r c⟩)
  | .dyn raw part tl q b a r, Γ, o, c, s, μ => by
      rw [STm.ordered, tm, tm, stops_ordered]
      refine andThen_ord ?_ (tm_ordered hL r Γ o c tl.after)
      split
      · exact computed_ordered hL q b a Γ (μ.next tl.after ⟨s || μ.close, stops r c⟩)
      · exact prints_ordered Γ raw q b _ (μ.next tl.after ⟨s || μ.close, stops r c⟩)
  | .rawBlock tl w a x cl r, Γ, o, c, s, μ => by
      rw [STm.ordered, tm, tm, stops_ordered]
      refine andThen_ord ?_ (tm_ordered hL r Γ o c o)
      split
      · exact helped_ordered (D := fun _ μ => wrote (cut (μ.hint || tl.after || μ.close) cl.before x) ⟨false, cl.after, μ.block, ⟨μ.hint || tl.after || μ.close, cl.before⟩⟩)
          (A := fun _ μ => wrote [] μ) (fun _ _ => rfl) (fun _ _ => rfl) w (some (cut tl.after cl.before x)) a Γ { μ.next tl.after ⟨s || μ.close, stops r c⟩ with close := cl.after }
      · rfl
  | .block part tl w a body cs cl r, Γ, o, c, s, μ => by
      rw [STm.ordered, tm, tm, stops_ordered]
      refine andThen_ord ?_ (tm_ordered hL r Γ o c o)
      split
      · exact partial_ordered hL (some body) _ a Γ (μ.next tl.after ⟨s || μ.close, stops r c⟩)
      · refine block_ordered (D := fun Δ μ => (tm L body Δ tl.after cl.before (μ.hint || tl.after) μ).andThen fun μ => wrote [] { μ with close := !isNil body && cl.after })
          (A := fun Δ μ => clauses L cs cl Δ (fun μ => wrote [] μ) μ) (fun Δ ν => ?_) (fun Δ ν => ?_) w a Γ (μ.next tl.after ⟨s || μ.close, stops r c⟩)
        · refine andThen_ord (tm_ordered hL body Δ _ _ _ ν) fun κ => ?_
          rw [isNil_ordered]
          rfl
        · exact cls_ordered hL cs cl Δ _ _ (fun _ => rfl) ν
theorem cls_ordered {L L' : Library} (hL : SameLib L' L) : ∀ (cs : SCls) (cl : Tilde) (Γ : Scene) (f g : Mood → Outcome),
    (∀ μ, g (ordMood μ) = ord (f μ)) → ∀ μ, clauses L' cs.ordered cl Γ g (ordMood μ) = ord (clauses L cs cl Γ f μ)
  | .nil, cl, Γ, f, g, hf, μ => by rw [SCls.ordered, clauses, clauses]; exact hf μ
  | .cons tl none body r, cl, Γ, f, g, hf, μ => by
      rw [SCls.ordered, clauses, clauses, clauseEnd_ordered, isNil_ordered]
      exact cls_ordered hL r cl Γ _ _ (fun ν => andThen_ord (tm_ordered hL body Γ _ _ _ ν) fun κ => rfl) μ
  | .cons tl (some (p, a)) body r, cl, Γ, f, g, hf, μ => by
      rw [SCls.ordered, clauses, clauses, clauseEnd_ordered, isNil_ordered]
      rw [sub_ordered]
      refine after_ord ((SExpr.sub p a).eval Γ μ.trim) fun v => ?_
      split
      · exact andThen_ord (tm_ordered hL body Γ _ _ _ μ) fun κ => rfl
      · exact cls_ordered hL r cl Γ f g hf μ
end

theorem depth_ordered {get get' : Str → Option STm} (h : ∀ x, get' x = (get x).map STm.ordered) : ∀ n, SameLib (Full.depth get' n) (Full.depth get n)
  | 0 => ⟨h, fun _ _ _ => rfl⟩
  | n + 1 => ⟨h, fun T Γ μ => tm_ordered (depth_ordered h n) T Γ false false μ.hint μ⟩

end

end Bracket.Props.KeyOrder
