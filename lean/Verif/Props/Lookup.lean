import Verif.Spec.Lookup
import Verif.Model.Registry
import Verif.Lemmas.Basic
import Verif.Lemmas.ExHost

/-! C09–C13: variable lookup. -/

namespace Bracket.Props
open Spec

theorem assoc_eq_lookup (k : Str) (m : List (Str × Value)) : assoc k m = m.lookup k := by
  induction m with
  | nil => rfl
  | cons p m ih =>
      obtain ⟨j, v⟩ := p
      simp only [assoc, List.lookup]
      by_cases h : j = k
      · simp [h]
      · have : (k == j) = false := by simpa using fun e => h e.symm
        simp [h, this, ih]

theorem digitVal_iff {c : Char} {d : Nat} :
    digitVal c = some d ↔ ('0' ≤ c ∧ c ≤ '9') ∧ digitOf c = d := by
  unfold digitVal digitOf
  have e0 : '0'.toNat = 48 := rfl
  have e9 : '9'.toNat = 57 := rfl
  have h1 : '0' ≤ c ↔ '0'.toNat ≤ c.toNat := Iff.rfl
  have h2 : c ≤ '9' ↔ c.toNat ≤ '9'.toNat := Iff.rfl
  rw [h1, h2]
  split <;> simp_all

theorem parseDigits_iff (s : Str) (acc n : Nat) :
    parseDigits s acc = some n ↔
      (∀ c ∈ s, '0' ≤ c ∧ c ≤ '9') ∧ s.foldl (fun a c => a * 10 + digitOf c) acc = n := by
  induction s generalizing acc with
  | nil => simp [parseDigits]
  | cons c s ih =>
      rw [parseDigits]
      cases h : digitVal c with
      | none =>
          simp only [reduceCtorEq, List.mem_cons, forall_eq_or_imp, false_iff]
          rintro ⟨⟨hc, -⟩, -⟩
          have := (digitVal_iff (c := c) (d := digitOf c)).mpr ⟨hc, rfl⟩
          simp [h] at this
      | some d =>
          obtain ⟨hc, rfl⟩ := digitVal_iff.mp h
          simp only [ih, List.mem_cons, forall_eq_or_imp, List.foldl_cons]
          simp [hc]

theorem plus_not_digit : ¬ ('0' ≤ '+' ∧ '+' ≤ '9') := by decide

theorem parseUsize_iff (s : Str) (i : Nat) : parseUsize s = some i ↔ IndexText s i := by
  have aux : ∀ d : Str, d ≠ [] → (parseDigits d 0 = some i ↔
      (d ≠ [] ∧ (∀ c ∈ d, '0' ≤ c ∧ c ≤ '9') ∧ decimalValue d = i)) := by
    intro d hd
    rw [parseDigits_iff]
    simp [hd, decimalValue]
  unfold parseUsize IndexText
  split
  · simp
  · simp only [reduceCtorEq, false_iff]
    rintro ⟨d, hd | hd, h1, h2, -⟩
    · subst hd; exact plus_not_digit (h2 '+' (by simp))
    · simp at hd; exact h1 hd
  · rename_i cs hcs
    rw [aux cs (fun h => hcs h)]
    constructor
    · rintro h; exact ⟨cs, .inr rfl, h⟩
    · rintro ⟨d, hd | hd, h⟩
      · subst hd; exact absurd (h.2.1 '+' (by simp)) plus_not_digit
      · simp at hd; subst hd; exact h
  · rename_i h1 h2 h3
    rw [aux s h1]
    constructor
    · intro h; exact ⟨s, .inl rfl, h⟩
    · rintro ⟨d, hd | hd, h⟩
      · subst hd; exact h
      · exact absurd hd (h3 d)

theorem findField_iff (v : Value) (k : Str) (w : Value) : findField v k = some w ↔ Field v k w := by
  unfold findField
  split
  · rw [assoc_eq_lookup]
    exact ⟨.member, fun h => by cases h; assumption⟩
  · rename_i l
    constructor
    · intro h
      split at h
      · rename_i i hi
        exact .element ((parseUsize_iff _ _).mp hi) h
      · simp at h
    · intro h
      cases h with
      | element hi h => rw [(parseUsize_iff _ _).mpr hi]; exact h
  · rename_i h1 h2
    simp only [reduceCtorEq, false_iff]
    intro h
    cases h with
    | member => exact h1 _ rfl
    | element => exact h2 _ rfl

theorem findPartsLoop_iff (ks : List Str) (v w : Value) :
    findPartsLoop ks v = some w ↔ Reach v ks w := by
  induction ks generalizing v with
  | nil => simp [findPartsLoop]; intro h; cases h
  | cons k ks ih =>
      cases ks with
      | nil =>
          rw [findPartsLoop, findField_iff]
          constructor
          · exact .one
          · intro h
            cases h with
            | one h => exact h
            | step _ r => cases r
      | cons k2 ks =>
          rw [findPartsLoop]
          constructor
          · intro h
            cases hf : findField v k with
            | none => simp [hf] at h
            | some u =>
                simp only [hf] at h
                exact .step ((findField_iff _ _ _).mp hf) ((ih u).mp h)
          · intro h
            cases h with
            | step hf r =>
                rw [(findField_iff _ _ _).mpr hf]
                exact (ih _).mpr r

theorem findParts_iff (ks : List Str) (v w : Value) : findParts ks v = some w ↔ Reach v ks w := by
  unfold findParts
  split
  · exact findPartsLoop_iff _ _ _
  · exact findPartsLoop_iff _ _ _
  · rename_i h1 h2
    simp only [reduceCtorEq, false_iff]
    intro h
    have : ∃ k u, Field v k u := by
      cases h with
      | one h => exact ⟨_, _, h⟩
      | step h _ => exact ⟨_, _, h⟩
    obtain ⟨k, u, hf⟩ := this
    cases hf with
    | member => exact h1 _ rfl
    | element => exact h2 _ rfl

theorem findParts_none (ks : List Str) (v : Value) :
    findParts ks v = none ↔ ∀ w, ¬ Reach v ks w := by
  constructor
  · intro h w hw
    rw [(findParts_iff _ _ _).mpr hw] at h
    cases h
  · intro h
    cases hf : findParts ks v with
    | none => rfl
    | some w => exact absurd ((findParts_iff _ _ _).mp hf) (h w)

/-- The per-scope search of the code is `FirstIn` over the scope's frame. -/
theorem pairSearch_iff (ks : List Str) (a : Value) (b : Option Value) (rest : List Value) (w : Value) :
    FirstIn (a :: (b.toList ++ rest)) ks w ↔
      ((match findParts ks a with
        | some r => some r
        | none => match b with
          | some v => findParts ks v
          | none => none) = some w ∨
       ((match findParts ks a with
        | some r => some r
        | none => match b with
          | some v => findParts ks v
          | none => none) = none ∧ FirstIn rest ks w)) := by
  cases ha : findParts ks a with
  | some r =>
      have hr := (findParts_iff _ _ _).mp ha
      simp only [Option.some.injEq, reduceCtorEq, false_and, or_false]
      constructor
      · intro h
        cases h with
        | here h => rw [(findParts_iff _ _ _).mpr h] at ha; exact (Option.some.inj ha).symm
        | there no _ => exact absurd hr (no r)
      · rintro rfl; exact .here hr
  | none =>
      have hn := (findParts_none _ _).mp ha
      cases b with
      | none =>
          simp only [Option.toList, List.nil_append, reduceCtorEq, true_and, false_or]
          exact ⟨fun h => by cases h with
            | here h => exact absurd h (hn _)
            | there _ h => exact h, .there hn⟩
      | some v =>
          simp only [Option.toList, List.cons_append, List.nil_append]
          cases hv : findParts ks v with
          | some r =>
              have hr := (findParts_iff _ _ _).mp hv
              simp only [Option.some.injEq, reduceCtorEq, false_and, or_false]
              constructor
              · intro h
                cases h with
                | here h => exact absurd h (hn _)
                | there _ h =>
                    cases h with
                    | here h => rw [(findParts_iff _ _ _).mpr h] at hv; exact (Option.some.inj hv).symm
                    | there no _ => exact absurd hr (no r)
              · rintro rfl; exact .there hn (.here hr)
          | none =>
              have hm := (findParts_none _ _).mp hv
              simp only [reduceCtorEq, true_and, false_or]
              exact ⟨fun h => by cases h with
                | here h => exact absurd h (hn _)
                | there _ h => cases h with
                  | here h => exact absurd h (hm _)
                  | there _ h => exact h, fun h => .there hn (.there hm h)⟩

theorem FirstIn_nil {ks : List Str} {w : Value} : ¬ FirstIn [] ks w := by intro h; cases h

theorem FirstIn_single {v : Value} {ks : List Str} {w : Value} : FirstIn [v] ks w ↔ Reach v ks w :=
  ⟨fun h => by cases h with
    | here h => exact h
    | there _ h => exact absurd h FirstIn_nil, .here⟩

/-- C09: a plain path resolves to the first match searching the frames from the
innermost scope to the data, locals before base value in each. -/
theorem C09_resolution_order (root : Value) (scopes : List Scope) (p : Path) (ks : List Str)
    (hp : Plain p) (ht : HasTexts p ks) :
    ∃ r, lookup root scopes p = some r ∧ Finds r (FirstIn (frames root scopes).flatten ks) := by
  obtain ⟨h1, h2, h3, h4, h5⟩ := hp
  unfold HasTexts at ht
  refine ⟨_, by rw [lookup, ht]; rfl, ?_⟩
  intro w
  simp only [lookupParts, h1, h2, h3, h4, h5, Bool.false_eq_true, if_false, Nat.lt_irrefl,
    gt_iff_lt]
  induction scopes with
  | nil =>
      simp only [frames, List.map_nil, List.nil_append, List.findSome?_cons, List.findSome?_nil,
        List.flatten_cons, List.flatten_nil, List.append_nil]
      rw [FirstIn_single]
      cases h : findParts ks root with
      | none => simpa using (findParts_none _ _).mp h w
      | some r => simp only; rw [← findParts_iff, h]
  | cons s scopes ih =>
      have := pairSearch_iff ks (.obj s.locals) s.value (frames root scopes).flatten w
      simp only [frames, frame, List.map_cons, List.cons_append, List.flatten_cons,
        List.findSome?_cons] at this ih ⊢
      rw [this, ← ih]
      clear this ih
      cases ha : findParts ks (.obj s.locals) with
      | some r => simp
      | none =>
          cases hb : s.value with
          | none => simp
          | some v => cases hc : findParts ks v <;> simp [hc]

/-- C09: a plain path is missing only if no frame has it. -/
theorem C09_missing (root : Value) (scopes : List Scope) (p : Path) (ks : List Str)
    (hp : Plain p) (ht : HasTexts p ks) :
    lookup root scopes p = some none ↔
      ∀ f ∈ frames root scopes, ∀ v ∈ f, ∀ w, ¬ Reach v ks w := by
  obtain ⟨r, hr, hf⟩ := C09_resolution_order root scopes p ks hp ht
  have aux : ∀ vs : List Value, (∀ w, ¬ FirstIn vs ks w) ↔ ∀ v ∈ vs, ∀ w, ¬ Reach v ks w := by
    intro vs
    induction vs with
    | nil => simp [FirstIn_nil]
    | cons v vs ih =>
        constructor
        · intro h u hu w hw
          have hv : ∀ w, ¬ Reach v ks w := fun w hw => h w (.here hw)
          rcases List.mem_cons.mp hu with rfl | hu
          · exact hv w hw
          · exact (ih.mp fun w hw => h w (.there hv hw)) u hu w hw
        · intro h w hw
          cases hw with
          | here hw => exact h v (by simp) w hw
          | there no hw => exact (ih.mpr fun u hu => h u (by simp [hu])) w hw
  rw [hr, Option.some.injEq]
  constructor
  · rintro rfl f hfm v hv
    exact (aux _).mp (fun w hw => by have := (hf w).mpr hw; cases this) v
      (List.mem_flatten.mpr ⟨f, hfm, hv⟩)
  · intro h
    cases r with
    | none => rfl
    | some w =>
        exfalso
        refine (aux _).mpr ?_ w ((hf w).mp rfl)
        intro v hv
        obtain ⟨f, hfm, hv⟩ := List.mem_flatten.mp hv
        exact h f hfm v hv

theorem mapM_length {α β : Type} (f : α → Option β) (l : List α) (r : List β)
    (h : l.mapM f = some r) : r.length = l.length := by
  induction l generalizing r with
  | nil => simp at h; subst h; rfl
  | cons a l ih =>
      rw [List.mapM_cons] at h
      cases ha : f a with
      | none => simp [ha] at h
      | some b =>
          cases hl : l.mapM f with
          | none => simp [ha, hl] at h
          | some bs => simp [ha, hl] at h; subst h; simp [ih bs hl]

/-- C10: `this` / `./` alone is the innermost base value (the data if it has none);
followed by names it is navigated from there and nowhere else. -/
theorem C10_explicit_this (root : Value) (scopes : List Scope) (p : Path) (k : Str) (ks : List Str)
    (ha : p.absolute = false) (hr : p.root = false) (he : p.explicit = true)
    (ht : HasTexts p (k :: ks)) :
    ∃ r, lookup root scopes p = some r ∧
      Finds r (fun w => if ks = [] then w = thisValue root scopes
        else Reach (thisValue root scopes) ks w) := by
  have hlen : p.components.length = (k :: ks).length := (mapM_length _ _ _ ht).symm
  unfold HasTexts at ht
  refine ⟨_, by rw [lookup, ht]; rfl, ?_⟩
  intro w
  have hv : lookupParts root scopes p (k :: ks) =
      if ks = [] then some (thisValue root scopes) else findParts ks (thisValue root scopes) := by
    simp only [lookupParts, ha, hr, he, Bool.false_eq_true, if_false, if_true, hlen]
    cases scopes with
    | nil => cases ks <;> simp [thisValue]
    | cons s _ => cases hs : s.value <;> cases ks <;> simp [thisValue, hs]
  rw [hv]
  split
  · simp [eq_comm]
  · rw [findParts_iff]

/-- C11: a path with `n` `../` is resolved in exactly the frame `n` levels out, and is
missing when there is no such frame. -/
theorem C11_parents (root : Value) (scopes : List Scope) (p : Path) (ks : List Str)
    (ha : p.absolute = false) (hr : p.root = false) (he : p.explicit = false)
    (hl : p.isLocal = false) (hn : 0 < p.parents) (ht : HasTexts p ks) :
    ∃ r, lookup root scopes p = some r ∧
      Finds r (fun w => ∃ f, (frames root scopes)[p.parents]? = some f ∧ FirstIn f ks w) := by
  unfold HasTexts at ht
  refine ⟨_, by rw [lookup, ht]; rfl, ?_⟩
  intro w
  simp only [lookupParts, ha, hr, he, hl, Bool.false_eq_true, if_false, gt_iff_lt, hn, if_true,
    List.length_cons, List.length_map, List.length_reverse]
  by_cases hle : p.parents ≤ scopes.length
  · rw [if_pos (by omega), show scopes.length + 1 - (p.parents + 1) = scopes.length - p.parents by omega]
    rcases Nat.lt_or_eq_of_le hle with hlt | heq
    · -- a real scope
      obtain ⟨j, hj⟩ : ∃ j, scopes.length - p.parents = j + 1 := ⟨scopes.length - p.parents - 1, by omega⟩
      have hidx : scopes.length - 1 - j = p.parents := by omega
      have e1 : (scopes.reverse.map fun s => ((.obj s.locals, s.value) : Value × Option Value))[j]? =
          some (.obj scopes[p.parents].locals, scopes[p.parents].value) := by
        rw [List.getElem?_map, List.getElem?_reverse (by omega)]
        simp [hidx, hlt]
      have e2 : (frames root scopes)[p.parents]? = some (frame scopes[p.parents]) := by
        rw [frames, List.getElem?_append_left (by simpa using hlt)]
        simp [hlt]
      rw [hj, List.getElem?_cons_succ, e1, e2]
      simp only [Option.some.injEq, exists_eq_left']
      have := pairSearch_iff ks (.obj scopes[p.parents].locals) scopes[p.parents].value [] w
      simp only [List.append_nil, FirstIn_nil, and_false, or_false] at this
      exact this.symm
    · have e2 : (frames root scopes)[p.parents]? = some [root] := by
        rw [frames, List.getElem?_append_right (by simp [heq])]
        simp [heq]
      rw [e2, show scopes.length - p.parents = 0 by omega]
      simp only [List.getElem?_cons_zero, Option.some.injEq, exists_eq_left', FirstIn_single]
      rw [← findParts_iff]
      cases findParts ks root <;> simp
  · rw [if_neg (by omega)]
    have e2 : (frames root scopes)[p.parents]? = none := by
      rw [List.getElem?_eq_none]
      simp [frames]; omega
    simp [e2]

/-- C12 (partial): `@root.a.b` is navigated from the template data whatever the scopes
hold.  Missing from the full property: `@root` on its own; see `C12_root_alone_missing`. -/
theorem C12_root_partial (root : Value) (scopes : List Scope) (p : Path) (k : Str) (ks : List Str)
    (ha : p.absolute = false) (hr : p.root = true) (ht : HasTexts p (k :: ks)) :
    ∃ r, lookup root scopes p = some r ∧ Finds r (Reach root ks) := by
  unfold HasTexts at ht
  refine ⟨_, by rw [lookup, ht]; rfl, ?_⟩
  intro w
  simp [lookupParts, ha, hr, findParts_iff]

/-- C12 fails for `@root` alone: it never denotes the data, for any data. -/
theorem C12_root_alone_missing (root : Value) (scopes : List Scope) (p : Path) (k : Str)
    (ha : p.absolute = false) (hr : p.root = true) (ht : HasTexts p [k]) :
    lookup root scopes p = some none := by
  obtain ⟨r, h, hf⟩ := C12_root_partial root scopes p k [] ha hr ht
  cases r with
  | none => exact h
  | some w => have := (hf w).mp rfl; cases this

/-- C13: `@name` paths see the innermost scope's local variables only. -/
theorem C13_locals (root : Value) (scopes : List Scope) (p : Path) (ks : List Str)
    (ha : p.absolute = false) (hr : p.root = false) (he : p.explicit = false)
    (hl : p.isLocal = true) (ht : HasTexts p ks) :
    ∃ r, lookup root scopes p = some r ∧
      Finds r (fun w => ∃ s, scopes.head? = some s ∧ Reach (.obj s.locals) ks w) := by
  unfold HasTexts at ht
  refine ⟨_, by rw [lookup, ht]; rfl, ?_⟩
  intro w
  simp only [lookupParts, ha, hr, he, hl, Bool.false_eq_true, if_false, if_true]
  cases scopes with
  | nil => simp
  | cons s _ => simp [findParts_iff]

/-- C13: absolute paths never resolve to data. -/
theorem C13_absolute (root : Value) (scopes : List Scope) (p : Path) (ks : List Str)
    (ha : p.absolute = true) (ht : HasTexts p ks) : lookup root scopes p = some none := by
  unfold HasTexts at ht
  rw [lookup, ht]
  simp [lookupParts, ha]

instance (p : Path) : Decidable (Plain p) := inferInstanceAs (Decidable (_ ∧ _ ∧ _ ∧ _ ∧ _))
instance (p : Path) (ks : List Str) : Decidable (HasTexts p ks) :=
  inferInstanceAs (Decidable (p.components.mapM Component.asValue = some ks))

/-! ### Concrete paths of each kind, as the parser builds them -/

section Witness
attribute [local instance] exHost

/-- The target path of the first statement. -/
def firstPath (src : Str) : Option Path :=
  match parseTemplate c!"t" src with
  | .ok t => match t.node.children with
      | .statement c :: _ => match c.target with
          | .path p => some p
          | _ => none
      | _ => none
  | _ => none

/-- Does a test hold of the first path? -/
def pathTest (src : Str) (f : Path → Bool) : Bool :=
  match firstPath src with
  | some p => f p
  | none => false

example : pathTest c!"{{a.b}}" (fun p => decide (Plain p ∧ HasTexts p [c!"a", c!"b"])) = true := by
  decide +kernel
example : pathTest c!"{{this.b}}" (fun p => decide (p.absolute = false ∧ p.root = false ∧
    p.explicit = true ∧ HasTexts p [c!"this", c!"b"])) = true := by decide +kernel
example : pathTest c!"{{../../b.c}}" (fun p => decide (p.absolute = false ∧ p.root = false ∧
    p.explicit = false ∧ p.isLocal = false ∧ p.parents = 2 ∧ HasTexts p [c!"b", c!"c"])) = true := by
  decide +kernel
example : pathTest c!"{{@root.b}}" (fun p => decide (p.absolute = false ∧ p.root = true ∧
    HasTexts p [c!"@root", c!"b"])) = true := by decide +kernel
example : pathTest c!"{{@root}}" (fun p => decide (p.absolute = false ∧ p.root = true ∧
    HasTexts p [c!"@root"])) = true := by decide +kernel
example : pathTest c!"{{@index}}" (fun p => decide (p.absolute = false ∧ p.root = false ∧
    p.explicit = false ∧ p.isLocal = true ∧ HasTexts p [c!"@index"])) = true := by
  decide +kernel
/-- The first argument of the first statement satisfies a test. -/
def argTest (src : Str) (f : Path → Bool) : Bool :=
  match parseTemplate c!"t" src with
  | .ok t => match t.node.children with
      | .statement c :: _ => match c.args with
          | .path p :: _ => f p
          | _ => false
      | _ => false
  | _ => false

example : argTest c!"{{foo /a/b}}" (fun p => decide (p.absolute = true ∧ HasTexts p [c!"a", c!"b"])) = true := by
  decide +kernel
end Witness

end Bracket.Props
