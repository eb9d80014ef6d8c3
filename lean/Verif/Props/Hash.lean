import Verif.Spec.Partials
import Verif.Props.Partials
import Mathlib.Data.List.Induction
import Mathlib.Data.List.Forall2

/-! C43, C51: hash parameters. -/

set_option linter.unusedSectionVars false

namespace Bracket.Props
open Spec RM

/-! ### C43: the last of several equal keys wins -/

/-- The value written last for a key. -/
def lastValue {β : Type} (k : Str) (l : List (Str × β)) : Option β := ((l.filter (·.1 == k)).getLast?).map (·.2)

theorem lastValue_append {β : Type} (k : Str) (l : List (Str × β)) (x : Str × β) :
    lastValue k (l ++ [x]) = if x.1 = k then some x.2 else lastValue k l := by
  unfold lastValue
  rw [List.filter_append]
  by_cases h : x.1 = k
  · rw [if_pos h]; simp [h]
  · rw [if_neg h]; simp [h]

theorem mem_assocInsert {β : Type} (k : Str) (v : β) (l : List (Str × β)) (x : Str) :
    x ∈ (assocInsert k v l).map (·.1) ↔ x = k ∨ x ∈ l.map (·.1) := by
  induction l with
  | nil => simp [assocInsert]
  | cons a l ih =>
      obtain ⟨k', v'⟩ := a
      unfold assocInsert
      by_cases h : k' = k
      · rw [if_pos h]; subst h; simp
      · rw [if_neg h]
        simp only [List.map_cons, List.mem_cons, ih]
        constructor
        · rintro (h | h | h)
          · exact .inr (.inl h)
          · exact .inl h
          · exact .inr (.inr h)
        · rintro (h | h | h)
          · exact .inr (.inl h)
          · exact .inl h
          · exact .inr (.inr h)

theorem nodup_assocInsert {β : Type} (k : Str) (v : β) (l : List (Str × β)) (h : (l.map (·.1)).Nodup) :
    ((assocInsert k v l).map (·.1)).Nodup := by
  induction l with
  | nil => simp [assocInsert]
  | cons a l ih =>
      obtain ⟨k', v'⟩ := a
      rw [List.map_cons, List.nodup_cons] at h
      unfold assocInsert
      by_cases hk : k' = k
      · rw [if_pos hk]; subst hk
        rw [List.map_cons, List.nodup_cons]
        exact h
      · rw [if_neg hk, List.map_cons, List.nodup_cons]
        refine ⟨?_, ih h.2⟩
        rw [mem_assocInsert]
        rintro (h1 | h1)
        · exact hk h1
        · exact h.1 h1

/-- Adding the hash parameters of a call, in the order in which they are written. -/
def addParams (c : Call) (kvs : List (Str × ParamValue)) : Call := kvs.foldl (fun c kv => c.addParam kv.1 kv.2) c

theorem addParam_params (c : Call) (k : Str) (p : ParamValue) : (c.addParam k p).params = assocInsert k p c.params := by
  cases c; rfl

/-- C43: after adding parameters in order, each key occurs once, with the value written last. -/
theorem C43_last_wins (c : Call) (hc : c.params = []) (kvs : List (Str × ParamValue)) :
    KeysOk (addParams c kvs) ∧ ∀ k, assoc k (addParams c kvs).params = lastValue k kvs := by
  induction kvs using List.reverseRecOn with
  | nil =>
      constructor
      · unfold KeysOk addParams; simp [hc]
      · intro k; simp [addParams, hc, assoc, lastValue]
  | append_singleton l x ih =>
      have e : (addParams c (l ++ [x])).params = assocInsert x.1 x.2 (addParams c l).params := by
        unfold addParams
        rw [List.foldl_append]
        exact addParam_params _ _ _
      constructor
      · unfold KeysOk; rw [e]; exact nodup_assocInsert _ _ _ ih.1
      · intro k
        rw [e, lastValue_append]
        by_cases h : x.1 = k
        · rw [if_pos h, ← h, assoc_insert_self]
        · rw [if_neg h, assoc_insert_ne _ _ (Ne.symm h)]
          exact ih.2 k

/-! ### C51: the order of parameters does not matter -/

theorem strLt_irrefl (a : Str) : strLt a a = false := by
  induction a with
  | nil => rfl
  | cons x a ih => simp [strLt, ih]

theorem strLt_trans {a b c : Str} (h : strLt a b = true) (h' : strLt b c = true) : strLt a c = true := by
  induction a generalizing b c with
  | nil =>
      cases b with
      | nil => cases h
      | cons y b => cases c with
          | nil => cases h'
          | cons z c => rfl
  | cons x a ih =>
      cases b with
      | nil => cases h
      | cons y b =>
          cases c with
          | nil => cases h'
          | cons z c =>
              simp only [strLt, Bool.or_eq_true, decide_eq_true_eq, Bool.and_eq_true, beq_iff_eq] at h h' ⊢
              rcases h with h | ⟨rfl, h⟩
              · rcases h' with h' | ⟨rfl, h'⟩
                · exact .inl (Nat.lt_trans h h')
                · exact .inl h
              · rcases h' with h' | ⟨rfl, h'⟩
                · exact .inl h'
                · exact .inr ⟨rfl, ih h h'⟩

theorem strLt_total {a b : Str} (h : a ≠ b) (h' : strLt a b = false) : strLt b a = true := by
  induction a generalizing b with
  | nil =>
      cases b with
      | nil => exact absurd rfl h
      | cons y b => cases h'
  | cons x a ih =>
      cases b with
      | nil => rfl
      | cons y b =>
          simp only [strLt, Bool.or_eq_false_iff, decide_eq_false_iff_not, Bool.and_eq_false_iff, beq_eq_false_iff_ne,
            Bool.or_eq_true, decide_eq_true_eq, Bool.and_eq_true, beq_iff_eq] at h' ⊢
          by_cases hxy : x = y
          · subst hxy
            refine .inr ⟨rfl, ih (fun e => h (by rw [e])) (h'.2.resolve_left (fun h => h rfl))⟩
          · refine .inl ?_
            have : x.toNat ≠ y.toNat := fun e => hxy (Char.toNat_inj.1 e)
            omega

/-- A map in order of its keys. -/
def SortedMap (m : List (Str × Value)) : Prop := m.Pairwise fun a b => strLt a.1 b.1 = true

theorem sorted_mapInsert (k : Str) (v : Value) {m : List (Str × Value)} (h : SortedMap m) : SortedMap (mapInsert k v m) := by
  have hmem : ∀ m : List (Str × Value), ∀ x ∈ mapInsert k v m, x.1 = k ∨ x ∈ m := by
    intro m
    induction m with
    | nil => intro x hx; simp [mapInsert] at hx; exact .inl (by rw [hx])
    | cons a m ih =>
        intro x hx
        unfold mapInsert at hx
        split at hx
        · rcases List.mem_cons.1 hx with h | h
          · exact .inl (by rw [h])
          · exact .inr (List.mem_cons_of_mem _ h)
        · split at hx
          · rcases List.mem_cons.1 hx with h | h
            · exact .inl (by rw [h])
            · exact .inr h
          · rcases List.mem_cons.1 hx with h | h
            · exact .inr (by rw [h]; exact List.mem_cons_self)
            · rcases ih x h with h | h
              · exact .inl h
              · exact .inr (List.mem_cons_of_mem _ h)
  induction m with
  | nil => unfold mapInsert; exact List.pairwise_singleton _ _
  | cons a m ih =>
      obtain ⟨k', v'⟩ := a
      obtain ⟨h1, h2⟩ := List.pairwise_cons.1 h
      unfold mapInsert
      by_cases e : k' = k
      · subst e
        rw [if_pos rfl]
        exact List.pairwise_cons.2 ⟨h1, h2⟩
      · rw [if_neg e]
        by_cases hl : strLt k k' = true
        · rw [if_pos hl]
          refine List.pairwise_cons.2 ⟨?_, h⟩
          intro x hx
          rcases List.mem_cons.1 hx with rfl | hx
          · exact hl
          · exact strLt_trans hl (h1 x hx)
        · rw [if_neg hl]
          refine List.pairwise_cons.2 ⟨?_, ih h2⟩
          intro x hx
          rcases hmem m x hx with hx | hx
          · show strLt k' x.1 = true
            rw [hx]; exact strLt_total (Ne.symm e) (by simpa using hl)
          · exact h1 x hx

theorem assoc_cons {β : Type} (k k' : Str) (v : β) (m : List (Str × β)) :
    assoc k ((k', v) :: m) = if k' = k then some v else assoc k m := by
  simp [assoc]

theorem sorted_notMem {k : Str} {v : Value} {m : List (Str × Value)} (h : SortedMap ((k, v) :: m)) : assoc k m = none := by
  obtain ⟨h1, _⟩ := List.pairwise_cons.1 h
  refine assoc_none_of_forall ?_
  intro x hx e
  have := h1 x hx
  rw [e, strLt_irrefl] at this
  cases this

/-- Sorted maps with the same members are equal. -/
theorem sorted_ext {m m' : List (Str × Value)} (h : SortedMap m) (h' : SortedMap m')
    (he : ∀ k, assoc k m = assoc k m') : m = m' := by
  induction m generalizing m' with
  | nil =>
      cases m' with
      | nil => rfl
      | cons a m' => obtain ⟨k, v⟩ := a; have := he k; rw [assoc_cons, if_pos rfl] at this; cases this
  | cons a m ih =>
      obtain ⟨k, v⟩ := a
      cases m' with
      | nil => have := he k; rw [assoc_cons, if_pos rfl] at this; cases this
      | cons b m' =>
          obtain ⟨k', v'⟩ := b
          obtain ⟨h1, h2⟩ := List.pairwise_cons.1 h
          obtain ⟨h1', h2'⟩ := List.pairwise_cons.1 h'
          have hk : k = k' := by
            apply Classical.byContradiction
            intro hne
            have a1 := he k
            rw [assoc_cons, if_pos rfl, assoc_cons, if_neg (Ne.symm hne)] at a1
            have a2 := he k'
            rw [assoc_cons, if_neg hne, assoc_cons, if_pos rfl] at a2
            have l1 := h1' _ (assoc_mem a1.symm)
            have l2 := h1 _ (assoc_mem a2)
            have := strLt_trans l1 l2
            rw [strLt_irrefl] at this
            cases this
          subst hk
          have hv : v = v' := by
            have := he k
            rw [assoc_cons, if_pos rfl, assoc_cons, if_pos rfl] at this
            cases this; rfl
          subst hv
          rw [ih h2 h2' ?_]
          intro x
          by_cases hx : k = x
          · subst hx; rw [sorted_notMem h, sorted_notMem h']
          · have := he x
            rwa [assoc_cons, if_neg hx, assoc_cons, if_neg hx] at this

theorem sorted_hashOf (ps : List (Str × ParamValue)) (vs : List (Option Value)) (out : List (Str × Value))
    (h : SortedMap out) : SortedMap (hashOf ps vs out) := by
  induction ps generalizing vs out with
  | nil => exact h
  | cons a ps ih =>
      cases vs with
      | nil => exact h
      | cons v vs => exact ih _ _ (sorted_mapInsert _ _ h)

section
variable [Host]

/-- A parameter that is a literal or a path. -/
def PlainParam (p : ParamValue) : Prop := ∀ c, p ≠ .subExpr c

theorem argsEval_plain {E : Env} {ps : List ParamValue} (hp : ∀ p ∈ ps, PlainParam p) {s t : RS} {vs : List (Option Value)} :
    ArgsEval E ps s vs t ↔ t = s ∧ List.Forall₂ (fun p v => ParamEval E p s v s) ps vs := by
  induction ps generalizing vs s with
  | nil =>
      constructor
      · intro h; cases h; exact ⟨rfl, .nil⟩
      · rintro ⟨rfl, h⟩; cases h; exact .nil _
  | cons p ps ih =>
      have hp' := fun q hq => hp q (List.mem_cons_of_mem _ hq)
      constructor
      · intro h
        cases h with
        | cons h1 h2 =>
            cases h1 with
            | literal =>
                obtain ⟨rfl, h3⟩ := (ih hp').1 h2
                exact ⟨rfl, .cons (.literal _ _ _ _ _) h3⟩
            | path a b =>
                obtain ⟨rfl, h3⟩ := (ih hp').1 h2
                exact ⟨rfl, .cons (.path a b) h3⟩
            | sub => exact absurd rfl (hp _ List.mem_cons_self _)
      · rintro ⟨rfl, h⟩
        cases h with
        | cons h1 h2 => exact .cons h1 ((ih hp').2 ⟨rfl, h2⟩)

/-- Values follow their parameters. -/
theorem forall₂_perm {α β : Type} {R : α → β → Prop} {l l' : List α} (h : l.Perm l') : ∀ {vs : List β},
    List.Forall₂ R l vs → ∃ vs', List.Forall₂ R l' vs' ∧ (l.zip vs).Perm (l'.zip vs') := by
  induction h with
  | nil => intro vs h; cases h; exact ⟨[], .nil, .nil⟩
  | cons x _ ih =>
      intro vs h
      cases h with
      | cons h1 h2 =>
          obtain ⟨vs', g1, g2⟩ := ih h2
          exact ⟨_ :: vs', .cons h1 g1, g2.cons _⟩
  | swap x y l =>
      intro vs h
      cases h with
      | cons h1 h2 => cases h2 with
          | cons h2 h3 => exact ⟨_ :: _ :: _, .cons h2 (.cons h1 h3), .swap _ _ _⟩
  | trans _ _ ih1 ih2 =>
      intro vs h
      obtain ⟨vs', g1, g2⟩ := ih1 h
      obtain ⟨vs2, g3, g4⟩ := ih2 g1
      exact ⟨vs2, g3, g2.trans g4⟩

theorem mem_zip_getElem {α β : Type} {l : List α} {vs : List β} {a : α} {b : β} :
    (a, b) ∈ l.zip vs ↔ ∃ i : Nat, l[i]? = some a ∧ vs[i]? = some b := by
  rw [List.mem_iff_getElem?]
  refine exists_congr fun i => ?_
  rw [List.getElem?_zip_eq_some]

theorem forall₂_map {α β γ : Type} {R : γ → β → Prop} {f : α → γ} {l : List α} {vs : List β} :
    List.Forall₂ R (l.map f) vs ↔ List.Forall₂ (fun a b => R (f a) b) l vs := List.forall₂_map_left_iff

/-- C51: evaluating a call's literal and path parameters in another order gives the same hash, to the
last detail, and the same answers about missing values; it changes nothing else. -/
theorem C51_order (E : Env) (ps ps' : List (Str × ParamValue)) (hperm : ps.Perm ps') (hk : (ps.map (·.1)).Nodup)
    (hplain : ∀ p ∈ ps, PlainParam p.2) (s t : RS) (ms0 ms : List Missing) (hash : List (Str × Value))
    (h : Eval (fun n => hashLoop (sem n) E ps [] ms0) s (.ok (hash, ms)) t) :
    t = s ∧ ∃ ms', Eval (fun n => hashLoop (sem n) E ps' [] ms0) s (.ok (hash, ms')) s ∧
      ∀ k, missingParam k ms' = missingParam k ms := by
  obtain ⟨vs, h1, rfl, rfl⟩ := (hashLoop_iff _ _ _ _ _ _ _).1 h
  have hpl : ∀ p ∈ ps.map (·.2), PlainParam p := by
    intro p hp
    obtain ⟨q, hq, rfl⟩ := List.mem_map.1 hp
    exact hplain q hq
  have hpl' : ∀ p ∈ ps'.map (·.2), PlainParam p := by
    intro p hp
    obtain ⟨q, hq, rfl⟩ := List.mem_map.1 hp
    exact hplain q (hperm.mem_iff.2 hq)
  obtain ⟨rfl, h2⟩ := (argsEval_plain hpl).1 h1
  refine ⟨rfl, ?_⟩
  obtain ⟨vs', h3, h4⟩ := forall₂_perm hperm (forall₂_map.1 h2)
  have hk' : (ps'.map (·.1)).Nodup := (hperm.map _).nodup_iff.1 hk
  -- both hashes and both missing lists answer alike
  have hsame : ∀ k, assoc k (hashOf ps vs []) = assoc k (hashOf ps' vs' []) ∧
      missingParam k (keyMissing ps vs) = missingParam k (keyMissing ps' vs') := by
    intro k
    by_cases hm : k ∈ ps.map (·.1)
    · obtain ⟨⟨k0, p⟩, hp, e⟩ := List.mem_map.1 hm
      cases e
      obtain ⟨i, hi⟩ := List.mem_iff_getElem?.1 hp
      have hlen : ps.length = vs.length := by
        have := h2.length_eq
        simpa using this
      have hi' : i < vs.length := by
        have := (List.getElem?_eq_some_iff.1 hi).1
        omega
      have hv : vs[i]? = some vs[i] := List.getElem?_eq_getElem hi'
      obtain ⟨j, hj1, hj2⟩ := mem_zip_getElem.1 (h4.mem_iff.1 (mem_zip_getElem.2 ⟨i, hi, hv⟩))
      obtain ⟨a1, a2⟩ := params_get ps vs [] hk i _ _ _ hi hv
      obtain ⟨b1, b2⟩ := params_get ps' vs' [] hk' j _ _ _ hj1 hj2
      exact ⟨a1.trans b1.symm, a2.trans b2.symm⟩
    · have hm' : k ∉ ps'.map (·.1) := fun h => hm ((hperm.map _).mem_iff.2 h)
      exact ⟨by rw [hashOf_notMem _ _ _ _ hm, hashOf_notMem _ _ _ _ hm'],
        by rw [missingParam_notMem _ _ _ hm, missingParam_notMem _ _ _ hm']⟩
  have hh : hashOf ps vs [] = hashOf ps' vs' [] :=
    sorted_ext (sorted_hashOf _ _ _ .nil) (sorted_hashOf _ _ _ .nil) fun k => (hsame k).1
  refine ⟨_, (hashLoop_iff _ _ _ _ _ _ _).2 ⟨vs', (argsEval_plain hpl').2 ⟨rfl, forall₂_map.2 h3⟩, hh, rfl⟩, ?_⟩
  intro k
  rw [missingParam_append, missingParam_append, (hsame k).2]

end

/-! ### The hypotheses are met -/
section Witness
attribute [local instance] exHost

/-- A helper that prints its hash. -/
def hashHelper : HelperFn := fun c _ => .write (toJson (.obj c.params)) fun _ => .ret none

/-- The last value of a repeated key is passed, and every other key once. -/
example : Ex.render (Reg.new.insertHelper c!"hs" hashHelper) c!"{{{hs k=1 j=x k=2 k=3}}}" (.obj [(c!"x", .str c!"v")]) =
    some (.ok, c!"{\"j\":\"v\",\"k\":3}") := by decide +kernel

/-- The parameters of a compiled call meet the hypotheses of `C51_order`. -/
example : (Ex.stmt c!"{{hs k=1 j=x.y i=\"z\"}}").any (fun c => decide ((c.params.map (·.1)).Nodup) &&
    c.params.all (fun p => match p.2 with | .subExpr _ => false | _ => true) && c.params.length == 3) = true := by
  decide +kernel

end Witness

end Bracket.Props
