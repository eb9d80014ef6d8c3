import Verif.Spec.Core
import Verif.Props.Roundtrip
import Verif.Props.Lookup
import Verif.Props.Blocks

/-! The renderer does what the reference interpreter says. -/

set_option linter.unusedSectionVars false
set_option linter.unusedSimpArgs false

namespace Bracket.Props
open Bracket Re Spec

/-! ### Variables -/

theorem indexOf_iff (k : Str) (i : Nat) : indexOf k = some i ↔ IndexText k i := by
  have key : ∀ d : Str, (if digitsOk d = true then some (decimalValue d) else none) = some i ↔
      d ≠ [] ∧ (∀ c ∈ d, '0' ≤ c ∧ c ≤ '9') ∧ decimalValue d = i := by
    intro d
    have : digitsOk d = true ↔ d ≠ [] ∧ ∀ c ∈ d, '0' ≤ c ∧ c ≤ '9' := by
      unfold digitsOk
      rw [Bool.and_eq_true, List.all_eq_true]
      constructor
      · rintro ⟨h1, h2⟩
        exact ⟨by rintro rfl; simp at h1, fun c hc => isDigit_range.1 (h2 c hc)⟩
      · rintro ⟨h1, h2⟩
        exact ⟨by cases d <;> simp_all, fun c hc => isDigit_range.2 (h2 c hc)⟩
    by_cases hd : digitsOk d = true
    · rw [if_pos hd]
      have := this.1 hd
      constructor
      · intro h; exact ⟨this.1, this.2, Option.some.inj h⟩
      · rintro ⟨_, _, h⟩; rw [h]
    · rw [if_neg hd]
      simp only [reduceCtorEq, false_iff]
      rintro ⟨h1, h2, _⟩
      exact hd (this.2 ⟨h1, h2⟩)
  unfold indexOf IndexText
  simp only
  split
  · rename_i d
    rw [key]
    constructor
    · intro h; exact ⟨d, .inr rfl, h⟩
    · rintro ⟨d', h | h, hh⟩
      · subst h
        have := hh.2.1 '+' (by simp)
        exact absurd this (by decide)
      · cases h; exact hh
  · rename_i d hne
    rw [key]
    constructor
    · intro h; exact ⟨k, .inl rfl, h⟩
    · rintro ⟨d', h | h, hh⟩
      · subst h; exact hh
      · exact absurd h (hne d')

theorem findField_member (v : Value) (k : Str) : findField v k = member v k := by
  unfold findField member
  cases v with
  | obj m => exact assoc_eq_lookup k m
  | arr l =>
      have : parseUsize k = indexOf k := by
        apply Option.ext
        intro i
        rw [parseUsize_iff, indexOf_iff]
      simp only
      rw [this]
      cases indexOf k <;> rfl
  | _ => rfl

theorem findPartsLoop_walk : ∀ (ks : List Str) (v : Value), ks ≠ [] → findPartsLoop ks v = walk v ks
  | [], v, h => absurd rfl h
  | [k], v, _ => by
      rw [findPartsLoop, findField_member]
      unfold walk
      cases member v k <;> rfl
  | k :: j :: ks, v, _ => by
      rw [findPartsLoop, findField_member]
      conv => rhs; unfold walk
      cases member v k with
      | none => rfl
      | some u => exact findPartsLoop_walk (j :: ks) u (by simp)

theorem findParts_walk {ks : List Str} {v : Value} (hne : ks ≠ []) : findParts ks v = walk v ks := by
  unfold findParts
  cases v with
  | obj m => exact findPartsLoop_walk ks _ hne
  | arr l => exact findPartsLoop_walk ks _ hne
  | _ =>
      cases ks with
      | nil => exact absurd rfl hne
      | cons k ks => rfl

theorem findSome_pairs {ks : List Str} (root : Value) : ∀ (scopes : List Scope),
    (((scopes.map fun (s : Scope) => (Value.obj s.locals, s.value)) ++ [(root, none)]).findSome? fun (x : Value × Option Value) =>
      match findParts ks x.1 with
      | some r => some r
      | none => match x.2 with
          | some v => findParts ks v
          | none => none) = (frames root scopes).flatten.findSome? (findParts ks)
  | [] => by
      simp only [List.map_nil, List.nil_append, List.findSome?_cons, List.findSome?_nil, frames, List.flatten_cons, List.flatten_nil,
        List.append_nil]
      cases findParts ks root <;> rfl
  | s :: scopes => by
      have ih := findSome_pairs (ks := ks) root scopes
      simp only [List.map_cons, List.cons_append, List.findSome?_cons]
      rw [ih]
      unfold frames
      simp only [List.map_cons, List.cons_append, List.flatten_cons, frame, List.findSome?_cons]
      cases findParts ks (Value.obj s.locals) with
      | some r => rfl
      | none =>
          cases s.value with
          | none => rfl
          | some v => simp only [Option.toList, List.singleton_append, List.findSome?_cons]

theorem findSome_congr {α β : Type} {f g : α → Option β} (h : ∀ a, f a = g a) (l : List α) : l.findSome? f = l.findSome? g := by
  rw [show f = g from funext h]

theorem frames_at {ks : List Str} (root : Value) (scopes : List Scope) {n : Nat} (hn : 0 < n) :
    (if ((root, (none : Option Value)) :: (scopes.reverse.map fun (s : Scope) => (Value.obj s.locals, s.value))).length > n then
      match ((root, (none : Option Value)) :: (scopes.reverse.map fun (s : Scope) => (Value.obj s.locals, s.value)))[
        ((root, (none : Option Value)) :: (scopes.reverse.map fun (s : Scope) => (Value.obj s.locals, s.value))).length - (n + 1)]? with
      | some (locals, value) =>
          match findParts ks locals with
          | some r => some r
          | none => match value with
              | some v => findParts ks v
              | none => none
      | none => none
    else none) = ((frames root scopes)[n]?).bind fun f => f.findSome? (findParts ks) := by
  have hl : ((root, (none : Option Value)) :: (scopes.reverse.map fun (s : Scope) => (Value.obj s.locals, s.value))).length = scopes.length + 1 := by simp
  rw [hl]
  have hrev : ((root, (none : Option Value)) :: (scopes.reverse.map fun (s : Scope) => (Value.obj s.locals, s.value)))
      = ((scopes.map fun (s : Scope) => (Value.obj s.locals, s.value)) ++ [(root, none)]).reverse := by simp
  by_cases h : scopes.length + 1 > n
  · rw [if_pos h, hrev, List.getElem?_reverse (by simp; omega)]
    simp only [List.length_append, List.length_map, List.length_cons, List.length_nil]
    rw [show scopes.length + (0 + 1) - 1 - (scopes.length + 1 - (n + 1)) = n by omega]
    unfold frames
    by_cases h2 : n < scopes.length
    · rw [List.getElem?_append_left (by simpa using h2), List.getElem?_append_left (by simpa using h2)]
      simp only [List.getElem?_map, List.getElem?_eq_getElem h2, Option.map_some, Option.bind_some, frame, List.findSome?_cons]
      cases findParts ks (Value.obj scopes[n].locals) with
      | some r => rfl
      | none =>
          cases scopes[n].value with
          | none => rfl
          | some v => simp only [Option.toList, List.findSome?_cons, List.findSome?_nil]; cases findParts ks v <;> rfl
    · rw [List.getElem?_append_right (by simpa using h2), List.getElem?_append_right (by simpa using h2)]
      have : n = scopes.length := by omega
      subst this
      simp only [List.length_map, Nat.sub_self, List.getElem?_cons_zero, Option.bind_some, List.findSome?_cons, List.findSome?_nil]
      cases findParts ks root <;> rfl
  · rw [if_neg h]
    have : (frames root scopes)[n]? = none := by
      rw [List.getElem?_eq_none_iff]; unfold frames; simp; omega
    rw [this]; rfl

/-- Looking up a compiled path finds what the specification finds. -/
theorem lookup_find {p : SPath} {q : Path} (hr : PathRep p q) (Γ : Scene) :
    lookup Γ.root Γ.scopes q = some (Γ.find p) := by
  unfold lookup
  rw [hr.texts]
  simp only [Option.map_some]
  congr 1
  have hlen : q.components.length = p.names.length + 1 := by
    have := congrArg List.length hr.kinds
    simpa [SPath.names] using this
  have hloc : q.isLocal = (p.head.kind == .localIdentifier) := by
    have hk := hr.kinds
    unfold Path.isLocal
    cases hc : q.components with
    | nil => rw [hc] at hk; simp at hk
    | cons c cs =>
        rw [hc] at hk
        simp only [List.map_cons, List.cons.injEq] at hk
        simp only [Component.isLocal, hk.1]
  unfold lookupParts Scene.find
  rw [hr.absolute, hr.explicit, hr.root, hr.parents, hloc, hlen]
  have hthis : ∀ w : Str, (if p.names.length + 1 = 1 then some (match Γ.scopes with
        | [] => Γ.root
        | sc :: _ => match sc.value with
            | some base => base
            | none => Γ.root)
      else findParts (List.drop 1 (w :: p.names)) (match Γ.scopes with
        | [] => Γ.root
        | sc :: _ => match sc.value with
            | some base => base
            | none => Γ.root)) = walk (thisValue Γ.root Γ.scopes) p.names := by
    intro w
    have key : ∀ v : Value, (if p.names.length + 1 = 1 then some v else findParts (List.drop 1 (w :: p.names)) v)
        = walk v p.names := by
      intro v
      cases hp : p.names with
      | nil => rfl
      | cons k ks =>
          rw [if_neg (by simp)]
          exact findParts_walk (by simp)
    cases hs : Γ.scopes with
    | nil => exact key _
    | cons sc scs =>
        cases hv : sc.value with
        | none => simp only [hv, thisValue, Option.getD_none]; exact key _
        | some v => simp only [hv, thisValue, Option.getD_some]; exact key _
  cases hh : p.head with
  | this =>
      rw [if_neg (by simp [Head.absolute]), if_neg (by decide), if_pos (by decide)]
      exact hthis _
  | dot =>
      rw [if_neg (by simp [Head.absolute]), if_neg (by decide), if_pos (by decide)]
      exact hthis _
  | loc w =>
      rw [if_neg (by simp [Head.absolute])]
      by_cases hw : w = c!"root"
      · subst hw
        rw [if_pos (by decide)]
        simp only
        rw [if_pos trivial]
        simp only [List.drop_succ_cons, List.drop_zero]
        by_cases he : p.names = []
        · rw [if_pos he, he]
          unfold findParts
          cases Γ.root <;> rfl
        · rw [if_neg he]
          exact findParts_walk he
      · rw [if_neg (by simpa using hw), if_neg (by simp [Head.explicit]), if_pos (by rfl)]
        simp only
        rw [if_neg hw]
        cases Γ.scopes with
        | nil => rfl
        | cons sc _ =>
            exact findParts_walk (by simp)
  | abs w =>
      rw [if_pos (show (Head.abs w).absolute = true from rfl)]
  | name w =>
      have hfw : ∀ v, findParts (w :: p.names) v = walk v (w :: p.names) := fun v => findParts_walk (by simp)
      rw [if_neg (by simp [Head.absolute]), if_neg (by simp), if_neg (by simp [Head.explicit]), if_neg (by simp [Head.kind])]
      simp only [Head.word, Head.text]
      cases hp : p.parents with
      | zero =>
          rw [if_neg (by simp)]
          simp only
          rw [← findSome_congr hfw]
          exact findSome_pairs Γ.root Γ.scopes
      | succ n =>
          rw [if_pos (by omega)]
          simp only
          rw [show (fun f : List Value => f.findSome? (walk · (w :: p.names))) = fun f => f.findSome? (findParts (w :: p.names)) from
            funext fun f => (findSome_congr hfw f).symm]
          exact frames_at Γ.root Γ.scopes (by omega)

end Bracket.Props
