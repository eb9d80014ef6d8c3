import Verif.Model.Basic

/-! Facts about byte lengths and slices. -/

namespace Bracket

@[simp] theorem blen_nil : blen [] = 0 := rfl
@[simp] theorem blen_cons (c : Char) (s : Str) : blen (c :: s) = c.utf8Size + blen s := rfl

@[simp] theorem blen_append (a b : Str) : blen (a ++ b) = blen a + blen b := by
  induction a with
  | nil => simp
  | cons c a ih => simp [ih]; omega

theorem blen_eq_zero {s : Str} : blen s = 0 ↔ s = [] := by
  cases s with
  | nil => simp
  | cons c s => simp [blen]; have := c.utf8Size_pos; omega

theorem length_le_blen (s : Str) : s.length ≤ blen s := by
  induction s with
  | nil => simp
  | cons c s ih => simp; have := c.utf8Size_pos; omega

theorem dropB_cons (c : Char) (s : Str) (n : Nat) :
    dropB (c.utf8Size + n) (c :: s) = dropB n s := by
  have h := c.utf8Size_pos
  obtain ⟨m, hm⟩ : ∃ m, c.utf8Size + n = m + 1 := ⟨c.utf8Size + n - 1, by omega⟩
  rw [hm, dropB, if_pos (by omega)]
  congr 1; omega

theorem takeB_cons (c : Char) (s : Str) (n : Nat) :
    takeB (c.utf8Size + n) (c :: s) = (takeB n s).map (c :: ·) := by
  have h := c.utf8Size_pos
  obtain ⟨m, hm⟩ : ∃ m, c.utf8Size + n = m + 1 := ⟨c.utf8Size + n - 1, by omega⟩
  rw [hm, takeB, if_pos (by omega)]
  congr 2; omega

@[simp] theorem dropB_zero (s : Str) : dropB 0 s = some s := by cases s <;> rfl
@[simp] theorem takeB_zero (s : Str) : takeB 0 s = some [] := by cases s <;> rfl

theorem dropB_append (a b : Str) : dropB (blen a) (a ++ b) = some b := by
  induction a with
  | nil => simp
  | cons c a ih => simp only [List.cons_append, blen_cons, dropB_cons, ih]

theorem takeB_append (a b : Str) : takeB (blen a) (a ++ b) = some a := by
  induction a with
  | nil => simp
  | cons c a ih => simp only [List.cons_append, blen_cons, takeB_cons, ih, Option.map_some]

theorem slice_append (a b c : Str) : slice (a ++ (b ++ c)) (blen a) (blen a + blen b) = some b := by
  unfold slice
  rw [if_pos (by omega), dropB_append]
  simp [takeB_append]

/-- Variant with the offsets given by equations. -/
theorem slice_eq {s a b c : Str} {i j : Nat} (hs : s = a ++ (b ++ c)) (hi : i = blen a)
    (hj : j = blen a + blen b) : slice s i j = some b := by
  subst hs hi hj; exact slice_append a b c

theorem dropB_some {n : Nat} {s r : Str} (h : dropB n s = some r) :
    ∃ a, s = a ++ r ∧ blen a = n := by
  induction s generalizing n with
  | nil =>
      cases n with
      | zero => simp at h; exact ⟨[], by simp [← h], rfl⟩
      | succ n => simp [dropB] at h
  | cons c s ih =>
      cases n with
      | zero => simp at h; exact ⟨[], by simp [← h], rfl⟩
      | succ n =>
          rw [dropB] at h
          split at h
          · obtain ⟨a, ha, hb⟩ := ih h
            exact ⟨c :: a, by simp [ha], by simp [hb]; omega⟩
          · simp at h

theorem takeB_some {n : Nat} {s r : Str} (h : takeB n s = some r) :
    ∃ c, s = r ++ c ∧ blen r = n := by
  induction s generalizing n r with
  | nil =>
      cases n with
      | zero => simp at h; subst h; exact ⟨[], rfl, rfl⟩
      | succ n => simp [takeB] at h
  | cons c s ih =>
      cases n with
      | zero => simp at h; subst h; exact ⟨c :: s, rfl, rfl⟩
      | succ n =>
          rw [takeB] at h
          split at h
          · rw [Option.map_eq_some_iff] at h
            obtain ⟨r', hr, rfl⟩ := h
            obtain ⟨d, hd, hb⟩ := ih hr
            exact ⟨d, by simp [hd], by simp [hb]; omega⟩
          · simp at h

/-- `&s[i..j]` succeeds exactly when `s` splits at the two offsets. -/
theorem slice_some {s b : Str} {i j : Nat} (h : slice s i j = some b) :
    ∃ a c, s = a ++ (b ++ c) ∧ i = blen a ∧ j = blen a + blen b := by
  unfold slice at h
  split at h
  · rw [Option.bind_eq_some_iff] at h
    obtain ⟨r, hr, ht⟩ := h
    obtain ⟨a, ha, hb⟩ := dropB_some hr
    obtain ⟨c, hc, hd⟩ := takeB_some ht
    exact ⟨a, c, by simp [ha, hc], by omega, by omega⟩
  · simp at h

theorem slice_self (s : Str) : slice s 0 (blen s) = some s :=
  slice_eq (a := []) (c := []) (by simp) rfl (by simp)

/-! ### Prefix tests -/

theorem startsWith_iff {s p : Str} : startsWith s p = true ↔ ∃ t, s = p ++ t := by
  induction s generalizing p with
  | nil => cases p <;> simp [startsWith]
  | cons c s ih =>
      cases p with
      | nil => simp [startsWith]
      | cons d p =>
          simp only [startsWith, Bool.and_eq_true, beq_iff_eq, ih, List.cons_append, List.cons.injEq]
          constructor
          · rintro ⟨rfl, t, rfl⟩; exact ⟨t, rfl, rfl⟩
          · rintro ⟨t, rfl, rfl⟩; exact ⟨rfl, t, rfl⟩

theorem endsWith_iff {s p : Str} : endsWith s p = true ↔ ∃ t, s = t ++ p := by
  rw [endsWith, startsWith_iff]
  constructor
  · rintro ⟨t, h⟩
    refine ⟨t.reverse, ?_⟩
    have := congrArg List.reverse h
    simpa using this
  · rintro ⟨t, rfl⟩; exact ⟨t.reverse, by simp⟩

/-! ### Trimming -/

theorem trimStart_suffix (s : Str) : ∃ w, s = w ++ trimStart s ∧ ∀ c ∈ w, isWs c = true := by
  induction s with
  | nil => exact ⟨[], rfl, by simp⟩
  | cons c s ih =>
      rw [trimStart]
      split
      · obtain ⟨w, hw, hall⟩ := ih
        refine ⟨c :: w, by simp [← hw], ?_⟩
        intro d hd
        rcases List.mem_cons.mp hd with rfl | hd
        · assumption
        · exact hall d hd
      · exact ⟨[], rfl, by simp⟩

theorem trimStart_head {s r : Str} {c : Char} (h : trimStart s = c :: r) : isWs c = false := by
  induction s with
  | nil => simp [trimStart] at h
  | cons d s ih =>
      rw [trimStart] at h
      split at h
      · exact ih h
      · rename_i hd
        obtain ⟨rfl, -⟩ := List.cons.inj h
        simpa using hd

theorem trimEnd_prefix (s : Str) : ∃ w, s = trimEnd s ++ w ∧ ∀ c ∈ w, isWs c = true := by
  obtain ⟨w, hw, hall⟩ := trimStart_suffix s.reverse
  refine ⟨w.reverse, ?_, by simpa using hall⟩
  have := congrArg List.reverse hw
  simpa [trimEnd] using this

theorem trimEnd_last {s r : Str} {c : Char} (h : trimEnd s = r ++ [c]) : isWs c = false := by
  refine trimStart_head (s := s.reverse) (r := r.reverse) ?_
  have := congrArg List.reverse h
  simpa [trimEnd] using this

/-! ### Association lists -/

theorem assoc_insert_self {β : Type u} (k : Str) (v : β) (l : List (Str × β)) :
    assoc k (assocInsert k v l) = some v := by
  induction l with
  | nil => simp [assocInsert, assoc]
  | cons p l ih =>
      obtain ⟨k', v'⟩ := p
      simp only [assocInsert]; split
      · simp [assoc]
      · rename_i h; simp [assoc, h, ih]

theorem assoc_insert_ne {β : Type u} {k k' : Str} (v : β) (l : List (Str × β)) (h : k' ≠ k) :
    assoc k' (assocInsert k v l) = assoc k' l := by
  induction l with
  | nil => simp [assocInsert, assoc, Ne.symm h]
  | cons p l ih =>
      obtain ⟨j, w⟩ := p
      simp only [assocInsert]; split
      · rename_i hj; simp [assoc, hj, Ne.symm h]
      · simp only [assoc]; split
        · rfl
        · exact ih

theorem assoc_erase_self {β : Type u} (k : Str) (l : List (Str × β)) :
    assoc k (assocErase k l) = none := by
  induction l with
  | nil => rfl
  | cons p l ih =>
      obtain ⟨j, w⟩ := p
      simp only [assocErase]; split
      · exact ih
      · rename_i hj; simp [assoc, hj, ih]

theorem assoc_erase_ne {β : Type u} {k k' : Str} (l : List (Str × β)) (h : k' ≠ k) :
    assoc k' (assocErase k l) = assoc k' l := by
  induction l with
  | nil => rfl
  | cons p l ih =>
      obtain ⟨j, w⟩ := p
      simp only [assocErase]; split
      · rename_i hj; simp [assoc, ih, hj, Ne.symm h]
      · simp only [assoc]; split
        · rfl
        · exact ih

theorem assoc_mem {β : Type u} {k : Str} {v : β} {l : List (Str × β)} (h : assoc k l = some v) :
    (k, v) ∈ l := by
  induction l with
  | nil => simp [assoc] at h
  | cons p l ih =>
      obtain ⟨j, w⟩ := p
      simp only [assoc] at h
      split at h
      · rename_i hj; simp_all
      · exact List.mem_cons_of_mem _ (ih h)

theorem assoc_none_of_forall {β : Type u} {k : Str} {l : List (Str × β)}
    (h : ∀ p ∈ l, p.1 ≠ k) : assoc k l = none := by
  induction l with
  | nil => rfl
  | cons p l ih =>
      obtain ⟨j, w⟩ := p
      have hj := h (j, w) (by simp)
      simp only [assoc, if_neg hj]
      exact ih fun q hq => h q (List.mem_cons_of_mem _ hq)

end Bracket
