import Mathlib.Data.List.Induction
import Verif.Spec.Print
import Verif.Lemmas.Basic

/-! C07 (printing of values), C08 (truthiness). -/

namespace Bracket.Props
open Spec

theorem natDigitsAux_append (fuel n : Nat) (acc : Str) :
    natDigitsAux fuel n acc = natDigitsAux fuel n [] ++ acc := by
  induction fuel generalizing n acc with
  | zero => simp [natDigitsAux]
  | succ fuel ih =>
      simp only [natDigitsAux]
      split
      · rfl
      · rw [ih, ih (n / 10) [_]]; simp

/-- The digit character of `d`. -/
theorem digitChar_toNat {d : Nat} (h : d < 10) : (Char.ofNat (48 + d)).toNat = 48 + d := by
  have : ∀ d : Fin 10, (Char.ofNat (48 + d.1)).toNat = 48 + d.1 := by decide
  exact this ⟨d, h⟩

theorem decimalValue_append_digit (s : Str) (c : Char) :
    decimalValue (s ++ [c]) = decimalValue s * 10 + digitOf c := by
  simp [decimalValue, List.foldl_append]

theorem showNat_step (n : Nat) (h : n / 10 ≠ 0) :
    showNat n = showNat (n / 10) ++ [Char.ofNat (48 + n % 10)] := by
  have fuel : ∀ f g m : Nat, m < f → m < g → natDigitsAux f m [] = natDigitsAux g m [] := by
    intro f
    induction f with
    | zero => intro g m h; omega
    | succ f ih =>
        intro g m hf hg
        cases g with
        | zero => omega
        | succ g =>
            simp only [natDigitsAux]
            split
            · rfl
            · rename_i hm
              rw [natDigitsAux_append f, natDigitsAux_append g, ih g (m / 10) (by omega) (by omega)]
  unfold showNat
  rw [natDigitsAux, if_neg h, natDigitsAux_append, fuel n (n / 10 + 1) (n / 10) (by omega) (by omega)]

theorem showNat_small (n : Nat) (h : n < 10) : showNat n = [Char.ofNat (48 + n)] := by
  unfold showNat
  rw [natDigitsAux, if_pos (by omega)]
  rw [Nat.mod_eq_of_lt h]

/-- `showNat` prints the decimal numeral. -/
theorem showNat_isNumeral (n : Nat) : IsNumeral n (showNat n) := by
  have hdig : ∀ d : Fin 10, '0' ≤ Char.ofNat (48 + d.1) ∧ Char.ofNat (48 + d.1) ≤ '9' := by decide
  induction n using Nat.strongRecOn with
  | _ n ih =>
      by_cases h : n / 10 = 0
      · have hn : n < 10 := by omega
        rw [showNat_small n hn]
        refine ⟨by simp, ?_, ?_, fun _ => ?_⟩
        · intro c hc
          simp only [List.mem_singleton] at hc
          subst hc
          exact hdig ⟨n, hn⟩
        · simp [decimalValue, digitOf, digitChar_toNat hn]
        · have key : ∀ d : Fin 10, [Char.ofNat (48 + d.1)].head? = some '0' →
              [Char.ofNat (48 + d.1)] = ['0'] := by decide
          rename_i h0
          exact key ⟨n, hn⟩ h0
      · obtain ⟨h1, h2, h3, h4⟩ := ih (n / 10) (by omega)
        have hm : n % 10 < 10 := Nat.mod_lt _ (by omega)
        rw [showNat_step n h]
        refine ⟨by simp, ?_, ?_, ?_⟩
        · intro c hc
          rcases List.mem_append.mp hc with hc | hc
          · exact h2 c hc
          · simp only [List.mem_singleton] at hc
            subst hc
            exact hdig ⟨n % 10, hm⟩
        · rw [decimalValue_append_digit, h3]
          simp only [digitOf, digitChar_toNat hm]
          have : '0'.toNat = 48 := rfl
          omega
        · intro h0
          exfalso
          rcases hs : showNat (n / 10) with _ | ⟨c, r⟩
          · exact h1 hs
          · rw [hs] at h0
            simp only [List.cons_append, List.head?_cons, Option.some.injEq] at h0
            subst h0
            have := h4 (by rw [hs]; rfl)
            rw [this] at h3
            simp [decimalValue, digitOf] at h3
            omega

/-- Two numerals of one number are equal. -/
theorem numeral_unique {n : Nat} {s t : Str} (hs : IsNumeral n s) (ht : IsNumeral n t) : s = t := by
  have hd : ∀ c : Char, '0' ≤ c → c ≤ '9' → c = Char.ofNat (48 + digitOf c) ∧ digitOf c < 10 := by
    intro c h1 h2
    have a : '0'.toNat ≤ c.toNat := h1
    have b : c.toNat ≤ '9'.toNat := h2
    have e0 : '0'.toNat = 48 := rfl
    have e9 : '9'.toNat = 57 := rfl
    simp only [digitOf]
    refine ⟨?_, by omega⟩
    rw [show 48 + (c.toNat - '0'.toNat) = c.toNat from by omega]
    exact (Char.ofNat_toNat c).symm
  have pos : ∀ u : Str, (∀ c ∈ u, '0' ≤ c ∧ c ≤ '9') → u ≠ [] → u.head? ≠ some '0' → decimalValue u ≠ 0 := by
    intro u
    induction u using List.reverseRecOn with
    | nil => simp
    | append_singleton u c ih =>
        intro hall _ hh
        rw [decimalValue_append_digit]
        by_cases hu : u = []
        · subst hu
          obtain ⟨e, he⟩ := hd c (hall c (by simp)).1 (hall c (by simp)).2
          intro h
          simp [decimalValue] at h
          rw [h] at e
          apply hh
          rw [e]; rfl
        · have hne := ih (fun d hd' => hall d (by simp [hd'])) hu (by
            cases u with
            | nil => exact absurd rfl hu
            | cons a u => simpa using hh)
          omega
  have main : ∀ s t : Str, (∀ c ∈ s, '0' ≤ c ∧ c ≤ '9') → (∀ c ∈ t, '0' ≤ c ∧ c ≤ '9') →
      (s ≠ [] → s.head? = some '0' → s = ['0']) → (t ≠ [] → t.head? = some '0' → t = ['0']) →
      s ≠ [] → t ≠ [] → decimalValue s = decimalValue t → s = t := by
    intro s
    induction s using List.reverseRecOn with
    | nil => intro t _ _ _ _ h; exact absurd rfl h
    | append_singleton s c ih =>
        intro t
        cases t using List.reverseRecOn with
        | nil => intro _ _ _ _ _ h; exact absurd rfl h
        | append_singleton t d =>
            intro hs ht zs zt _ _ hv
            rw [decimalValue_append_digit, decimalValue_append_digit] at hv
            obtain ⟨ec, hc⟩ := hd c (hs c (by simp)).1 (hs c (by simp)).2
            obtain ⟨ed, hd'⟩ := hd d (ht d (by simp)).1 (ht d (by simp)).2
            have e1 : digitOf c = digitOf d := by omega
            have e2 : decimalValue s = decimalValue t := by omega
            have ecd : c = d := by rw [ec, ed, e1]
            subst ecd
            have nz : ∀ u : Str, (u ++ [c] ≠ [] → (u ++ [c]).head? = some '0' → u ++ [c] = ['0']) →
                u ≠ [] → u.head? ≠ some '0' := by
              intro u zu hu h0
              cases u with
              | nil => exact hu rfl
              | cons a u =>
                  have := zu (by simp) (by simpa using h0)
                  simp at this
            congr 1
            by_cases hse : s = []
            · by_cases hte : t = []
              · rw [hse, hte]
              · exfalso
                exact pos t (fun x hx => ht x (by simp [hx])) hte (nz t zt hte) (by rw [← e2, hse]; rfl)
            · by_cases hte : t = []
              · exfalso
                exact pos s (fun x hx => hs x (by simp [hx])) hse (nz s zs hse) (by rw [e2, hte]; rfl)
              · exact ih t (fun x hx => hs x (by simp [hx])) (fun x hx => ht x (by simp [hx]))
                  (fun h h0 => absurd h0 (nz s zs h)) (fun h h0 => absurd h0 (nz t zt h)) hse hte e2
  exact main s t hs.2.1 ht.2.1 (fun _ => hs.2.2.2) (fun _ => ht.2.2.2) hs.1 ht.1 (by rw [hs.2.2.1, ht.2.2.1])

/-- C07: the text a value is rendered as is exactly the one the printing rule gives. -/
theorem C07_stringify [Host] (v : Value) (s : Str) : stringify v = s ↔ Prints v s := by
  have sound : Prints v (stringify v) := by
    cases v with
    | null => exact .null
    | bool b => cases b <;> constructor
    | num n =>
        cases n with
        | posInt n => exact .nat (showNat_isNumeral n)
        | negInt n => exact .neg (showNat_isNumeral n)
        | float f => exact .float f
    | str s => exact .str s
    | arr l => exact .arr (showNat_isNumeral l.length)
    | obj m => exact .obj m
  constructor
  · rintro rfl; exact sound
  · intro h
    cases h with
    | str => rfl
    | null => rfl
    | tt => rfl
    | ff => rfl
    | nat h => exact numeral_unique (showNat_isNumeral _) h
    | neg h => exact congrArg ('-' :: ·) (numeral_unique (showNat_isNumeral _) h)
    | float => rfl
    | arr h => rw [← numeral_unique (showNat_isNumeral _) h]; rfl
    | obj => rfl

/-- C08: a value is falsy exactly when it is null, false, zero or the empty string. -/
theorem C08_truthy (v : Value) : isTruthy v = true ↔ ¬ Falsy v := by
  cases v with
  | null => simp [isTruthy]; exact .null
  | bool b => cases b <;> simp [isTruthy]
              · exact .false
              · intro h; cases h
  | num n =>
      have key : n.nonzero = true ↔ numValue n ≠ 0 := by
        cases n with
        | posInt n => simp [Num.nonzero, numValue]
        | negInt n => simp [Num.nonzero, numValue]
        | float f =>
            obtain ⟨neg, m, e⟩ := f
            have h2 : (2 : ℚ) ^ e ≠ 0 := zpow_ne_zero _ (by norm_num)
            cases neg <;> simp [Num.nonzero, numValue, floatValue, h2]
      show n.nonzero = true ↔ _
      rw [key]
      exact ⟨fun h h' => by cases h' with | zero h' => exact h h', fun h h' => h (.zero h')⟩
  | str s =>
      cases s with
      | nil => simp [isTruthy]; exact .emptyStr
      | cons c s =>
          have := c.utf8Size_pos
          simp only [isTruthy, blen_cons]
          exact ⟨fun _ h => (by cases h), fun _ => decide_eq_true (by omega)⟩
  | arr l => simp [isTruthy]; intro h; cases h
  | obj m => simp [isTruthy]; intro h; cases h

/-- Values of both kinds: `-105`, a list of two and an object print as the rule says; `[]` and `"0"` are truthy. -/
example [Host] : Prints (.num (.negInt 105)) c!"-105" ∧ Prints (.arr [.null, .null]) c!"Array[2]" ∧ Prints (.obj []) c!"Object" :=
  ⟨(C07_stringify _ _).1 (by rfl), (C07_stringify _ _).1 (by rfl), .obj []⟩

example : isTruthy (.arr []) = true ∧ isTruthy (.str c!"0") = true ∧ isTruthy (.num (.float ⟨true, 0, 3⟩)) = false ∧ ¬ Falsy (.str c!"0") ∧
    Falsy (.num (.float ⟨true, 0, 3⟩)) := by
  refine ⟨rfl, rfl, rfl, (C08_truthy _).1 rfl, .zero (by simp [numValue, floatValue])⟩

end Bracket.Props
