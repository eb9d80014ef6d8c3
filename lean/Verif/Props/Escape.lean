import Verif.Model.Escape
import Verif.Spec.Html

/-! C05: HTML escaping is safe and loses nothing. -/

namespace Bracket.Props
open Spec

/-- How one character is escaped: itself, or the entity standing for it. -/
theorem htmlChar_cases (c : Char) :
    (htmlChar c, c) ∈ entities ∨ (htmlChar c = [c] ∧ c ∉ markup ∧ c ≠ '&') := by
  unfold htmlChar
  split <;> simp [entities, markup]
  rename_i h1 h2 h3 h4 h5
  exact ⟨⟨h1, h2, h3, h5⟩, h4⟩

/-- C05: escaped output contains no markup character. -/
theorem C05_no_markup (s : Str) : ∀ c ∈ escapeHtml s, c ∉ markup := by
  intro c hc
  simp only [escapeHtml, List.mem_flatMap] at hc
  obtain ⟨d, -, hc⟩ := hc
  rcases htmlChar_cases d with h | ⟨h, hm, -⟩
  · have key : ∀ e ∈ entities, ∀ c ∈ e.1, c ∉ markup := by decide
    exact key _ h c hc
  · rw [h] at hc
    simp only [List.mem_singleton] at hc
    subst hc
    exact hm

/-- Where an `&` occurs in a concatenation whose first part has no `&` after its head. -/
theorem amp_split {x y a b : Str} (h : x ++ y = a ++ '&' :: b) :
    (∃ a', a = x ++ a' ∧ y = a' ++ '&' :: b) ∨ (∃ x', x = a ++ '&' :: x' ∧ b = x' ++ y) := by
  rw [List.append_eq_append_iff] at h
  rcases h with ⟨a', rfl, hy⟩ | ⟨c', rfl, hb⟩
  · exact .inl ⟨a', rfl, hy⟩
  · cases c' with
    | nil => exact .inl ⟨[], by simp, by simpa using hb.symm⟩
    | cons d c' =>
        simp only [List.cons_append, List.cons.injEq] at hb
        obtain ⟨rfl, rfl⟩ := hb
        exact .inr ⟨c', rfl, rfl⟩

/-- C05: the escaped text is safe HTML: no markup, and every `&` begins an entity. -/
theorem C05_html_safe (s : Str) : HtmlSafe (escapeHtml s) := by
  refine ⟨C05_no_markup s, ?_⟩
  induction s with
  | nil => intro a b h; simp [escapeHtml] at h
  | cons d s ih =>
      intro a b h
      have h' : htmlChar d ++ escapeHtml s = a ++ '&' :: b := by simpa [escapeHtml] using h
      rcases amp_split h' with ⟨a', -, hy⟩ | ⟨x', hx, hb⟩
      · exact ih a' b hy
      · rcases htmlChar_cases d with he | ⟨he, -, hd⟩
        · refine ⟨_, he, escapeHtml s, ?_⟩
          have ha : a = [] := by
            simp only [entities, List.mem_cons, Prod.mk.injEq, List.not_mem_nil, or_false] at he
            rcases he with ⟨he, -⟩ | ⟨he, -⟩ | ⟨he, -⟩ | ⟨he, -⟩ | ⟨he, -⟩ <;> rw [he] at hx <;>
              (rcases a with _ | ⟨a0, _ | ⟨a1, _ | ⟨a2, _ | ⟨a3, _ | ⟨a4, _ | ⟨a5, a⟩⟩⟩⟩⟩⟩ <;> simp_all)
          subst ha
          simp [hb, hx]
        · rw [he] at hx
          rcases a with _ | ⟨a0, a⟩ <;> simp_all

/-- C05: nothing is lost: decoding the entities gives back the input. -/
theorem C05_decode_escape (s : Str) : decode (escapeHtml s) = s := by
  induction s with
  | nil => rfl
  | cons c s ih =>
      show decode (htmlChar c ++ escapeHtml s) = c :: s
      rcases htmlChar_cases c with h | ⟨h, -, hc⟩
      · simp only [entities, List.mem_cons, Prod.mk.injEq, List.not_mem_nil, or_false] at h
        rcases h with ⟨h, rfl⟩ | ⟨h, rfl⟩ | ⟨h, rfl⟩ | ⟨h, rfl⟩ | ⟨h, rfl⟩ <;> rw [h] <;>
          simp [decode, ih]
      · rw [h]
        simp only [List.cons_append, List.nil_append]
        rw [decode] <;> simp_all

/-- C05: different inputs have different escapes. -/
theorem C05_escape_injective {s t : Str} (h : escapeHtml s = escapeHtml t) : s = t := by
  rw [← C05_decode_escape s, ← C05_decode_escape t, h]

/-- C05: escaping distributes over concatenation. -/
theorem C05_escape_append (s t : Str) : escapeHtml (s ++ t) = escapeHtml s ++ escapeHtml t := by
  simp [escapeHtml]

/-- C05: text without special characters is unchanged. -/
theorem C05_escape_id {s : Str} (h : ∀ c ∈ s, c ∉ markup ∧ c ≠ '&') : escapeHtml s = s := by
  induction s with
  | nil => rfl
  | cons c s ih =>
      have hc := h c (by simp)
      show htmlChar c ++ escapeHtml s = c :: s
      rw [ih fun d hd => h d (List.mem_cons_of_mem _ hd)]
      rcases htmlChar_cases c with he | ⟨he, -, -⟩
      · exfalso
        simp only [entities, List.mem_cons, Prod.mk.injEq, List.not_mem_nil, or_false] at he
        rcases he with ⟨-, rfl⟩ | ⟨-, rfl⟩ | ⟨-, rfl⟩ | ⟨-, rfl⟩ | ⟨-, rfl⟩ <;> simp [markup] at hc
      · simp [he]

/-- Test: a string exercising every special character. -/
example : escapeHtml c!"<a href='x'>&\"" = c!"&lt;a href=&#x27;x&#x27;&gt;&amp;&quot;" := by decide

end Bracket.Props
