import Verif.Props.JsonText

/-! C58: a JSON text denotes one value only. -/

set_option linter.unusedSectionVars false
set_option linter.unusedSimpArgs false

namespace Bracket.Props
open Bracket Spec

/-- A character of a number. -/
def numChar (c : Char) : Bool := decide ('0' ≤ c ∧ c ≤ '9') || c == '-' || c == '+' || c == '.' || c == 'e' || c == 'E'

/-- Not the continuation of a number. -/
def Stop (r : Str) : Prop := ∀ c s, r = c :: s → numChar c = false

/-- Not white space. -/
def Solid (r : Str) : Prop := ∀ c s, r = c :: s → ¬(c = ' ' ∨ c = '\n' ∨ c = '\r' ∨ c = '\t')

theorem solid_cons {c : Char} {s : Str} (h : ¬(c = ' ' ∨ c = '\n' ∨ c = '\r' ∨ c = '\t')) : Solid (c :: s) := by
  intro d t e; injection e with e1; exact e1 ▸ h

theorem stop_cons {c : Char} {s : Str} (h : numChar c = false) : Stop (c :: s) := by
  intro d t e; injection e with e1; exact e1 ▸ h

/-- Blank space is read in one way. -/
theorem blank_strip : ∀ {a a' x x' : Str}, JBlank a → JBlank a' → Solid x → Solid x' → a ++ x = a' ++ x' → x = x'
  | [], [], x, x', _, _, _, _, h => h
  | [], c :: a', x, x', _, h2, hx, _, h => by
      exact absurd (h2 c List.mem_cons_self) (hx c (a' ++ x') (by simpa using h))
  | c :: a, [], x, x', h1, _, _, hx', h => by
      exact absurd (h1 c List.mem_cons_self) (hx' c (a ++ x) (by simpa using h.symm))
  | c :: a, d :: a', x, x', h1, h2, hx, hx', h => by
      simp only [List.cons_append, List.cons.injEq] at h
      exact blank_strip (fun c hc => h1 c (List.mem_cons_of_mem _ hc)) (fun c hc => h2 c (List.mem_cons_of_mem _ hc)) hx hx' h.2

/-- A number is read to its end. -/
theorem num_strip : ∀ {t u r r' : Str}, (∀ c ∈ t, numChar c = true) → (∀ c ∈ u, numChar c = true) → Stop r → Stop r' → t ++ r = u ++ r' → t = u ∧ r = r'
  | [], [], _, _, _, _, _, _, h => ⟨rfl, h⟩
  | [], c :: u, r, r', _, h2, hr, _, h => by
      have := hr c (u ++ r') (by simpa using h)
      rw [h2 c List.mem_cons_self] at this
      cases this
  | c :: t, [], r, r', h1, _, _, hr', h => by
      have := hr' c (t ++ r) (by simpa using h.symm)
      rw [h1 c List.mem_cons_self] at this
      cases this
  | c :: t, d :: u, r, r', h1, h2, hr, hr', h => by
      simp only [List.cons_append, List.cons.injEq] at h
      obtain ⟨e1, e2⟩ := num_strip (fun c hc => h1 c (List.mem_cons_of_mem _ hc)) (fun c hc => h2 c (List.mem_cons_of_mem _ hc)) hr hr' h.2
      exact ⟨by rw [h.1, e1], e2⟩

/-- A string is read to its closing quote. -/
theorem chars_strip : ∀ {s s' t t' r r' : Str}, JChars s t → JChars s' t' → t ++ '"' :: r = t' ++ '"' :: r' → s = s' ∧ r = r' := by
  intro s s' t t' r r' h
  induction h generalizing s' t' with
  | nil =>
      intro h' e
      cases h' with
      | nil => simpa using e
      | plain _ h1 _ _ => simp at e; exact absurd e.1.symm h1
      | esc => simp at e
      | unicode => simp at e
  | plain h h1 h2 hr ih =>
      intro h' e
      cases h' with
      | nil => simp at e; exact absurd e.1 h1
      | plain _ _ _ hr' =>
          simp only [List.cons_append, List.cons.injEq] at e
          obtain ⟨e1, e2⟩ := ih hr' e.2
          exact ⟨by rw [e.1, e1], e2⟩
      | esc => simp at e; exact absurd e.1 h2
      | unicode => simp at e; exact absurd e.1 h2
  | esc h hr ih =>
      intro h' e
      cases h' with
      | nil => simp at e
      | plain _ _ hn _ => simp at e; exact absurd e.1.symm hn
      | esc h' hr' =>
          simp only [List.cons_append, List.cons.injEq, true_and] at e
          obtain ⟨e0, e⟩ := e
          obtain ⟨e1, e2⟩ := ih hr' e
          refine ⟨?_, e2⟩
          rw [e1]
          congr 1
          subst e0
          revert h h'
          simp only [jsonEscapes, List.mem_cons, List.not_mem_nil, or_false, Prod.mk.injEq]
          rintro (⟨rfl, rfl⟩ | ⟨rfl, rfl⟩ | ⟨rfl, rfl⟩ | ⟨rfl, rfl⟩ | ⟨rfl, rfl⟩ | ⟨rfl, rfl⟩ | ⟨rfl, rfl⟩ | ⟨rfl, rfl⟩) <;> simp <;> exact Eq.symm
      | unicode => simp only [List.cons_append, List.cons.injEq, true_and] at e; obtain ⟨rfl, _⟩ := e; revert h; simp [jsonEscapes]
  | unicode h hr ih =>
      intro h' e
      cases h' with
      | nil => simp at e
      | plain _ _ hn _ => simp at e; exact absurd e.1.symm hn
      | esc h' => simp only [List.cons_append, List.cons.injEq, true_and] at e; obtain ⟨rfl, _⟩ := e; revert h'; simp [jsonEscapes]
      | unicode h' hr' =>
          simp only [List.cons_append, List.cons.injEq, true_and] at e
          obtain ⟨rfl, rfl, rfl, rfl, e⟩ := e
          obtain ⟨e1, e2⟩ := ih hr' e
          refine ⟨?_, e2⟩
          rw [e1]
          rw [h] at h'
          injection h' with h'
          rw [Char.toNat_inj.1 h']

theorem numeral_chars {n : Nat} {t : Str} (h : IsNumeral n t) : ∀ c ∈ t, numChar c = true := by
  intro c hc
  unfold numChar
  simp [h.2.1 c hc]

section
variable [Host]

theorem float_chars (hF : PlainFloats) (f : F64) : ∀ c ∈ Host.showFloat f, numChar c = true := by
  intro c hc
  unfold numChar
  rcases (hF f).1 c hc with h | h | h | h | h | h <;> simp [h]

theorem num_chars (hF : PlainFloats) {n : Num} {t : Str} (h : JText (.num n) t) : t ≠ [] ∧ ∀ c ∈ t, numChar c = true := by
  cases h with
  | nat h => exact ⟨h.1, numeral_chars h⟩
  | neg h =>
      refine ⟨by simp, fun c hc => ?_⟩
      rcases List.mem_cons.1 hc with rfl | hc
      · decide
      · exact numeral_chars h c hc
  | float f =>
      refine ⟨fun e => ?_, float_chars hF f⟩
      rcases (hF f).2 with h | h <;> (rw [e] at h; cases h)

/-- What begins every other text. -/
theorem other_head {v : Value} {t : Str} (h : JText v t) (hv : ∀ n, v ≠ .num n) : ∃ c s, t = c :: s ∧ numChar c = false ∧
    (c = 'n' ∨ c = 't' ∨ c = 'f' ∨ c = '"' ∨ c = '[' ∨ c = '{') := by
  cases h with
  | nat h => exact absurd rfl (hv _)
  | neg h => exact absurd rfl (hv _)
  | float f => exact absurd rfl (hv _)
  | _ => exact ⟨_, _, rfl, by decide, by decide⟩

theorem text_solid (hF : PlainFloats) {v : Value} {t : Str} (h : JText v t) (r : Str) :
    ∃ c s, t ++ r = c :: s ∧ c ≠ ']' ∧ c ≠ '}' ∧ ¬(c = ' ' ∨ c = '\n' ∨ c = '\r' ∨ c = '\t') := by
  by_cases hv : ∃ n, v = .num n
  · obtain ⟨n, rfl⟩ := hv
    obtain ⟨h1, h2⟩ := num_chars hF h
    obtain ⟨c, s, rfl⟩ := List.exists_cons_of_ne_nil h1
    have := h2 c List.mem_cons_self
    refine ⟨c, s ++ r, rfl, ?_, ?_, ?_⟩
    · rintro rfl; revert this; decide
    · rintro rfl; revert this; decide
    · rintro (rfl | rfl | rfl | rfl) <;> (revert this; decide)
  · obtain ⟨c, s, rfl, _, h⟩ := other_head h fun n e => hv ⟨n, e⟩
    refine ⟨c, s ++ r, rfl, ?_⟩
    rcases h with rfl | rfl | rfl | rfl | rfl | rfl <;> decide

theorem stop_blank {b : Str} {r : Str} (hb : JBlank b) (hr : Stop r) : Stop (b ++ r) := by
  cases b with
  | nil => exact hr
  | cons c b =>
      refine stop_cons ?_
      rcases hb c List.mem_cons_self with rfl | rfl | rfl | rfl <;> decide

theorem num_unique (hF : PlainFloats) {n m : Num} {t : Str} (h : JText (.num n) t) (h' : JText (.num m) t) : Alike (.num n) (.num m) := by
  have nodash : ∀ {k : Nat} {s : Str}, ¬IsNumeral k ('-' :: s) := by
    intro k s h; exact absurd (h.2.1 '-' List.mem_cons_self) (by decide)
  have nofloat : ∀ {k : Nat} {f : F64}, ¬IsNumeral k (Host.showFloat f) := by
    intro k f h
    rcases (hF f).2 with h' | h' <;> exact absurd (h.2.1 _ h') (by decide)
  cases h with
  | nat h =>
      cases h' with
      | nat h' => rw [← h.2.2.1, ← h'.2.2.1]; exact .pos _
      | neg h' => exact absurd h nodash
      | float f => exact absurd h nofloat
  | neg h =>
      rename_i k s
      generalize hu : '-' :: s = u at h'
      cases h' with
      | nat h' => subst hu; exact absurd h' nodash
      | neg h' => injection hu with _ hu; subst hu; rw [← h.2.2.1, ← h'.2.2.1]; exact .neg _
      | float f =>
          rcases (hF f).2 with h' | h' <;> (rw [← hu] at h'; rcases List.mem_cons.1 h' with e | h'; cases e; exact absurd (h.2.1 _ h') (by decide))
  | float f =>
      generalize hu : Host.showFloat f = u at h'
      cases h' with
      | nat h' => subst hu; exact absurd h' nofloat
      | neg h' =>
          rcases (hF f).2 with h | h <;> (rw [hu] at h; rcases List.mem_cons.1 h with e | h; cases e; exact absurd (h'.2.1 _ h) (by decide))
      | float g => exact .float hu

theorem not_num_other (hF : PlainFloats) {n : Num} {w : Value} {t u r r' : Str} (h : JText (.num n) t) (h' : JText w u) (hw : ∀ n, w ≠ .num n)
    (e : t ++ r = u ++ r') : False := by
  obtain ⟨h1, h2⟩ := num_chars hF h
  obtain ⟨c, s, rfl, h3, _⟩ := other_head h' hw
  obtain ⟨d, s', rfl⟩ := List.exists_cons_of_ne_nil h1
  simp only [List.cons_append, List.cons.injEq] at e
  rw [← e.1, h2 d List.mem_cons_self] at h3
  cases h3

theorem text_sol (hF : PlainFloats) {v : Value} {t : Str} (h : JText v t) (r : Str) : Solid (t ++ r) := by
  obtain ⟨c, s, e, _, _, h⟩ := text_solid hF h r
  rw [e]; exact solid_cons h

theorem items_head (hF : PlainFloats) {l : List Value} {t : Str} (h : JItems l t) (r w r' : Str) (hw : JBlank w) (e : t ++ r = w ++ ']' :: r') : False := by
  have key : ∀ {v : Value} {a u x : Str}, JBlank a → JText v u → a ++ (u ++ x) = w ++ ']' :: r' → False := by
    intro v a u x ha hv e
    have := blank_strip ha hw (text_sol hF hv x) (solid_cons (by decide)) e
    obtain ⟨c, s, e', h1, _⟩ := text_solid hF hv x
    rw [e'] at this
    injection this with this
    exact h1 this
  cases h with
  | one ha hv hb => exact key ha hv (by simpa using e)
  | more ha hv hb hr => exact key ha hv (by simpa using e)

theorem members_head {l : List (Str × Value)} {t : Str} (h : JMembers l t) (r w r' : Str) (hw : JBlank w) (e : t ++ r = w ++ '}' :: r') : False := by
  have key : ∀ {a x : Str}, JBlank a → a ++ '"' :: x = w ++ '}' :: r' → False := by
    intro a x ha e
    have := blank_strip ha hw (solid_cons (by decide)) (solid_cons (by decide)) e
    simp at this
  cases h with
  | one ha hk hb hc hv hd => exact key ha (by simpa using e)
  | more ha hk hb hc hv hd hr => exact key ha (by simpa using e)

mutual
theorem text_unique (hF : PlainFloats) : ∀ (v : Value) {w : Value} {t u r r' : Str}, JText v t → JText w u → Stop r → Stop r' → t ++ r = u ++ r' →
    Alike v w ∧ r = r'
  | .null, w, t, u, r, r', h, h', hr, hr', e => by
      cases h
      cases w with
      | num n => exact (not_num_other hF h' .null (by simp) e.symm).elim
      | null => cases h'; exact ⟨.null, by simpa using e⟩
      | _ => cases h' <;> simp at e
  | .bool b, w, t, u, r, r', h, h', hr, hr', e => by
      cases w with
      | num n => exact (not_num_other hF h' h (by simp) e.symm).elim
      | bool b' => cases h <;> cases h' <;> simp at e <;> exact ⟨.bool _, e⟩
      | _ => cases h <;> cases h' <;> simp at e
  | .num n, w, t, u, r, r', h, h', hr, hr', e => by
      cases w with
      | num m =>
          obtain ⟨rfl, e2⟩ := num_strip (num_chars hF h).2 (num_chars hF h').2 hr hr' e
          exact ⟨num_unique hF h h', e2⟩
      | _ => exact (not_num_other hF h h' (by simp) e).elim
  | .str s, w, t, u, r, r', h, h', hr, hr', e => by
      cases w with
      | num n => exact (not_num_other hF h' h (by simp) e.symm).elim
      | str s' =>
          cases h with
          | str h =>
              cases h' with
              | str h' =>
                  obtain ⟨rfl, e2⟩ := chars_strip h h' (r := r) (r' := r') (by simpa using e)
                  exact ⟨.str _, e2⟩
      | _ => cases h; cases h' <;> simp at e
  | .arr l, w, t, u, r, r', h, h', hr, hr', e => by
      cases w with
      | num n => exact (not_num_other hF h' h (by simp) e.symm).elim
      | arr l' =>
          cases h with
          | arrEmpty hw =>
              cases h' with
              | arrEmpty hw' =>
                  have := blank_strip hw hw' (x := ']' :: r) (x' := ']' :: r') (solid_cons (by decide)) (solid_cons (by decide)) (by simpa using e)
                  exact ⟨.arr .nil, by simpa using this⟩
              | arr h' => exact (items_head hF h' (']' :: r') _ r hw (by simpa using e.symm)).elim
          | arr h =>
              cases h' with
              | arrEmpty hw' => exact (items_head hF h (']' :: r) _ r' hw' (by simpa using e)).elim
              | arr h' =>
                  obtain ⟨h1, h2⟩ := items_unique hF l h h' (r := r) (r' := r') (by simpa using e)
                  exact ⟨.arr h1, h2⟩
      | _ => cases h <;> cases h' <;> simp at e
  | .obj m, w, t, u, r, r', h, h', hr, hr', e => by
      cases w with
      | num n => exact (not_num_other hF h' h (by simp) e.symm).elim
      | obj l' =>
          cases h with
          | objEmpty hw =>
              cases h' with
              | objEmpty hw' =>
                  have := blank_strip hw hw' (x := '}' :: r) (x' := '}' :: r') (solid_cons (by decide)) (solid_cons (by decide)) (by simpa using e)
                  exact ⟨.obj .nil, by simpa using this⟩
              | obj h' => exact (members_head h' ('}' :: r') _ r hw (by simpa using e.symm)).elim
          | obj h =>
              cases h' with
              | objEmpty hw' => exact (members_head h ('}' :: r) _ r' hw' (by simpa using e)).elim
              | obj h' =>
                  obtain ⟨h1, h2⟩ := members_unique hF m h h' (r := r) (r' := r') (by simpa using e)
                  exact ⟨.obj h1, h2⟩
      | _ => cases h <;> cases h' <;> simp at e
theorem items_unique (hF : PlainFloats) : ∀ (l : List Value) {l' : List Value} {t u r r' : Str}, JItems l t → JItems l' u → t ++ ']' :: r = u ++ ']' :: r' →
    AlikeItems l l' ∧ r = r'
  | [], l', t, u, r, r', h, h', e => by cases h
  | v :: l, l', t, u, r, r', h, h', e => by
      have step : ∀ {w : Value} {a b x t a' b' x' t' : Str}, JBlank a → JText v t → JBlank b → JBlank a' → JText w t' → JBlank b' → Stop x → Stop x' → Solid x → Solid x' →
          a ++ (t ++ (b ++ x)) = a' ++ (t' ++ (b' ++ x')) → Alike v w ∧ x = x' := by
        intro w a b x t a' b' x' t' ha hv hb ha' hv' hb' hx hx' sx sx' e
        have e1 := blank_strip ha ha' (text_sol hF hv _) (text_sol hF hv' _) e
        obtain ⟨e2, e3⟩ := text_unique hF v hv hv' (stop_blank hb hx) (stop_blank hb' hx') e1
        exact ⟨e2, blank_strip hb hb' sx sx' e3⟩
      have s1 : ∀ r : Str, Stop (']' :: r) := fun r => stop_cons (by decide)
      have s2 : ∀ r : Str, Stop (',' :: r) := fun r => stop_cons (by decide)
      have d1 : ∀ r : Str, Solid (']' :: r) := fun r => solid_cons (by decide)
      have d2 : ∀ r : Str, Solid (',' :: r) := fun r => solid_cons (by decide)
      cases h with
      | one ha hv hb =>
          cases h' with
          | one ha' hv' hb' =>
              obtain ⟨h1, h2⟩ := step ha hv hb ha' hv' hb' (s1 r) (s1 r') (d1 r) (d1 r') (by simpa using e)
              exact ⟨.cons h1 .nil, by simpa using h2⟩
          | more ha' hv' hb' hr' =>
              rename_i u'
              obtain ⟨h1, h2⟩ := step ha hv hb ha' hv' hb' (s1 r) (s2 (u' ++ ']' :: r')) (d1 r) (d2 _) (by simpa using e)
              simp at h2
      | more ha hv hb hr =>
          rename_i u₁
          cases h' with
          | one ha' hv' hb' =>
              obtain ⟨h1, h2⟩ := step ha hv hb ha' hv' hb' (s2 (u₁ ++ ']' :: r)) (s1 r') (d2 _) (d1 r') (by simpa using e)
              simp at h2
          | more ha' hv' hb' hr' =>
              rename_i u'
              obtain ⟨h1, h2⟩ := step ha hv hb ha' hv' hb' (s2 (u₁ ++ ']' :: r)) (s2 (u' ++ ']' :: r')) (d2 _) (d2 _) (by simpa using e)
              injection h2 with _ h2
              obtain ⟨h3, h4⟩ := items_unique hF l hr hr' h2
              exact ⟨.cons h1 h3, h4⟩
theorem members_unique (hF : PlainFloats) : ∀ (l : List (Str × Value)) {l' : List (Str × Value)} {t u r r' : Str}, JMembers l t → JMembers l' u →
    t ++ '}' :: r = u ++ '}' :: r' → AlikeMembers l l' ∧ r = r'
  | [], l', t, u, r, r', h, h', e => by cases h
  | (k, v) :: l, l', t, u, r, r', h, h', e => by
      have step : ∀ {j : Str} {w : Value} {a s b c d x t a' s' b' c' d' x' t' : Str}, JBlank a → JChars k s → JBlank b → JBlank c → JText v t → JBlank d →
          JBlank a' → JChars j s' → JBlank b' → JBlank c' → JText w t' → JBlank d' → Stop x → Stop x' → Solid x → Solid x' →
          a ++ '"' :: (s ++ '"' :: (b ++ ':' :: (c ++ (t ++ (d ++ x))))) = a' ++ '"' :: (s' ++ '"' :: (b' ++ ':' :: (c' ++ (t' ++ (d' ++ x'))))) →
          k = j ∧ Alike v w ∧ x = x' := by
        intro j w a s b c d x t a' s' b' c' d' x' t' ha hk hb hc hv hd ha' hk' hb' hc' hv' hd' hx hx' sx sx' e
        have e0 := blank_strip ha ha' (solid_cons (by decide)) (solid_cons (by decide)) e
        injection e0 with _ e0
        obtain ⟨ek, e0⟩ := chars_strip hk hk' e0
        have e0 := blank_strip hb hb' (solid_cons (by decide)) (solid_cons (by decide)) e0
        injection e0 with _ e0
        have e1 := blank_strip hc hc' (text_sol hF hv _) (text_sol hF hv' _) e0
        obtain ⟨e2, e3⟩ := text_unique hF v hv hv' (stop_blank hd hx) (stop_blank hd' hx') e1
        exact ⟨ek, e2, blank_strip hd hd' sx sx' e3⟩
      have s1 : ∀ r : Str, Stop ('}' :: r) := fun r => stop_cons (by decide)
      have s2 : ∀ r : Str, Stop (',' :: r) := fun r => stop_cons (by decide)
      have d1 : ∀ r : Str, Solid ('}' :: r) := fun r => solid_cons (by decide)
      have d2 : ∀ r : Str, Solid (',' :: r) := fun r => solid_cons (by decide)
      cases h with
      | one ha hk hb hc hv hd =>
          cases h' with
          | one ha' hk' hb' hc' hv' hd' =>
              obtain ⟨rfl, h1, h2⟩ := step ha hk hb hc hv hd ha' hk' hb' hc' hv' hd' (s1 r) (s1 r') (d1 r) (d1 r') (by simpa using e)
              exact ⟨.cons h1 .nil, by simpa using h2⟩
          | more ha' hk' hb' hc' hv' hd' hr' =>
              rename_i u'
              obtain ⟨_, h1, h2⟩ := step ha hk hb hc hv hd ha' hk' hb' hc' hv' hd' (s1 r) (s2 (u' ++ '}' :: r')) (d1 r) (d2 _) (by simpa using e)
              simp at h2
      | more ha hk hb hc hv hd hr =>
          rename_i u₁
          cases h' with
          | one ha' hk' hb' hc' hv' hd' =>
              obtain ⟨_, h1, h2⟩ := step ha hk hb hc hv hd ha' hk' hb' hc' hv' hd' (s2 (u₁ ++ '}' :: r)) (s1 r') (d2 _) (d1 r') (by simpa using e)
              simp at h2
          | more ha' hk' hb' hc' hv' hd' hr' =>
              rename_i u'
              obtain ⟨rfl, h1, h2⟩ := step ha hk hb hc hv hd ha' hk' hb' hc' hv' hd' (s2 (u₁ ++ '}' :: r)) (s2 (u' ++ '}' :: r')) (d2 _) (d2 _) (by simpa using e)
              injection h2 with _ h2
              obtain ⟨h3, h4⟩ := members_unique hF l hr hr' h2
              exact ⟨.cons h1 h3, h4⟩
end

/-- **C58**: a JSON text denotes one value: values with a JSON text in common are the same, up to
floating-point numbers that are written the same. -/
theorem C58_unambiguous (hF : PlainFloats) {v w : Value} {t : Str} (h : JText v t) (h' : JText w t) : Alike v w :=
  (text_unique hF v h h' (r := []) (r' := []) (by intro c s e; cases e) (by intro c s e; cases e) rfl).1

/-- **C58**: so `json` returns the same for two arguments only if they are the same, pretty-printed or not. -/
theorem C58_distinct (hF : PlainFloats) (ctx ctx' : Ctx) (t t' : Option Node) (v w : Value) (h : ctx.args = [v]) (h' : ctx'.args = [w])
    (e : hJson ctx t = hJson ctx' t') : Alike v w := by
  obtain ⟨x, h1, h2, _⟩ := C58_json ctx t v h
  obtain ⟨y, h3, h4, _⟩ := C58_json ctx' t' w h'
  rw [h1, h3] at e
  cases e
  exact C58_unambiguous hF h2 h4

mutual
theorem alike_eq (hi : ∀ f g, Host.showFloat f = Host.showFloat g → f = g) : ∀ {v w : Value}, Alike v w → v = w
  | _, _, .null => rfl
  | _, _, .bool _ => rfl
  | _, _, .pos _ => rfl
  | _, _, .neg _ => rfl
  | _, _, .float h => by rw [hi _ _ h]
  | _, _, .str _ => rfl
  | _, _, .arr h => by rw [alikeItems_eq hi h]
  | _, _, .obj h => by rw [alikeMembers_eq hi h]
theorem alikeItems_eq (hi : ∀ f g, Host.showFloat f = Host.showFloat g → f = g) : ∀ {v w : List Value}, AlikeItems v w → v = w
  | _, _, .nil => rfl
  | _, _, .cons h hr => by rw [alike_eq hi h, alikeItems_eq hi hr]
theorem alikeMembers_eq (hi : ∀ f g, Host.showFloat f = Host.showFloat g → f = g) : ∀ {v w : List (Str × Value)}, AlikeMembers v w → v = w
  | _, _, .nil => rfl
  | _, _, .cons h hr => by rw [alike_eq hi h, alikeMembers_eq hi hr]
end

/-- **C58**: if no two floating-point numbers are written the same, a JSON text denotes one value. -/
theorem C58_injective (hF : PlainFloats) (hi : ∀ f g, Host.showFloat f = Host.showFloat g → f = g) {v w : Value} {t : Str} (h : JText v t) (h' : JText w t) :
    v = w := alike_eq hi (C58_unambiguous hF h h')

end

/-! ### Examples -/

/-- A `Host` that writes floating-point numbers as `±mantissa.±exponent` (not what serde_json does). -/
private def dotFloat (f : F64) : Str := (if f.neg then ['-'] else []) ++ showNat f.mant ++ '.' :: ((if f.exp < 0 then ['-'] else []) ++ showNat f.exp.natAbs)
@[reducible] private def dotHost : Host := { exHost with showFloat := dotFloat }

example : @PlainFloats dotHost := by
  intro f
  have hn : ∀ n, ∀ c ∈ showNat n, '0' ≤ c ∧ c ≤ '9' := fun n => (showNat_isNumeral n).2.1
  refine ⟨fun c (hc : c ∈ dotFloat f) => ?_, .inl (show '.' ∈ dotFloat f by simp [dotFloat])⟩
  simp only [dotFloat, List.mem_append, List.mem_cons] at hc
  rcases hc with (hc | hc) | hc | hc | hc
  · split at hc
    · simp at hc; exact .inr (.inl hc)
    · cases hc
  · exact .inl (hn _ c hc)
  · exact .inr (.inr (.inr (.inl hc)))
  · split at hc
    · simp at hc; exact .inr (.inl hc)
    · cases hc
  · exact .inl (hn _ c hc)

example : ¬ @Alike dotHost (.arr [.str c!"1"]) (.arr [.num (.posInt 1)]) := by intro h; cases h with | arr h => cases h with | cons h _ => cases h

end Bracket.Props
