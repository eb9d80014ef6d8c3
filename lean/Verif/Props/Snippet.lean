import Verif.Spec.Snippet
import Verif.Lemmas.Basic
import Verif.Lemmas.ExHost
import Mathlib.Data.List.Induction

/-! C39: formatting the source snippet of an error. -/

namespace Bracket.Props
open Spec

@[simp] theorem utf8Size_nl : ('\n' : Char).utf8Size = 1 := rfl

theorem slice_one {p q : Str} {x : Char} (hx : x.utf8Size = 1) :
    slice (p ++ x :: q) (blen p) (blen p + 1) = some [x] :=
  slice_eq (a := p) (b := [x]) (c := q) (by simp) rfl (by simp [hx])

theorem slice_one_inv {s y : Str} {i : Nat} (h : slice s i (i + 1) = some y) :
    ∃ p x q, s = p ++ x :: q ∧ i = blen p ∧ y = [x] ∧ x.utf8Size = 1 := by
  obtain ⟨a, c, h1, h2, h3⟩ := slice_some h
  have hb : blen y = 1 := by omega
  cases y with
  | nil => simp at hb
  | cons x y =>
      have := x.utf8Size_pos
      simp only [blen_cons] at hb
      have hy : y = [] := blen_eq_zero.mp (by omega)
      subst hy
      exact ⟨a, x, c, by simpa using h1, h2, rfl, by simp at hb; omega⟩

theorem findPrev_line (s a b q : Str) (hs : s = a ++ (b ++ q)) (ha : a = [] ∨ ∃ a', a = a' ++ ['\n'])
    (hb : Ascii b) (hn : '\n' ∉ b) :
    ∀ byte, blen a + blen b = byte + 1 → b ≠ [] →
      findPrev s byte = some (if a = [] ∨ a = ['\n'] then none else some (blen a - 1)) := by
  induction b using List.reverseRecOn generalizing q with
  | nil => intro byte h hb; exact absurd rfl hb
  | append_singleton b x ih =>
      intro byte h _
      have hx : x.utf8Size = 1 := hb x (by simp)
      have hxn : x ≠ '\n' := by rintro rfl; exact hn (by simp)
      have hlen : blen (a ++ b) = byte := by simp [hx] at h ⊢; omega
      cases byte with
      | zero =>
          have : a = [] := by
            have : blen a = 0 := by simp at hlen; omega
            exact blen_eq_zero.mp this
          simp [findPrev, this]
      | succ byte =>
          have e : s = (a ++ b) ++ x :: q := by simp [hs]
          rw [findPrev, show byte + 2 = (byte + 1) + 1 by rfl, ← hlen]
          rw [e, slice_one hx]
          simp only [List.cons.injEq, and_true, hxn, if_false]
          rw [← e]
          cases hbb : b with
          | nil =>
              subst hbb
              -- the character before is the newline at the end of `a`
              rcases ha with rfl | ⟨a', rfl⟩
              · simp at hlen
              · have hl : blen a' = byte := by simp at hlen; simpa using hlen
                cases byte with
                | zero =>
                    have : a' = [] := blen_eq_zero.mp hl
                    subst this
                    simp [findPrev]
                | succ k =>
                    have e2 : s = a' ++ '\n' :: (x :: q) := by simp [hs]
                    have ne : ¬ (a' ++ ['\n'] = [] ∨ a' ++ ['\n'] = ['\n']) := by
                      rintro (h | h)
                      · simp at h
                      · have := congrArg List.length h
                        simp at this
                        subst this; simp at hl
                    rw [findPrev, ← hl, show k + 2 = (k + 1) + 1 by rfl, ← hl, e2, slice_one rfl]
                    have : a' ≠ [] := by rintro rfl; simp at hl
                    simp [this]
          | cons y b' =>
              refine ih (x :: q) (by simp [hs]) (fun c hc => hb c (by simp [hc]))
                (fun hc => hn (by simp [hc])) byte (by simp at hlen; omega) (by simp [hbb])

theorem findPrev_inv (s : Str) : ∀ (byte : Nat) (r : Option Nat), 0 < byte →
    findPrev s byte = some r →
    (∃ p q, s = p ++ '\n' :: q ∧ blen p = byte ∧ r = some byte) ∨
    (∃ a b q, s = a ++ (b ++ q) ∧ b ≠ [] ∧ blen a + blen b = byte + 1 ∧ Ascii b ∧ '\n' ∉ b ∧
      (a = [] ∨ ∃ a', a = a' ++ ['\n'])) := by
  intro byte
  induction byte with
  | zero => intro r h; omega
  | succ byte ih =>
      intro r _ h
      rw [findPrev] at h
      cases hsl : slice s (byte + 1) (byte + 2) with
      | none => rw [hsl] at h; simp at h
      | some y =>
          rw [hsl] at h
          obtain ⟨p, x, q, h1, h2, rfl, h4⟩ := slice_one_inv hsl
          by_cases hx : x = '\n'
          · subst hx
            simp at h
            exact .inl ⟨p, q, h1, h2.symm, h.symm⟩
          · right
            simp only [List.cons.injEq, and_true, hx, if_false] at h
            have last : ∀ b : Str, Ascii b → '\n' ∉ b → Ascii (b ++ [x]) ∧ '\n' ∉ b ++ [x] := by
              intro b hb hn
              refine ⟨?_, ?_⟩
              · intro c hc
                rcases List.mem_append.mp hc with hc | hc
                · exact hb c hc
                · simp at hc; rw [hc]; exact h4
              · simp [hn, Ne.symm hx]
            rcases Nat.eq_zero_or_pos byte with h0 | h0
            · -- `p` is the single first character
              subst h0
              obtain ⟨y, rfl, hy⟩ : ∃ y, p = [y] ∧ y.utf8Size = 1 := by
                cases p with
                | nil => simp at h2
                | cons y p =>
                    have := y.utf8Size_pos
                    simp at h2
                    have : p = [] := blen_eq_zero.mp (by omega)
                    subst this
                    exact ⟨y, rfl, by simp at h2; omega⟩
              by_cases hyn : y = '\n'
              · subst hyn
                obtain ⟨l1, l2⟩ := last [] (by intro c hc; simp at hc) (by simp)
                exact ⟨['\n'], [x], q, by simp [h1], by simp, by simp [h4], l1, l2,
                  .inr ⟨[], rfl⟩⟩
              · obtain ⟨l1, l2⟩ := last [y] (by intro c hc; simp at hc; rw [hc]; exact hy)
                  (by simp [Ne.symm hyn])
                exact ⟨[], [y, x], q, by simp [h1], by simp, by simp [hy, h4], l1, l2, .inl rfl⟩
            · rcases ih r h0 h with ⟨p', q', e, hl, -⟩ | ⟨a, b, q', e, hb, hl, ha, hn, hnl⟩
              · -- the line starts here
                have hp : p = p' ++ ['\n'] := by
                  have e1 : s = (p' ++ ['\n']) ++ q' := by simp [e]
                  have hl1 : blen (p' ++ ['\n']) = blen p := by
                    simp [hl, ← h2]
                  have t1 := takeB_append p (x :: q)
                  have t2 := takeB_append (p' ++ ['\n']) q'
                  rw [← h1] at t1
                  rw [← e1, hl1, t1] at t2
                  exact Option.some.inj t2
                obtain ⟨l1, l2⟩ := last [] (by intro c hc; simp at hc) (by simp)
                exact ⟨p, [x], q, by simp [h1], by simp, by simp [h4, ← h2], l1, l2, .inr ⟨p', hp⟩⟩
              · have hp : p = a ++ b := by
                  have e1 : s = (a ++ b) ++ q' := by simp [e]
                  have t1 := takeB_append p (x :: q)
                  have t2 := takeB_append (a ++ b) q'
                  rw [← h1] at t1
                  rw [← e1, show blen (a ++ b) = blen p by simp; omega, t1] at t2
                  exact Option.some.inj t2
                obtain ⟨l1, l2⟩ := last b ha hn
                exact ⟨a, b ++ [x], q, by simp [h1, hp], by simp, by simp [h4]; omega, l1, l2, hnl⟩

theorem findNext_line (w c : Str) (hw : Ascii w) (hn : '\n' ∉ w) (hc : c = [] ∨ ∃ c', c = '\n' :: c') :
    ∀ (p : Str) (fuel : Nat), fuel = blen w + blen c →
      findNext (p ++ (w ++ c)) fuel (blen p) =
        some (if c = [] then none else some (blen p + blen w)) := by
  induction w with
  | nil =>
      intro p fuel hf
      rcases hc with rfl | ⟨c', rfl⟩
      · simp at hf; subst hf; simp [findNext]
      · obtain ⟨f, rfl⟩ : ∃ f, fuel = f + 1 := by
          simp at hf
          have : 0 < '\n'.utf8Size := by decide
          exact ⟨fuel - 1, by omega⟩
        simp only [List.nil_append]
        rw [findNext, slice_one rfl]
        simp
  | cons x w ih =>
      intro p fuel hf
      have hx : x.utf8Size = 1 := hw x (by simp)
      have hxn : x ≠ '\n' := by rintro rfl; exact hn (by simp)
      obtain ⟨f, rfl⟩ : ∃ f, fuel = f + 1 := ⟨fuel - 1, by simp [hx] at hf; omega⟩
      simp only [List.cons_append]
      rw [findNext, slice_one hx]
      simp only [List.cons.injEq, and_true, hxn, if_false]
      have := ih (fun c hc => hw c (by simp [hc])) (fun hc => hn (by simp [hc])) (p ++ [x]) f
        (by simp [hx] at hf; omega)
      simp only [List.append_assoc, List.cons_append, List.nil_append, blen_append, blen_cons,
        blen_nil, hx, Nat.add_zero] at this
      rw [this]
      congr 2
      simp [hx]; omega

theorem findNext_inv (s : Str) : ∀ (fuel byte : Nat) (r : Option Nat), fuel = blen s - byte →
    0 < fuel → findNext s fuel byte = some r →
    ∃ p w c, s = p ++ (w ++ c) ∧ blen p = byte ∧ Ascii w ∧ '\n' ∉ w ∧
      (c = [] ∨ ∃ c', c = '\n' :: c') := by
  intro fuel
  induction fuel with
  | zero => intro byte r _ h; omega
  | succ fuel ih =>
      intro byte r hf _ h
      rw [findNext] at h
      cases hsl : slice s byte (byte + 1) with
      | none => rw [hsl] at h; simp at h
      | some y =>
          rw [hsl] at h
          obtain ⟨p, x, q, h1, h2, rfl, h4⟩ := slice_one_inv hsl
          by_cases hx : x = '\n'
          · subst hx
            exact ⟨p, [], '\n' :: q, by simp [h1], h2.symm, by intro c hc; simp at hc, by simp, .inr ⟨q, rfl⟩⟩
          · simp only [List.cons.injEq, and_true, hx, if_false] at h
            have tail : q = [] ∨ 0 < fuel := by
              rcases Nat.eq_zero_or_pos fuel with h0 | h0
              · left
                apply blen_eq_zero.mp
                rw [h1] at hf; simp [h4] at hf; omega
              · exact .inr h0
            rcases tail with rfl | h0
            · exact ⟨p, [x], [], by simp [h1], h2.symm, by intro c hc; simp at hc; rw [hc]; exact h4,
                by simp [Ne.symm hx], .inl rfl⟩
            · obtain ⟨p', w, c, e, hl, hw, hn, hc⟩ := ih (byte + 1) r (by omega) h0 h
              have hp : p' = p ++ [x] := by
                have t1 := takeB_append (p ++ [x]) q
                have t2 := takeB_append p' (w ++ c)
                rw [List.append_assoc, List.singleton_append, ← h1] at t1
                rw [← e, show blen p' = blen (p ++ [x]) by simp [h4, hl]; omega, t1] at t2
                exact (Option.some.inj t2).symm
              refine ⟨p, x :: w, c, by simp [e, hp], h2.symm, ?_, ?_, hc⟩
              · intro d hd
                rcases List.mem_cons.mp hd with rfl | hd
                · exact h4
                · exact hw d hd
              · simp [hn, Ne.symm hx]


/-- Split an ASCII line at a byte position. -/
theorem ascii_split {l : Str} (h : Ascii l) : ∀ {k : Nat}, k < blen l →
    ∃ u x v, l = u ++ x :: v ∧ blen u = k := by
  induction l with
  | nil => intro k hk; simp at hk
  | cons y l ih =>
      intro k hk
      have hy := h y (by simp)
      cases k with
      | zero => exact ⟨[], y, l, rfl, rfl⟩
      | succ k =>
          obtain ⟨u, x, v, e, hu⟩ := ih (fun c hc => h c (by simp [hc])) (k := k)
            (by simp [hy] at hk; omega)
          exact ⟨y :: u, x, v, by simp [e], by simp [hy, hu]; omega⟩

theorem showNotes_eq (pad : Str) (notes : List Str) :
    showNotes pad notes = notes.flatMap fun n => pad ++ c!" = note: " ++ n := by
  induction notes with
  | nil => rfl
  | cons n ns ih => simp [showNotes, ih]

/-- The two line-boundary scans on a line. -/
theorem scans {s before line after : Str} {byte : Nat} (h : LineOf s byte before line after)
    (ha : Ascii line) :
    ∃ u x v, line = u ++ x :: v ∧ blen before + blen u = byte ∧ x.utf8Size = 1 ∧
      findPrev s byte = some (if before = [] ∨ before = ['\n'] then none else some (blen before - 1)) ∧
      findNext s (blen s - byte) byte = some (if after = [] then none else some (blen before + blen line)) := by
  obtain ⟨hs, hn, hb, haf, h1, h2⟩ := h
  obtain ⟨u, x, v, e, hu⟩ := ascii_split ha (k := byte - blen before) (by omega)
  have hx : x.utf8Size = 1 := ha x (by simp [e])
  refine ⟨u, x, v, e, by omega, hx, ?_, ?_⟩
  · refine findPrev_line s before (u ++ [x]) (v ++ after) (by simp [hs, e]) hb ?_ ?_ byte ?_ (by simp)
    · intro c hc; exact ha c (by rw [e]; simp at hc ⊢; tauto)
    · intro hc; exact hn (by rw [e]; simp at hc ⊢; tauto)
    · simp [hx]; omega
  · have := findNext_line (x :: v) after (fun c hc => ha c (by rw [e]; simp at hc ⊢; tauto))
      (fun hc => hn (by rw [e]; simp at hc ⊢; tauto)) haf (before ++ u) (blen s - byte)
      (by rw [hs, e]; simp [hx]; omega)
    have es : s = (before ++ u) ++ (x :: v ++ after) := by simp [hs, e]
    rw [← es, show blen (before ++ u) = byte by simp; omega] at this
    rw [this]
    congr 2
    rw [e]; simp; omega

/-- What is shown for an error whose byte offset lies on an ASCII line other than the line that
follows a leading newline. -/
theorem C39_snippet [Host] {s before line after fileName : Str} {lineNo byte : Nat} {notes : List Str}
    (h : LineOf s byte before line after) (ha : Ascii line) (hb : before ≠ ['\n']) :
    ∃ shown rest, line = shown ++ rest ∧ blen before + blen shown = byte + 1 ∧
      errorInfo s fileName lineNo byte notes =
        some (snippet fileName line (lineNo + 1) (Host.width shown) notes) := by
  obtain ⟨u, x, v, e, hu, hx, hp, hnx⟩ := scans h ha
  obtain ⟨hs, -, -, haf, -, -⟩ := h
  refine ⟨u ++ [x], v, by simp [e], by simp [hx]; omega, ?_⟩
  have hoff : lineStart (if before = [] ∨ before = ['\n'] then none else some (blen before - 1)) =
      blen before := by
    by_cases h0 : before = []
    · simp [h0, lineStart]
    · have : 0 < blen before := by
        rcases Nat.eq_zero_or_pos (blen before) with h | h
        · exact absurd (blen_eq_zero.mp h) h0
        · exact h
      simp only [h0, hb, or_self, if_false, lineStart]; omega
  have hoff2 : lineEnd s (if after = [] then none else some (blen before + blen line)) = blen before + blen line := by
    by_cases h0 : after = []
    · simp [h0, hs, lineEnd]
    · simp [h0, lineEnd]
  unfold errorInfo
  rw [hp]
  dsimp only
  rw [hnx]
  dsimp only
  rw [hoff, hoff2, slice_eq (a := before) (b := line) (c := after) hs rfl rfl]
  dsimp only
  rw [slice_eq (a := before) (b := u ++ [x]) (c := v ++ after) (by simp [hs, e]) rfl
    (by simp [hx]; omega)]
  dsimp only
  unfold snippet
  cases notes with
  | nil =>
      by_cases hc : 0 < Host.width (u ++ [x])
      · simp [hc]
      · simp [show Host.width (u ++ [x]) = 0 by omega]
  | cons n ns =>
      by_cases hc : 0 < Host.width (u ++ [x])
      · simp [hc, showNotes_eq]
      · simp [show Host.width (u ++ [x]) = 0 by omega, showNotes_eq]

theorem append_blen_inj {a b c d : Str} (h : a ++ b = c ++ d) (hl : blen a = blen c) :
    a = c ∧ b = d := by
  have t1 := takeB_append a b
  have t2 := takeB_append c d
  rw [h, hl, t2] at t1
  have : c = a := Option.some.inj t1
  subst this
  exact ⟨rfl, List.append_cancel_left h⟩

/-- Formatting an error never panics exactly when the error's byte offset is the offset of a byte
of a line made of one-byte characters (or is 0 in a source starting with a newline). -/
theorem C39_exact [Host] {s fileName : Str} {lineNo byte : Nat} {notes : List Str} :
    (errorInfo s fileName lineNo byte notes).isSome ↔
      (byte = 0 ∧ ∃ t, s = '\n' :: t) ∨
      ∃ before line after, LineOf s byte before line after ∧ Ascii line := by
  constructor
  · intro h
    unfold errorInfo at h
    cases hp : findPrev s byte with
    | none => simp [hp] at h
    | some prev =>
    rw [hp] at h
    dsimp only at h
    cases hx : findNext s (blen s - byte) byte with
    | none => simp [hx] at h
    | some next =>
    rw [hx] at h
    dsimp only at h
    rcases Nat.eq_zero_or_pos byte with h0 | h0
    · subst h0
      simp only [findPrev, Option.some.injEq] at hp
      subst hp
      rcases Nat.eq_zero_or_pos (blen s - 0) with hl | hl
      · have : s = [] := blen_eq_zero.mp (by omega)
        subst this
        rw [show blen [] - 0 = 0 from rfl] at hx
        simp [findNext] at hx
        subst hx
        simp [slice, takeB, lineStart, lineEnd] at h
      · obtain ⟨p, w, c, e, hpl, hw, hn, hc⟩ := findNext_inv s _ 0 next rfl hl hx
        have : p = [] := blen_eq_zero.mp hpl
        subst this
        cases w with
        | nil =>
            rcases hc with rfl | ⟨c', rfl⟩
            · simp at e; subst e; simp at hl
            · exact .inl ⟨rfl, c', by simpa using e⟩
        | cons y w =>
            refine .inr ⟨[], y :: w, c, ⟨by simpa using e, hn, .inl rfl, hc, by simp, ?_⟩, hw⟩
            have := y.utf8Size_pos
            simp; omega
    · right
      have hlt : byte < blen s := by
        cases byte with
        | zero => omega
        | succ b =>
            rw [findPrev] at hp
            cases hsl : slice s (b + 1) (b + 2) with
            | none => rw [hsl] at hp; simp at hp
            | some y =>
                obtain ⟨p, x, q, h1, h2, -, h4⟩ := slice_one_inv hsl
                rw [h1, h2]; simp; omega
      obtain ⟨p, w, c, e2, hpl, hw, hn2, hc⟩ := findNext_inv s _ byte next rfl (by omega) hx
      rcases findPrev_inv s byte prev h0 hp with ⟨p', q, e, hl, rfl⟩ | ⟨a, b, q, e, hb, hl, hab, hn, hnl⟩
      · -- on a newline: the first slice is out of order
        exfalso
        obtain ⟨rfl, -⟩ := append_blen_inj (e.symm.trans e2) (by omega)
        have : next = some byte := by
          have : blen s - byte = (blen s - byte - 1) + 1 := by omega
          rw [this, findNext, ← hl] at hx
          rw [show slice s (blen p') (blen p' + 1) = some ['\n'] from by rw [e]; exact slice_one rfl] at hx
          simp at hx
          rw [← hx, hl]
        subst this
        have hno : slice s (lineStart (some byte)) (lineEnd s (some byte)) = none := by
          simp only [slice, lineStart, lineEnd]
          exact if_neg (by omega)
        rw [hno] at h
        simp at h
      · have hbx : ∃ b' x, b = b' ++ [x] := by
          rcases List.eq_nil_or_concat b with h | ⟨b', x, h⟩
          · exact absurd h hb
          · exact ⟨b', x, by simpa using h⟩
        obtain ⟨b', x, rfl⟩ := hbx
        have hx1 : x.utf8Size = 1 := hab x (by simp)
        obtain ⟨rfl, e3⟩ := append_blen_inj (a := a ++ b') (b := x :: q) (c := p) (d := w ++ c)
          (by rw [← e2, e]; simp) (by simp [hx1] at hl ⊢; omega)
        have hxn : x ≠ '\n' := by rintro rfl; exact hn (by simp)
        cases w with
        | nil =>
            rcases hc with rfl | ⟨c', rfl⟩
            · simp at e3
            · simp at e3; exact absurd e3.1 hxn
        | cons y w =>
            simp at e3
            obtain ⟨rfl, rfl⟩ := e3
            refine ⟨a, b' ++ (x :: w), c, ⟨by simp [e2], ?_, hnl, hc, ?_, ?_⟩, ?_⟩
            · intro hm
              rcases List.mem_append.mp hm with hm | hm
              · exact hn (by simp [hm])
              · exact hn2 hm
            · simp at hl hpl; omega
            · simp [hx1] at hl hpl ⊢; omega
            · intro d hd
              rcases List.mem_append.mp hd with hd | hd
              · exact hab d (by simp [hd])
              · exact hw d hd
  · rintro (⟨rfl, t, rfl⟩ | ⟨before, line, after, h, ha⟩)
    · unfold errorInfo
      simp only [findPrev]
      rw [show blen ('\n' :: t) - 0 = blen t + 1 by simp; omega, findNext,
        show slice ('\n' :: t) 0 (0 + 1) = some ['\n'] from slice_one (p := []) (q := t) rfl]
      simp [slice, takeB, lineStart, lineEnd]
    · by_cases hb : before = ['\n']
      · subst hb
        obtain ⟨u, x, v, e, hu, hx, hp, hnx⟩ := scans h ha
        obtain ⟨hs, -, -, haf, -, -⟩ := h
        have hoff2 : lineEnd s (if after = [] then none else some (blen ['\n'] + blen line)) = blen ['\n'] + blen line := by
          by_cases h0 : after = []
          · simp [h0, hs, lineEnd]
          · simp [h0, lineEnd]
        unfold errorInfo
        rw [hp]
        dsimp only
        rw [hnx]
        dsimp only
        rw [hoff2]
        simp only [or_true, if_true, lineStart]
        rw [show slice s 0 (blen ['\n'] + blen line) = some ('\n' :: line) from
          slice_eq (a := []) (c := after) (by simp [hs]) rfl (by simp)]
        dsimp only
        rw [show slice s 0 (0 + (byte - 0 + 1)) = some ('\n' :: (u ++ [x])) from
          slice_eq (a := []) (c := v ++ after) (by simp [hs, e]) rfl
            (by simp [hx] at hu ⊢; omega)]
        simp
      · obtain ⟨_, _, -, -, e⟩ := C39_snippet (fileName := fileName) (lineNo := lineNo) (notes := notes) h ha hb
        rw [e]; rfl

/-- Consequences: what makes the formatting panic. -/
theorem C39_panics [Host] {s fileName : Str} {lineNo byte : Nat} {notes : List Str}
    (h : blen s ≤ byte ∨ (0 < byte ∧ slice s byte (byte + 1) = some ['\n'])) :
    errorInfo s fileName lineNo byte notes = none := by
  have : ¬ (errorInfo s fileName lineNo byte notes).isSome := by
    rw [C39_exact]
    rintro (⟨rfl, t, rfl⟩ | ⟨before, line, after, ⟨hs, hn, -, -, h1, h2⟩, ha⟩)
    · simp at h
    · rcases h with h | ⟨-, h⟩
      · rw [hs] at h; simp at h; omega
      · obtain ⟨u, x, v, e, hu⟩ := ascii_split ha (k := byte - blen before) (by omega)
        have hx : x.utf8Size = 1 := ha x (by simp [e])
        rw [slice_eq (a := before ++ u) (b := [x]) (c := v ++ after) (by simp [hs, e])
          (by simp; omega) (by simp [hx]; omega)] at h
        simp at h
        subst h
        exact hn (by simp [e])
  cases he : errorInfo s fileName lineNo byte notes with
  | none => rfl
  | some x => rw [he] at this; simp at this

section Examples
attribute [local instance] exHost

/-- A line in the middle of a source. -/
example : LineOf c!"ab\ncde\nf" 4 c!"ab\n" c!"cde" c!"\nf" ∧ Ascii c!"cde" ∧ c!"ab\n" ≠ ['\n'] := by
  refine ⟨⟨rfl, by decide, .inr ⟨c!"ab", rfl⟩, .inr ⟨c!"f", rfl⟩, by decide, by decide⟩, ?_, by decide⟩
  intro c hc
  simp at hc
  rcases hc with rfl | rfl | rfl <;> rfl

/-- C39: the failing cases do occur: an error located at the end of the source, on a newline, or on a line
with a non-ASCII character cannot be formatted. -/
theorem C39_fails :
    errorInfo c!"{{foo" c!"t.md" 0 5 [] = none ∧
    errorInfo c!"a\nb" c!"t.md" 0 1 [] = none ∧
    errorInfo c!"é{{#}}" c!"t.md" 0 4 [] = none := by
  refine ⟨rfl, rfl, rfl⟩

end Examples

end Bracket.Props
