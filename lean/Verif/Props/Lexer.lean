import Verif.Spec.Lexer
import Verif.Lemmas.Basic

/-! C01, C02, C55: lexing. -/

namespace Bracket.Props
open Spec

/-! ### Token lengths -/

theorem longestAux_bound (s : Str) : ∀ (r : Re) (pos : Nat) (best : Option Nat) (n : Nat),
    Re.longestAux s r pos best = some n → best = some n ∨ (pos < n ∧ n ≤ pos + s.length) := by
  induction s with
  | nil => intro r pos best n h; left; simpa [Re.longestAux] using h
  | cons c s ih =>
      intro r pos best n h
      simp only [Re.longestAux] at h
      split at h
      · exact .inl h
      · rcases ih _ _ _ _ h with h' | h'
        · split at h'
          · right; simp at h'; simp; omega
          · exact .inl h'
        · right; simp; omega

theorem longest_bound {r : Re} {s : Str} {n : Nat} (h : Re.longest r s = some n) :
    0 < n ∧ n ≤ s.length := by
  rcases longestAux_bound s r 0 none n h with h | h
  · cases h
  · omega

theorem pick_bound (s : Str) (rs : List Rule) : ∀ (best : Cand) (n p : Nat) (k : Kind),
    (∀ n p k, best = some (n, p, k) → 0 < n ∧ n ≤ s.length) →
    pick s rs best = some (n, p, k) → 0 < n ∧ n ≤ s.length := by
  induction rs with
  | nil => intro best n p k hb h; exact hb n p k h
  | cons r rs ih =>
      obtain ⟨re, pr, kk⟩ := r
      intro best n p k hb h
      simp only [pick] at h
      cases hl : Re.longest re s with
      | none => rw [hl] at h; exact ih best n p k hb h
      | some m =>
          rw [hl] at h
          refine ih _ n p k ?_ h
          intro n' p' k' h'
          cases best with
          | none => simp [better] at h'; obtain ⟨rfl, -, -⟩ := h'; exact longest_bound hl
          | some b =>
              obtain ⟨n0, p0, k0⟩ := b
              simp only [better] at h'
              split at h'
              · simp at h'; obtain ⟨rfl, -, -⟩ := h'; exact longest_bound hl
              · simp at h'; obtain ⟨rfl, rfl, rfl⟩ := h'; exact hb _ _ _ rfl

/-- A token takes at least one character and no more than there are. -/
theorem nextTok_bound (m : Mode) (s : Str) (h : s ≠ []) :
    0 < (nextTok m s).2 ∧ (nextTok m s).2 ≤ s.length := by
  unfold nextTok
  split
  · rename_i n p k hp
    exact pick_bound s (rules m) none n p k (by simp) hp
  · have : 0 < s.length := List.length_pos_iff.mpr h
    simp; omega

theorem lexAux_tiles (fuel : Nat) : ∀ (m : Mode) (off : Nat) (s : Str), s.length ≤ fuel →
    Tiles off s (lexAux fuel m off s) := by
  induction fuel with
  | zero =>
      intro m off s h
      have : s = [] := List.length_eq_zero_iff.mp (by omega)
      subst this; exact .nil
  | succ fuel ih =>
      intro m off s h
      cases s with
      | nil => exact .nil
      | cons c cs =>
          obtain ⟨h1, h2⟩ := nextTok_bound m (c :: cs) (by simp)
          simp only [lexAux]
          generalize (nextTok m (c :: cs)).2 = n at *
          generalize (nextTok m (c :: cs)).1 = k at *
          have e : (c :: cs) = (c :: cs).take n ++ (c :: cs).drop n := (List.take_append_drop _ _).symm
          have := Tiles.cons (off := off) (w := (c :: cs).take n) (r := (c :: cs).drop n) (k := k)
            (ts := lexAux fuel (nextMode m k) (off + blen ((c :: cs).take n)) ((c :: cs).drop n))
            (by
              intro h0
              have := congrArg List.length h0
              simp at this; omega)
            (ih _ _ _ (by simp only [List.length_drop, List.length_cons] at *; omega))
          rw [← e] at this
          exact this

/-- C01: the tokens of any source tile it. -/
theorem C01_tiles (src : Str) : Tiles 0 src (lex src) := lexAux_tiles _ _ _ _ (Nat.le_refl _)

/-- Tiles of a suffix of the source are sliced back out of the source. -/
theorem tiles_slices {pre s : Str} {ts : List Token} (h : Tiles (blen pre) s ts) :
    ∃ ws, ts.mapM (fun t => slice (pre ++ s) t.span.start t.span.stop) = some ws ∧
      ws.flatten = s ∧ ∀ w ∈ ws, w ≠ [] := by
  generalize ho : blen pre = off at h
  induction h generalizing pre with
  | nil => exact ⟨[], by simp⟩
  | @cons off w r k ts hw h ih =>
      obtain ⟨ws, h1, h2, h3⟩ := ih (pre := pre ++ w) (by simp [ho])
      rw [List.append_assoc] at h1
      refine ⟨w :: ws, ?_, by simp [h2], by simpa [hw] using h3⟩
      have hs : slice (pre ++ (w ++ r)) off (off + blen w) = some w := by
        rw [← ho]; exact slice_append pre w r
      simp [List.mapM_cons, hs, h1]

/-- C01: every token of any source slices out of the source without a panic, no piece is
empty, and together they are the source. -/
theorem C01_lossless (src : Str) :
    ∃ ws, (lex src).mapM (fun t => slice src t.span.start t.span.stop) = some ws ∧
      ws.flatten = src ∧ ∀ w ∈ ws, w ≠ [] := by
  simpa using tiles_slices (pre := []) (C01_tiles src)

/-- The same for a source lexed as parameters, as `evaluate` does. -/
theorem C01_params_tiles (src : Str) : Tiles 0 src (lexParams src) :=
  lexAux_tiles _ _ _ _ (Nat.le_refl _)

/-! ### C02 -/

theorem normalizeAux_tiles (ts : List Token) :
    (∀ off s, Tiles off s ts → Tiles off s (normalizeAux ts none)) ∧
    (∀ off w s, w ≠ [] → Tiles (off + blen w) s ts →
      Tiles off (w ++ s) (normalizeAux ts (some ⟨off, off + blen w⟩))) := by
  induction ts with
  | nil =>
      constructor
      · intro off s h; exact h
      · intro off w s hw h
        cases h
        have := Tiles.cons (off := off) (w := w) (r := []) (k := .block .text) hw .nil
        simpa [normalizeAux] using this
  | cons t ts ih =>
      obtain ⟨ih1, ih2⟩ := ih
      constructor
      · intro off s h
        cases h with
        | @cons _ w r k _ hw h =>
            simp only [normalizeAux]
            split
            · exact ih2 _ _ _ hw h
            · exact .cons hw (ih1 _ _ h)
      · intro off w s hw h
        cases h with
        | @cons _ w' r k _ hw' h =>
            simp only [normalizeAux]
            split
            · have := ih2 off (w ++ w') r (by simp [hw]) (by simpa [Nat.add_assoc] using h)
              simpa [Nat.add_assoc] using this
            · exact .cons hw (.cons hw' (ih1 _ _ h))

theorem normalizeAux_adjacent (ts : List Token) :
    NoAdjacentText (normalizeAux ts none) ∧
    ∀ sp, ∃ r, normalizeAux ts (some sp) = ⟨.block .text, ⟨sp.start, r⟩⟩ ::
        (normalizeAux ts (some sp)).tail ∧ NoAdjacentText (normalizeAux ts (some sp)) := by
  induction ts with
  | nil => exact ⟨trivial, fun sp => ⟨sp.stop, rfl, trivial⟩⟩
  | cons t ts ih =>
      obtain ⟨ih1, ih2⟩ := ih
      have nt : ∀ t : Token, t.isText = false → NoAdjacentText (t :: normalizeAux ts none) := by
        intro t ht
        cases h : normalizeAux ts none with
        | nil => trivial
        | cons b r => rw [h] at ih1; exact ⟨by simp [ht], ih1⟩
      constructor
      · simp only [normalizeAux]
        split
        · exact (ih2 t.span).choose_spec.2
        · rename_i h; exact nt t (by simpa using h)
      · intro sp
        simp only [normalizeAux]
        split
        · exact ih2 ⟨sp.start, t.span.stop⟩
        · rename_i h
          refine ⟨sp.stop, rfl, ⟨by simp [h], nt t (by simpa using h)⟩⟩

theorem normalizeAux_filter (ts : List Token) : ∀ p,
    (normalizeAux ts p).filter (fun t => !t.isText) = ts.filter (fun t => !t.isText) := by
  have tx : ∀ sp, (Token.isText ⟨.block .text, sp⟩) = true := fun _ => rfl
  induction ts with
  | nil => intro p; cases p <;> simp [normalizeAux, tx]
  | cons t ts ih =>
      intro p
      cases h : t.isText <;> cases p <;> simp [normalizeAux, h, ih, tx]

/-- C02: `collect` with normalisation tiles the source as well, never yields two adjacent
text tokens, and keeps the other tokens and their spans unchanged and in order. -/
theorem C02_normalized (src : Str) :
    Tiles 0 src (collect src true) ∧ NoAdjacentText (collect src true) ∧
    (collect src true).filter (fun t => !t.isText) = (lex src).filter (fun t => !t.isText) ∧
    collect src false = lex src :=
  ⟨(normalizeAux_tiles (lex src)).1 0 src (C01_tiles src), (normalizeAux_adjacent (lex src)).1,
    normalizeAux_filter (lex src) none, rfl⟩

example : (collect c!"ab{{x}}c\nd" true).map (·.kind) =
    [.block .text, .block .startStatement, .params .identifier, .params .fin, .block .text] := by
  decide +kernel

/-! ### C55: maximal munch -/

theorem matches_empty {s : Str} : ¬ Matches .empty s := by intro h; cases h

theorem nullable_iff (r : Re) : r.nullable = true ↔ Matches r [] := by
  induction r with
  | empty => simp [Re.nullable, matches_empty]
  | eps => simp [Re.nullable]; exact .eps
  | cls p => simp [Re.nullable]; intro h; cases h
  | seq a b iha ihb =>
      simp only [Re.nullable, Bool.and_eq_true, iha, ihb]
      constructor
      · rintro ⟨h1, h2⟩; exact Matches.seq (u := []) (v := []) h1 h2
      · intro h
        generalize hw : ([] : Str) = w at h
        cases h with
        | seq ha hb =>
            obtain ⟨rfl, rfl⟩ := List.append_eq_nil_iff.mp hw.symm
            exact ⟨ha, hb⟩
  | alt a b iha ihb =>
      simp only [Re.nullable, Bool.or_eq_true, iha, ihb]
      constructor
      · rintro (h | h)
        · exact .left h
        · exact .right h
      · intro h; cases h with
        | left h => exact .inl h
        | right h => exact .inr h
  | star a _ => simp [Re.nullable]; exact .done

theorem mkSeq_iff (a b : Re) (s : Str) : Matches (Re.mkSeq a b) s ↔ Matches (.seq a b) s := by
  cases a <;> simp only [Re.mkSeq]
  · simp only [matches_empty, false_iff]
    intro h; cases h with | seq ha _ => exact matches_empty ha
  · constructor
    · intro h; exact Matches.seq (u := []) .eps h
    · intro h; cases h with | seq ha hb => cases ha; exact hb

theorem mkAlt_iff (a b : Re) (s : Str) : Matches (Re.mkAlt a b) s ↔ Matches a s ∨ Matches b s := by
  have alt : Matches (.alt a b) s ↔ Matches a s ∨ Matches b s :=
    ⟨fun h => by cases h with | left h => exact .inl h | right h => exact .inr h,
      fun h => h.elim .left .right⟩
  cases a <;> cases b <;> simp_all [Re.mkAlt, matches_empty]

theorem star_cons {a : Re} {c : Char} {s : Str} (h : Matches (.star a) (c :: s)) :
    ∃ u v, s = u ++ v ∧ Matches a (c :: u) ∧ Matches (.star a) v := by
  generalize hr : Re.star a = r at h
  generalize hw : c :: s = w at h
  induction h with
  | done => cases hw
  | @more a' u v hu hv _ ih =>
      cases hr
      cases u with
      | nil => exact ih rfl (by simpa using hw)
      | cons d u =>
          simp only [List.cons_append, List.cons.injEq] at hw
          obtain ⟨rfl, rfl⟩ := hw
          exact ⟨u, v, rfl, hu, hv⟩
  | _ => cases hr

theorem deriv_iff (c : Char) (r : Re) (s : Str) : Matches (r.deriv c) s ↔ Matches r (c :: s) := by
  induction r generalizing s with
  | empty => simp [Re.deriv, matches_empty]
  | eps => simp [Re.deriv, matches_empty]; intro h; cases h
  | cls p =>
      simp only [Re.deriv]
      split
      · rename_i h
        constructor
        · intro h'; cases h'; exact .cls h
        · intro h'; cases h'; exact .eps
      · rename_i h
        simp only [matches_empty, false_iff]
        intro h'; cases h'; contradiction
  | seq a b iha ihb =>
      have split1 : Matches (.seq a b) (c :: s) ↔
          (∃ u v, s = u ++ v ∧ Matches a (c :: u) ∧ Matches b v) ∨
            (Matches a [] ∧ Matches b (c :: s)) := by
        constructor
        · intro h
          generalize hw : c :: s = w at h
          cases h with
          | @seq _ _ u v ha hb =>
              cases u with
              | nil => right; simp only [List.nil_append] at hw; exact ⟨ha, hw ▸ hb⟩
              | cons d u =>
                  simp only [List.cons_append, List.cons.injEq] at hw
                  obtain ⟨rfl, rfl⟩ := hw
                  exact .inl ⟨u, v, rfl, ha, hb⟩
        · rintro (⟨u, v, rfl, ha, hb⟩ | ⟨ha, hb⟩)
          · exact Matches.seq (u := c :: u) ha hb
          · exact Matches.seq (u := []) ha hb
      have inner : Matches (Re.mkSeq (a.deriv c) b) s ↔
          ∃ u v, s = u ++ v ∧ Matches a (c :: u) ∧ Matches b v := by
        rw [mkSeq_iff]
        constructor
        · intro h; cases h with
          | seq ha hb => exact ⟨_, _, rfl, (iha _).mp ha, hb⟩
        · rintro ⟨u, v, rfl, ha, hb⟩; exact .seq ((iha _).mpr ha) hb
      simp only [Re.deriv]
      split
      · rename_i h
        rw [mkAlt_iff, inner, ihb, split1, ← nullable_iff]
        simp [h]
      · rename_i h
        rw [inner, split1, ← nullable_iff]
        simp [h]
  | alt a b iha ihb =>
      simp only [Re.deriv, mkAlt_iff, iha, ihb]
      exact ⟨fun h => h.elim .left .right,
        fun h => by cases h with | left h => exact .inl h | right h => exact .inr h⟩
  | star a ih =>
      simp only [Re.deriv, mkSeq_iff]
      constructor
      · intro h; cases h with
        | seq ha hb => exact Matches.more (u := c :: _) ((ih _).mp ha) hb
      · intro h
        obtain ⟨u, v, rfl, hu, hv⟩ := star_cons h
        exact .seq ((ih _).mpr hu) hv

/-- The scan finds the longest matching prefix. -/
theorem longestAux_spec (s : Str) : ∀ (r : Re) (pos : Nat) (best : Option Nat),
    (∃ n, Re.longestAux s r pos best = some (pos + n) ∧ 0 < n ∧ n ≤ s.length ∧
        Matches r (s.take n) ∧ ∀ m, n < m → m ≤ s.length → ¬ Matches r (s.take m)) ∨
    (Re.longestAux s r pos best = best ∧ ∀ m, 0 < m → m ≤ s.length → ¬ Matches r (s.take m)) := by
  induction s with
  | nil => intro r pos best; right; exact ⟨rfl, by intro m h1 h2; simp at h2; omega⟩
  | cons c s ih =>
      intro r pos best
      simp only [Re.longestAux]
      split
      · rename_i h
        right
        refine ⟨rfl, ?_⟩
        intro m h1 _
        obtain ⟨k, rfl⟩ : ∃ k, m = k + 1 := ⟨m - 1, by omega⟩
        rw [List.take_succ_cons, ← deriv_iff]
        have : r.deriv c = .empty := by
          revert h; cases r.deriv c <;> simp [Re.isEmpty]
        rw [this]; exact matches_empty
      · rcases ih (r.deriv c) (pos + 1) (if (r.deriv c).nullable = true then some (pos + 1) else best)
          with ⟨n, h1, h2, h3, h4, h5⟩ | ⟨h1, h2⟩
        · left
          refine ⟨n + 1, by rw [h1]; congr 1; omega, by omega, by simp; omega, ?_, ?_⟩
          · rw [List.take_succ_cons, ← deriv_iff]; exact h4
          · intro m hm hm2
            obtain ⟨k, rfl⟩ : ∃ k, m = k + 1 := ⟨m - 1, by omega⟩
            rw [List.take_succ_cons, ← deriv_iff]
            exact h5 k (by omega) (by simpa using hm2)
        · have no : ∀ m, 1 < m → m ≤ (c :: s).length → ¬ Matches r ((c :: s).take m) := by
            intro m hm hm2
            obtain ⟨k, rfl⟩ : ∃ k, m = k + 1 := ⟨m - 1, by omega⟩
            rw [List.take_succ_cons, ← deriv_iff]
            exact h2 k (by omega) (by simpa using hm2)
          have one : Matches r ((c :: s).take 1) ↔ (r.deriv c).nullable = true := by
            rw [nullable_iff, deriv_iff]; simp
          rw [h1]
          cases hn : (r.deriv c).nullable with
          | true =>
              left
              exact ⟨1, by simp, by omega, by simp, one.mpr hn, no⟩
          | false =>
              right
              refine ⟨by simp, ?_⟩
              intro m h0 hm
              rcases Nat.lt_or_ge 1 m with h | h
              · exact no m h hm
              · have : m = 1 := by omega
                subst this
                rw [one, hn]; simp

theorem longest_spec (r : Re) (s : Str) :
    (∃ n, Re.longest r s = some n ∧ 0 < n ∧ n ≤ s.length ∧ Matches r (s.take n) ∧
        ∀ m, n < m → m ≤ s.length → ¬ Matches r (s.take m)) ∨
    (Re.longest r s = none ∧ ∀ m, 0 < m → m ≤ s.length → ¬ Matches r (s.take m)) := by
  rcases longestAux_spec s r 0 none with ⟨n, h, h'⟩ | h
  · exact .inl ⟨n, by simpa [Re.longest] using h, h'⟩
  · exact .inr h

/-- The best candidate over a list of rules, starting from another candidate. -/
theorem pick_spec (s : Str) (rs : List Rule) : ∀ (best : Cand),
    (pick s rs best = best ∨ ∃ n p k, pick s rs best = some (n, p, k) ∧ RuleAt rs s n p k) ∧
    (∀ n p k, RuleAt rs s n p k → ∃ n' p' k', pick s rs best = some (n', p', k') ∧
        (n < n' ∨ (n = n' ∧ p ≤ p'))) ∧
    (∀ n p k, best = some (n, p, k) → ∃ n' p' k', pick s rs best = some (n', p', k') ∧
        (n < n' ∨ (n = n' ∧ p ≤ p'))) := by
  induction rs with
  | nil =>
      intro best
      refine ⟨.inl rfl, ?_, ?_⟩
      · rintro n p k ⟨_, _, re, h, _⟩; cases h
      · rintro n p k rfl; exact ⟨n, p, k, rfl, .inr ⟨rfl, Nat.le_refl _⟩⟩
  | cons r rs ih =>
      obtain ⟨re, pr, kk⟩ := r
      intro best
      have up : ∀ n p k, RuleAt rs s n p k → RuleAt ((re, pr, kk) :: rs) s n p k := by
        rintro n p k ⟨h1, h2, re', h3, h4⟩
        exact ⟨h1, h2, re', List.mem_cons_of_mem _ h3, h4⟩
      simp only [pick]
      rcases longest_spec re s with ⟨m, hm, m1, m2, m3, m4⟩ | ⟨hm, hno⟩
      · rw [hm]
        dsimp only
        have hrule : RuleAt ((re, pr, kk) :: rs) s m pr kk := ⟨m1, m2, re, by simp, m3⟩
        obtain ⟨i1, i2, i3⟩ := ih (better best m pr kk)
        -- the new candidate is at least as good as both
        have hb : ∃ n p k, better best m pr kk = some (n, p, k) ∧ (m < n ∨ (m = n ∧ pr ≤ p)) ∧
            (∀ n0 p0 k0, best = some (n0, p0, k0) → n0 < n ∨ (n0 = n ∧ p0 ≤ p)) ∧
            (better best m pr kk = best ∨ (n = m ∧ p = pr ∧ k = kk)) := by
          cases best with
          | none => exact ⟨m, pr, kk, rfl, by omega, by simp, .inr ⟨rfl, rfl, rfl⟩⟩
          | some b =>
              obtain ⟨n0, p0, k0⟩ := b
              simp only [better]
              split
              · refine ⟨m, pr, kk, rfl, by omega, ?_, .inr ⟨rfl, rfl, rfl⟩⟩
                intro a b c h; simp at h; omega
              · refine ⟨n0, p0, k0, rfl, by omega, ?_, .inl rfl⟩
                intro a b c h; simp at h; omega
        obtain ⟨n, p, k, hbe, hb1, hb2, hb3⟩ := hb
        refine ⟨?_, ?_, ?_⟩
        · rcases i1 with h | ⟨n', p', k', h, hr⟩
          · rw [h]
            rcases hb3 with h' | ⟨rfl, rfl, rfl⟩
            · exact .inl h'
            · exact .inr ⟨_, _, _, hbe, hrule⟩
          · exact .inr ⟨n', p', k', h, up _ _ _ hr⟩
        · rintro n1 p1 k1 ⟨h1, h2, re', h3, h4⟩
          rcases List.mem_cons.mp h3 with h3 | h3
          · simp only [Prod.mk.injEq] at h3
            obtain ⟨rfl, rfl, rfl⟩ := h3
            obtain ⟨n', p', k', e, hle⟩ := i3 n p k hbe
            have : n1 ≤ m := Nat.le_of_not_lt fun hlt => m4 n1 hlt h2 h4
            exact ⟨n', p', k', e, by omega⟩
          · exact i2 n1 p1 k1 ⟨h1, h2, re', h3, h4⟩
        · intro n0 p0 k0 h0
          obtain ⟨n', p', k', e, hle⟩ := i3 n p k hbe
          have := hb2 n0 p0 k0 h0
          exact ⟨n', p', k', e, by omega⟩
      · rw [hm]
        obtain ⟨i1, i2, i3⟩ := ih best
        refine ⟨?_, ?_, i3⟩
        · rcases i1 with h | ⟨n', p', k', h, hr⟩
          · exact .inl h
          · exact .inr ⟨n', p', k', h, up _ _ _ hr⟩
        · rintro n1 p1 k1 ⟨h1, h2, re', h3, h4⟩
          rcases List.mem_cons.mp h3 with h3 | h3
          · simp only [Prod.mk.injEq] at h3
            obtain ⟨rfl, rfl, rfl⟩ := h3
            exact absurd h4 (hno n1 h1 h2)
          · exact i2 n1 p1 k1 ⟨h1, h2, re', h3, h4⟩

/-- C55: a token is a longest match among the patterns of its mode, of the highest
priority at that length; it is an error token of one character when, and only when, no
pattern matches. -/
theorem C55_maximal_munch (m : Mode) (s : Str) :
    ((∃ p, RuleAt (rules m) s (nextTok m s).2 p (nextTok m s).1 ∧
        ∀ n' p' k', RuleAt (rules m) s n' p' k' →
          n' < (nextTok m s).2 ∨ (n' = (nextTok m s).2 ∧ p' ≤ p)) ∨
     ((∀ n' p' k', ¬ RuleAt (rules m) s n' p' k') ∧ nextTok m s = (errorKind m, 1))) := by
  obtain ⟨h1, h2, _⟩ := pick_spec s (rules m) none
  unfold nextTok
  rcases h1 with h | ⟨n, p, k, h, hr⟩
  · right
    rw [h]
    refine ⟨?_, rfl⟩
    intro n' p' k' hr
    obtain ⟨a, b, c, e, -⟩ := h2 n' p' k' hr
    rw [h] at e; cases e
  · left
    rw [h]
    refine ⟨p, hr, ?_⟩
    intro n' p' k' hr'
    obtain ⟨a, b, c, e, hle⟩ := h2 n' p' k' hr'
    rw [h] at e
    simp only [Option.some.injEq, Prod.mk.injEq] at e
    obtain ⟨rfl, rfl, rfl⟩ := e
    exact hle

example : nextTok .params c!"elsewhere x" = (.params .identifier, 9) := by decide +kernel
example : nextTok .params c!"else x" = (.params .elseKeyword, 4) := by decide +kernel

end Bracket.Props
