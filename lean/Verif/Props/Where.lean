import Verif.Lemmas.TreeWF
import Verif.Props.Tree
import Verif.Props.Lexer
import Verif.Lemmas.ExHost

/-! C88: where a syntax error is shown. -/

namespace Bracket.Props
open Bracket Re Spec

namespace Where

theorem starts {off : Nat} {s : Str} {ts : List Token} (h : Tiles off s ts) : ∀ t ∈ ts, off ≤ t.span.start := by
  induction h with
  | nil => simp
  | cons hw h ih =>
      intro t ht
      rcases List.mem_cons.1 ht with rfl | ht
      · exact Nat.le_refl _
      · have := ih t ht; omega

theorem sorted {off : Nat} {s : Str} {ts : List Token} (h : Tiles off s ts) : ∀ l r, ts = l ++ r → ∀ x ∈ l, ∀ y ∈ r, x.span.start ≤ y.span.start := by
  induction h with
  | nil => intro l r e; simp at e; obtain ⟨rfl, rfl⟩ := e; simp
  | @cons off w r' k ts hw h ih =>
      intro l r e x hx y hy
      cases l with
      | nil => cases hx
      | cons a l =>
          simp only [List.cons_append, List.cons.injEq] at e
          obtain ⟨rfl, e⟩ := e
          rcases List.mem_cons.1 hx with rfl | hx
          · have := starts h y (by rw [e]; simp [hy]); simp only; omega
          · exact ih l r e x hx y hy

theorem tagFrom {src : Str} {a stop : Nat} {rest : List Token} (h : Anchor (lex src) a rest) (hs : StartsAt src rest stop) : TagFrom src a stop := by
  obtain ⟨l, op, mid, e, h1, h2, h3⟩ := h
  have ht := C01_tiles src
  refine ⟨⟨op, by rw [e]; simp, h1, h3⟩, ?_⟩
  intro t hm htag
  rw [e] at hm
  simp only [List.mem_append, List.mem_cons] at hm
  rcases hm with hm | rfl | hm | hm
  · exact .inl (by rw [← h3]; exact sorted ht l _ e t hm op (by simp))
  · exact .inl (by omega)
  · have := h2 t hm
    revert this htag
    generalize t.kind = k
    cases k <;> simp [inCall, isTag]
  · refine .inr ?_
    cases rest with
    | nil => cases hm
    | cons x xs =>
        have hs : x.span.start = stop := hs
        rw [← hs]
        rcases List.mem_cons.1 hm with rfl | hm
        · exact Nat.le_refl _
        · exact sorted ht (l ++ op :: (mid ++ [x])) xs (by rw [e]; simp) x (by simp) t hm

theorem stop_le {src : Str} {stop : Nat} {rest : List Token} (h : rest <:+ lex src) (hs : StartsAt src rest stop) : stop ≤ blen src := by
  cases rest with
  | nil => exact Nat.le_of_eq hs
  | cons x xs =>
      have hs : x.span.start = stop := hs
      rw [← hs]
      have : ∀ {off : Nat} {s : Str} {ts : List Token}, Tiles off s ts → ∀ t ∈ ts, t.span.start ≤ off + blen s := by
        intro off s ts h
        induction h with
        | nil => simp
        | cons hw h ih =>
            intro t ht
            rcases List.mem_cons.1 ht with rfl | ht
            · exact Nat.le_add_right _ _
            · have := ih t ht; rw [blen_append]; omega
      have := this (C01_tiles src) x (h.subset (by simp))
      omega

/-- Where the lexer is in the middle of its tokens. -/
theorem rest_at {src : Str} : ∀ (l r : List Token) {m : Mode} {off : Nat}, Bracket.Rest src m off (l ++ r) → ∃ m' off', Bracket.Rest src m' off' r := by
  intro l
  induction l with
  | nil => intro r m off h; exact ⟨m, off, h⟩
  | cons t l ih =>
      intro r m off h
      obtain ⟨w, -, h'⟩ := h.cons
      exact ih r h'

theorem rest_lex (src : Str) : Bracket.Rest src .block 0 (lex src) := ⟨[], src, rfl, rfl, rfl⟩

theorem token {src : Str} {t : Token} (h : t ∈ lex src) : ∃ m off w, TokAt src m off t w := by
  obtain ⟨l, r, e⟩ := List.append_of_mem h
  have := rest_lex src
  rw [e] at this
  obtain ⟨m, off, h'⟩ := rest_at l _ this
  obtain ⟨w, hw, -⟩ := h'.cons
  exact ⟨m, off, w, hw⟩

/-- If no tag is broken over lines, no newline is skipped. -/
theorem tight {src : Str} (h : OneLine src) : Tight src (lex src) := by
  refine ⟨fun t ht hk w hw => h t ht (by rw [hk]; rfl) w hw, ?_⟩
  intro l a run b r e _ _ hb
  have hm : b ∈ lex src := by rw [e]; simp
  obtain ⟨m, off, w, hw⟩ := token hm
  have := hw.newline (by simp [Token.isNewline, hb])
  subst this
  exact h b hm (by rw [hb]; rfl) _ hw.slice (by simp)

theorem same_line {src : Str} (h : OneLine src) : ∀ (mid rest : List Token) {m : Mode} {off stop : Nat}, Bracket.Rest src m off (mid ++ rest) →
    (∀ x ∈ mid, x ∈ lex src ∧ inCall x.kind = true) → StartsAt src rest stop → newlines src stop = newlines src off := by
  intro mid
  induction mid with
  | nil =>
      intro rest m off stop hr _ hs
      have h' := hr.startsAt
      cases rest with
      | nil => rw [show off = blen src from h', show stop = blen src from hs]
      | cons t ts => rw [← show t.span.start = off from h', ← show t.span.start = stop from hs]
  | cons t mid ih =>
      intro rest m off stop hr hm hs
      obtain ⟨w, hw, hr'⟩ := hr.cons
      rw [ih rest hr' (fun x hx => hm x (by simp [hx])) hs, hw.newlines]
      have := hm t (by simp)
      rw [List.count_eq_zero.2 (h t this.1 this.2 w hw.slice)]
      rfl

theorem newlines_mono {src : Str} {a b : Nat} (ha : Bd src a) (hb : Bd src b) (hle : a ≤ b) : newlines src a ≤ newlines src b := by
  obtain ⟨u, v, e, rfl⟩ := ha
  obtain ⟨w, r', e', hw⟩ := bd_ext e hb hle
  subst e'
  rw [newlines_pre e, ← hw, ← blen_append, newlines_pre (show src = (u ++ w) ++ r' by rw [e, List.append_assoc]), List.count_append]
  omega

/-- A byte that can be shown is the beginning of a character. -/
theorem shown_bd [Host] {src file info : Str} {line byte : Nat} {notes : List Str} (h : errorInfo src file line byte notes = some info) :
    (byte = 0 ∧ ∃ t, src = '\n' :: t) ∨ ∃ u c v, src = u ++ c :: v ∧ blen u = byte ∧ c ≠ '\n' := by
  rcases C39_exact.1 (show (errorInfo src file line byte notes).isSome by rw [h]; rfl) with h | ⟨before, ln, after, hl, ha⟩
  · exact .inl h
  · right
    obtain ⟨hs, hn, -, -, h1, h2⟩ := hl
    obtain ⟨u, x, v, e, hu⟩ := ascii_split ha (k := byte - blen before) (by omega)
    refine ⟨before ++ u, x, v ++ after, by rw [hs, e]; simp, by rw [blen_append]; omega, ?_⟩
    rintro rfl
    exact hn (by rw [e]; simp)

variable [Host]

theorem shows {src file info : Str} {line byte : Nat} {notes : List Str} (hn : ∀ t, src ≠ '\n' :: t)
    (h : errorInfo src file line byte notes = some info) : Shows src file info byte (line + 1) := by
  have hs := C39_exact.1 (show (errorInfo src file line byte notes).isSome by rw [h]; rfl)
  rcases hs with ⟨-, t, e⟩ | ⟨before, ln, after, hl, ha⟩
  · exact absurd e (hn t)
  · have hb : before ≠ ['\n'] := by
      rintro rfl
      exact hn _ hl.1
    obtain ⟨shown, rest, e1, e2, e3⟩ := C39_snippet (fileName := file) (lineNo := line) (notes := notes) hl ha hb
    rw [h] at e3
    cases e3
    exact ⟨before, ln, after, shown, rest, notes, hl, e1, e2, rfl⟩

end Where

section
variable [Host] {src : Str} {o : ParserOptions} {e : SyntaxErr}

/-- Every syntax error is located: it shows the line of a byte of the tag that was read when it was noticed and
the number of the line reached, but for comments opened by the last token and blocks without a name. -/
theorem C88_located (hb : ByteOk src o.byteOffset) (h : compile src o = .err e) : Located src o.fileName o.lineOffset e :=
  (compile_wf src o hb).2.2 e h

/-- The message shows the line of byte `byte`: of a tag that begins at byte `a`, of which the part up to byte
`stop` was read, or of the last byte of the source if a comment, an escaped tag or a raw block is not ended.  The
number shown is that of the line of byte `stop`, if no newline was skipped, and never greater. -/
theorem C88_partial (hb : ByteOk src o.byteOffset) (hn : ∀ t, src ≠ '\n' :: t) (h : compile src o = .err e)
    (hk : e.kind ≠ .blockName) (hd : ¬ EndsInTag src) :
    ∃ byte stop no, Shows src o.fileName e.info byte (no + 1) ∧
      ((∃ a, TagFrom src a stop ∧ a ≤ byte ∧ byte ≤ stop ∧ stop ≤ blen src) ∨
        ((e.kind = .commentNotTerminated ∨ e.kind = .rawCommentNotTerminated ∨ e.kind = .rawStatementNotTerminated ∨ e.kind = .rawBlockNotTerminated) ∧
          byte + 1 = blen src ∧ stop = blen src)) ∧
      no ≤ o.lineOffset + newlines src stop ∧ (Tight src (lex src) → no = o.lineOffset + newlines src stop) := by
  obtain ⟨line, byte, stop, notes, rest, h1, h2, h3, h4, h5⟩ := C88_located hb h
  refine ⟨byte, stop, line, Where.shows hn h1, ?_, h4.1, h4.2⟩
  rcases h5 with ⟨a, h5, h6, h7⟩ | ⟨h5, rfl, h7⟩ | ⟨-, -, h5⟩ | ⟨h5, -⟩
  · exact .inl ⟨a, Where.tagFrom h5 h3, h6, h7, Where.stop_le h2 h3⟩
  · exact .inr ⟨h5, h7, h3⟩
  · exact absurd h5 hd
  · exact absurd h5 hk

/-- If no tag is broken over lines, the number is that of the line shown. -/
theorem C88_number_partial (hb : ByteOk src o.byteOffset) (hn : ∀ t, src ≠ '\n' :: t) (h : compile src o = .err e)
    (hk : e.kind ≠ .blockName) (hd : ¬ EndsInTag src) (hl : OneLine src) :
    ∃ byte, Shows src o.fileName e.info byte (o.lineOffset + newlines src byte + 1) := by
  obtain ⟨line, byte, stop, notes, rest, h1, h2, h3, h4, h5⟩ := C88_located hb h
  have hs := Where.shows hn h1
  have hbd : Bd src byte ∧ (byte + 1 = blen src → newlines src byte = newlines src (blen src)) := by
    rcases Where.shown_bd h1 with ⟨-, t, e⟩ | ⟨u, c, v, e, rfl, hc⟩
    · exact absurd e (hn t)
    · refine ⟨⟨u, _, e, rfl⟩, fun hle => ?_⟩
      have hv : v = [] := by
        rw [e] at hle
        simp only [blen_append, blen] at hle
        have := c.utf8Size_pos
        exact blen_eq_zero.1 (by omega)
      subst hv
      have hall : newlines src (blen src) = src.count '\n' := newlines_pre (a := src) (b := []) (by simp)
      rw [newlines_pre e, hall, e, List.count_append, List.count_cons_of_ne hc]
      simp
  have : newlines src byte = newlines src stop := by
    rcases h5 with ⟨a, ⟨l, op, mid, e, g1, g2, g3⟩, h6, h7⟩ | ⟨-, rfl, h7⟩ | ⟨-, -, h5⟩ | ⟨h5, -⟩
    · have hr := Where.rest_lex src
      rw [e] at hr
      obtain ⟨m, off, hr⟩ := Where.rest_at l _ hr
      obtain ⟨w, hw, hr'⟩ := hr.cons
      have e1 := Where.same_line hl mid rest hr' (fun x hx => ⟨by rw [e]; simp [hx], g2 x hx⟩) h3
      have hop : isOpener op.kind = true := by
        revert g1
        generalize op.kind = k
        cases k with
        | block k => cases k <;> simp [isTag, isOpener]
        | _ => simp [isTag]
      have e2 : newlines src op.span.stop = newlines src off := by
        rw [hw.newlines, List.count_eq_zero.2 ?_]
        · rfl
        · intro hm
          have := hw.opener hop _ hm
          revert this
          decide
      have hoff : off = a := by rw [← g3, hw.start]
      subst hoff
      have hstop : Bd src stop := by
        have hr3 := Where.rest_lex src
        obtain ⟨l', e'⟩ := h2
        rw [← e'] at hr3
        obtain ⟨m', off', hr3⟩ := Where.rest_at l' _ hr3
        have h3' := hr3.startsAt
        have : off' = stop := by
          cases rest with
          | nil => rw [show off' = blen src from h3', show stop = blen src from h3]
          | cons t ts => rw [← show t.span.start = off' from h3', ← show t.span.start = stop from h3]
        rw [← this]
        exact hr3.bd
      have m1 := Where.newlines_mono hr.bd hbd.1 h6
      have m2 := Where.newlines_mono hbd.1 hstop h7
      omega
    · rw [hbd.2 h7, show stop = blen src from h3]
    · exact absurd h5 hd
    · exact absurd h5 hk
  refine ⟨byte, ?_⟩
  rw [this, ← h4.2 (Where.tight hl)]
  exact hs
end

section Examples
attribute [local instance] exHost

/-- The error of a source that does not compile. -/
def errorOf (src : Str) : Option SyntaxErr :=
  match compile src ⟨c!"t", 0, 0⟩ with
  | .err e => some e
  | _ => none

theorem errorOf_eq {src : Str} {e : SyntaxErr} (h : errorOf src = some e) : compile src ⟨c!"t", 0, 0⟩ = .err e := by
  unfold errorOf at h
  revert h
  cases compile src ⟨c!"t", 0, 0⟩ <;> simp

/-- The number shown is not always that of the line shown, if a tag is broken over lines; a block that has no
name is shown on the first line; a comment opened by the last token is shown at some place before it. -/
theorem C88_violated :
    errorOf c!"{{/x\n\n}}" = some ⟨.blockNotOpen, snippet c!"t" c!"{{/x" 3 1 [c!"perhaps open the block 'x'"]⟩ ∧
    errorOf c!"ab\nc {{#" = some ⟨.blockName, snippet c!"t" c!"ab" 2 1 []⟩ ∧
    errorOf c!"ab{{y}}{{!" = some ⟨.commentNotTerminated, snippet c!"t" c!"ab{{y}}{{!" 1 6 []⟩ := by
  refine ⟨?_, ?_, ?_⟩ <;> decide +kernel

/-- Deciding `OneLine` and `EndsInTag`. -/
theorem Where.oneLine {src : Str} (h : ((lex src).all fun t => !inCall t.kind || match slice src t.span.start t.span.stop with | some w => !w.contains '\n' | none => true) = true) :
    OneLine src := by
  intro t ht hk w hw
  have := List.all_eq_true.1 h t ht
  rw [hk, hw] at this
  simpa using this

theorem Where.notEnds {src : Str} (h : ((lex src).getLast?.all fun t => !isTag t.kind) = true) : ¬ EndsInTag src := by
  rintro ⟨l, op, e, ho⟩
  rw [e] at h
  simp [ho] at h

/-- A source with an error on its second line. -/
def whereSrc : Str := c!"ab\n{{foo (bar }} {{! c\n}}"

theorem whereErr : compile whereSrc ⟨c!"t", 0, 0⟩ = .err ⟨.subExpressionNotTerminated, snippet c!"t" c!"{{foo (bar }} {{! c" 2 11 []⟩ :=
  errorOf_eq (by decide +kernel)

example : ∃ byte, Shows whereSrc c!"t" (snippet c!"t" c!"{{foo (bar }} {{! c" 2 11 []) byte (0 + newlines whereSrc byte + 1) :=
  C88_number_partial (byteOk_zero _) (fun t h => by cases h) whereErr (fun h => by cases h) (Where.notEnds (by decide +kernel)) (Where.oneLine (by decide +kernel))

end Examples

end Bracket.Props
