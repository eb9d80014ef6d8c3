import Verif.Lemmas.Tokens
import Verif.Lemmas.ParserTri
import Verif.Spec.Tree

/-! The tokens left to parse, as a place in the source. -/

set_option linter.unusedSectionVars false
set_option linter.unusedSimpArgs false

namespace Bracket
open Re Spec Props

/-! ### Offsets -/

theorem Spec.Bd.zero {src : Str} : Bd src 0 := ⟨[], src, rfl, rfl⟩
theorem Spec.Bd.all {src : Str} : Bd src (blen src) := ⟨src, [], by simp, rfl⟩
theorem Spec.Bd.le {src : Str} {n : Nat} (h : Bd src n) : n ≤ blen src := by
  obtain ⟨a, b, rfl, rfl⟩ := h
  rw [blen_append]; omega

/-- Two boundaries of one text. -/
theorem Spec.Bd.split {src : Str} {i j : Nat} (hi : Bd src i) (hj : Bd src j) (h : i ≤ j) :
    ∃ a b c, src = a ++ (b ++ c) ∧ blen a = i ∧ i + blen b = j := by
  obtain ⟨a, r, e, ha⟩ := hi
  obtain ⟨a', r', e', ha'⟩ := hj
  have : a <+: a' := by
    rcases List.prefix_or_prefix_of_prefix (⟨r, e.symm⟩ : a <+: src) (⟨r', e'.symm⟩ : a' <+: src) with h1 | ⟨t, h1⟩
    · exact h1
    · subst h1
      rw [blen_append] at ha
      have : t = [] := blen_eq_zero.1 (by omega)
      subst this
      simp
  obtain ⟨b, rfl⟩ := this
  rw [blen_append] at ha'
  exact ⟨a, b, r', by rw [e', List.append_assoc], ha, by omega⟩

theorem Spec.Bd.slice {src : Str} {i j : Nat} (hi : Bd src i) (hj : Bd src j) (h : i ≤ j) : ∃ w, slice src i j = some w := by
  obtain ⟨a, b, c, e, ha, hb⟩ := hi.split hj h
  exact ⟨b, slice_eq e ha.symm (by omega)⟩

theorem Spec.In.slice {src : Str} {lo hi : Nat} {sp : Span} (h : In src lo hi sp) : ∃ w, slice src sp.start sp.stop = some w :=
  Bd.slice h.bs h.be h.le

theorem Spec.In.mono {src : Str} {lo hi lo' hi' : Nat} {sp : Span} (h : In src lo hi sp) (h1 : lo' ≤ lo) (h2 : hi ≤ hi') :
    In src lo' hi' sp := ⟨h.bs, h.be, Nat.le_trans h1 h.lo, h.le, Nat.le_trans h.hi h2⟩

theorem slice_bd {src w : Str} {i j : Nat} (h : slice src i j = some w) : Bd src i ∧ Bd src j ∧ i ≤ j := by
  obtain ⟨a, c, e, hi, hj⟩ := slice_some h
  exact ⟨⟨a, w ++ c, e, hi.symm⟩, ⟨a ++ w, c, by rw [e, List.append_assoc], by rw [blen_append]; omega⟩, by omega⟩

theorem newlines_pre {src a b : Str} (h : src = a ++ b) : newlines src (blen a) = a.count '\n' := by
  subst h
  simp [newlines, takeB_append]

/-! ### What is left -/

/-- The tokens `ts` are what is left when the text has been lexed up to byte `off`, in mode `m` there. -/
def Rest (src : Str) (m : Mode) (off : Nat) (ts : List Token) : Prop :=
  ∃ pre r, src = pre ++ r ∧ blen pre = off ∧ ts = lexFrom m off r

theorem Rest.bd {src : Str} {m : Mode} {off : Nat} {ts : List Token} (h : Rest src m off ts) : Bd src off := by
  obtain ⟨pre, r, e, hp, _⟩ := h
  exact ⟨pre, r, e, hp⟩

theorem lexFrom_ne {m : Mode} {off : Nat} {c : Char} {cs : Str} : lexFrom m off (c :: cs) ≠ [] := by
  unfold lexFrom
  rw [List.length_cons, lexAux]
  simp

theorem Rest.done {src : Str} {m : Mode} {off : Nat} (h : Rest src m off []) : off = blen src := by
  obtain ⟨pre, r, e, hp, ht⟩ := h
  cases r with
  | nil => rw [e, ← hp]; simp
  | cons c cs => exact absurd ht.symm lexFrom_ne

/-- The text of the token at byte `off`. -/
structure TokAt (src : Str) (m : Mode) (off : Nat) (t : Token) (w : Str) : Prop where
  ne : w ≠ []
  place : ∃ pre r, src = pre ++ (w ++ r) ∧ blen pre = off ∧ nextTok m (w ++ r) = (t.kind, w.length)
  span : t.span = ⟨off, off + blen w⟩

theorem Rest.cons {src : Str} {m : Mode} {off : Nat} {t : Token} {ts : List Token} (h : Rest src m off (t :: ts)) :
    ∃ w, TokAt src m off t w ∧ Rest src (nextMode m t.kind) t.span.stop ts := by
  obtain ⟨pre, r, e, hp, ht⟩ := h
  cases r with
  | nil => simp [lexFrom_nil] at ht
  | cons c cs =>
      have hb := nextTok_bound m (c :: cs) (by simp)
      rcases hn : nextTok m (c :: cs) with ⟨k, n⟩
      rw [hn] at hb
      have hsplit : (c :: cs).take n ++ (c :: cs).drop n = c :: cs := List.take_append_drop n _
      have hlen : ((c :: cs).take n).length = n := by rw [List.length_take]; have := hb.2; simp at this ⊢; omega
      have hw : (c :: cs).take n ≠ [] := by intro h0; rw [h0] at hlen; have := hb.1; simp at hlen this; omega
      have hk : nextTok m ((c :: cs).take n ++ (c :: cs).drop n) = (k, ((c :: cs).take n).length) := by
        rw [hsplit, hlen]; exact hn
      have hx := lexFrom_tok off hw hk
      rw [hsplit] at hx
      rw [hx] at ht
      simp only [List.cons.injEq] at ht
      obtain ⟨rfl, rfl⟩ := ht
      refine ⟨(c :: cs).take n, ⟨hw, ⟨pre, (c :: cs).drop n, by rw [hsplit]; exact e, hp, hk⟩, rfl⟩, ?_⟩
      exact ⟨pre ++ (c :: cs).take n, (c :: cs).drop n, by rw [List.append_assoc, hsplit]; exact e, by rw [blen_append, hp], rfl⟩

theorem blen_pos {w : Str} (h : w ≠ []) : 0 < blen w := by
  rcases Nat.eq_zero_or_pos (blen w) with h0 | h0
  · exact absurd (blen_eq_zero.1 h0) h
  · exact h0

namespace TokAt
variable {src : Str} {m : Mode} {off : Nat} {t : Token} {w : Str}

theorem start (h : TokAt src m off t w) : t.span.start = off := by rw [h.span]
theorem stop (h : TokAt src m off t w) : t.span.stop = off + blen w := by rw [h.span]
theorem lt (h : TokAt src m off t w) : off < t.span.stop := by rw [h.stop]; have := blen_pos h.ne; omega
theorem slice (h : TokAt src m off t w) : slice src t.span.start t.span.stop = some w := by
  obtain ⟨pre, r, e, hp, _⟩ := h.place
  exact slice_eq e (by rw [h.start, hp]) (by rw [h.stop, hp])
theorem inn (h : TokAt src m off t w) : In src off t.span.stop t.span :=
  ⟨(slice_bd h.slice).1, (slice_bd h.slice).2.1, by rw [h.start]; exact Nat.le_refl _, (slice_bd h.slice).2.2, Nat.le_refl _⟩

/-- The rule that recognised the token. -/
theorem rule (h : TokAt src m off t w) :
    (∃ re p, (re, p, t.kind) ∈ rules m ∧ Matches re w) ∨ (t.kind = errorKind m ∧ ∃ c, w = [c] ∧ ∀ re p k, (re, p, k) ∈ rules m → ¬ Matches re [c]) := by
  obtain ⟨pre, r, e, hp, hn⟩ := h.place
  rcases C55_maximal_munch m (w ++ r) with ⟨p, ⟨_, _, re, h3, h4⟩, _⟩ | ⟨hno, he⟩
  · left
    rw [hn] at h3 h4
    simp only [List.take_left] at h4
    exact ⟨re, p, h3, h4⟩
  · right
    rw [hn] at he
    simp only [Prod.mk.injEq] at he
    refine ⟨he.1, ?_⟩
    obtain ⟨c, hc⟩ : ∃ c, w = [c] := List.length_eq_one_iff.1 he.2
    subst hc
    exact ⟨c, rfl, fun re p k hm hx => hno 1 p k ⟨by omega, by simp, re, hm, by simpa using hx⟩⟩
end TokAt

/-- The mode that produces a kind of token. -/
def modeOf : Kind → Mode
  | .block _ => .block
  | .rawComment _ => .rawComment
  | .rawStatement _ => .rawStatement
  | .comment _ => .comment
  | .params _ => .params
  | .dquote _ => .dquote
  | .squote _ => .squote
  | .array _ => .array
  | .link _ => .link

theorem TokAt.mode {src : Str} {m : Mode} {off : Nat} {t : Token} {w : Str} (h : TokAt src m off t w) : m = modeOf t.kind := by
  rcases h.rule with ⟨re, p, hm, _⟩ | ⟨he, _⟩
  · cases m <;> simp only [rules, blockRules, rawCommentRules, rawStatementRules, commentRules, paramRules, strRules, arrayRules, linkRules,
      List.mem_cons, Prod.mk.injEq, List.not_mem_nil, or_false] at hm <;>
      (repeat' (first | (rw [hm.2.2]; rfl) | rcases hm with hm | hm))
  · rw [he]; cases m <;> rfl

/-! ### What tokens look like -/

section
variable {src : Str} {m : Mode} {off : Nat} {t : Token} {w : Str}

/-- Tokens after which a position is recorded. -/
def isOpener : Kind → Bool
  | .block .text | .block .newline | .block .error => false
  | .block _ => true
  | .params .startSubExpression => true
  | _ => false

theorem TokAt.params (h : TokAt src m off t w) {k : ParamTok} (hk : t.kind = .params k) : 
    (∃ re p, (re, p, Kind.params k) ∈ paramRules ∧ Matches re w) ∨ (k = .error ∧ ∃ c, w = [c] ∧ c ≠ '\n') := by
  have hm : m = .params := by have := h.mode; rw [hk] at this; exact this
  subst hm
  rcases h.rule with ⟨re, p, hm, hw⟩ | ⟨he, c, hc, hno⟩
  · left; rw [hk] at hm; exact ⟨re, p, hm, hw⟩
  · right
    rw [hk] at he
    refine ⟨by simpa [errorKind] using he, c, hc, ?_⟩
    rintro rfl
    exact hno (ch '\n') 2 (.params .newline) (by simp [rules, paramRules]) (m_ch.2 rfl)

theorem TokAt.hashKey (h : TokAt src m off t w) (hk : t.kind = .params .hashKey) : ∃ u, w = u ++ ['='] := by
  rcases h.params hk with ⟨re, p, hm, hw⟩ | ⟨he, _⟩
  · simp [paramRules] at hm
    rw [hm.1, m_seq] at hw
    obtain ⟨x, y, rfl, _, h2⟩ := hw
    rw [m_ch] at h2
    exact ⟨x, by rw [h2]⟩
  · cases he

theorem TokAt.fin (h : TokAt src m off t w) (hk : t.kind = .params .fin) : ∃ u, w = u ++ c!"}}" := by
  rcases h.params hk with ⟨re, p, hm, hw⟩ | ⟨he, _⟩
  · simp [paramRules] at hm
    rw [hm.1] at hw
    simp only [m_seq, m_lit] at hw
    obtain ⟨x, _, rfl, _, y, _, rfl, _, z, _, rfl, _, rfl⟩ := hw
    exact ⟨x ++ (y ++ z), by simp⟩
  · cases he

theorem TokAt.parent (h : TokAt src m off t w) (hk : t.kind = .params .parentRef) : w = c!"../" := by
  rcases h.params hk with ⟨re, p, hm, hw⟩ | ⟨he, _⟩
  · simp [paramRules] at hm
    rw [hm.1, m_lit] at hw
    exact hw
  · cases he

theorem TokAt.number (h : TokAt src m off t w) (hk : t.kind = .params .number) : Matches numberRe w := by
  rcases h.params hk with ⟨re, p, hm, hw⟩ | ⟨he, _⟩
  · simp [paramRules] at hm
    rw [hm.1] at hw
    exact hw
  · cases he

theorem TokAt.ident (h : TokAt src m off t w) (hk : t.kind = .params .identifier) : WordAt src t.span := by
  rcases h.params hk with ⟨re, p, hm, hw⟩ | ⟨he, _⟩
  · simp [paramRules] at hm
    rw [hm.1] at hw
    have hm' := h.mode
    rw [hk] at hm'
    have hm' : m = .params := hm'
    subst hm'
    rw [show Bracket.ident = Re.cls isIdent from rfl, m_plus] at hw
    obtain ⟨pre, r, e, hp, hn⟩ := h.place
    refine ⟨pre, w, r, e, by rw [h.span, hp], hw.1, hw.2, ?_⟩
    rintro c r' rfl
    rcases hc : isIdent c with _ | _
    · rfl
    · exfalso
      rcases C55_maximal_munch .params (w ++ c :: r') with ⟨p', _, hbest⟩ | ⟨hno, _⟩
      · have : RuleAt (rules .params) (w ++ c :: r') (w.length + 1) 2 (.params .identifier) := by
          refine ⟨by omega, by simp, plus Bracket.ident, by simp [rules, paramRules], ?_⟩
          rw [show (w ++ c :: r').take (w.length + 1) = w ++ [c] by
            rw [show w ++ c :: r' = (w ++ [c]) ++ r' by simp]; exact List.take_left' (by simp)]
          refine m_plus.2 ⟨by simp, ?_⟩
          intro d hd
          rcases List.mem_append.1 hd with hd | hd
          · exact hw.2 d hd
          · simp at hd; subst hd; exact hc
        have := hbest _ _ _ this
        rw [hn] at this
        simp at this
        omega
      · exact hno w.length 2 (.params .identifier) ⟨List.length_pos_iff.2 hw.1, by simp, plus Bracket.ident, by simp [rules, paramRules],
          by rw [List.take_left]; exact m_plus.2 hw⟩
  · cases he

theorem avoid_mem {re : Re} {l : List Char} (h : Matches re w) (ha : ∀ x, x ∉ l → avoids x re = true) : ∀ c ∈ w, c ∈ l := by
  intro c hc
  rcases Classical.em (c ∈ l) with h1 | hx
  · exact h1
  · exact absurd hc (avoids_spec h (ha c hx))

theorem TokAt.opener (h : TokAt src m off t w) (hk : isOpener t.kind = true) : ∀ c ∈ w, c ∈ openerChars := by
  rcases h.rule with ⟨re, p, hm, hw⟩ | ⟨he, c, hc, hno⟩
  · refine avoid_mem hw ?_
    intro x hx
    have hm' := h.mode
    rcases t with ⟨k, sp⟩
    simp only at hm' hk hm
    subst hm'
    simp [openerChars] at hx
    have e : ∀ y : Char, x ≠ y → (x == y) = false := fun y hy => by simp [hy]
    cases k <;> simp [isOpener] at hk
    · rename_i b
      simp only [modeOf, rules, blockRules, List.mem_cons, Prod.mk.injEq, List.not_mem_nil, or_false] at hm
      repeat' (first
        | (have hb := hm.2.2; have he := hm.1; subst he; cases hb; first | (simp at hk; done) | (simp [avoids, lit, Re.ch, Re.opt, tabSp, hx]; done))
        | rcases hm with hm | hm)
    · rename_i b
      have : b = .startSubExpression := by cases b <;> simp at hk; rfl
      subst this
      simp [modeOf, rules, paramRules] at hm
      rw [hm.1]
      simp [avoids, lit, Re.ch, hx]
  · rw [he] at hk; cases m <;> simp [errorKind, isOpener] at hk

theorem TokAt.openerAt (h : TokAt src m off t w) (hk : isOpener t.kind = true) : OpenerAt src t.span := ⟨w, h.slice, h.opener hk⟩

theorem TokAt.newline (h : TokAt src m off t w) (hk : t.isNewline = true) : w = ['\n'] := by
  rcases h.rule with ⟨re, p, hm, hw⟩ | ⟨he, c, hc, hno⟩
  · have hm' := h.mode
    rcases t with ⟨k, sp⟩
    simp only at hm' hk hm
    subst hm'
    have : re = ch '\n' := by
      cases k <;> simp [Token.isNewline] at hk <;> subst hk <;>
        simp [modeOf, rules, blockRules, rawCommentRules, rawStatementRules, commentRules, paramRules, strRules, arrayRules, linkRules] at hm <;>
        exact hm.1
    rw [this, m_ch] at hw
    exact hw
  · exfalso
    rcases t with ⟨k, sp⟩
    simp only at he
    subst he
    cases m <;> simp [errorKind, Token.isNewline] at hk

theorem TokAt.noNewline (h : TokAt src m off t w) (hk : t.isNewline = false) (hl : t.kind ≠ .link .text) : '\n' ∉ w := by
  rcases h.rule with ⟨re, p, hm, hw⟩ | ⟨he, c, hc, hno⟩
  · have hm' := h.mode
    rcases t with ⟨k, sp⟩
    simp only at hm' hk hm hl
    subst hm'
    refine avoids_spec hw ?_
    cases k <;> simp only [modeOf, rules, blockRules, rawCommentRules, rawStatementRules, commentRules, paramRules, strRules, arrayRules, linkRules,
      List.mem_cons, Prod.mk.injEq, List.not_mem_nil, or_false] at hm <;>
    repeat' (first
      | (have hb := hm.2.2; have he := hm.1; subst he; cases hb; first | (simp [Token.isNewline] at hk; done) | (simp at hl; done) | decide)
      | rcases hm with hm | hm)
  · subst hc
    rintro hx
    simp at hx
    subst hx
    rcases t with ⟨k, sp⟩
    simp only at he
    subst he
    cases m with
    | block => exact hno (ch '\n') 2 (.block .newline) (by simp [rules, blockRules]) (m_ch.2 rfl)
    | rawComment => exact hno (ch '\n') 2 (.rawComment .newline) (by simp [rules, rawCommentRules]) (m_ch.2 rfl)
    | rawStatement => exact hno (ch '\n') 2 (.rawStatement .newline) (by simp [rules, rawStatementRules]) (m_ch.2 rfl)
    | comment => exact hno (ch '\n') 2 (.comment .newline) (by simp [rules, commentRules]) (m_ch.2 rfl)
    | params => exact hno (ch '\n') 2 (.params .newline) (by simp [rules, paramRules]) (m_ch.2 rfl)
    | dquote => exact hno (ch '\n') 2 (.dquote .newline) (by simp [rules, strRules]) (m_ch.2 rfl)
    | squote => exact hno (ch '\n') 2 (.squote .newline) (by simp [rules, strRules]) (m_ch.2 rfl)
    | array => exact hno (ch '\n') 2 (.array .newline) (by simp [rules, arrayRules]) (m_ch.2 rfl)
    | link => exact hno (ch '\n') 2 (.link .newline) (by simp [rules, linkRules]) (m_ch.2 rfl)

/-- Escapes and the closing delimiter of a literal begin with a one-byte character. -/
theorem TokAt.strHead (h : TokAt src m off t w) {ty : LitType} {k : StrTok} (hk : ty.tok t.kind = some k)
    (hx : k = .escapedNewline ∨ k = .escaped ∨ k = .fin) : ∃ c u, w = c :: u ∧ c.utf8Size = 1 := by
  rcases h.rule with ⟨re, p, hm, hw⟩ | ⟨he, c, hc, hno⟩
  · have hm' := h.mode
    rcases t with ⟨kd, sp⟩
    simp only at hm' hk hm
    subst hm'
    have : Matches re w → ∃ c u, w = c :: u ∧ c.utf8Size = 1 := by
      cases ty <;> cases kd <;> simp [LitType.tok] at hk <;> subst hk <;>
        simp only [modeOf, rules, strRules, arrayRules, List.mem_cons, Prod.mk.injEq, List.not_mem_nil, or_false] at hm <;>
        repeat' (first
          | (have hb := hm.2.2; have he := hm.1; subst he; cases hb; first
              | (simp at hx; done)
              | (intro hw; rw [m_lit] at hw; exact ⟨_, _, hw, by decide⟩)
              | (intro hw; rw [m_ch] at hw; exact ⟨_, _, hw, by decide⟩))
          | rcases hm with hm | hm)
    exact this hw
  · exfalso
    rcases t with ⟨kd, sp⟩
    simp only at he hk
    subst he
    cases ty <;> cases m <;> simp [errorKind, LitType.tok] at hk <;> subst hk <;> simp at hx

/-- An opening quote is one byte. -/
theorem TokAt.quoteLen (h : TokAt src m off t w) {k : ParamTok} (hk : t.kind = .params k)
    (hx : k = .doubleQuoteString ∨ k = .singleQuoteString ∨ k = .startArray) : blen w = 1 := by
  rcases h.params hk with ⟨re, p, hm, hw⟩ | ⟨he, _⟩
  · rcases hx with rfl | rfl | rfl <;> (simp [paramRules] at hm; rw [hm.1, m_ch] at hw; subst hw; decide)
  · subst he; simp at hx
end
