import Verif.Lemmas.ParsePath
import Verif.Props.Values

/-! Parsing the text of a literal gives its value. -/

set_option linter.unusedSectionVars false
set_option linter.unusedSimpArgs false

namespace Bracket
open Re Spec Props P

theorem isDigit_range {c : Char} : isDigit c = true ↔ '0' ≤ c ∧ c ≤ '9' := by
  unfold isDigit
  simp only [Bool.and_eq_true, decide_eq_true_eq]
  exact Iff.rfl

theorem spanDigits_all : ∀ {s : Str}, (∀ c ∈ s, isDigit c = true) → spanDigits s = (s, [])
  | [], _ => rfl
  | c :: s, h => by
      rw [spanDigits, if_pos (h c (by simp)), spanDigits_all (fun d hd => h d (by simp [hd]))]

theorem digitVal_digit {c : Char} (h : isDigit c = true) : digitVal c = some (c.toNat - 48) := by
  unfold digitVal isDigit at *
  rw [if_pos (by simpa using h)]

theorem parseDigits_foldl : ∀ {s : Str} (acc : Nat), (∀ c ∈ s, isDigit c = true) →
    parseDigits s acc = some (s.foldl (fun a c => a * 10 + digitOf c) acc)
  | [], _, _ => rfl
  | c :: s, acc, h => by
      rw [parseDigits, digitVal_digit (h c (by simp))]
      simp only
      rw [parseDigits_foldl _ (fun d hd => h d (by simp [hd])), List.foldl_cons]
      rfl

theorem parseNumber_nat [Host] {n : Nat} (h : n < 2 ^ 64) : parseNumber (showNat n) = some (.posInt n) := by
  obtain ⟨h1, h2, h3, h4⟩ := showNat_isNumeral n
  have hd : ∀ c ∈ showNat n, isDigit c = true := fun c hc => isDigit_range.2 (h2 c hc)
  have hp : parseDigits (showNat n) 0 = some n := by
    rw [parseDigits_foldl _ hd]; exact congrArg some h3
  unfold parseNumber
  generalize showNat n = s at *
  cases s with
  | nil => exact absurd rfl h1
  | cons c r =>
      have hc : c ≠ '-' := by rintro rfl; have := hd '-' (by simp); revert this; decide
      split
      rename_i neg body heq
      have e : (neg, body) = (false, c :: r) := by
        rw [← heq]
        split
        · rename_i heq; cases heq; exact absurd rfl hc
        · rfl
      cases e
      simp only [spanDigits_all hd]
      split
      · rename_i heq
        cases heq
        have := h4 rfl
        cases this
      · rw [hp]
        simp only
        rw [if_pos h]
        rfl

theorem spanDigits_stop : ∀ {s : Str} {c : Char} {r : Str}, (∀ c ∈ s, isDigit c = true) → isDigit c = false → spanDigits (s ++ c :: r) = (s, c :: r)
  | [], c, r, _, h => by rw [List.nil_append, spanDigits, if_neg (by rw [h]; simp)]
  | d :: s, c, r, hs, h => by
      rw [List.cons_append, spanDigits, if_pos (hs d (by simp)), spanDigits_stop (fun d hd => hs d (by simp [hd])) h]

theorem parseNumber_neg [Host] {n : Nat} (h0 : 0 < n) (h : n ≤ 2 ^ 63) : parseNumber ('-' :: showNat n) = some (.negInt n) := by
  obtain ⟨h1, h2, h3, h4⟩ := showNat_isNumeral n
  have hd : ∀ c ∈ showNat n, isDigit c = true := fun c hc => isDigit_range.2 (h2 c hc)
  have hp : parseDigits (showNat n) 0 = some n := by
    rw [parseDigits_foldl _ hd]; exact congrArg some h3
  unfold parseNumber
  simp only [spanDigits_all hd]
  split
  · rename_i heq
    rw [heq] at h4
    have := h4 rfl
    cases this
  · rw [hp]
    simp only
    rw [if_pos (by omega), if_pos trivial, if_neg (by omega), if_pos h]

theorem digitsOk_spec {w : Str} (h : digitsOk w = true) : w ≠ [] ∧ ∀ c ∈ w, isDigit c = true := by
  unfold digitsOk at h
  simpa [Bool.and_eq_true] using h

/-- What comes after the sign. -/
def SNum.body (d : SNum) : Str :=
  (match d.int with
    | none => []
    | some w => w ++ ['.']) ++ (d.digits ++ (match d.exp with
    | none => []
    | some (e, sg, w) => e :: (sg.toList ++ w)))

/-- The leading digits, and something more. -/
theorem SNum.body_split [Host] {d : SNum} (h : d.ok = true) : ∃ ip c r, SNum.body d = ip ++ c :: r ∧ ip ≠ [] ∧ (∀ c ∈ ip, isDigit c = true) ∧
    isDigit c = false ∧ (ip.head? ≠ some '0' ∨ ip.length = 1) := by
  obtain ⟨neg, int, digits, exp⟩ := d
  unfold SNum.ok at h
  simp only [Bool.and_eq_true] at h
  obtain ⟨⟨⟨h1, h2⟩, h3⟩, h4⟩ := h
  cases int with
  | some w =>
      simp only [Bool.and_eq_true, Bool.or_eq_true, bne_iff_ne, beq_iff_eq] at h2
      obtain ⟨hw, hwd⟩ := digitsOk_spec h2.1
      exact ⟨w, '.', _, by simp [SNum.body]; rfl, hw, hwd, by decide, h2.2⟩
  | none =>
      simp only [Bool.and_eq_true, Bool.or_eq_true, bne_iff_ne, beq_iff_eq] at h2
      obtain ⟨hw, hwd⟩ := digitsOk_spec h1
      cases exp with
      | none => simp at h2
      | some x =>
          obtain ⟨e, sg, w⟩ := x
          simp only [Bool.and_eq_true, Bool.or_eq_true, beq_iff_eq] at h3
          refine ⟨digits, e, sg.toList ++ w, by simp [SNum.body], hw, hwd, ?_, h2.2⟩
          rcases h3.1.1 with rfl | rfl <;> decide

theorem SNum.text_body (d : SNum) : d.text = (if d.neg then ['-'] else []) ++ SNum.body d := rfl

theorem parseNumber_dec [Host] {d : SNum} (h : d.ok = true) : parseNumber d.text = (Host.parseFloat d.text).map .float := by
  obtain ⟨ip, c, r, e, h1, h2, h3, h4⟩ := SNum.body_split h
  have hne : ∀ x xs, ip ++ c :: r = x :: xs → x ≠ '-' := by
    intro x xs ex
    cases ip with
    | nil => exact absurd rfl h1
    | cons y ip =>
        cases ex
        rintro rfl
        have := h2 '-' (by simp)
        revert this; decide
  have hs : spanDigits (ip ++ c :: r) = (ip, c :: r) := spanDigits_stop h2 h3
  unfold parseNumber
  split
  rename_i neg body heq
  have hb : body = ip ++ c :: r := by
    have hx : (neg, body) = (d.neg, ip ++ c :: r) := by
      rw [← heq, SNum.text_body, e]
      cases d.neg with
      | true => rfl
      | false =>
          rw [if_neg (by simp), List.nil_append]
          split
          · rename_i heq
            exact absurd rfl (hne _ _ heq)
          · rfl
    exact (Prod.ext_iff.1 hx).2
  subst hb
  simp only [hs]
  split
  · rename_i x xs
    rcases h4 with h4 | h4 <;> simp at h4
  · rfl

theorem number_dec [Host] {d : SNum} (h : d.ok = true) : Matches numberRe d.text := by
  obtain ⟨neg, int, digits, exp⟩ := d
  unfold SNum.ok at h
  simp only [Bool.and_eq_true] at h
  obtain ⟨⟨⟨h1, h2⟩, h3⟩, h4⟩ := h
  have dg : ∀ {w}, digitsOk w = true → Matches (plus digit) w := fun h => m_plus.2 (digitsOk_spec h)
  refine m_seq.2 ⟨if neg then ['-'] else [], _, rfl, ?_, m_seq.2 ⟨_, _, rfl, ?_, m_seq.2 ⟨digits, _, rfl, dg h1, ?_⟩⟩⟩
  · cases neg
    · exact .right .eps
    · exact .left (m_ch.2 rfl)
  · cases int with
    | none => exact .right .eps
    | some w =>
        simp only [Bool.and_eq_true] at h2
        exact .left (m_seq.2 ⟨w, ['.'], rfl, dg h2.1, m_ch.2 rfl⟩)
  · cases exp with
    | none => exact .right .eps
    | some x =>
        obtain ⟨e, sg, w⟩ := x
        simp only [Bool.and_eq_true, Bool.or_eq_true, beq_iff_eq] at h3
        refine .left (m_seq.2 ⟨[e], sg.toList ++ w, rfl, ?_, m_seq.2 ⟨_, _, rfl, ?_, dg h3.2⟩⟩)
        · rcases h3.1.1 with rfl | rfl
          · exact .left (m_ch.2 rfl)
          · exact .right (m_ch.2 rfl)
        · rcases h3.1.2 with (rfl | rfl) | rfl
          · exact .right .eps
          · exact .left (m_cls.2 ⟨'+', by decide, rfl⟩)
          · exact .left (m_cls.2 ⟨'-', by decide, rfl⟩)

theorem number_neg {w : Str} (hne : w ≠ []) (hd : ∀ c ∈ w, isDigit c = true) (neg : Bool) : Matches numberRe ((if neg then ['-'] else []) ++ w) := by
  have mopt : ∀ {a : Re}, Matches (opt a) [] := .right .eps
  refine m_seq.2 ⟨_, w, rfl, ?_, m_seq.2 ⟨[], w, rfl, mopt, m_seq.2 ⟨w, [], (List.append_nil _).symm, m_plus.2 ⟨hne, hd⟩, mopt⟩⟩⟩
  cases neg
  · exact mopt
  · exact .left (m_ch.2 rfl)

section
variable [Host] (E : PEnv)

/-- Tokens a literal begins with. -/
def isLitStart (lex : ParamTok) : Prop :=
  lex = .nullKw ∨ lex = .trueKw ∨ lex = .falseKw ∨ lex = .number ∨ lex = .doubleQuoteString ∨ lex = .singleQuoteString ∨
    lex = .startArray

theorem lit_value {lex : ParamTok} {sp : Span} {s s1 : PS} {v : Value} {stop : Nat} {L : List Token} (hl : isLitStart lex)
    (h : jsonLiteral E lex sp s = (.ok (v, stop), s1)) (hL : s1.toks = L) :
    ∃ o t, valueP E 1 lex sp s = (.ok (.json E.src v ⟨sp.start, stop⟩ ⟨s.line, s.line + 1⟩, o), t) ∧ Look L o t := by
  obtain ⟨o, t, h1, h2⟩ := look_lexNext hL
  refine ⟨o, t, ?_, h2⟩
  have : valueP E 1 lex sp = (do
      let lr ← lineRange
      let (v, stop) ← jsonLiteral E lex sp
      let nx ← lexNext
      pure (.json E.src v ⟨sp.start, stop⟩ lr, nx)) := by
    rcases hl with rfl | rfl | rfl | rfl | rfl | rfl | rfl <;> rw [valueP]
  rw [this, P.bind_def]
  simp only [lineRange]
  rw [P.bind_def, h]
  simp only
  rw [P.bind_def, h1]
  rfl

/-- A literal between quotes or in brackets. -/
theorem quoted_value {lex : ParamTok} {ty : LitType} (hl : litOf lex = some ty) {pre text v rest : Str} {s t : PS} {sp : Span} {fl : RawLit}
    (h : Quoted E ty pre text v s rest sp fl t) :
    ∃ o u, valueP E 1 lex ⟨blen pre, blen pre + 1⟩ s = (.ok (.json E.src (.str v) ⟨blen pre, sp.stop + 1⟩ ⟨s.line, s.line + 1⟩, o), u) ∧
      Look (lexFrom .params (blen (pre ++ text)) rest) o u := by
  obtain ⟨h1, h2, ⟨raw, h3, h4⟩, h5⟩ := h
  refine lit_value E (by cases lex <;> first | cases hl; done | simp [isLitStart]) ?_ h5
  have hsl : strLiteral E ⟨blen pre, blen pre + 1⟩ ty s = (.ok (.str v, sp), t) := by
    unfold strLiteral
    rw [P.bind_def, h1]
    simp only
    rw [P.bind_def]
    simp only [h3, orPanic]
    rw [h4]
    rfl
  have : jsonLiteral E lex ⟨blen pre, blen pre + 1⟩ = (do
      let (v, sp) ← strLiteral E ⟨blen pre, blen pre + 1⟩ ty
      pure (v, sp.stop + 1)) := by cases lex <;> cases hl <;> rfl
  rw [this, P.bind_def, hsl]
  rfl

theorem lit_run (l : SLit) (hp : l.ok = true) (pre rest : Str) (hf : Follow rest) (hsrc : E.src = pre ++ (l.text ++ rest)) :
    ∃ lex sp L, isLitStart lex ∧ lexFrom .params (blen pre) (l.text ++ rest) = ⟨.params lex, sp⟩ :: L ∧
      ∀ s : PS, s.toks = L → ∃ v o t, valueP E 1 lex sp s = (.ok (v, o), t) ∧ ExprRep (.lit l) v ∧
        Look (lexFrom .params (blen (pre ++ l.text)) rest) o t := by
  -- a literal that is one token
  have one : ∀ (lex : ParamTok), isLitStart lex → nextMode .params (.params lex) = .params → l.text ≠ [] →
      nextTok .params (l.text ++ rest) = (.params lex, l.text.length) →
      (∀ s, jsonLiteral E lex ⟨blen pre, blen pre + blen l.text⟩ s = (.ok (l.value, blen pre + blen l.text), s)) →
      ∃ lex sp L, isLitStart lex ∧ lexFrom .params (blen pre) (l.text ++ rest) = ⟨.params lex, sp⟩ :: L ∧
      ∀ s : PS, s.toks = L → ∃ v o t, valueP E 1 lex sp s = (.ok (v, o), t) ∧ ExprRep (.lit l) v ∧
        Look (lexFrom .params (blen (pre ++ l.text)) rest) o t := by
    intro lex hl hm hne ht hj
    refine ⟨lex, _, _, hl, lexFrom_tok _ hne ht, ?_⟩
    intro s hs
    rw [hm] at hs
    obtain ⟨o, t, h1, h2⟩ := lit_value E hl (hj s) hs
    refine ⟨_, o, t, h1, .lit (fun _ => ?_), by rw [blen_append]; exact h2⟩
    exact slice_eq (a := pre) (b := l.text) (c := rest) hsrc rfl rfl
  have hslice : slice E.src (blen pre) (blen pre + blen l.text) = some l.text :=
    slice_eq (a := pre) (b := l.text) (c := rest) hsrc rfl rfl
  cases l with
  | null => exact one .nullKw (by simp [isLitStart]) rfl (by simp [SLit.text]) (tok_kw (p := 8) hf.brk (by simp [SLit.text])) (fun _ => rfl)
  | bool b =>
      cases b with
      | true => exact one .trueKw (by simp [isLitStart]) rfl (by simp [SLit.text]) (tok_kw (p := 8) hf.brk (by simp [SLit.text])) (fun _ => rfl)
      | false => exact one .falseKw (by simp [isLitStart]) rfl (by simp [SLit.text]) (tok_kw (p := 10) hf.brk (by simp [SLit.text])) (fun _ => rfl)
  | nat n =>
      obtain ⟨h1, h2, h3, h4⟩ := showNat_isNumeral n
      refine one .number (by simp [isLitStart]) rfl h1 (tok_num (number_neg h1 (fun c hc => isDigit_range.2 (h2 c hc)) false) hf.brk hf.noDot) ?_
      intro s
      unfold jsonLiteral
      simp only
      rw [P.bind_def]
      simp only [hslice, orPanic]
      rw [P.bind_def]
      have hn : n < 2 ^ 64 := by simpa [SLit.ok] using hp
      simp only [SLit.text, parseNumber_nat hn, orPanic]
      rfl
  | neg n =>
      obtain ⟨h1, h2, h3, h4⟩ := showNat_isNumeral n
      refine one .number (by simp [isLitStart]) rfl (by simp [SLit.text])
        (tok_num (number_neg h1 (fun c hc => isDigit_range.2 (h2 c hc)) true) hf.brk hf.noDot) ?_
      intro s
      unfold jsonLiteral
      simp only
      rw [P.bind_def]
      simp only [hslice, orPanic]
      rw [P.bind_def]
      simp only [SLit.ok, Bool.and_eq_true, decide_eq_true_eq] at hp
      simp only [SLit.text, parseNumber_neg hp.1 hp.2, orPanic]
      rfl
  | dec d =>
      have hd : d.ok = true := hp
      have hne : d.text ≠ [] := by
        obtain ⟨ip, c, r, e, h1, _⟩ := SNum.body_split hd
        rw [SNum.text_body, e]
        simp
      refine one .number (by simp [isLitStart]) rfl hne (tok_num (number_dec hd) hf.brk hf.noDot) ?_
      intro s
      unfold jsonLiteral
      simp only
      rw [P.bind_def]
      simp only [hslice, orPanic]
      rw [P.bind_def]
      have hv : ∃ f, Host.parseFloat d.text = some f := by
        unfold SNum.ok at hd
        simp only [Bool.and_eq_true] at hd
        exact Option.isSome_iff_exists.1 hd.2
      obtain ⟨f, hv⟩ := hv
      simp only [SLit.text, parseNumber_dec hd, orPanic, hv, Option.map_some, SLit.value]
      rfl
  | str single w =>
      have hb : charsOk (quote single) w = true := hp
      let lex : ParamTok := if single then .singleQuoteString else .doubleQuoteString
      have ht : nextTok .params (quote single :: (charsText (quote single) w ++ quote single :: rest)) = (.params lex, 1) := by
        cases single
        · exact tok_dquote _
        · exact tok_squote _
      have e : (SLit.str single w).text ++ rest = quote single :: (charsText (quote single) w ++ quote single :: rest) := by simp [SLit.text]
      have hq1 : (quote single).utf8Size = 1 := by cases single <;> rfl
      have hm : nextMode .params (.params lex) = strMode single := by cases single <;> rfl
      have hlx := lexFrom_tok1 (blen pre) ht
      rw [hq1, hm] at hlx
      rw [e]
      refine ⟨lex, _, _, by cases single <;> simp [isLitStart, lex], hlx, ?_⟩
      intro s hs
      obtain ⟨fl, t1, hq⟩ := quoted_run E single hb hsrc s hs
      obtain ⟨o, t, h3, h4⟩ := quoted_value E (lex := lex) (by cases single <;> rfl) hq
      refine ⟨_, o, t, h3, .lit ?_, h4⟩
      intro hw
      have hw : kept w = w := by simpa [SLit.whole] using hw
      rw [hw]
      exact slice_eq (a := pre) (b := (SLit.str single w).text) (c := rest) hsrc rfl (by simp [SLit.text, hq1]; omega)
  | bracket w =>
      have e : (SLit.bracket w).text ++ rest = '[' :: (w ++ ']' :: rest) := by simp [SLit.text]
      rw [e]
      refine ⟨.startArray, _, _, by simp [isLitStart], lexFrom_tok1 (blen pre) (tok_bracket _), ?_⟩
      intro s hs
      obtain ⟨fl, t1, hq⟩ := bracket_run E hp hsrc s hs
      obtain ⟨o, t, h3, h4⟩ := quoted_value E (lex := .startArray) rfl hq
      refine ⟨_, o, t, h3, .lit ?_, h4⟩
      intro _
      refine slice_eq (a := pre) (b := (SLit.bracket w).text) (c := rest) hsrc rfl ?_
      simp only [SLit.text, blen_cons, blen_append, blen_nil]
      rw [show ('[').utf8Size = 1 from rfl, show (']').utf8Size = 1 from rfl]
      omega

end

end Bracket
