import Verif.Lemmas.Tokens
import Verif.Lemmas.ParserMono

/-! Parsing the text of a quoted literal. -/

set_option linter.unusedSectionVars false
set_option linter.unusedSimpArgs false

namespace Bracket
open Re Spec Props P


/-! ### Strings -/

theorem charsText_append (q : Char) : ∀ (a b : List SChar), charsText q (a ++ b) = charsText q a ++ charsText q b
  | [], _ => rfl
  | c :: a, b => by simp only [List.cons_append, charsText, charsText_append q a b, List.append_assoc]

theorem charsText_plain (q : Char) : ∀ (w : Str), charsText q (w.map .ch) = w
  | [] => rfl
  | c :: w => by rw [List.map_cons, charsText, charsText_plain q w]; rfl

/-- Only quotes are escaped. -/
def charsQ (q : Char) : List SChar → Str
  | [] => []
  | .ch c :: r => c :: charsQ q r
  | .nl :: r => '\n' :: charsQ q r
  | .quote :: r => '\\' :: q :: charsQ q r

/-- A backslash escapes nothing. -/
def charsWeak (q : Char) : List SChar → Bool
  | [] => true
  | .ch c :: r => c != q && (c != '\\' || r.head? != some (.ch 'n')) && charsWeak q r
  | _ :: r => charsWeak q r

theorem charsOk.weak {q : Char} : ∀ {s : List SChar}, charsOk q s = true → charsWeak q s = true
  | [], _ => rfl
  | .ch c :: r, h => by
      simp only [charsOk, charsWeak, Bool.and_eq_true] at h ⊢
      refine ⟨⟨h.1.1.1, ?_⟩, charsOk.weak h.2⟩
      have := h.1.2
      rw [Bool.or_eq_true] at this ⊢
      rcases this with h | h
      · exact .inl h
      · right
        cases r with
        | nil => rfl
        | cons x r =>
            cases x with
            | ch c => simp [backOk] at h; simp [h]
            | nl => rfl
            | quote => rfl
  | .nl :: r, h => by rw [charsOk] at h; rw [charsWeak]; exact charsOk.weak h; all_goals simp
  | .quote :: r, h => by rw [charsOk] at h; rw [charsWeak]; exact charsOk.weak h; all_goals simp

theorem charsWeak.prefix {q : Char} : ∀ {a b : List SChar}, charsWeak q (a ++ b) = true → charsWeak q a = true
  | [], _, _ => rfl
  | .ch c :: r, b, h => by
      simp only [List.cons_append, charsWeak, Bool.and_eq_true] at h ⊢
      refine ⟨⟨h.1.1, ?_⟩, charsWeak.prefix h.2⟩
      have := h.1.2
      cases r with
      | nil => simp
      | cons x r => exact this
  | .nl :: r, b, h => by
      rw [List.cons_append, charsWeak] at h
      · rw [charsWeak]
        · exact charsWeak.prefix h
        · simp
      · simp
  | .quote :: r, b, h => by
      rw [List.cons_append, charsWeak] at h
      · rw [charsWeak]
        · exact charsWeak.prefix h
        · simp
      · simp

/-- A character that does not start the pattern is kept. -/
theorem replace2_skip {a b c : Char} {r s : Str} (h : c ≠ a) : replace2 a b r (c :: s) = c :: replace2 a b r s := by
  cases s with
  | nil => rfl
  | cons d s => rw [replace2, if_neg (fun e => h e.1)]

/-- The first character of a pattern is kept when the second does not follow. -/
theorem replace2_keep {a b : Char} {r s : Str} (h : s.head? ≠ some b) : replace2 a b r (a :: s) = a :: replace2 a b r s := by
  cases s with
  | nil => rfl
  | cons d s => rw [replace2, if_neg (fun e => h (by simp [e.2]))]

theorem replace2_nl {q : Char} (hq : q ≠ 'n') (hq' : q ≠ '\\') : ∀ {s : List SChar}, charsWeak q s = true →
    replace2 '\\' 'n' ['\n'] (charsText q s) = charsQ q s
  | [], _ => rfl
  | .ch c :: s, h => by
      simp only [charsWeak, Bool.and_eq_true] at h
      have ih := replace2_nl hq hq' h.2
      show replace2 '\\' 'n' ['\n'] (c :: charsText q s) = c :: charsQ q s
      by_cases hc : c = '\\'
      · subst hc
        rw [replace2_keep, ih]
        have h2 := h.1.2
        simp only [bne_self_eq_false, Bool.false_or, bne_iff_ne, ne_eq] at h2
        cases s with
        | nil => simp [charsText]
        | cons x s => cases x <;> simp_all [charsText, SChar.text]
      · rw [replace2_skip hc, ih]
  | .nl :: s, h => by
      have h : charsWeak q s = true := by rw [charsWeak] at h; exact h; simp
      show replace2 '\\' 'n' ['\n'] ('\\' :: 'n' :: charsText q s) = '\n' :: charsQ q s
      rw [replace2, if_pos ⟨rfl, rfl⟩, replace2_nl hq hq' h]
      rfl
  | .quote :: s, h => by
      have h : charsWeak q s = true := by rw [charsWeak] at h; exact h; simp
      show replace2 '\\' 'n' ['\n'] ('\\' :: q :: charsText q s) = '\\' :: q :: charsQ q s
      rw [replace2, if_neg (fun e => hq e.2), replace2_skip hq', replace2_nl hq hq' h]

theorem replace2_q {q : Char} (hq : q ≠ '\n') (hq' : q ≠ '\\') : ∀ {s : List SChar}, charsWeak q s = true →
    replace2 '\\' q [q] (charsQ q s) = s.map (SChar.value q)
  | [], _ => rfl
  | .ch c :: s, h => by
      simp only [charsWeak, Bool.and_eq_true] at h
      have ih := replace2_q hq hq' h.2
      show replace2 '\\' q [q] (c :: charsQ q s) = c :: s.map (SChar.value q)
      by_cases hc : c = '\\'
      · subst hc
        rw [replace2_keep, ih]
        cases s with
        | nil => simp [charsQ]
        | cons x s =>
            cases x with
            | ch c =>
                have := h.2
                simp only [charsWeak, Bool.and_eq_true, bne_iff_ne] at this
                simpa [charsQ] using this.1.1
            | nl => simpa [charsQ] using fun e => hq e.symm
            | quote => simpa [charsQ] using fun e => hq' e.symm
      · rw [replace2_skip hc, ih]
  | .nl :: s, h => by
      have h : charsWeak q s = true := by rw [charsWeak] at h; exact h; simp
      show replace2 '\\' q [q] ('\n' :: charsQ q s) = '\n' :: s.map (SChar.value q)
      rw [replace2_skip (by decide), replace2_q hq hq' h]
  | .quote :: s, h => by
      have h : charsWeak q s = true := by rw [charsWeak] at h; exact h; simp
      show replace2 '\\' q [q] ('\\' :: q :: charsQ q s) = q :: s.map (SChar.value q)
      rw [replace2, if_pos ⟨rfl, rfl⟩, replace2_q hq hq' h]
      rfl

theorem chars_noNl {q : Char} : ∀ {s : List SChar}, SChar.nl ∉ s → charsText q s = charsQ q s
  | [], _ => rfl
  | .ch c :: s, h => by
      simp only [List.mem_cons, not_or] at h
      show c :: charsText q s = c :: charsQ q s
      rw [chars_noNl h.2]
  | .nl :: s, h => absurd (by simp) h
  | .quote :: s, h => by
      simp only [List.mem_cons, not_or] at h
      show '\\' :: q :: charsText q s = '\\' :: q :: charsQ q s
      rw [chars_noNl h.2]

theorem chars_noQ {q : Char} : ∀ {s : List SChar}, SChar.quote ∉ s → charsQ q s = s.map (SChar.value q)
  | [], _ => rfl
  | .ch c :: s, h => by
      simp only [List.mem_cons, not_or] at h
      show c :: charsQ q s = c :: s.map (SChar.value q)
      rw [chars_noQ h.2]
  | .nl :: s, h => by
      simp only [List.mem_cons, not_or] at h
      show '\n' :: charsQ q s = '\n' :: s.map (SChar.value q)
      rw [chars_noQ h.2]
  | .quote :: s, h => absurd (by simp) h

def litType (single : Bool) : LitType := if single then .single else .double

theorem quote_ne (single : Bool) : quote single ≠ 'n' ∧ quote single ≠ '\\' ∧ quote single ≠ '\n' := by
  cases single <;> decide

theorem delim_quote (single : Bool) : (litType single).delim = quote single := by cases single <;> rfl

/-- Undoing the escapes. -/
theorem unescape_chars (single : Bool) {s : List SChar} (h : charsWeak (quote single) s = true) {fl : RawLit}
    (h1 : fl.newline = false → SChar.nl ∉ s) (h2 : fl.delimiter = false → SChar.quote ∉ s) (h3 : fl.type = litType single) :
    (if fl.hasEscapes then fl.intoOwned (charsText (quote single) s) else charsText (quote single) s) =
      s.map (SChar.value (quote single)) := by
  obtain ⟨q1, q2, q3⟩ := quote_ne single
  have e1 : (if fl.newline = true then replace2 '\\' 'n' ['\n'] (charsText (quote single) s) else charsText (quote single) s) =
      charsQ (quote single) s := by
    split
    · exact replace2_nl q1 q2 h
    · rename_i hn
      exact chars_noNl (h1 (by simpa using hn))
  have e2 : fl.intoOwned (charsText (quote single) s) = s.map (SChar.value (quote single)) := by
    unfold RawLit.intoOwned
    simp only
    rw [e1, h3, delim_quote]
    split
    · exact replace2_q q3 q2 h
    · rename_i hd
      exact chars_noQ (h2 (by simpa using hd))
  split
  · exact e2
  · rename_i hn
    unfold RawLit.hasEscapes at hn
    simp only [Bool.or_eq_true, not_or, Bool.not_eq_true] at hn
    rw [if_neg (by simp [hn.1])] at e1
    rw [e1]
    exact chars_noQ (h2 hn.2)

/-! ### What is kept -/

theorem kept_esc {x : SChar} {r : List SChar} (h : x.isEsc = true) : kept (x :: r) = if kept r = [] then [] else x :: kept r := by
  unfold kept
  rw [List.reverse_cons, List.dropWhile_append]
  by_cases hr : List.dropWhile SChar.isEsc r.reverse = []
  · simp [hr, h]
  · rw [if_neg (by simpa using hr)]
    simp only [List.reverse_append, List.reverse_cons, List.reverse_nil, List.nil_append, List.cons_append]
    rw [if_neg (by simpa using hr)]

theorem kept_ch (c : Char) (r : List SChar) : kept (.ch c :: r) = .ch c :: kept r := by
  unfold kept
  rw [List.reverse_cons, List.dropWhile_append]
  by_cases hr : List.dropWhile SChar.isEsc r.reverse = []
  · simp [hr, SChar.isEsc]
  · rw [if_neg (by simpa using hr)]
    simp

theorem kept_plain (r : List SChar) : ∀ w : Str, kept (w.map .ch ++ r) = w.map .ch ++ kept r
  | [] => rfl
  | c :: w => by rw [List.map_cons, List.cons_append, kept_ch, kept_plain r w]; rfl

theorem kept_prefix (s : List SChar) : ∃ e, s = kept s ++ e := by
  unfold kept
  refine ⟨(s.reverse.takeWhile SChar.isEsc).reverse, ?_⟩
  rw [← List.reverse_append, List.takeWhile_append_dropWhile, List.reverse_reverse]

/-- The plain characters at the front. -/
theorem plain_split (q : Char) : ∀ s : List SChar, charsOk q s = true → ∃ (w : Str) (r : List SChar), s = w.map SChar.ch ++ r ∧
    (∀ c ∈ w, strChar q c = true) ∧ charsOk q r = true ∧ (∀ c t, r = .ch c :: t → c = '\\')
  | [], _ => ⟨[], [], rfl, by simp, rfl, by simp⟩
  | .ch c :: s, h => by
      simp only [charsOk, Bool.and_eq_true, bne_iff_ne, ne_eq] at h
      by_cases hc : c = '\\'
      · refine ⟨[], .ch c :: s, rfl, by simp, ?_, ?_⟩
        · simp only [charsOk, Bool.and_eq_true, bne_iff_ne, ne_eq]; exact h
        · intro d t e; cases e; exact hc
      · obtain ⟨w, r, e, h1, h2, h3⟩ := plain_split q s h.2
        refine ⟨c :: w, r, by rw [e]; rfl, ?_, h2, h3⟩
        intro d hd
        rcases List.mem_cons.1 hd with rfl | hd
        · simp [strChar, hc, h.1.1]
        · exact h1 d hd
  | .nl :: s, h => ⟨[], .nl :: s, rfl, by simp, h, by simp⟩
  | .quote :: s, h => ⟨[], .quote :: s, rfl, by simp, h, by simp⟩

section
variable [Host] (E : PEnv)

theorem litTok (single : Bool) (t : StrTok) : (litType single).tok (strKind single t) = some t := by cases single <;> rfl

/-- Where the literal is taken to end. -/
def keptEnd (q : Char) (off se : Nat) (s : List SChar) : Nat := if kept s = [] then se else off + blen (charsText q (kept s))

theorem keptEnd_append {q : Char} {off se se' : Nat} {a b : List SChar} (h : kept (a ++ b) = a ++ kept b)
    (ha : a ≠ []) (hse : se' = off + blen (charsText q a)) :
    keptEnd q (off + blen (charsText q a)) se' b = keptEnd q off se (a ++ b) := by
  unfold keptEnd
  have hne : a ++ kept b ≠ [] := fun e => ha (List.append_eq_nil_iff.1 e).1
  rw [h, if_neg hne]
  by_cases hb : kept b = []
  · rw [if_pos hb, hb, List.append_nil, hse]
  · rw [if_neg hb, charsText_append, blen_append, Nat.add_assoc]

theorem strLoop_run (single : Bool) (st : Nat) (rest : Str) : ∀ (k : Nat) (s : List SChar) (off se : Nat) (fl : RawLit) (u : PS), s.length ≤ k →
    charsOk (quote single) s = true → fl.type = litType single →
    ∃ t, strLoop E st (lexFrom (strMode single) off (charsText (quote single) s ++ quote single :: rest)) se fl u =
        (.ok (⟨st, keptEnd (quote single) off se s⟩,
          ⟨fl.newline || s.contains .nl, fl.delimiter || s.contains .quote, litType single⟩), t) ∧
      t.toks = lexFrom .params (off + blen (charsText (quote single) s) + (quote single).utf8Size) rest := by
  intro k
  induction k with
  | zero =>
      intro s off se fl u hk hb ht
      have : s = [] := List.length_eq_zero_iff.1 (by omega)
      subst this
      rw [show charsText (quote single) [] ++ quote single :: rest = quote single :: rest from rfl, lexFrom_tok1 _ (tok_strFin single rest)]
      have hm : nextMode (strMode single) (strKind single .fin) = .params := by cases single <;> rfl
      rw [hm]
      refine ⟨{ u with toks := lexFrom .params (off + (quote single).utf8Size) rest }, ?_, rfl⟩
      rw [strLoop, P.bind_def]
      simp only [P.modify, ht, litTok]
      obtain ⟨a, b, c⟩ := fl
      simp only at ht
      subst ht
      simp [pure, keptEnd, kept]
  | succ k ih =>
      intro s off se fl u hk hb ht
      obtain ⟨q1, q2, q3⟩ := quote_ne single
      cases s with
      | nil => exact ih [] off se fl u (by simp) hb ht
      | cons x s =>
          simp only [List.length_cons] at hk
          cases x with
          | quote =>
              have hb : charsOk (quote single) s = true := by rw [charsOk] at hb; exact hb; simp
              obtain ⟨t, h1, h2⟩ := ih s (off + 2) se { fl with delimiter := true }
                { u with toks := lexFrom (strMode single) (off + 2) (charsText (quote single) s ++ quote single :: rest) }
                (by omega) hb ht
              have hlen : blen ['\\', quote single] = 2 := by cases single <;> rfl
              have e : charsText (quote single) (.quote :: s) = ['\\', quote single] ++ charsText (quote single) s := rfl
              have hk2 : keptEnd (quote single) off se (.quote :: s) = keptEnd (quote single) (off + 2) se s := by
                unfold keptEnd
                rw [kept_esc rfl]
                by_cases h : kept s = []
                · simp [h]
                · rw [if_neg h, if_neg h, if_neg (by simp), charsText, SChar.text, blen_append, hlen, Nat.add_assoc]
              refine ⟨t, ?_, ?_⟩
              · rw [e, List.append_assoc, lexFrom_tok _ (by simp) (tok_strQuote single _), hlen]
                have hm : nextMode (strMode single) (strKind single .escaped) = strMode single := by cases single <;> rfl
                rw [hm, strLoop, P.bind_def]
                simp only [P.modify, ht, litTok]
                rw [ht] at h1
                rw [h1, hk2]
                simp
              · rw [e, blen_append, hlen, h2]
                simp [Nat.add_assoc]
          | nl =>
              have hb : charsOk (quote single) s = true := by rw [charsOk] at hb; exact hb; simp
              obtain ⟨t, h1, h2⟩ := ih s (off + 2) se { fl with newline := true }
                { u with toks := lexFrom (strMode single) (off + 2) (charsText (quote single) s ++ quote single :: rest) }
                (by omega) hb ht
              have hlen : blen ['\\', 'n'] = 2 := by decide
              have e : charsText (quote single) (.nl :: s) = ['\\', 'n'] ++ charsText (quote single) s := rfl
              have hk2 : keptEnd (quote single) off se (.nl :: s) = keptEnd (quote single) (off + 2) se s := by
                unfold keptEnd
                rw [kept_esc rfl]
                by_cases h : kept s = []
                · simp [h]
                · rw [if_neg h, if_neg h, if_neg (by simp), charsText, SChar.text, blen_append, hlen, Nat.add_assoc]
              refine ⟨t, ?_, ?_⟩
              · rw [e, List.append_assoc, lexFrom_tok _ (by simp) (tok_strNl single _), hlen]
                have hm : nextMode (strMode single) (strKind single .escapedNewline) = strMode single := by cases single <;> rfl
                rw [hm, strLoop, P.bind_def]
                simp only [P.modify, ht, litTok]
                rw [ht] at h1
                refine Eq.trans ?_ (h1.trans ?_)
                · cases single <;> rfl
                rw [hk2]
                simp
              · rw [e, blen_append, hlen, h2]
                simp [Nat.add_assoc]
          | ch c =>
              -- one token: `w` of kind `kd`, which extends the literal
              have step : ∀ (w : Str) (r : List SChar) (kd : StrTok), SChar.ch c :: s = w.map SChar.ch ++ r → w ≠ [] →
                  charsOk (quote single) r = true → kd = .text ∨ kd = .error →
                  nextTok (strMode single) (w ++ (charsText (quote single) r ++ quote single :: rest)) = (strKind single kd, w.length) →
                  ∃ t, strLoop E st (lexFrom (strMode single) off (charsText (quote single) (.ch c :: s) ++ quote single :: rest)) se fl u =
                      (.ok (⟨st, keptEnd (quote single) off se (.ch c :: s)⟩,
                        ⟨fl.newline || (SChar.ch c :: s).contains .nl, fl.delimiter || (SChar.ch c :: s).contains .quote, litType single⟩), t) ∧
                    t.toks = lexFrom .params (off + blen (charsText (quote single) (.ch c :: s)) + (quote single).utf8Size) rest := by
                intro w r kd e hwne hr hkd htok
                have hwpos := List.length_pos_iff.2 hwne
                have hlen : (SChar.ch c :: s).length = w.length + r.length := by rw [e]; simp
                rw [List.length_cons] at hlen
                rw [e]
                obtain ⟨t, h1, h2⟩ := ih r (off + blen w) (off + blen w) fl
                  { u with toks := lexFrom (strMode single) (off + blen w) (charsText (quote single) r ++ quote single :: rest), byte := off + blen w - 1 }
                  (by omega) hr ht
                refine ⟨t, ?_, ?_⟩
                · rw [charsText_append, charsText_plain, List.append_assoc, lexFrom_tok _ hwne htok]
                  have hm : nextMode (strMode single) (strKind single kd) = strMode single := by
                    rcases hkd with rfl | rfl <;> cases single <;> rfl
                  have hb : ∀ u, strLoop E st (⟨strKind single kd, ⟨off, off + blen w⟩⟩ ::
                      lexFrom (strMode single) (off + blen w) (charsText (quote single) r ++ quote single :: rest)) se fl u =
                      strLoop E st (lexFrom (strMode single) (off + blen w) (charsText (quote single) r ++ quote single :: rest)) (off + blen w) fl
                        { u with toks := lexFrom (strMode single) (off + blen w) (charsText (quote single) r ++ quote single :: rest), byte := off + blen w - 1 } := by
                    intro u
                    rw [strLoop, P.bind_def]
                    rcases hkd with rfl | rfl <;>
                    · simp only [P.modify, ht, litTok]
                      rw [P.bind_def]
                      rfl
                  rw [hm, hb, h1]
                  have hke := keptEnd_append (q := quote single) (off := off) (se := se) (se' := off + blen w) (a := w.map .ch) (b := r)
                    (kept_plain r w) (by simpa using hwne) (by rw [charsText_plain])
                  rw [charsText_plain] at hke
                  rw [hke]
                  simp
                · rw [charsText_append, charsText_plain, blen_append, h2]
                  simp [Nat.add_assoc]
              by_cases hc : c = '\\'
              · subst hc
                have hb' := hb
                simp only [charsOk, Bool.and_eq_true, bne_iff_ne, ne_eq, bne_self_eq_false, Bool.false_or] at hb'
                refine step ['\\'] s .error rfl (by simp) hb'.2 (.inr rfl) (tok_strBack single ?_)
                intro d t e
                have hbk := hb'.1.2
                cases s with
                | nil => simp [backOk] at hbk
                | cons x s =>
                    cases x with
                    | ch c =>
                        cases e
                        simp only [backOk, bne_iff_ne, ne_eq] at hbk
                        have := hb'.2
                        simp only [charsOk, Bool.and_eq_true, bne_iff_ne, ne_eq] at this
                        simp [hbk, this.1.1.1]
                    | nl => cases e; simp; exact fun e => q2 e.symm
                    | quote => cases e; simp; exact fun e => q2 e.symm
              · obtain ⟨w, r, e, hw, hr, hr2⟩ := plain_split (quote single) (.ch c :: s) hb
                have hwne : w ≠ [] := by
                  rintro rfl
                  exact hc (hr2 c s e.symm)
                refine step w r .text e hwne hr (.inl rfl) (tok_strText single hwne hw ?_)
                intro d t ed
                cases r with
                | nil => cases ed; simp [strChar]
                | cons x r =>
                    cases x with
                    | ch c =>
                        have := hr2 c r rfl
                        subst this
                        cases ed; simp [strChar]
                    | nl => cases ed; simp [strChar]
                    | quote => cases ed; simp [strChar]

/-- Reading a quoted text: where it is recorded, what it says, and where reading goes on. -/
structure Quoted (ty : LitType) (pre text : Str) (v : Str) (s : PS) (rest : Str) (sp : Span) (fl : RawLit) (t : PS) : Prop where
  run : strParse E ⟨blen pre, blen pre + 1⟩ ty s = (.ok (sp, fl), t)
  start : sp.start = blen pre + 1
  value : ∃ raw, slice E.src sp.start sp.stop = some raw ∧ (if fl.hasEscapes then fl.intoOwned raw else raw) = v
  toks : t.toks = lexFrom .params (blen (pre ++ text)) rest

theorem quoted_run (single : Bool) {w : List SChar} (hb : charsOk (quote single) w = true) {pre rest : Str}
    (hsrc : E.src = pre ++ (quote single :: (charsText (quote single) w ++ [quote single]) ++ rest)) (s : PS)
    (hs : s.toks = lexFrom (strMode single) (blen pre + 1) (charsText (quote single) w ++ quote single :: rest)) :
    ∃ fl t, Quoted E (litType single) pre (quote single :: (charsText (quote single) w ++ [quote single]))
      ((kept w).map (SChar.value (quote single))) s rest ⟨blen pre + 1, blen pre + 1 + blen (charsText (quote single) (kept w))⟩ fl t := by
  have hq1 : (quote single).utf8Size = 1 := by cases single <;> rfl
  obtain ⟨t1, h1, h2⟩ := strLoop_run E single (blen pre + 1) rest w.length w (blen pre + 1)
    (blen pre + 1) ⟨false, false, litType single⟩ s (Nat.le_refl _) hb rfl
  obtain ⟨esc, hesc⟩ := kept_prefix w
  have hke : keptEnd (quote single) (blen pre + 1) (blen pre + 1) w = blen pre + 1 + blen (charsText (quote single) (kept w)) := by
    unfold keptEnd
    split
    · rename_i h; rw [h]; rfl
    · rfl
  rw [hke] at h1
  refine ⟨⟨false || w.contains .nl, false || w.contains .quote, litType single⟩, t1, ?_, rfl,
    ⟨charsText (quote single) (kept w), ?_, ?_⟩, ?_⟩
  · unfold strParse
    rw [P.bind_def]
    simp only [P.get]
    rw [hs]
    exact h1
  · refine slice_eq (a := pre ++ [quote single]) (b := charsText (quote single) (kept w))
      (c := charsText (quote single) esc ++ quote single :: rest) ?_ (by simp [hq1]) (by simp [hq1])
    have hx : charsText (quote single) w = charsText (quote single) (kept w) ++ charsText (quote single) esc := by
      rw [← charsText_append, ← hesc]
    rw [hsrc, hx]
    simp
  · have hsub : ∀ x, x ∈ kept w → x ∈ w := by
      intro x hx
      rw [hesc]
      exact List.mem_append_left _ hx
    exact unescape_chars single (s := kept w) (charsWeak.prefix (b := esc) (by rw [← hesc]; exact charsOk.weak hb))
      (fl := ⟨false || w.contains .nl, false || w.contains .quote, litType single⟩)
      (fun h hx => by simp at h; exact h (hsub _ hx)) (fun h hx => by simp at h; exact h (hsub _ hx)) rfl
  · rw [h2]
    congr 1
    simp [hq1]
    omega

/-- A plain character in brackets. -/
def bracketChar (c : Char) : Bool := c != ']' && c != '\n'

theorem tok_bracketText {w rest : Str} (hne : w ≠ []) (hw : bracketOk w = true) :
    nextTok .array (w ++ ']' :: rest) = (.array .text, w.length) := by
  simp only [bracketOk, Bool.and_eq_true, List.all_eq_true, bne_iff_ne] at hw
  have hw1 : ∀ c ∈ w, bracketChar c = true := by
    intro c hc; have := hw.1 c hc; simpa [bracketChar] using this
  refine nextTok_of (p := 1) (re := plus (.cls bracketChar)) hne ?_ (m_plus.2 ⟨hne, hw1⟩) ?_
  · exact List.mem_cons_self
  · intro re p' k' hm u v hu e hmu hl
    have hhead : ∀ x t, u = x :: t → bracketChar x = true := by
      intro x t e'
      subst e'
      cases w with
      | nil => exact absurd rfl hne
      | cons c w => simp at e; rw [e.1]; exact hw1 c (by simp)
    simp only [rules, arrayRules, List.mem_cons, Prod.mk.injEq, List.not_mem_nil, or_false] at hm
    rcases hm with ⟨rfl, rfl, rfl⟩ | ⟨rfl, rfl, rfl⟩ | ⟨rfl, rfl, rfl⟩ | ⟨rfl, rfl, rfl⟩
    · exact .inl ⟨rfl, prefix_word (m_plus.1 hmu).2 (by intro c r e; cases e; rfl) e hl⟩
    · have hu' := m_lit.1 hmu
      subst hu'
      exfalso
      cases w with
      | nil => exact hne rfl
      | cons c w =>
          simp only [List.cons_append, List.cons.injEq] at e
          obtain ⟨rfl, e⟩ := e
          cases w with
          | nil => exact hw.2 rfl
          | cons d w =>
              simp only [List.cons_append, List.nil_append, List.cons.injEq] at e
              have := hw1 d (by simp)
              rw [← e.1] at this
              cases this
    · have := hhead _ _ (m_ch.1 hmu); simp [bracketChar] at this
    · have := hhead _ _ (m_ch.1 hmu); simp [bracketChar] at this

theorem tok_bracketFin (rest : Str) : nextTok .array (']' :: rest) = (.array .fin, 1) := by
  cases rest <;> simp [arrayRules, nextTok, rules, pick, longest, longestAux, deriv, isEmpty, nullable, mkSeq, mkAlt, ch, lit, plus, better]

theorem tok_bracket (rest : Str) : nextTok .params ('[' :: rest) = (.params .startArray, 1) := by
  cases rest <;> tok_simp

theorem bracket_run {w : Str} (hb : bracketOk w = true) {pre rest : Str} (hsrc : E.src = pre ++ ('[' :: (w ++ [']']) ++ rest)) (s : PS)
    (hs : s.toks = lexFrom .array (blen pre + 1) (w ++ ']' :: rest)) :
    ∃ fl t, Quoted E .array pre ('[' :: (w ++ [']'])) w s rest ⟨blen pre + 1, blen pre + 1 + blen w⟩ fl t := by
  have fin : ∀ (off : Nat) (u : PS), strLoop E (blen pre + 1) (lexFrom .array off (']' :: rest)) off ⟨false, false, .array⟩ u =
      (.ok (⟨blen pre + 1, off⟩, ⟨false, false, .array⟩), { u with toks := lexFrom .params (off + 1) rest }) := by
    intro off u
    rw [lexFrom_tok1 _ (tok_bracketFin rest), strLoop, P.bind_def]
    rfl
  refine ⟨⟨false, false, .array⟩, { s with toks := lexFrom .params (blen pre + 1 + blen w + 1) rest, byte := if w = [] then s.byte else blen pre + 1 + blen w - 1 }, ?_, rfl, ⟨w, ?_, rfl⟩, ?_⟩
  · unfold strParse
    rw [P.bind_def]
    simp only [P.get]
    rw [hs]
    by_cases hw : w = []
    · subst hw
      exact fin _ _
    · rw [lexFrom_tok _ hw (tok_bracketText hw hb), strLoop, P.bind_def]
      rw [if_neg hw]
      exact fin _ _
  · exact slice_eq (a := pre ++ ['[']) (b := w) (c := ']' :: rest) (by rw [hsrc]; simp) (by simp; rfl) (by simp; rfl)
  · simp only
    congr 1
    simp
    rw [show ('[').utf8Size = 1 from rfl, show (']').utf8Size = 1 from rfl]
    omega

end

end Bracket
