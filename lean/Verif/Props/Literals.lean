import Verif.Props.Roundtrip

/-! C41: what string literals denote. -/

set_option linter.unusedSectionVars false
set_option linter.unusedSimpArgs false

namespace Bracket.Spec

/-- The characters written between two quotes `q`, read from left to right: `\n` and `\q` are escapes,
anything else stands for itself.  An unescaped quote, a newline, or a backslash before the closing quote
cannot occur. -/
def readChars (q : Char) : Str → Option (List SChar)
  | [] => some []
  | c :: r =>
      if c = '\\' then
        match r with
        | [] => none
        | d :: r' =>
            if d = 'n' then (readChars q r').map (.nl :: ·)
            else if d = q then (readChars q r').map (.quote :: ·)
            else (readChars q (d :: r')).map (.ch c :: ·)
      else if c = q ∨ c = '\n' then none
      else (readChars q r).map (.ch c :: ·)

/-- What the characters stand for. -/
def meaning (q : Char) (s : List SChar) : Str := s.map (SChar.value q)

/-- The literal `w` between quotes, as the only argument of a tag. -/
def literalTag (name : Str) (single : Bool) (w : Str) : Str :=
  c!"{{" ++ (name ++ (' ' :: quote single :: (w ++ (quote single :: c!"}}"))))

end Bracket.Spec

namespace Bracket.Props
open Bracket Re Spec P

theorem readChars_spec {q : Char} (hq : q ≠ 'n') (hb : q ≠ '\\') : ∀ {w : Str} {s : List SChar}, readChars q w = some s →
    charsText q s = w ∧ charsOk q s = true
  | [], s, h => by
      rw [readChars] at h
      cases h
      exact ⟨rfl, rfl⟩
  | c :: r, s, h => by
      rw [readChars.eq_def] at h
      simp only at h
      split at h
      · rename_i hc
        subst hc
        match r, h with
        | d :: r', h =>
          simp only at h
          split at h
          · rename_i hd
            subst hd
            obtain ⟨s', h1, rfl⟩ := Option.map_eq_some_iff.1 h
            obtain ⟨h2, h3⟩ := readChars_spec hq hb h1
            exact ⟨by simp [charsText, SChar.text, h2], by simpa [charsOk] using h3⟩
          · split at h
            · rename_i hd
              subst hd
              obtain ⟨s', h1, rfl⟩ := Option.map_eq_some_iff.1 h
              obtain ⟨h2, h3⟩ := readChars_spec hq hb h1
              exact ⟨by simp [charsText, SChar.text, h2], by simpa [charsOk] using h3⟩
            · rename_i hn hdq
              obtain ⟨s', h1, rfl⟩ := Option.map_eq_some_iff.1 h
              obtain ⟨h2, h3⟩ := readChars_spec hq hb h1
              refine ⟨by simp [charsText, SChar.text, h2], ?_⟩
              rw [charsOk]
              have hbk : backOk s' = true := by
                cases s' with
                | nil => simp [charsText] at h2
                | cons x xs =>
                    cases x with
                    | ch c =>
                        simp [charsText, SChar.text] at h2
                        simp [backOk, h2.1, hn]
                    | nl => rfl
                    | quote => rfl
              simp [hbk, h3, hb.symm]
      · rename_i hc
        split at h
        · simp at h
        · rename_i hc'
          obtain ⟨s', h1, rfl⟩ := Option.map_eq_some_iff.1 h
          obtain ⟨h2, h3⟩ := readChars_spec hq hb h1
          have hc1 : c ≠ q ∧ c ≠ '\n' := ⟨fun e => hc' (.inl e), fun e => hc' (.inr e)⟩
          exact ⟨by simp [charsText, SChar.text, h2], by simp [charsOk, h3, hc, hc1.1, hc1.2]⟩

theorem readChars_complete {q : Char} (hq : q ≠ 'n') (hb : q ≠ '\\') : ∀ {s : List SChar}, charsOk q s = true →
    readChars q (charsText q s) = some s
  | [], _ => by simp [charsText, readChars]
  | .nl :: r, h => by
      rw [charsOk] at h
      simp [charsText, SChar.text, readChars, readChars_complete hq hb h]
      all_goals simp
  | .quote :: r, h => by
      rw [charsOk] at h
      simp [charsText, SChar.text, readChars, readChars_complete hq hb h, hq]
      all_goals simp
  | .ch c :: r, h => by
      rw [charsOk] at h
      simp only [Bool.and_eq_true, bne_iff_ne, Bool.or_eq_true] at h
      obtain ⟨⟨⟨h1, h2⟩, h3⟩, h4⟩ := h
      have ih := readChars_complete hq hb h4
      show readChars q (c :: charsText q r) = _
      rw [readChars.eq_def]
      simp only
      split
      · rename_i hc
        subst hc
        have hbk : backOk r = true := by simpa using h3
        cases r with
        | nil => simp [backOk] at hbk
        | cons x xs =>
            have hd : ∃ d r', charsText q (x :: xs) = d :: r' ∧ d ≠ 'n' ∧ d ≠ q := by
              cases x with
              | ch c =>
                  rw [charsOk] at h4
                  simp only [Bool.and_eq_true, bne_iff_ne, Bool.or_eq_true] at h4
                  exact ⟨c, _, rfl, by simpa [backOk] using hbk, h4.1.1.1⟩
              | nl => exact ⟨'\\', _, rfl, by decide, hb.symm⟩
              | quote => exact ⟨'\\', _, rfl, by decide, hb.symm⟩
            obtain ⟨d, r', e, hd1, hd2⟩ := hd
            rw [e] at ih ⊢
            simp only [hd1, hd2, if_false, ih, Option.map_some]
      · rw [if_neg (by simp [h1, h2]), ih]
        rfl

theorem readChars_plain {q : Char} : ∀ {w : Str}, q ∉ w → '\n' ∉ w → '\\' ∉ w → readChars q w = some (w.map .ch)
  | [], _, _, _ => by simp [readChars]
  | c :: w, h1, h2, h3 => by
      simp only [List.mem_cons, not_or] at h1 h2 h3
      rw [readChars.eq_def]
      simp only
      rw [if_neg (Ne.symm h3.1), if_neg (by simp [Ne.symm h1.1, Ne.symm h2.1]), readChars_plain h1.2 h2.2 h3.2]
      rfl

/-- **C41**, the texts the theorems below range over: the well-formed contents of a literal are exactly
the texts that can be read as such. -/
theorem C41_texts (single : Bool) (w : Str) (s : List SChar) :
    readChars (quote single) w = some s ↔ charsText (quote single) s = w ∧ charsOk (quote single) s = true := by
  obtain ⟨h1, h2, _⟩ := quote_ne single
  refine ⟨readChars_spec h1 h2, fun ⟨a, b⟩ => ?_⟩
  subst a
  exact readChars_complete h1 h2 b

section
variable [Host]

/-- **C41**, exactly: a literal in a tag compiles, it is the tag's only argument, and it denotes what it
says up to its last unescaped character: escapes at the very end are lost. -/
theorem C41_exact (name : Str) (single : Bool) (w : Str) (s : List SChar) (o : ParserOptions) (hn : nameOk name = true)
    (hw : readChars (quote single) w = some s) :
    ∃ c src sp ln, compile (literalTag name single w) o = .ok (.document (literalTag name single w) [.statement c]) ∧
      c.args = [.json src (.str (meaning (quote single) (kept s))) sp ln] ∧ c.params = [] := by
  obtain ⟨h1, h2⟩ := (C41_texts single w s).1 hw
  have hk : (STm.stmt false false ⟨false, false, [], [], []⟩ ⟨0, .name name, []⟩ (.arg (.lit (.str single s)) (.done .nil)) .nil).ok [] = true := by
    simp [STm.ok, Tilde.ok, gapOk, SPath.ok, hn, SArgs.ok, SHash.ok, SExpr.ok, SLit.ok, h2, STm.noBrace, blank]
  obtain ⟨ns, g1, g2⟩ := C56_roundtrip _ o hk
  have e : (STm.stmt false false ⟨false, false, [], [], []⟩ ⟨0, .name name, []⟩ (.arg (.lit (.str single s)) (.done .nil)) .nil).src =
      literalTag name single w := by
    simp [STm.src, stmtText, Tilde.mark, tilde, brace, gt, SPath.text, dots, Head.text, following, dotted, SArgs.text, SHash.text, SExpr.text,
      SLit.text, h1, literalTag]
  rw [e] at g1
  cases g2 with
  | stmt _ ht _ _ hr =>
      cases hr
      have ha := ht.args
      generalize hca : Call.args _ = as at ha
      generalize hcp : Call.params _ = ps at ha
      cases ha with
      | arg hx hr =>
          cases hx with
          | lit h =>
              cases hr with
              | done hh =>
                  cases hh
                  exact ⟨_, _, _, _, g1, hca, hcp⟩

/-- **C41** (partial: literals that end with an escape are excluded, see `C41_violated`): a literal
denotes its text with `\n` and escaped quotes replaced, and nothing is cut off. -/
theorem C41_partial (name : Str) (single : Bool) (w : Str) (s : List SChar) (o : ParserOptions) (hn : nameOk name = true)
    (hw : readChars (quote single) w = some s) (hl : ∀ x, s.getLast? = some x → x.isEsc = false) :
    ∃ c src sp ln, compile (literalTag name single w) o = .ok (.document (literalTag name single w) [.statement c]) ∧
      c.args = [.json src (.str (meaning (quote single) s)) sp ln] ∧ c.params = [] := by
  have := C41_exact name single w s o hn hw
  have hk : kept s = s := by
    unfold kept
    rcases hr : s.reverse with _ | ⟨x, r⟩
    · simp [List.reverse_eq_nil_iff.1 hr]
    · have hx := hl x (by rw [← List.head?_reverse, hr]; rfl)
      rw [List.dropWhile_cons_of_neg (by simp [hx]), ← hr, List.reverse_reverse]
  rwa [hk] at this

/-- **C41**: a literal without backslashes denotes exactly the text between its quotes. -/
theorem C41_plain (name : Str) (single : Bool) (w : Str) (o : ParserOptions) (hn : nameOk name = true)
    (h1 : quote single ∉ w) (h2 : '\n' ∉ w) (h3 : '\\' ∉ w) :
    ∃ c src sp ln, compile (literalTag name single w) o = .ok (.document (literalTag name single w) [.statement c]) ∧
      c.args = [.json src (.str w) sp ln] ∧ c.params = [] := by
  have := C41_partial name single w _ o hn (readChars_plain h1 h2 h3) (by
    intro x hx
    have := List.mem_of_getLast? hx
    obtain ⟨c, _, rfl⟩ := List.mem_map.1 this
    rfl)
  simpa [meaning, SChar.value, Function.comp_def] using this

/-- **C41** is violated: the literal `"say \"hi\""` denotes `say "hi`: its last quote is cut off, and so is
every literal that ends with an escape. -/
theorem C41_violated (name : Str) (single : Bool) (w : Str) (s : List SChar) (o : ParserOptions) (hn : nameOk name = true)
    (hw : readChars (quote single) w = some s) (x : SChar) (hl : s.getLast? = some x) (hx : x.isEsc = true) :
    ∃ c src sp ln v, compile (literalTag name single w) o = .ok (.document (literalTag name single w) [.statement c]) ∧
      c.args = [.json src (.str v) sp ln] ∧ v.length < (meaning (quote single) s).length := by
  obtain ⟨c, src, sp, ln, h1, h2, _⟩ := C41_exact name single w s o hn hw
  refine ⟨c, src, sp, ln, _, h1, h2, ?_⟩
  unfold meaning kept
  rcases hr : s.reverse with _ | ⟨y, r⟩
  · simp [List.reverse_eq_nil_iff.1 hr] at hl
  · have : y = x := by
      have := List.head?_reverse (l := s)
      rw [hr, hl] at this
      simpa using this
    subst this
    rw [List.dropWhile_cons_of_pos hx]
    have hlen := congrArg List.length hr
    simp only [List.length_reverse, List.length_cons] at hlen
    simp only [List.length_map, List.length_reverse, hlen]
    exact Nat.lt_succ_of_le (List.dropWhile_sublist _).length_le

end

attribute [local instance] exHost

example : readChars (quote false) c!"say \\\"hi\\\"" = some [.ch 's', .ch 'a', .ch 'y', .ch ' ', .quote, .ch 'h', .ch 'i', .quote] := by decide +kernel
example : readChars (quote true) c!"it\\'s \"\\n\" \\x" = some [.ch 'i', .ch 't', .quote, .ch 's', .ch ' ', .ch '"', .nl, .ch '"', .ch ' ', .ch '\\', .ch 'x'] := by
  decide +kernel
example : meaning (quote true) [.ch 'i', .ch 't', .quote, .ch 's', .nl] = c!"it's\n" := by decide +kernel
example : literalTag c!"f" false c!"a b" = c!"{{f \"a b\"}}" := by decide +kernel
example : nameOk c!"f" = true := by decide

end Bracket.Props
