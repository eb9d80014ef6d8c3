import Verif.Lemmas.ParseStr

/-! Parsing the text of a path gives that path. -/

set_option linter.unusedSectionVars false
set_option linter.unusedSimpArgs false

namespace Bracket
open Re Spec Props P

/-- The lookahead token and the state hold the tokens `L`. -/
structure Look (L : List Token) (o : Option Token) (s : PS) : Prop where
  head : o = L.head?
  tail : s.toks = L.tail

/-- The same, but a newline at the front may have been taken. -/
def LookN (off : Nat) (r : Str) (o : Option Token) (s : PS) : Prop :=
  Look (lexFrom .params off r) o s ∨ ∃ r', r = '\n' :: r' ∧ Look (lexFrom .params (off + 1) r') o s

/-- What follows a path or a literal in a tag. -/
inductive Follow : Str → Prop
  | nil : Follow []
  | space {c : Char} (h : blank c = true) (r : Str) : Follow (c :: r)
  | paren (r : Str) : Follow (')' :: r)
  | fin (t : Bool) (n : Nat) {r : Str} (hn : n ≤ 2) (h : n < 2 → NotNext ['}'] r) :
      Follow ((tilde t ++ (List.replicate n '}' ++ c!"}}")) ++ r)

theorem blank_cases {c : Char} (h : blank c = true) : c = ' ' ∨ c = '\t' ∨ c = '\n' := by
  simp [blank] at h; grind

theorem Follow.head {rest : Str} (h : Follow rest) : ∀ c r, rest = c :: r → c ∈ [' ', '\t', '\n', ')', '~', '}'] := by
  intro c r e
  cases h with
  | nil => cases e
  | space h _ =>
      cases e
      rcases blank_cases h with rfl | rfl | rfl <;> simp
  | paren _ => cases e; simp
  | fin t n _ _ =>
      cases t
      · cases n
        · cases e; simp
        · simp only [tilde, List.replicate_succ] at e; cases e; simp
      · cases e; simp

theorem Follow.brk {rest : Str} (h : Follow rest) : Brk rest := by
  intro c r e
  have := h.head c r e
  simp only [List.mem_cons, List.not_mem_nil, or_false] at this
  rcases this with rfl | rfl | rfl | rfl | rfl | rfl <;> decide

theorem Follow.noDot {rest : Str} (h : Follow rest) : ∀ c r, rest = c :: r → c ≠ '.' ∧ c ≠ '+' := by
  intro c r e
  have := h.head c r e
  constructor <;> (rintro rfl; revert this; decide)

theorem takeWhile_split (p : Char → Bool) (s : Str) : ∃ w r, s = w ++ r ∧ (∀ c ∈ w, p c = true) ∧ (∀ c t, r = c :: t → p c = false) := by
  induction s with
  | nil => exact ⟨[], [], rfl, by simp, by simp⟩
  | cons c s ih =>
      by_cases h : p c = true
      · obtain ⟨w, r, rfl, h1, h2⟩ := ih
        exact ⟨c :: w, r, rfl, by simpa [h] using h1, h2⟩
      · refine ⟨[], c :: s, rfl, by simp, ?_⟩
        rintro d t e
        cases e
        simpa using h

theorem blen_flat : ∀ {w : Str}, w.all blank = true → blen w = w.length
  | [], _ => rfl
  | c :: w, h => by
      simp only [List.all_cons, Bool.and_eq_true] at h
      rw [blen_cons, blen_flat h.2, List.length_cons, show c.utf8Size = 1 from ?_]
      · omega
      · rcases blank_cases h.1 with rfl | rfl | rfl <;> rfl

theorem flat_blank {w : Str} (h : w.all flat = true) : w.all blank = true := by
  rw [List.all_eq_true] at h ⊢
  intro c hc
  have := h c hc
  simp [flat] at this
  simp [blank]; grind

/-- A stretch of spaces and tabs is one token. -/
theorem lex_flat {c : Char} (hc : flat c = true) (r : Str) (off : Nat) : ∃ w r', c :: r = w ++ r' ∧ w ≠ [] ∧ w.all flat = true ∧
    NotNext [' ', '\t'] r' ∧ lexFrom .params off (c :: r) = ⟨.params .whiteSpace, ⟨off, off + blen w⟩⟩ :: lexFrom .params (off + blen w) r' := by
  obtain ⟨w, r', e, h1, h2⟩ := takeWhile_split flat (c :: r)
  have hne : w ≠ [] := by
    rintro rfl
    have := h2 c r e.symm
    rw [hc] at this; cases this
  have hw : w.all flat = true := List.all_eq_true.2 h1
  have hn : NotNext [' ', '\t'] r' := by
    intro d t e hd
    have := h2 d t e
    simp at hd
    rcases hd with rfl | rfl <;> revert this <;> decide
  refine ⟨w, r', e, hne, hw, hn, ?_⟩
  rw [e, lexFrom_tok _ hne (tok_flat hne hw hn)]
  rfl

theorem lex_newline (r : Str) (off : Nat) :
    lexFrom .params off ('\n' :: r) = ⟨.params .newline, ⟨off, off + 1⟩⟩ :: lexFrom .params (off + 1) r :=
  lexFrom_tok1 off (tok_newline r)

/-- The next token, if any, does not continue a path. -/
def StopTok (L : List Token) : Prop :=
  ∀ t ts, L = t :: ts → t.isNewline = false ∧ ∃ lex, t.kind = .params lex ∧ isPathComponent lex = false

theorem Follow.stop {rest : Str} (h : Follow rest) (off : Nat) : StopTok (lexFrom .params off rest) ∨ ∃ r, rest = '\n' :: r := by
  cases h with
  | nil => left; intro t ts e; cases e
  | @space c h r =>
      have hx : c = '\n' ∨ flat c = true := by
        rcases blank_cases h with rfl | rfl | rfl
        · right; decide
        · right; decide
        · exact .inl rfl
      rcases hx with rfl | hc
      · exact .inr ⟨r, rfl⟩
      · left
        intro t ts e
        obtain ⟨w, r', _, _, _, _, hl⟩ := lex_flat hc r off
        rw [hl] at e
        cases e; exact ⟨rfl, _, rfl, rfl⟩
  | paren r => left; intro t ts e; rw [lexFrom_tok1 off (tok_rparen r)] at e; cases e; exact ⟨rfl, _, rfl, rfl⟩
  | fin t n hn h =>
      left
      intro t' ts e
      rw [lexFrom_tok off (by simp) (tok_fin t n hn h)] at e
      cases e; exact ⟨rfl, _, rfl, rfl⟩

section
variable [Host] (E : PEnv)

/-- A compiled component for the part `c`. -/
structure CompRep (c : SPart) (k : Component) : Prop where
  kind : k.kind = c.kind
  value : k.asValue = some c.name

inductive CompsRep : List SComp → List Component → Prop
  | nil : CompsRep [] []
  | cons {c : SComp} {cs : List SComp} {k : Component} {ks : List Component} (h : CompRep c.part k) (hs : CompsRep cs ks) :
      CompsRep (c :: cs) (k :: ks)

theorem CompsRep.kinds {cs : List SComp} {ks : List Component} (h : CompsRep cs ks) :
    ks.map (·.kind) = cs.map (·.part.kind) := by
  induction h with
  | nil => rfl
  | cons h _ ih => simp [h.kind, ih]

theorem CompsRep.texts {cs : List SComp} {ks : List Component} (h : CompsRep cs ks) :
    ks.mapM Component.asValue = some (cs.map (·.part.name)) := by
  induction h with
  | nil => rfl
  | cons h _ ih => simp [List.mapM_cons, h.value, ih]

theorem nameOk_ne {w : Str} (h : nameOk w = true) : w ≠ [] := by
  obtain ⟨_, _, c, r, rfl, _⟩ := nameOk_spec h; simp

theorem nameOk_head {w : Str} (h : nameOk w = true) : ∃ c r, w = c :: r ∧ isIdent c = true := by
  obtain ⟨h1, _, c, r, rfl, _⟩ := nameOk_spec h
  exact ⟨c, r, rfl, h1 c (by simp)⟩

theorem lexNext_cons {s : PS} {t : Token} {ts : List Token} (h : s.toks = t :: ts) :
    lexNext s = (.ok (some t), { s with toks := ts }) := by
  unfold lexNext; rw [h]

theorem lexNext_nil {s : PS} (h : s.toks = []) : lexNext s = (.ok none, s) := by
  unfold lexNext; rw [h]

theorem comps_stop {n : Nat} {path : Path} {w : Bool} {s : PS} (h : StopTok s.toks) :
    ∃ o t, componentsLoop E (n + 1) path w s = (.ok (path, o), t) ∧ Look s.toks o t := by
  cases hs : s.toks with
  | nil =>
      refine ⟨none, s, ?_, ⟨by rfl, by rw [hs]; rfl⟩⟩
      rw [componentsLoop, P.bind_def, lexNext_nil hs]
      rfl
  | cons t ts =>
      obtain ⟨h1, lex, h2, h3⟩ := h t ts hs
      refine ⟨some t, { s with toks := ts, byte := t.span.start }, ?_, ⟨by rfl, rfl⟩⟩
      rw [componentsLoop, P.bind_def, lexNext_cons hs]
      obtain ⟨k, sp⟩ := t
      simp only at h2
      subst h2
      simp only [h1, Bool.false_eq_true, if_false]
      rw [P.bind_def]
      simp only [setByte]
      by_cases hf : lex = .fin
      · rw [if_pos hf]; rfl
      · rw [if_neg hf, if_neg (by rw [h3]; simp)]; rfl

theorem look_lexNext {L : List Token} {s : PS} (hs : s.toks = L) : ∃ o t, lexNext s = (.ok o, t) ∧ Look L o t := by
  cases L with
  | nil => exact ⟨none, s, lexNext_nil hs, ⟨rfl, hs⟩⟩
  | cons t ts => exact ⟨some t, { s with toks := ts }, lexNext_cons hs, ⟨rfl, rfl⟩⟩

theorem comps_follow {n : Nat} {path : Path} {w : Bool} {s : PS} {off : Nat} {rest : Str} (h : Follow rest)
    (hs : s.toks = lexFrom .params off rest) :
    ∃ o t, componentsLoop E (n + 1) path w s = (.ok (path, o), t) ∧ LookN off rest o t := by
  rcases h.stop off with h | ⟨r, rfl⟩
  · obtain ⟨o, t, h1, h2⟩ := comps_stop E (n := n) (path := path) (w := w) (s := s) (by rw [hs]; exact h)
    exact ⟨o, t, h1, .inl (by rw [← hs]; exact h2)⟩
  · rw [lex_newline] at hs
    obtain ⟨o, t, h1, h2⟩ := look_lexNext (s := { s with toks := lexFrom .params (off + 1) r, line := s.line + 1 }) rfl
    refine ⟨o, t, ?_, .inr ⟨r, rfl, h2⟩⟩
    rw [componentsLoop, P.bind_def, lexNext_cons hs]
    show (incLine >>= fun _ => lexNext >>= fun nx => pure (path, nx)) _ = _
    rw [P.bind_def]
    simp only [incLine]
    rw [P.bind_def, h1]
    rfl

theorem part_head {c : SPart} (h : c.ok = true) : ∃ d r, c.text = d :: r ∧ d ≠ '.' ∧ d ≠ '/' := by
  cases c with
  | word w =>
      obtain ⟨d, r, e, hd⟩ := nameOk_head h
      have h1 := isIdent_ne (x := '.') hd (by decide)
      have h2 := isIdent_ne (x := '/') hd (by decide)
      simp only [beq_eq_false_iff_ne] at h1 h2
      exact ⟨d, r, e, h1, h2⟩
  | bracket w => exact ⟨'[', _, rfl, by decide, by decide⟩
  | quoted q s => exact ⟨quote q, _, rfl, by cases q <;> decide, by cases q <;> decide⟩

/-- A quoted or bracketed component. -/
theorem quoted_part {lex : ParamTok} {ty : LitType} (hl : litOf lex = some ty) {pre text v rest : Str} {s s' : PS} {sp : Span} {fl : RawLit} {t : PS}
    (hs : s.toks = ⟨.params lex, ⟨blen pre, blen pre + 1⟩⟩ :: s'.toks) (hs' : s' = { s with toks := s'.toks, byte := blen pre })
    (h : Quoted E ty pre text v s' rest sp fl t) :
    ∃ k : Component, some k.kind = compKind lex ∧ k.asValue = some v ∧
      ∀ n path, componentsLoop E (n + 1) path false s = componentsLoop E n ((path.extend (blen pre + 1)).add k) true t := by
  obtain ⟨h1, h2, ⟨raw, h3, h4⟩, h5⟩ := h
  have hk : ∃ kd, compKind lex = some kd := by cases lex <;> first | exact ⟨_, rfl⟩ | cases hl
  obtain ⟨kd, hkd⟩ := hk
  have hv : ∀ u, compValue E sp (some fl) u = (.ok (if fl.hasEscapes then some (fl.intoOwned raw) else none), u) := by
    intro u
    unfold compValue
    simp only
    split
    · rw [P.bind_def]
      simp only [h3, orPanic]
      rfl
    · rfl
  refine ⟨{ src := E.src, kind := kd, span := sp, value := if fl.hasEscapes then some (fl.intoOwned raw) else none }, hkd.symm, ?_, ?_⟩
  · unfold Component.asValue
    simp only
    by_cases he : fl.hasEscapes = true
    · simp only [he, if_true] at h4 ⊢
      rw [h4]
    · simp only [he] at h4 ⊢
      rw [← h4]
      exact h3
  · intro n path
    rw [componentsLoop, P.bind_def, lexNext_cons hs]
    have hn : Token.isNewline ⟨.params lex, ⟨blen pre, blen pre + 1⟩⟩ = false := by cases lex <;> first | rfl | cases hl
    have hc : isPathComponent lex = true := by cases lex <;> first | rfl | cases hl
    have hf : lex ≠ .fin := by rintro rfl; cases hl
    have hd : lex ≠ .pathDelimiter := by rintro rfl; cases hl
    simp only [hn, Bool.false_eq_true, if_false]
    rw [P.bind_def]
    simp only [setByte]
    rw [if_neg hf, if_pos hc]
    have hrun : (compSpan E lex ⟨blen pre, blen pre + 1⟩ >>= fun x =>
        if lex = .pathDelimiter then (do setByte x.1.start; fail E .unexpectedPathDelimiter)
        else toComponent E lex x.1 x.2 >>= fun c => componentsLoop E n ((path.extend (blen pre + 1)).add c) true) s' =
        componentsLoop E n ((path.extend (blen pre + 1)).add
          { src := E.src, kind := kd, span := sp, value := if fl.hasEscapes then some (fl.intoOwned raw) else none }) true t := by
      rw [P.bind_def]
      unfold compSpan
      rw [hl]
      simp only
      rw [P.bind_def, h1]
      show (if lex = .pathDelimiter then (do setByte sp.start; fail E .unexpectedPathDelimiter)
        else toComponent E lex sp (some fl) >>= fun c => componentsLoop E n ((path.extend (blen pre + 1)).add c) true) t = _
      rw [if_neg hd, P.bind_def]
      unfold toComponent
      rw [P.bind_def, hv, hkd]
      rfl
    rw [← hrun, hs']
    cases lex <;> first | rfl | cases hl

/-- One part of a path. -/
theorem part_run (c : SPart) (pre rest : Str) (s : PS) (hok : c.ok = true) (hb : Brk rest) (hsrc : E.src = pre ++ (c.text ++ rest))
    (hs : s.toks = lexFrom .params (blen pre) (c.text ++ rest)) :
    ∃ k t, CompRep c k ∧ t.toks = lexFrom .params (blen (pre ++ c.text)) rest ∧
      ∀ n path, componentsLoop E (n + 1) path false s = componentsLoop E n ((path.extend (blen (pre ++ c.shown))).add k) true t := by
  cases c with
  | word w =>
      simp only [SPart.text] at hs hsrc ⊢
      rw [lexFrom_tok _ (nameOk_ne hok) (tok_name hok hb)] at hs
      rw [show nextMode .params (.params .identifier) = .params from rfl, ← blen_append] at hs
      refine ⟨{ src := E.src, kind := .identifier, span := ⟨blen pre, blen (pre ++ w)⟩, value := none },
        { s with toks := lexFrom .params (blen (pre ++ w)) rest, byte := blen pre }, ⟨rfl, ?_⟩, rfl, ?_⟩
      · exact slice_eq (a := pre) (b := w) (c := rest) (by rw [hsrc]) rfl (by simp)
      · intro n path
        rw [componentsLoop, P.bind_def, lexNext_cons hs]; rfl
  | bracket w =>
      simp only [SPart.text] at hs hsrc ⊢
      rw [List.cons_append, lexFrom_tok1 _ (tok_bracket _), show nextMode .params (.params .startArray) = .array from rfl,
        List.append_assoc] at hs
      obtain ⟨fl, t, hq⟩ := bracket_run E hok hsrc
        { s with toks := lexFrom .array (blen pre + 1) (w ++ ']' :: rest), byte := blen pre } rfl
      obtain ⟨k, h1, h2, h3⟩ := quoted_part E (lex := .startArray) rfl (s := s) hs rfl hq
      refine ⟨k, t, ⟨?_, h2⟩, hq.toks, ?_⟩
      · exact Option.some.inj h1
      · rw [show blen (pre ++ (SPart.bracket w).shown) = blen pre + 1 by simp [SPart.shown]; rfl]
        exact h3
  | quoted q w =>
      simp only [SPart.text] at hs hsrc ⊢
      have hsz : (quote q).utf8Size = 1 := by cases q <;> rfl
      have htk : nextTok .params (quote q :: (charsText (quote q) w ++ [quote q] ++ rest)) =
          (.params (if q then .singleQuoteString else .doubleQuoteString), 1) := by
        cases q
        · exact tok_dquote _
        · exact tok_squote _
      rw [List.cons_append, lexFrom_tok1 _ htk, hsz, List.append_assoc] at hs
      have hm : nextMode .params (.params (if q then .singleQuoteString else .doubleQuoteString)) = strMode q := by cases q <;> rfl
      rw [hm] at hs
      obtain ⟨fl, t, hq⟩ := quoted_run E q hok hsrc
        { s with toks := lexFrom (strMode q) (blen pre + 1) (charsText (quote q) w ++ quote q :: rest), byte := blen pre } rfl
      obtain ⟨k, h1, h2, h3⟩ := quoted_part E (ty := litType q) (lex := if q then .singleQuoteString else .doubleQuoteString)
        (by cases q <;> rfl) (s := s) hs rfl hq
      refine ⟨k, t, ⟨?_, h2⟩, hq.toks, ?_⟩
      · cases q <;> exact Option.some.inj h1
      · rw [show blen (pre ++ (SPart.quoted q w).shown) = blen pre + 1 by simp [SPart.shown, hsz]]
        exact h3

theorem tok_slash (rest : Str) : nextTok .params ('/' :: rest) = (.params .pathDelimiter, 1) := by
  cases rest <;> tok_simp

theorem sep_size (c : SComp) : c.sep.utf8Size = 1 := by unfold SComp.sep; split <;> rfl

/-- The separator before a part. -/
theorem sep_run (c : SComp) (pre rest : Str) (s : PS) (hok : c.part.ok = true)
    (hs : s.toks = lexFrom .params (blen pre) (c.sep :: (c.part.text ++ rest))) :
    ∃ t, t.toks = lexFrom .params (blen (pre ++ [c.sep])) (c.part.text ++ rest) ∧
      ∀ n path, componentsLoop E (n + 1) path true s = componentsLoop E n (path.extend (blen (pre ++ [c.sep]))) false t := by
  have ht : nextTok .params (c.sep :: (c.part.text ++ rest)) = (.params .pathDelimiter, 1) := by
    unfold SComp.sep
    split
    · exact tok_slash _
    · refine tok_dot ?_
      obtain ⟨d, r, e, h1, h2⟩ := part_head hok
      intro x r' e'
      rw [e] at e'
      cases e'
      simp [h1, h2]
  rw [lexFrom_tok1 _ ht, show nextMode .params (.params .pathDelimiter) = .params from rfl] at hs
  have eb : blen (pre ++ [c.sep]) = blen pre + c.sep.utf8Size := by simp
  rw [eb]
  refine ⟨{ s with toks := lexFrom .params (blen pre + c.sep.utf8Size) (c.part.text ++ rest), byte := blen pre }, rfl, ?_⟩
  intro n path
  rw [componentsLoop, P.bind_def, lexNext_cons hs]; rfl

theorem dotted_brk {rest : Str} (h : Brk rest) (cs : List SComp) : Brk (dotted cs ++ rest) := by
  cases cs with
  | nil => exact h
  | cons x cs =>
      intro c r e
      simp only [dotted, List.cons_append] at e
      cases e
      unfold SComp.sep
      split <;> decide

/-- Where the recorded text ends. -/
def endsAt (pre : Str) (stop : Nat) (cs : List SComp) : Nat := if cs = [] then stop else blen (pre ++ dottedShown cs)

theorem comps_run : ∀ (cs : List SComp) (pre rest : Str) (path : Path) (s : PS), cs.all (·.part.ok) = true → Follow rest →
    E.src = pre ++ (dotted cs ++ rest) → s.toks = lexFrom .params (blen pre) (dotted cs ++ rest) →
    ∃ ks o t, Ends (fun n => componentsLoop E n path true) s
        (.ok ({ path with components := path.components ++ ks, span := ⟨path.span.start, endsAt pre path.span.stop cs⟩ }, o)) t ∧
      CompsRep cs ks ∧ LookN (blen (pre ++ dotted cs)) rest o t := by
  intro cs
  induction cs with
  | nil =>
      intro pre rest path s _ hf hsrc hs
      simp only [dotted, List.nil_append, List.append_nil] at hsrc hs ⊢
      obtain ⟨o, t, h, hl⟩ := comps_follow E (n := 0) (path := path) (w := true) (s := s) hf hs
      refine ⟨[], o, t, ⟨by simp, 1, ?_⟩, .nil, hl⟩
      rw [List.append_nil]
      exact h
  | cons c cs ih =>
      intro pre rest path s hok hf hsrc hs
      simp only [List.all_cons, Bool.and_eq_true] at hok
      obtain ⟨hc, hcs⟩ := hok
      have e1 : dotted (c :: cs) ++ rest = c.sep :: (c.part.text ++ (dotted cs ++ rest)) := by simp [dotted]
      rw [e1] at hsrc hs
      obtain ⟨t1, a1, a2⟩ := sep_run E c pre _ s hc hs
      obtain ⟨k, t2, b1, b2, b3⟩ := part_run E c.part (pre ++ [c.sep]) (dotted cs ++ rest) t1 hc (dotted_brk hf.brk cs)
        (by rw [hsrc]; simp) a1
      obtain ⟨ks, o, t, ⟨_, n, h1⟩, h2, h3⟩ := ih (pre ++ [c.sep] ++ c.part.text) rest
        (((path.extend (blen (pre ++ [c.sep]))).extend (blen (pre ++ [c.sep] ++ c.part.shown))).add k) t2 hcs hf
        (by rw [hsrc]; simp) b2
      refine ⟨k :: ks, o, t, ⟨by simp, n + 2, ?_⟩, .cons b1 h2, ?_⟩
      · show componentsLoop E (n + 2) path true s = _
        rw [a2, b3]
        refine Eq.trans (show componentsLoop E n _ true _ = _ from h1) ?_
        have : endsAt (pre ++ [c.sep] ++ c.part.text) (blen (pre ++ [c.sep] ++ c.part.shown)) cs = endsAt pre path.span.stop (c :: cs) := by
          unfold endsAt
          cases cs with
          | nil => simp [dottedShown]
          | cons d cs => simp [dottedShown]
        simp only [Path.add, Path.extend]
        rw [this, List.append_assoc]
        rfl
      · rw [show pre ++ dotted (c :: cs) = pre ++ [c.sep] ++ c.part.text ++ dotted cs by simp [dotted]]
        exact h3

/-- Where the recorded text ends, after the beginning `h`. -/
def endsAfter (h : Head) (pre : Str) (stop : Nat) (cs : List SComp) : Nat := if cs = [] then stop else blen (pre ++ followingShown h cs)

/-- The rest of a path. -/
theorem following_run (h : Head) (cs : List SComp) (pre rest : Str) (path : Path) (s : PS) (hok : cs.all (·.part.ok) = true)
    (hf : Follow rest) (hsrc : E.src = pre ++ (following h cs ++ rest)) (hs : s.toks = lexFrom .params (blen pre) (following h cs ++ rest)) :
    ∃ ks o t, Ends (fun n => componentsLoop E n path (!(h == .dot))) s
        (.ok ({ path with components := path.components ++ ks, span := ⟨path.span.start, endsAfter h pre path.span.stop cs⟩ }, o)) t ∧
      CompsRep cs ks ∧ LookN (blen (pre ++ following h cs)) rest o t := by
  by_cases hd : h = .dot
  · subst hd
    cases cs with
    | nil =>
        simp only [following, dotted, List.nil_append, List.append_nil] at hsrc hs ⊢
        obtain ⟨o, t, h, hl⟩ := comps_follow E (n := 0) (path := path) (w := false) (s := s) hf hs
        refine ⟨[], o, t, ⟨by simp, 1, ?_⟩, .nil, hl⟩
        rw [List.append_nil]
        exact h
    | cons c cs =>
        simp only [List.all_cons, Bool.and_eq_true] at hok
        obtain ⟨hc, hcs⟩ := hok
        simp only [following, List.append_assoc] at hsrc hs ⊢
        obtain ⟨k, t2, b1, b2, b3⟩ := part_run E c.part pre (dotted cs ++ rest) s hc (dotted_brk hf.brk cs) hsrc hs
        obtain ⟨ks, o, t, ⟨_, n, h1⟩, h2, h3⟩ := comps_run E cs (pre ++ c.part.text) rest
          ((path.extend (blen (pre ++ c.part.shown))).add k) t2 hcs hf (by rw [hsrc]; simp) b2
        refine ⟨k :: ks, o, t, ⟨by simp, n + 1, ?_⟩, .cons b1 h2, by rw [← List.append_assoc]; exact h3⟩
        show componentsLoop E (n + 1) path false s = _
        rw [b3]
        refine Eq.trans (show componentsLoop E n _ true _ = _ from h1) ?_
        have : endsAt (pre ++ c.part.text) (blen (pre ++ c.part.shown)) cs = endsAfter .dot pre path.span.stop (c :: cs) := by
          unfold endsAt endsAfter
          cases cs with
          | nil => simp [followingShown]
          | cons d cs => simp [followingShown]
        simp only [Path.add, Path.extend]
        rw [this, List.append_assoc]
        rfl
  · have e1 : following h cs = dotted cs := by cases h <;> first | rfl | exact absurd rfl hd
    have e2 : followingShown h cs = dottedShown cs := by cases h <;> first | rfl | exact absurd rfl hd
    have e3 : (!(h == Head.dot)) = true := by simpa using hd
    rw [e1] at hsrc hs ⊢
    rw [e3]
    have := comps_run E cs pre rest path s hok hf hsrc hs
    unfold endsAfter
    rw [e2]
    exact this

theorem comps_at {path : Path} {s : PS} {a : Path × Option Token} {t : PS} {w : Bool}
    (h : Ends (fun n => componentsLoop E n path w) s (.ok a) t) :
    componentsLoop E (s.toks.length + 1) path w s = (.ok a, t) := by
  refine h.at (grows_components E path w) ?_
  have := componentsLoop_tri E (s.toks.length + 1) path w s (by omega)
  unfold Tri at this
  intro hf
  show False
  revert this
  generalize componentsLoop E (s.toks.length + 1) path w s = x at hf
  obtain ⟨r, u⟩ := x
  simp only at hf
  subst hf
  exact id

/-- The token kind of the beginning of a path. -/
def headTok : Head → ParamTok
  | .name _ => .identifier
  | .this => .explicitThisKeyword
  | .dot => .explicitThisDotSlash
  | .loc _ => .localIdentifier
  | .abs _ => .pathDelimiter

def Head.ok : Head → Bool
  | .name w => nameOk w
  | .this => true
  | .dot => true
  | .loc w => wordOk w
  | .abs _ => false

theorem head_word {h : Head} (hh : Head.ok h = true) : h.word = h.text := by
  cases h <;> first | rfl | cases hh

theorem head_absolute {h : Head} (hh : Head.ok h = true) : h.absolute = false := by
  cases h <;> first | rfl | cases hh

theorem head_ne {h : Head} (hh : Head.ok h = true) : h.text ≠ [] := by
  cases h with
  | name w => exact nameOk_ne hh
  | this => simp [Head.text]
  | dot => simp [Head.text]
  | loc w => simp [Head.text]
  | abs w => cases hh

theorem tok_dotSlash (rest : Str) : nextTok .params (c!"./" ++ rest) = (.params .explicitThisDotSlash, 2) := by
  cases rest <;> tok_simp

theorem tok_head {h : Head} {rest : Str} (hh : Head.ok h = true) (hb : h ≠ .dot → Brk rest) :
    nextTok .params (h.text ++ rest) = (.params (headTok h), h.text.length) := by
  cases h with
  | name w => exact tok_name hh (hb (by simp))
  | this => exact tok_kw (p := 8) (hb (by simp)) (by simp [Head.text, headTok])
  | dot => exact tok_dotSlash rest
  | loc w => exact tok_loc hh (hb (by simp))
  | abs w => cases hh

theorem wordOk_root {w : Str} : (w == c!"root") = ('@' :: w == c!"@root") := by
  rw [Bool.eq_iff_iff]; simp

/-- The rest of a path, from its beginning. -/
theorem pathFirst_run (h : Head) (ws : List SComp) (pre rest : Str) (path : Path) (s : PS) (ts : List Token)
    (hh : Head.ok h = true) (hws : ws.all (·.part.ok) = true) (hf : Follow rest)
    (hsrc : E.src = pre ++ (h.text ++ (following h ws ++ rest)))
    (hs : s.toks = lexFrom .params (blen (pre ++ h.text)) (following h ws ++ rest))
    (hc : path.components = []) (hpar : path.parents = 0 ∨ ∃ w, h = .name w) (hroot : path.root = false) (hex : path.explicit = false) :
    ∃ q o t, pathFirst E ts (some ⟨.params (headTok h), ⟨blen pre, blen (pre ++ h.text)⟩⟩) path s = (.ok (some q, o), t) ∧
      q.parents = path.parents ∧ q.absolute = path.absolute ∧ q.explicit = h.explicit ∧ q.root = (h == .loc c!"root") ∧
      q.src = path.src ∧ q.span = ⟨path.span.start, blen (pre ++ (h.text ++ followingShown h ws))⟩ ∧
      q.components.map (·.kind) = h.kind :: ws.map (·.part.kind) ∧
      q.components.mapM Component.asValue = some (h.text :: ws.map (·.part.name)) ∧ (ws = [] → ∀ c ∈ q.components, c.value = none) ∧
      LookN (blen (pre ++ (h.text ++ following h ws))) rest o t := by
  let c : Component := { src := E.src, kind := h.kind, span := ⟨blen pre, blen (pre ++ h.text)⟩, value := none }
  have hcs : c.asStr = some h.text := by
    show slice E.src (blen pre) (blen (pre ++ h.text)) = some h.text
    exact slice_eq (a := pre) (b := h.text) (c := following h ws ++ rest) (by rw [hsrc]) rfl (by simp)
  let p1 : Path := (markPath (path.extend (blen (pre ++ h.text))) c h.text).add c
  obtain ⟨cs, o, t, h1, h2, h3⟩ := following_run E h ws (pre ++ h.text) rest p1 { s with byte := blen pre } hws hf
    (by rw [hsrc]; simp) hs
  have h1 := comps_at E h1
  refine ⟨{ p1 with components := p1.components ++ cs, span := ⟨p1.span.start, endsAfter h (pre ++ h.text) p1.span.stop ws⟩ }, o, t,
    ?_, rfl, rfl, ?_, ?_, rfl, ?_, ?_, ?_, ?_, ?_⟩
  rotate_right 1
  · rw [← List.append_assoc]; exact h3
  · unfold pathFirst
    simp only
    rw [P.bind_def]
    have hcomp : isPathComponent (headTok h) = true := by cases h <;> first | rfl | cases hh
    simp only [setByte, hcomp, if_true]
    rw [P.bind_def]
    have htc : ∀ s, toComponent E (headTok h) ⟨blen pre, blen (pre ++ h.text)⟩ none s = (.ok c, s) := by
      intro s; cases h <;> first | rfl | cases hh
    rw [htc]
    simp only
    rw [P.bind_def]
    simp only [orPanic, hcs]
    unfold pathRest
    have hlocal : (c.isLocal && decide ((markPath (path.extend (blen (pre ++ h.text))) c h.text).parents > 0)) = false := by
      cases h with
      | name w => rfl
      | this => rfl
      | dot => rfl
      | loc w =>
          have : path.parents = 0 := (hpar.resolve_right (by rintro ⟨_, h⟩; cases h))
          simp [markPath, Path.extend, this]
      | abs w => cases hh
    have hexp : (c.isExplicit && decide ((markPath (path.extend (blen (pre ++ h.text))) c h.text).parents > 0)) = false := by
      cases h with
      | name w => rfl
      | this =>
          have : path.parents = 0 := (hpar.resolve_right (by rintro ⟨_, h⟩; cases h))
          simp [markPath, Path.extend, this]
      | dot =>
          have : path.parents = 0 := (hpar.resolve_right (by rintro ⟨_, h⟩; cases h))
          simp [markPath, Path.extend, this]
      | loc w => rfl
      | abs w => cases hh
    simp only [hlocal, hexp, Bool.false_eq_true, if_false]
    rw [P.bind_def]
    simp only [P.get]
    rw [P.bind_def]
    have hds : c.isDotSlash = (h == .dot) := by cases h <;> rfl
    rw [hds]
    have h1' : componentsLoop E (s.toks.length + 1) ((markPath (path.extend (blen (pre ++ h.text))) c h.text).add c) (!(h == .dot))
      { s with byte := blen pre } = _ := h1
    rw [h1']
    simp only
    rw [if_neg]
    · rfl
    · simp [p1, Path.add]
  · simp [p1, markPath, Path.add, Path.extend, hex]
    cases h <;> rfl
  · simp only [p1, markPath, Path.add, Path.extend, hroot, hc]
    cases h with
    | name w =>
        show (false || (true && (w == c!"@root"))) = false
        have : w ≠ c!"@root" := by
          rintro rfl
          revert hh; decide
        simp [this]
    | this => decide
    | dot => decide
    | loc w => show (false || (true && ('@' :: w == c!"@root"))) = (Head.loc w == .loc c!"root")
               rw [← wordOk_root]
               rw [Bool.eq_iff_iff]; simp
    | abs w => cases hh
  · show Span.mk path.span.start _ = _
    congr 1
    show endsAfter h (pre ++ h.text) (blen (pre ++ h.text)) ws = _
    unfold endsAfter
    split
    · rename_i e
      subst e
      have : followingShown h [] = [] := by cases h <;> rfl
      rw [this, List.append_nil]
    · rw [List.append_assoc]
  · simp only [p1, markPath, Path.add, Path.extend, hc, List.nil_append, List.map_append, List.map_cons, List.map_nil,
      List.cons_append, h2.kinds, c]
  · simp only [p1, markPath, Path.add, Path.extend, hc, List.nil_append, List.cons_append, List.mapM_cons]
    have : c.asValue = some h.text := hcs
    rw [this, h2.texts]
    rfl
  · simp only [p1, markPath, Path.add, Path.extend, hc, List.nil_append, List.cons_append]
    intro e d hd
    subst e
    cases h2
    rcases List.mem_cons.1 hd with rfl | hd
    · rfl
    · cases hd

/-- `../` is counted. -/
theorem parents_run : ∀ (n : Nat) (pre rest : Str) (path : Path) (s : PS) (tok : Token) (ts : List Token),
    path.parents + n ≤ 255 → lexFrom .params (blen (pre ++ dots n)) rest = tok :: ts → tok.kind ≠ .params .parentRef →
    s.toks = lexFrom .params (blen pre) (dots n ++ rest) →
    ∃ t, parentsLoop s.toks path s = (.ok ({ path with parents := path.parents + n }, some tok), t) ∧ t.toks = ts := by
  intro n
  induction n with
  | zero =>
      intro pre rest path s tok ts hn hl hk hs
      simp only [dots, List.append_nil, List.nil_append] at hl hs
      rw [hl] at hs
      rw [hs]
      refine ⟨{ s with toks := ts }, ?_, rfl⟩
      rw [parentsLoop, P.bind_def]
      simp only [P.modify]
      rw [if_neg hk]
      rfl
  | succ n ih =>
      intro pre rest path s tok ts hn hl hk hs
      have e : dots (n + 1) ++ rest = c!"../" ++ (dots n ++ rest) := by simp [dots]
      rw [e, lexFrom_tok _ (by simp) (tok_parent _)] at hs
      rw [show nextMode .params (.params .parentRef) = .params from rfl] at hs
      have eb : blen pre + blen c!"../" = blen (pre ++ c!"../") := by simp
      rw [eb] at hs
      obtain ⟨t, h1, h2⟩ := ih (pre ++ c!"../") rest { path with parents := path.parents + 1 }
        { s with toks := lexFrom .params (blen (pre ++ c!"../")) (dots n ++ rest) } tok ts (by simp only; omega)
        (by rw [show pre ++ c!"../" ++ dots n = pre ++ dots (n + 1) by simp [dots]]; exact hl) hk rfl
      refine ⟨t, ?_, h2⟩
      rw [hs, parentsLoop, P.bind_def]
      simp only [P.modify, if_true]
      have : path.parents ≠ 255 := by omega
      rw [if_neg (by simp [this]), show (path.parents + 1) % 256 = path.parents + 1 from Nat.mod_eq_of_lt (by omega)]
      rw [h1]
      simp [Nat.add_assoc, Nat.add_comm 1 n]

/-- The token kinds a path can start with. -/
def isPathStart (lex : ParamTok) : Prop :=
  lex = .identifier ∨ lex = .explicitThisKeyword ∨ lex = .explicitThisDotSlash ∨ lex = .localIdentifier ∨ lex = .parentRef

theorem SPath.ok_spec {p : SPath} (h : p.ok = true) : Head.ok p.head = true ∧ p.rest.all (·.part.ok) = true ∧ p.parents ≤ 255 ∧
    (p.parents = 0 ∨ ∃ w, p.head = .name w) := by
  unfold SPath.ok at h
  obtain ⟨n, hd, ws⟩ := p
  simp only [Bool.and_eq_true, decide_eq_true_eq] at h
  obtain ⟨⟨h1, h2⟩, h3⟩ := h
  cases hd with
  | name w => exact ⟨h1, h2, h3, by exact .inr ⟨w, rfl⟩⟩
  | this => exact ⟨rfl, h2, h3, by exact .inl (by simpa using h1)⟩
  | dot => exact ⟨rfl, h2, h3, by exact .inl (by simpa using h1)⟩
  | loc w =>
      simp only [Bool.and_eq_true, beq_iff_eq] at h1
      exact ⟨h1.2, h2, h3, by exact .inl h1.1⟩
  | abs w => cases h1

/-- The recorded text is a beginning of the text. -/
theorem part_shown (c : SPart) : ∃ e, c.text = c.shown ++ e := by
  cases c with
  | word w => exact ⟨[], by simp [SPart.text, SPart.shown]⟩
  | bracket w => exact ⟨w ++ [']'], rfl⟩
  | quoted q s => exact ⟨charsText (quote q) s ++ [quote q], rfl⟩

theorem dotted_shown : ∀ cs : List SComp, ∃ e, dotted cs = dottedShown cs ++ e
  | [] => ⟨[], rfl⟩
  | [c] => by
      obtain ⟨e, he⟩ := part_shown c.part
      exact ⟨e, by simp [dotted, dottedShown, he]⟩
  | c :: d :: r => by
      obtain ⟨e, he⟩ := dotted_shown (d :: r)
      exact ⟨e, by rw [dotted, he, dottedShown]; simp⟩

theorem following_shown (h : Head) (cs : List SComp) : ∃ e, following h cs = followingShown h cs ++ e := by
  by_cases hd : h = .dot
  · subst hd
    match cs with
    | [] => exact ⟨[], rfl⟩
    | [c] =>
        obtain ⟨e, he⟩ := part_shown c.part
        exact ⟨e, by simp [following, followingShown, dotted, he]⟩
    | c :: d :: r =>
        obtain ⟨e, he⟩ := dotted_shown (d :: r)
        exact ⟨e, by rw [following, he, followingShown]; simp; simp⟩
  · have e1 : following h cs = dotted cs := by cases h <;> first | rfl | exact absurd rfl hd
    have e2 : followingShown h cs = dottedShown cs := by cases h <;> first | rfl | exact absurd rfl hd
    rw [e1, e2]
    exact dotted_shown cs

theorem path_run (p : SPath) (hp : p.ok = true) (pre rest : Str) (hf : Follow rest) (hsrc : E.src = pre ++ (p.text ++ rest)) :
    ∃ lex sp L, isPathStart lex ∧ lexFrom .params (blen pre) (p.text ++ rest) = ⟨.params lex, sp⟩ :: L ∧
      ∀ s : PS, s.toks = L → ∃ q o t, pathParse E lex sp s = (.ok (some q, o), t) ∧ PathRep p q ∧
        (p.rest = [] → ∀ c ∈ q.components, c.value = none) ∧ LookN (blen (pre ++ p.text)) rest o t := by
  obtain ⟨h1, h2, h3, h4⟩ := SPath.ok_spec hp
  obtain ⟨n, hd, ws⟩ := p
  simp only at h1 h2 h3 h4
  have hbrk : hd ≠ .dot → Brk (following hd ws ++ rest) := by
    intro hne
    have : following hd ws = dotted ws := by cases hd <;> first | rfl | exact absurd rfl hne
    rw [this]
    exact dotted_brk hf.brk ws
  -- the tokens of the beginning
  have hhead : ∀ pre, lexFrom .params (blen pre) (hd.text ++ (following hd ws ++ rest)) =
      ⟨.params (headTok hd), ⟨blen pre, blen (pre ++ hd.text)⟩⟩ :: lexFrom .params (blen (pre ++ hd.text)) (following hd ws ++ rest) := by
    intro pre
    rw [lexFrom_tok _ (head_ne h1) (tok_head h1 hbrk)]
    have : nextMode .params (.params (headTok hd)) = .params := by cases hd <;> rfl
    rw [this, blen_append]
  cases n with
  | zero =>
      have et : (SPath.mk 0 hd ws).text = hd.text ++ following hd ws := rfl
      rw [et] at hsrc ⊢
      rw [List.append_assoc] at hsrc ⊢
      refine ⟨headTok hd, _, _, ?_, hhead pre, ?_⟩
      · cases hd <;> first | cases h1; done | simp [isPathStart, headTok]
      · intro s hs
        obtain ⟨q, o, t, q1, q2, q3, q4, q5, q6, q7, q8, q9, qp, q10⟩ := pathFirst_run E hd ws pre rest
          (Path.new E.src ⟨blen pre, blen (pre ++ hd.text)⟩ ⟨s.line, s.line + 1⟩) s s.toks h1 h2 hf hsrc hs rfl (.inl rfl) rfl rfl
        refine ⟨q, o, t, ?_, ⟨q2, q3.trans (head_absolute h1).symm, q4, q5, q8, q9.trans (by rw [head_word h1]; rfl), ?_⟩, qp, q10⟩
        · unfold pathParse
          rw [P.bind_def]
          simp only [lineRange]
          rw [P.bind_def]
          have : slice E.src (blen pre) (blen (pre ++ hd.text)) = some hd.text :=
            slice_eq (a := pre) (b := hd.text) (c := following hd ws ++ rest) (by rw [hsrc]) rfl (by simp)
          simp only [this, orPanic]
          cases hd <;> first | exact q1 | cases h1
        · unfold Path.asStr
          rw [q6, q7]
          obtain ⟨e, he⟩ := following_shown hd ws
          exact slice_eq (a := pre) (b := hd.text ++ followingShown hd ws) (c := e ++ rest) (by simp [Path.new, hsrc, he]) rfl (by simp)
  | succ n =>
      have hname : ∃ w, hd = .name w := by
        cases hd with
        | name w => exact ⟨w, rfl⟩
        | this => rcases h4 with h | ⟨_, h⟩ <;> cases h
        | dot => rcases h4 with h | ⟨_, h⟩ <;> cases h
        | loc w => rcases h4 with h | ⟨_, h⟩ <;> cases h
        | abs w => cases h1
      have et : (SPath.mk (n + 1) hd ws).text = c!"../" ++ (dots n ++ (hd.text ++ following hd ws)) := by simp [SPath.text, dots]
      rw [et] at hsrc ⊢
      have e2 : c!"../" ++ (dots n ++ (hd.text ++ following hd ws)) ++ rest = c!"../" ++ (dots n ++ (hd.text ++ (following hd ws ++ rest))) := by
        simp
      rw [e2] at hsrc ⊢
      refine ⟨.parentRef, _, _, by simp [isPathStart], lexFrom_tok _ (by simp) (tok_parent _), ?_⟩
      intro s hs
      have eb : blen pre + blen c!"../" = blen (pre ++ c!"../") := by simp
      rw [show nextMode .params (.params .parentRef) = .params from rfl, eb] at hs
      obtain ⟨t1, r1, r2⟩ := parents_run n (pre ++ c!"../") (hd.text ++ (following hd ws ++ rest))
        { Path.new E.src ⟨blen pre, blen (pre ++ c!"../")⟩ ⟨s.line, s.line + 1⟩ with parents := 1 } s _ _ (by simp only; omega)
        (hhead _) (by obtain ⟨w, rfl⟩ := hname; simp [headTok]) hs
      obtain ⟨q, o, t, q1, q2, q3, q4, q5, q6, q7, q8, q9, qp, q10⟩ := pathFirst_run E hd ws (pre ++ c!"../" ++ dots n) rest
        { Path.new E.src ⟨blen pre, blen (pre ++ c!"../")⟩ ⟨s.line, s.line + 1⟩ with parents := 1 + n } t1 t1.toks h1 h2 hf
        (by rw [hsrc]; simp) r2 rfl (.inr hname) rfl rfl
      refine ⟨q, o, t, ?_, ⟨by rw [q2]; simp only; omega, q3.trans (head_absolute h1).symm, q4, q5, q8, q9.trans (by rw [head_word h1]; rfl), ?_⟩, qp, ?_⟩
      · unfold pathParse
        rw [P.bind_def]
        simp only [lineRange]
        rw [P.bind_def]
        have : slice E.src (blen pre) (blen (pre ++ c!"../")) = some c!"../" :=
          slice_eq (a := pre) (b := c!"../") (c := dots n ++ (hd.text ++ (following hd ws ++ rest))) (by rw [hsrc]) rfl (by simp)
        rw [eb]
        simp only [this, orPanic]
        rw [P.bind_def]
        simp only [P.get]
        rw [P.bind_def, r1]
        simp only
        rw [P.bind_def]
        exact q1
      · unfold Path.asStr
        rw [q6, q7]
        obtain ⟨e, he⟩ := following_shown hd ws
        have es : (SPath.mk (n + 1) hd ws).shown = c!"../" ++ (dots n ++ (hd.text ++ followingShown hd ws)) := by simp [SPath.shown, dots]
        rw [es]
        exact slice_eq (a := pre) (b := c!"../" ++ (dots n ++ (hd.text ++ followingShown hd ws))) (c := e ++ rest)
          (by simp [Path.new, hsrc, he]) rfl (by simp [Nat.add_assoc])
      · rw [show pre ++ (c!"../" ++ (dots n ++ (hd.text ++ following hd ws))) = pre ++ c!"../" ++ dots n ++ (hd.text ++ following hd ws) by simp]
        exact q10

theorem SPath.ok_arg {p : SPath} (h : p.ok = true) : p.argOk = true := by
  unfold SPath.argOk
  split
  · rename_i w hw
    have := (SPath.ok_spec h).1
    rw [hw] at this
    cases this
  · exact h

/-- The token kinds a path can start with as an argument. -/
def isArgStart (lex : ParamTok) : Prop := isPathStart lex ∨ lex = .pathDelimiter

theorem arg_path_run (p : SPath) (hp : p.argOk = true) (pre rest : Str) (hf : Follow rest) (hsrc : E.src = pre ++ (p.text ++ rest)) :
    ∃ lex sp L, isArgStart lex ∧ lexFrom .params (blen pre) (p.text ++ rest) = ⟨.params lex, sp⟩ :: L ∧
      ∀ s : PS, s.toks = L → ∃ q o t, pathParse E lex sp s = (.ok (some q, o), t) ∧ PathRep p q ∧
        (p.rest = [] → ∀ c ∈ q.components, c.value = none) ∧ LookN (blen (pre ++ p.text)) rest o t := by
  by_cases ha : ∃ w, p.head = .abs w
  · obtain ⟨w, hw⟩ := ha
    obtain ⟨n, hd, ws⟩ := p
    simp only at hw
    subst hw
    simp only [SPath.argOk, Bool.and_eq_true, beq_iff_eq] at hp
    obtain ⟨⟨rfl, hn⟩, h2⟩ := hp
    have h1 : Head.ok (.name w) = true := hn
    have et : (SPath.mk 0 (.abs w) ws).text = '/' :: (w ++ following (.name w) ws) := rfl
    rw [et] at hsrc ⊢
    rw [List.cons_append, List.append_assoc] at hsrc ⊢
    have hbrk : Brk (following (.name w) ws ++ rest) := dotted_brk hf.brk ws
    refine ⟨.pathDelimiter, _, _, .inr rfl, lexFrom_tok1 _ (tok_slash _), fun s hs => ?_⟩
    rw [show nextMode .params (.params .pathDelimiter) = .params from rfl] at hs
    have eb : blen pre + ('/').utf8Size = blen (pre ++ ['/']) := by simp
    rw [eb] at hs ⊢
    have hhead : lexFrom .params (blen (pre ++ ['/'])) (w ++ (following (.name w) ws ++ rest)) =
        ⟨.params .identifier, ⟨blen (pre ++ ['/']), blen (pre ++ ['/'] ++ w)⟩⟩ ::
          lexFrom .params (blen (pre ++ ['/'] ++ w)) (following (.name w) ws ++ rest) := by
      rw [lexFrom_tok _ (nameOk_ne hn) (tok_name hn hbrk)]
      rw [show nextMode .params (.params .identifier) = .params from rfl, blen_append (pre ++ ['/']) w]
    rw [hhead] at hs
    obtain ⟨q, o, t, q1, q2, q3, q4, q5, q6, q7, q8, q9, qp, q10⟩ := pathFirst_run E (.name w) ws (pre ++ ['/']) rest
      { Path.new E.src ⟨blen pre, blen (pre ++ ['/'])⟩ ⟨s.line, s.line + 1⟩ with absolute := true }
      { s with toks := lexFrom .params (blen (pre ++ ['/'] ++ w)) (following (.name w) ws ++ rest) }
      (lexFrom .params (blen (pre ++ ['/'] ++ w)) (following (.name w) ws ++ rest)) h1 h2 hf
      (by rw [hsrc]; simp [Head.text]) rfl rfl (.inl rfl) rfl rfl
    refine ⟨q, o, t, ?_, ⟨q2, q3, q4, q5, q8, q9, ?_⟩, qp, ?_⟩
    · unfold pathParse
      rw [P.bind_def]
      simp only [lineRange]
      rw [P.bind_def]
      have : slice E.src (blen pre) (blen (pre ++ ['/'])) = some ['/'] :=
        slice_eq (a := pre) (b := ['/']) (c := w ++ (following (.name w) ws ++ rest)) (by rw [hsrc]; simp) rfl (by simp)
      simp only [this, orPanic, if_true]
      rw [P.bind_def]
      have hlex : lexNext s = (.ok (some ⟨.params .identifier, ⟨blen (pre ++ ['/']), blen (pre ++ ['/'] ++ w)⟩⟩),
          { s with toks := lexFrom .params (blen (pre ++ ['/'] ++ w)) (following (.name w) ws ++ rest) }) := by
        unfold lexNext
        rw [hs]
      rw [hlex]
      simp only
      rw [P.bind_def]
      exact q1
    · unfold Path.asStr
      rw [q6, q7]
      obtain ⟨e, he⟩ := following_shown (.name w) ws
      refine slice_eq (a := pre) (b := '/' :: (w ++ followingShown (.name w) ws)) (c := e ++ rest) (by simp [Path.new, hsrc, he]) rfl ?_
      simp [Head.text, Nat.add_assoc]
    · rw [show pre ++ '/' :: (w ++ following (.name w) ws) = pre ++ ['/'] ++ (w ++ following (.name w) ws) by simp]
      exact q10
  · have hok : p.ok = true := by
      unfold SPath.argOk at hp
      split at hp
      · rename_i w hw
        exact absurd ⟨w, hw⟩ ha
      · exact hp
    obtain ⟨lex, sp, L, h1, h⟩ := path_run E p hok pre rest hf hsrc
    exact ⟨lex, sp, L, .inl h1, h⟩

end

end Bracket
