import Verif.Lemmas.ParseLit

/-! Parsing the text of a tag's content gives that content. -/

set_option linter.unusedSectionVars false
set_option linter.unusedSimpArgs false

namespace Bracket
open Re Spec Props P

/-- What closes a tag or sub-expression, and what follows. -/
inductive Closer : CallCtx → Str → Str → Prop
  | fin (t : Bool) (n : Nat) {r : Str} (hn : n ≤ 2) (h : n < 2 → NotNext ['}'] r) :
      Closer .call (tilde t ++ (List.replicate n '}' ++ c!"}}")) r
  | paren (r : Str) : Closer .subExpr [')'] r

theorem Closer.follow {ctx : CallCtx} {w r : Str} (h : Closer ctx w r) : Follow (w ++ r) := by
  cases h with
  | fin t n hn h => exact .fin t n hn h
  | paren r => exact .paren r

theorem Closer.notBlank {ctx : CallCtx} {w r : Str} (h : Closer ctx w r) : NotNext [' ', '\t', '\n'] (w ++ r) := by
  cases h with
  | fin t n hn h =>
      intro c r e
      cases t
      · cases n
        · cases e; simp
        · simp only [tilde, List.replicate_succ] at e; cases e; simp
      · cases e; simp
  | paren r => intro c r e; cases e; simp

/-- The tokens after it. -/
def After (ctx : CallCtx) (off : Nat) (r : Str) (o : Option Token) (t : PS) : Prop :=
  match ctx with
  | .call => o = none ∧ t.toks = lexFrom .block off r
  | .subExpr => Look (lexFrom .params off r) o t

/-! ### First characters -/

theorem NotNext.of_head {l : List Char} {w rest : Str} {c : Char} {r : Str} (e : w = c :: r) (h : c ∉ l) : NotNext l (w ++ rest) := by
  subst e
  intro d t e
  cases e
  exact h

theorem ident_notin {c : Char} (h : isIdent c = true) {l : List Char} (hl : ∀ x ∈ l, isIdent x = false) : c ∉ l := by
  intro hc
  rw [hl c hc] at h
  cases h

theorem SPath.first [Host] {p : SPath} (h : p.ok = true) : ∃ c r, p.text = c :: r ∧ (isIdent c = true ∨ c = '.' ∨ c = '@') := by
  obtain ⟨h1, _⟩ := SPath.ok_spec h
  obtain ⟨n, hd, ws⟩ := p
  cases n with
  | succ n => exact ⟨'.', _, rfl, .inr (.inl rfl)⟩
  | zero =>
      cases hd with
      | name w =>
          obtain ⟨c, r, rfl, hc⟩ := nameOk_head h1
          exact ⟨c, _, rfl, .inl hc⟩
      | abs w => cases h1
      | this => exact ⟨'t', _, rfl, .inl (by decide)⟩
      | dot => exact ⟨'.', _, rfl, .inr (.inl rfl)⟩
      | loc w => exact ⟨'@', _, rfl, .inr (.inr rfl)⟩

theorem SLit.first [Host] {l : SLit} (h : l.ok = true) : ∃ c r, l.text = c :: r ∧ (isIdent c = true ∨ c = '"' ∨ c = '\'' ∨ c = '[') := by
  cases l with
  | null => exact ⟨'n', _, rfl, .inl (by decide)⟩
  | bool b => cases b <;> exact ⟨_, _, rfl, .inl (by decide)⟩
  | nat n =>
      obtain ⟨h1, h2, _⟩ := showNat_isNumeral n
      cases hs : showNat n with
      | nil => exact absurd hs h1
      | cons c r => exact ⟨c, r, hs, .inl (isIdent_digit (isDigit_range.2 (h2 c (by rw [hs]; simp))))⟩
  | neg n => exact ⟨'-', _, rfl, .inl (by decide)⟩
  | dec d =>
      obtain ⟨ip, c, r, e, h1, h2, _⟩ := SNum.body_split (d := d) h
      cases hn : d.neg with
      | true => exact ⟨'-', SNum.body d, by simp [SLit.text, SNum.text_body, hn], .inl (by decide)⟩
      | false =>
          cases ip with
          | nil => exact absurd rfl h1
          | cons x ip =>
              exact ⟨x, ip ++ c :: r, by simp [SLit.text, SNum.text_body, hn, e], .inl (isIdent_digit (h2 x (by simp)))⟩
  | str q s =>
      cases q
      · exact ⟨'"', _, rfl, .inr (.inl rfl)⟩
      · exact ⟨'\'', _, rfl, .inr (.inr (.inl rfl))⟩
  | bracket w => exact ⟨'[', _, rfl, .inr (.inr (.inr rfl))⟩

theorem SPath.argOk_cases {p : SPath} (h : p.argOk = true) : p.ok = true ∨ ∃ w, p.head = .abs w ∧ p.parents = 0 := by
  unfold SPath.argOk at h
  split at h
  · rename_i w hw
    simp only [Bool.and_eq_true, beq_iff_eq] at h
    exact .inr ⟨w, hw, h.1.1⟩
  · exact .inl h

theorem SExpr.first [Host] {x : SExpr} (h : x.ok = true) : ∃ c r, x.text = c :: r ∧ c ∉ [' ', '\t', '\n'] := by
  cases x with
  | path p =>
      rw [SExpr.ok] at h
      rcases SPath.argOk_cases h with h | ⟨w, hw, hn⟩
      rotate_left
      · obtain ⟨n, hd, ws⟩ := p
        simp only at hw hn
        subst hw hn
        exact ⟨'/', _, by rw [SExpr.text]; rfl, by decide⟩
      obtain ⟨c, r, e, hc⟩ := SPath.first h
      refine ⟨c, r, by rw [SExpr.text]; exact e, ?_⟩
      rcases hc with hc | rfl | rfl
      · exact ident_notin hc (by decide)
      · decide
      · decide
  | lit l =>
      rw [SExpr.ok] at h
      obtain ⟨c, r, e, hc⟩ := SLit.first h
      refine ⟨c, r, by rw [SExpr.text]; exact e, ?_⟩
      rcases hc with hc | rfl | rfl | rfl
      · exact ident_notin hc (by decide)
      · decide
      · decide
      · decide
  | sub p a => exact ⟨'(', _, by rw [SExpr.text], by decide⟩

theorem wordOk_head {w : Str} (h : wordOk w = true) : ∃ c r, w = c :: r ∧ isIdent c = true := by
  obtain ⟨h1, h2⟩ := wordOk_spec h
  cases w with
  | nil => exact absurd rfl h1
  | cons c r => exact ⟨c, r, rfl, h2 c (by simp)⟩

theorem follow_ws {ws : Str} (hne : ws ≠ []) (h : ws.all blank = true) (r : Str) : Follow (ws ++ r) := by
  cases ws with
  | nil => exact absurd rfl hne
  | cons c ws =>
      simp only [List.all_cons, Bool.and_eq_true] at h
      exact .space h.1 (ws ++ r)

theorem wsOk {ws : Str} (h : (!ws.isEmpty) = true) : ws ≠ [] := by
  rintro rfl; simp at h

theorem follow_hash [Host] {h : SHash} (hh : h.ok = true) {rest : Str} (hf : Follow rest) : Follow (h.text ++ rest) := by
  cases h with
  | tail ws =>
      rw [SHash.ok] at hh
      rw [SHash.text]
      cases ws with
      | nil => exact hf
      | cons c ws => exact follow_ws (by simp) hh rest
  | pairW ws k x r =>
      rw [SHash.ok] at hh
      simp only [Bool.and_eq_true] at hh
      rw [SHash.text, List.append_assoc]
      exact follow_ws (wsOk hh.1.1.1.1.1) hh.1.1.1.1.2 _

theorem follow_args [Host] {a : SArgs} (ha : a.ok = true) {rest : Str} (hf : Follow rest) : Follow (a.text ++ rest) := by
  cases a with
  | done h => rw [SArgs.ok] at ha; rw [SArgs.text]; exact follow_hash ha hf
  | argW ws x r =>
      rw [SArgs.ok] at ha
      simp only [Bool.and_eq_true] at ha
      rw [SArgs.text, List.append_assoc]
      exact follow_ws (wsOk ha.1.1.1) ha.1.1.2 _

/-! ### Calls being filled -/

/-- A call with more arguments, closed. -/
def Call.fill (vs : List ParamValue) (hs : List (Str × ParamValue)) (sp : Span) : Call → Call
  | .mk s p c o _ t a ps l => .mk s p c o (some sp) t (a ++ vs) (ps ++ hs) l

theorem assocInsert_new {β : Type} (k : Str) (v : β) : ∀ (l : List (Str × β)), k ∉ l.map (·.1) → assocInsert k v l = l ++ [(k, v)]
  | [], _ => rfl
  | (k', v') :: l, h => by
      simp only [List.map_cons, List.mem_cons, not_or] at h
      rw [assocInsert, if_neg (fun e => h.1 e.symm), assocInsert_new k v l h.2]
      rfl

def _root_.Bracket.Spec.SArgs.keys : SArgs → List Str
  | .done h => h.keys
  | .argW _ _ r => r.keys

section
variable [Host] (E : PEnv)

theorem Ends.intro {α : Type} {f : Nat → P α} {s t : PS} {a : α} {n : Nat} (h : f n s = (.ok a, t)) : Ends f s (.ok a) t :=
  ⟨by simp, n, h⟩

/-- A closing token ends the arguments. -/
theorem close_run {ctx : CallCtx} {w r pre : Str} {c : Call} {o : Option Token} {s : PS} (hc : Closer ctx w r)
    (hl : Look (lexFrom .params (blen pre) (w ++ r)) o s) :
    ∃ o' t, After ctx (blen (pre ++ w)) r o' t ∧
      keyValueRest E 1 c o ctx s = (.ok (c.fill [] [] ⟨blen pre, blen (pre ++ w)⟩, o'), t) ∧
      argumentsP E 1 c o ctx s = (.ok (c.fill [] [] ⟨blen pre, blen (pre ++ w)⟩, o'), t) := by
  obtain ⟨ho, ht⟩ := hl
  cases hc with
  | fin tl n hn h =>
      rw [lexFrom_tok _ (by simp) (tok_fin tl n hn h), show nextMode .params (.params .fin) = .block from rfl, ← blen_append] at ho ht
      simp only [List.head?_cons, List.tail_cons] at ho ht
      subst ho
      refine ⟨none, s, ⟨rfl, ht⟩, ?_, ?_⟩
      · rw [keyValueRest]
        obtain ⟨⟩ := c
        simp only [Call.exit, Call.fill, List.append_nil]
        rfl
      · rw [argumentsP]
        obtain ⟨⟩ := c
        simp only [Call.exit, Call.fill, List.append_nil]
        rfl
  | paren r =>
      rw [show [')'] ++ r = ')' :: r from rfl, lexFrom_tok1 _ (tok_rparen r), show nextMode .params (.params .endSubExpression) = .params from rfl] at ho ht
      simp only [List.head?_cons, List.tail_cons] at ho ht
      subst ho
      have eb : blen pre + (')').utf8Size = blen (pre ++ [')']) := by simp
      rw [eb] at ht ⊢
      obtain ⟨o', t, h1, h2⟩ := look_lexNext ht
      refine ⟨o', t, h2, ?_, ?_⟩
      · rw [keyValueRest]
        simp only [if_true]
        rw [P.bind_def, h1]
        obtain ⟨⟩ := c
        simp only [Call.exit, Call.fill, List.append_nil]
        rfl
      · rw [argumentsP]
        simp only [if_true]
        rw [P.bind_def, h1]
        obtain ⟨⟩ := c
        simp only [Call.exit, Call.fill, List.append_nil]
        rfl

/-- Tokens a value begins with. -/
def isValStart (lex : ParamTok) : Prop := isArgStart lex ∨ isLitStart lex ∨ lex = .startSubExpression

def ExprRuns (x : SExpr) : Prop := x.ok = true → ∀ pre rest : Str, Follow rest → E.src = pre ++ (x.text ++ rest) →
  ∃ lex sp L, isValStart lex ∧ lexFrom .params (blen pre) (x.text ++ rest) = ⟨.params lex, sp⟩ :: L ∧
    ∀ s : PS, s.toks = L → ∃ v o t, Ends (fun n => valueP E n lex sp) s (.ok (v, o)) t ∧ ExprRep x v ∧
      LookN (blen (pre ++ x.text)) rest o t

def HashRuns (h : SHash) : Prop := h.ok = true → ∀ (ctx : CallCtx) (w r pre : Str) (c : Call) (o : Option Token) (s : PS),
  Closer ctx w r → E.src = pre ++ (h.text ++ (w ++ r)) → (∀ k ∈ h.keys, k ∉ c.params.map (·.1)) →
  LookN (blen pre) (h.text ++ (w ++ r)) o s →
  ∃ hs o' t, HashRep h hs ∧ After ctx (blen (pre ++ (h.text ++ w))) r o' t ∧
    Ends (fun n => keyValueRest E n c o ctx) s (.ok (c.fill [] hs ⟨blen (pre ++ h.text), blen (pre ++ (h.text ++ w))⟩, o')) t ∧
    Ends (fun n => argumentsP E n c o ctx) s (.ok (c.fill [] hs ⟨blen (pre ++ h.text), blen (pre ++ (h.text ++ w))⟩, o')) t

def ArgsRuns (a : SArgs) : Prop := a.ok = true → ∀ (ctx : CallCtx) (w r pre : Str) (c : Call) (o : Option Token) (s : PS),
  Closer ctx w r → E.src = pre ++ (a.text ++ (w ++ r)) → (∀ k ∈ a.keys, k ∉ c.params.map (·.1)) →
  LookN (blen pre) (a.text ++ (w ++ r)) o s →
  ∃ vs hs o' t, ArgsRep a vs hs ∧ After ctx (blen (pre ++ (a.text ++ w))) r o' t ∧
    Ends (fun n => argumentsP E n c o ctx) s (.ok (c.fill vs hs ⟨blen (pre ++ a.text), blen (pre ++ (a.text ++ w))⟩, o')) t

theorem val_path {lex : ParamTok} (hl : isArgStart lex) (n : Nat) (sp : Span) (s t : PS) (q : Path) (o : Option Token)
    (h : pathParse E lex sp s = (.ok (some q, o), t)) : valueP E (n + 1) lex sp s = (.ok (.path q, o), t) := by
  have : valueP E (n + 1) lex sp = (do
      let (path, tok) ← pathParse E lex sp
      match path with
      | some p => pure (.path p, tok)
      | none => fail E .expectedPath) := by
    rcases hl with (rfl | rfl | rfl | rfl | rfl) | rfl <;> (rw [valueP]; rfl)
  rw [this, P.bind_def, h]
  rfl

/-- The target of a call. -/
theorem target_run {p : SPath} (hp : p.ok = true) {pre rest : Str} (hf : Follow rest) (hsrc : E.src = pre ++ (p.text ++ rest))
    {c : Call} {o : Option Token} {s : PS} (ctx : CallCtx) (hl : Look (lexFrom .params (blen pre) (p.text ++ rest)) o s) :
    ∃ q o' t, targetP E 1 c o ctx s = (.ok (c.setTarget (.path q), o'), t) ∧ PathRep p q ∧
      (p.rest = [] → ∀ c ∈ q.components, c.value = none) ∧ LookN (blen (pre ++ p.text)) rest o' t := by
  obtain ⟨lex, sp, L, h1, h2, h3⟩ := path_run E p hp pre rest hf hsrc
  obtain ⟨ho, ht⟩ := hl
  rw [h2] at ho ht
  obtain ⟨q, o', t, h4, h5, hv, h6⟩ := h3 s ht
  refine ⟨q, o', t, ?_, h5, hv, h6⟩
  simp only [List.head?_cons] at ho
  subst ho
  have : targetP E 1 c (some ⟨.params lex, sp⟩) ctx = (do
      let (path, tok) ← pathParse E lex sp
      match path with
      | some p => pure (c.setTarget (.path p), tok)
      | none => pure (c, tok)) := by
    rcases h1 with rfl | rfl | rfl | rfl | rfl <;> (rw [targetP]; rfl)
  rw [this, P.bind_def, h4]
  rfl

theorem Ends.skip {α : Type} {f : Nat → P α} {g : Option Token → Nat → P α} {s u t : PS} {r : R α} {o : Option Token}
    (hs : lexNext s = (.ok o, u)) (he : Ends (g o) u r t) (hf : ∀ n, f (n + 1) = (do let nx ← lexNext; g nx n)) : Ends f s r t := by
  obtain ⟨hr, n, hn⟩ := he
  refine ⟨hr, n + 1, ?_⟩
  rw [hf, P.bind_def, hs]
  exact hn

/-- The function skips white space. -/
structure Skips {α : Type} (f : Option Token → Nat → P α) : Prop where
  ws : ∀ sp n, f (some ⟨.params .whiteSpace, sp⟩) (n + 1) = (do let nx ← lexNext; f nx n)
  nl : ∀ sp n, f (some ⟨.params .newline, sp⟩) (n + 1) = (do incLine; let nx ← lexNext; f nx n)

/-- White space before something is skipped. -/
theorem ws_skip :
    ∀ (k : Nat) (ws : Str) (off : Nat) (r : Str) (o : Option Token) (s : PS), ws.length ≤ k → ws.all blank = true →
      NotNext [' ', '\t', '\n'] r → LookN off (ws ++ r) o s →
      ∃ o' s', Look (lexFrom .params (off + blen ws) r) o' s' ∧
        ∀ {α : Type} (f : Option Token → Nat → P α), Skips f → ∀ res t, Ends (f o') s' res t → Ends (f o) s res t := by
  intro k
  induction k with
  | zero =>
      intro ws off r o s hk hb hn hl
      have : ws = [] := List.length_eq_zero_iff.1 (by omega)
      subst this
      rcases hl with hl | ⟨r', e, _⟩
      · exact ⟨o, s, hl, fun _ _ _ _ h => h⟩
      · exact absurd (by simp) (hn _ _ e)
  | succ k ih =>
      intro ws off r o s hk hb hn hl
      cases ws with
      | nil =>
          rcases hl with hl | ⟨r', e, _⟩
          · exact ⟨o, s, hl, fun _ _ _ _ h => h⟩
          · exact absurd (by simp) (hn _ _ e)
      | cons c ws =>
          have hb0 := hb
          simp only [List.all_cons, Bool.and_eq_true] at hb
          simp only [List.length_cons] at hk
          rcases hl with hl | ⟨r', e, hl⟩
          · have hx : c = '\n' ∨ flat c = true := by
              rcases blank_cases hb.1 with rfl | rfl | rfl
              · right; decide
              · right; decide
              · exact .inl rfl
            rcases hx with rfl | hc
            · obtain ⟨ho, ht⟩ := hl
              rw [List.cons_append, lex_newline] at ho ht
              simp only [List.head?_cons, List.tail_cons] at ho ht
              subst ho
              obtain ⟨o1, s1, g1, g2⟩ := look_lexNext (s := { s with line := s.line + 1 }) ht
              obtain ⟨o', s', h1, h2⟩ := ih ws (off + 1) r o1 s1 (by omega) hb.2 hn (.inl g2)
              refine ⟨o', s', ?_, fun f hf res t h => ?_⟩
              · rw [show off + blen ('\n' :: ws) = off + 1 + blen ws by rw [blen_cons]; have : ('\n').utf8Size = 1 := rfl; omega]
                exact h1
              · obtain ⟨hr, n, he⟩ := h2 f hf res t h
                refine ⟨hr, n + 1, ?_⟩
                rw [hf.nl, P.bind_def]
                simp only [incLine]
                rw [P.bind_def, g1]
                exact he
            · obtain ⟨w, r', e, hwne, hwf, hrn, hlex⟩ := lex_flat hc (ws ++ r) off
              have hsplit : ∃ ws', c :: ws = w ++ ws' ∧ r' = ws' ++ r := by
                have e' : (c :: ws) ++ r = w ++ r' := e
                rcases List.append_eq_append_iff.1 e' with ⟨q, e1, e2⟩ | ⟨q, e1, e2⟩
                · cases q with
                  | nil => exact ⟨[], by rw [e1]; simp, by simpa using e2.symm⟩
                  | cons d q =>
                      exfalso
                      have := List.all_eq_true.1 hwf d (by rw [e1]; simp)
                      refine hn d (q ++ r') (by rw [e2]; rfl) ?_
                      simp [flat] at this
                      simp; grind
                · exact ⟨q, e1, e2⟩
              obtain ⟨ws', e1, e2⟩ := hsplit
              have hlen : ws'.length ≤ k := by
                have := congrArg List.length e1
                have := List.length_pos_iff.2 hwne
                simp at *
                omega
              have hws' : ws'.all blank = true := by
                rw [e1, List.all_append, Bool.and_eq_true] at hb0
                exact hb0.2
              obtain ⟨ho, ht⟩ := hl
              rw [List.cons_append, hlex] at ho ht
              simp only [List.head?_cons, List.tail_cons] at ho ht
              subst ho
              rw [e2] at ht
              obtain ⟨o1, s1, g1, g2⟩ := look_lexNext ht
              obtain ⟨o', s', h1, h2⟩ := ih ws' (off + blen w) r o1 s1 hlen hws' hn (.inl g2)
              refine ⟨o', s', ?_, fun f hf res t h => ?_⟩
              · rw [e1, blen_append, ← Nat.add_assoc]; exact h1
              · obtain ⟨hr, n, he⟩ := h2 f hf res t h
                refine ⟨hr, n + 1, ?_⟩
                rw [hf.ws, P.bind_def, g1]
                exact he
          · cases e
            obtain ⟨o', s', h1, h2⟩ := ih ws (off + 1) r o s (by omega) hb.2 hn (.inl hl)
            refine ⟨o', s', ?_, h2⟩
            rw [show off + blen ('\n' :: ws) = off + 1 + blen ws by rw [blen_cons]; have : ('\n').utf8Size = 1 := rfl; omega]
            exact h1

theorem skips_args (c : Call) (ctx : CallCtx) : Skips (fun o n => argumentsP E n c o ctx) :=
  ⟨fun sp n => by rw [argumentsP], fun sp n => by rw [argumentsP]⟩

theorem skips_rest (c : Call) (ctx : CallCtx) : Skips (fun o n => keyValueRest E n c o ctx) :=
  ⟨fun sp n => by rw [keyValueRest], fun sp n => by rw [keyValueRest]⟩

theorem skips_target (c : Call) (ctx : CallCtx) : Skips (fun o n => targetP E n c o ctx) :=
  ⟨fun sp n => by rw [targetP], fun sp n => by rw [targetP]⟩

theorem skip_ws {ws r pre : Str} {o : Option Token} {s : PS} (hb : ws.all blank = true)
    (hn : NotNext [' ', '\t', '\n'] r) (hl : LookN (blen pre) (ws ++ r) o s) :
    ∃ o' s', Look (lexFrom .params (blen (pre ++ ws)) r) o' s' ∧
      ∀ {α : Type} (f : Option Token → Nat → P α), Skips f → ∀ res t, Ends (f o') s' res t → Ends (f o) s res t := by
  rw [blen_append]
  exact ws_skip ws.length ws _ r o s (Nat.le_refl _) hb hn hl

end

section
variable [Host] (E : PEnv)

mutual
theorem expr_runs : ∀ x : SExpr, ExprRuns E x
  | .path p => by
      intro hok pre rest hf hsrc
      rw [SExpr.ok] at hok
      rw [SExpr.text] at hsrc ⊢
      obtain ⟨lex, sp, L, h1, h2, h3⟩ := arg_path_run E p hok pre rest hf hsrc
      refine ⟨lex, sp, L, .inl h1, h2, fun s hs => ?_⟩
      obtain ⟨q, o, t, h4, h5, _, h6⟩ := h3 s hs
      exact ⟨.path q, o, t, Ends.intro (n := 1) (val_path E h1 0 sp s t q o h4), .path h5, h6⟩
  | .lit l => by
      intro hok pre rest hf hsrc
      rw [SExpr.ok] at hok
      rw [SExpr.text] at hsrc ⊢
      obtain ⟨lex, sp, L, h1, h2, h3⟩ := lit_run E l hok pre rest hf hsrc
      refine ⟨lex, sp, L, .inr (.inl h1), h2, fun s hs => ?_⟩
      obtain ⟨v, o, t, h4, h5, h6⟩ := h3 s hs
      exact ⟨v, o, t, Ends.intro (n := 1) h4, h5, .inl h6⟩
  | .sub p a => by
      intro hok pre rest hf hsrc
      have hx : (SExpr.sub p a).text = '(' :: (p.text ++ (a.text ++ [')'])) := by rw [SExpr.text]
      rw [SExpr.ok] at hok
      simp only [Bool.and_eq_true] at hok
      have e1 : (SExpr.sub p a).text ++ rest = '(' :: (p.text ++ (a.text ++ ([')'] ++ rest))) := by rw [hx]; simp
      rw [e1] at hsrc ⊢
      refine ⟨_, _, _, .inr (.inr rfl), lexFrom_tok1 _ (tok_lparen _), fun s hs => ?_⟩
      rw [show nextMode .params (.params .startSubExpression) = .params from rfl] at hs
      have eb : blen pre + ('(').utf8Size = blen (pre ++ ['(']) := by simp
      rw [eb] at hs ⊢
      obtain ⟨o1, t1, g1, g2⟩ := look_lexNext (s := { s with byte := blen (pre ++ ['(']) }) hs
      have hpar : Follow (a.text ++ ([')'] ++ rest)) := follow_args hok.2 (Follow.paren rest)
      obtain ⟨q, o2, t2, k1, k2, _, k3⟩ := target_run E (p := p) hok.1 (pre := pre ++ ['(']) (rest := a.text ++ ([')'] ++ rest)) hpar
        (by rw [hsrc]; simp) (c := Call.new E.src ⟨blen pre, blen (pre ++ ['('])⟩ ⟨s.line, s.line + 1⟩) .subExpr g2
      obtain ⟨vs, hs', o3, t3, m1, m2, m3⟩ := args_runs a hok.2 .subExpr [')'] rest (pre ++ ['('] ++ p.text)
        ((Call.new E.src ⟨blen pre, blen (pre ++ ['('])⟩ ⟨s.line, s.line + 1⟩).setTarget (.path q)) o2 t2 (.paren rest)
        (by rw [hsrc]; simp) (by simp [Call.new, Call.setTarget, Call.params]) k3
      obtain ⟨N, hN⟩ := m3.ge (grows_arguments E _ _ _)
      have hclose : blen (pre ++ ['('] ++ p.text ++ (a.text ++ [')'])) = blen (pre ++ (SExpr.sub p a).text) := by rw [hx]; simp [Nat.add_assoc]
      rw [hclose] at hN m2
      refine ⟨.subExpr ((((Call.new E.src ⟨blen pre, blen (pre ++ ['('])⟩ ⟨s.line, s.line + 1⟩).setTarget (.path q)).fill vs hs'
          ⟨blen (pre ++ ['('] ++ p.text ++ a.text), blen (pre ++ (SExpr.sub p a).text)⟩).linesEnd t3.line), o3, t3,
          Ends.intro (n := N + 3) ?_, ?_, .inl m2⟩
      · have hv : valueP E (N + 3) .startSubExpression ⟨blen pre, blen (pre ++ ['('])⟩ = (do
            let (c, tok) ← subExprP E (N + 2) ⟨blen pre, blen (pre ++ ['('])⟩
            pure (.subExpr c, tok)) := by rw [valueP]
        rw [hv, P.bind_def]
        have hsub : subExprP E (N + 2) ⟨blen pre, blen (pre ++ ['('])⟩ s =
            (.ok ((((Call.new E.src ⟨blen pre, blen (pre ++ ['('])⟩ ⟨s.line, s.line + 1⟩).setTarget (.path q)).fill vs hs'
          ⟨blen (pre ++ ['('] ++ p.text ++ a.text), blen (pre ++ (SExpr.sub p a).text)⟩).linesEnd t3.line, o3), t3) := by
          rw [subExprP, P.bind_def]
          simp only [setByte]
          rw [P.bind_def]
          simp only [lineRange]
          rw [P.bind_def, g1]
          simp only
          rw [P.bind_def]
          have hT : targetP E (N + 1) (Call.new E.src ⟨blen pre, blen (pre ++ ['('])⟩ ⟨s.line, s.line + 1⟩) o1 .subExpr t1 =
              (.ok ((Call.new E.src ⟨blen pre, blen (pre ++ ['('])⟩ ⟨s.line, s.line + 1⟩).setTarget (.path q), o2), t2) := by
            rcases (grows_target E (Call.new E.src ⟨blen pre, blen (pre ++ ['('])⟩ ⟨s.line, s.line + 1⟩) o1 .subExpr).le
              (show 1 ≤ N + 1 by omega) t1 with h | h
            · simp only [k1] at h; cases h
            · exact h.symm.trans k1
          rw [hT]
          simp only
          rw [P.bind_def, hN (N + 1) (by omega)]
          simp only [Call.fill, Call.new, Call.setTarget, Call.clo]
          rfl
        rw [hsub]
        rfl
      · refine .sub (q := q) rfl k2 m1 rfl rfl ?_
        show slice E.src (blen pre) (blen (pre ++ (SExpr.sub p a).text)) = some (SExpr.sub p a).text
        exact slice_eq (a := pre) (b := (SExpr.sub p a).text) (c := rest) (by rw [hsrc, ← e1]) rfl (by simp)
theorem args_runs : ∀ a : SArgs, ArgsRuns E a
  | .done h => by
      intro hok ctx w r pre c o s hc hsrc hk hl
      rw [SArgs.ok] at hok
      rw [SArgs.text] at hsrc hl ⊢
      rw [SArgs.keys] at hk
      obtain ⟨hs, o', t, h1, h2, h3, h4⟩ := hash_runs h hok ctx w r pre c o s hc hsrc hk hl
      exact ⟨[], hs, o', t, .done h1, h2, h4⟩
  | .argW ws x a => by
      intro hok ctx w r pre c o s hc hsrc hk hl
      rw [SArgs.ok] at hok
      simp only [Bool.and_eq_true] at hok
      obtain ⟨⟨⟨hw1, hw2⟩, hx⟩, ha⟩ := hok
      rw [SArgs.keys] at hk
      have e1 : (SArgs.argW ws x a).text ++ (w ++ r) = ws ++ (x.text ++ (a.text ++ (w ++ r))) := by rw [SArgs.text]; simp
      rw [e1] at hsrc hl
      obtain ⟨d, dr, ed, hd⟩ := SExpr.first hx
      obtain ⟨o0, s0, ⟨ho, ht⟩, hskip⟩ := skip_ws hw2 (NotNext.of_head ed hd) hl
      obtain ⟨lex, sp, L, h1, h2, h3⟩ := expr_runs x hx (pre ++ ws) (a.text ++ (w ++ r)) (follow_args ha hc.follow)
        (by rw [hsrc]; simp)
      rw [h2] at ht ho
      simp only [List.head?_cons, List.tail_cons] at ho ht
      obtain ⟨v, o1, t1, g1, g2, g3⟩ := h3 s0 ht
      obtain ⟨vs, hs, o', t, m1, m2, m3⟩ := args_runs a ha ctx w r (pre ++ ws ++ x.text) (c.addArg v) o1 t1 hc (by rw [hsrc]; simp)
        (by obtain ⟨⟩ := c; exact hk) g3
      have ec : pre ++ ws ++ x.text ++ (a.text ++ w) = pre ++ ((SArgs.argW ws x a).text ++ w) := by rw [SArgs.text]; simp
      have ec' : pre ++ ws ++ x.text ++ a.text = pre ++ (SArgs.argW ws x a).text := by rw [SArgs.text]; simp
      rw [ec, ec'] at m3
      rw [ec] at m2
      refine ⟨v :: vs, hs, o', t, .arg g2 m1, m2, hskip (fun o n => argumentsP E n c o ctx) (skips_args E c ctx) _ _ ?_⟩
      subst ho
      obtain ⟨N1, hN1⟩ := g1.ge (grows_value E _ _)
      obtain ⟨N2, hN2⟩ := m3.ge (grows_arguments E _ _ _)
      refine Ends.intro (n := N1 + N2 + 1) ?_
      have : argumentsP E (N1 + N2 + 1) c (some ⟨.params lex, sp⟩) ctx = (do
          let (v, nx) ← valueP E (N1 + N2) lex sp
          argumentsP E (N1 + N2) (c.addArg v) nx ctx) := by
        rcases h1 with h1 | h1 | h1
        · rcases h1 with (rfl | rfl | rfl | rfl | rfl) | rfl <;> rw [argumentsP]
        · rcases h1 with rfl | rfl | rfl | rfl | rfl | rfl | rfl <;> rw [argumentsP]
        · subst h1; rw [argumentsP]
      rw [this, P.bind_def, hN1 _ (by omega)]
      simp only
      rw [hN2 _ (by omega)]
      obtain ⟨⟩ := c
      simp [Call.fill, Call.addArg]
theorem hash_runs : ∀ h : SHash, HashRuns E h
  | .tail ws => by
      intro hok ctx w r pre c o s hc hsrc hk hl
      rw [SHash.ok] at hok
      rw [SHash.text] at hsrc hl ⊢
      obtain ⟨o1, s1, h1, h2⟩ := skip_ws hok hc.notBlank hl
      obtain ⟨o', t, c1, c2, c3⟩ := close_run E (c := c) hc h1
      rw [← List.append_assoc]
      exact ⟨[], o', t, .nil, c1, h2 _ (skips_rest E c ctx) _ _ (Ends.intro (n := 1) c2),
        h2 _ (skips_args E c ctx) _ _ (Ends.intro (n := 1) c3)⟩
  | .pairW ws k x h => by
      intro hok ctx w r pre c o s hc hsrc hk hl
      rw [SHash.ok] at hok
      simp only [Bool.and_eq_true, Bool.not_eq_true', ← Bool.not_eq_true, List.contains_iff_mem] at hok
      obtain ⟨⟨⟨⟨⟨hw1, hw2⟩, ok1⟩, ok2⟩, ok3⟩, ok4⟩ := hok
      have e1 : (SHash.pairW ws k x h).text ++ (w ++ r) = ws ++ ((k ++ ['=']) ++ (x.text ++ (h.text ++ (w ++ r)))) := by rw [SHash.text]; simp
      rw [e1] at hsrc hl
      obtain ⟨d, dr, ed, hd⟩ := wordOk_head ok1
      obtain ⟨o0, s0, ⟨ho, ht⟩, hskip⟩ := skip_ws hw2
        (NotNext.of_head (c := d) (r := dr ++ ['=']) (by rw [ed]; rfl) (ident_notin hd (by decide))) hl
      have htk : nextTok .params ((k ++ ['=']) ++ (x.text ++ (h.text ++ (w ++ r)))) = (.params .hashKey, (k ++ ['=']).length) := by
        rw [show (k ++ ['=']) ++ (x.text ++ (h.text ++ (w ++ r))) = k ++ '=' :: (x.text ++ (h.text ++ (w ++ r))) by simp, tok_hashKey _ ok1]
        simp
      rw [lexFrom_tok _ (by simp) htk, show nextMode .params (.params .hashKey) = .params from rfl, ← blen_append] at ht ho
      obtain ⟨lex, sp, L, h1, h2, h3⟩ := expr_runs x ok2 (pre ++ ws ++ (k ++ ['='])) (h.text ++ (w ++ r)) (follow_hash ok4 hc.follow)
        (by rw [hsrc]; simp)
      rw [h2] at ht
      simp only [List.head?_cons, List.tail_cons] at ho ht
      obtain ⟨v, o1, t1, g1, g2, g3⟩ := h3 { s0 with toks := L } rfl
      have hnew : k ∉ c.params.map (·.1) := hk k (by simp [SHash.keys])
      obtain ⟨hs, o', t, m1, m2, m3, _⟩ := hash_runs h ok4 ctx w r (pre ++ ws ++ (k ++ ['=']) ++ x.text) (c.addParam k v) o1 t1 hc
        (by rw [hsrc]; simp) (by
          intro k' hk'
          have h1 := hk k' (by simp [SHash.keys, hk'])
          obtain ⟨⟩ := c
          simp only [Call.addParam, Call.params] at h1 hnew ⊢
          rw [assocInsert_new _ _ _ hnew]
          simp only [List.map_append, List.mem_append, not_or, List.map_cons, List.map_nil, List.mem_singleton]
          refine ⟨h1, ?_⟩
          rintro rfl
          exact ok3 hk') g3
      have ec : pre ++ ws ++ (k ++ ['=']) ++ x.text ++ (h.text ++ w) = pre ++ ((SHash.pairW ws k x h).text ++ w) := by rw [SHash.text]; simp
      have ec' : pre ++ ws ++ (k ++ ['=']) ++ x.text ++ h.text = pre ++ (SHash.pairW ws k x h).text := by rw [SHash.text]; simp
      rw [ec, ec'] at m3
      rw [ec] at m2
      -- the key
      have key : Ends (fun n => keyValueP E n c ⟨blen (pre ++ ws), blen (pre ++ ws ++ (k ++ ['=']))⟩ ctx) s0
          (.ok (c.fill [] ((k, v) :: hs) ⟨blen (pre ++ (SHash.pairW ws k x h).text), blen (pre ++ ((SHash.pairW ws k x h).text ++ w))⟩, o')) t := by
        obtain ⟨N1, hN1⟩ := g1.ge (grows_value E _ _)
        obtain ⟨N2, hN2⟩ := m3.ge (grows_keyValueRest E _ _ _)
        refine Ends.intro (n := N1 + N2 + 1) ?_
        rw [keyValueP, P.bind_def]
        have hkey : slice E.src (blen (pre ++ ws)) (blen (pre ++ ws ++ (k ++ ['='])) - 1) = some k :=
          slice_eq (a := pre ++ ws) (b := k) (c := '=' :: (x.text ++ (h.text ++ (w ++ r)))) (by rw [hsrc]; simp) rfl
            (by have : ('=').utf8Size = 1 := rfl
                simp only [blen_append, blen_cons, blen_nil, this]; omega)
        simp only [hkey, orPanic]
        rw [P.bind_def]
        rw [lexNext_cons ht]
        simp only
        rw [P.bind_def, hN1 _ (by omega)]
        simp only
        rw [hN2 _ (by omega)]
        obtain ⟨⟩ := c
        simp only [Call.params] at hnew
        simp only [Call.fill, Call.addParam, assocInsert_new _ _ _ hnew, List.append_assoc, List.cons_append, List.nil_append]
      subst ho
      refine ⟨(k, v) :: hs, o', t, .pair g2 m1, m2, hskip _ (skips_rest E c ctx) _ _ ?_, hskip _ (skips_args E c ctx) _ _ ?_⟩
      · obtain ⟨hr, n, hn⟩ := key
        refine ⟨hr, n + 1, ?_⟩
        show keyValueRest E (n + 1) c _ ctx _ = _
        rw [keyValueRest]
        exact hn
      · obtain ⟨hr, n, hn⟩ := key
        refine ⟨hr, n + 1, ?_⟩
        show argumentsP E (n + 1) c _ ctx _ = _
        rw [argumentsP]
        exact hn
end

/-- A triple rules out running out of fuel. -/
theorem Tri.noFuel {α : Type} {m : P α} {s : PS} {Q : α → PS → Prop} (h : Tri m s Q) : (m s).1 ≠ .fuel := by
  unfold Tri at h
  intro hf
  rcases hm : m s with ⟨r, t⟩
  rw [hm] at h hf
  simp only at hf
  subst hf
  exact h

theorem Tri.rel {α : Type} {m : P α} {s t : PS} {Q : α → PS → Prop} {a : α} (h : Tri m s Q) (e : m s = (.ok a, t)) : PRel s t := by
  unfold Tri at h
  rw [e] at h
  exact h.1

theorem wt_fuel (o : Option Token) (s : PS) : 4 * Tri.wt o s + 1 ≤ callFuel s := by
  unfold Tri.wt callFuel
  cases o <;> simp
  omega

/-- The part of `callParse` after the flags. -/
def callBody (c : Call) (next : Option Token) : P Call := do
  let s ← P.get
  let (call, next) ← targetP E (callFuel s) c next .call
  let s ← P.get
  let (call, _) ← argumentsP E (callFuel s) call next .call
  let l ← P.line
  pure (call.linesEnd l)

theorem callBody_run {c : Call} {o : Option Token} {s : PS} (hcp : c.params = []) {p : SPath} (hp : p.ok = true) {a : SArgs} (ha : a.ok = true)
    {w r pre : Str} (hc : Closer .call w r) {ws : Str} (hws : ws.all blank = true)
    (hsrc : E.src = pre ++ (ws ++ (p.text ++ (a.text ++ (w ++ r)))))
    (hl : LookN (blen pre) (ws ++ (p.text ++ (a.text ++ (w ++ r)))) o s) :
    ∃ q vs hs l t, callBody E c o s = (.ok (((c.setTarget (.path q)).fill vs hs
        ⟨blen (pre ++ (ws ++ (p.text ++ a.text))),
         blen (pre ++ (ws ++ (p.text ++ (a.text ++ w))))⟩).linesEnd l), t) ∧
      PathRep p q ∧ (p.rest = [] → ∀ c ∈ q.components, c.value = none) ∧ ArgsRep a vs hs ∧
      t.toks = lexFrom .block (blen (pre ++ (ws ++ (p.text ++ (a.text ++ w))))) r := by
  have hF : Follow (a.text ++ (w ++ r)) := follow_args ha hc.follow
  obtain ⟨q, o1, t1, hT, hq, hv, hL⟩ : ∃ q o1 t1, Ends (fun n => targetP E n c o .call) s (.ok (c.setTarget (.path q), o1)) t1 ∧ PathRep p q ∧
      (p.rest = [] → ∀ c ∈ q.components, c.value = none) ∧
      LookN (blen (pre ++ ws ++ p.text)) (a.text ++ (w ++ r)) o1 t1 := by
    obtain ⟨d, dr, ed, hd⟩ := SPath.first hp
    have hd' : d ∉ [' ', '\t', '\n'] := by
      rcases hd with hd | rfl | rfl
      · exact ident_notin hd (by decide)
      · decide
      · decide
    obtain ⟨o2, s2, g2, hskip⟩ := skip_ws hws (NotNext.of_head ed hd') hl
    obtain ⟨q, o1, t1, h1, h2, h3, h4⟩ := target_run E hp (pre := pre ++ ws) hF (by rw [hsrc]; simp) (c := c) .call g2
    exact ⟨q, o1, t1, hskip _ (skips_target E c .call) _ _ (Ends.intro (n := 1) h1), h2, h3, by simpa using h4⟩
  obtain ⟨vs, hs, o2, t2, m1, m2, m3⟩ := args_runs E a ha .call w r (pre ++ ws ++ p.text) (c.setTarget (.path q)) o1 t1 hc
    (by rw [hsrc]; simp) (by obtain ⟨⟩ := c; simp only [Call.params] at hcp; subst hcp; simp [Call.setTarget, Call.params]) hL
  refine ⟨q, vs, hs, t2.line, t2, ?_, hq, hv, m1, ?_⟩
  · have e1 := hT.at (grows_target E _ _ _) (n := callFuel s) (((call_tri E _).2.2.2.2.1 c o .call s (wt_fuel o s)).noFuel)
    have e2 := m3.at (grows_arguments E _ _ _) (n := callFuel t1) (((call_tri E _).2.2.2.1 _ o1 .call t1 (wt_fuel o1 t1)).noFuel)
    unfold callBody
    rw [P.bind_def]
    simp only [P.get]
    rw [P.bind_def, e1]
    simp only
    rw [P.bind_def]
    simp only [P.get]
    rw [P.bind_def, e2]
    simp only
    rw [P.bind_def]
    simp only [P.line, List.append_assoc]
    rfl
  · rw [m2.2]
    simp only [List.append_assoc]

theorem callParse_eq (opn : Span) (s : PS) : callParse E opn s = (do
    let next ← lexNext
    let u ← P.get
    let (call, next) ← flagsLoop u.toks (Call.new E.src opn ⟨s.line, s.line + 1⟩) next
    if call.isPartial && call.conditional then fail E .mixedPartialConditional
    else callBody E call next) { s with byte := opn.stop } := rfl

/-- What a parsed tag looks like. -/
structure TagRun (part cond : Bool) (target : Option SPath) (a : SArgs) (opn clo : Span) (off : Nat) (r : Str) (s : PS) (c : Call) (t : PS) : Prop where
  rep : TagRep part cond target a c
  src : c.src = E.src
  opn : c.opn = opn
  clo : c.clo = some clo
  rel : PRel s t
  toks : t.toks = lexFrom .block off r
  plain : ∀ p, target = some p → p.rest = [] → ∀ q, c.target = .path q → ∀ x ∈ q.components, x.value = none

theorem Spec.Tilde.gapBlank {tl : Tilde} (ht : tl.ok = true) : tl.gap.all blank = true := by
  unfold Tilde.ok at ht; simp only [Bool.and_eq_true] at ht; exact ht.1.2

theorem Spec.Tilde.tailBlank {tl : Tilde} (ht : tl.ok = true) : tl.tail.all blank = true := by
  unfold Tilde.ok at ht; simp only [Bool.and_eq_true] at ht; exact ht.2

/-- Flags, as a function that skips white space. -/
def flagsF (c : Call) (o : Option Token) (_ : Nat) : P (Call × Option Token) := do
  let u ← P.get
  flagsLoop u.toks c o

theorem skips_flags (c : Call) : Skips (flagsF c) := by
  constructor
  · intro sp n
    funext s
    obtain ⟨toks, l, b, st, nx⟩ := s
    cases toks with
    | nil => simp [flagsF, P.bind_def, P.get, flagsLoop, lexNext]
    | cons t ts =>
        simp only [flagsF, P.bind_def, P.get, lexNext]
        rw [flagsLoop.eq_def]
        rfl
  · intro sp n
    funext s
    obtain ⟨toks, l, b, st, nx⟩ := s
    cases toks with
    | nil => simp [flagsF, P.bind_def, P.get, flagsLoop, lexNext, incLine]
    | cons t ts =>
        simp only [flagsF, P.bind_def, P.get, lexNext, incLine]
        rw [flagsLoop.eq_def]
        rfl

theorem path_notBlank {p : SPath} (hp : p.ok = true) (rest : Str) : NotNext [' ', '\t', '\n'] (p.text ++ rest) := by
  obtain ⟨d, dr, ed, hd⟩ := SPath.first hp
  refine NotNext.of_head ed ?_
  rcases hd with hd | rfl | rfl
  · exact ident_notin hd (by decide)
  · decide
  · decide

theorem call_run (part : Bool) {gap : Str} (hgap : gap.all blank = true) {p : SPath} (hp : p.ok = true) {a : SArgs} (ha : a.ok = true) {w r pre : Str} (hc : Closer .call w r) (opn : Span)
    {s : PS} (hsrc : E.src = pre ++ (gt part gap ++ (p.text ++ (a.text ++ (w ++ r)))))
    (hs : s.toks = lexFrom .params (blen pre) (gt part gap ++ (p.text ++ (a.text ++ (w ++ r))))) :
    ∃ c t, callParse E opn s = (.ok c, t) ∧
      TagRun E part false (some p) a opn ⟨blen (pre ++ (gt part gap ++ (p.text ++ a.text))), blen (pre ++ (gt part gap ++ (p.text ++ (a.text ++ w))))⟩
        (blen (pre ++ (gt part gap ++ (p.text ++ (a.text ++ w))))) r s c t := by
  obtain ⟨c, t, h1, h2⟩ : ∃ c t, callParse E opn s = (.ok c, t) ∧ (PRel s t →
      TagRun E part false (some p) a opn ⟨blen (pre ++ (gt part gap ++ (p.text ++ a.text))), blen (pre ++ (gt part gap ++ (p.text ++ (a.text ++ w))))⟩
        (blen (pre ++ (gt part gap ++ (p.text ++ (a.text ++ w))))) r s c t) := by
    cases part with
    | false =>
        simp only [gt, Bool.false_eq_true, if_false, List.nil_append] at hsrc hs ⊢
        obtain ⟨o1, t1, g1, g2⟩ := look_lexNext (s := { s with byte := opn.stop }) hs
        obtain ⟨o2, t2, g3, hskip⟩ := skip_ws hgap (path_notBlank hp _) (.inl g2)
        obtain ⟨q, vs, hs', l, t, k1, k2, kv, k3, k4⟩ := callBody_run E (c := Call.new E.src opn ⟨s.line, s.line + 1⟩) (o := o2) (s := t2) rfl hp ha hc
          (ws := []) rfl (pre := pre ++ gap) (by rw [hsrc]; simp) (.inl g3)
        simp only [List.nil_append, List.append_assoc] at k1 k4
        refine ⟨(((Call.new E.src opn ⟨s.line, s.line + 1⟩).setTarget (.path q)).fill vs hs'
            ⟨blen (pre ++ (gap ++ (p.text ++ a.text))), blen (pre ++ (gap ++ (p.text ++ (a.text ++ w))))⟩).linesEnd l, t, ?_,
          fun hr => ⟨⟨?_, ?_, ?_, ?_⟩, ?_, ?_, ?_, hr, ?_, ?_⟩⟩
        · rw [callParse_eq, P.bind_def, g1]
          simp only
          rw [P.bind_def]
          simp only [P.get]
          rw [P.bind_def]
          have hfl : flagsLoop t1.toks (Call.new E.src opn ⟨s.line, s.line + 1⟩) o1 t1 = (.ok (Call.new E.src opn ⟨s.line, s.line + 1⟩, o2), t2) := by
            obtain ⟨_, n, hn⟩ := hskip _ (skips_flags (Call.new E.src opn ⟨s.line, s.line + 1⟩)) (.ok (Call.new E.src opn ⟨s.line, s.line + 1⟩, o2)) t2 (Ends.intro (n := 0) (by
              obtain ⟨lex, sp, L, p1, p2, _⟩ := path_run E p hp (pre ++ gap) (a.text ++ (w ++ r)) (follow_args ha hc.follow) (by rw [hsrc]; simp)
              have ho := g3.head
              rw [p2] at ho
              subst ho
              unfold flagsF
              rw [P.bind_def]
              simp only [P.get]
              unfold flagsLoop
              rcases p1 with rfl | rfl | rfl | rfl | rfl <;> rfl))
            exact hn
          rw [hfl]
          exact k1
        · rfl
        · rfl
        · exact ⟨q, rfl, k2⟩
        · exact k3
        · rfl
        · rfl
        · rfl
        · exact k4
        · rintro _ ⟨⟩ hr q' h; cases h; exact kv hr
    | true =>
        simp only [gt, if_true] at hsrc hs ⊢
        have e1 : ['>'] ++ gap ++ (p.text ++ (a.text ++ (w ++ r))) = '>' :: (gap ++ (p.text ++ (a.text ++ (w ++ r)))) := by simp
        rw [e1] at hsrc hs
        rw [lexFrom_tok1 _ (tok_gt _), show nextMode .params (.params .partialSign) = .params from rfl] at hs
        have eb : blen pre + ('>').utf8Size = blen (pre ++ ['>']) := by simp
        rw [eb] at hs
        obtain ⟨o1, t1, g1, g2⟩ := look_lexNext
          (s := { s with byte := opn.stop, toks := lexFrom .params (blen (pre ++ ['>'])) (gap ++ (p.text ++ (a.text ++ (w ++ r)))) }) rfl
        obtain ⟨q, vs, hs', l, t, k1, k2, kv, k3, k4⟩ := callBody_run E (c := (Call.new E.src opn ⟨s.line, s.line + 1⟩).setPartial) (o := o1) (s := t1)
          rfl hp ha hc (ws := gap) hgap (pre := pre ++ ['>']) (by rw [hsrc]; simp) (.inl g2)
        have x1 : ∀ z : Str, pre ++ ['>'] ++ (gap ++ z) = pre ++ (['>'] ++ gap ++ z) := by intro z; simp
        simp only [x1] at k1 k4
        refine ⟨(((Call.new E.src opn ⟨s.line, s.line + 1⟩).setPartial.setTarget (.path q)).fill vs hs'
            ⟨blen (pre ++ (['>'] ++ gap ++ (p.text ++ a.text))), blen (pre ++ (['>'] ++ gap ++ (p.text ++ (a.text ++ w))))⟩).linesEnd l, t, ?_,
          fun hr => ⟨⟨?_, ?_, ?_, ?_⟩, ?_, ?_, ?_, hr, ?_, ?_⟩⟩
        · rw [callParse_eq, P.bind_def, lexNext_cons (s := { s with byte := opn.stop }) hs]
          simp only
          rw [P.bind_def]
          simp only [P.get]
          rw [P.bind_def]
          unfold flagsLoop
          simp only
          rw [P.bind_def, g1]
          exact k1
        · rfl
        · rfl
        · exact ⟨q, rfl, k2⟩
        · exact k3
        · rfl
        · rfl
        · rfl
        · exact k4
        · rintro _ ⟨⟩ hr q' h; cases h; exact kv hr
  exact ⟨c, t, h1, h2 ((callParse_tri E opn s).rel h1)⟩

/-- A call whose target is itself a call: the part after the flags. -/
theorem callBody_dyn {c : Call} {o : Option Token} {s : PS} (hcp : c.params = []) {q : SPath} {b : SArgs} (hqb : (SExpr.sub q b).ok = true) {a : SArgs} (ha : a.ok = true)
    {w r pre : Str} (hc : Closer .call w r) {ws : Str} (hws : ws.all blank = true)
    (hsrc : E.src = pre ++ (ws ++ ((SExpr.sub q b).text ++ (a.text ++ (w ++ r)))))
    (hl : LookN (blen pre) (ws ++ ((SExpr.sub q b).text ++ (a.text ++ (w ++ r)))) o s) :
    ∃ d vs hs l t, callBody E c o s = (.ok (((c.setTarget (.subExpr d)).fill vs hs
        ⟨blen (pre ++ (ws ++ ((SExpr.sub q b).text ++ a.text))),
         blen (pre ++ (ws ++ ((SExpr.sub q b).text ++ (a.text ++ w))))⟩).linesEnd l), t) ∧
      ExprRep (.sub q b) (.subExpr d) ∧ ArgsRep a vs hs ∧
      t.toks = lexFrom .block (blen (pre ++ (ws ++ ((SExpr.sub q b).text ++ (a.text ++ w))))) r := by
  have hF : Follow (a.text ++ (w ++ r)) := follow_args ha hc.follow
  obtain ⟨d, o1, t1, hT, hq, hL⟩ : ∃ d o1 t1, Ends (fun n => targetP E n c o .call) s (.ok (c.setTarget (.subExpr d), o1)) t1 ∧ ExprRep (.sub q b) (.subExpr d) ∧
      LookN (blen (pre ++ ws ++ (SExpr.sub q b).text)) (a.text ++ (w ++ r)) o1 t1 := by
    have ed : (SExpr.sub q b).text = '(' :: (q.text ++ (b.text ++ [')'])) := by rw [SExpr.text]
    obtain ⟨o2, s2, g2, hskip⟩ := skip_ws hws (NotNext.of_head ed (by decide)) hl
    obtain ⟨lex, sp, L, h1, h2, h3⟩ := expr_runs E (.sub q b) hqb (pre ++ ws) (a.text ++ (w ++ r)) hF (by rw [hsrc]; simp)
    have hlex : lex = .startSubExpression := by
      have h4 := h2
      rw [ed, List.cons_append, lexFrom_tok1 _ (tok_lparen _)] at h4
      injection h4 with h4 _
      injection h4 with h4 _
      injection h4 with h4
      exact h4.symm
    subst hlex
    obtain ⟨ho, ht⟩ := g2
    rw [h2] at ho ht
    simp only [List.head?_cons, List.tail_cons] at ho ht
    subst ho
    obtain ⟨v, o1, t1, ⟨_, n, hn⟩, h5, h6⟩ := h3 s2 ht
    cases h5 with
    | sub e1 e2 e3 e4 e5 e6 =>
        rename_i d q' _
        refine ⟨d, o1, t1, hskip _ (skips_target E c .call) _ _ ?_, .sub e1 e2 e3 e4 e5 e6, h6⟩
        cases n with
        | zero => simp only [valueP, P.fuel] at hn; cases hn
        | succ n =>
            have hv : valueP E (n + 1) .startSubExpression sp = (do
                let (c, tok) ← subExprP E n sp
                pure (.subExpr c, tok)) := by rw [valueP]
            simp only at hn
            rw [hv, P.bind_def] at hn
            refine Ends.intro (n := n + 1) ?_
            have htg : targetP E (n + 1) c (some ⟨.params .startSubExpression, sp⟩) .call = (do
                let (c', tok) ← subExprP E n sp
                pure (c.setTarget (.subExpr c'), tok)) := by
              rw [targetP]
              simp only
              rw [if_neg (by decide)]
            rw [htg, P.bind_def]
            generalize subExprP E n sp s2 = x at hn ⊢
            obtain ⟨rr, tt⟩ := x
            cases rr with
            | ok y =>
                obtain ⟨y1, y2⟩ := y
                cases hn
                rfl
            | _ => cases hn
  obtain ⟨vs, hs, o2, t2, m1, m2, m3⟩ := args_runs E a ha .call w r (pre ++ ws ++ (SExpr.sub q b).text) (c.setTarget (.subExpr d)) o1 t1 hc
    (by rw [hsrc]; simp) (by obtain ⟨⟩ := c; simp only [Call.params] at hcp; subst hcp; simp [Call.setTarget, Call.params]) hL
  refine ⟨d, vs, hs, t2.line, t2, ?_, hq, m1, ?_⟩
  · have e1 := hT.at (grows_target E _ _ _) (n := callFuel s) (((call_tri E _).2.2.2.2.1 c o .call s (wt_fuel o s)).noFuel)
    have e2 := m3.at (grows_arguments E _ _ _) (n := callFuel t1) (((call_tri E _).2.2.2.1 _ o1 .call t1 (wt_fuel o1 t1)).noFuel)
    unfold callBody
    rw [P.bind_def]
    simp only [P.get]
    rw [P.bind_def, e1]
    simp only
    rw [P.bind_def]
    simp only [P.get]
    rw [P.bind_def, e2]
    simp only
    rw [P.bind_def]
    simp only [P.line, List.append_assoc]
    rfl
  · rw [m2.2]
    simp only [List.append_assoc]

/-- What a parsed tag with a computed target looks like. -/
structure DynRun (part : Bool) (q : SPath) (b a : SArgs) (opn clo : Span) (off : Nat) (r : Str) (s : PS) (c : Call) (t : PS) : Prop where
  isPartial : c.isPartial = part
  conditional : c.conditional = false
  target : ∃ d, c.target = .subExpr d ∧ ExprRep (.sub q b) (.subExpr d)
  args : ArgsRep a c.args c.params
  src : c.src = E.src
  opn : c.opn = opn
  clo : c.clo = some clo
  rel : PRel s t
  toks : t.toks = lexFrom .block off r

theorem call_dyn (part : Bool) {gap : Str} (hgap : gap.all blank = true) {q : SPath} {b : SArgs} (hqb : (SExpr.sub q b).ok = true) {a : SArgs} (ha : a.ok = true) {w r pre : Str} (hc : Closer .call w r) (opn : Span)
    {s : PS} (hsrc : E.src = pre ++ (gt part gap ++ ((SExpr.sub q b).text ++ (a.text ++ (w ++ r)))))
    (hs : s.toks = lexFrom .params (blen pre) (gt part gap ++ ((SExpr.sub q b).text ++ (a.text ++ (w ++ r))))) :
    ∃ c t, callParse E opn s = (.ok c, t) ∧
      DynRun E part q b a opn ⟨blen (pre ++ (gt part gap ++ ((SExpr.sub q b).text ++ a.text))), blen (pre ++ (gt part gap ++ ((SExpr.sub q b).text ++ (a.text ++ w))))⟩
        (blen (pre ++ (gt part gap ++ ((SExpr.sub q b).text ++ (a.text ++ w))))) r s c t := by
  have ed : (SExpr.sub q b).text = '(' :: (q.text ++ (b.text ++ [')'])) := by rw [SExpr.text]
  obtain ⟨c, t, h1, h2⟩ : ∃ c t, callParse E opn s = (.ok c, t) ∧ (PRel s t →
      DynRun E part q b a opn ⟨blen (pre ++ (gt part gap ++ ((SExpr.sub q b).text ++ a.text))), blen (pre ++ (gt part gap ++ ((SExpr.sub q b).text ++ (a.text ++ w))))⟩
        (blen (pre ++ (gt part gap ++ ((SExpr.sub q b).text ++ (a.text ++ w))))) r s c t) := by
    cases part with
    | false =>
        simp only [gt, Bool.false_eq_true, if_false, List.nil_append] at hsrc hs ⊢
        obtain ⟨o1, t1, g1, g2⟩ := look_lexNext (s := { s with byte := opn.stop }) hs
        obtain ⟨o2, t2, g3, hskip⟩ := skip_ws hgap (NotNext.of_head ed (by decide)) (.inl g2)
        obtain ⟨d, vs, hs', l, t, k1, k2, k3, k4⟩ := callBody_dyn E (c := Call.new E.src opn ⟨s.line, s.line + 1⟩) (o := o2) (s := t2) rfl hqb ha hc
          (ws := []) rfl (pre := pre ++ gap) (by rw [hsrc]; simp) (.inl g3)
        simp only [List.nil_append, List.append_assoc] at k1 k4
        refine ⟨(((Call.new E.src opn ⟨s.line, s.line + 1⟩).setTarget (.subExpr d)).fill vs hs'
            ⟨blen (pre ++ (gap ++ ((SExpr.sub q b).text ++ a.text))), blen (pre ++ (gap ++ ((SExpr.sub q b).text ++ (a.text ++ w))))⟩).linesEnd l, t, ?_,
          fun hr => ⟨rfl, rfl, ⟨d, rfl, k2⟩, k3, rfl, rfl, rfl, hr, k4⟩⟩
        rw [callParse_eq, P.bind_def, g1]
        simp only
        rw [P.bind_def]
        simp only [P.get]
        rw [P.bind_def]
        have hfl : flagsLoop t1.toks (Call.new E.src opn ⟨s.line, s.line + 1⟩) o1 t1 = (.ok (Call.new E.src opn ⟨s.line, s.line + 1⟩, o2), t2) := by
          obtain ⟨_, n, hn⟩ := hskip _ (skips_flags (Call.new E.src opn ⟨s.line, s.line + 1⟩)) (.ok (Call.new E.src opn ⟨s.line, s.line + 1⟩, o2)) t2 (Ends.intro (n := 0) (by
            have ho := g3.head
            rw [ed, List.cons_append, lexFrom_tok1 _ (tok_lparen _)] at ho
            subst ho
            unfold flagsF
            rw [P.bind_def]
            simp only [P.get]
            unfold flagsLoop
            rfl))
          exact hn
        rw [hfl]
        exact k1
    | true =>
        simp only [gt, if_true] at hsrc hs ⊢
        have e1 : ['>'] ++ gap ++ ((SExpr.sub q b).text ++ (a.text ++ (w ++ r))) = '>' :: (gap ++ ((SExpr.sub q b).text ++ (a.text ++ (w ++ r)))) := by simp
        rw [e1] at hsrc hs
        rw [lexFrom_tok1 _ (tok_gt _), show nextMode .params (.params .partialSign) = .params from rfl] at hs
        have eb : blen pre + ('>').utf8Size = blen (pre ++ ['>']) := by simp
        rw [eb] at hs
        obtain ⟨o1, t1, g1, g2⟩ := look_lexNext
          (s := { s with byte := opn.stop, toks := lexFrom .params (blen (pre ++ ['>'])) (gap ++ ((SExpr.sub q b).text ++ (a.text ++ (w ++ r)))) }) rfl
        obtain ⟨d, vs, hs', l, t, k1, k2, k3, k4⟩ := callBody_dyn E (c := (Call.new E.src opn ⟨s.line, s.line + 1⟩).setPartial) (o := o1) (s := t1)
          rfl hqb ha hc (ws := gap) hgap (pre := pre ++ ['>']) (by rw [hsrc]; simp) (.inl g2)
        have x1 : ∀ z : Str, pre ++ ['>'] ++ (gap ++ z) = pre ++ (['>'] ++ gap ++ z) := by intro z; simp
        simp only [x1] at k1 k4
        refine ⟨(((Call.new E.src opn ⟨s.line, s.line + 1⟩).setPartial.setTarget (.subExpr d)).fill vs hs'
            ⟨blen (pre ++ (['>'] ++ gap ++ ((SExpr.sub q b).text ++ a.text))), blen (pre ++ (['>'] ++ gap ++ ((SExpr.sub q b).text ++ (a.text ++ w))))⟩).linesEnd l, t, ?_,
          fun hr => ⟨rfl, rfl, ⟨d, rfl, k2⟩, k3, rfl, rfl, rfl, hr, k4⟩⟩
        rw [callParse_eq, P.bind_def, lexNext_cons (s := { s with byte := opn.stop }) hs]
        simp only
        rw [P.bind_def]
        simp only [P.get]
        rw [P.bind_def]
        unfold flagsLoop
        simp only
        rw [P.bind_def, g1]
        exact k1
  exact ⟨c, t, h1, h2 ((callParse_tri E opn s).rel h1)⟩

def condArgs : Option (SPath × SArgs) → SArgs
  | none => .done .nil
  | some x => x.2

def condOk (gap : Str) : Option (SPath × SArgs) → Bool
  | none => true
  | some (p, a) => !gap.isEmpty && p.ok && a.ok

theorem else_run {tl : Tilde} (htl : tl.ok = true) (cond : Option (SPath × SArgs)) (hcond : condOk tl.gap cond = true) {w r pre : Str} (hc : Closer .call w r) (opn : Span)
    {s : PS} (hsrc : E.src = pre ++ (c!"else" ++ (condText tl cond ++ (w ++ r))))
    (hs : s.toks = lexFrom .params (blen pre) (c!"else" ++ (condText tl cond ++ (w ++ r)))) :
    ∃ c t, callParse E opn s = (.ok c, t) ∧
      TagRun E false true (cond.map (·.1)) (condArgs cond) opn
        ⟨blen (pre ++ (c!"else" ++ condText tl cond)), blen (pre ++ (c!"else" ++ (condText tl cond ++ w)))⟩
        (blen (pre ++ (c!"else" ++ (condText tl cond ++ w)))) r s c t := by
  have hbrk : Brk (condText tl cond ++ (w ++ r)) := by
    cases cond with
    | none =>
        simp only [condText]
        have htail := Tilde.tailBlank htl
        cases htt : tl.tail with
        | nil => exact hc.follow.brk
        | cons c tail => rw [htt] at htail; exact (follow_ws (by simp) htail _).brk
    | some x =>
        simp only [condOk, Bool.and_eq_true] at hcond
        simp only [condText, List.append_assoc]
        exact (follow_ws (wsOk hcond.1.1) (Tilde.gapBlank htl) _).brk
  rw [lexFrom_tok _ (by simp) (tok_kw (p := 8) hbrk (w := c!"else") (k := .params .elseKeyword) (by simp)), ← blen_append,
    show nextMode .params (.params .elseKeyword) = .params from rfl] at hs
  obtain ⟨c, t, h1, h2⟩ : ∃ c t, callParse E opn s = (.ok c, t) ∧ (PRel s t →
      TagRun E false true (cond.map (·.1)) (condArgs cond) opn
        ⟨blen (pre ++ (c!"else" ++ condText tl cond)), blen (pre ++ (c!"else" ++ (condText tl cond ++ w)))⟩
        (blen (pre ++ (c!"else" ++ (condText tl cond ++ w)))) r s c t) := by
    obtain ⟨o1, t1, g1, g2⟩ := look_lexNext
      (s := { s with byte := opn.stop, toks := lexFrom .params (blen (pre ++ c!"else")) (condText tl cond ++ (w ++ r)) }) rfl
    have hstart : ∀ c t, callBody E (Call.new E.src opn ⟨s.line, s.line + 1⟩).setConditional o1 t1 = (.ok c, t) → callParse E opn s = (.ok c, t) := by
      intro c t h
      rw [callParse_eq, P.bind_def, lexNext_cons (s := { s with byte := opn.stop }) hs]
      simp only
      rw [P.bind_def]
      simp only [P.get]
      rw [P.bind_def]
      unfold flagsLoop
      simp only
      rw [P.bind_def, g1]
      exact h
    cases cond with
    | none =>
        simp only [condText] at g2 ⊢
        generalize htt : tl.tail = tail at g2
        obtain ⟨o2, s2, g3, hskip⟩ := skip_ws (htt ▸ Tilde.tailBlank htl) hc.notBlank (.inl g2)
        cases hc with
        | fin tb n hn h =>
            obtain ⟨ho, ht⟩ := g3
            rw [lexFrom_tok _ (by simp) (tok_fin tb n hn h), ← blen_append, show nextMode .params (.params .fin) = .block from rfl] at ho ht
            simp only [List.head?_cons, List.tail_cons] at ho ht
            subst ho
            simp only [List.append_assoc] at ht
            have hT : Ends (fun n => targetP E n (Call.new E.src opn ⟨s.line, s.line + 1⟩).setConditional o1 .call) t1
                (.ok ((Call.new E.src opn ⟨s.line, s.line + 1⟩).setConditional.exit
                  ⟨blen (pre ++ c!"else" ++ tail), blen (pre ++ c!"else" ++ tail ++ (tilde tb ++ (List.replicate n '}' ++ c!"}}")))⟩, none)) s2 := by
              refine hskip _ (skips_target E _ .call) _ _ (Ends.intro (n := 1) ?_)
              rw [targetP]
              simp only
              rw [P.bind_def]
              have h0 : (Call.new E.src opn ⟨s.line, s.line + 1⟩).setConditional.target.asStr = some [] := by
                show slice E.src 0 0 = some []
                exact slice_eq (a := []) (b := []) (c := E.src) rfl rfl rfl
              simp only [h0, orPanic]
              rfl
            refine ⟨((Call.new E.src opn ⟨s.line, s.line + 1⟩).setConditional.exit
                ⟨blen (pre ++ c!"else" ++ tail), blen (pre ++ c!"else" ++ tail ++ (tilde tb ++ (List.replicate n '}' ++ c!"}}")))⟩).linesEnd s2.line, s2, hstart _ _ ?_,
              fun hr => ⟨⟨rfl, rfl, rfl, .done .nil⟩, rfl, rfl, ?_, hr, ht, ?_⟩⟩
            · have e1 := hT.at (grows_target E _ _ _) (n := callFuel t1) (((call_tri E _).2.2.2.2.1 _ o1 .call t1 (wt_fuel o1 t1)).noFuel)
              have hf : callFuel s2 = 4 * s2.toks.length + 7 + 1 := rfl
              unfold callBody
              rw [P.bind_def]
              simp only [P.get]
              rw [P.bind_def, e1]
              simp only
              rw [P.bind_def]
              simp only [P.get]
              rw [P.bind_def, hf, argumentsP]
              rfl
            · show some (Span.mk (blen (pre ++ c!"else" ++ tail)) (blen (pre ++ c!"else" ++ tail ++ (tilde tb ++ (List.replicate n '}' ++ c!"}}"))))) = _
              simp only [List.append_assoc]
            · rintro _ ⟨⟩
    | some x =>
        obtain ⟨p, a⟩ := x
        simp only [condOk, Bool.and_eq_true] at hcond
        have e1 : condText tl (some (p, a)) ++ (w ++ r) = tl.gap ++ (p.text ++ (a.text ++ (w ++ r))) := by simp [condText]
        rw [e1] at hsrc g2
        obtain ⟨q, vs, hs', l, t, k1, k2, kv, k3, k4⟩ := callBody_run E (c := (Call.new E.src opn ⟨s.line, s.line + 1⟩).setConditional)
          (o := o1) (s := t1) rfl hcond.1.2 hcond.2 hc (ws := tl.gap) (Tilde.gapBlank htl) (pre := pre ++ c!"else") (by rw [hsrc]; simp) (.inl g2)
        have x1 : pre ++ c!"else" ++ (tl.gap ++ (p.text ++ a.text)) = pre ++ (c!"else" ++ condText tl (some (p, a))) := by simp [condText]
        have x2 : pre ++ c!"else" ++ (tl.gap ++ (p.text ++ (a.text ++ w))) = pre ++ (c!"else" ++ (condText tl (some (p, a)) ++ w)) := by simp [condText]
        simp only [x1, x2] at k1 k4
        refine ⟨_, t, hstart _ _ k1, fun hr => ⟨⟨rfl, rfl, ⟨q, rfl, k2⟩, k3⟩, rfl, rfl, rfl, hr, k4, ?_⟩⟩
        rintro _ ⟨⟩ hr q' h; cases h; exact kv hr
  exact ⟨c, t, h1, h2 ((callParse_tri E opn s).rel h1)⟩

end

end Bracket
