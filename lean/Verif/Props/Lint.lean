import Verif.Props.Tags
import Verif.Spec.Faults
import Verif.Props.Snippet

/-! C68: lint goes on after an error and reports every end tag that matches nothing. -/

set_option linter.unusedSectionVars false
set_option linter.unusedSimpArgs false

namespace Bracket.Props
open Bracket Re Spec P

section
variable [Host] (E : PEnv)

/-! ### Lint as a sequence of parses -/

theorem lint_none : ∀ (n : Nat) (errs : List SyntaxErr) (acc ns : List Node) (s t : PS), parseLoop E n acc s = (.ok ns, t) →
    lintLoop E n errs s = .ok errs := by
  intro n
  induction n with
  | zero => intro errs acc ns s t h; rw [parseLoop] at h; cases h
  | succ n ih =>
      intro errs acc ns s t h
      rw [lintLoop_succ]
      rw [parseLoop, P.bind_def] at h
      rcases hp : parserNext E s with ⟨r, s'⟩
      rw [hp] at h
      cases r with
      | ok o =>
          cases o with
          | none => rfl
          | some x => exact ih errs _ _ _ _ h
      | err e => cases h
      | panic => cases h
      | fuel => cases h

theorem lint_panic : ∀ (n : Nat) (errs : List SyntaxErr) (acc : List Node) (s t : PS), parseLoop E n acc s = (.panic, t) →
    lintLoop E n errs s = .panic := by
  intro n
  induction n with
  | zero => intro errs acc s t h; rw [parseLoop] at h; cases h
  | succ n ih =>
      intro errs acc s t h
      rw [lintLoop_succ]
      rw [parseLoop, P.bind_def] at h
      rcases hp : parserNext E s with ⟨r, s'⟩
      rw [hp] at h
      cases r with
      | ok o =>
          cases o with
          | none => cases h
          | some x => exact ih errs _ _ _ h
      | err e => cases h
      | panic => rfl
      | fuel => cases h

theorem lint_error : ∀ (n m : Nat) (errs : List SyntaxErr) (acc : List Node) (e : SyntaxErr) (s t : PS), parseLoop E n acc s = (.err e, t) →
    ∃ d, lintLoop E (n + m) errs s = lintLoop E (m + d) (errs ++ [e]) (afterErr t) := by
  intro n
  induction n with
  | zero => intro m errs acc e s t h; rw [parseLoop] at h; cases h
  | succ n ih =>
      intro m errs acc e s t h
      rw [show n + 1 + m = (n + m) + 1 by omega, lintLoop_succ]
      rw [parseLoop, P.bind_def] at h
      rcases hp : parserNext E s with ⟨r, s'⟩
      rw [hp] at h
      cases r with
      | ok o =>
          cases o with
          | none => cases h
          | some x => exact ih m errs _ _ _ _ h
      | err e' =>
          cases h
          exact ⟨n, by rw [Nat.add_comm n m]⟩
      | panic => cases h
      | fuel => cases h

theorem lint_grows : ∀ (n m : Nat) (errs : List SyntaxErr) (s : PS), lintLoop E n errs s ≠ .fuel → n ≤ m →
    lintLoop E m errs s = lintLoop E n errs s := by
  intro n
  induction n with
  | zero => intro m errs s h; exact absurd (by rw [lintLoop]) h
  | succ n ih =>
      intro m errs s h hm
      obtain ⟨m, rfl⟩ : ∃ m', m = m' + 1 := ⟨m - 1, by omega⟩
      rw [lintLoop_succ] at h
      rw [lintLoop_succ, lintLoop_succ]
      revert h
      rcases parserNext E s with ⟨r, s'⟩
      intro h
      cases r with
      | ok o =>
          cases o with
          | none => rfl
          | some x => exact ih m _ _ h (by omega)
      | err e => exact ih m _ _ h (by omega)
      | panic => rfl
      | fuel => rfl

/-- Linting from a state, with these errors so far, has this result. -/
def Lints (s : PS) (errs : List SyntaxErr) (r : R (List SyntaxErr)) : Prop := r ≠ .fuel ∧ ∃ n, lintLoop E n errs s = r

theorem Lints.at {s : PS} {errs : List SyntaxErr} {r : R (List SyntaxErr)} (h : Lints E s errs r) {n : Nat} (hn : lintLoop E n errs s ≠ .fuel) :
    lintLoop E n errs s = r := by
  obtain ⟨hr, m, rfl⟩ := h
  rcases Nat.le_total m n with h | h
  · exact lint_grows E m n errs s hr h
  · exact (lint_grows E n m errs s hn h).symm

/-- A parse that ends in an error, then the lint of what comes after. -/
theorem Lints.error {s t : PS} {errs : List SyntaxErr} {e : SyntaxErr} {acc : List Node} {r : R (List SyntaxErr)}
    (h : Ends (fun n => parseLoop E n acc) s (.err e) t) (h' : Lints E (afterErr t) (errs ++ [e]) r) : Lints E s errs r := by
  obtain ⟨-, n, hn⟩ := h
  obtain ⟨hr, m, hm⟩ := h'
  obtain ⟨d, hd⟩ := lint_error E n m errs acc e s t hn
  refine ⟨hr, n + m, ?_⟩
  rw [hd, lint_grows E m (m + d) _ _ (by rw [hm]; exact hr) (by omega), hm]

theorem Lints.panic {s t : PS} {errs : List SyntaxErr} {acc : List Node} (h : Ends (fun n => parseLoop E n acc) s .panic t) : Lints E s errs .panic := by
  obtain ⟨-, n, hn⟩ := h
  exact ⟨by simp, n, lint_panic E n errs acc s t hn⟩

theorem Lints.none {s t : PS} {errs : List SyntaxErr} {acc ns : List Node} (h : Ends (fun n => parseLoop E n acc) s (.ok ns) t) : Lints E s errs (.ok errs) := by
  obtain ⟨-, n, hn⟩ := h
  exact ⟨by simp, n, lint_none E n errs acc ns s t hn⟩

/-! ### Going on after an end tag that does not match -/

/-- A token of the top-level mode. -/
theorem block_kind (w : Str) : ∃ k, (nextTok .block w).1 = .block k := by
  rcases C55_maximal_munch .block w with ⟨p, ⟨_, _, re, h3, _⟩, _⟩ | ⟨_, h⟩
  · have : ∀ re p k, (re, p, k) ∈ rules .block → ∃ x, k = .block x := by
      intro re p k h
      simp only [rules, blockRules, List.mem_cons, Prod.mk.injEq, List.not_mem_nil, or_false] at h
      rcases h with h | h | h | h | h | h | h | h | h | h | h <;> exact ⟨_, h.2.2⟩
    exact this _ _ _ h3
  · exact ⟨_, by rw [h]; rfl⟩

theorem afterErr_at {t : PS} {off : Nat} {k : Str} (h : t.toks = lexFrom .block off k) : AtB off k (afterErr t) := by
  unfold AtB afterErr PS.rem
  simp only [h]
  cases k with
  | nil => rfl
  | cons c k =>
      obtain ⟨x, hx⟩ := block_kind (c :: k)
      have e : lexFrom .block off (c :: k) = ⟨.block x, ⟨off, off + blen ((c :: k).take (nextTok .block (c :: k)).2)⟩⟩ ::
          lexAux k.length (nextMode .block (.block x)) (off + blen ((c :: k).take (nextTok .block (c :: k)).2)) ((c :: k).drop (nextTok .block (c :: k)).2) := by
        unfold lexFrom
        rw [List.length_cons, lexAux, ← hx]
      rw [e, untilMode]
      rfl

/-- The result of failing in the state `t`. -/
def Shown (kind : SynKind) (t : PS) (res : R (Option Node)) : Prop :=
  ∃ notes, errorInfo E.src E.fileName t.line t.byte notes = .none ∧ res = .panic ∨
    ∃ i, errorInfo E.src E.fileName t.line t.byte notes = some i ∧ res = .err ⟨kind, i⟩

theorem failWith_shown (kind : SynKind) (notes : List Str) (s : PS) : ∃ res, (failWith E kind notes : P (Option Node)) s = (res, s) ∧ Shown E kind s res := by
  unfold failWith Shown
  rcases h : errorInfo E.src E.fileName s.line s.byte notes with _ | i
  · exact ⟨_, rfl, notes, .inl ⟨h, rfl⟩⟩
  · exact ⟨_, rfl, notes, .inr ⟨i, h, rfl⟩⟩

/-- An end tag that does not match: where the parser is after it. -/
theorem close_fault {pre k : Str} {name : Str} {cl : Tilde} (hctl : cl.ok = true) (hn : nameOk name = true) (hk : NotNext ['}'] k)
    (hsrc : E.src = pre ++ (closeText name cl ++ k)) {s : PS} (hs : AtB (blen pre) (closeText name cl ++ k) s) {kind : SynKind}
    (hst : s.stack = [] ∧ kind = .blockNotOpen ∨ (∃ nm b, s.stack = [(nm, b)] ∧ nm ≠ name) ∧ kind = .tagNameMismatch) :
    ∃ tok L res t, tokenP s = (.ok (some tok), { s with next := none, toks := L }) ∧
      (∀ n, advance E (n + 1) tok { s with next := none, toks := L } = (res, t)) ∧ Shown E kind t res ∧ t.stack = [] ∧
      t.toks = lexFrom .block (blen (pre ++ closeText name cl)) k ∧ (kind = .blockNotOpen → t.byte = blen pre) := by
  have hcl : CloserT (cl.tail ++ (tilde cl.after ++ c!"}}")) k := by
    refine ⟨_, _, rfl, Tilde.tailBlank hctl, ?_⟩
    have := Closer.fin cl.after 0 (r := k) (by omega) (fun _ => hk)
    simpa using this
  have eo : closeText name cl = (c!"{{" ++ cl.mark ++ ['/']) ++ (name ++ (cl.tail ++ (tilde cl.after ++ c!"}}"))) := rfl
  have ht1 := tok_close (name ++ ((cl.tail ++ (tilde cl.after ++ c!"}}")) ++ k)) hctl
  have hne1 : c!"{{" ++ cl.mark ++ ['/'] ≠ [] := by simp
  generalize c!"{{" ++ cl.mark ++ ['/'] = O1 at *
  generalize cl.tail ++ (tilde cl.after ++ c!"}}") = C1 at *
  have e : closeText name cl ++ k = O1 ++ (name ++ (C1 ++ k)) := by rw [eo]; simp
  rw [e] at hs hsrc
  have e1 := lexFrom_tok (blen pre) hne1 ht1
  rw [show nextMode .block (.block .endBlockScope) = .params from rfl, ← blen_append] at e1
  obtain ⟨_, _, c, t, h1, h2⟩ := close_call E hn hcl (pre := pre ++ O1) ⟨blen pre, blen (pre ++ O1)⟩
    (s := { s with next := none, toks := lexFrom .params (blen (pre ++ O1)) (name ++ (C1 ++ k)) })
    (by rw [hsrc]; simp) rfl
  obtain ⟨q, hq, hqr⟩ := h2.rep.target
  have hname := block_name hq hqr (h2.plain _ rfl rfl q hq) (b := (Block.new E.src ⟨blen pre, blen (pre ++ O1)⟩ false ⟨s.line, s.line + 1⟩).setCall c) rfl
  have htoks : t.toks = lexFrom .block (blen (pre ++ closeText name cl)) k := by rw [h2.toks, eo]; simp
  have key : ∃ res t', endBlock E ⟨blen pre, blen (pre ++ O1)⟩ { s with next := none, toks := lexFrom .params (blen (pre ++ O1)) (name ++ (C1 ++ k)) } = (res, t') ∧
      Shown E kind t' res ∧ t'.stack = [] ∧ t'.toks = t.toks ∧ (kind = .blockNotOpen → t'.byte = blen pre) := by
    unfold endBlock
    rw [P.bind_def]
    unfold scopeP
    rw [P.bind_def]
    simp only [lineRange]
    rw [P.bind_def, h1]
    simp only [Pure.pure]
    rw [P.bind_def]
    simp only [hname, orPanic]
    rw [P.bind_def]
    simp only [P.get, h2.rel.stack]
    rcases hst with ⟨hst, rfl⟩ | ⟨⟨nm, b, hst, hne⟩, rfl⟩
    · simp only [hst]
      rw [P.bind_def]
      simp only [setByte]
      obtain ⟨res, g1, g2⟩ := failWith_shown E .blockNotOpen [c!"perhaps open the block '" ++ name ++ ['\'']] { t with byte := blen pre }
      exact ⟨res, _, g1, g2, by simp only [h2.rel.stack, hst], rfl, fun _ => rfl⟩
    · simp only [hst]
      rw [P.bind_def]
      simp only [P.modify, ne_eq, hne, not_false_eq_true, if_true]
      obtain ⟨res, g1, g2⟩ := failWith_shown E .tagNameMismatch [c!"opening name is '" ++ nm ++ ['\'']] { t with stack := [] }
      exact ⟨res, _, g1, g2, rfl, rfl, fun h => by cases h⟩
  obtain ⟨res, t', hr, hb, k1, k2, k3⟩ := key
  refine ⟨_, _, res, t', hs.token e1, ?_, hb, k1, k2.trans htoks, k3⟩
  intro n
  have : ∀ s', advance E (n + 1) ⟨.block .endBlockScope, ⟨blen pre, blen (pre ++ O1)⟩⟩ s' = endBlock E ⟨blen pre, blen (pre ++ O1)⟩ s' := by
    intro s'; rw [advance]; rfl
  rw [this]
  exact hr

/-- The opening tag of a block without a plain name: where the parser is after it. -/
theorem open_fault {pre k X : Str} {part : Bool} {tl : Tilde} {a : SArgs} (htl : tl.ok = true) (hk : NotNext ['}'] k)
    (hX : ∀ rest, NotNext afterOpen (gt part tl.gap ++ (X ++ rest)))
    (hrun : ∀ {w r pre : Str} (_ : Closer .call w r) (opn : Span) {s : PS}, E.src = pre ++ (gt part tl.gap ++ (X ++ (a.text ++ (w ++ r)))) →
      s.toks = lexFrom .params (blen pre) (gt part tl.gap ++ (X ++ (a.text ++ (w ++ r)))) →
      ∃ c t, callParse E opn s = (.ok c, t) ∧ PRel s t ∧ t.toks = lexFrom .block (blen (pre ++ (gt part tl.gap ++ (X ++ (a.text ++ w))))) r ∧
        ∀ b : Block, b.call = c → b.name = some none)
    (hsrc : E.src = pre ++ (openText part tl X a ++ k)) {s : PS} (hs : AtB (blen pre) (openText part tl X a ++ k) s) :
    ∃ tok L res t, tokenP s = (.ok (some tok), { s with next := none, toks := L }) ∧
      (∀ n, advance E (n + 1) tok { s with next := none, toks := L } = (res, t)) ∧ Shown E .blockName t res ∧ t.stack = s.stack ∧
      t.toks = lexFrom .block (blen (pre ++ openText part tl X a)) k := by
  have hcl : Closer .call (tilde tl.after ++ c!"}}") k := by
    have := Closer.fin tl.after 0 (r := k) (by omega) (fun _ => hk)
    simpa using this
  have eo : openText part tl X a = (c!"{{" ++ tl.mark ++ ['#']) ++ (gt part tl.gap ++ (X ++ (a.text ++ (tilde tl.after ++ c!"}}")))) := rfl
  have ht1 := tok_open htl (hX (a.text ++ ((tilde tl.after ++ c!"}}") ++ k)))
  have hne1 : c!"{{" ++ tl.mark ++ ['#'] ≠ [] := by simp
  generalize c!"{{" ++ tl.mark ++ ['#'] = O1 at *
  generalize tilde tl.after ++ c!"}}" = C1 at *
  have e : openText part tl X a ++ k = O1 ++ (gt part tl.gap ++ (X ++ (a.text ++ (C1 ++ k)))) := by rw [eo]; simp
  rw [e] at hs hsrc
  have e1 := lexFrom_tok (blen pre) hne1 ht1
  rw [show nextMode .block (.block .startBlockScope) = .params from rfl, ← blen_append] at e1
  obtain ⟨c, t, h1, h2, h3, h4⟩ := hrun hcl (pre := pre ++ O1) ⟨blen pre, blen (pre ++ O1)⟩
    (s := { s with next := none, toks := lexFrom .params (blen (pre ++ O1)) (gt part tl.gap ++ (X ++ (a.text ++ (C1 ++ k)))) })
    (by rw [hsrc]; simp) rfl
  have hname := h4 ((Block.new E.src ⟨blen pre, blen (pre ++ O1)⟩ false ⟨s.line, s.line + 1⟩).setCall c) rfl
  obtain ⟨res, g1, g2⟩ := failWith_shown E .blockName [] { t with byte := c.target.span.start }
  refine ⟨_, _, res, { t with byte := c.target.span.start }, hs.token e1, ?_, g2, h2.stack, ?_⟩
  · intro n
    have : ∀ s', advance E (n + 1) ⟨.block .startBlockScope, ⟨blen pre, blen (pre ++ O1)⟩⟩ s' = (do
            let block ← scopeP E ⟨blen pre, blen (pre ++ O1)⟩
            let name ← orPanic block.name
            match name with
            | none => do
                setByte block.call.target.span.start
                fail E .blockName
            | some name => do
                modify (fun s => { s with stack := (name, block) :: s.stack })
                blockLoop E n) s' := by intro s'; rw [advance]; rfl
    rw [this, P.bind_def]
    unfold scopeP
    rw [P.bind_def]
    simp only [lineRange]
    rw [P.bind_def, h1]
    simp only [Pure.pure]
    rw [P.bind_def]
    simp only [hname, orPanic]
    rw [P.bind_def]
    exact g1
  · show t.toks = _
    rw [h3, eo]; simp

theorem nameless_path {p : SPath} {q : Path} (h : PathRep p q) (hok : p.ok = true) (hp : justName p = false) {b : Block} (hb : b.call.target = .path q) : b.name = some none := by
  unfold Block.name
  rw [hb]
  simp only
  have h1 := h.kinds
  split
  · rename_i c hc
    rw [hc] at h1
    split
    · rename_i hk
      exfalso
      obtain ⟨n, hd, ws⟩ := p
      simp only [List.map_cons, List.map_nil, hk, List.cons.injEq] at h1
      obtain ⟨h2, h3⟩ := h1
      have h3 : ws = [] := by simpa using h3.symm
      subst h3
      unfold justName at hp
      cases hd <;> first | (cases (SPath.ok_spec hok).1; done) | simp [Head.kind] at h2 hp
    · rfl
  · rfl

theorem named_fault {pre k : Str} {part : Bool} {tl : Tilde} {p : SPath} {a : SArgs} (htl : tl.ok = true) (hg : gapOk part tl.gap = true) (hp : p.ok = true) (ha : a.ok = true)
    (hj : justName p = false) (hk : NotNext ['}'] k)
    (hsrc : E.src = pre ++ (openText part tl p.text a ++ k)) {s : PS} (hs : AtB (blen pre) (openText part tl p.text a ++ k) s) :
    ∃ tok L res t, tokenP s = (.ok (some tok), { s with next := none, toks := L }) ∧
      (∀ n, advance E (n + 1) tok { s with next := none, toks := L } = (res, t)) ∧ Shown E .blockName t res ∧ t.stack = s.stack ∧
      t.toks = lexFrom .block (blen (pre ++ openText part tl p.text a)) k := by
  refine open_fault E htl hk (fun rest => notAfterOpen_gt hp hg rest) ?_ hsrc hs
  intro w r pre hc opn s h1 h2
  obtain ⟨c, t, g1, g2⟩ := call_run E part (Tilde.gapBlank htl) hp ha hc opn h1 h2
  obtain ⟨q, hq, hqr⟩ := g2.rep.target
  exact ⟨c, t, g1, g2.rel, g2.toks, fun b hb => nameless_path hqr hp hj (by rw [hb]; exact hq)⟩

theorem computed_fault {pre k : Str} {part : Bool} {tl : Tilde} {q : SPath} {b a : SArgs} (htl : tl.ok = true) (hg : gapOk part tl.gap = true)
    (hq : (SExpr.sub q b).ok = true) (ha : a.ok = true) (hk : NotNext ['}'] k)
    (hsrc : E.src = pre ++ (openText part tl (SExpr.sub q b).text a ++ k)) {s : PS} (hs : AtB (blen pre) (openText part tl (SExpr.sub q b).text a ++ k) s) :
    ∃ tok L res t, tokenP s = (.ok (some tok), { s with next := none, toks := L }) ∧
      (∀ n, advance E (n + 1) tok { s with next := none, toks := L } = (res, t)) ∧ Shown E .blockName t res ∧ t.stack = s.stack ∧
      t.toks = lexFrom .block (blen (pre ++ openText part tl (SExpr.sub q b).text a)) k := by
  refine open_fault E htl hk (fun rest => notAfterOpen_dyn q b hg rest) ?_ hsrc hs
  intro w r pre hc opn s h1 h2
  obtain ⟨c, t, g1, g2⟩ := call_dyn E part (Tilde.gapBlank htl) hq ha hc opn h1 h2
  obtain ⟨d, hd, -⟩ := g2.target
  exact ⟨c, t, g1, g2.rel, g2.toks, fun b hb => by unfold Block.name; rw [hb, hd]⟩

theorem opens_open (part : Bool) (tl : Tilde) (X : Str) (a : SArgs) (k : Str) : Opens (openText part tl X a ++ k) := by
  simp only [openText, List.append_assoc]
  exact .of_prefix (p := c!"{{") (by decide)

theorem TagFault.opens (x : TagFault) (k : Str) : Opens (x.src ++ k) := by
  cases x with
  | stray name cl => exact opens_close name cl k
  | crossed f name cl =>
      rw [TagFault.src, List.append_assoc]
      exact opens_frames (fs := [f]) (opens_close name cl k)
  | named part tl p a => exact opens_open part tl _ a k
  | computed part tl q b a => exact opens_open part tl _ a k

/-- A fault after any template is the next error, and the parser is then right after it. -/
theorem fault_next {T : STm} {x : TagFault} {k pre : Str} {s : PS} (hT : T.ok (x.src ++ k) = true) (hx : x.ok k = true) (hk : k.head? ≠ some '}')
    (hsrc : E.src = pre ++ (T.src ++ (x.src ++ k))) (hs : AtB (blen pre) (T.src ++ (x.src ++ k)) s) (hst : s.stack = []) :
    ∃ t res acc, Shown E x.kind t res ∧ (∀ e, res = .err e → Ends (fun n => parseLoop E n acc) s (.err e) t) ∧
      (res = .panic → Ends (fun n => parseLoop E n acc) s .panic t) ∧ t.stack = [] ∧
      t.toks = lexFrom .block (blen (pre ++ (T.src ++ x.src))) k ∧ (x.kind = .blockNotOpen → t.byte = blen (pre ++ T.src)) := by
  have hk' : NotNext ['}'] k := by rintro c r rfl; simp only [List.mem_singleton]; rintro rfl; exact hk rfl
  obtain ⟨ns, s', h1, h2, h3, h4⟩ := tm_top E T (x.src ++ k) pre s hT (TagFault.opens x k) hsrc hs hst
  have fin : ∀ {res t}, parserNext E s' = (res, t) → (∀ e, res = .err e → Ends (fun n => parseLoop E n []) s (.err e) t) ∧
      (res = .panic → Ends (fun n => parseLoop E n []) s .panic t) := by
    intro res t h
    constructor
    · rintro e rfl; exact h2 [] _ _ (ends_next E h (by simp) ns)
    · rintro rfl; exact h2 [] _ _ (ends_next E h (by simp) ns)
  cases x with
  | stray name cl =>
      simp only [TagFault.ok, Bool.and_eq_true] at hx
      simp only [TagFault.src, TagFault.kind] at h4 hsrc ⊢
      obtain ⟨tok, L, res, t, g1, g2, g3, g4, g5, g6⟩ := close_fault E (pre := pre ++ T.src) hx.2 hx.1 hk' (by rw [hsrc]; simp) h4 (.inl ⟨h3, rfl⟩)
      have := fin (next_step E g1 g2)
      exact ⟨t, res, [], g3, this.1, this.2, g4, by simpa using g5, fun _ => g6 rfl⟩
  | crossed f name cl =>
      simp only [TagFault.ok, Bool.and_eq_true, bne_iff_ne, ne_eq] at hx
      obtain ⟨⟨⟨hn, hcl⟩, hf⟩, hne⟩ := hx
      simp only [TagFault.src, TagFault.kind, List.append_assoc] at h4 hsrc ⊢
      obtain ⟨tok, L, s0, s1, b, a1, a2, a3, a4, a5⟩ := frame_open E (f := f) (r := []) (pre := pre ++ T.src) (opens_close name cl k) hf (by rw [hsrc]; simp) h4
      rw [h3] at a4
      obtain ⟨tok2, L2, res, t, g1, g2, g3, g4, g5, g6⟩ := close_fault E (pre := pre ++ T.src ++ (openText f.part f.tl f.name f.args ++ (f.body.src ++ f.clauses.src)))
        hcl hn hk' (by rw [hsrc]; simp [framesSrc]) (by simpa [framesSrc] using a5) (.inr ⟨⟨_, _, a4, hne⟩, rfl⟩)
      have hbad : res = .panic ∨ ∃ e, res = .err e := by
        obtain ⟨_, ⟨_, h⟩ | ⟨_, _, h⟩⟩ := g3
        · exact .inl h
        · exact .inr ⟨_, h⟩
      have hend : Ends (blockLoop E) s1 res t := by
        refine ⟨by rcases hbad with rfl | ⟨e, rfl⟩ <;> simp, 2, ?_⟩
        rw [blockLoop_step E 1 g1, P.bind_def, g2 0]
        rcases hbad with rfl | ⟨e, rfl⟩ <;> rfl
      have hnok : ¬ ∃ X, res = .ok (some X) := by rintro ⟨X, rfl⟩; rcases hbad with h | ⟨e, h⟩ <;> cases h
      have := fin (next_block E a1 a2 (a3 _ _ (fun h => absurd h hnok) hend))
      exact ⟨t, res, [], g3, this.1, this.2, g4, by simpa [framesSrc] using g5, fun h => by cases h⟩

  | named part tl p a =>
      simp only [TagFault.ok, Bool.and_eq_true, Bool.not_eq_true'] at hx
      simp only [TagFault.src, TagFault.kind] at h4 hsrc ⊢
      obtain ⟨tok, L, res, t, g1, g2, g3, g4, g5⟩ := named_fault E (pre := pre ++ T.src) hx.1.1.1.1 hx.1.1.1.2 hx.1.1.2 hx.1.2 hx.2 hk' (by rw [hsrc]; simp) h4
      have := fin (next_step E g1 g2)
      exact ⟨t, res, [], g3, this.1, this.2, g4.trans h3, by simpa using g5, fun h => by cases h⟩
  | computed part tl q b a =>
      simp only [TagFault.ok, Bool.and_eq_true] at hx
      simp only [TagFault.src, TagFault.kind] at h4 hsrc ⊢
      obtain ⟨tok, L, res, t, g1, g2, g3, g4, g5⟩ := computed_fault E (pre := pre ++ T.src) hx.1.1.1 hx.1.1.2 hx.1.2 hx.2 hk' (by rw [hsrc]; simp) h4
      have := fin (next_step E g1 g2)
      exact ⟨t, res, [], g3, this.1, this.2, g4.trans h3, by simpa using g5, fun h => by cases h⟩

theorem lints_faults (last : STm) : ∀ (fs : List (STm × TagFault)) (pre : Str) (s : PS) (errs : List SyntaxErr), faultsOk fs last = true →
    E.src = pre ++ faultsSrc fs last → AtB (blen pre) (faultsSrc fs last) s → s.stack = [] →
    ∃ r, Lints E s errs r ∧ (r = .panic ∧ (¬ ∀ x ∈ positions (blen pre) fs, Clear E.src x.1 x.2) ∨
      ∃ es, r = .ok (errs ++ es) ∧ List.Forall₂ (Reported E.src E.fileName) (positions (blen pre) fs) es)
  | [], pre, s, errs, hok, hsrc, hs, hst => by
      rw [faultsOk] at hok
      rw [faultsSrc] at hs hsrc
      obtain ⟨ns, s', h1, h2, h3, h4⟩ := tm_top E last [] pre s hok (.inl rfl) (by simpa using hsrc) (by simpa using hs) hst
      have hn : tokenP s' = (.ok none, s') := by
        have : s'.rem = [] := h4
        unfold PS.rem at this
        obtain ⟨hn, ht⟩ := List.append_eq_nil_iff.1 this
        have hn' : s'.next = none := by cases h : s'.next <;> simp_all
        unfold tokenP
        rw [hn', ht]
      refine ⟨.ok errs, ?_, .inr ⟨[], by simp, .nil⟩⟩
      have hp : parserNext E s' = (.ok none, s') := by
        unfold parserNext; rw [P.bind_def, hn]; rfl
      exact Lints.none E (h2 [] _ _ (ends_next E hp (by simp) ns))
  | (T, x) :: fs, pre, s, errs, hok, hsrc, hs, hst => by
      simp only [faultsOk, Bool.and_eq_true, bne_iff_ne, ne_eq] at hok
      obtain ⟨⟨⟨hT, hx⟩, hk⟩, hr⟩ := hok
      rw [faultsSrc] at hs hsrc
      obtain ⟨t, res, acc, h1, h2, h3, h4, h5, h6⟩ := fault_next E hT hx hk hsrc hs hst
      obtain ⟨notes, ⟨hi, hres⟩ | ⟨i, hi, hres⟩⟩ := h1
      · refine ⟨.panic, Lints.panic E (h3 hres), .inl ⟨rfl, ?_⟩⟩
        intro hall
        have := hall (x, blen pre + blen T.src) (by simp [positions])
        obtain ⟨hkind, hline⟩ := this
        have := C39_exact (fileName := E.fileName) (lineNo := t.line) (notes := notes).2 (.inr hline)
        rw [h6 hkind, blen_append] at hi
        rw [hi] at this
        cases this
      · obtain ⟨r, g1, g2⟩ := lints_faults last fs (pre ++ (T.src ++ x.src)) (afterErr t) (errs ++ [⟨x.kind, i⟩]) hr (by rw [hsrc]; simp) (afterErr_at h5) h4
        refine ⟨r, Lints.error E (h2 _ hres) g1, ?_⟩
        rcases g2 with ⟨g2, g3⟩ | ⟨es, g2, g3⟩
        · refine .inl ⟨g2, fun hall => g3 fun y hy => hall y ?_⟩
          rw [positions, List.mem_cons]
          right
          rw [blen_append] at hy
          exact hy
        · refine .inr ⟨⟨x.kind, i⟩ :: es, by rw [g2]; simp, ?_⟩
          rw [positions]
          refine .cons ⟨rfl, fun hkind => ⟨t.line, notes, ?_⟩⟩ (by rw [blen_append] at g3; exact g3)
          rw [h6 hkind, blen_append] at hi
          exact hi

omit [Host] in
theorem last_line : ∀ n (a : Str), a.length ≤ n → ∃ before l, a = before ++ l ∧ '\n' ∉ l ∧ (before = [] ∨ ∃ b, before = b ++ ['\n']) := by
  intro n
  induction n with
  | zero => intro a h; exact ⟨[], a, rfl, by rw [List.length_eq_zero_iff.1 (Nat.le_zero.1 h)]; simp, .inl rfl⟩
  | succ n ih =>
      intro a h
      rcases List.eq_nil_or_concat a with rfl | ⟨a, c, rfl⟩
      · exact ⟨[], [], rfl, by simp, .inl rfl⟩
      · by_cases hc : c = '\n'
        · subst hc; exact ⟨a ++ ['\n'], [], by simp, by simp, .inr ⟨a, rfl⟩⟩
        · obtain ⟨b, l, rfl, h1, h2⟩ := ih a (by simp at h; omega)
          exact ⟨b, l ++ [c], by simp, by simp [h1, Ne.symm hc], h2⟩

omit [Host] in
theorem first_line : ∀ b : Str, ∃ m after, b = m ++ after ∧ '\n' ∉ m ∧ (after = [] ∨ ∃ a, after = '\n' :: a)
  | [] => ⟨[], [], rfl, by simp, .inl rfl⟩
  | c :: b => by
      by_cases hc : c = '\n'
      · subst hc; exact ⟨[], '\n' :: b, rfl, by simp, .inr ⟨b, rfl⟩⟩
      · obtain ⟨m, a, rfl, h1, h2⟩ := first_line b
        exact ⟨c :: m, a, rfl, by simp [h1, Ne.symm hc], h2⟩

omit [Host] in
/-- The line of a character that is not a newline. -/
theorem line_of {s a b : Str} (ha : Ascii s) (e : s = a ++ (c!"{{" ++ b)) : ∃ before line after, LineOf s (blen a) before line after ∧ Ascii line := by
  obtain ⟨before, l, rfl, h1, h2⟩ := last_line a.length a (Nat.le_refl _)
  obtain ⟨m, after, rfl, h3, h4⟩ := first_line b
  refine ⟨before, l ++ (c!"{{" ++ m), after, ⟨by rw [e]; simp, ?_, h2, h4, ?_, ?_⟩, ?_⟩
  · simp [h1, h3]
  · simp
  · have : blen c!"{{" = 2 := by decide
    simp only [blen_append, this]
    omega
  · intro c hc
    refine ha c ?_
    rw [e]
    simp only [List.mem_append] at hc ⊢
    tauto

/-- **C68**: lint goes on after an error.  In a source that is well formed except for end tags with no
open block, and blocks ended by a tag with another name, lint reports each of them, once and in order, and
nothing else; the first kind is reported where its tag begins.  It panics only if one of them cannot be shown
(C39). -/
theorem C68_recovers (fs : List (STm × TagFault)) (last : STm) (name : Str) (hok : faultsOk fs last = true) :
    (lint name (faultsSrc fs last) = .panic ∧ ¬ ∀ x ∈ positions 0 fs, Clear (faultsSrc fs last) x.1 x.2) ∨
    ∃ es, lint name (faultsSrc fs last) = .ok es ∧ List.Forall₂ (Reported (faultsSrc fs last) name) (positions 0 fs) es := by
  obtain ⟨r, h1, h2⟩ := lints_faults ⟨faultsSrc fs last, name⟩ last fs [] (initPS (faultsSrc fs last) ⟨name, 0, 0⟩) [] hok rfl
    (by simp [AtB, PS.rem, initPS, lex, lexFrom]) rfl
  have hl := h1.at _ (n := 2 * (initPS (faultsSrc fs last) ⟨name, 0, 0⟩).toks.length + 4)
    (lintLoop_fuel _ _ _ _ (by rw [init_left]; simp [initPS]; omega))
  rcases h2 with ⟨rfl, h⟩ | ⟨es, rfl, h⟩
  · exact .inl ⟨hl, h⟩
  · exact .inr ⟨es, hl, h⟩

/-- **C68**, for sources of one-byte characters where all faults are end tags with no open block: nothing
panics, all are reported. -/
theorem C68_ascii (fs : List (STm × TagFault)) (last : STm) (name : Str) (hok : faultsOk fs last = true) (ha : Ascii (faultsSrc fs last))
    (hs : ∀ x ∈ fs, ∃ n cl, x.2 = .stray n cl) :
    ∃ es, lint name (faultsSrc fs last) = .ok es ∧ es.map (·.kind) = List.replicate fs.length .blockNotOpen := by
  have hpos : ∀ (fs : List (STm × TagFault)) (pre : Str), (∀ x ∈ fs, ∃ n cl, x.2 = .stray n cl) → ∀ x ∈ positions (blen pre) fs,
      x.1.kind = .blockNotOpen ∧ ∃ a b, pre ++ faultsSrc fs last = a ++ (c!"{{" ++ b) ∧ blen a = x.2 := by
    intro fs
    induction fs with
    | nil => intro pre _ x hx; cases hx
    | cons y fs ih =>
        intro pre h x hx
        obtain ⟨T, f⟩ := y
        obtain ⟨n, cl, hf⟩ := h (T, f) (by simp)
        simp only at hf
        subst hf
        rw [positions, List.mem_cons] at hx
        rcases hx with rfl | hx
        · exact ⟨rfl, pre ++ T.src, _, by simp only [faultsSrc, TagFault.src, closeText, List.append_assoc]; rfl, by simp⟩
        · have := ih (pre ++ (T.src ++ (TagFault.stray n cl).src)) (fun x hx => h x (by simp [hx])) x (by rw [blen_append]; exact hx)
          simpa [faultsSrc] using this
  rcases C68_recovers fs last name hok with ⟨-, h⟩ | ⟨es, h, hes⟩
  · refine absurd (fun x hx => ?_) h
    obtain ⟨hk, a, b, e, hb⟩ := hpos fs [] hs x hx
    refine ⟨hk, ?_⟩
    rw [← hb]
    rw [List.nil_append] at e
    exact line_of ha e
  · refine ⟨es, h, ?_⟩
    have hk : ∀ (src : Str) (off : Nat) (fs : List (STm × TagFault)), (∀ x ∈ fs, ∃ n cl, x.2 = .stray n cl) → ∀ es,
        List.Forall₂ (Reported src name) (positions off fs) es → es.map (·.kind) = List.replicate fs.length .blockNotOpen := by
      intro src off fs
      induction fs generalizing off with
      | nil => intro _ es h; cases h; rfl
      | cons y fs ih =>
          intro h es hes
          obtain ⟨T, f⟩ := y
          obtain ⟨n, cl, hf⟩ := h (T, f) (by simp)
          simp only at hf
          subst hf
          rw [positions] at hes
          cases hes with
          | cons h1 h2 =>
              rw [List.map_cons, ih _ (fun x hx => h x (by simp [hx])) _ h2, h1.1]
              rfl
    exact hk _ 0 fs hs es hes

end
/-! ### Examples -/

attribute [local instance] exHost

/-- Text, an end tag with no open block, a well formed block, a block ended by another name, more text. -/
def faultyTm : List (STm × TagFault) :=
  [(.text c!"a " .nil, .stray c!"b" ⟨false, false, [], [], []⟩),
   (.stmt false false ⟨false, false, [], [], []⟩ ⟨0, .name c!"c", []⟩ (.done (.tail [])) .nil,
    .crossed ⟨false, ⟨false, false, [], [], []⟩, c!"if", .arg (.path ⟨0, .name c!"d", []⟩) (.done (.tail [])), .text c!"e" .nil, .nil⟩ c!"each" ⟨true, false, [], [], []⟩),
   (.nil, .stray c!"f" ⟨false, true, [], [], []⟩)]

example : faultsSrc faultyTm (.text c!" g" .nil) = c!"a {{/b}}{{c}}{{#if d}}e{{~/each}}{{/f~}} g" ∧ faultsOk faultyTm (.text c!" g" .nil) = true ∧
    (positions 0 faultyTm).map (·.2) = [2, 13, 33] := by decide +kernel

/-- What lint reports for it. -/
example : lintKinds (faultsSrc faultyTm (.text c!" g" .nil)) = some [.blockNotOpen, .tagNameMismatch, .blockNotOpen] := by decide +kernel

/-- Blocks without a plain name: their end tags are reported too. -/
def namelessTm : List (STm × TagFault) :=
  [(.text c!"a " .nil, .named false ⟨false, false, [], [], []⟩ ⟨0, .name c!"b", [.word c!"c"]⟩ (.done (.tail []))),
   (.text c!" d " .nil, .named false ⟨true, false, [], [], []⟩ ⟨0, .this, []⟩ (.arg (.path ⟨0, .name c!"x", []⟩) (.done (.tail [])))),
   (.nil, .computed true ⟨false, true, [], [], []⟩ ⟨0, .name c!"f", []⟩ (.done (.tail [])) (.done (.tail []))),
   (.nil, .stray c!"c" ⟨false, false, [], [], []⟩)]

example : faultsSrc namelessTm (.text c!" g" .nil) = c!"a {{#b.c}} d {{~#this x}}{{#>(f)~}}{{/c}} g" ∧ faultsOk namelessTm (.text c!" g" .nil) = true := by decide +kernel

example : lintKinds (faultsSrc namelessTm (.text c!" g" .nil)) = some [.blockName, .blockName, .blockName, .blockNotOpen] := by decide +kernel

/-- One that cannot be shown: lint panics. -/
example : lintKinds c!"{{/a}} é {{/b}}" = none := by decide +kernel

example : faultsOk (faultyTm.take 1) (.text c!" g" .nil) = true ∧ (∀ x ∈ faultyTm.take 1, ∃ n cl, x.2 = .stray n cl) :=
  ⟨by decide +kernel, by intro x hx; simp [faultyTm] at hx; subst hx; exact ⟨_, _, rfl⟩⟩

end Bracket.Props
