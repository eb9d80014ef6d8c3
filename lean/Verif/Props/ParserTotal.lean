import Verif.Lemmas.ParserTri
import Verif.Lemmas.ExHost

/-! C03, C38: compiling, linting and path evaluation finish; lint agrees with compile. -/

namespace Bracket.Props
open P Tri

theorem P.pure_eq {α : Type} (a : α) (s : PS) : (Pure.pure a : P α) s = (.ok a, s) := rfl

section
set_option linter.unusedSectionVars false
variable [Host]

theorem parserNext_top (E : PEnv) (s : PS) :
    Top (parserNext E) s fun o t => (o.isSome → t.left < s.left) := by
  unfold parserNext
  refine Top.bind (tokenP_top s) fun o t ht ho => ?_
  cases o with
  | none => exact Top.pure (by simp)
  | some tok =>
      have h := ho.1 rfl
      refine Top.getBind (((advance_top E _).1 tok t ?_).mono fun a u hu _ => ?_)
      · unfold advFuel PS.left wt; split <;> omega
      · intro _; have := hu.left; omega

theorem parseLoop_top (E : PEnv) : ∀ (n : Nat) (acc : List Node) (s : PS), s.left < n →
    Top (parseLoop E n acc) s fun _ _ => True := by
  intro n
  induction n with
  | zero => intro acc s h; omega
  | succ n ih =>
      intro acc s h
      unfold parseLoop
      refine Top.bind (parserNext_top E s) fun o t ht ho => ?_
      cases o with
      | none => exact Top.pure trivial
      | some x => exact ih _ t (by have := ho rfl; omega)

theorem init_left (src : Str) (o : ParserOptions) : (initPS src o).left = (lex src).length := by
  simp [PS.left, wt, initPS]

/-- C03: compiling any source finishes. -/
theorem C03_compile (src : Str) (o : ParserOptions) : compile src o ≠ .fuel := by
  have h := parseLoop_top ⟨src, o.fileName⟩ (2 * (initPS src o).toks.length + 2) [] (initPS src o)
    (by rw [init_left]; simp [initPS]; omega)
  unfold compile
  unfold Top at h
  rcases hm : parseLoop ⟨src, o.fileName⟩ (2 * (initPS src o).toks.length + 2) [] (initPS src o) with ⟨r, t⟩
  rw [hm] at h
  simp only [hm]
  cases r with
  | fuel => exact h.elim
  | _ => simp

theorem untilMode_le (ts : List Token) : (untilMode ts).2.length + (if (untilMode ts).1.isSome then 1 else 0) ≤ ts.length := by
  induction ts with
  | nil => simp [untilMode]
  | cons t ts ih =>
      unfold untilMode
      split
      · simp
      · simp; omega

/-- An error of the iterator comes after at least one token was taken. -/
theorem parserNext_err (E : PEnv) (s t : PS) (e : SyntaxErr) (h : parserNext E s = (.err e, t)) :
    t.left < s.left := by
  have ht := tokenP_top s
  unfold Top at ht
  unfold parserNext at h
  rw [P.bind_def] at h
  rcases hm : tokenP s with ⟨r, u⟩
  rw [hm] at ht h
  cases r with
  | ok o =>
      cases o with
      | none => simp [P.pure_eq] at h
      | some tok =>
          have hlt := ht.2.1 rfl
          have ha := (advance_top E (advFuel u)).1 tok u (by unfold advFuel PS.left wt; split <;> omega)
          unfold Top at ha
          have h' : advance E (advFuel u) tok u = (.err e, t) := h
          rw [h'] at ha
          have := ha.left
          omega
  | err e' =>
      exfalso
      unfold tokenP at hm
      split at hm
      · simp at hm
      · split at hm <;> simp at hm
  | panic => simp at h
  | fuel => simp at h

/-- The state from which lint goes on after an error. -/
def afterErr (t : PS) : PS := { t with next := (untilMode t.toks).1, toks := (untilMode t.toks).2 }

theorem afterErr_left (t : PS) : (afterErr t).left ≤ t.left := by
  have := untilMode_le t.toks
  unfold afterErr PS.left wt
  simp only
  omega

theorem lintLoop_succ (E : PEnv) (n : Nat) (errs : List SyntaxErr) (s : PS) :
    lintLoop E (n + 1) errs s =
      match parserNext E s with
      | (.ok none, _) => .ok errs
      | (.ok (some _), s') => lintLoop E n errs s'
      | (.err e, s') => lintLoop E n (errs ++ [e]) (afterErr s')
      | (.panic, _) => .panic
      | (.fuel, _) => .fuel := by
  conv => lhs; unfold lintLoop
  rcases parserNext E s with ⟨r, t⟩
  cases r with
  | ok o => cases o <;> rfl
  | err e => rfl
  | panic => rfl
  | fuel => rfl

theorem lintLoop_fuel (E : PEnv) : ∀ (n : Nat) (errs : List SyntaxErr) (s : PS), s.left < n →
    lintLoop E n errs s ≠ .fuel := by
  intro n
  induction n with
  | zero => intro errs s h; omega
  | succ n ih =>
      intro errs s h
      have hp := parserNext_top E s
      unfold Top at hp
      rw [lintLoop_succ]
      rcases hm : parserNext E s with ⟨r, t⟩
      rw [hm] at hp
      cases r with
      | ok o =>
          cases o with
          | none => simp
          | some x => exact ih _ t (by have := hp.2 rfl; omega)
      | err e =>
          have h1 := parserNext_err E s t e hm
          have h2 := afterErr_left t
          exact ih _ _ (by omega)
      | panic => simp
      | fuel => exact hp.elim

/-- C03: linting any source finishes. -/
theorem C03_lint (name src : Str) : lint name src ≠ .fuel := by
  unfold lint
  exact lintLoop_fuel _ _ _ _ (by rw [init_left]; simp [initPS]; omega)

/-- C03: parsing a path given to `evaluate` finishes. -/
theorem C03_evaluate (src : Str) : pathFromStr src ≠ .fuel := by
  unfold pathFromStr
  cases lexParams src with
  | nil => simp
  | cons t ts =>
      simp only
      cases t.kind with
      | params lex =>
          have h := pathParse_tri ⟨src, c!"unknown"⟩ lex t.span
            { toks := ts, line := 0, byte := 0, stack := [], next := none }
          unfold Tri at h
          simp only
          rcases hm : pathParse ⟨src, c!"unknown"⟩ lex t.span
            { toks := ts, line := 0, byte := 0, stack := [], next := none } with ⟨r, u⟩
          rw [hm] at h
          cases r with
          | fuel => exact h.elim
          | _ => simp
      | _ =>
          have h := Tri.fail (α := Option Path) (E := ⟨src, c!"unknown"⟩) (k := .tokenParameterPath)
            (s := { toks := ts, line := 0, byte := 0, stack := [], next := none }) (Q := fun _ _ => True)
          unfold Tri at h
          simp only
          rcases hm : (fail ⟨src, c!"unknown"⟩ .tokenParameterPath
            { toks := ts, line := 0, byte := 0, stack := [], next := none } : R (Option Path) × PS) with ⟨r, u⟩
          rw [hm] at h
          cases r with
          | fuel => exact h.elim
          | _ => simp

/-! ### C38 -/

/-- Lint only appends to its error list. -/
theorem lintLoop_grows (E : PEnv) : ∀ (n : Nat) (errs : List SyntaxErr) (s : PS) (es : List SyntaxErr),
    lintLoop E n errs s = .ok es → ∃ more, es = errs ++ more := by
  intro n
  induction n with
  | zero => intro errs s es h; simp [lintLoop] at h
  | succ n ih =>
      intro errs s es h
      rw [lintLoop_succ] at h
      rcases hm : parserNext E s with ⟨r, t⟩
      rw [hm] at h
      cases r with
      | ok o =>
          cases o with
          | none => exact ⟨[], by simp at h; simp [h]⟩
          | some x => exact ih _ _ _ h
      | err e =>
          obtain ⟨m, hm⟩ := ih _ _ _ h
          exact ⟨e :: m, by simp [hm]⟩
      | panic => simp at h
      | fuel => simp at h

theorem lintLoop_noerr (E : PEnv) : ∀ (n : Nat) (errs : List SyntaxErr) (s : PS) (e : SyntaxErr),
    lintLoop E n errs s ≠ .err e := by
  intro n
  induction n with
  | zero => intro errs s e; simp [lintLoop]
  | succ n ih =>
      intro errs s e
      rw [lintLoop_succ]
      rcases parserNext E s with ⟨r, t⟩
      cases r with
      | ok o =>
          cases o with
          | none => simp
          | some x => exact ih _ _ _
      | err e' => exact ih _ _ _
      | panic => simp
      | fuel => simp

theorem lint_parse (E : PEnv) : ∀ (m n : Nat) (acc : List Node) (s : PS), s.left < m → s.left < n →
    match (parseLoop E m acc s).1 with
    | .ok _ => ∀ errs, lintLoop E n errs s = .ok errs
    | .err e => ∀ errs, lintLoop E n errs s = .panic ∨ ∃ more, lintLoop E n errs s = .ok (errs ++ e :: more)
    | .panic => ∀ errs, lintLoop E n errs s = .panic
    | .fuel => False := by
  intro m
  induction m with
  | zero => intro n acc s h; omega
  | succ m ih =>
      intro n acc s h hn
      obtain ⟨n, rfl⟩ : ∃ k, n = k + 1 := ⟨n - 1, by omega⟩
      have hp := parserNext_top E s
      unfold Top at hp
      unfold parseLoop
      rw [P.bind_def]
      simp only [lintLoop_succ]
      rcases hm : parserNext E s with ⟨r, t⟩
      rw [hm] at hp
      cases r with
      | ok o =>
          cases o with
          | none => simp [P.pure_eq]
          | some x => exact ih n _ t (by have := hp.2 rfl; omega) (by have := hp.2 rfl; omega)
      | err e =>
          simp only
          intro errs
          have h1 := parserNext_err E s t e hm
          have h2 := afterErr_left t
          have hf := lintLoop_fuel E n (errs ++ [e]) (afterErr t) (by omega)
          cases hl : lintLoop E n (errs ++ [e]) (afterErr t) with
          | ok es =>
              obtain ⟨more, hmore⟩ := lintLoop_grows E _ _ _ _ hl
              exact Or.inr ⟨more, by simp [hmore]⟩
          | err e' => exact (lintLoop_noerr E n _ _ e' hl).elim
          | panic => exact Or.inl rfl
          | fuel => exact (hf hl).elim
      | panic => simp
      | fuel => exact hp.elim

/-- What compiling and linting the same source under the same name give. -/
theorem lint_compile (name src : Str) :
    match compile src ⟨name, 0, 0⟩ with
    | .ok _ => lint name src = .ok []
    | .err e => lint name src = .panic ∨ ∃ more, lint name src = .ok (e :: more)
    | .panic => lint name src = .panic
    | .fuel => False := by
  have h := lint_parse ⟨src, name⟩ (2 * (initPS src ⟨name, 0, 0⟩).toks.length + 2)
    (2 * (initPS src ⟨name, 0, 0⟩).toks.length + 4) [] (initPS src ⟨name, 0, 0⟩)
    (by rw [init_left]; simp [initPS]; omega) (by rw [init_left]; simp [initPS]; omega)
  unfold compile lint
  simp only
  revert h
  generalize (parseLoop ⟨src, name⟩ (2 * (initPS src ⟨name, 0, 0⟩).toks.length + 2) [] (initPS src ⟨name, 0, 0⟩)).1 = r
  cases r with
  | ok ns => exact fun h => h []
  | err e => exact fun h => by simpa using h []
  | panic => exact fun h => h []
  | fuel => exact fun h => h

/-- C38: lint reports nothing exactly when the source compiles. -/
theorem C38_clean (name src : Str) :
    lint name src = .ok [] ↔ ∃ doc, compile src ⟨name, 0, 0⟩ = .ok doc := by
  have h := lint_compile name src
  constructor
  · intro hl
    rw [hl] at h
    cases hc : compile src ⟨name, 0, 0⟩ <;> rw [hc] at h <;> simp at h
    exact ⟨_, rfl⟩
  · rintro ⟨doc, hd⟩
    rw [hd] at h
    exact h

/-- C38: the first error lint reports is the error compile reports. -/
theorem C38_first (name src : Str) (e : SyntaxErr) (more : List SyntaxErr)
    (h : lint name src = .ok (e :: more)) : compile src ⟨name, 0, 0⟩ = .err e := by
  have hl := lint_compile name src
  rw [h] at hl
  cases hc : compile src ⟨name, 0, 0⟩ <;> rw [hc] at hl <;> simp at hl
  rw [hl]

/-- C38: a source that does not compile is reported by lint (lint goes on after the
first error and may hit one of the panics of C40 there). -/
theorem C38_reports (name src : Str) (e : SyntaxErr) (h : compile src ⟨name, 0, 0⟩ = .err e) :
    lint name src = .panic ∨ ∃ more, lint name src = .ok (e :: more) := by
  have hl := lint_compile name src
  rw [h] at hl
  exact hl

/-- Lint never reports a result of another kind. -/
theorem C38_noerr (name src : Str) (e : SyntaxErr) : lint name src ≠ .err e := lintLoop_noerr _ _ _ _ _

end
end Bracket.Props

namespace Bracket.Props
attribute [local instance] exHost

/-- Result of lint reduced to the error kinds; `none` for a panic. -/
def lintKinds (src : Str) : Option (List SynKind) :=
  match lint c!"t" src with | .ok es => some (es.map (·.kind)) | _ => none
def compileKind (src : Str) : Option SynKind :=
  match compile src ⟨c!"t", 0, 0⟩ with | .err e => some e.kind | _ => none

/-- A source with two errors: lint reports both, compile the first. -/
example : lintKinds c!"{{/a}} x {{/b}}" = some [.blockNotOpen, .blockNotOpen]
    ∧ compileKind c!"{{/a}} x {{/b}}" = some .blockNotOpen := by decide +kernel
example : lintKinds c!"a {{b}} {{#if c}}d{{else}}e{{/if}}" = some [] := by decide +kernel
/-- The excluded case: the first error is reported by compile, but lint panics later on. -/
example : compileKind c!"{{/a}}{{log 01}}" = some .blockNotOpen
    ∧ lintKinds c!"{{/a}}{{log 01}}" = none := by decide +kernel
end Bracket.Props
