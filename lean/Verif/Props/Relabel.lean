import Verif.Lemmas.Relabel
import Verif.Lemmas.Examples
import Verif.Props.ParserTotal

/-! C70: the file name and the line offset given to the parser are labels. -/

namespace Bracket.Props
open Bracket.Spec Bracket.Relabel

section
variable [Host]

/-- C70: compiling under another file name and `d` lines further down gives the same outcome: the same
tree with every line number `d` higher, the same error with the other file name and a line number `d`
higher in its message, or a panic in both cases. -/
theorem C70_labels (src f g : Str) (line byte d : Nat) :
    match compile src ⟨f, line, byte⟩, compile src ⟨g, line + d, byte⟩ with
    | .ok n, .ok n' => n' = moveNode d n
    | .err e, .err e' => Relabelled d f g e e'
    | .panic, .panic => True
    | _, _ => False := by
  have h := parseLoop_sim (d := d) (E := ⟨src, f⟩) (g := g)
    (2 * (initPS src ⟨f, line, byte⟩).toks.length + 2) [] (initPS src ⟨f, line, byte⟩) (by intro p hp; cases hp)
  have hf := C03_compile src ⟨f, line, byte⟩
  unfold compile at hf ⊢
  simp only at hf ⊢
  rw [show moveS d (initPS src ⟨f, line, byte⟩) = initPS src ⟨g, line + d, byte⟩ from rfl,
    show moveNodes d [] = [] from rfl] at h
  rw [show (initPS src ⟨g, line + d, byte⟩).toks = (initPS src ⟨f, line, byte⟩).toks from rfl]
  replace h := h.1
  generalize (parseLoop ⟨src, f⟩ _ [] _).1 = x at h hf ⊢
  generalize (parseLoop ⟨src, g⟩ _ [] _).1 = y at h ⊢
  cases x <;> cases y <;> simp only [Agree] at h <;> first
    | exact h.elim
    | exact (hf rfl).elim
    | trivial
    | exact h
    | (simp only [moveNode]; rw [h])

/-- C70: in particular the labels never decide whether a template compiles. -/
theorem C70_compiles (src f g : Str) (line byte d : Nat) :
    (∃ n, compile src ⟨f, line, byte⟩ = .ok n) ↔ ∃ n, compile src ⟨g, line + d, byte⟩ = .ok n := by
  have h := C70_labels src f g line byte d
  generalize compile src ⟨f, line, byte⟩ = x at h ⊢
  generalize compile src ⟨g, line + d, byte⟩ = y at h ⊢
  cases x <;> cases y <;> simp_all

omit [Host] in
theorem afterErr_move (d : Nat) (s : PS) : afterErr (moveS d s) = moveS d (afterErr s) := rfl

/-- Lists of errors, one by one under the other name. -/
inductive AllRelabelled (d : Nat) (f g : Str) : List SyntaxErr → List SyntaxErr → Prop where
  | nil : AllRelabelled d f g [] []
  | snoc {es es' : List SyntaxErr} {e e' : SyntaxErr} : AllRelabelled d f g es es' → Relabelled d f g e e' →
      AllRelabelled d f g (es ++ [e]) (es' ++ [e'])

omit [Host] in
theorem AllRelabelled.length {d : Nat} {f g : Str} {es es' : List SyntaxErr} (h : AllRelabelled d f g es es') :
    es'.length = es.length := by
  induction h with
  | nil => rfl
  | snoc _ _ ih => simp [ih]

omit [Host] in
theorem AllRelabelled.nth {d : Nat} {f g : Str} {es es' : List SyntaxErr} (h : AllRelabelled d f g es es') :
    ∀ (i : Nat) (e e' : SyntaxErr), es[i]? = some e → es'[i]? = some e' → Relabelled d f g e e' := by
  induction h with
  | nil => intro i e e' h; simp at h
  | @snoc es es' x x' hs hx ih =>
      intro i e e' h h'
      have hl := hs.length
      by_cases hi : i < es.length
      · rw [List.getElem?_append_left hi] at h
        rw [List.getElem?_append_left (by omega)] at h'
        exact ih i e e' h h'
      · rw [List.getElem?_append_right (by omega)] at h h'
        rw [hl] at h'
        cases hj : i - es.length with
        | zero => rw [hj] at h h'; simp at h h'; rw [← h, ← h']; exact hx
        | succ k => rw [hj] at h; simp at h

theorem lintLoop_labels (src f g : Str) (d : Nat) : ∀ (n : Nat) (es es' : List SyntaxErr) (s : PS), Ok s →
    AllRelabelled d f g es es' →
    match lintLoop ⟨src, f⟩ n es s, lintLoop ⟨src, g⟩ n es' (moveS d s) with
    | .ok x, .ok x' => AllRelabelled d f g x x'
    | .panic, .panic => True
    | .fuel, .fuel => True
    | _, _ => False := by
  intro n
  induction n with
  | zero => intro es es' s _ _; simp [lintLoop]
  | succ n ih =>
      intro es es' s hs he
      have h := parserNext_sim (d := d) (E := ⟨src, f⟩) (g := g) s hs
      rw [lintLoop_succ, lintLoop_succ]
      generalize parserNext ⟨src, f⟩ s = x at h ⊢
      generalize parserNext ⟨src, g⟩ (moveS d s) = y at h ⊢
      obtain ⟨r, t⟩ := x
      obtain ⟨r', t'⟩ := y
      obtain ⟨h1, h2, h3⟩ := h
      simp only at h1 h2 h3
      subst h2
      cases r <;> cases r' <;> simp only [Agree] at h1 <;> try exact h1.elim
      case ok.ok a b =>
        rw [h1]
        cases a with
        | none => exact he
        | some x => exact ih es es' t h3 he
      case err.err e e' =>
        simp only
        rw [afterErr_move]
        exact ih _ _ (afterErr t) h3 (.snoc he h1)
      all_goals trivial

/-- C70: linting under another name reports the same problems in the same order. -/
theorem C70_lint (src f g : Str) :
    match lint f src, lint g src with
    | .ok es, .ok es' => es'.length = es.length ∧
        ∀ (i : Nat) (e e' : SyntaxErr), es[i]? = some e → es'[i]? = some e' → Relabelled 0 f g e e'
    | .panic, .panic => True
    | _, _ => False := by
  have h := lintLoop_labels src f g 0 (2 * (initPS src ⟨f, 0, 0⟩).toks.length + 4) [] [] (initPS src ⟨f, 0, 0⟩)
    (by intro p hp; cases hp) .nil
  have hf := C03_lint f src
  unfold lint at hf ⊢
  simp only at hf ⊢
  rw [show moveS 0 (initPS src ⟨f, 0, 0⟩) = initPS src ⟨g, 0, 0⟩ from rfl] at h
  rw [show (initPS src ⟨g, 0, 0⟩).toks = (initPS src ⟨f, 0, 0⟩).toks from rfl]
  generalize lintLoop ⟨src, f⟩ _ [] _ = x at h hf ⊢
  generalize lintLoop ⟨src, g⟩ _ [] _ = y at h ⊢
  cases x <;> cases y <;> simp only at h ⊢ <;> first
    | exact h.elim
    | exact (hf rfl).elim
    | trivial
    | exact ⟨h.length, h.nth⟩
end

section Examples
attribute [local instance] exHost

/-- The line recorded for the `i`-th node. -/
def lineOf (src : Str) (o : ParserOptions) (i : Nat) : Option (Nat × Nat) :=
  match compile src o with
  | .ok (.document _ ns) => match ns[i]? with
      | some (.statement c) => some (c.line.start, c.line.stop)
      | some (.text t) => some (t.line.start, t.line.stop)
      | _ => none
  | _ => none

/-- The message of a compile error. -/
def messageOf (src : Str) (o : ParserOptions) : Option Str :=
  match compile src o with
  | .err e => some e.info
  | _ => none

/-- A concrete case: the third line of a snippet taken from line 40 of a page. -/
example : lineOf c!"a\nb\n{{c}}" ⟨c!"x", 0, 0⟩ 1 = some (2, 3) ∧
    lineOf c!"a\nb\n{{c}}" ⟨c!"page.md", 40, 0⟩ 1 = some (42, 43) := by
  refine ⟨by decide +kernel, by decide +kernel⟩

example : messageOf c!"{{#a}}\n{{/b }}" ⟨c!"x", 0, 0⟩ =
      some c!"  --> x:2:5\n   |\n 2 | {{/b }}\n   | ----^\n   = note: opening name is 'a'" ∧
    messageOf c!"{{#a}}\n{{/b }}" ⟨c!"page.md", 99, 0⟩ =
      some c!"    --> page.md:101:5\n     |\n 101 | {{/b }}\n     | ----^\n     = note: opening name is 'a'" := by
  refine ⟨by decide +kernel, by decide +kernel⟩

end Examples
end Bracket.Props
