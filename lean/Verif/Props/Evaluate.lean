import Verif.Props.Roundtrip
import Verif.Lemmas.Core

/-! C49: `evaluate` agrees with templates. -/

set_option linter.unusedSectionVars false
set_option linter.unusedSimpArgs false

namespace Bracket.Spec

/-- The path as the only argument of a tag. -/
def pathTag (name : Str) (p : SPath) : Str := c!"{{" ++ (name ++ (' ' :: (p.text ++ c!"}}")))

end Bracket.Spec

namespace Bracket.Props
open Bracket Re Spec P

section
variable [Host]

theorem lexParams_eq (s : Str) : lexParams s = lexFrom .params 0 s := by
  unfold lexParams lexFrom; rfl

theorem pathFromStr_run (p : SPath) (hp : p.argOk = true) (rest : Str) (hf : Follow rest) :
    ∃ q, pathFromStr (p.text ++ rest) = .ok (some q) ∧ PathRep p q := by
  obtain ⟨lex, sp, L, h1, h2, h3⟩ := arg_path_run ⟨p.text ++ rest, c!"unknown"⟩ p hp [] rest hf (by simp)
  obtain ⟨q, o, t, g1, g2, _⟩ := h3 { toks := L, line := 0, byte := 0, stack := [], next := none } rfl
  refine ⟨q, ?_, g2⟩
  unfold pathFromStr
  rw [lexParams_eq]
  rw [show lexFrom .params 0 (p.text ++ rest) = ⟨.params lex, sp⟩ :: L from h2]
  simp only
  rw [g1]

theorem lookup_reps {p : SPath} {q q' : Path} (h : PathRep p q) (h' : PathRep p q') (root : Value) (scopes : List Scope) :
    lookup root scopes q = lookup root scopes q' := by
  rw [lookup_find h ⟨false, id, [], root, scopes, []⟩, lookup_find h' ⟨false, id, [], root, scopes, []⟩]

/-- What follows the path in the text given to `evaluate`: nothing, white space, or the end of a tag. -/
def Ignored (rest : Str) : Prop := rest = [] ∨ (∃ c r, rest = c :: r ∧ (blank c = true ∨ c = ')'))

theorem Ignored.follow {rest : Str} (h : Ignored rest) : Follow rest := by
  rcases h with rfl | ⟨c, r, rfl, h | rfl⟩
  · exact .nil
  · exact .space h r
  · exact .paren r

/-- **C49**: what `evaluate` returns for the text of a path is what the path finds in the scene of the
template at that point, and nothing else changes. -/
theorem C49_value_partial (p : SPath) (hp : p.argOk = true) (E : Env) (s : RS) :
    evaluate E p.text s = (.ok (.ok (Scene.find ⟨E.reg.strict, E.reg.escape, E.name, E.root, s.scopes, s.stack⟩ p)), s) := by
  obtain ⟨q, h1, h2⟩ := pathFromStr_run p hp [] .nil
  rw [List.append_nil] at h1
  unfold evaluate
  rw [h1]
  simp only
  rw [RM.bind_def]
  unfold lookupM
  rw [RM.bind_def]
  simp only [RM.get]
  have := lookup_find h2 ⟨E.reg.strict, E.reg.escape, E.name, E.root, s.scopes, s.stack⟩
  simp only at this
  rw [this]
  rfl

/-- **C13**, as written: `evaluate` of an absolute path finds nothing, whatever the data and the scopes. -/
theorem C13_written (w : Str) (ws : List SComp) (hw : nameOk w = true) (hws : ws.all (·.part.ok) = true) (E : Env) (s : RS) :
    evaluate E ('/' :: (w ++ dotted ws)) s = (.ok (.ok none), s) := by
  have hp : (SPath.mk 0 (.abs w) ws).argOk = true := by
    simp only [SPath.argOk, hw, hws]; rfl
  exact C49_value_partial ⟨0, .abs w, ws⟩ hp E s

/-- **C49**: an argument of any compiled template that was written as this path has, whenever it is
evaluated, the value that `evaluate` returns for the text of the path in the same state; it is `null`, and
reported as missing under its recorded text, exactly if `evaluate` finds nothing. -/
theorem C49_argument_partial {p : SPath} {x : ParamValue} (hp : p.argOk = true) (hx : ExprRep (.path p) x) (S : Sem) (E : Env) (s : RS) :
    ∃ v, evaluate E p.text s = (.ok (.ok v), s) ∧
      paramM S E x s = (.ok (match v with | some u => (u, none) | none => (.null, some p.shown)), s) := by
  cases hx with
  | @path _ q h =>
      refine ⟨_, C49_value_partial p hp E s, ?_⟩
      have hl := lookup_find h ⟨E.reg.strict, E.reg.escape, E.name, E.root, s.scopes, s.stack⟩
      simp only at hl
      have hl' : lookupM E q s = (.ok (Scene.find ⟨E.reg.strict, E.reg.escape, E.name, E.root, s.scopes, s.stack⟩ p), s) := by
        unfold lookupM
        rw [RM.bind_def]
        simp only [RM.get]
        rw [hl]
        rfl
      unfold paramM
      simp only
      rw [RM.bind_def, hl']
      simp only
      cases Scene.find ⟨E.reg.strict, E.reg.escape, E.name, E.root, s.scopes, s.stack⟩ p with
      | some v => rfl
      | none =>
          simp only
          rw [RM.bind_def, h.asStr]
          rfl

/-- **C49**, from the text: the path as the only argument of a tag. -/
theorem C49_agrees_partial (name : Str) (p : SPath) (o : ParserOptions) (hn : nameOk name = true) (hp : p.argOk = true) :
    ∃ c x, compile (pathTag name p) o = .ok (.document (pathTag name p) [.statement c]) ∧ c.args = [x] ∧ c.params = [] ∧
      ∀ (S : Sem) (E : Env) (s : RS), ∃ v raw, evaluate E p.text s = (.ok (.ok v), s) ∧
        paramM S E x s = (.ok (v.getD .null, raw), s) := by
  have hk : (STm.stmt false false ⟨false, false, [], [], []⟩ ⟨0, .name name, []⟩ (.arg (.path p) (.done .nil)) .nil).ok [] = true := by
    simp [STm.ok, Tilde.ok, gapOk, SPath.ok, hn, SArgs.ok, SHash.ok, SExpr.ok, STm.noBrace, blank]
    exact hp
  obtain ⟨ns, g1, g2⟩ := C56_roundtrip _ o hk
  have e : (STm.stmt false false ⟨false, false, [], [], []⟩ ⟨0, .name name, []⟩ (.arg (.path p) (.done .nil)) .nil).src = pathTag name p := by
    simp [STm.src, stmtText, Tilde.mark, tilde, brace, gt, SPath.text, dots, Head.text, following, dotted, SArgs.text, SHash.text, SExpr.text, pathTag]
  rw [e] at g1
  cases g2 with
  | stmt _ ht _ _ hr =>
      cases hr
      have ha := ht.args
      generalize hca : Call.args _ = as at ha
      generalize hcp : Call.params _ = ps at ha
      cases ha with
      | arg hx hr =>
          cases hr with
          | done hh =>
              cases hh
              refine ⟨_, _, g1, hca, hcp, fun S E s => ?_⟩
              obtain ⟨v, h1, h2⟩ := C49_argument_partial hp hx S E s
              cases v with
              | none => exact ⟨_, _, h1, h2⟩
              | some u => exact ⟨_, _, h1, h2⟩

/-- **C49**: whatever the text, `evaluate` writes nothing and changes nothing, and it fails only with a
syntax error (returned to the helper) or a panic. -/
theorem C49_pure (w : Str) (E : Env) (s : RS) :
    (evaluate E w s).2 = s ∧
    ((∃ v, (evaluate E w s).1 = .ok (.ok v)) ∨ (∃ e, pathFromStr w = .err e ∧ (evaluate E w s).1 = .ok (.error (.syntax e))) ∨
      (evaluate E w s).1 = .panic) := by
  have hf := C03_evaluate w
  unfold evaluate
  rcases h : pathFromStr w with o | e | _ | _
  · cases o with
    | none => exact ⟨rfl, .inl ⟨_, rfl⟩⟩
    | some q =>
        simp only
        rw [RM.bind_def]
        unfold lookupM
        rw [RM.bind_def]
        simp only [RM.get]
        cases lookup E.root s.scopes q with
        | none => exact ⟨rfl, .inr (.inr rfl)⟩
        | some v => exact ⟨rfl, .inl ⟨v, rfl⟩⟩
  · exact ⟨rfl, .inr (.inl ⟨e, rfl, rfl⟩)⟩
  · exact ⟨rfl, .inr (.inr rfl)⟩
  · exact absurd h hf

/-- The tokens of white space. -/
theorem blank_tokens : ∀ (k : Nat) (w : Str) (off : Nat), w.length ≤ k → w.all blank = true →
    ∀ t ∈ lexFrom .params off w, t.kind = .params .whiteSpace ∨ t.kind = .params .newline := by
  intro k
  induction k with
  | zero =>
      intro w off hk _ t ht
      have : w = [] := List.length_eq_zero_iff.1 (by omega)
      subst this
      cases ht
  | succ k ih =>
      intro w off hk hb t ht
      cases w with
      | nil => cases ht
      | cons c w =>
          have hb0 := hb
          simp only [List.all_cons, Bool.and_eq_true] at hb
          simp only [List.length_cons] at hk
          have hx : c = '\n' ∨ flat c = true := by
            rcases blank_cases hb.1 with rfl | rfl | rfl
            · right; decide
            · right; decide
            · exact .inl rfl
          rcases hx with rfl | hc
          · rw [lex_newline] at ht
            rcases List.mem_cons.1 ht with rfl | ht
            · exact .inr rfl
            · exact ih w _ (by omega) hb.2 t ht
          · obtain ⟨v, r, e, hne, hf, _, hlex⟩ := lex_flat hc w off
            rw [hlex] at ht
            rcases List.mem_cons.1 ht with rfl | ht
            · exact .inl rfl
            · refine ih r _ ?_ ?_ t ht
              · have := congrArg List.length e
                simp only [List.length_cons, List.length_append] at this
                have : 0 < v.length := List.length_pos_iff.2 hne
                omega
              · rw [e, List.all_append, Bool.and_eq_true] at hb0
                exact hb0.2

theorem pathFirst_blank (E : PEnv) : ∀ (ts : List Token) (t : Token) (path : Path) (s : PS),
    (∀ x ∈ t :: ts, x.kind = .params .whiteSpace ∨ x.kind = .params .newline) →
    (pathFirst E ts (some t) path s).1 = .ok (none, none) := by
  intro ts
  induction ts with
  | nil =>
      intro t path s h
      rcases h t (by simp) with h | h <;> (rw [pathFirst.eq_def]; simp only [h]; rw [P.bind_def]; simp only [setByte]; rfl)
  | cons u ts ih =>
      intro t path s h
      have ih := fun s' => ih u path s' (fun x hx => h x (by simp only [List.mem_cons] at hx ⊢; tauto))
      rcases h t (by simp) with h | h <;>
        (rw [pathFirst.eq_def]; simp only [h]; rw [P.bind_def]; simp only [setByte]; rw [if_neg (by decide)]
         rw [P.bind_def]; simp only [P.modify]; exact ih _)

/-- **C49**: where no path is written (the text is empty or white space) `evaluate` finds nothing. -/
theorem C49_blank (w : Str) (hw : w.all blank = true) (E : Env) (s : RS) : evaluate E w s = (.ok (.ok none), s) := by
  have h : pathFromStr w = .ok none := by
    have ht := blank_tokens w.length w 0 (Nat.le_refl _) hw
    unfold pathFromStr
    rw [lexParams_eq]
    cases hl : lexFrom .params 0 w with
    | nil => rfl
    | cons t ts =>
        rw [hl] at ht
        have hin : ∃ v, slice w t.span.start t.span.stop = some v := by
          cases w with
          | nil => cases hl
          | cons c w =>
              simp only [List.all_cons, Bool.and_eq_true] at hw
              rcases blank_cases hw.1 with rfl | rfl | rfl
              · obtain ⟨v, r, e, _, _, _, hlex⟩ := lex_flat (c := ' ') (by decide) w 0
                rw [hlex] at hl; injection hl with e' _; subst e'
                exact ⟨_, slice_eq (a := []) (b := v) (c := r) e rfl (by simp)⟩
              · obtain ⟨v, r, e, _, _, _, hlex⟩ := lex_flat (c := '\t') (by decide) w 0
                rw [hlex] at hl; injection hl with e' _; subst e'
                exact ⟨_, slice_eq (a := []) (b := v) (c := r) e rfl (by simp)⟩
              · rw [lex_newline] at hl; injection hl with e _; subst e; exact ⟨_, slice_eq (a := []) (b := ['\n']) (c := w) rfl rfl rfl⟩
        obtain ⟨v, hv⟩ := hin
        have hp : ∀ lex, (lex = .whiteSpace ∨ lex = .newline) → t.kind = .params lex → ∀ s0 : PS, s0.toks = ts →
            (pathParse ⟨w, c!"unknown"⟩ lex t.span s0).1 = .ok (none, none) := by
          intro lex hlex hk s0 hs0
          unfold pathParse
          rw [P.bind_def]
          simp only [lineRange]
          rw [P.bind_def, hv]
          simp only [orPanic, Pure.pure]
          have := pathFirst_blank ⟨w, c!"unknown"⟩ ts ⟨.params lex, t.span⟩ (Path.new w t.span ⟨s0.line, s0.line + 1⟩) s0 (by
            intro x hx
            rcases List.mem_cons.1 hx with rfl | hx
            · rcases hlex with rfl | rfl <;> simp
            · exact ht x (by simp [hx]))
          rcases hlex with rfl | rfl <;> (simp only; rw [P.bind_def]; simp only [P.get, hs0]; exact this)
        rcases ht t (by simp) with hk | hk
        · simp only [hk]; rw [hp _ (.inl rfl) hk _ rfl]
        · simp only [hk]; rw [hp _ (.inr rfl) hk _ rfl]
  unfold evaluate
  rw [h]
  rfl

/-- **C49** is violated: text after the path is not an error, `evaluate("foo bar")` is `evaluate("foo")`. -/
theorem C49_violated (p : SPath) (hp : p.argOk = true) (rest : Str) (hr : Ignored rest) (E : Env) (s : RS) :
    evaluate E (p.text ++ rest) s = evaluate E p.text s := by
  obtain ⟨q, h1, h2⟩ := pathFromStr_run p hp [] .nil
  obtain ⟨q', g1, g2⟩ := pathFromStr_run p hp rest hr.follow
  rw [List.append_nil] at h1
  unfold evaluate
  rw [h1, g1]
  simp only [lookupM, RM.bind_def, RM.get]
  rw [lookup_reps g2 h2]

end

attribute [local instance] exHost

/-- **C49** is violated: a syntax error next to a character that is not ASCII is a panic. -/
theorem C49_panics (E : Env) (s : RS) : (evaluate E c!"é.." s).1 = .panic := by
  have h : (match pathFromStr c!"é.." with | .panic => true | _ => false) = true := by decide +kernel
  unfold evaluate
  rcases hp : pathFromStr c!"é.." with _ | _ | _ | _
  all_goals rw [hp] at h
  all_goals first | rfl | cases h

example : c!" \t\n ".all blank = true := by decide

/-- Paths the theorems apply to. -/
example : (SPath.mk 2 (.name c!"a") [.word c!"b", ⟨true, .bracket c!"c d"⟩]).ok = true ∧ (SPath.mk 2 (.name c!"a") [.word c!"b", ⟨true, .bracket c!"c d"⟩]).text = c!"../../a.b/[c d]" ∧
    (SPath.mk 0 (.loc c!"root") [.word c!"b"]).ok = true ∧ (SPath.mk 0 .this [.word c!"b"]).ok = true ∧ (SPath.mk 0 (.abs c!"a") [.word c!"b"]).argOk = true := by decide +kernel
example : Ignored c!" bar" := .inr ⟨' ', c!"bar", rfl, .inl rfl⟩
example : pathTag c!"f" ⟨1, .name c!"x", []⟩ = c!"{{f ../x}}" := by decide +kernel

/-- A syntax error comes back as an error. -/
example (E : Env) (s : RS) : ∃ e, (evaluate E c!"foo..bar" s).1 = .ok (.error (.syntax e)) := by
  have h : (match pathFromStr c!"foo..bar" with | .err _ => true | _ => false) = true := by decide +kernel
  unfold evaluate
  rcases hp : pathFromStr c!"foo..bar" with _ | _ | _ | _
  all_goals rw [hp] at h
  all_goals first | exact ⟨_, rfl⟩ | cases h

end Bracket.Props
