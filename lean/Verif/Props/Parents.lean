import Verif.Props.Evaluate
import Verif.Props.Lookup
import Verif.Props.Tags

/-! C11 for paths as they are written: up to 255 `../` are counted exactly; more overflow a one-byte
counter. -/

set_option linter.unusedSectionVars false
set_option linter.unusedSimpArgs false

namespace Bracket.Props
open Bracket Re Spec P

section
variable [Host]

/-- A written path with `../` is looked up in one scope only. -/
theorem parents_lookup {p : SPath} {q : Path} (h : PathRep p q) (hok : p.ok = true) (hn : 0 < p.parents) (root : Value) (scopes : List Scope) :
    ∃ r, lookup root scopes q = some r ∧
      Finds r (fun w => ∃ f, (frames root scopes)[p.parents]? = some f ∧ FirstIn f (p.head.text :: p.names) w) := by
  have hname : ∃ w, p.head = .name w := by
    unfold SPath.ok at hok
    cases hh : p.head with
    | name w => exact ⟨w, rfl⟩
    | this => rw [hh] at hok; simp at hok; omega
    | dot => rw [hh] at hok; simp at hok; omega
    | loc w => rw [hh] at hok; simp at hok; omega
    | abs w => rw [hh] at hok; simp at hok
  obtain ⟨w, hw⟩ := hname
  have hloc : q.isLocal = false := by
    have hk := h.kinds
    unfold Path.isLocal
    cases hc : q.components with
    | nil => rfl
    | cons c cs =>
        rw [hc, hw] at hk
        simp only [List.map_cons, List.cons.injEq, Head.kind] at hk
        simp only [Component.isLocal, hk.1]
        rfl
  have := C11_parents root scopes q (p.head.text :: p.names) (by rw [h.absolute, hw]; rfl) (by rw [h.root, hw]; rfl) (by rw [h.explicit, hw]; rfl) hloc
    (by rw [h.parents]; exact hn) (by have := h.texts; rw [hw] at this ⊢; exact this)
  rwa [h.parents] at this

/-- **C11**, as written: `evaluate` of a path with `n` times `../`, `1 ≤ n ≤ 255`, finds exactly what the rest of
the path finds in the frame `n` levels out. -/
theorem C11_written_partial (n : Nat) (w : Str) (ws : List SComp) (h1 : 1 ≤ n) (h2 : n ≤ 255) (hw : nameOk w = true) (hws : ws.all (·.part.ok) = true)
    (E : Env) (s : RS) :
    ∃ v, evaluate E (dots n ++ (w ++ dotted ws)) s = (.ok (.ok v), s) ∧
      Finds v (fun x => ∃ f, (frames E.root s.scopes)[n]? = some f ∧ FirstIn f (w :: ws.map (·.part.name)) x) := by
  have hp : (SPath.mk n (.name w) ws).ok = true := by simp [SPath.ok, hw, h2]; simpa using hws
  obtain ⟨q, g1, g2⟩ := pathFromStr_run ⟨n, .name w, ws⟩ (SPath.ok_arg hp) [] .nil
  rw [List.append_nil] at g1
  obtain ⟨r, g3, g4⟩ := parents_lookup g2 hp h1 E.root s.scopes
  refine ⟨r, ?_, g4⟩
  unfold evaluate
  rw [show dots n ++ (w ++ dotted ws) = SPath.text ⟨n, .name w, ws⟩ from rfl, g1]
  simp only
  rw [RM.bind_def]
  unfold lookupM
  rw [RM.bind_def]
  simp only [RM.get]
  rw [g3]
  rfl

/-- **C11**, as written, in a template: the argument of a tag. -/
theorem C11_compiled_partial (name : Str) (n : Nat) (w : Str) (ws : List SComp) (o : ParserOptions) (hname : nameOk name = true)
    (h1 : 1 ≤ n) (h2 : n ≤ 255) (hw : nameOk w = true) (hws : ws.all (·.part.ok) = true) :
    ∃ c x, compile (pathTag name ⟨n, .name w, ws⟩) o = .ok (.document (pathTag name ⟨n, .name w, ws⟩) [.statement c]) ∧ c.args = [x] ∧
      ∀ (S : Sem) (E : Env) (s : RS), ∃ v raw, paramM S E x s = (.ok (v.getD .null, raw), s) ∧
        Finds v (fun x => ∃ f, (frames E.root s.scopes)[n]? = some f ∧ FirstIn f (w :: ws.map (·.part.name)) x) := by
  have hp : (SPath.mk n (.name w) ws).ok = true := by simp [SPath.ok, hw, h2]; simpa using hws
  obtain ⟨c, x, g1, g2, -, g3⟩ := C49_agrees_partial name ⟨n, .name w, ws⟩ o hname (SPath.ok_arg hp)
  refine ⟨c, x, g1, g2, fun S E s => ?_⟩
  obtain ⟨v, raw, k1, k2⟩ := g3 S E s
  obtain ⟨v', e1, e2⟩ := C11_written_partial n w ws h1 h2 hw hws E s
  have : evaluate E (SPath.text ⟨n, .name w, ws⟩) s = (.ok (.ok v'), s) := e1
  rw [k1] at this
  cases this
  exact ⟨_, raw, k2, e2⟩

/-- With overflow checks, 255 more than one `../` panic. -/
theorem parents_over (ho : Host.overflowChecks = true) : ∀ (n : Nat) (pre rest : Str) (path : Path) (s : PS),
    path.parents ≤ 255 → 256 ≤ path.parents + n → s.toks = lexFrom .params (blen pre) (dots n ++ rest) →
    ∃ t, parentsLoop s.toks path s = (.panic, t) := by
  intro n
  induction n with
  | zero => intro pre rest path s h1 h2 _; omega
  | succ n ih =>
      intro pre rest path s h1 h2 hs
      have e : dots (n + 1) ++ rest = c!"../" ++ (dots n ++ rest) := by simp [dots]
      rw [e, lexFrom_tok _ (by simp) (tok_parent _), show nextMode .params (.params .parentRef) = .params from rfl] at hs
      have eb : blen pre + blen c!"../" = blen (pre ++ c!"../") := by simp
      rw [eb] at hs
      rw [hs, parentsLoop, P.bind_def]
      simp only [P.modify, if_true]
      by_cases hm : path.parents = 255
      · rw [if_pos ⟨hm, ho⟩]; exact ⟨_, rfl⟩
      · rw [if_neg (by simp [hm]), show (path.parents + 1) % 256 = path.parents + 1 from Nat.mod_eq_of_lt (by omega)]
        exact ih (pre ++ c!"../") rest { path with parents := path.parents + 1 }
          { s with toks := lexFrom .params (blen (pre ++ c!"../")) (dots n ++ rest) } (by simp only; omega) (by simp only; omega) rfl

/-- Without them, the counter wraps. -/
theorem parents_wrap (ho : Host.overflowChecks = false) : ∀ (n : Nat) (pre rest : Str) (path : Path) (s : PS) (tok : Token) (ts : List Token),
    path.parents ≤ 255 → lexFrom .params (blen (pre ++ dots n)) rest = tok :: ts → tok.kind ≠ .params .parentRef →
    s.toks = lexFrom .params (blen pre) (dots n ++ rest) →
    ∃ t, parentsLoop s.toks path s = (.ok ({ path with parents := (path.parents + n) % 256 }, some tok), t) ∧ t.toks = ts := by
  intro n
  induction n with
  | zero =>
      intro pre rest path s tok ts hn hl hk hs
      simp only [dots, List.append_nil, List.nil_append] at hl hs
      rw [hl] at hs
      rw [hs]
      refine ⟨{ s with toks := ts }, ?_, rfl⟩
      rw [parentsLoop, P.bind_def]
      simp only [P.modify]
      rw [if_neg hk, Nat.add_zero, Nat.mod_eq_of_lt (by omega)]
      rfl
  | succ n ih =>
      intro pre rest path s tok ts hn hl hk hs
      have e : dots (n + 1) ++ rest = c!"../" ++ (dots n ++ rest) := by simp [dots]
      rw [e, lexFrom_tok _ (by simp) (tok_parent _), show nextMode .params (.params .parentRef) = .params from rfl] at hs
      have eb : blen pre + blen c!"../" = blen (pre ++ c!"../") := by simp
      rw [eb] at hs
      obtain ⟨t, h1, h2⟩ := ih (pre ++ c!"../") rest { path with parents := (path.parents + 1) % 256 }
        { s with toks := lexFrom .params (blen (pre ++ c!"../")) (dots n ++ rest) } tok ts (by simp only; omega)
        (by rw [show pre ++ c!"../" ++ dots n = pre ++ dots (n + 1) by simp [dots]]; exact hl) hk rfl
      refine ⟨t, ?_, h2⟩
      rw [hs, parentsLoop, P.bind_def]
      simp only [P.modify, if_true]
      rw [if_neg (by simp [ho]), h1]
      have : ((path.parents + 1) % 256 + n) % 256 = (path.parents + (n + 1)) % 256 := by omega
      simp only [this]

theorem pathParse_over (ho : Host.overflowChecks = true) (E : PEnv) (n : Nat) (hn : 256 ≤ n) (pre rest : Str)
    (hsrc : E.src = pre ++ (dots n ++ rest)) :
    ∃ L, lexFrom .params (blen pre) (dots n ++ rest) = ⟨.params .parentRef, ⟨blen pre, blen (pre ++ c!"../")⟩⟩ :: L ∧
      ∀ s : PS, s.toks = L → ∃ t, pathParse E .parentRef ⟨blen pre, blen (pre ++ c!"../")⟩ s = (.panic, t) := by
  obtain ⟨n, rfl⟩ : ∃ m, n = m + 1 := ⟨n - 1, by omega⟩
  have e : dots (n + 1) ++ rest = c!"../" ++ (dots n ++ rest) := by simp [dots]
  rw [e] at hsrc ⊢
  have eb : blen pre + blen c!"../" = blen (pre ++ c!"../") := by simp
  refine ⟨_, by rw [← eb]; exact lexFrom_tok _ (by simp) (tok_parent _), ?_⟩
  intro s hs
  rw [show nextMode .params (.params .parentRef) = .params from rfl, eb] at hs
  obtain ⟨t, ht⟩ := parents_over ho n (pre ++ c!"../") rest
    { Path.new E.src ⟨blen pre, blen (pre ++ c!"../")⟩ ⟨s.line, s.line + 1⟩ with parents := 1 } s (by simp) (by simp only; omega) hs
  refine ⟨t, ?_⟩
  unfold pathParse
  rw [P.bind_def]
  simp only [lineRange]
  rw [P.bind_def]
  have : slice E.src (blen pre) (blen (pre ++ c!"../")) = some c!"../" :=
    slice_eq (a := pre) (b := c!"../") (c := dots n ++ rest) (by rw [hsrc]) rfl (by simp)
  simp only [this, orPanic]
  rw [P.bind_def]
  simp only [P.get]
  rw [P.bind_def, ht]

/-- **C11** is violated: with overflow checks (debug builds), 256 or more `../` are a panic, whatever comes
after them. -/
theorem C11_violated (ho : Host.overflowChecks = true) (n : Nat) (hn : 256 ≤ n) (rest : Str) (E : Env) (s : RS) :
    (evaluate E (dots n ++ rest) s).1 = .panic := by
  obtain ⟨L, h1, h2⟩ := pathParse_over ho ⟨dots n ++ rest, c!"unknown"⟩ n hn [] rest rfl
  obtain ⟨t, ht⟩ := h2 { toks := L, line := 0, byte := 0, stack := [], next := none } rfl
  have : pathFromStr (dots n ++ rest) = .panic := by
    unfold pathFromStr
    rw [lexParams_eq]
    rw [show lexFrom .params 0 (dots n ++ rest) = _ from h1]
    simp only
    rw [ht]
  unfold evaluate
  rw [this]
  rfl

theorem opens_dots (n : Nat) (rest : Str) : Opens (c!"{{" ++ (dots n ++ rest)) := .of_prefix (p := c!"{{") (by decide)

/-- **C11** is violated: compiling such a path as the target of a tag is a panic as well. -/
theorem C11_compile_violated (ho : Host.overflowChecks = true) (T : STm) (n : Nat) (hn : 256 ≤ n) (rest : Str) (o : ParserOptions)
    (hT : T.ok (c!"{{" ++ (dots n ++ rest)) = true) : compile (T.src ++ (c!"{{" ++ (dots n ++ rest))) o = .panic := by
  generalize hE : (⟨T.src ++ (c!"{{" ++ (dots n ++ rest)), o.fileName⟩ : PEnv) = E
  have hsrc : E.src = T.src ++ (c!"{{" ++ (dots n ++ rest)) := by rw [← hE]
  obtain ⟨ns, s, h1, h2, h3, h4⟩ := tm_top E T (c!"{{" ++ (dots n ++ rest)) [] (initPS (T.src ++ (c!"{{" ++ (dots n ++ rest))) o) hT
    (opens_dots n rest) (by simp [hsrc]) (by simp [AtB, PS.rem, initPS, lex, lexFrom]) rfl
  rw [List.nil_append] at h4
  obtain ⟨L, g1, g2⟩ := pathParse_over ho E n hn (T.src ++ c!"{{") rest (by rw [hsrc]; simp)
  have ht := tok_stmt (rest := dots n ++ rest) false (tl := ⟨false, false, [], [], []⟩) (by decide) (by
    obtain ⟨m, rfl⟩ : ∃ m, n = m + 1 := ⟨n - 1, by omega⟩
    intro c r e
    simp only [dots, List.cons_append] at e
    cases e
    decide)
  have e1 : lexFrom .block (blen T.src) (c!"{{" ++ (dots n ++ rest)) =
      ⟨.block .startStatement, ⟨blen T.src, blen (T.src ++ c!"{{")⟩⟩ :: lexFrom .params (blen (T.src ++ c!"{{")) (dots n ++ rest) := by
    have h := lexFrom_tok (blen T.src) (by simp) ht
    rw [blen_append]
    exact h
  rw [g1] at e1
  have hcall : ∃ t, callParse E ⟨blen T.src, blen (T.src ++ c!"{{")⟩ { s with next := none, toks := ⟨.params .parentRef, ⟨blen (T.src ++ c!"{{"), blen (T.src ++ c!"{{" ++ c!"../")⟩⟩ :: L } = (.panic, t) := by
    obtain ⟨t, ht⟩ := g2 { s with next := none, byte := blen (T.src ++ c!"{{"), toks := L } rfl
    refine ⟨t, ?_⟩
    rw [callParse_eq, P.bind_def, lexNext_cons (ts := L) rfl]
    simp only
    rw [P.bind_def]
    simp only [P.get]
    rw [P.bind_def]
    rw [flagsLoop.eq_def]
    simp only [Pure.pure]
    rw [if_neg (by intro h; cases h)]
    unfold callBody
    rw [P.bind_def]
    simp only [P.get]
    rw [P.bind_def, show ∀ u, callFuel u = (4 * u.toks.length + 7) + 1 from fun _ => rfl, targetP.eq_def]
    simp only
    rw [P.bind_def, ht]
  obtain ⟨t, hc⟩ := hcall
  have hnext : parserNext E s = (.panic, t) := by
    refine next_step E (h4.token e1) (fun n => ?_)
    have : ∀ s', advance E (n + 1) ⟨.block .startStatement, ⟨blen T.src, blen (T.src ++ c!"{{")⟩⟩ s' =
        (do let x ← callParse E ⟨blen T.src, blen (T.src ++ c!"{{")⟩; pure (some (Node.statement x))) s' := by intro s'; rw [advance]; rfl
    rw [this, P.bind_def, hc]
  subst hE
  exact compile_ends (h2 [] _ _ (ends_next _ hnext (by simp) ns))

theorem lookup_same {q q' : Path} (h1 : q.absolute = q'.absolute) (h2 : q.root = q'.root) (h3 : q.explicit = q'.explicit)
    (h4 : q.parents = q'.parents) (h5 : q.components.map (·.kind) = q'.components.map (·.kind))
    (h6 : q.components.mapM Component.asValue = q'.components.mapM Component.asValue) (root : Value) (scopes : List Scope) :
    lookup root scopes q = lookup root scopes q' := by
  have hl : q.isLocal = q'.isLocal := by
    unfold Path.isLocal
    cases hc : q.components <;> cases hc' : q'.components <;> rw [hc, hc'] at h5 <;> simp at h5
    simp only [Component.isLocal, h5.1]
  have hlen : q.components.length = q'.components.length := by simpa using congrArg List.length h5
  unfold lookup
  rw [h6]
  congr 1
  funext ks
  unfold lookupParts
  rw [h1, h2, h3, h4, hl, hlen]

/-- **C11** is violated: without overflow checks (release builds) `../` is counted modulo 256: a path with 256
more is the same path. -/
theorem C11_wraps_violated (ho : Host.overflowChecks = false) (n : Nat) (w : Str) (ws : List SComp) (hw : nameOk w = true) (hws : ws.all (·.part.ok) = true)
    (E : Env) (s : RS) : evaluate E (dots n ++ (w ++ dotted ws)) s = evaluate E (dots (n % 256) ++ (w ++ dotted ws)) s := by
  by_cases hlt : n < 256
  · rw [Nat.mod_eq_of_lt hlt]
  obtain ⟨m, rfl⟩ : ∃ m, n = m + 1 := ⟨n - 1, by omega⟩
  have hp : (SPath.mk ((m + 1) % 256) (.name w) ws).ok = true := by simp [SPath.ok, hw]; exact ⟨by simpa using hws, by omega⟩
  obtain ⟨q', g1, g2⟩ := pathFromStr_run ⟨(m + 1) % 256, .name w, ws⟩ (SPath.ok_arg hp) [] .nil
  rw [List.append_nil] at g1
  have e : dots (m + 1) ++ (w ++ dotted ws) = c!"../" ++ (dots m ++ (w ++ (dotted ws ++ []))) := by simp [dots]
  have hbrk : Brk (dotted ws ++ []) := dotted_brk Follow.nil.brk ws
  have hhead : ∀ pre, lexFrom .params (blen pre) (w ++ (dotted ws ++ [])) =
      ⟨.params .identifier, ⟨blen pre, blen (pre ++ w)⟩⟩ :: lexFrom .params (blen (pre ++ w)) (dotted ws ++ []) := by
    intro pre
    have := lexFrom_tok (blen pre) (head_ne (h := .name w) hw) (tok_head (h := .name w) hw fun _ => hbrk)
    rw [blen_append]
    exact this
  have hrun : ∃ q, pathFromStr (c!"../" ++ (dots m ++ (w ++ (dotted ws ++ [])))) = .ok (some q) ∧ q.parents = (m + 1) % 256 ∧ q.absolute = false ∧
      q.explicit = false ∧ q.root = false ∧ q.components.map (·.kind) = .identifier :: ws.map (·.part.kind) ∧
      q.components.mapM Component.asValue = some (w :: ws.map (·.part.name)) := by
    generalize hE : (⟨c!"../" ++ (dots m ++ (w ++ (dotted ws ++ []))), c!"unknown"⟩ : PEnv) = PE
    have hsrc : PE.src = c!"../" ++ (dots m ++ (w ++ (dotted ws ++ []))) := by rw [← hE]
    let s0 : PS := { toks := lexFrom .params (blen c!"../") (dots m ++ (w ++ (dotted ws ++ []))), line := 0, byte := 0, stack := [], next := none }
    obtain ⟨t1, r1, r2⟩ := parents_wrap ho m c!"../" (w ++ (dotted ws ++ [])) { Path.new PE.src ⟨0, blen c!"../"⟩ ⟨0, 1⟩ with parents := 1 } s0 _ _ (by simp)
      (hhead _) (by simp) rfl
    obtain ⟨q, o, t, q1, q2, q3, q4, q5, q6, q7, q8, q9, qp, q10⟩ := pathFirst_run PE (.name w) ws (c!"../" ++ dots m) []
        { Path.new PE.src ⟨0, blen c!"../"⟩ ⟨0, 1⟩ with parents := (1 + m) % 256 } t1 t1.toks hw hws .nil
        (by rw [hsrc]; simp [Head.text, following]) r2 rfl (.inr ⟨w, rfl⟩) rfl rfl
    refine ⟨q, ?_, by rw [q2, Nat.add_comm], q3, q4, q5, q8, q9⟩
    unfold pathFromStr
    rw [lexParams_eq]
    rw [show lexFrom .params 0 (c!"../" ++ (dots m ++ (w ++ (dotted ws ++ [])))) = ⟨.params .parentRef, ⟨0, blen c!"../"⟩⟩ :: s0.toks from
      lexFrom_tok _ (by simp) (tok_parent _)]
    simp only
    rw [hE]
    have hpp : pathParse PE .parentRef ⟨0, blen c!"../"⟩ s0 = (.ok (some q, o), t) := by
      unfold pathParse
      rw [P.bind_def]
      simp only [lineRange]
      rw [P.bind_def]
      have : slice PE.src 0 (blen c!"../") = some c!"../" :=
        slice_eq (a := []) (b := c!"../") (c := dots m ++ (w ++ (dotted ws ++ []))) (by rw [hsrc]; rfl) rfl (by simp)
      simp only [this, orPanic]
      rw [P.bind_def]
      simp only [P.get]
      rw [P.bind_def, show s0.line = 0 from rfl, r1]
      simp only
      rw [P.bind_def]
      exact q1
    rw [show ({ toks := s0.toks, line := 0, byte := 0, stack := [], next := none } : PS) = s0 from rfl, hpp]
  obtain ⟨q, k1, k2, k3, k4, k5, k6, k7⟩ := hrun
  rw [e]
  unfold evaluate
  rw [k1, show dots ((m + 1) % 256) ++ (w ++ dotted ws) = SPath.text ⟨(m + 1) % 256, .name w, ws⟩ from rfl, g1]
  simp only [lookupM, RM.bind_def, RM.get]
  rw [lookup_same (q := q) (q' := q') (k3.trans g2.absolute.symm) (k5.trans g2.root.symm) (k4.trans g2.explicit.symm) (k2.trans g2.parents.symm)
    (k6.trans g2.kinds.symm) (k7.trans g2.texts.symm)]

end

/-! ### Examples -/

attribute [local instance] exHost

example : nameOk c!"a" = true ∧ [SComp.word c!"b", ⟨false, .bracket c!"0"⟩].all (·.part.ok) = true ∧
    dots 2 ++ (c!"a" ++ dotted [.word c!"b", ⟨false, .bracket c!"0"⟩]) = c!"../../a.b.[0]" ∧
    pathTag c!"f" ⟨2, .name c!"a", [.word c!"b"]⟩ = c!"{{f ../../a.b}}" := by decide +kernel

/-- Two scopes: one `../` reaches the outer one, two the data, three nothing. -/
example : (frames (.obj [(c!"a", .num (.posInt 3))]) [⟨some (.str []), []⟩, ⟨none, []⟩])[2]? = some [.obj [(c!"a", .num (.posInt 3))]] ∧
    (frames (.obj []) [])[1]? = none := ⟨rfl, rfl⟩

example : Host.overflowChecks = true := rfl
example : (STm.text c!"x" .nil).ok (c!"{{" ++ (dots 256 ++ c!"a}}")) = true := by decide +kernel

end Bracket.Props
