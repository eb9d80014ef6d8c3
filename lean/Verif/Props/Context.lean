import Verif.Model.Context
import Verif.Props.Invoke
import Verif.Props.Helpers
import Verif.Props.Lookup
import Verif.Props.Values
import Verif.Props.Evaluate
import Verif.Props.Message

/-! C50, C74: what a helper can ask about its call. -/

set_option linter.unusedSectionVars false

namespace Bracket.Props
open Spec

section
variable [Host]

/-! ### C50 -/

theorem args_at {E : Env} {ps : List ParamValue} {s u : RS} {vs : List (Option Value)} (h : ArgsEval E ps s vs u) (i : Nat) {p : ParamValue}
    (hi : ps[i]? = some p) :
    ∃ s' t' o, vs[i]? = some o ∧ ParamEval E p s' o t' ∧ ((∀ q ∈ ps, ∀ c', q ≠ .subExpr c') → s' = s) := by
  induction h generalizing i with
  | nil => simp at hi
  | @cons q qs s t u v vs h1 _ ih =>
      cases i with
      | zero =>
          simp only [List.getElem?_cons_zero, Option.some.injEq] at hi
          subst hi
          exact ⟨_, _, _, rfl, h1, fun _ => rfl⟩
      | succ i =>
          obtain ⟨s', t', o, g1, g2, g3⟩ := ih i hi
          refine ⟨s', t', o, g1, g2, fun hq => ?_⟩
          rw [g3 fun q' hq' => hq q' (List.mem_cons_of_mem _ hq')]
          cases h1 with
          | literal => rfl
          | path => rfl
          | sub => exact absurd rfl (hq _ (List.mem_cons_self ..) _)

theorem missing_raw {E : Env} {p : ParamValue} {s t : RS} (h : ParamEval E p s none t) : ∃ raw, p.asStr = some raw := by
  cases h with
  | path _ ha => exact Option.isSome_iff_exists.1 (ha rfl)
  | sub _ ha => exact Option.isSome_iff_exists.1 (ha rfl)

/-- C50: the value of a sub-expression is passed in its place; one that has none is null, and reported with
its source text. -/
theorem C50_sub (E : Env) (c : Call) (s t : RS) (ctx : Ctx) (h : Receives E c s ctx t) (i : Nat) (c' : Call)
    (hi : c.args[i]? = some (.subExpr c')) :
    ∃ s' t' o, Evaluates E c' s' (.ok o) t' ∧ (∀ v, o = some v → ctx.get i = some v ∧ ctx.missingAt i = none) ∧
      (o = none → ∃ raw, c'.asStr = some raw ∧ ctx.get i = some .null ∧ ctx.missingAt i = some (.str raw)) := by
  obtain ⟨vs, hs, u, h1, h2, h3, _⟩ := h.values
  obtain ⟨s', t', o, g1, g2, -⟩ := args_at h1 i hi
  obtain ⟨k1, k2⟩ := h3 i _ _ hi g1
  cases g2 with
  | sub g ha =>
      refine ⟨_, _, _, g, ?_, ?_⟩
      · rintro v rfl; exact ⟨k1, k2⟩
      · rintro rfl
        obtain ⟨raw, hr⟩ := Option.isSome_iff_exists.1 (ha rfl)
        exact ⟨raw, hr, k1, by rw [k2]; simp [missingText, ParamValue.asStr, hr]⟩

theorem param_at {c : Call} {k : Str} {p : ParamValue} (hk : (k, p) ∈ c.params) :
    ∃ i : Nat, c.params[i]? = some (k, p) ∧ (c.params.map (·.2))[i]? = some p := by
  obtain ⟨i, hi⟩ := List.mem_iff_getElem?.1 hk
  exact ⟨i, hi, by rw [List.getElem?_map, hi]; rfl⟩

/-- C50: a literal hash value is passed as it is under its key and never reported as missing. -/
theorem C50_hash_literal (E : Env) (c : Call) (s t : RS) (ctx : Ctx) (h : Receives E c s ctx t) (k : Str)
    (src : Str) (v : Value) (sp l : Span) (hk : (k, .json src v sp l) ∈ c.params) :
    ctx.param k = some v ∧ ctx.missingKey k = none := by
  obtain ⟨vs, hs, u, h1, h2, _, h3⟩ := h.values
  obtain ⟨i, hi, hi'⟩ := param_at hk
  obtain ⟨s', t', o, g1, g2, -⟩ := args_at h2 i hi'
  obtain ⟨k1, k2⟩ := h3 i _ _ _ hi g1
  cases g2
  exact ⟨k1, k2⟩

/-- C50: a path as hash value: what it finds, or null and its source text. -/
theorem C50_hash_path (E : Env) (c : Call) (s t : RS) (ctx : Ctx) (h : Receives E c s ctx t) (k : Str) (p : Path)
    (hk : (k, .path p) ∈ c.params) :
    ∃ s' o, lookup E.root s'.scopes p = some o ∧ (PlainArgs c → s' = s) ∧
      (∀ v, o = some v → ctx.param k = some v ∧ ctx.missingKey k = none) ∧
      (o = none → ∃ raw, p.asStr = some raw ∧ ctx.param k = some .null ∧ ctx.missingKey k = some (.str raw)) := by
  obtain ⟨vs, hs, u, h1, h2, _, h3⟩ := h.values
  obtain ⟨i, hi, hi'⟩ := param_at hk
  obtain ⟨s', t', o, g1, g2, g3⟩ := args_at h2 i hi'
  obtain ⟨k1, k2⟩ := h3 i _ _ _ hi g1
  have hu : PlainArgs c → u = s := by
    intro hp
    have key : ∀ {ps : List ParamValue} {s u : RS} {vs : List (Option Value)}, ArgsEval E ps s vs u →
        (∀ q ∈ ps, ∀ c', q ≠ .subExpr c') → u = s := by
      intro ps s u vs h
      induction h with
      | nil => intro _; rfl
      | cons g _ ih =>
          intro hq
          rw [ih fun q' hq' => hq q' (List.mem_cons_of_mem _ hq')]
          cases g with
          | literal => rfl
          | path => rfl
          | sub => exact absurd rfl (hq _ (List.mem_cons_self ..) _)
    exact key h1 fun q hq => hp q (List.mem_append_left _ hq)
  cases g2 with
  | path hv ha =>
      refine ⟨_, _, hv, fun hp => (g3 fun q hq => hp q (List.mem_append_right _ hq)).trans (hu hp), ?_, ?_⟩
      · rintro v rfl; exact ⟨k1, k2⟩
      · rintro rfl
        obtain ⟨raw, hr⟩ := Option.isSome_iff_exists.1 (ha rfl)
        exact ⟨raw, hr, k1, by rw [k2]; simp [missingText, ParamValue.asStr, hr]⟩

/-- C50: a sub-expression as hash value. -/
theorem C50_hash_sub (E : Env) (c : Call) (s t : RS) (ctx : Ctx) (h : Receives E c s ctx t) (k : Str) (c' : Call)
    (hk : (k, .subExpr c') ∈ c.params) :
    ∃ s' t' o, Evaluates E c' s' (.ok o) t' ∧ (∀ v, o = some v → ctx.param k = some v ∧ ctx.missingKey k = none) ∧
      (o = none → ∃ raw, c'.asStr = some raw ∧ ctx.param k = some .null ∧ ctx.missingKey k = some (.str raw)) := by
  obtain ⟨vs, hs, u, h1, h2, _, h3⟩ := h.values
  obtain ⟨i, hi, hi'⟩ := param_at hk
  obtain ⟨s', t', o, g1, g2, -⟩ := args_at h2 i hi'
  obtain ⟨k1, k2⟩ := h3 i _ _ _ hi g1
  cases g2 with
  | sub g ha =>
      refine ⟨_, _, _, g, ?_, ?_⟩
      · rintro v rfl; exact ⟨k1, k2⟩
      · rintro rfl
        obtain ⟨raw, hr⟩ := Option.isSome_iff_exists.1 (ha rfl)
        exact ⟨raw, hr, k1, by rw [k2]; simp [missingText, ParamValue.asStr, hr]⟩

/-- C50: a key that is not in the call has no value and is not missing either. -/
theorem C50_hash_absent (E : Env) (c : Call) (s t : RS) (ctx : Ctx) (h : Receives E c s ctx t) (k : Str)
    (hk : ∀ p, (k, p) ∉ c.params) : ctx.param k = none ∧ ctx.missingKey k = none := by
  refine h.noParam k fun hm => ?_
  obtain ⟨⟨k', p⟩, hp, rfl⟩ := List.mem_map.1 hm
  exact hk p hp

/-- C50: `get_fallback` is the argument, or the source text of one that does not resolve; nothing when there
is no such argument. -/
theorem C50_fallback (E : Env) (c : Call) (s t : RS) (ctx : Ctx) (h : Receives E c s ctx t) (i : Nat) :
    (∀ raw, ctx.missingAt i = some raw → ctx.getFallback i = some raw) ∧
    (ctx.missingAt i = none → ctx.getFallback i = ctx.get i) := by
  unfold Ctx.getFallback
  refine ⟨fun raw hm => ?_, fun hm => ?_⟩
  · cases hc : c.args[i]? with
    | none => rw [h.noArg i (List.getElem?_eq_none_iff.1 hc)] at hm; cases hm
    | some p =>
        obtain ⟨vs, hs, u, h1, _, h3, _⟩ := h.values
        obtain ⟨s', t', o, g1, g2, -⟩ := args_at h1 i hc
        obtain ⟨k1, k2⟩ := h3 i _ _ hc g1
        rw [hm] at k2
        cases o with
        | some v => cases k2
        | none => rw [k1]; simp only [Option.getD_none, hm]
  · cases hg : ctx.get i with
    | none => rfl
    | some v => cases v <;> simp [hm]

/-- C50: the same for hash values. -/
theorem C50_hash_fallback (E : Env) (c : Call) (s t : RS) (ctx : Ctx) (h : Receives E c s ctx t) (k : Str) :
    (∀ raw, ctx.missingKey k = some raw → ctx.paramFallback k = some raw) ∧
    (ctx.missingKey k = none → ctx.paramFallback k = ctx.param k) := by
  unfold Ctx.paramFallback
  refine ⟨fun raw hm => ?_, fun hm => ?_⟩
  · by_cases hk : k ∈ c.params.map (·.1)
    · obtain ⟨⟨k', p⟩, hp, rfl⟩ := List.mem_map.1 hk
      obtain ⟨vs, hs, u, _, h2, _, h3⟩ := h.values
      obtain ⟨i, hi, hi'⟩ := param_at hp
      obtain ⟨s', t', o, g1, g2, -⟩ := args_at h2 i hi'
      obtain ⟨k1, k2⟩ := h3 i _ _ _ hi g1
      simp only at hm ⊢
      rw [hm] at k2
      cases o with
      | some v => cases k2
      | none => rw [k1]; simp only [Option.getD_none, hm]
    · rw [(h.noParam k hk).2] at hm; cases hm
  · cases hg : ctx.param k with
    | none => rfl
    | some v => cases v <;> simp [hm]

/-- C50: `raw` and `raw_param` are the source texts of the arguments and hash values of the call. -/
theorem C50_raw (E : Env) (c : Call) (hk : (c.params.map (·.1)).Nodup) (s t : RS) (ctx : Ctx) (h : Receives E c s ctx t) :
    (∀ (i : Nat) p txt, c.args[i]? = some p → p.asStr = some txt → ctx.raw i = some (some txt)) ∧
    (∀ i, c.args.length ≤ i → ctx.raw i = some none) ∧
    (∀ k p txt, (k, p) ∈ c.params → p.asStr = some txt → ctx.rawParam k = some (some txt)) ∧
    (∀ k, (∀ p, (k, p) ∉ c.params) → ctx.rawParam k = some none) := by
  refine ⟨?_, ?_, ?_, ?_⟩
  · intro i p txt hp ht
    unfold Ctx.raw
    rw [h.call, hp]; simp [ht]
  · intro i hi
    unfold Ctx.raw
    rw [h.call, List.getElem?_eq_none hi]
  · intro k p txt hp ht
    unfold Ctx.rawParam
    have : assoc k c.params = some p := by
      revert hp hk
      generalize c.params = l
      intro hk hp
      induction l with
      | nil => cases hp
      | cons a l ih =>
          rw [List.map_cons, List.nodup_cons] at hk
          obtain ⟨k', v'⟩ := a
          rw [assoc]
          rcases List.mem_cons.1 hp with e | e
          · cases e; simp
          · have : k' ≠ k := by rintro rfl; exact hk.1 (List.mem_map.2 ⟨_, e, rfl⟩)
            simp [this, ih hk.2 e]
    rw [h.call, this]; simp [ht]
  · intro k hk
    unfold Ctx.rawParam
    rw [h.call]
    cases ha : assoc k c.params with
    | none => rfl
    | some p => exact (hk p (assoc_mem ha)).elim

/-! ### C74 -/

/-- C74: `arity(lo..hi)` accepts exactly the calls with at least `lo` and at most `hi` arguments. -/
theorem C74_arity (ctx : Ctx) (lo hi : Nat) :
    (ctx.arity lo hi = .ok () ↔ lo ≤ ctx.args.length ∧ ctx.args.length ≤ hi) ∧
    (∀ e, ctx.arity lo hi = .error e → e = if lo = hi then .arityExact ctx.name lo else .arityRange ctx.name lo hi) := by
  unfold Ctx.arity
  by_cases h : lo = hi
  · subst h
    simp only [if_true]
    by_cases h' : ctx.args.length = lo
    · simp [h']
    · rw [if_pos h']
      exact ⟨⟨fun h => (by cases h), fun h => absurd (Nat.le_antisymm h.2 h.1) h'⟩, fun e he => (by cases he; rfl)⟩
  · simp only [if_neg h]
    by_cases h' : ctx.args.length < lo ∨ ctx.args.length > hi
    · rw [if_pos h']
      exact ⟨⟨fun h => (by cases h), fun h => (by omega)⟩, fun e he => (by cases he; rfl)⟩
    · rw [if_neg h']
      exact ⟨⟨fun _ => (by omega), fun _ => rfl⟩, fun e he => (by cases he)⟩

/-- C74: `assert_block` accepts exactly the calls with content, which it returns; `assert_statement` exactly
those without.  The errors name the helper. -/
theorem C74_content (ctx : Ctx) (t : Option Node) :
    (∀ n, ctx.assertBlock t = .ok n ↔ t = some n) ∧ (∀ e, ctx.assertBlock t = .error e ↔ t = none ∧ e = .blockTemplate ctx.name) ∧
    (ctx.assertStatement t = .ok () ↔ t = none) ∧ (∀ e, ctx.assertStatement t = .error e ↔ t.isSome ∧ e = .blockTemplateNotAllowed ctx.name) := by
  cases t <;> simp [Ctx.assertBlock, Ctx.assertStatement, eq_comm]

/-- The value, if it has the type; otherwise the error that names `who`, the type wanted and the type it has. -/
def wants (who : Str) (kind : JType) (v : Value) : Except HelperErr Value :=
  if kindOf v = kind then .ok v else .error (.typeAssert who (kindWord kind) (kindWord (kindOf v)))

theorem assertKinds_one (v : Value) (kind : JType) : assertKinds v [kind] = if typeOf v = kind then none else some kind.name := by
  cases v <;> cases kind <;> rfl

theorem tryValue_one (ctx : Ctx) (v : Value) (kind : JType) : ctx.tryValue v [kind] = wants ctx.name kind v := by
  unfold wants Ctx.tryValue Ctx.assert
  simp only [kindOf_eq, kindWord_eq]
  rw [assertKinds_one]
  by_cases h : typeOf v = kind <;> simp [h]

theorem typed_one (path : Str) (v : Option Value) (kind : JType) : typed path [kind] (.ok v) = wants path kind (v.getD .null) := by
  unfold wants typed
  simp only [kindOf_eq, kindWord_eq]
  rw [assertKinds_one]
  by_cases h : typeOf (v.getD .null) = kind <;> simp [h]

/-- C74: `try_get`, `try_param` and `try_value` with one type: the value, null standing for an absent one, if
it has that type. -/
theorem C74_typed (ctx : Ctx) (kind : JType) :
    (∀ v, ctx.tryValue v [kind] = wants ctx.name kind v) ∧
    (∀ i, ctx.tryGet i [kind] = wants ctx.name kind ((ctx.get i).getD .null)) ∧
    (∀ k, ctx.tryParam k [kind] = wants ctx.name kind ((ctx.param k).getD .null)) :=
  ⟨fun v => tryValue_one ctx v kind, fun _ => tryValue_one ctx _ kind, fun _ => tryValue_one ctx _ kind⟩

/-- C74: `try_evaluate` of a path: what the path finds in the template at that point (C49), null when it
finds nothing, if it has that type; the error names the path. -/
theorem C74_try_evaluate (p : SPath) (hp : p.argOk = true) (E : Env) (kind : JType) (k : Except HelperErr Value → Prog) (S : Sem) (s : RS) :
    run S E (.tryEvaluate p.text [kind] k) s =
      run S E (k (wants p.text kind ((Scene.find ⟨E.reg.strict, E.reg.escape, E.name, E.root, s.scopes, s.stack⟩ p).getD .null))) s := by
  unfold Prog.tryEvaluate
  rw [run, RM.bind_def, C49_value_partial p hp E s]
  simp only
  rw [typed_one]

/-- C74: a text that is not a path: `try_evaluate` fails as `evaluate` does, whatever types are given. -/
theorem C74_not_path (w : Str) (E : Env) (kinds : List JType) (k : Except HelperErr Value → Prog) (S : Sem) (s : RS) (e : SyntaxErr)
    (h : pathFromStr w = .err e) : run S E (.tryEvaluate w kinds k) s = run S E (k (.error (.syntax e))) s := by
  unfold Prog.tryEvaluate
  have hv : evaluate E w s = (.ok (.error (.syntax e)), s) := by unfold evaluate; rw [h]; rfl
  rw [run, RM.bind_def, hv]
  rfl

/-- C74: `lookup` of a field is the member or element of that name (C09); `is_truthy` is what `{{#if}}` goes by (C08). -/
theorem C74_lookup (ctx : Ctx) (v w : Value) (k : Str) :
    (ctx.lookup v k = some w ↔ Field v k w) ∧ (ctx.truthy v = true ↔ ¬ Falsy v) :=
  ⟨findField_iff v k w, C08_truthy v⟩
end

section Examples
attribute [local instance] exHost

/-- A helper that wants one to two arguments and no content, and reports what it got. -/
def asks : HelperFn := fun ctx t =>
  match ctx.arity 1 2, ctx.assertStatement t, ctx.tryGet 0 [.string] with
  | .error e, _, _ => .fail e
  | _, .error e, _ => .fail e
  | _, _, .error e => .fail e
  | _, _, .ok v => .tryEvaluate c!"z.n" [.number] fun r => match r with
      | .error e => .fail e
      | .ok n => .ret (some (.str (stringify v ++ c!" " ++ stringify n ++ c!" " ++ ((ctx.getFallback 1).elim c!"-" stringify) ++
          c!" " ++ ((ctx.raw 0).bind id).getD [] ++ c!" " ++ ((ctx.rawParam c!"k").bind id).getD [])))

def asksReg : Reg := Reg.new.insertHelper c!"h" asks
def asksData : Value := .obj [(c!"s", .str c!"v"), (c!"z", .obj [(c!"n", .num (.posInt 7))])]

/-- The hypotheses are met: the helper is called with a string and a missing value, and the checks fail on
other calls. -/
example : Ex.render asksReg c!"{{{h s q.r k=(f 1)}}}" asksData = some (.ok, c!"v 7 q.r s (f 1)") ∧
    Ex.render asksReg c!"{{{h 'x'}}}" asksData = some (.ok, c!"x 7 - 'x' ") ∧
    textOf (Reg.once 60 asksReg c!"t" c!"{{h 1 2 3}}" asksData) = some c!"Helper 'h' got invalid arity expects 1-2 argument(s)" ∧
    textOf (Reg.once 60 asksReg c!"t" c!"{{#h s}}{{/h}}" asksData) = some c!"Helper 'h' does not allow a block template" ∧
    textOf (Reg.once 60 asksReg c!"t" c!"{{h z}}" asksData) = some c!"Helper 'h' type assertion failed, expected 'string' but got 'object'" ∧
    textOf (Reg.once 60 asksReg c!"t" c!"{{h 's'}}" (.obj [])) = some c!"Helper 'z.n' type assertion failed, expected 'number' but got 'null'" := by
  refine ⟨by decide +kernel, by decide +kernel, by decide +kernel, by decide +kernel, by decide +kernel, by decide +kernel⟩
example : (match pathFromStr c!"a..b" with | .err _ => true | _ => false) = true := by decide +kernel
end Examples
end Bracket.Props
