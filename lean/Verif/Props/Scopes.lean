import Verif.Props.Evaluate
import Verif.Lemmas.Args

/-! C76: the scopes a helper makes. -/

namespace Bracket.Props
open Bracket Spec

theorem local_text (n : Str) : (⟨0, .loc n, []⟩ : SPath).text = '@' :: n := by
  simp [SPath.text, dots, Head.text, following, dotted]

/-- **C76**: a local variable set on a scope is the value of that name (with its `@`), until it is set again;
the others and the base value stay. -/
theorem C76_local (sc : Scope) (n m : Str) (v : Value) :
    (sc.setLocal n v).localVar ('@' :: n) = some v ∧ (m ≠ '@' :: n → (sc.setLocal n v).localVar m = sc.localVar m) ∧
    (sc.setLocal n v).value = sc.value := by
  refine ⟨?_, fun h => ?_, rfl⟩
  · unfold Scope.localVar Scope.setLocal
    simp only
    rw [assoc_mapInsert, if_pos rfl]
  · unfold Scope.localVar Scope.setLocal
    simp only
    rw [assoc_mapInsert, if_neg h]

section
variable [Host]

/-- **C76**: a helper that sets the local variable `n` of the innermost scope and then asks for `@n` gets the
value; only that scope has changed. -/
theorem C76_set (S : Sem) (E : Env) (n : Str) (hn : wordOk n = true) (hr : n ≠ c!"root") (v : Value) (k : Except HelperErr (Option Value) → Prog)
    (s : RS) (sc : Scope) (rest : List Scope) (hs : s.scopes = sc :: rest) :
    run S E (.scopeMut (Scope.setLocal n v) fun _ => .evaluate ('@' :: n) k) s =
      run S E (k (.ok (some v))) { s with scopes := sc.setLocal n v :: rest } := by
  have hp : (⟨0, .loc n, []⟩ : SPath).ok = true := by simp [SPath.ok, hn]
  rw [run, RM.bind_def]
  simp only [RM.get]
  rw [RM.bind_def]
  simp only [RM.modify, hs]
  rw [run, RM.bind_def, ← local_text, C49_value_partial _ (SPath.ok_arg hp)]
  simp only
  have : Scene.find ⟨E.reg.strict, E.reg.escape, E.name, E.root, sc.setLocal n v :: rest, s.stack⟩ ⟨0, .loc n, []⟩ = some v := by
    unfold Scene.find
    simp only
    rw [if_neg hr]
    simp only [SPath.names, List.map_nil, walk, member]
    rw [← assoc_eq_lookup]
    have := (C76_local sc n [] v).1
    unfold Scope.localVar at this
    rw [this]
    rfl
  rw [this]

theorem name_at {w n : Str} (hw : nameOk w = true) : w ≠ '@' :: n := by
  rintro rfl
  have : isIdent '@' = false := by decide
  simp [nameOk, this] at hw

/-- **C76**: every path that does not begin with `@n` is as before. -/
theorem C76_others (E : Env) (n : Str) (p : SPath) (hp : p.argOk = true) (hne : p.head ≠ .loc n) (v : Value) (s : RS) (sc : Scope) (rest : List Scope)
    (hs : s.scopes = sc :: rest) :
    (evaluate E p.text { s with scopes := sc.setLocal n v :: rest }).1 = (evaluate E p.text s).1 := by
  rw [C49_value_partial _ hp, C49_value_partial _ hp]
  simp only [hs]
  congr 2
  have lk : ∀ m : Str, m ≠ '@' :: n → (sc.setLocal n v).locals.lookup m = sc.locals.lookup m := by
    intro m hm
    rw [← assoc_eq_lookup, ← assoc_eq_lookup]
    exact (C76_local sc n m v).2.1 hm
  have wk : ∀ (m : Str) (r : List Str), m ≠ '@' :: n → walk (.obj (sc.setLocal n v).locals) (m :: r) = walk (.obj sc.locals) (m :: r) := by
    intro m r hm
    rw [walk, walk, member, member, lk m hm]
  obtain ⟨up, hd, rs⟩ := p
  cases hd with
  | this => rfl
  | dot => rfl
  | abs m => rfl
  | loc m =>
      have hm : '@' :: m ≠ '@' :: n := by intro e; injection e with _ e; exact hne (by rw [e])
      simp only [Scene.find, wk _ _ hm]
  | name w =>
      have hw : w ≠ '@' :: n := by
        refine name_at ?_
        simp only [SPath.argOk, SPath.ok, Bool.and_eq_true] at hp
        exact hp.1.1
      simp only [Scene.find, frames, List.map_cons, List.cons_append]
      have hf : ∀ r, (frame (sc.setLocal n v)).findSome? (walk · (w :: r)) = (frame sc).findSome? (walk · (w :: r)) := by
        intro r
        simp only [frame, List.findSome?_cons, wk w r hw]
        rfl
      cases up with
      | zero => simp only [List.flatten_cons, List.findSome?_append, hf]
      | succ i => simp only [List.getElem?_cons_succ]

/-- **C76**: after a scope with base value `v` is pushed, `this` is `v`, and a name is that member of the
scope's local variables, else of `v`, else what it was. -/
theorem C76_push (S : Sem) (E : Env) (sc : Scope) (v : Value) (w : Str) (hw : nameOk w = true) (s : RS) :
    (∀ k, run S E (.pushScope (sc.setBase v) (.evaluate c!"this" k)) s = run S E (k (.ok (some v))) { s with scopes := sc.setBase v :: s.scopes }) ∧
    (∀ k, run S E (.pushScope (sc.setBase v) (.evaluate w k)) s =
      run S E (k (.ok (((sc.localVar w).or (member v w)).or
        (Scene.find ⟨E.reg.strict, E.reg.escape, E.name, E.root, s.scopes, s.stack⟩ ⟨0, .name w, []⟩)))) { s with scopes := sc.setBase v :: s.scopes }) := by
  constructor
  · intro k
    have hp : (⟨0, .this, []⟩ : SPath).ok = true := by decide
    have ht : (⟨0, .this, []⟩ : SPath).text = c!"this" := by decide
    rw [run, RM.bind_def]
    simp only [RM.modify]
    rw [run, RM.bind_def, ← ht, C49_value_partial _ (SPath.ok_arg hp)]
    rfl
  · intro k
    have hp : (⟨0, .name w, []⟩ : SPath).ok = true := by simp [SPath.ok, hw]
    have ht : (⟨0, .name w, []⟩ : SPath).text = w := by simp [SPath.text, dots, Head.text, following, dotted]
    rw [run, RM.bind_def]
    simp only [RM.modify]
    rw [run, RM.bind_def]
    conv_lhs => rw [← ht]
    rw [C49_value_partial _ (SPath.ok_arg hp)]
    simp only
    congr 4
    unfold Scene.find
    simp only [SPath.names, List.map_nil, frames, List.map_cons, List.cons_append, List.flatten_cons, List.findSome?_append, frame, Scope.setBase,
      Option.toList, List.findSome?_cons, List.findSome?_nil, walk, member, Scope.localVar]
    rw [assoc_eq_lookup]
    cases sc.locals.lookup w with
    | some x => simp
    | none =>
        simp
        split <;> simp_all

/-- **C76**: what is pushed is what is popped, and all is as before. -/
theorem C76_pop (S : Sem) (E : Env) (sc : Scope) (k : Option Scope → Prog) (s : RS) :
    run S E (.pushScope sc (.popScope k)) s = run S E (k (some sc)) s := by
  rw [run, RM.bind_def]
  simp only [RM.modify]
  rw [run, RM.bind_def]
  simp only [RM.get]
  rw [RM.bind_def]
  rfl

end

/-! ### Examples -/

example : wordOk c!"index" = true ∧ c!"index" ≠ c!"root" ∧ wordOk c!"key" = true ∧ c!"key" ≠ c!"index" ∧ nameOk c!"title" = true := by decide +kernel

end Bracket.Props
