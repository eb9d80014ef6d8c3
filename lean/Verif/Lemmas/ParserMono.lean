import Verif.Lemmas.ParserTri

/-! Fuel monotonicity of the parser: once a bounded run is not cut short, a larger bound gives the same
result and state. -/

set_option linter.unusedSectionVars false

namespace Bracket

/-- `m'` agrees with `m` wherever `m` is not cut short. -/
def P.Le {α : Type} (m m' : P α) : Prop := ∀ s, (m s).1 = .fuel ∨ m s = m' s

namespace P.Le

protected theorem refl {α : Type} (m : P α) : P.Le m m := fun _ => .inr rfl

theorem trans {α : Type} {m m' m'' : P α} (h : P.Le m m') (h' : P.Le m' m'') : P.Le m m'' := by
  intro s
  rcases h s with h | h
  · exact .inl h
  · rcases h' s with h' | h'
    · left; rw [h]; exact h'
    · right; rw [h, h']

theorem fuel {α : Type} (m : P α) : P.Le P.fuel m := fun _ => .inl rfl

theorem bind {α β : Type} {m m' : P α} {f f' : α → P β} (h : P.Le m m') (hf : ∀ a, P.Le (f a) (f' a)) :
    P.Le (m >>= f) (m' >>= f') := by
  intro s
  rcases h s with h | h
  · left
    rw [P.bind_def]
    generalize m s = r at h
    obtain ⟨r, s'⟩ := r
    simp only at h
    subst h
    rfl
  · rw [P.bind_def, P.bind_def, ← h]
    rcases m s with ⟨r, s'⟩
    cases r with
    | ok a => exact hf a s'
    | err e => exact .inr rfl
    | panic => exact .inr rfl
    | fuel => exact .inl rfl

theorem bindR {α β : Type} {m : P α} {f f' : α → P β} (hf : ∀ a, P.Le (f a) (f' a)) :
    P.Le (m >>= f) (m >>= f') := bind (P.Le.refl m) hf

end P.Le

open P.Le

section
variable [Host] (E : PEnv)

theorem call_le : ∀ n : Nat,
    (∀ lex sp, P.Le (valueP E n lex sp) (valueP E (n + 1) lex sp)) ∧
    (∀ c sp ctx, P.Le (keyValueP E n c sp ctx) (keyValueP E (n + 1) c sp ctx)) ∧
    (∀ c o ctx, P.Le (keyValueRest E n c o ctx) (keyValueRest E (n + 1) c o ctx)) ∧
    (∀ c o ctx, P.Le (argumentsP E n c o ctx) (argumentsP E (n + 1) c o ctx)) ∧
    (∀ c o ctx, P.Le (targetP E n c o ctx) (targetP E (n + 1) c o ctx)) ∧
    (∀ sp, P.Le (subExprP E n sp) (subExprP E (n + 1) sp)) := by
  intro n
  induction n with
  | zero =>
      refine ⟨?_, ?_, ?_, ?_, ?_, ?_⟩ <;> intros <;> exact P.Le.fuel _
  | succ n ih =>
      obtain ⟨h1, h2, h3, h4, h5, h6⟩ := ih
      refine ⟨?_, ?_, ?_, ?_, ?_, ?_⟩
      · intro lex sp
        unfold valueP
        split
        any_goals exact P.Le.refl _
        exact bind (h6 _) fun _ => P.Le.refl _
      · intro c sp ctx
        rw [keyValueP, keyValueP]
        refine bindR fun key => bindR fun o => ?_
        split
        · exact P.Le.refl _
        · split
          · exact bind (h1 _ _) fun _ => h3 _ _ _
          · exact P.Le.refl _
      · intro c o ctx
        unfold keyValueRest
        split
        · exact P.Le.refl _
        · split
          · split
            · exact bindR fun _ => h3 _ _ _
            · exact bindR fun _ => bindR fun _ => h3 _ _ _
            · exact h2 _ _ _
            all_goals exact P.Le.refl _
          · exact P.Le.refl _
      · intro c o ctx
        unfold argumentsP
        split
        · exact P.Le.refl _
        · split
          · split
            · exact bindR fun _ => h4 _ _ _
            · exact bindR fun _ => bindR fun _ => h4 _ _ _
            · exact P.Le.refl _
            · exact P.Le.refl _
            · exact h2 _ _ _
            all_goals first
              | exact P.Le.refl _
              | exact bind (h1 _ _) fun _ => h4 _ _ _
          · exact P.Le.refl _
      · intro c o ctx
        unfold targetP
        split
        · exact P.Le.refl _
        · split
          · split
            · exact bindR fun _ => h5 _ _ _
            · exact bindR fun _ => bindR fun _ => h5 _ _ _
            any_goals exact P.Le.refl _
            · split
              · exact P.Le.refl _
              · exact bind (h6 _) fun _ => P.Le.refl _
          · exact P.Le.refl _
      · intro sp
        rw [subExprP, subExprP]
        exact bindR fun _ => bindR fun _ => bindR fun _ => bind (h5 _ _ _) fun _ => bind (h4 _ _ _) fun _ => P.Le.refl _

theorem advance_le : ∀ n : Nat,
    (∀ t, P.Le (advance E n t) (advance E (n + 1) t)) ∧ P.Le (blockLoop E n) (blockLoop E (n + 1)) := by
  intro n
  induction n with
  | zero => exact ⟨fun _ => P.Le.fuel _, P.Le.fuel _⟩
  | succ n ih =>
      obtain ⟨h1, h2⟩ := ih
      refine ⟨?_, ?_⟩
      · intro t
        rw [advance, advance]
        refine bindR fun _ => ?_
        split
        · exact P.Le.refl _
        · split
          any_goals exact P.Le.refl _
          refine bindR fun b => bindR fun nm => ?_
          split
          · exact P.Le.refl _
          · exact bindR fun _ => h2
      · rw [blockLoop, blockLoop]
        refine bindR fun o => ?_
        split
        · exact P.Le.refl _
        · refine bind (h1 _) fun nd => bindR fun s => ?_
          split
          · exact P.Le.refl _
          · exact P.Le.refl _
          · exact bindR fun _ => bindR fun _ => h2

theorem parseLoop_le : ∀ (n : Nat) (acc : List Node), P.Le (parseLoop E n acc) (parseLoop E (n + 1) acc) := by
  intro n
  induction n with
  | zero => intro acc; exact P.Le.fuel _
  | succ n ih =>
      intro acc
      rw [parseLoop, parseLoop]
      refine bindR fun o => ?_
      split
      · exact P.Le.refl _
      · exact ih _

theorem componentsLoop_le : ∀ (n : Nat) (p : Path) (w : Bool),
    P.Le (componentsLoop E n p w) (componentsLoop E (n + 1) p w) := by
  intro n
  induction n with
  | zero => intro p w; exact P.Le.fuel _
  | succ n ih =>
      intro p w
      rw [componentsLoop, componentsLoop]
      refine bindR fun o => ?_
      split
      · exact P.Le.refl _
      · split
        · exact P.Le.refl _
        · split
          · refine bindR fun _ => ?_
            split
            · exact P.Le.refl _
            · split
              · dsimp only
                split
                any_goals exact P.Le.refl _
                refine bindR fun x => ?_
                split
                · split
                  · exact ih _ _
                  · exact P.Le.refl _
                · split
                  · exact P.Le.refl _
                  · exact bindR fun _ => ih _ _
              · exact P.Le.refl _
          · exact P.Le.refl _

end

/-- The bounded computation `f` ends with result `r` and state `t` at some bound. -/
def Ends {α : Type} (f : Nat → P α) (s : PS) (r : R α) (t : PS) : Prop := r ≠ .fuel ∧ ∃ n, f n s = (r, t)

/-- Once not cut short, it stays the same. -/
def Grows {α : Type} (f : Nat → P α) : Prop := ∀ n, P.Le (f n) (f (n + 1))

theorem Grows.le {α : Type} {f : Nat → P α} (h : Grows f) {n m : Nat} (hm : n ≤ m) : P.Le (f n) (f m) := by
  induction hm with
  | refl => exact P.Le.refl _
  | step _ ih => exact P.Le.trans ih (h _)

theorem Ends.ge {α : Type} {f : Nat → P α} (g : Grows f) {s t : PS} {r : R α} (h : Ends f s r t) :
    ∃ N, ∀ n, N ≤ n → f n s = (r, t) := by
  obtain ⟨hr, N, hN⟩ := h
  refine ⟨N, fun n hn => ?_⟩
  rcases g.le hn s with h | h
  · rw [hN] at h; exact absurd h hr
  · rw [← h, hN]

/-- At a bound where the run is not cut short, the result is the one reached. -/
theorem Ends.at {α : Type} {f : Nat → P α} (g : Grows f) {s t : PS} {r : R α} (h : Ends f s r t) {n : Nat}
    (hn : (f n s).1 ≠ .fuel) : f n s = (r, t) := by
  obtain ⟨N, hN⟩ := h.ge g
  rcases g.le (Nat.le_max_left n N) s with h | h
  · exact absurd h hn
  · rw [h, hN _ (Nat.le_max_right _ _)]

section
variable [Host] (E : PEnv)
theorem grows_value (lex : ParamTok) (sp : Span) : Grows fun n => valueP E n lex sp := fun n => (call_le E n).1 lex sp
theorem grows_keyValue (c : Call) (sp : Span) (x : CallCtx) : Grows fun n => keyValueP E n c sp x := fun n => (call_le E n).2.1 c sp x
theorem grows_keyValueRest (c : Call) (o : Option Token) (x : CallCtx) : Grows fun n => keyValueRest E n c o x :=
  fun n => (call_le E n).2.2.1 c o x
theorem grows_arguments (c : Call) (o : Option Token) (x : CallCtx) : Grows fun n => argumentsP E n c o x :=
  fun n => (call_le E n).2.2.2.1 c o x
theorem grows_target (c : Call) (o : Option Token) (x : CallCtx) : Grows fun n => targetP E n c o x :=
  fun n => (call_le E n).2.2.2.2.1 c o x
theorem grows_subExpr (sp : Span) : Grows fun n => subExprP E n sp := fun n => (call_le E n).2.2.2.2.2 sp
theorem grows_advance (t : Token) : Grows fun n => advance E n t := fun n => (advance_le E n).1 t
theorem grows_blockLoop : Grows fun n => blockLoop E n := fun n => (advance_le E n).2
theorem grows_parseLoop (acc : List Node) : Grows fun n => parseLoop E n acc := fun n => parseLoop_le E n acc
theorem grows_components (p : Path) (w : Bool) : Grows fun n => componentsLoop E n p w := fun n => componentsLoop_le E n p w
end

end Bracket
