import Verif.Spec.Blocks
import Verif.Props.Nodes
import Verif.Props.Balanced

/-! C16, C17, C18, C31: what the block helpers do with their content; isolation of nested renders. -/

set_option linter.unusedSectionVars false

namespace Bracket
open Spec

theorem Spec.Eval.catchErr_iff {α β : Type} {f : Nat → RM α} {g : Except RenderErr α → Nat → RM β} (hf : MonoF f)
    (hg : ∀ a, MonoF (g a)) {s u : RS} {r : Res β} :
    Eval (fun n => RM.catchErr (f n) fun a => g a n) s r u ↔
      (∃ a t, Eval f s (.ok a) t ∧ Eval (g (.ok a)) t r u) ∨
      (∃ e t, Eval f s (.err e) t ∧ Eval (g (.error e)) t r u) ∨
      (Eval f s .panic u ∧ r = .panic) := by
  constructor
  · rintro ⟨h1, N, hN⟩
    change RM.catchErr (f N) (fun a => g a N) s = _ at hN
    unfold RM.catchErr at hN
    rcases hx : f N s with ⟨r', t⟩
    rw [hx] at hN
    cases r' with
    | ok a => exact .inl ⟨a, t, ⟨by simp, N, hx⟩, h1, N, hN⟩
    | err e => exact .inr (.inl ⟨e, t, ⟨by simp, N, hx⟩, h1, N, hN⟩)
    | panic => cases hN; exact .inr (.inr ⟨⟨by simp, N, hx⟩, rfl⟩)
    | fuel => cases hN; exact absurd rfl h1
  · rintro (⟨a, t, h, h'⟩ | ⟨a, t, h, h'⟩ | ⟨h, rfl⟩)
    · obtain ⟨N, hN⟩ := h.ge hf
      obtain ⟨M, hM⟩ := h'.ge (hg _)
      refine ⟨h'.1, max N M, ?_⟩
      show RM.catchErr (f (max N M)) (fun a => g a (max N M)) s = _
      unfold RM.catchErr
      rw [hN _ (Nat.le_max_left _ _)]
      exact hM _ (Nat.le_max_right _ _)
    · obtain ⟨N, hN⟩ := h.ge hf
      obtain ⟨M, hM⟩ := h'.ge (hg _)
      refine ⟨h'.1, max N M, ?_⟩
      show RM.catchErr (f (max N M)) (fun a => g a (max N M)) s = _
      unfold RM.catchErr
      rw [hN _ (Nat.le_max_left _ _)]
      exact hM _ (Nat.le_max_right _ _)
    · obtain ⟨_, N, hN⟩ := h
      refine ⟨by simp, N, ?_⟩
      show RM.catchErr (f N) (fun a => g a N) s = _
      unfold RM.catchErr
      rw [hN]

end Bracket

namespace Bracket.Props
open Spec

section
variable [Host]

theorem runs_ret {E : Env} {v : Option Value} {s t : RS} {r : Res (Option Value)} :
    RunsHelper E (.ret v) s r t ↔ r = .ok v ∧ t = s := Spec.Eval.pure

theorem runs_fail {E : Env} {e : HelperErr} {s t : RS} {r : Res (Option Value)} :
    RunsHelper E (.fail e) s r t ↔ r = .err (.helper e) ∧ t = s := by
  show Eval (fun _ => RM.fail (.helper e)) s r t ↔ _
  rw [Spec.Eval.const]
  constructor
  · rintro ⟨_, h⟩; cases h; exact ⟨rfl, rfl⟩
  · rintro ⟨rfl, rfl⟩; exact ⟨by simp, rfl⟩

theorem runs_tmpl {E : Env} {n : Node} {k : Prog} {s t : RS} {r : Res (Option Value)} :
    RunsHelper E (.tmpl n k) s r t ↔
      (∃ u, Templates E n s (.ok ()) u ∧ RunsHelper E k u r t) ∨
      (∃ r', Templates E n s r' t ∧ passOn r' = some r) := by
  show Eval (fun m => RM.catchErr (template (sem m) E n) fun x => run (sem m) E _) s r t ↔ _
  rw [Spec.Eval.catchErr_iff (mono_template E n) fun a => mono_run E _]
  constructor
  · rintro (⟨a, u, h1, h2⟩ | ⟨e, u, h1, h2⟩ | ⟨h1, rfl⟩)
    · exact .inl ⟨u, h1, h2⟩
    · obtain ⟨rfl, rfl⟩ := runs_fail.1 h2
      exact .inr ⟨_, h1, rfl⟩
    · exact .inr ⟨_, h1, rfl⟩
  · rintro (⟨u, h1, h2⟩ | ⟨r', h1, h2⟩)
    · exact .inl ⟨(), u, h1, h2⟩
    · cases r' with
      | err e => cases h2; exact .inr (.inl ⟨e, t, h1, runs_fail.2 ⟨rfl, rfl⟩⟩)
      | panic => cases h2; exact .inr (.inr ⟨h1, rfl⟩)
      | ok a => cases h2
      | fuel => cases h2

theorem runs_tmpl_ret {E : Env} {n : Node} {s t : RS} {x : Option Value} :
    RunsHelper E (.tmpl n (.ret none)) s (.ok x) t ↔ x = none ∧ Templates E n s (.ok ()) t := by
  rw [runs_tmpl]
  constructor
  · rintro (⟨u, h1, h2⟩ | ⟨r', h1, h2⟩)
    · obtain ⟨e1, rfl⟩ := runs_ret.1 h2
      exact ⟨by simpa using e1, h1⟩
    · cases r' <;> cases h2
  · rintro ⟨rfl, h⟩
    exact .inl ⟨t, h, runs_ret.2 ⟨rfl, rfl⟩⟩

/-! ### C16 -/

theorem inverse_block {E : Env} {b : Block} (S : Sem) : inverse S E (.block b) = inverseLoop S E b.conditionals none := rfl

theorem mono_inverseLoop (E : Env) : ∀ (cs : List Node) (alt : Option Node), MonoF fun n => inverseLoop (sem n) E cs alt := by
  intro cs
  induction cs with
  | nil => intro alt; exact MonoF.const _
  | cons c cs ih =>
      intro alt
      cases c with
      | block c =>
          unfold inverseLoop
          by_cases h : c.call.isEmpty = true
          · simp only [h, if_true]; exact ih _
          · simp only [if_neg h]
            refine MonoF.bind (mono_call _ _) fun v => ?_
            cases v with
            | none => exact ih _
            | some v =>
                simp only
                by_cases hv : isTruthy v = true
                · simp only [hv, if_true]; exact MonoF.const _
                · simp only [if_neg hv]; exact ih _
      | _ => exact ih _

/-- The clause the loop settles on, given the last plain `{{else}}` seen so far. -/
theorem inverseLoop_iff {E : Env} : ∀ (cs : List Node) (alt : Option Node) (s t : RS) (o : Option Node),
    Eval (fun n => inverseLoop (sem n) E cs alt) s (.ok o) t ↔
      (∃ pre post n c v u, cs = pre ++ n :: post ∧ AllFalse E pre s u ∧ condition n = some c ∧
        Calls E c u (.ok (some v)) t ∧ isTruthy v = true ∧ o = some n) ∨
      (AllFalse E cs s t ∧ o = (lastElse cs).or alt) := by
  intro cs
  induction cs with
  | nil =>
      intro alt s t o
      show Eval (fun _ => (pure alt : RM (Option Node))) s (.ok o) t ↔ _
      rw [Spec.Eval.pure]
      constructor
      · rintro ⟨e, rfl⟩
        exact .inr ⟨.nil _, by cases e; rfl⟩
      · rintro (⟨pre, post, n, c, v, u, h, _⟩ | ⟨h1, h2⟩)
        · simp at h
        · cases h1; exact ⟨by rw [h2]; rfl, rfl⟩
  | cons c cs ih =>
      intro alt s t o
      by_cases hc : condition c = none
      · -- a plain else (or no clause at all): nothing is evaluated
        have hL : (fun n => inverseLoop (sem n) E (c :: cs) alt) =
            fun n => inverseLoop (sem n) E cs (if isElse c then some c else alt) := by
          funext n
          cases c with
          | block c =>
              unfold condition at hc
              by_cases h : c.call.isEmpty = true
              · rw [inverseLoop, if_pos h]; simp [isElse, h]
              · simp only [if_neg h] at hc; cases hc
          | _ => rfl
        rw [hL, ih]
        have hlast : (lastElse cs).or (if isElse c then some c else alt) = (lastElse (c :: cs)).or alt := by
          unfold lastElse
          by_cases h : isElse c = true
          · rw [if_pos h, List.filter_cons_of_pos h]
            cases hf : cs.filter isElse with
            | nil => rfl
            | cons x xs => rw [List.getLast?_cons_cons]; simp [List.getLast?_cons]
          · rw [if_neg h, List.filter_cons_of_neg h]
        rw [hlast]
        constructor
        · rintro (⟨pre, post, n, d, v, u, h1, h2, h3⟩ | ⟨h1, h2⟩)
          · exact .inl ⟨c :: pre, post, n, d, v, u, by rw [h1]; rfl, .skip hc h2, h3⟩
          · exact .inr ⟨.skip hc h1, h2⟩
        · rintro (⟨pre, post, n, d, v, u, h1, h2, h3⟩ | ⟨h1, h2⟩)
          · cases pre with
            | nil =>
                simp only [List.nil_append, List.cons.injEq] at h1
                obtain ⟨rfl, rfl⟩ := h1
                rw [hc] at h3; cases h3.1
            | cons p pre =>
                simp only [List.cons_append, List.cons.injEq] at h1
                obtain ⟨rfl, rfl⟩ := h1
                cases h2 with
                | skip _ h2 => exact .inl ⟨pre, post, n, d, v, u, rfl, h2, h3⟩
                | cond he => rw [hc] at he; cases he
          · cases h1 with
            | skip _ h1 => exact .inr ⟨h1, h2⟩
            | cond he => rw [hc] at he; cases he
      · -- a clause with a condition
        obtain ⟨d, hd⟩ := Option.ne_none_iff_exists'.1 hc
        obtain ⟨b, rfl, hb, rfl⟩ : ∃ b, c = .block b ∧ b.call.isEmpty = false ∧ d = b.call := by
          cases c with
          | block b =>
              unfold condition at hd
              by_cases h : b.call.isEmpty = true
              · simp only [h, if_true] at hd; cases hd
              · simp only [if_neg h] at hd; cases hd; exact ⟨b, rfl, by simpa using h, rfl⟩
          | _ => cases hd
        have hel : lastElse (.block b :: cs) = lastElse cs := by
          unfold lastElse
          rw [List.filter_cons_of_neg (by simp [isElse, hb])]
        have hL : ∀ n, inverseLoop (sem n) E (.block b :: cs) alt =
            (sem n).call E b.call >>= fun v => match v with
              | some v => if isTruthy v then pure (some (.block b)) else inverseLoop (sem n) E cs alt
              | none => inverseLoop (sem n) E cs alt := by
          intro n
          rw [inverseLoop, if_neg (by simp [hb])]
          rfl
        simp only [hL]
        rw [hel]
        constructor
        · intro h
          obtain ⟨v, u, h1, h2⟩ := Spec.Eval.bind_inv_ok h
          by_cases hv : ∃ x, v = some x ∧ isTruthy x = true
          · obtain ⟨x, rfl, hx⟩ := hv
            simp only [hx, if_true] at h2
            obtain ⟨e, rfl⟩ := Spec.Eval.pure.1 h2
            cases e
            exact .inl ⟨[], cs, .block b, b.call, x, s, rfl, .nil _, hd, h1, hx, rfl⟩
          · have hf : ∀ x, v = some x → isTruthy x = false := fun x hx => by
              cases hq : isTruthy x with
              | false => rfl
              | true => exact absurd ⟨x, hx, hq⟩ hv
            have h2' : Eval (fun n => inverseLoop (sem n) E cs alt) u (.ok o) t := by
              cases v with
              | none => exact h2
              | some x => simp only [hf x rfl] at h2; exact h2
            rcases (ih _ _ _ _).1 h2' with ⟨pre, post, n, d, w, u', h3, h4, h5⟩ | ⟨h3, h4⟩
            · exact .inl ⟨.block b :: pre, post, n, d, w, u', by rw [h3]; rfl, .cond hd h1 hf h4, h5⟩
            · exact .inr ⟨.cond hd h1 hf h3, h4⟩
        · have hmono : ∀ v : Option Value, MonoF fun n => (match v with
              | some v => if isTruthy v then pure (some (.block b)) else inverseLoop (sem n) E cs alt
              | none => inverseLoop (sem n) E cs alt : RM (Option Node)) := by
            intro v
            cases v with
            | none => exact mono_inverseLoop E cs alt
            | some v =>
                simp only
                by_cases hv : isTruthy v = true
                · simp only [hv, if_true]; exact MonoF.const _
                · simp only [if_neg hv]; exact mono_inverseLoop E cs alt
          have go : ∀ {v : Option Value} {u : RS}, Calls E b.call s (.ok v) u → (∀ x, v = some x → isTruthy x = false) →
              Eval (fun n => inverseLoop (sem n) E cs alt) u (.ok o) t → Eval (fun n => (sem n).call E b.call >>= fun v => (match v with
                | some v => if isTruthy v then pure (some (.block b)) else inverseLoop (sem n) E cs alt
                | none => inverseLoop (sem n) E cs alt : RM (Option Node))) s (.ok o) t := by
            intro v u h1 hf h2
            refine Spec.Eval.bindOk (mono_call _ _) hmono h1 ?_
            cases v with
            | none => exact h2
            | some x => simp only [hf x rfl]; exact h2
          rintro (⟨pre, post, n, d, w, u', h3, h4, h5, h6, h7, h8⟩ | ⟨h1, h2⟩)
          · cases pre with
            | nil =>
                simp only [List.nil_append, List.cons.injEq] at h3
                obtain ⟨rfl, rfl⟩ := h3
                rw [hd] at h5
                cases h5
                cases h4
                refine Spec.Eval.bindOk (mono_call _ _) hmono h6 ?_
                simp only [h7, if_true]
                exact Spec.Eval.pure.2 ⟨by rw [h8], rfl⟩
            | cons p pre =>
                simp only [List.cons_append, List.cons.injEq] at h3
                obtain ⟨rfl, rfl⟩ := h3
                cases h4 with
                | skip he => rw [he] at hd; cases hd
                | cond he hcall hf hrest =>
                    rw [hd] at he
                    cases he
                    exact go hcall hf ((ih _ _ _ _).2 (.inl ⟨pre, post, n, d, w, u', rfl, hrest, h5, h6, h7, h8⟩))
          · cases h1 with
            | skip he => rw [he] at hd; cases hd
            | cond he hcall hf hrest =>
                rw [hd] at he
                cases he
                exact go hcall hf ((ih _ _ _ _).2 (.inr ⟨hrest, h2⟩))

theorem inverse_iff {E : Env} {b : Block} {s t : RS} {o : Option Node} :
    Eval (fun n => inverse (sem n) E (.block b)) s (.ok o) t ↔ Chooses E b.conditionals s o t := by
  show Eval (fun n => inverseLoop (sem n) E b.conditionals none) s (.ok o) t ↔ _
  rw [inverseLoop_iff]
  constructor
  · rintro (⟨pre, post, n, c, v, u, h1, h2, h3, h4, h5, rfl⟩ | ⟨h1, rfl⟩)
    · exact .clause h1 h2 h3 h4 h5
    · rw [Option.or_none]; exact .otherwise h1
  · intro h
    cases h with
    | clause h1 h2 h3 h4 h5 => exact .inl ⟨_, _, _, _, _, _, h1, h2, h3, h4, h5, rfl⟩
    | otherwise h => exact .inr ⟨h, by rw [Option.or_none]⟩

theorem runs_tryInverse {E : Env} {b : Block} {s t : RS} {x : Option Value} :
    RunsHelper E (.tryInverse (.block b)) s (.ok x) t ↔
      x = none ∧ ∃ pick u, Chooses E b.conditionals s pick u ∧ RendersChoice E pick u t := by
  show Eval (fun m => RM.catchErr (inverse (sem m) E (.block b)) fun y => run (sem m) E _) s (.ok x) t ↔ _
  rw [Spec.Eval.catchErr_iff (mono_inverse E _) fun a => mono_run E _]
  constructor
  · rintro (⟨o, u, h1, h2⟩ | ⟨e, u, h1, h2⟩ | ⟨_, h⟩)
    · rw [inverse_iff] at h1
      cases o with
      | none =>
          obtain ⟨e, rfl⟩ := runs_ret.1 h2
          cases e
          exact ⟨rfl, none, t, h1, rfl⟩
      | some n =>
          obtain ⟨e, h3⟩ := runs_tmpl_ret.1 h2
          subst e
          exact ⟨rfl, some n, u, h1, h3⟩
    · obtain ⟨e, _⟩ := runs_fail.1 h2; cases e
    · cases h
  · rintro ⟨rfl, pick, u, h1, h2⟩
    refine .inl ⟨pick, u, inverse_iff.2 h1, ?_⟩
    cases pick with
    | none => cases h2; exact runs_ret.2 ⟨rfl, rfl⟩
    | some n => exact runs_tmpl_ret.2 ⟨rfl, h2⟩

theorem withArity_one {ctx : Ctx} {v : Value} (h : ctx.args = [v]) (k : Prog) : ctx.withArity 1 1 k = k := by
  unfold Ctx.withArity Ctx.arity
  simp [h]

theorem get_one {ctx : Ctx} {v : Value} (h : ctx.args = [v]) : ctx.get 0 = some v := by
  unfold Ctx.get; rw [h]; rfl

/-- C16: `if` renders its content when its argument is truthy; otherwise exactly the clause that is
chosen, if any. -/
theorem C16_if (E : Env) (ctx : Ctx) (v : Value) (hv : ctx.args = [v]) (b : Block) (s t : RS) (x : Option Value) :
    RunsHelper E (hIf ctx (some (.block b))) s (.ok x) t ↔
      x = none ∧ (isTruthy v = true ∧ Templates E (.block b) s (.ok ()) t ∨
        isTruthy v = false ∧ ∃ pick u, Chooses E b.conditionals s pick u ∧ RendersChoice E pick u t) := by
  unfold hIf
  rw [withArity_one hv, get_one hv]
  simp only
  cases ht : isTruthy v with
  | true => rw [if_pos rfl, runs_tmpl_ret]; simp
  | false => rw [if_neg (by simp), runs_tryInverse]; simp

/-- C16: `unless`, the other way round. -/
theorem C16_unless (E : Env) (ctx : Ctx) (v : Value) (hv : ctx.args = [v]) (b : Block) (s t : RS) (x : Option Value) :
    RunsHelper E (hUnless ctx (some (.block b))) s (.ok x) t ↔
      x = none ∧ (isTruthy v = false ∧ Templates E (.block b) s (.ok ()) t ∨
        isTruthy v = true ∧ ∃ pick u, Chooses E b.conditionals s pick u ∧ RendersChoice E pick u t) := by
  unfold hUnless
  rw [withArity_one hv, get_one hv]
  simp only
  cases ht : isTruthy v with
  | true => rw [if_neg (by simp), runs_tryInverse]; simp
  | false => rw [if_pos (by simp), runs_tmpl_ret]; simp

/-- C16: `if` used as a value tells whether its argument is truthy. -/
theorem C16_value (E : Env) (ctx : Ctx) (v : Value) (hv : ctx.args = [v]) (s t : RS) (r : Res (Option Value)) :
    RunsHelper E (hIf ctx none) s r t ↔ r = .ok (some (.bool (isTruthy v))) ∧ t = s := by
  unfold hIf
  rw [withArity_one hv, get_one hv]
  exact runs_ret

/-! ### C34: the content of a block -/

theorem mono_templateEvent (E : Env) (n : Node) (ev : Ev) : MonoF fun k => templateEvent (sem k) E n ev := by
  unfold templateEvent
  exact MonoF.bind (MonoF.const _) fun h => MonoF.bind (MonoF.const _) fun lh => mono_renderNode _ _ _

/-- What a node asks of the next, as the loop keeps it. -/
def prevOf : Node → Option Bool
  | .block _ => none
  | m => some (m.trimAfter == some true)

theorem trimAfterOf_prev {n : Node} {h : TrimHint} (hh : n.trim = some h) : trimAfterOf n h = prevOf n := by
  have := trimAfterOf_eq hh
  cases n with
  | block b => rfl
  | _ => exact congrArg some this

theorem events_head {f : Nat → Ev → RM Unit} {ns : List Node} {prev : Option Bool} {hint : Option TrimHint} {s u : RS}
    (h : Eval (fun n => runEvents (f n) ns prev hint) s (.ok ()) u) :
    ∀ m ms, ns = m :: ms → ∃ x, m.trim = some x := by
  rintro m ms rfl
  unfold runEvents at h
  obtain ⟨stop, s1, h1, ha⟩ := Spec.Eval.bind_inv_ok h
  obtain ⟨cur, s2, h2, hb⟩ := Spec.Eval.bind_inv_ok ha
  have h2 := (Spec.Eval.const.1 h2).2
  cases hm : m.trim with
  | none => rw [hm] at h2; cases h2
  | some hh => exact ⟨hh, rfl⟩

theorem body_cons {E : Env} {b : Block} {h hc : TrimHint} (ho : (Node.block b).trim = some h) (hcl : b.trimClose = some hc)
    (m : Node) (ns : List Node) (prev : Option Bool) (hint : Option TrimHint) (s u : RS) :
    Eval (fun n => runEvents (templateEvent (sem n) E (.block b)) (m :: ns) prev hint) s (.ok ()) u ↔
      ∃ t, Renders E m ⟨startTrim prev hint || (prev.isNone && h.after),
          if ns.isEmpty then hc.before else asksBefore ns⟩ s (.ok ()) t ∧
        Eval (fun n => runEvents (templateEvent (sem n) E (.block b)) ns (prevOf m) (nextHint prev hint)) t (.ok ()) u := by
  have hev : ∀ (n : Nat) (s : RS), templateEvent (sem n) E (.block b)
      ⟨m, ⟨startTrim prev hint, asksBefore ns⟩, prev.isNone, ns.isEmpty⟩ s =
      (sem n).renderNode E m ⟨startTrim prev hint || (prev.isNone && h.after),
          if ns.isEmpty then hc.before else asksBefore ns⟩ s := by
    intro n s
    unfold templateEvent firstHint lastHint hintTrim
    cases prev with
    | none =>
        simp only [Option.isNone_none, if_true, Bool.true_and]
        rw [orPanic_bind ho]
        cases ns with
        | nil =>
            simp only [List.isEmpty_nil, if_true]
            rw [orPanic_bind hcl]
            simp [asksBefore]
        | cons x xs =>
            simp only [List.isEmpty_cons]
            show (sem n).renderNode _ _ _ s = _
            simp
    | some p =>
        simp only [Option.isNone_some, Bool.false_and]
        cases ns with
        | nil =>
            simp only [List.isEmpty_nil, if_true]
            show (RM.orPanic b.trimClose >>= _) s = _
            rw [orPanic_bind hcl]
            simp [asksBefore]
        | cons x xs =>
            simp only [List.isEmpty_cons]
            show (sem n).renderNode _ _ _ s = _
            simp
  constructor
  · intro hh
    unfold runEvents at hh
    obtain ⟨stop, s1, h1, ha⟩ := Spec.Eval.bind_inv_ok hh
    obtain ⟨e1, e1'⟩ := nextBefore_ok ns s (Spec.Eval.const.1 h1).2
    subst e1; subst e1'
    clear hh
    obtain ⟨cur, s2, h2, h3⟩ := Spec.Eval.bind_inv_ok ha
    have h2 := (Spec.Eval.const.1 h2).2
    cases hm : m.trim with
    | none => rw [hm] at h2; cases h2
    | some hh =>
        rw [hm] at h2
        cases h2
        obtain ⟨_, t, h4, h5⟩ := Spec.Eval.bind_inv_ok h3
        rw [trimAfterOf_prev hm] at h5
        exact ⟨t, (Spec.Eval.congr fun n => hev n _).1 h4, h5⟩
  · rintro ⟨t, h1, h2⟩
    obtain ⟨x, hm⟩ := renders_trim h1
    unfold runEvents
    rw [Spec.Eval.step (nextBefore_of_trim (events_head h2) s)]
    rw [Spec.Eval.step (t := s) (a := x) (by simp [RM.orPanic, hm])]
    rw [← trimAfterOf_prev hm] at h2
    refine Spec.Eval.bindOk (mono_templateEvent _ _ _) (fun _ => ?_) ((Spec.Eval.congr fun n => hev n _).2 h1) h2
    exact mono_runEvents (fun ev => mono_templateEvent _ _ _) _ _ _

theorem rendersBody_iff {E : Env} {b : Block} {h hc : TrimHint} (ho : (Node.block b).trim = some h)
    (hcl : b.trimClose = some hc) : ∀ (ns : List Node) (prev : Option Bool) (s u : RS),
    Eval (fun n => runEvents (templateEvent (sem n) E (.block b)) ns prev none) s (.ok ()) u ↔
      RendersBody E h.after hc.before (prev.getD h.after) ns s u := by
  intro ns
  induction ns with
  | nil =>
      intro prev s u
      show Eval (fun _ => (pure () : RM Unit)) s (.ok ()) u ↔ _
      rw [Spec.Eval.pure]
      constructor
      · rintro ⟨_, rfl⟩; exact .nil _ _
      · intro h; cases h; exact ⟨rfl, rfl⟩
  | cons m ns ih =>
      intro prev s u
      rw [body_cons ho hcl]
      have hst : (startTrim prev none || (prev.isNone && h.after)) = prev.getD h.after := by
        cases prev <;> simp [startTrim]
      have hn : nextHint prev none = none := by cases prev <;> rfl
      have hp : (prevOf m).getD h.after = bodyAfter h.after m := by cases m <;> rfl
      rw [hst, hn]
      constructor
      · rintro ⟨t, h1, h2⟩
        have h3 := (ih _ _ _).1 h2
        rw [hp] at h3
        exact .cons h1 h3
      · intro hh
        cases hh with
        | cons h1 h2 => rw [← hp] at h2; exact ⟨_, h1, (ih _ _ _).2 h2⟩

/-- C34: a helper that renders a block's content renders each node in turn, telling it exactly what its
neighbours' tags (the block's own open and close tags included) ask for. -/
theorem C34_block (E : Env) (b : Block) (h hc : TrimHint) (ho : (Node.block b).trim = some h)
    (hcl : b.trimClose = some hc) (s t : RS) :
    Templates E (.block b) s (.ok ()) t ↔
      ∃ u, RendersBody E h.after hc.before (hintAfter s || h.after) b.nodes s u ∧
        t = { u with endTagHint := if b.nodes = [] then none else some hc } := by
  have hch : closeHint (.block b) = some (if b.nodes = [] then none else some hc) := by
    unfold closeHint
    cases hn : b.nodes <;> simp [hcl, hn]
  have key : ∀ u, Eval (fun n => runEvents (templateEvent (sem n) E (.block b)) b.nodes none s.hint) s (.ok ()) u ↔
      RendersBody E h.after hc.before (hintAfter s || h.after) b.nodes s u := by
    intro u
    cases hn : b.nodes with
    | nil =>
        show Eval (fun _ => (pure () : RM Unit)) s (.ok ()) u ↔ _
        rw [Spec.Eval.pure]
        constructor
        · rintro ⟨_, rfl⟩; exact .nil _ _
        · intro h; cases h; exact ⟨rfl, rfl⟩
    | cons m ns =>
        rw [body_cons ho hcl]
        have hst : (startTrim none s.hint || (true && h.after)) = (hintAfter s || h.after) := by
          cases hh : s.hint <;> simp [startTrim, hintAfter, hh]
        have hp : (prevOf m).getD h.after = bodyAfter h.after m := by cases m <;> rfl
        simp only [Option.isNone_none]
        rw [hst]
        constructor
        · rintro ⟨t, h1, h2⟩
          have h3 := (rendersBody_iff ho hcl _ _ _ _).1 h2
          rw [hp] at h3
          exact .cons h1 h3
        · intro hh
          cases hh with
          | cons h1 h2 => rw [← hp] at h2; exact ⟨_, h1, (rendersBody_iff ho hcl _ _ _ _).2 h2⟩
  unfold Templates template
  rw [Spec.Eval.step (m := RM.get) (t := s) (a := s) rfl]
  constructor
  · intro hh
    obtain ⟨_, u, h1, h2⟩ := Spec.Eval.bind_inv_ok hh
    rw [Spec.Eval.step (t := u) (a := if b.nodes = [] then none else some hc) (by rw [hch]; rfl)] at h2
    refine ⟨u, (key u).1 h1, ?_⟩
    have := (Spec.Eval.const.1 h2).2
    cases this; rfl
  · rintro ⟨u, h1, rfl⟩
    refine Spec.Eval.bindOk (mono_runEvents (fun ev => mono_templateEvent _ _ _) _ _ _) (fun _ => MonoF.const _) ((key u).2 h1) ?_
    rw [Spec.Eval.step (t := u) (a := if b.nodes = [] then none else some hc) (by rw [hch]; rfl)]
    exact ⟨by simp, 0, rfl⟩

/-! ### C17, C18: loops and scopes -/

theorem runs_pushScope {E : Env} {sc : Scope} {k : Prog} {s t : RS} {r : Res (Option Value)} :
    RunsHelper E (.pushScope sc k) s r t ↔ RunsHelper E k { s with scopes := sc :: s.scopes } r t :=
  Spec.Eval.step (m := RM.modify fun s => { s with scopes := sc :: s.scopes }) (g := fun _ n => run (sem n) E k) rfl

theorem runs_popScope {E : Env} {k : Option Scope → Prog} {s t : RS} {r : Res (Option Value)} :
    RunsHelper E (.popScope k) s r t ↔ RunsHelper E (k s.scopes.head?) { s with scopes := s.scopes.tail } r t := Iff.rfl

theorem runs_scopeMut {E : Env} {f : Scope → Scope} {k : Option Scope → Prog} {s t : RS} {r : Res (Option Value)}
    {sc : Scope} {rest : List Scope} (h : s.scopes = sc :: rest) :
    RunsHelper E (.scopeMut f k) s r t ↔ RunsHelper E (k (some sc)) { s with scopes := f sc :: rest } r t := by
  have e : (match s.scopes with
        | [] => s
        | sc :: r => { s with scopes := f sc :: r }) = { s with scopes := f sc :: rest } := by rw [h]
  have e' : s.scopes.head? = some sc := by rw [h]; rfl
  rw [← e, ← e']
  rfl

/-- Balanced helpers leave the scopes as they were. -/
theorem templates_balanced {E : Env} (hr : BalancedReg E.reg) {n : Node} {s t : RS} (hl : LocalsBalanced s)
    (h : Templates E n s (.ok ()) t) : LocalsBalanced t ∧ t.scopes = s.scopes ∧ t.stack = s.stack := by
  obtain ⟨_, N, hN⟩ := h
  change template (sem N) E n s = _ at hN
  have := (balFrame E.reg hr).template ((balFrame E.reg hr).semOk N) (E := E) rfl n s hl
  unfold Rel.OkAt at this
  rw [hN] at this
  exact ⟨this.1, this.2.2 rfl, this.2.1.stack rfl⟩

theorem eachScope_array (i : Nat) (last : Bool) (v : Value) (sc : Scope)
    (h : sc.locals = [] ∨ ∃ r : Round, r.key = none ∧ sc = r.scope) :
    eachScope i last none v sc = (Round.mk i (i == 0) last none v).scope := by
  rcases h with h | ⟨⟨j, f, l, k, w⟩, hk, rfl⟩
  · obtain ⟨o, ls⟩ := sc
    subst h
    rfl
  · simp only at hk
    subst hk
    rfl

theorem eachScope_object (i : Nat) (last : Bool) (k : Str) (v : Value) (sc : Scope)
    (h : sc.locals = [] ∨ ∃ r : Round, r.key.isSome ∧ sc = r.scope) :
    eachScope i last (some k) v sc = (Round.mk i (i == 0) last (some k) v).scope := by
  rcases h with h | ⟨⟨j, f, l, k', w⟩, hk, rfl⟩
  · obtain ⟨o, ls⟩ := sc
    subst h
    rfl
  · simp only at hk
    obtain ⟨k', rfl⟩ := Option.isSome_iff_exists.1 hk
    rfl

/-- The rounds over an array from index `i`. -/
def arrFrom (len : Nat) : Nat → List Value → List Round
  | _, [] => []
  | i, v :: r => ⟨i, i == 0, i == len - 1, none, v⟩ :: arrFrom len (i + 1) r

theorem arrFrom_eq (len : Nat) : ∀ (l : List Value) (i : Nat), len = i + l.length →
    arrFrom len i l = l.mapIdx fun j v => ⟨i + j, i + j == 0, i + j + 1 == len, none, v⟩ := by
  intro l
  induction l with
  | nil => intro i _; rfl
  | cons v l ih =>
      intro i hi
      rw [List.length_cons] at hi
      rw [arrFrom, ih (i + 1) (by omega), List.mapIdx_cons]
      have e : (i == len - 1) = (i + 0 + 1 == len) := by
        rw [Bool.eq_iff_iff]; simp; omega
      have e' : (fun (j : Nat) (v : Value) => Round.mk (i + 1 + j) (i + 1 + j == 0) (i + 1 + j + 1 == len) none v) =
          fun j v => Round.mk (i + (j + 1)) (i + (j + 1) == 0) (i + (j + 1) + 1 == len) none v := by
        funext j v
        rw [show i + 1 + j = i + (j + 1) by omega]
      rw [e, e']
      rfl

theorem arrayRounds_eq (l : List Value) : arrFrom l.length 0 l = arrayRounds l := by
  rw [arrFrom_eq l.length l 0 (by omega)]
  unfold arrayRounds
  congr 1
  funext j v
  simp

/-- The rounds over an object from index `i`. -/
def objFrom : Nat → List (Str × Value) → List Round
  | _, [] => []
  | i, (k, v) :: r => ⟨i, i == 0, r.isEmpty, some k, v⟩ :: objFrom (i + 1) r

theorem objFrom_eq (len : Nat) : ∀ (l : List (Str × Value)) (i : Nat), len = i + l.length →
    objFrom i l = l.mapIdx fun j kv => ⟨i + j, i + j == 0, i + j + 1 == len, some kv.1, kv.2⟩ := by
  intro l
  induction l with
  | nil => intro i _; rfl
  | cons v l ih =>
      intro i hi
      rw [List.length_cons] at hi
      obtain ⟨k, v⟩ := v
      rw [objFrom, ih (i + 1) (by omega), List.mapIdx_cons]
      have e : l.isEmpty = (i + 0 + 1 == len) := by
        rw [Bool.eq_iff_iff, List.isEmpty_iff_length_eq_zero, beq_iff_eq]; omega
      have e' : (fun (j : Nat) (kv : Str × Value) => Round.mk (i + 1 + j) (i + 1 + j == 0) (i + 1 + j + 1 == len) (some kv.1) kv.2) =
          fun j kv => Round.mk (i + (j + 1)) (i + (j + 1) == 0) (i + (j + 1) + 1 == len) (some kv.1) kv.2 := by
        funext j v
        rw [show i + 1 + j = i + (j + 1) by omega]
      rw [e, e']
      rfl

theorem objectRounds_eq (l : List (Str × Value)) : objFrom 0 l = objectRounds l := by
  rw [objFrom_eq l.length l 0 (by omega)]
  unfold objectRounds
  congr 1
  funext j v
  simp

theorem each_array_loop {E : Env} (hr : BalancedReg E.reg) (n : Node) (len : Nat) (base : List Scope) :
    ∀ (l : List Value) (i : Nat) (sc : Scope) (s t : RS) (x : Option Value), LocalsBalanced s →
      s.scopes = sc :: base → (sc.locals = [] ∨ ∃ r : Round, r.key = none ∧ sc = r.scope) →
      (RunsHelper E (eachArr n len i l) s (.ok x) t ↔
        x = none ∧ ∃ u, Iterates E n base (arrFrom len i l) s u ∧ t = { u with scopes := base }) := by
  intro l
  induction l with
  | nil =>
      intro i sc s t x hl hs hsc
      rw [eachArr, runs_popScope, runs_ret, hs]
      constructor
      · rintro ⟨e, rfl⟩; exact ⟨by simpa using e, s, .nil _, rfl⟩
      · rintro ⟨rfl, u, h, rfl⟩; cases h; exact ⟨rfl, rfl⟩
  | cons v l ih =>
      intro i sc s t x hl hs hsc
      rw [eachArr, runs_scopeMut hs, runs_tmpl, eachScope_array i _ v sc hsc]
      constructor
      · rintro (⟨u, h1, h2⟩ | ⟨r', h1, h2⟩)
        · obtain ⟨b1, b2, _⟩ := templates_balanced hr (by exact hl.of_eq rfl) h1
          obtain ⟨e, u', h3, h4⟩ := (ih (i + 1) _ u t x b1 b2 (.inr ⟨_, rfl, rfl⟩)).1 h2
          exact ⟨e, u', .cons h1 h3, h4⟩
        · cases r' <;> cases h2
      · rintro ⟨rfl, u', h, rfl⟩
        cases h with
        | cons h1 h3 =>
          obtain ⟨b1, b2, _⟩ := templates_balanced hr (by exact hl.of_eq rfl) h1
          exact .inl ⟨_, h1, (ih (i + 1) _ _ _ _ b1 b2 (.inr ⟨_, rfl, rfl⟩)).2 ⟨rfl, u', h3, rfl⟩⟩

theorem each_object_loop {E : Env} (hr : BalancedReg E.reg) (n : Node) (base : List Scope) :
    ∀ (l : List (Str × Value)) (i : Nat) (sc : Scope) (s t : RS) (x : Option Value), LocalsBalanced s →
      s.scopes = sc :: base → (sc.locals = [] ∨ ∃ r : Round, r.key.isSome ∧ sc = r.scope) →
      (RunsHelper E (eachObj n i l) s (.ok x) t ↔
        x = none ∧ ∃ u, Iterates E n base (objFrom i l) s u ∧ t = { u with scopes := base }) := by
  intro l
  induction l with
  | nil =>
      intro i sc s t x hl hs hsc
      rw [eachObj, runs_popScope, runs_ret, hs]
      constructor
      · rintro ⟨e, rfl⟩; exact ⟨by simpa using e, s, .nil _, rfl⟩
      · rintro ⟨rfl, u, h, rfl⟩; cases h; exact ⟨rfl, rfl⟩
  | cons v l ih =>
      intro i sc s t x hl hs hsc
      obtain ⟨k, v⟩ := v
      rw [eachObj, runs_scopeMut hs, runs_tmpl, eachScope_object i _ k v sc hsc]
      constructor
      · rintro (⟨u, h1, h2⟩ | ⟨r', h1, h2⟩)
        · obtain ⟨b1, b2, _⟩ := templates_balanced hr (by exact hl.of_eq rfl) h1
          obtain ⟨e, u', h3, h4⟩ := (ih (i + 1) _ u t x b1 b2 (.inr ⟨_, rfl, rfl⟩)).1 h2
          exact ⟨e, u', .cons h1 h3, h4⟩
        · cases r' <;> cases h2
      · rintro ⟨rfl, u', h, rfl⟩
        cases h with
        | cons h1 h3 =>
          obtain ⟨b1, b2, _⟩ := templates_balanced hr (by exact hl.of_eq rfl) h1
          exact .inl ⟨_, h1, (ih (i + 1) _ _ _ _ b1 b2 (.inr ⟨_, rfl, rfl⟩)).2 ⟨rfl, u', h3, rfl⟩⟩

/-- C17: `each` over an array renders its content once per element, in order, each time in a scope of
its own with `this`, `@index`, `@first` and `@last`; then the scopes are what they were. -/
theorem C17_array (E : Env) (hr : BalancedReg E.reg) (ctx : Ctx) (l : List Value) (hv : ctx.args = [.arr l]) (n : Node)
    (s t : RS) (hl : LocalsBalanced s) (x : Option Value) :
    RunsHelper E (hEach ctx (some n)) s (.ok x) t ↔
      x = none ∧ ∃ u, Iterates E n s.scopes (arrayRounds l) s u ∧ t = { u with scopes := s.scopes } := by
  unfold hEach
  rw [withArity_one hv, get_one hv]
  simp only
  rw [runs_pushScope, each_array_loop hr n l.length s.scopes l 0 Scope.new _ _ _ (by exact hl.of_eq rfl) rfl (.inl rfl),
    arrayRounds_eq]
  refine and_congr_right fun _ => ?_
  cases l with
  | nil =>
      constructor
      · rintro ⟨u, h, rfl⟩; cases h; exact ⟨s, .nil _, rfl⟩
      · rintro ⟨u, h, rfl⟩; cases h; exact ⟨_, .nil _, rfl⟩
  | cons v l =>
      refine exists_congr fun u => and_congr_left fun _ => ?_
      simp only [arrayRounds, List.mapIdx_cons]
      constructor
      · intro h; cases h with | cons h1 h2 => exact .cons h1 h2
      · intro h; cases h with | cons h1 h2 => exact .cons h1 h2

/-- C17: `each` over an object: once per member, in key order, also with `@key`. -/
theorem C17_object (E : Env) (hr : BalancedReg E.reg) (ctx : Ctx) (m : List (Str × Value)) (hv : ctx.args = [.obj m])
    (n : Node) (s t : RS) (hl : LocalsBalanced s) (x : Option Value) :
    RunsHelper E (hEach ctx (some n)) s (.ok x) t ↔
      x = none ∧ ∃ u, Iterates E n s.scopes (objectRounds m) s u ∧ t = { u with scopes := s.scopes } := by
  unfold hEach
  rw [withArity_one hv, get_one hv]
  simp only
  rw [runs_pushScope, each_object_loop hr n s.scopes m 0 Scope.new _ _ _ (by exact hl.of_eq rfl) rfl (.inl rfl),
    objectRounds_eq]
  refine and_congr_right fun _ => ?_
  cases m with
  | nil =>
      constructor
      · rintro ⟨u, h, rfl⟩; cases h; exact ⟨s, .nil _, rfl⟩
      · rintro ⟨u, h, rfl⟩; cases h; exact ⟨_, .nil _, rfl⟩
  | cons v l =>
      refine exists_congr fun u => and_congr_left fun _ => ?_
      simp only [objectRounds, List.mapIdx_cons]
      constructor
      · intro h; cases h with | cons h1 h2 => exact .cons h1 h2
      · intro h; cases h with | cons h1 h2 => exact .cons h1 h2

/-- C17: `each` over anything else renders nothing. -/
theorem C17_other (E : Env) (ctx : Ctx) (v : Value) (hv : ctx.args = [v]) (ha : ∀ l, v ≠ .arr l) (ho : ∀ m, v ≠ .obj m)
    (n : Node) (s t : RS) (r : Res (Option Value)) :
    RunsHelper E (hEach ctx (some n)) s r t ↔ r = .ok none ∧ t = s := by
  unfold hEach
  rw [withArity_one hv, get_one hv]
  simp only
  rw [runs_pushScope]
  cases v with
  | arr l => exact absurd rfl (ha l)
  | obj m => exact absurd rfl (ho m)
  | _ => rw [runs_popScope, runs_ret]; exact Iff.rfl

/-- C18: `with` renders its content once, in a scope whose `this` is the argument; then the scopes are
what they were. -/
theorem C18_with (E : Env) (hr : BalancedReg E.reg) (ctx : Ctx) (v : Value) (hv : ctx.args = [v]) (hn : v ≠ .null)
    (n : Node) (s t : RS) (hl : LocalsBalanced s) (x : Option Value) :
    RunsHelper E (hWith ctx (some n)) s (.ok x) t ↔
      x = none ∧ ∃ u, Templates E n { s with scopes := ⟨some v, []⟩ :: s.scopes } (.ok ()) u ∧
        t = { u with scopes := s.scopes } := by
  have e : hWith ctx (some n) = .pushScope Scope.new (.scopeMut (Scope.setBase v) fun _ => .tmpl n (.popScope fun _ => .ret none)) := by
    unfold hWith
    rw [withArity_one hv, get_one hv]
    cases v with
    | null => exact absurd rfl hn
    | _ => rfl
  rw [e, runs_pushScope, runs_scopeMut rfl, runs_tmpl]
  constructor
  · rintro (⟨u, h1, h2⟩ | ⟨r', h1, h2⟩)
    · obtain ⟨_, b2, _⟩ := templates_balanced hr (by exact hl.of_eq rfl) h1
      obtain ⟨e1, rfl⟩ := runs_ret.1 (runs_popScope.1 h2)
      refine ⟨by simpa using e1, u, h1, ?_⟩
      rw [b2]; rfl
    · cases r' <;> cases h2
  · rintro ⟨rfl, u, h1, rfl⟩
    obtain ⟨_, b2, _⟩ := templates_balanced hr (by exact hl.of_eq rfl) h1
    refine .inl ⟨u, h1, runs_popScope.2 (runs_ret.2 ⟨rfl, ?_⟩)⟩
    rw [b2]; rfl

/-- C18: `with null` renders nothing. -/
theorem C18_null (E : Env) (ctx : Ctx) (hv : ctx.args = [.null]) (n : Option Node) (s t : RS) (r : Res (Option Value)) :
    RunsHelper E (hWith ctx n) s r t ↔ r = .ok none ∧ t = s := by
  unfold hWith
  rw [withArity_one hv, get_one hv]
  exact runs_ret

/-! Failures are passed on. -/

theorem each_array_fails {E : Env} (hr : BalancedReg E.reg) (n : Node) (len : Nat) (base : List Scope) :
    ∀ (l : List Value) (i : Nat) (sc : Scope) (s t : RS) (r : Res (Option Value)), LocalsBalanced s →
      s.scopes = sc :: base → (sc.locals = [] ∨ ∃ r : Round, r.key = none ∧ sc = r.scope) → r.isOk = false →
      RunsHelper E (eachArr n len i l) s r t →
        ∃ pre rd post u r', arrFrom len i l = pre ++ rd :: post ∧ Iterates E n base pre s u ∧
          Templates E n { u with scopes := rd.scope :: base } r' t ∧ passOn r' = some r := by
  intro l
  induction l with
  | nil =>
      intro i sc s t r hl hs hsc hr
      rw [eachArr, runs_popScope, runs_ret]
      rintro ⟨rfl, _⟩; cases hr
  | cons v l ih =>
      intro i sc s t r hl hs hsc hrr
      rw [eachArr, runs_scopeMut hs, runs_tmpl, eachScope_array i _ v sc hsc]
      rintro (⟨u, h1, h2⟩ | ⟨r', h1, h2⟩)
      · obtain ⟨b1, b2, _⟩ := templates_balanced hr (by exact hl.of_eq rfl) h1
        obtain ⟨pre, rd, post, u', r', h3, h4, h5⟩ := ih (i + 1) _ u t r b1 b2 (.inr ⟨_, rfl, rfl⟩) hrr h2
        exact ⟨_ :: pre, rd, post, u', r', by rw [arrFrom, h3]; rfl, .cons h1 h4, h5⟩
      · exact ⟨[], _, _, s, r', rfl, .nil _, h1, h2⟩

theorem each_object_fails {E : Env} (hr : BalancedReg E.reg) (n : Node) (base : List Scope) :
    ∀ (l : List (Str × Value)) (i : Nat) (sc : Scope) (s t : RS) (r : Res (Option Value)), LocalsBalanced s →
      s.scopes = sc :: base → (sc.locals = [] ∨ ∃ r : Round, r.key.isSome ∧ sc = r.scope) → r.isOk = false →
      RunsHelper E (eachObj n i l) s r t →
        ∃ pre rd post u r', objFrom i l = pre ++ rd :: post ∧ Iterates E n base pre s u ∧
          Templates E n { u with scopes := rd.scope :: base } r' t ∧ passOn r' = some r := by
  intro l
  induction l with
  | nil =>
      intro i sc s t r hl hs hsc hr
      rw [eachObj, runs_popScope, runs_ret]
      rintro ⟨rfl, _⟩; cases hr
  | cons v l ih =>
      intro i sc s t r hl hs hsc hrr
      obtain ⟨k, v⟩ := v
      rw [eachObj, runs_scopeMut hs, runs_tmpl, eachScope_object i _ k v sc hsc]
      rintro (⟨u, h1, h2⟩ | ⟨r', h1, h2⟩)
      · obtain ⟨b1, b2, _⟩ := templates_balanced hr (by exact hl.of_eq rfl) h1
        obtain ⟨pre, rd, post, u', r', h3, h4, h5⟩ := ih (i + 1) _ u t r b1 b2 (.inr ⟨_, rfl, rfl⟩) hrr h2
        exact ⟨_ :: pre, rd, post, u', r', by rw [objFrom, h3]; rfl, .cons h1 h4, h5⟩
      · exact ⟨[], _, _, s, r', rfl, .nil _, h1, h2⟩

/-- An iteration only depends on the state apart from the scopes. -/
theorem iterates_scopes {E : Env} {n : Node} {base scs : List Scope} {rd : Round} {rs : List Round} {s u : RS} :
    Iterates E n base (rd :: rs) { s with scopes := scs } u ↔ Iterates E n base (rd :: rs) s u := by
  constructor
  · intro h; cases h with | cons h1 h2 => exact .cons h1 h2
  · intro h; cases h with | cons h1 h2 => exact .cons h1 h2

/-- C17: `each` fails exactly as the first round that fails, all earlier rounds having been rendered. -/
theorem C17_fails (E : Env) (hr : BalancedReg E.reg) (ctx : Ctx) (v : Value) (hv : ctx.args = [v])
    (n : Node) (s t : RS) (hl : LocalsBalanced s) (r : Res (Option Value)) (hnok : r.isOk = false)
    (h : RunsHelper E (hEach ctx (some n)) s r t) :
    ∃ rounds pre rd post u r', ((∃ l, v = .arr l ∧ rounds = arrayRounds l) ∨ ∃ m, v = .obj m ∧ rounds = objectRounds m) ∧
      rounds = pre ++ rd :: post ∧ Iterates E n s.scopes pre s u ∧
      Templates E n { u with scopes := rd.scope :: s.scopes } r' t ∧ passOn r' = some r := by
  have finish : ∀ {pre : List Round} {rd : Round} {u : RS} {r' : Res Unit},
      Iterates E n s.scopes pre { s with scopes := Scope.new :: s.scopes } u →
      Templates E n { u with scopes := rd.scope :: s.scopes } r' t →
      ∃ u', Iterates E n s.scopes pre s u' ∧ Templates E n { u' with scopes := rd.scope :: s.scopes } r' t := by
    intro pre rd u r' h1 h2
    cases pre with
    | nil => cases h1; exact ⟨s, .nil _, h2⟩
    | cons a pre => exact ⟨u, iterates_scopes.1 h1, h2⟩
  cases v with
  | arr l =>
      unfold hEach at h
      rw [withArity_one hv, get_one hv] at h
      simp only at h
      rw [runs_pushScope] at h
      obtain ⟨pre, rd, post, u, r', h1, h2, h3, h4⟩ :=
        each_array_fails hr n l.length s.scopes l 0 Scope.new _ _ _ (by exact hl.of_eq rfl) rfl (.inl rfl) hnok h
      obtain ⟨u', h5, h6⟩ := finish h2 h3
      exact ⟨_, pre, rd, post, u', r', .inl ⟨l, rfl, rfl⟩, by rw [← arrayRounds_eq]; exact h1, h5, h6, h4⟩
  | obj m =>
      unfold hEach at h
      rw [withArity_one hv, get_one hv] at h
      simp only at h
      rw [runs_pushScope] at h
      obtain ⟨pre, rd, post, u, r', h1, h2, h3, h4⟩ :=
        each_object_fails hr n s.scopes m 0 Scope.new _ _ _ (by exact hl.of_eq rfl) rfl (.inl rfl) hnok h
      obtain ⟨u', h5, h6⟩ := finish h2 h3
      exact ⟨_, pre, rd, post, u', r', .inr ⟨m, rfl, rfl⟩, by rw [← objectRounds_eq]; exact h1, h5, h6, h4⟩
  | _ =>
      obtain ⟨rfl, _⟩ := (C17_other E ctx _ hv (by simp) (by simp) n s t r).1 h
      cases hnok

/-- C18: `with` fails exactly as its content. -/
theorem C18_fails (E : Env) (ctx : Ctx) (v : Value) (hv : ctx.args = [v]) (hn : v ≠ .null)
    (n : Node) (s t : RS) (r : Res (Option Value)) (hnok : r.isOk = false) :
    RunsHelper E (hWith ctx (some n)) s r t ↔
      ∃ r', Templates E n { s with scopes := ⟨some v, []⟩ :: s.scopes } r' t ∧ passOn r' = some r := by
  have e : hWith ctx (some n) = .pushScope Scope.new (.scopeMut (Scope.setBase v) fun _ => .tmpl n (.popScope fun _ => .ret none)) := by
    unfold hWith
    rw [withArity_one hv, get_one hv]
    cases v with
    | null => exact absurd rfl hn
    | _ => rfl
  rw [e, runs_pushScope, runs_scopeMut rfl, runs_tmpl]
  constructor
  · rintro (⟨u, h1, h2⟩ | h)
    · obtain ⟨rfl, _⟩ := runs_ret.1 (runs_popScope.1 h2)
      cases hnok
    · exact h
  · exact .inr

/-! ### C31 -/

/-- C31: whatever the inner template does, rendering it to a buffer changes nothing of the renderer
but the log; the text is what rendering it in the same scopes and calls to a string gives. -/
theorem C31_buffer (S : Sem) (E : Env) (node : Node) (s : RS) :
    (∃ logs trace, (buffer S E node s).2 = { s with logs, trace }) ∧
    ∀ txt t, buffer S E node s = (.ok txt, t) →
      ∃ i, template S { E with sink := stringSink } node
        { RS.init s.stack with scopes := s.scopes, logs := s.logs, trace := s.trace } = (.ok (), i) ∧ txt = outText i.out := by
  rw [buffer_eq]
  refine ⟨⟨_, _, nested_state _ _ _⟩, ?_⟩
  intro txt t h
  unfold nested at h
  generalize hx : template S { E with sink := stringSink } node _ = x at h
  obtain ⟨r, i⟩ := x
  cases r with
  | ok a => cases h; exact ⟨i, rfl, rfl⟩
  | _ => cases h

/-- C31: the same for a template compiled and rendered on the fly, which gets fresh scopes and data. -/
theorem C31_once (S : Sem) (E : Env) (file content : Str) (data : Value) (s : RS) :
    (∃ logs trace, (once S E file content data s).2 = { s with logs, trace }) ∧
    ∀ txt t, once S E file content data s = (.ok (.ok txt), t) →
      ∃ doc i, compile content ⟨file, 0, 0⟩ = .ok doc ∧
        renderAll S { E with name := file, root := data, sink := stringSink } doc
          { RS.init s.stack with logs := s.logs, trace := s.trace } = (.ok (), i) ∧ txt = outText i.out := by
  unfold once
  rw [RM.bind_def]
  simp only [RM.get]
  cases hc : compile content ⟨file, 0, 0⟩ with
  | ok doc =>
      simp only
      unfold RM.catchErr
      generalize hx : nested _ _ s = x
      have hs := nested_state (RS.init s.stack) (renderAll S { E with name := file, root := data, sink := stringSink } doc) s
      rw [hx] at hs
      obtain ⟨r, i⟩ := x
      simp only at hs
      constructor
      · cases r <;> exact ⟨_, _, hs⟩
      · intro txt t h
        cases r with
        | ok a =>
            cases h
            unfold nested at hx
            generalize hy : renderAll S _ doc _ = y at hx
            obtain ⟨r, j⟩ := y
            cases r with
            | ok a => cases hx; exact ⟨doc, j, rfl, hy, rfl⟩
            | _ => cases hx
        | _ => cases h
  | err e => exact ⟨⟨_, _, rfl⟩, fun txt t h => by cases h⟩
  | panic => exact ⟨⟨_, _, rfl⟩, fun txt t h => by cases h⟩
  | fuel => exact ⟨⟨_, _, rfl⟩, fun txt t h => by cases h⟩

/-! ### C16: failures -/

theorem inverseLoop_fails {E : Env} : ∀ (cs : List Node) (alt : Option Node) (s t : RS) (r : Res (Option Node)),
    r.isOk = false → Eval (fun n => inverseLoop (sem n) E cs alt) s r t →
      ∃ pre post n c u r', cs = pre ++ n :: post ∧ AllFalse E pre s u ∧ condition n = some c ∧ Calls E c u r' t ∧
        failOf r' = some r := by
  intro cs
  induction cs with
  | nil =>
      intro alt s t r hr h
      obtain ⟨rfl, _⟩ := Spec.Eval.pure.1 (show Eval (fun _ => (pure alt : RM (Option Node))) s r t from h)
      cases hr
  | cons c cs ih =>
      intro alt s t r hr h
      have skip : ∀ alt', condition c = none → Eval (fun n => inverseLoop (sem n) E cs alt') s r t →
          ∃ pre post n c' u r', c :: cs = pre ++ n :: post ∧ AllFalse E pre s u ∧ condition n = some c' ∧ Calls E c' u r' t ∧
            failOf r' = some r := by
        intro alt' hc h
        obtain ⟨pre, post, n, c', u, r', h1, h2, h3⟩ := ih alt' s t r hr h
        exact ⟨c :: pre, post, n, c', u, r', by rw [h1]; rfl, .skip hc h2, h3⟩
      cases c with
      | block c =>
          by_cases hc : c.call.isEmpty = true
          · unfold inverseLoop at h
            simp only [if_pos hc] at h
            exact skip _ (by simp [condition, hc]) h
          · unfold inverseLoop at h
            simp only [if_neg hc] at h
            have hcond : condition (.block c) = some c.call := by simp [condition, hc]
            have go : ∀ {v u}, Calls E c.call s (.ok v) u → (∀ x, v = some x → isTruthy x = false) →
                Eval (fun n => inverseLoop (sem n) E cs alt) u r t →
                ∃ pre post n c' u r', Node.block c :: cs = pre ++ n :: post ∧ AllFalse E pre s u ∧ condition n = some c' ∧
                  Calls E c' u r' t ∧ failOf r' = some r := by
              intro v u h1 hv h2
              obtain ⟨pre, post, n, c', u', r', e1, e2, e3⟩ := ih alt u t r hr h2
              exact ⟨_ :: pre, post, n, c', u', r', by rw [e1]; rfl, .cond hcond h1 hv e2, e3⟩
            rcases Spec.Eval.bind_inv h with ⟨v, u, h1, h2⟩ | ⟨r', h1, h2, h3⟩
            · cases v with
              | none => exact go h1 (by simp) h2
              | some v =>
                  simp only at h2
                  by_cases hv : isTruthy v = true
                  · simp only [if_pos hv] at h2
                    obtain ⟨rfl, _⟩ := Spec.Eval.pure.1 h2
                    cases hr
                  · simp only [if_neg hv] at h2
                    exact go h1 (by simpa using hv) h2
            · refine ⟨[], cs, _, c.call, s, r', rfl, .nil _, hcond, h1, ?_⟩
              cases r' with
              | ok a => cases h2
              | err e => rw [h3]; rfl
              | panic => rw [h3]; rfl
              | fuel => exact absurd rfl h1.1
      | _ => exact skip alt rfl h

/-- C16: a conditional fails exactly when a condition it must evaluate fails, or the content it chose. -/
theorem C16_fails (E : Env) (ctx : Ctx) (v : Value) (hv : ctx.args = [v]) (b : Block) (s t : RS) (r : Res (Option Value))
    (hnok : r.isOk = false) (h : RunsHelper E (hIf ctx (some (.block b))) s r t) :
    (isTruthy v = true ∧ ∃ r', Templates E (.block b) s r' t ∧ passOn r' = some r) ∨
    (isTruthy v = false ∧ ∃ n u r', Chooses E b.conditionals s (some n) u ∧ Templates E n u r' t ∧ passOn r' = some r) ∨
    (isTruthy v = false ∧ ∃ pre post n c u r', b.conditionals = pre ++ n :: post ∧ AllFalse E pre s u ∧
      condition n = some c ∧ Calls E c u r' t ∧ passOn r' = some r) := by
  unfold hIf at h
  rw [withArity_one hv, get_one hv] at h
  simp only at h
  cases ht : isTruthy v with
  | true =>
      rw [if_pos ht, runs_tmpl] at h
      rcases h with ⟨u, _, h2⟩ | ⟨r', h1, h2⟩
      · obtain ⟨rfl, _⟩ := runs_ret.1 h2; cases hnok
      · exact .inl ⟨rfl, r', h1, by cases r' <;> exact h2⟩
  | false =>
      rw [if_neg (by simp [ht])] at h
      change Eval (fun m => RM.catchErr (inverse (sem m) E (.block b)) fun y => run (sem m) E _) s r t at h
      rw [Spec.Eval.catchErr_iff (mono_inverse E _) fun a => mono_run E _] at h
      rcases h with ⟨o, u, h1, h2⟩ | ⟨e, u, h1, h2⟩ | ⟨h1, rfl⟩
      · rw [inverse_iff] at h1
        cases o with
        | none => obtain ⟨rfl, _⟩ := runs_ret.1 h2; cases hnok
        | some n =>
            rcases runs_tmpl.1 h2 with ⟨u', _, h4⟩ | ⟨r', h3, h4⟩
            · obtain ⟨rfl, _⟩ := runs_ret.1 h4; cases hnok
            · exact .inr (.inl ⟨rfl, n, u, r', h1, h3, by cases r' <;> exact h4⟩)
      · obtain ⟨pre, post, n, c, u', r', e1, e2, e3, e4, e5⟩ := inverseLoop_fails _ _ _ _ _ rfl h1
        obtain ⟨rfl, rfl⟩ := runs_fail.1 h2
        refine .inr (.inr ⟨rfl, pre, post, n, c, u', r', e1, e2, e3, e4, ?_⟩)
        cases r' <;> cases e5
        rfl
      · obtain ⟨pre, post, n, c, u', r', e1, e2, e3, e4, e5⟩ := inverseLoop_fails _ _ _ _ _ rfl h1
        refine .inr (.inr ⟨rfl, pre, post, n, c, u', r', e1, e2, e3, e4, ?_⟩)
        cases r' <;> cases e5
        rfl

/-- The helpers the theorems above are about are those a new registry has under these names. -/
theorem C16_registered : assoc c!"if" Reg.new.helpers = some hIf ∧ assoc c!"unless" Reg.new.helpers = some hUnless ∧
    assoc c!"each" Reg.new.helpers = some hEach ∧ assoc c!"with" Reg.new.helpers = some hWith := ⟨rfl, rfl, rfl, rfl⟩

end

/-! ### Concrete cases -/

section Witness
attribute [local instance] exHost

def exLists : Value := .obj [(c!"a", .bool false), (c!"b", .num (.posInt 1)),
  (c!"l", .arr [.str c!"p", .str c!"q"]), (c!"o", .obj [(c!"k", .str c!"v"), (c!"m", .null)])]

-- C16: the clause of the first condition that holds; else the last `else`; else nothing
example : Ex.render Reg.new c!"{{#if a}}1{{else if b}}2{{else if (lookup b b)}}3{{else}}4{{/if}}" exLists = some (.ok, c!"2") := by
  decide +kernel
example : Ex.render Reg.new c!"{{#if a}}1{{else if c}}2{{else}}3{{else}}4{{/if}}" exLists = some (.ok, c!"4") := by decide +kernel
example : Ex.render Reg.new c!"{{#unless b}}1{{else if a}}2{{/unless}}|{{#unless a}}3{{/unless}}{{if b}}" exLists =
    some (.ok, c!"|3true") := by decide +kernel
-- a failing condition
example : Ex.render Reg.new c!"{{#if a}}1{{else if (eq a)}}2{{else}}4{{/if}}" exLists = some (.helper, []) := by decide +kernel
-- C17
example : Ex.render Reg.new c!"{{#each l}}{{@index}}{{@first}}{{@last}}{{this}} {{/each}}" exLists =
    some (.ok, c!"0truefalsep 1falsetrueq ") := by decide +kernel
example : Ex.render Reg.new c!"{{#each o}}{{@key}}{{@index}}{{@last}}{{this}} {{/each}}{{#each b}}x{{/each}}" exLists =
    some (.ok, c!"k0falsev m1truenull ") := by decide +kernel
-- C18
example : Ex.render Reg.new c!"{{#with o}}{{k}}{{this.m}}{{b}}{{/with}}{{k}}{{#with o.m}}x{{/with}}" exLists =
    some (.ok, c!"vnull1") := by decide +kernel
-- C17, C18, C31: the registry is balanced, and a renderer has no local helpers at first
example : BalancedReg Reg.new ∧ LocalsBalanced (RS.init []) :=
  ⟨balancedReg_new, fun n h e => by simp [RS.init, assoc] at e⟩
-- C34: the tags of a block
example : ∃ b, Ex.block c!"{{#if x~}} a {{x}} b {{~/if}}" = some b ∧ (Node.block b).trim = some ⟨false, true⟩ ∧
    b.trimClose = some ⟨true, false⟩ := by
  obtain ⟨b, h1, h2⟩ := Ex.any (o := Ex.block c!"{{#if x~}} a {{x}} b {{~/if}}")
    (p := fun b => (Node.block b).trim == some ⟨false, true⟩ && b.trimClose == some ⟨true, false⟩) (by decide +kernel)
  simp only [Bool.and_eq_true, beq_iff_eq] at h2
  exact ⟨b, h1, h2⟩
example : Ex.render Reg.new c!"{{#if x~}} a {{x}} b {{~/if}} c" exData = some (.ok, c!"a &lt; b c") := by decide +kernel
end Witness

end Bracket.Props
