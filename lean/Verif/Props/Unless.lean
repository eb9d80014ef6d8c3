import Verif.Props.Blocks

/-! C16: how `unless` fails, and `unless` used as a value. -/

set_option linter.unusedSectionVars false

namespace Bracket.Props
open Spec

section
variable [Host]

/-- C16: `unless` fails exactly when a condition it must evaluate fails, or the content it chose. -/
theorem C16_unless_fails (E : Env) (ctx : Ctx) (v : Value) (hv : ctx.args = [v]) (b : Block) (s t : RS) (r : Res (Option Value))
    (hnok : r.isOk = false) (h : RunsHelper E (hUnless ctx (some (.block b))) s r t) :
    (isTruthy v = false ∧ ∃ r', Templates E (.block b) s r' t ∧ passOn r' = some r) ∨
    (isTruthy v = true ∧ ∃ n u r', Chooses E b.conditionals s (some n) u ∧ Templates E n u r' t ∧ passOn r' = some r) ∨
    (isTruthy v = true ∧ ∃ pre post n c u r', b.conditionals = pre ++ n :: post ∧ AllFalse E pre s u ∧
      condition n = some c ∧ Calls E c u r' t ∧ passOn r' = some r) := by
  unfold hUnless at h
  rw [withArity_one hv, get_one hv] at h
  simp only at h
  cases ht : isTruthy v with
  | false =>
      rw [if_pos (by simp [ht]), runs_tmpl] at h
      rcases h with ⟨u, _, h2⟩ | ⟨r', h1, h2⟩
      · obtain ⟨rfl, _⟩ := runs_ret.1 h2; cases hnok
      · exact .inl ⟨rfl, r', h1, by cases r' <;> exact h2⟩
  | true =>
      rw [if_neg (by simp [ht])] at h
      change Eval (fun m => RM.catchErr (inverse (sem m) E (.block b)) fun y => run (sem m) E _) s r t at h
      rw [Spec.Eval.catchErr_iff (mono_inverse E _) fun a => mono_run E _] at h
      rcases h with ⟨o, u, h1, h2⟩ | ⟨e, u, h1, h2⟩ | ⟨h1, rfl⟩
      · rw [inverse_iff] at h1
        cases o with
        | none => obtain ⟨rfl, _⟩ := runs_ret.1 h2; cases hnok
        | some n =>
            rcases runs_tmpl.1 h2 with ⟨u', _, h4⟩ | ⟨r', h3, h4⟩
            · obtain ⟨rfl, _⟩ := runs_ret.1 h4; cases hnok
            · exact .inr (.inl ⟨rfl, n, u, r', h1, h3, by cases r' <;> exact h4⟩)
      · obtain ⟨pre, post, n, c, u', r', e1, e2, e3, e4, e5⟩ := inverseLoop_fails _ _ _ _ _ rfl h1
        obtain ⟨rfl, rfl⟩ := runs_fail.1 h2
        refine .inr (.inr ⟨rfl, pre, post, n, c, u', r', e1, e2, e3, e4, ?_⟩)
        cases r' <;> cases e5
        rfl
      · obtain ⟨pre, post, n, c, u', r', e1, e2, e3, e4, e5⟩ := inverseLoop_fails _ _ _ _ _ rfl h1
        refine .inr (.inr ⟨rfl, pre, post, n, c, u', r', e1, e2, e3, e4, ?_⟩)
        cases r' <;> cases e5
        rfl

/-- C16: `unless` used as a value has none, whatever its argument (unlike `if`). -/
theorem C16_unless_value (E : Env) (ctx : Ctx) (v : Value) (hv : ctx.args = [v]) (s t : RS) (r : Res (Option Value)) :
    RunsHelper E (hUnless ctx none) s r t ↔ r = .ok none ∧ t = s := by
  unfold hUnless
  rw [withArity_one hv]
  exact runs_ret

end
end Bracket.Props
