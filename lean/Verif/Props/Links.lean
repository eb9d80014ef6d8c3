import Verif.Lemmas.CoreExpr
import Verif.Props.Roundtrip
import Verif.Lemmas.Examples

/-! C42: links. -/

set_option linter.unusedSectionVars false
set_option linter.unusedSimpArgs false

namespace Bracket.Props
open Bracket Re Spec

section
variable [Host]

/-- **C42**: a link compiles to its three fields, with `\n` read as a newline and `\|` and `\]` as the
character; a missing label or title is empty.  (An empty label or
title that is not missing is excluded: see `C42_violated`.) -/
theorem C42_fields_partial (href : Str) (label title : Option Str) (h1 : fieldOk href = true) (h2 : optFieldOk label = true)
    (h3 : optFieldOk title = true) (h4 : label.isSome ∨ title = none) (o : ParserOptions) :
    ∃ l, compile (linkText false href label title) o = .ok (.document (linkText false href label title) [.link l]) ∧
      l.asStr = some (linkText false href label title) ∧ l.isEscaped = some false ∧
      l.hrefStr = some (fieldValue href) ∧ l.labelStr = some (fieldValue (label.getD [])) ∧
      l.titleStr = some (fieldValue (title.getD [])) := by
  have hok : (STm.link false href label title .nil).ok [] = true := by
    have : (label.isSome || title.isNone) = true := by rcases h4 with h | rfl <;> simp [*]
    simp [STm.ok, h1, h2, h3, this]
  have hsrc : (STm.link false href label title .nil).src = linkText false href label title := by simp [STm.src]
  obtain ⟨ns, g1, g2⟩ := C56_roundtrip _ o hok
  rw [hsrc] at g1
  cases g2 with
  | link a b c d e hr => cases hr; exact ⟨_, g1, a, b, c, d, e⟩

/-- **C42**: rendering a link calls the link handler with exactly the three fields as its arguments and
nothing else; what the handler writes is what is written. -/
theorem C42_handler (E : Env) (g : HelperFn) (hg : E.reg.link = some g) (l : Link) (href label title : Str)
    (he : l.isEscaped = some false) (h1 : l.hrefStr = some href) (h2 : l.labelStr = some label) (h3 : l.titleStr = some title)
    (trim : TrimState) (s : RS) :
    ∃ s0 ctx, Quiet s s0 ∧ s0.out = s.out ∧
      ctx.args = [.str href, .str label, .str title] ∧ ctx.params = [] ∧ ctx.name = c!"link" ∧ ctx.text = none ∧
      ctx.property = none ∧ ctx.missing = [] ∧
      (32 ≤ depth s c!"link" none → Renders E (.link l) trim s (.err (.helperCycle c!"link")) s0) ∧
      (depth s c!"link" none < 32 → ∀ r t1, RunsHelper E (g ctx none) (entered s0 (.helper c!"link")) r t1 →
        ∃ t, Renders E (.link l) trim s (dropValue r) t ∧ t.out = t1.out ∧ t.scopes = t1.scopes ∧ t.locals = t1.locals) := by
  obtain ⟨c, hc, hargs, hparams⟩ : ∃ c, linkCall l = some c ∧
      c.args = [.json l.src (.str href) l.hrefSpan l.line, .json l.src (.str label) l.labelSpan l.line,
        .json l.src (.str title) l.titleSpan l.line] ∧ c.params = [] := by
    refine ⟨linkArgs l href label title, ?_, ?_, ?_⟩
    · unfold linkCall
      rw [h1, h2, h3]
      rfl
    · rfl
    · rfl
  have hk : ∀ n s, renderKind (sem n) E (.link l) s =
      (invoke (sem n) E nmLink (.handler g) c none none none >>= fun _ => (Pure.pure () : RM Unit)) s := by
    intro n s
    unfold renderKind
    simp only [hg]
    rw [orPanic_bind he]
    show (RM.orPanic (linkCall l) >>= fun c => _) s = _
    rw [orPanic_bind hc]
  have hb : ∀ n s, invokeBody (sem n) E nmLink (.handler g) c none none none s =
      run (sem n) E (g (linkCtx c href label title) none) s := by
    intro n s
    unfold invokeBody
    rw [hargs, hparams]
    rfl
  refine ⟨begin_ s trim ⟨false, false⟩, linkCtx c href label title, ⟨rfl, rfl, rfl, rfl, rfl, rfl, rfl⟩, rfl, rfl, rfl, rfl, rfl, rfl, rfl, ?_, ?_⟩
  · intro hd
    rw [renders_kind (h := ⟨false, false⟩) rfl]
    refine ⟨by simp, 0, ?_⟩
    show renderKind (sem 0) E (.link l) _ = _
    rw [hk, RM.bind_def, invoke_eq, depth_eq, if_pos (show depth (begin_ s trim ⟨false, false⟩) nmLink none ≥ stackMax from hd)]
    rfl
  · intro hd r t1 hr
    have hr := (Spec.Eval.congr (fun n => (hb n _).symm)).mp hr
    have hi := eval_invoke (s := begin_ s trim ⟨false, false⟩) (name := nmLink) (content := none) hd hr
    refine ⟨afterCall r t1, ?_, ?_⟩
    · rw [renders_kind (h := ⟨false, false⟩) rfl, Spec.Eval.congr (fun n => hk n _)]
      obtain ⟨h0, n, hn⟩ := hi
      refine ⟨by cases r <;> simp [dropValue] at h0 ⊢, n, ?_⟩
      simp only at hn ⊢
      rw [RM.bind_def, hn]
      cases r <;> rfl
    · unfold afterCall
      cases r <;> exact ⟨rfl, rfl, rfl⟩

end

/-! ### Examples -/

attribute [local instance] exHost

/-- A handler that writes its three arguments. -/
def exLink : HelperFn := fun c _ => .write ((c.args.map stringify).flatMap fun s => s ++ c!";") fun _ => .ret none

example : Ex.render { Reg.new with link := some exLink } c!"[[a b|c]]." .null stringSink = some (.ok, c!"a b;c;;.") := by
  decide +kernel

/-- Escapes in the fields; those of one field have no effect on another. -/
example : fieldOk c!"a\\|b\\n" = true ∧ fieldOk c!"c\\]" = true ∧ fieldValue c!"a\\|b\\n" = c!"a|b\n" ∧ fieldValue c!"c\\]" = c!"c]" ∧
    Ex.render { Reg.new with link := some exLink } c!"[[a\\|b\\n|c\\]|t]]" .null stringSink = some (.ok, c!"a|b\n;c];t;") := by
  decide +kernel

/-- Without a handler the link is written as it stands. -/
example : Ex.render Reg.new c!"[[a b|c]]." .null stringSink = some (.ok, c!"[[a b|c]].") := by decide +kernel

/-- **C42 does not hold as stated**: an empty label or title makes the call with the three fields panic. -/
theorem C42_violated :
    Ex.render { Reg.new with link := some exLink } c!"[[foo|]]" .null stringSink = some (.panic, []) ∧
    Ex.render { Reg.new with link := some exLink } c!"[[foo|bar|]]" .null stringSink = some (.panic, []) := by
  constructor <;> decide +kernel

end Bracket.Props
