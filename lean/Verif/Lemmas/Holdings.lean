import Verif.Spec.Holdings
import Verif.Lemmas.Mono

/-! A render reads the registry only by looking names up. -/

set_option linter.unusedSectionVars false

namespace Bracket

open Spec

section
variable [Host]

/-- The recursive entry points do not tell the two registries apart. -/
structure SemSame (r r' : Reg) (S : Sem) : Prop where
  node : ∀ a b c, S.renderNode ⟨r, a, b, c⟩ = S.renderNode ⟨r', a, b, c⟩
  stmt : ∀ a b c, S.statement ⟨r, a, b, c⟩ = S.statement ⟨r', a, b, c⟩
  call : ∀ a b c, S.call ⟨r, a, b, c⟩ = S.call ⟨r', a, b, c⟩

variable {r r' : Reg} {S : Sem} (hr : HoldSame r r') (hS : SemSame r r' S)
  (a : Str) (b : Value) (c : Sink)
include hr hS

theorem same_writeStr : writeStr ⟨r, a, b, c⟩ = writeStr ⟨r', a, b, c⟩ := by
  funext s e
  unfold writeStr rawWrite
  simp only [hr.escape]

theorem same_renderAll : renderAll S ⟨r, a, b, c⟩ = renderAll S ⟨r', a, b, c⟩ := by
  funext n
  unfold renderAll
  rw [hS.node]

theorem same_template : template S ⟨r, a, b, c⟩ = template S ⟨r', a, b, c⟩ := by
  have h : templateEvent S ⟨r, a, b, c⟩ = templateEvent S ⟨r', a, b, c⟩ := by
    funext n ev
    unfold templateEvent
    rw [hS.node]
  funext n
  unfold template
  rw [h]

theorem same_inverse : inverse S ⟨r, a, b, c⟩ = inverse S ⟨r', a, b, c⟩ := by
  have h : ∀ ns alt, inverseLoop S ⟨r, a, b, c⟩ ns alt = inverseLoop S ⟨r', a, b, c⟩ ns alt := by
    intro ns
    induction ns with
    | nil => intro alt; rfl
    | cons n ns ih =>
      intro alt
      cases n <;> simp only [inverseLoop, hS.call, ih]
  funext n
  unfold inverse
  cases n <;> simp only [h]

theorem same_buffer : buffer S ⟨r, a, b, c⟩ = buffer S ⟨r', a, b, c⟩ := by
  funext n
  unfold buffer
  simp only [same_template hr hS a b stringSink]

theorem same_once : once S ⟨r, a, b, c⟩ = once S ⟨r', a, b, c⟩ := by
  funext f t d
  unfold once
  simp only [same_renderAll hr hS f d stringSink]

theorem same_view (s : RS) : view ⟨r, a, b, c⟩ s = view ⟨r', a, b, c⟩ s := by
  have h : (fun n => assoc n r.templates) = (fun n => assoc n r'.templates) := by
    funext n
    exact hr.templates n
  unfold view currentName
  simp only [h, hr.escape]

theorem same_run (p : Prog) : run S ⟨r, a, b, c⟩ p = run S ⟨r', a, b, c⟩ p := by
  induction p with
  | ret v => rfl
  | fail e => rfl
  | panic => rfl
  | write s k ih => simp only [run, same_writeStr hr hS a b c, ih]
  | writeEscaped s k ih => simp only [run, same_writeStr hr hS a b c, ih]
  | outWrite s k ih => simp only [run, ih]; rfl
  | template n k ih => simp only [run, same_template hr hS a b c, ih]
  | render n k ih => simp only [run, same_renderAll hr hS a b c, ih]
  | inverse n k ih => simp only [run, same_inverse hr hS a b c, ih]
  | buffer n k ih => simp only [run, same_buffer hr hS a b c, ih]
  | once f t d k ih => simp only [run, same_once hr hS a b c, ih]
  | evaluate p k ih => simp only [run, ih]; rfl
  | pushScope sc k ih => simp only [run, ih]
  | popScope k ih => simp only [run, ih]
  | scopeMut f k ih => simp only [run, ih]
  | registerLocal n h k _ ih => simp only [run, ih]
  | unregisterLocal n k ih => simp only [run, ih]
  | peek k ih => simp only [run, ih, same_view hr hS a b c]
  | log l t k ih => simp only [run, ih]

theorem same_paramM : paramM S ⟨r, a, b, c⟩ = paramM S ⟨r', a, b, c⟩ := by
  funext p
  cases p with
  | json _ _ _ _ => rfl
  | path p => rfl
  | subExpr x => simp only [paramM, hS.stmt]

theorem same_args (i : Nat) (ps : List ParamValue) (ms : List Missing) :
    argumentsLoop S ⟨r, a, b, c⟩ i ps ms = argumentsLoop S ⟨r', a, b, c⟩ i ps ms := by
  induction ps generalizing i ms with
  | nil => rfl
  | cons p ps ih => simp only [argumentsLoop, same_paramM hr hS a b c, ih]

theorem same_hash (ps : List (Str × ParamValue)) (out : List (Str × Value)) (ms : List Missing) :
    hashLoop S ⟨r, a, b, c⟩ ps out ms = hashLoop S ⟨r', a, b, c⟩ ps out ms := by
  induction ps generalizing out ms with
  | nil => rfl
  | cons p ps ih =>
    obtain ⟨k, p⟩ := p
    simp only [hashLoop, same_paramM hr hS a b c, ih]

theorem same_hasHelper (s : RS) (n : Str) :
    hasHelper ⟨r, a, b, c⟩ s n = hasHelper ⟨r', a, b, c⟩ s n := by
  simp only [hasHelper, hr.helpers]

theorem same_runTarget : runTarget S ⟨r, a, b, c⟩ = runTarget S ⟨r', a, b, c⟩ := by
  funext n t x o l
  cases t <;> simp only [runTarget, hr.helpers, same_run hr hS a b c]

theorem same_invoke : invoke S ⟨r, a, b, c⟩ = invoke S ⟨r', a, b, c⟩ := by
  funext n t x o l p
  unfold invoke
  simp only [same_args hr hS a b c, same_hash hr hS a b c, same_runTarget hr hS a b c]

theorem same_callF : callF S ⟨r, a, b, c⟩ = callF S ⟨r', a, b, c⟩ := by
  funext x
  have hl : ∀ p, lookupM ⟨r, a, b, c⟩ p = lookupM ⟨r', a, b, c⟩ p := fun _ => rfl
  unfold callF
  simp only [same_invoke hr hS a b c, same_hasHelper hr hS a b c, hS.call, hr.helperMissing, hr.strict, hl]

theorem same_partialName : partialName S ⟨r, a, b, c⟩ = partialName S ⟨r', a, b, c⟩ := by
  funext x
  unfold partialName
  simp only [hS.stmt]

theorem same_findPartial : findPartial ⟨r, a, b, c⟩ = findPartial ⟨r', a, b, c⟩ := by
  funext n
  have h : assoc n r.templates = assoc n r'.templates := hr.templates n
  unfold findPartial
  simp only [h]

theorem same_renderPartial : renderPartial S ⟨r, a, b, c⟩ = renderPartial S ⟨r', a, b, c⟩ := by
  funext x o
  unfold renderPartial partialScope
  simp only [same_partialName hr hS a b c, same_findPartial hr hS a b c, same_hash hr hS a b c,
    same_args hr hS a b c, hS.node]

theorem same_statementF : statementF S ⟨r, a, b, c⟩ = statementF S ⟨r', a, b, c⟩ := by
  funext x
  unfold statementF
  simp only [same_renderPartial hr hS a b c, hS.call]

theorem same_blockHelperMissing :
    blockHelperMissing S ⟨r, a, b, c⟩ = blockHelperMissing S ⟨r', a, b, c⟩ := by
  funext n x p t raw
  have hl : ∀ p, lookupM ⟨r, a, b, c⟩ p = lookupM ⟨r', a, b, c⟩ p := fun _ => rfl
  unfold blockHelperMissing templateQ
  simp only [same_writeStr hr hS a b c, same_invoke hr hS a b c, same_template hr hS a b c,
    hr.blockHelperMissing, hr.helperMissing, hr.strict, hl]

theorem same_blockF : blockF S ⟨r, a, b, c⟩ = blockF S ⟨r', a, b, c⟩ := by
  funext x
  unfold blockF
  simp only [same_renderPartial hr hS a b c, same_invoke hr hS a b c, same_hasHelper hr hS a b c,
    same_blockHelperMissing hr hS a b c]

theorem same_renderKind : renderKind S ⟨r, a, b, c⟩ = renderKind S ⟨r', a, b, c⟩ := by
  funext x
  cases x <;> simp only [renderKind, same_writeStr hr hS a b c, same_invoke hr hS a b c, hr.link,
    hS.stmt, same_blockF hr hS a b c]

theorem same_renderNodeF : renderNodeF S ⟨r, a, b, c⟩ = renderNodeF S ⟨r', a, b, c⟩ := by
  funext x t
  unfold renderNodeF
  simp only [same_renderKind hr hS a b c]

omit hS in
theorem same_sem (n : Nat) : SemSame r r' (sem n) := by
  induction n with
  | zero => exact ⟨fun _ _ _ => rfl, fun _ _ _ => rfl, fun _ _ _ => rfl⟩
  | succ n ih =>
    exact ⟨same_renderNodeF hr ih, same_statementF hr ih, same_callF hr ih⟩

omit hS in
theorem same_renderTo (n : Nat) (sink : Sink) (name : Str) (doc : Node) (data : Value) :
    renderTo n r sink name doc data = renderTo n r' sink name doc data := by
  unfold renderTo
  rw [same_renderAll hr (same_sem hr n)]

end

end Bracket
