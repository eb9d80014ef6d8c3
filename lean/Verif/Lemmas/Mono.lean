import Verif.Model.Registry

/-! Fuel monotonicity of the renderer: once a bounded run is not cut short, a larger bound gives
the same result and state. -/

set_option linter.unusedSectionVars false

namespace Bracket

/-- `m'` agrees with `m` wherever `m` is not cut short. -/
def RM.Le {α : Type} (m m' : RM α) : Prop := ∀ s, (m s).1 = .fuel ∨ m s = m' s

namespace RM

theorem bind_def {α β : Type} (m : RM α) (f : α → RM β) (s : RS) :
    (m >>= f) s = match m s with
      | (.ok a, s') => f a s'
      | (.err e, s') => (.err e, s')
      | (.panic, s') => (.panic, s')
      | (.fuel, s') => (.fuel, s') := rfl

theorem pure_def {α : Type} (a : α) (s : RS) : (pure a : RM α) s = (.ok a, s) := rfl

namespace Le

protected theorem refl {α : Type} (m : RM α) : Le m m := fun _ => .inr rfl

theorem outOfFuel {α : Type} (m : RM α) : Le RM.outOfFuel m := fun _ => .inl rfl

theorem bind {α β : Type} {m m' : RM α} {f f' : α → RM β} (h : Le m m') (hf : ∀ a, Le (f a) (f' a)) :
    Le (m >>= f) (m' >>= f') := by
  intro s
  rcases h s with h | h
  · left
    rw [bind_def]
    generalize m s = r at h
    obtain ⟨r, s'⟩ := r
    simp only at h
    subst h
    rfl
  · rw [bind_def, bind_def, ← h]
    rcases m s with ⟨r, s'⟩
    cases r with
    | ok a => exact hf a s'
    | err e => exact .inr rfl
    | panic => exact .inr rfl
    | fuel => exact .inl rfl

theorem catchErr {α β : Type} {m m' : RM α} {f f' : Except RenderErr α → RM β} (h : Le m m')
    (hf : ∀ a, Le (f a) (f' a)) : Le (RM.catchErr m f) (RM.catchErr m' f') := by
  intro s
  rcases h s with h | h
  · left
    unfold RM.catchErr
    generalize m s = r at h
    obtain ⟨r, s'⟩ := r
    simp only at h
    subst h
    rfl
  · unfold RM.catchErr
    rw [← h]
    rcases m s with ⟨r, s'⟩
    cases r with
    | ok a => exact hf _ s'
    | err e => exact hf _ s'
    | panic => exact .inr rfl
    | fuel => exact .inl rfl

theorem nested {m m' : RM Unit} (i : RS) (h : Le m m') : Le (nested i m) (nested i m') := by
  intro s
  unfold Bracket.nested
  rcases h { i with logs := s.logs, trace := s.trace } with h | h
  · left
    generalize m _ = r at h
    obtain ⟨r, s'⟩ := r
    simp only at h
    subst h
    rfl
  · right; rw [h]

theorem traced {α : Type} {m m' : RM α} (site : CallSite) (h : Le m m') :
    Le (traced site m) (traced site m') := by
  intro s
  unfold Bracket.traced
  rcases h { s with trace := s.trace ++ [.enter site] } with h | h
  · left; exact h
  · right; rw [h]

theorem ite {α : Type} {c : Prop} [Decidable c] {m m' k k' : RM α} (h : Le m m') (hk : Le k k') :
    Le (if c then m else k) (if c then m' else k') := by
  split <;> assumption

end Le
end RM

open RM

/-- Pointwise order of the recursive entry points. -/
structure SemLe (S S' : Sem) : Prop where
  renderNode : ∀ E n t, Le (S.renderNode E n t) (S'.renderNode E n t)
  statement : ∀ E c, Le (S.statement E c) (S'.statement E c)
  call : ∀ E c, Le (S.call E c) (S'.call E c)

section
variable [Host] {S S' : Sem} (H : SemLe S S')
include H

theorem runEvents_le {f f' : Ev → RM Unit} (h : ∀ ev, Le (f ev) (f' ev)) :
    ∀ ns prev hint, Le (runEvents f ns prev hint) (runEvents f' ns prev hint) := by
  intro ns
  induction ns with
  | nil => intro _ _; exact Le.refl _
  | cons n rest ih =>
      intro prev hint
      unfold runEvents
      refine Le.bind (Le.refl _) fun stop => Le.bind (Le.refl _) fun cur => Le.bind (h _) fun _ => ih _ _

theorem renderAll_le (E : Env) (n : Node) : Le (renderAll S E n) (renderAll S' E n) :=
  runEvents_le H (fun ev => H.renderNode E ev.node ev.trim) _ _ _

theorem template_le (E : Env) (n : Node) : Le (template S E n) (template S' E n) := by
  unfold template
  refine Le.bind (Le.refl _) fun s => Le.bind (runEvents_le H (fun ev => ?_) _ _ _) fun _ => Le.refl _
  exact Le.bind (Le.refl _) fun _ => Le.bind (Le.refl _) fun _ => H.renderNode _ _ _

theorem inverse_le (E : Env) (n : Node) : Le (inverse S E n) (inverse S' E n) := by
  unfold inverse
  cases n with
  | block b =>
      simp only
      suffices ∀ l alt, Le (inverseLoop S E l alt) (inverseLoop S' E l alt) from this _ _
      intro l
      induction l with
      | nil => intro alt; exact Le.refl _
      | cons x l ih =>
          intro alt
          cases x with
          | block c =>
              unfold inverseLoop
              refine Le.ite (ih _) (Le.bind (H.call _ _) fun v => ?_)
              cases v with
              | none => exact ih _
              | some v => exact Le.ite (Le.refl _) (ih _)
          | _ => unfold inverseLoop; exact ih _
  | _ => exact Le.refl _

theorem run_le (E : Env) (p : Prog) : Le (run S E p) (run S' E p) := by
  induction p with
  | ret v => exact Le.refl _
  | fail e => exact Le.refl _
  | panic => exact Le.refl _
  | write s k ih => unfold run; exact Le.catchErr (Le.refl _) fun r => ih _
  | writeEscaped s k ih => unfold run; exact Le.catchErr (Le.refl _) fun r => ih _
  | outWrite s k ih => unfold run; exact Le.bind (Le.refl _) fun r => ih _
  | template n k ih => unfold run; exact Le.catchErr (template_le H _ _) fun r => ih _
  | render n k ih => unfold run; exact Le.catchErr (renderAll_le H _ _) fun r => ih _
  | inverse n k ih => unfold run; exact Le.catchErr (inverse_le H _ _) fun r => ih _
  | buffer n k ih =>
      unfold run
      refine Le.catchErr ?_ fun r => ih _
      unfold buffer
      exact Le.bind (Le.refl _) fun s => Le.nested _ (template_le H _ _)
  | once f c d k ih =>
      unfold run
      refine Le.bind ?_ fun r => ih _
      unfold once
      refine Le.bind (Le.refl _) fun s => ?_
      cases compile c ⟨f, 0, 0⟩ with
      | ok doc => exact Le.catchErr (Le.nested _ (renderAll_le H _ _)) fun _ => Le.refl _
      | _ => exact Le.refl _
  | evaluate p k ih => unfold run; exact Le.bind (Le.refl _) fun r => ih _
  | pushScope sc k ih => unfold run; exact Le.bind (Le.refl _) fun _ => ih
  | popScope k ih => unfold run; exact Le.bind (Le.refl _) fun _ => Le.bind (Le.refl _) fun _ => ih _
  | scopeMut f k ih => unfold run; exact Le.bind (Le.refl _) fun _ => Le.bind (Le.refl _) fun _ => ih _
  | registerLocal n h k ih1 ih2 => unfold run; exact Le.bind (Le.refl _) fun _ => ih2
  | unregisterLocal n k ih => unfold run; exact Le.bind (Le.refl _) fun _ => ih
  | peek k ih => unfold run; exact Le.bind (Le.refl _) fun _ => ih _
  | log l m k ih => unfold run; exact Le.bind (Le.refl _) fun _ => ih

theorem paramM_le (E : Env) (p : ParamValue) : Le (paramM S E p) (paramM S' E p) := by
  unfold paramM
  cases p with
  | subExpr c => exact Le.bind (H.statement _ _) fun _ => Le.refl _
  | _ => exact Le.refl _

theorem argumentsLoop_le (E : Env) : ∀ ps i ms,
    Le (argumentsLoop S E i ps ms) (argumentsLoop S' E i ps ms) := by
  intro ps
  induction ps with
  | nil => intro i ms; exact Le.refl _
  | cons p ps ih =>
      intro i ms
      exact Le.bind (paramM_le H _ _) fun x => Le.bind (ih _ _) fun _ => Le.refl _

theorem hashLoop_le (E : Env) : ∀ ps out ms,
    Le (hashLoop S E ps out ms) (hashLoop S' E ps out ms) := by
  intro ps
  induction ps with
  | nil => intro i ms; exact Le.refl _
  | cons p ps ih =>
      intro i ms
      exact Le.bind (paramM_le H _ _) fun x => ih _ _

theorem runTarget_le (E : Env) (name : Str) (t : Target) (ctx : Ctx) (content : Option Node)
    (locals : List (Str × HelperFn)) :
    Le (runTarget S E name t ctx content locals) (runTarget S' E name t ctx content locals) := by
  unfold runTarget
  cases t with
  | name =>
      cases h : assoc name locals with
      | some h => exact run_le H _ _
      | none =>
          cases h : assoc name E.reg.helpers with
          | some h => exact run_le H _ _
          | none => exact Le.refl _
  | handler h => exact run_le H _ _

theorem invoke_le (E : Env) (name : Str) (t : Target) (c : Call) (content : Option Node)
    (text : Option Str) (prop : Option (Str × Value)) :
    Le (invoke S E name t c content text prop) (invoke S' E name t c content text prop) := by
  unfold invoke
  refine Le.bind (Le.refl _) fun s => Le.ite (Le.refl _) (Le.traced _ ?_)
  exact Le.bind (Le.refl _) fun _ => Le.bind (argumentsLoop_le H _ _ _ _) fun x =>
    Le.bind (hashLoop_le H _ _ _ _) fun y => Le.bind (Le.refl _) fun s =>
    Le.bind (runTarget_le H _ _ _ _ _ _) fun _ => Le.refl _

theorem callF_le (E : Env) (c : Call) : Le (callF S E c) (callF S' E c) := by
  unfold callF
  cases c.target with
  | path p =>
      simp only
      refine Le.ite (Le.refl _) (Le.ite ?_ (Le.refl _))
      refine Le.bind (Le.refl _) fun name => Le.bind (Le.refl _) fun s => Le.ite (invoke_le H _ _ _ _ _ _ _) ?_
      refine Le.bind (Le.refl _) fun v => ?_
      cases v with
      | some v => exact Le.refl _
      | none =>
          cases E.reg.helperMissing with
          | some h => exact invoke_le H _ _ _ _ _ _ _
          | none => exact Le.refl _
  | subExpr sub => exact H.call _ _

theorem partialName_le (E : Env) (c : Call) : Le (partialName S E c) (partialName S' E c) := by
  unfold partialName
  cases c.target with
  | path p => exact Le.refl _
  | subExpr sub => exact Le.bind (H.statement _ _) fun _ => Le.refl _

theorem renderPartial_le (E : Env) (c : Call) (pb : Option Node) :
    Le (renderPartial S E c pb) (renderPartial S' E c pb) := by
  unfold renderPartial
  refine Le.bind (partialName_le H _ _) fun name => Le.bind (Le.refl _) fun s =>
    Le.ite (Le.refl _) (Le.traced _ ?_)
  refine Le.bind (Le.refl _) fun _ => Le.bind (Le.refl _) fun node =>
    Le.bind ?_ fun scope => Le.bind (Le.refl _) fun _ =>
    Le.bind (Le.refl _) fun s => Le.bind (runEvents_le H (fun ev => H.renderNode _ _ _) _ _ _) fun _ =>
    Le.refl _
  exact Le.bind (hashLoop_le H _ _ _ _) fun x =>
    Le.ite (Le.refl _) (Le.bind (argumentsLoop_le H _ _ _ _) fun _ => Le.refl _)

theorem statementF_le (E : Env) (c : Call) : Le (statementF S E c) (statementF S' E c) := by
  unfold statementF
  exact Le.ite (Le.bind (renderPartial_le H _ _ _) fun _ => Le.refl _) (H.call _ _)

theorem templateQ_le (E : Env) (n : Node) : Le (templateQ S E n) (templateQ S' E n) :=
  Le.catchErr (template_le H _ _) fun _ => Le.refl _

theorem blockHelperMissing_le (E : Env) (node : Node) (c : Call) (p : Path) (text : Option Str)
    (raw : Bool) :
    Le (blockHelperMissing S E node c p text raw) (blockHelperMissing S' E node c p text raw) := by
  unfold blockHelperMissing
  refine Le.ite (Le.refl _) (Le.bind (Le.refl _) fun v => ?_)
  cases v with
  | some v =>
      cases E.reg.blockHelperMissing with
      | some h =>
          exact Le.bind (Le.refl _) fun _ => Le.bind (invoke_le H _ _ _ _ _ _ _) fun _ => Le.refl _
      | none => exact templateQ_le H _ _
  | none =>
      cases E.reg.helperMissing with
      | some h => exact Le.bind (invoke_le H _ _ _ _ _ _ _) fun _ => Le.refl _
      | none => exact Le.refl _

theorem blockF_le (E : Env) (b : Block) : Le (blockF S E b) (blockF S' E b) := by
  unfold blockF
  refine Le.ite (renderPartial_le H _ _ _) ?_
  cases b.call.target with
  | path p =>
      simp only
      refine Le.ite (Le.bind (Le.refl _) fun text => Le.bind (Le.refl _) fun name =>
        Le.bind (Le.refl _) fun s => Le.ite ?_ (blockHelperMissing_le H _ _ _ _ _ _)) (Le.refl _)
      exact Le.bind (invoke_le H _ _ _ _ _ _ _) fun _ => Le.refl _
  | subExpr _ => exact Le.refl _

theorem renderNodeF_le (E : Env) (n : Node) (t : TrimState) :
    Le (renderNodeF S E n t) (renderNodeF S' E n t) := by
  unfold renderNodeF
  refine Le.bind (Le.refl _) fun h => Le.bind (Le.refl _) fun _ => ?_
  unfold renderKind
  cases n with
  | link l =>
      simp only
      refine Le.bind (Le.refl _) fun esc => Le.ite (Le.refl _) ?_
      cases E.reg.link with
      | some h => exact Le.bind (Le.refl _) fun _ => Le.bind (invoke_le H _ _ _ _ _ _ _) fun _ => Le.refl _
      | none => exact Le.refl _
  | statement c => exact Le.bind (H.statement _ _) fun _ => Le.refl _
  | block b => exact blockF_le H _ _
  | _ => exact Le.refl _

theorem step_le : SemLe ⟨renderNodeF S, statementF S, callF S⟩ ⟨renderNodeF S', statementF S', callF S'⟩ :=
  ⟨renderNodeF_le H, statementF_le H, callF_le H⟩

end

theorem sem_succ_le [Host] (n : Nat) : SemLe (sem n) (sem (n + 1)) := by
  induction n with
  | zero => exact ⟨fun _ _ _ => Le.outOfFuel _, fun _ _ => Le.outOfFuel _, fun _ _ => Le.outOfFuel _⟩
  | succ n ih => exact step_le ih

theorem RM.Le.trans {α : Type} {a b c : RM α} (h : Le a b) (h' : Le b c) : Le a c := by
  intro s
  rcases h s with h | h
  · exact .inl h
  · rcases h' s with h' | h'
    · exact .inl (by rw [h]; exact h')
    · exact .inr (h.trans h')

theorem SemLe.trans {a b c : Sem} (h : SemLe a b) (h' : SemLe b c) : SemLe a c :=
  ⟨fun E n t => (h.renderNode E n t).trans (h'.renderNode E n t),
   fun E c => (h.statement E c).trans (h'.statement E c),
   fun E c => (h.call E c).trans (h'.call E c)⟩

theorem sem_le [Host] {n m : Nat} (h : n ≤ m) : SemLe (sem n) (sem m) := by
  induction h with
  | refl => exact ⟨fun _ _ _ => Le.refl _, fun _ _ => Le.refl _, fun _ _ => Le.refl _⟩
  | step _ ih => exact ih.trans (sem_succ_le _)

/-- A larger bound never changes a finished render. -/
theorem renderTo_stable [Host] {n m : Nat} (h : n ≤ m) {r : Reg} {sink : Sink} {name : Str} {doc : Node}
    {data : Value} (hf : (renderTo n r sink name doc data).1 ≠ .fuel) :
    renderTo m r sink name doc data = renderTo n r sink name doc data := by
  rcases renderAll_le (sem_le h) { reg := r, name, root := data, sink } doc (RS.init []) with h | h
  · exact absurd h hf
  · exact h.symm

end Bracket
