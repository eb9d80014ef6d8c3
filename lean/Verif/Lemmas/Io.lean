import Verif.Spec.Io
import Verif.Lemmas.Frame
import Verif.Lemmas.Basic

/-! The writes of every render: an induction over all executions, for helpers that pass on the errors of
the destination. -/

set_option linter.unusedSectionVars false

namespace Bracket.Io
open Spec

/-- The error a step ended with. -/
def errOf {α : Type} : Res α → Option RenderErr
  | .err e => some e
  | _ => none

/-- The local helpers pass on errors. -/
def Locals (s : RS) : Prop := ∀ n h, assoc n s.locals = some h → ∀ c t, Honest (h c t)

/-- From `s` to `t`, ending with the error `e` if any. -/
structure Step (sink : Sink) (e : Option RenderErr) (s t : RS) : Prop where
  writes : ∃ ws, t.out = s.out ++ ws ∧ Answers sink s.out ws ∧ Aborted e ws
  locals : Locals t

def OkAt (sink : Sink) {α : Type} (m : RM α) (s : RS) : Prop := Step sink (errOf (m s).1) s (m s).2

def Ok (sink : Sink) {α : Type} (m : RM α) : Prop := ∀ s, Locals s → OkAt sink m s

structure SemOk (sink : Sink) (reg : Reg) (S : Sem) : Prop where
  renderNode : ∀ E, E.reg = reg ∧ E.sink = sink → ∀ n t, Ok sink (S.renderNode E n t)
  statement : ∀ E, E.reg = reg ∧ E.sink = sink → ∀ c, Ok sink (S.statement E c)
  call : ∀ E, E.reg = reg ∧ E.sink = sink → ∀ c, Ok sink (S.call E c)

theorem answers_append {sink : Sink} {b ws ws' : List Wr} : Answers sink b (ws ++ ws') ↔
    Answers sink b ws ∧ Answers sink (b ++ ws) ws' := by
  induction ws generalizing b with
  | nil => simp [Answers]
  | cons w ws ih => simp [Answers, ih, and_assoc]

theorem clean_append {ws ws' : List Wr} : Clean (ws ++ ws') ↔ Clean ws ∧ Clean ws' := by
  unfold Clean
  constructor
  · intro h; exact ⟨fun w hw => h w (by simp [hw]), fun w hw => h w (by simp [hw])⟩
  · rintro ⟨h, h'⟩ w hw
    rcases List.mem_append.1 hw with hw | hw
    · exact h w hw
    · exact h' w hw

theorem aborted_none {ws : List Wr} : Aborted none ws ↔ Clean ws := by
  constructor
  · rintro (h | ⟨_, _, _, _, _, _, _, h, _⟩)
    · exact h
    · cases h
  · exact .inl

theorem assoc_erase_self' {β : Type} (k : Str) (l : List (Str × β)) : assoc k (assocErase k l) = none := by
  induction l with
  | nil => rfl
  | cons a l ih =>
      obtain ⟨k', v⟩ := a
      unfold assocErase
      by_cases h : k' = k
      · rw [if_pos h]; exact ih
      · rw [if_neg h]; simp [assoc, h, ih]

theorem assoc_erase_ne' {β : Type} {k m : Str} (l : List (Str × β)) (hm : m ≠ k) : assoc m (assocErase k l) = assoc m l := by
  induction l with
  | nil => rfl
  | cons a l ih =>
      obtain ⟨k', v⟩ := a
      unfold assocErase
      by_cases h : k' = k
      · rw [if_pos h, ih]; simp [assoc, h, Ne.symm hm]
      · rw [if_neg h]; simp [assoc, ih]

variable {sink : Sink}

theorem Step.of_eq {e : Option RenderErr} {s t : RS} (h : t.out = s.out) (hl : Locals t) : Step sink e s t :=
  ⟨⟨[], by simpa using h, trivial, .inl fun w hw => by cases hw⟩, hl⟩

theorem Step.trans {e : Option RenderErr} {s t u : RS} (h : Step sink none s t) (h' : Step sink e t u) : Step sink e s u := by
  obtain ⟨ws, h1, h2, h3⟩ := h.writes
  obtain ⟨ws', g1, g2, g3⟩ := h'.writes
  have hc := aborted_none.1 h3
  refine ⟨⟨ws ++ ws', by rw [g1, h1, List.append_assoc], answers_append.2 ⟨h2, by rw [← h1]; exact g2⟩, ?_⟩, h'.locals⟩
  rcases g3 with g | ⟨init, w, io, e', rfl, g4, g5⟩
  · exact .inl (clean_append.2 ⟨hc, g⟩)
  · exact .inr ⟨ws ++ init, w, io, e', by simp, clean_append.2 ⟨hc, g4⟩, g5⟩

/-- Another error that carries at least as much. -/
theorem Step.wrap {e e' : Option RenderErr} {s t : RS} (h : Step sink e s t)
    (he : ∀ io x, e = some x → Carries io x → ∃ y, e' = some y ∧ Carries io y) : Step sink e' s t := by
  obtain ⟨ws, h1, h2, h3⟩ := h.writes
  refine ⟨⟨ws, h1, h2, ?_⟩, h.locals⟩
  rcases h3 with h3 | ⟨init, w, io, x, g1, g2, g3, g4, g5⟩
  · exact .inl h3
  · obtain ⟨y, hy, hc⟩ := he io x g4 g5
    exact .inr ⟨init, w, io, y, g1, g2, g3, hy, hc⟩

/-- Only the destination and the local helpers matter. -/
theorem Step.cong {e : Option RenderErr} {s s' t t' : RS} (h : Step sink e s t) (hs : s'.out = s.out) (ht : t'.out = t.out)
    (hl : t'.locals = t.locals) : Step sink e s' t' := by
  obtain ⟨ws, h1, h2, h3⟩ := h.writes
  exact ⟨⟨ws, by rw [ht, h1, hs], by rw [hs]; exact h2, h3⟩, by unfold Locals; rw [hl]; exact h.locals⟩

theorem pure {α : Type} (a : α) {s : RS} (hs : Locals s) : OkAt sink (Pure.pure a : RM α) s := .of_eq rfl hs
theorem fail {α : Type} (e : RenderErr) {s : RS} (hs : Locals s) : OkAt sink (RM.fail e : RM α) s := .of_eq rfl hs
theorem panic {α : Type} {s : RS} (hs : Locals s) : OkAt sink (RM.panic : RM α) s := .of_eq rfl hs
theorem outOfFuel {α : Type} {s : RS} (hs : Locals s) : OkAt sink (RM.outOfFuel : RM α) s := .of_eq rfl hs
theorem orPanic {α : Type} (o : Option α) {s : RS} (hs : Locals s) : OkAt sink (RM.orPanic o) s := by
  unfold OkAt RM.orPanic
  cases o <;> exact .of_eq rfl hs

theorem bind {α β : Type} {m : RM α} {f : α → RM β} {s : RS} (h : OkAt sink m s)
    (hf : ∀ a t, m s = (.ok a, t) → Locals t → OkAt sink (f a) t) : OkAt sink (m >>= f) s := by
  unfold OkAt at h ⊢
  rw [RM.bind_def]
  rcases hm : m s with ⟨r, t⟩
  rw [hm] at h
  cases r with
  | ok a => exact Step.trans h (hf a t hm h.locals)
  | err e => exact h
  | panic => exact h
  | fuel => exact h

theorem getBind {β : Type} {f : RS → RM β} {s : RS} (h : OkAt sink (f s) s) : OkAt sink (RM.get >>= f) s := h

theorem modify {f : RS → RS} {s : RS} (hs : Locals s) (h : (f s).out = s.out) (hl : (f s).locals = s.locals) :
    OkAt sink (RM.modify f) s := .of_eq h fun n g hg => hs n g (by rw [← hl]; exact hg)

/-- Errors may be caught, but those of the destination must be passed on. -/
theorem catchErr {α β : Type} {m : RM α} {f : Except RenderErr α → RM β} {s : RS} (h : OkAt sink m s)
    (hf : ∀ r, Ok sink (f r))
    (herr : ∀ io e, Carries io e → ∀ t, ∃ e', f (.error e) t = (.err e', t) ∧ Carries io e') :
    OkAt sink (RM.catchErr m f) s := by
  unfold OkAt at h ⊢
  unfold RM.catchErr
  rcases hm : m s with ⟨r, t⟩
  rw [hm] at h
  cases r with
  | ok a => exact Step.trans h (hf _ t h.locals)
  | err e =>
      simp only
      obtain ⟨ws, h1, h2, h3⟩ := h.writes
      rcases h3 with h3 | ⟨init, w, io, x, g1, g2, g3, g4, g5⟩
      · exact Step.trans ⟨⟨ws, h1, h2, .inl h3⟩, h.locals⟩ (hf _ t h.locals)
      · cases g4
        obtain ⟨e', he, hc⟩ := herr io e g5 t
        rw [he]
        exact ⟨⟨ws, h1, h2, .inr ⟨init, w, io, e', g1, g2, g3, rfl, hc⟩⟩, h.locals⟩
  | panic => exact h
  | fuel => exact h

theorem writeStr {E : Env} (hE : E.sink = sink) (c : Str) (esc : Bool) : Ok sink (writeStr E c esc) := by
  intro s hs
  unfold OkAt Bracket.writeStr
  rw [RM.bind_def]
  simp only [RM.get]
  by_cases hv : List.isEmpty (applyTrim s.trim c) = true
  · rw [if_pos hv]; exact .of_eq rfl hs
  · rw [if_neg hv, RM.bind_def]
    simp only [Bracket.rawWrite]
    cases hr : E.sink s.out (if esc = true then E.reg.escape (applyTrim s.trim c) else applyTrim s.trim c) with
    | ok n =>
        refine ⟨⟨[_], rfl, ⟨?_, trivial⟩, .inl ?_⟩, hs⟩
        · rw [← hE]; exact hr.symm
        · intro w hw
          cases List.mem_singleton.1 hw
          exact ⟨n, rfl⟩
    | error e =>
        refine ⟨⟨[_], rfl, ⟨?_, trivial⟩, .inr ⟨[], _, e, .io e, rfl, (fun w hw => by cases hw), rfl, rfl, rfl⟩⟩, hs⟩
        rw [← hE]; exact hr.symm

theorem lookupM (E : Env) (p : Path) : Ok sink (lookupM E p) := fun _ hs => getBind (orPanic _ hs)

section
variable [Host]

theorem evaluate (E : Env) (p : Str) : Ok sink (evaluate E p) := by
  intro s hs
  unfold Bracket.evaluate
  cases pathFromStr p with
  | ok p =>
      cases p with
      | some p => exact bind (lookupM E p s hs) fun _ t _ ht => pure _ ht
      | none => exact pure _ hs
  | err e => exact pure _ hs
  | panic => exact panic hs
  | fuel => exact outOfFuel hs

end

theorem nested (init : RS) (m : RM Unit) : Ok sink (nested init m) := by
  intro s hs
  unfold OkAt Bracket.nested
  rcases m { init with logs := s.logs, trace := s.trace } with ⟨r, t⟩
  cases r <;> exact .of_eq rfl hs

theorem traced {α : Type} {site : CallSite} {m : RM α} (h : Ok sink m) : Ok sink (traced site m) := by
  intro s hs
  unfold OkAt Bracket.traced
  have := h { s with trace := s.trace ++ [.enter site] } hs
  unfold OkAt at this
  exact this.cong rfl rfl rfl

section
variable [Host] {reg : Reg} {S : Sem} (H : SemOk sink reg S)
include H

theorem nextBefore (l : List Node) : Ok sink (nextBefore l) := by
  intro s hs
  unfold Bracket.nextBefore
  cases l with
  | nil => exact pure _ hs
  | cons x l => exact bind (orPanic _ hs) fun _ t _ ht => pure _ ht

theorem runEvents {f : Ev → RM Unit} (h : ∀ ev, Ok sink (f ev)) :
    ∀ ns prev hint, Ok sink (runEvents f ns prev hint) := by
  intro ns
  induction ns with
  | nil => intro _ _ s hs; exact pure _ hs
  | cons n rest ih =>
      intro prev hint s hs
      unfold Bracket.runEvents
      exact bind (nextBefore H _ _ hs) fun _ t _ ht => bind (orPanic _ ht) fun _ t _ ht =>
        bind (h _ _ ht) fun _ t _ ht => ih _ _ _ ht

theorem renderAll {E : Env} (hE : E.reg = reg ∧ E.sink = sink) (n : Node) : Ok sink (renderAll S E n) :=
  runEvents H (fun ev => H.renderNode E hE ev.node ev.trim) _ _ _

theorem templateEvent {E : Env} (hE : E.reg = reg ∧ E.sink = sink) (n : Node) (ev : Ev) :
    Ok sink (templateEvent S E n ev) := by
  intro s hs
  unfold Bracket.templateEvent
  refine bind ?_ fun _ t _ ht => bind ?_ fun _ u _ hu => H.renderNode E hE _ _ _ hu
  · unfold firstHint; split
    · exact orPanic _ hs
    · exact pure _ hs
  · unfold lastHint
    cases n with
    | block b =>
        simp only
        split
        · exact orPanic _ ht
        · exact pure _ ht
    | _ => exact pure _ ht

theorem template {E : Env} (hE : E.reg = reg ∧ E.sink = sink) (n : Node) : Ok sink (template S E n) := by
  intro s hs
  unfold Bracket.template
  refine getBind (bind (runEvents H (templateEvent H hE n) _ _ _ _ hs) fun _ t _ ht =>
    bind (orPanic _ ht) fun _ u _ hu => modify hu rfl rfl)
  

theorem inverse {E : Env} (hE : E.reg = reg ∧ E.sink = sink) (n : Node) : Ok sink (inverse S E n) := by
  unfold Bracket.inverse
  cases n with
  | block b =>
      simp only
      suffices ∀ l alt, Ok sink (inverseLoop S E l alt) from this _ _
      intro l
      induction l with
      | nil => intro alt s hs; exact pure _ hs
      | cons x l ih =>
          intro alt s hs
          cases x with
          | block c =>
              unfold inverseLoop
              split
              · exact ih _ _ hs
              · refine bind (H.call E hE _ _ hs) fun v t _ ht => ?_
                cases v with
                | none => exact ih _ _ ht
                | some v =>
                    simp only
                    split
                    · exact pure _ ht
                    · exact ih _ _ ht
          | _ => unfold inverseLoop; exact ih _ _ hs
  | _ => exact fun s hs => pure _ hs

omit H [Host] in
theorem buffer_eq (E : Env) (n : Node) (s : RS) :
    ∃ r lg tr, Bracket.buffer S E n s = (r, { s with logs := lg, trace := tr }) := by
  show ∃ r lg tr, Bracket.nested { RS.init s.stack with scopes := s.scopes } (Bracket.template S { E with sink := stringSink } n) s = _
  unfold Bracket.nested
  rcases Bracket.template S { E with sink := stringSink } n
    { RS.init s.stack with scopes := s.scopes, logs := s.logs, trace := s.trace } with ⟨r, t⟩
  cases r with
  | ok a => exact ⟨.ok _, _, _, rfl⟩
  | err e => exact ⟨.err e, _, _, rfl⟩
  | panic => exact ⟨.panic, _, _, rfl⟩
  | fuel => exact ⟨.fuel, _, _, rfl⟩

theorem buffer (E : Env) (n : Node) : Ok sink (buffer S E n) := fun _ hs => getBind (nested _ _ _ hs)

theorem once (E : Env) (f c : Str) (d : Value) : Ok sink (once S E f c d) := by
  intro s hs
  unfold Bracket.once
  refine getBind ?_
  cases compile c ⟨f, 0, 0⟩ with
  | ok doc =>
      simp only
      unfold OkAt RM.catchErr Bracket.nested
      rcases Bracket.renderAll S { E with name := f, root := d, sink := stringSink } doc
        { RS.init s.stack with logs := s.logs, trace := s.trace } with ⟨r, t⟩
      cases r <;> exact .of_eq rfl hs
  | err e => exact pure _ hs
  | panic => exact panic hs
  | fuel => exact outOfFuel hs

theorem paramM {E : Env} (hE : E.reg = reg ∧ E.sink = sink) (p : ParamValue) : Ok sink (paramM S E p) := by
  intro s hs
  unfold Bracket.paramM
  cases p with
  | json => exact pure _ hs
  | path p =>
      refine bind (lookupM E p s hs) fun v t _ ht => ?_
      cases v with
      | some v => exact pure _ ht
      | none => exact bind (orPanic _ ht) fun _ u _ hu => pure _ hu
  | subExpr c =>
      refine bind (H.statement E hE c s hs) fun v t _ ht => ?_
      cases v with
      | some v => exact pure _ ht
      | none => exact bind (orPanic _ ht) fun _ u _ hu => pure _ hu

theorem argumentsLoop {E : Env} (hE : E.reg = reg ∧ E.sink = sink) : ∀ ps i ms, Ok sink (argumentsLoop S E i ps ms) := by
  intro ps
  induction ps with
  | nil => intro i ms s hs; exact pure _ hs
  | cons p ps ih =>
      intro i ms s hs
      exact bind (paramM H hE p s hs) fun _ t _ ht => bind (ih _ _ _ ht) fun _ u _ hu => pure _ hu

theorem hashLoop {E : Env} (hE : E.reg = reg ∧ E.sink = sink) : ∀ ps out ms, Ok sink (hashLoop S E ps out ms) := by
  intro ps
  induction ps with
  | nil => intro i ms s hs; exact pure _ hs
  | cons p ps ih =>
      intro i ms s hs
      exact bind (paramM H hE p.2 s hs) fun _ t _ ht => ih _ _ _ ht

theorem run {E : Env} (hE : E.reg = reg ∧ E.sink = sink) {p : Prog} (hp : Honest p) : Ok sink (run S E p) := by
  induction hp with
  | ret v => exact fun s hs => pure _ hs
  | fail e => exact fun s hs => fail _ hs
  | panic => exact fun s hs => panic hs
  | write c k ok err ih =>
      intro s hs; unfold Bracket.run
      refine catchErr (writeStr hE.2 _ _ s hs) (fun r => ih _) ?_
      intro io e hc t
      obtain ⟨e', h1, h2⟩ := err io (.render e) hc
      exact ⟨.helper e', by simp only [toHelper]; rw [h1]; rfl, h2⟩
  | writeEscaped c k ok err ih =>
      intro s hs; unfold Bracket.run
      refine catchErr (writeStr hE.2 _ _ s hs) (fun r => ih _) ?_
      intro io e hc t
      obtain ⟨e', h1, h2⟩ := err io (.render e) hc
      exact ⟨.helper e', by simp only [toHelper]; rw [h1]; rfl, h2⟩
  | outWrite c k ok err ih =>
      intro s hs
      unfold Bracket.run OkAt
      rw [RM.bind_def]
      simp only [Bracket.rawWrite]
      cases hr : E.sink s.out c with
      | ok n =>
          refine Step.trans (t := { s with out := s.out ++ [⟨c, .ok n⟩] }) ⟨⟨[_], rfl, ⟨?_, trivial⟩, .inl ?_⟩, hs⟩ (ih _ _ hs)
          · rw [← hE.2]; exact hr.symm
          · intro w hw
            cases List.mem_singleton.1 hw
            exact ⟨n, rfl⟩
      | error io =>
          obtain ⟨e', h1, h2⟩ := err io
          rw [h1]
          refine ⟨⟨[_], rfl, ⟨?_, trivial⟩, .inr ⟨[], _, io, .helper e', rfl, (fun w hw => by cases hw), rfl, rfl, h2⟩⟩, hs⟩
          rw [← hE.2]; exact hr.symm
  | template n k ok err ih =>
      intro s hs; unfold Bracket.run
      refine catchErr (template H hE n s hs) (fun r => ih _) ?_
      intro io e hc t
      obtain ⟨e', h1, h2⟩ := err io (.render e) hc
      exact ⟨.helper e', by simp only [toHelper]; rw [h1]; rfl, h2⟩
  | render n k ok err ih =>
      intro s hs; unfold Bracket.run
      refine catchErr (renderAll H hE n s hs) (fun r => ih _) ?_
      intro io e hc t
      obtain ⟨e', h1, h2⟩ := err io e hc
      exact ⟨.helper e', by rw [h1]; rfl, h2⟩
  | inverse n k ok err ih =>
      intro s hs; unfold Bracket.run
      refine catchErr (inverse H hE n s hs) (fun r => ih _) ?_
      intro io e hc t
      obtain ⟨e', h1, h2⟩ := err io (.render e) hc
      exact ⟨.helper e', by simp only [toHelper]; rw [h1]; rfl, h2⟩
  | buffer n k ok ih =>
      intro s hs; unfold Bracket.run
      obtain ⟨r, lg, tr, hb⟩ := buffer_eq (S := S) E n s
      unfold OkAt RM.catchErr
      rw [hb]
      cases r with
      | ok a => exact (ih (.ok a) { s with logs := lg, trace := tr } hs).cong rfl rfl rfl
      | err e => exact (ih (.error (.render e)) { s with logs := lg, trace := tr } hs).cong rfl rfl rfl
      | panic => exact .of_eq rfl hs
      | fuel => exact .of_eq rfl hs
  | once f c d k ok ih => intro s hs; unfold Bracket.run; exact bind (once H E f c d s hs) fun r t _ ht => ih _ t ht
  | evaluate p k ok ih => intro s hs; unfold Bracket.run; exact bind (evaluate E p s hs) fun r t _ ht => ih _ t ht
  | pushScope sc k ok ih => intro s hs; unfold Bracket.run; exact bind (modify hs rfl rfl) fun _ t _ ht => ih t ht
  | popScope k ok ih => intro s hs; unfold Bracket.run; exact getBind (bind (modify hs rfl rfl) fun _ t _ ht => ih _ t ht)
  | scopeMut f k ok ih =>
      intro s hs; unfold Bracket.run
      refine getBind (bind (modify hs ?_ ?_) fun _ t _ ht => ih _ t ht)
      · split <;> rfl
      · split <;> rfl
  | registerLocal n h k hh ok ih1 ih2 =>
      intro s hs; unfold Bracket.run
      refine bind (.of_eq rfl ?_) fun _ t _ ht => ih2 t ht
      intro m g hg
      change assoc m (assocInsert n h s.locals) = _ at hg
      by_cases hm : m = n
      · subst hm; rw [assoc_insert_self] at hg; cases hg; exact hh
      · rw [assoc_insert_ne _ _ hm] at hg; exact hs m g hg
  | unregisterLocal n k ok ih =>
      intro s hs; unfold Bracket.run
      refine bind (.of_eq rfl ?_) fun _ t _ ht => ih t ht
      intro m g hg
      change assoc m (assocErase n s.locals) = _ at hg
      by_cases hm : m = n
      · subst hm; rw [assoc_erase_self'] at hg; cases hg
      · rw [assoc_erase_ne' _ hm] at hg; exact hs m g hg
  | peek k ok ih => intro s hs; unfold Bracket.run; exact getBind (ih _ s hs)
  | log l m k ok ih => intro s hs; unfold Bracket.run; exact bind (modify hs rfl rfl) fun _ t _ ht => ih t ht

variable (HR : HonestReg reg)
include HR

theorem runTarget {E : Env} (hE : E.reg = reg ∧ E.sink = sink) (name : Str) (t : Target)
    (ht : ∀ h, t = .handler h → ∀ c t, Honest (h c t)) (ctx : Ctx) (content : Option Node) {s : RS}
    (hs : Locals s) : OkAt sink (runTarget S E name t ctx content s.locals) s := by
  unfold Bracket.runTarget
  cases t with
  | name =>
      simp only
      cases hl : assoc name s.locals with
      | some h => exact run H hE (hs name h hl _ _) s hs
      | none =>
          cases hr : assoc name E.reg.helpers with
          | some h => exact run H hE (HR.helpers name h (by rw [← hE.1]; exact hr) _ _) s hs
          | none => exact pure _ hs
  | handler h => exact run H hE (ht h rfl _ _) s hs

theorem invokeBody {E : Env} (hE : E.reg = reg ∧ E.sink = sink) (name : Str) (t : Target)
    (ht : ∀ h, t = .handler h → ∀ c t, Honest (h c t)) (c : Call) (content : Option Node)
    (text : Option Str) (prop : Option (Str × Value)) :
    Ok sink (invokeBody S E name t c content text prop) := by
  intro s hs
  unfold Bracket.invokeBody
  exact bind (argumentsLoop H hE _ _ _ _ hs) fun _ _ _ h1 =>
    bind (hashLoop H hE _ _ _ _ h1) fun _ _ _ h2 => getBind (runTarget H HR hE name t ht _ _ h2)

theorem invoke {E : Env} (hE : E.reg = reg ∧ E.sink = sink) (name : Str) (t : Target)
    (ht : ∀ h, t = .handler h → ∀ c t, Honest (h c t)) (c : Call) (content : Option Node)
    (text : Option Str) (prop : Option (Str × Value)) :
    Ok sink (invoke S E name t c content text prop) := by
  intro s hs
  unfold OkAt
  rw [invoke_eq]
  by_cases hc : (s.stack.filter (· == siteOf name content)).length ≥ stackMax
  · rw [if_pos hc]; exact .of_eq rfl hs
  · rw [if_neg hc]
    have hm := invokeBody H HR hE name t ht c content text prop (s.enter (siteOf name content)) hs
    unfold OkAt at hm
    generalize Bracket.invokeBody S E name t c content text prop (s.enter (siteOf name content)) = x at hm ⊢
    obtain ⟨r, t⟩ := x
    cases r <;> exact hm.cong rfl rfl rfl

theorem callF {E : Env} (hE : E.reg = reg ∧ E.sink = sink) (c : Call) : Ok sink (callF S E c) := by
  intro s hs
  unfold Bracket.callF
  cases c.target with
  | path p =>
      simp only
      split
      · exact lookupM E p s hs
      · split
        · refine bind (orPanic _ hs) fun name t _ ht => getBind ?_
          split
          · exact invoke H HR hE _ _ (by simp) _ _ _ _ _ ht
          · refine bind (lookupM E p t ht) fun v u _ hu => ?_
            cases v with
            | some v => exact pure _ hu
            | none =>
                cases hh : E.reg.helperMissing with
                | some h =>
                    exact invoke H HR hE _ _ (by
                      intro h' e; cases e; exact HR.helperMissing _ (by rw [← hE.1]; exact hh)) _ _ _ _ _ hu
                | none =>
                    simp only
                    split
                    · exact fail _ hu
                    · exact pure _ hu
        · refine bind (lookupM E p s hs) fun v u _ hu => ?_
          cases v with
          | some v => exact pure _ hu
          | none =>
              simp only
              split
              · exact bind (orPanic _ hu) fun _ t _ ht => fail _ ht
              · exact pure _ hu
  | subExpr sub => exact H.call E hE _ s hs

theorem partialName {E : Env} (hE : E.reg = reg ∧ E.sink = sink) (c : Call) : Ok sink (partialName S E c) := by
  intro s hs
  unfold Bracket.partialName
  cases c.target with
  | path p =>
      simp only
      refine bind (orPanic _ hs) fun txt t _ ht => ?_
      split
      · exact pure _ ht
      · split
        · exact pure _ ht
        · exact fail _ ht
  | subExpr sub => exact bind (H.statement E hE _ s hs) fun _ t _ ht => pure _ ht

theorem partialScope {E : Env} (hE : E.reg = reg ∧ E.sink = sink) (c : Call) : Ok sink (partialScope S E c) := by
  intro s hs
  unfold Bracket.partialScope
  refine bind (hashLoop H hE _ _ _ _ hs) fun h t _ ht => ?_
  split
  · exact pure _ ht
  · exact bind (argumentsLoop H hE _ _ _ _ ht) fun _ u _ hu => pure _ hu

theorem findPartial (E : Env) (name : Str) : Ok sink (findPartial E name) := by
  intro s hs
  unfold Bracket.findPartial
  refine getBind ?_
  cases assoc name s.partials with
  | some n => exact pure _ hs
  | none =>
      cases assoc name E.reg.templates with
      | some t => exact bind (modify hs rfl rfl) fun _ t _ ht => pure _ ht
      | none => exact fail _ hs

theorem renderPartial {E : Env} (hE : E.reg = reg ∧ E.sink = sink) (c : Call) (pb : Option Node) :
    Ok sink (renderPartial S E c pb) := by
  intro s hs
  unfold Bracket.renderPartial
  refine bind (partialName H HR hE c s hs) fun name s _ hs => getBind ?_
  by_cases hc : s.stack.contains (.part name) = true
  · rw [if_pos hc]; exact fail _ hs
  · rw [if_neg hc]
    refine traced (fun s hs => ?_) s hs
    exact bind (modify hs rfl rfl) fun _ t _ ht => bind (findPartial H HR E name t ht) fun node t _ ht =>
      bind (partialScope H HR hE c t ht) fun sc t _ ht => bind (modify ht rfl rfl) fun _ t _ ht =>
      getBind (bind (runEvents H (fun ev => H.renderNode E hE ev.node ev.trim) _ _ _ t ht) fun _ t _ ht => modify ht rfl rfl)

theorem statementF {E : Env} (hE : E.reg = reg ∧ E.sink = sink) (c : Call) : Ok sink (statementF S E c) := by
  intro s hs
  unfold Bracket.statementF
  split
  · exact bind (renderPartial H HR hE c none s hs) fun _ t _ ht => pure _ ht
  · exact H.call E hE c s hs

theorem templateQ {E : Env} (hE : E.reg = reg ∧ E.sink = sink) (n : Node) : Ok sink (templateQ S E n) := by
  intro s hs
  refine catchErr (template H hE n s hs) ?_ ?_
  · intro r t ht
    cases r with
    | ok a => exact pure _ ht
    | error e => exact fail _ ht
  · intro io e hc t
    exact ⟨.helper (.render e), rfl, hc⟩

theorem blockHelperMissing {E : Env} (hE : E.reg = reg ∧ E.sink = sink) (node : Node) (c : Call) (p : Path)
    (text : Option Str) (raw : Bool) : Ok sink (blockHelperMissing S E node c p text raw) := by
  intro s hs
  unfold Bracket.blockHelperMissing
  split
  · cases text with
    | some t => exact bind (writeStr hE.2 _ _ s hs) fun _ t _ ht => pure _ ht
    | none => exact pure _ hs
  · refine bind (lookupM E p s hs) fun v t _ ht => ?_
    cases v with
    | some v =>
        cases hh : E.reg.blockHelperMissing with
        | some h =>
            simp only
            exact bind (orPanic _ ht) fun _ u _ hu => bind (invoke H HR hE _ _ (by
              intro h' e; cases e; exact HR.blockHelperMissing _ (by rw [← hE.1]; exact hh)) _ _ _ _ _ hu)
              fun _ w _ hw => pure _ hw
        | none => simp only; exact templateQ H HR hE node t ht
    | none =>
        cases hh : E.reg.helperMissing with
        | some h =>
            simp only
            exact bind (invoke H HR hE _ _ (by
              intro h' e; cases e; exact HR.helperMissing _ (by rw [← hE.1]; exact hh)) _ _ _ _ _ ht)
              fun _ w _ hw => pure _ hw
        | none =>
            simp only
            split
            · exact bind (orPanic _ ht) fun _ u _ hu => fail _ hu
            · exact pure _ ht

theorem blockF {E : Env} (hE : E.reg = reg ∧ E.sink = sink) (b : Block) : Ok sink (blockF S E b) := by
  intro s hs
  unfold Bracket.blockF
  split
  · exact renderPartial H HR hE _ _ s hs
  · cases b.call.target with
    | path p =>
        simp only
        split
        · refine bind ?_ fun text t _ ht => bind (orPanic _ ht) fun name u _ hu => getBind ?_
          · unfold blockText
            split
            · refine bind (orPanic _ hs) fun _ t _ ht => bind (modify ht rfl rfl) fun _ u _ hu => pure _ hu
              
            · exact pure _ hs
          · split
            · exact bind (invoke H HR hE _ _ (by simp) _ _ _ _ _ hu) fun _ w _ hw => pure _ hw
            · exact blockHelperMissing H HR hE _ _ _ _ _ _ hu
        · exact bind (orPanic _ hs) fun _ t _ ht => fail _ ht
    | subExpr c => exact fail _ hs

theorem renderKind {E : Env} (hE : E.reg = reg ∧ E.sink = sink) (node : Node) : Ok sink (renderKind S E node) := by
  intro s hs
  unfold Bracket.renderKind
  cases node with
  | text t => exact bind (orPanic _ hs) fun _ u _ hu => bind (writeStr hE.2 _ _ u hu) fun _ v _ hv => pure _ hv
  | rawStatement t =>
      exact bind (orPanic _ hs) fun _ u _ hu => bind (orPanic _ hu) fun _ u _ hu =>
        bind (writeStr hE.2 _ _ u hu) fun _ v _ hv => pure _ hv
  | link l =>
      simp only
      refine bind (orPanic _ hs) fun esc t _ ht => ?_
      split
      · exact bind (orPanic _ ht) fun _ u _ hu => bind (writeStr hE.2 _ _ u hu) fun _ v _ hv => pure _ hv
      · cases hh : E.reg.link with
        | some h =>
            simp only
            exact bind (orPanic _ ht) fun _ u _ hu => bind (invoke H HR hE _ _ (by
              intro h' e; cases e; exact HR.link _ (by rw [← hE.1]; exact hh)) _ _ _ _ _ hu)
              fun _ w _ hw => pure _ hw
        | none =>
            simp only
            exact bind (orPanic _ ht) fun _ u _ hu => bind (writeStr hE.2 _ _ u hu) fun _ v _ hv => pure _ hv
  | statement c =>
      refine bind (H.statement E hE c s hs) fun v t _ ht => ?_
      cases v with
      | some v =>
          exact bind (orPanic _ ht) fun _ u _ hu => bind (writeStr hE.2 _ _ u hu) fun _ v _ hv => pure _ hv
      | none => exact pure _ ht
  | block b => exact blockF H HR hE b s hs
  | rawComment t => exact pure _ hs
  | comment t => exact pure _ hs
  | document _ _ => exact pure _ hs

theorem renderNodeF {E : Env} (hE : E.reg = reg ∧ E.sink = sink) (node : Node) (t : TrimState) :
    Ok sink (renderNodeF S E node t) := by
  intro s hs
  unfold Bracket.renderNodeF
  refine bind (orPanic _ hs) fun h u _ hu => bind (modify hu rfl rfl) fun _ v _ hv => renderKind H HR hE node v hv
  


end

/-- The induction over the recursion depth. -/
theorem semOk [Host] {reg : Reg} (HR : HonestReg reg) : ∀ n, SemOk sink reg (sem n) := by
  intro n
  induction n with
  | zero => exact ⟨fun _ _ _ _ s hs => outOfFuel hs, fun _ _ _ s hs => outOfFuel hs, fun _ _ _ s hs => outOfFuel hs⟩
  | succ n ih =>
      exact ⟨fun E hE nd t => renderNodeF ih HR hE nd t, fun E hE c => statementF ih HR hE c,
        fun E hE c => callF ih HR hE c⟩

end Bracket.Io
