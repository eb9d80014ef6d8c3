import Verif.Lemmas.Mono

/-! One induction over all executions of the renderer: any invariant of the renderer's state and
any relation between the states before and after a step that is respected by the primitive state
changes is respected by every render. -/

set_option linter.unusedSectionVars false

namespace Bracket

/-- Did the step succeed? -/
def Res.isOk {α : Type} : Res α → Bool
  | .ok _ => true
  | _ => false

/-- State changes of a render step that touch neither scopes, call stack, trace nor local helpers
and only append to the destination. -/
structure Minor (s s' : RS) : Prop where
  scopes : s'.scopes = s.scopes
  stack : s'.stack = s.stack
  trace : s'.trace = s.trace
  locals : s'.locals = s.locals
  out : ∃ ws, s'.out = s.out ++ ws
  partials : ∀ k, k ≠ nmPartialBlock → assoc k s'.partials = assoc k s.partials

/-- ... nor the current partial. -/
structure Minor1 (s s' : RS) : Prop extends Minor s s' where
  curPartial : s'.curPartial = s.curPartial

theorem Minor.refl (s : RS) : Minor s s := ⟨rfl, rfl, rfl, rfl, ⟨[], by simp⟩, fun _ _ => rfl⟩

/-- A call is entered. -/
def RS.enter (site : CallSite) (s : RS) : RS :=
  { s with trace := s.trace ++ [.enter site], stack := site :: s.stack }
/-- A helper call returns. -/
def RS.leaveOk (s : RS) : RS := { s with trace := s.trace ++ [.leave], stack := s.stack.tail }
/-- A call fails. -/
def RS.leave (s : RS) : RS := { s with trace := s.trace ++ [.leave] }
/-- A scope is pushed. -/
def RS.push (sc : Scope) (s : RS) : RS := { s with scopes := sc :: s.scopes }
/-- A partial ends. -/
def RS.leavePartial (s : RS) : RS :=
  { s with scopes := s.scopes.tail, curPartial := s.curPartial.tail, stack := s.stack.tail,
           trace := s.trace ++ [.leave] }
/-- The initial state of a nested renderer. -/
def RS.inner (s : RS) (scopes : List Scope) : RS :=
  { RS.init s.stack with scopes, logs := s.logs, trace := s.trace }
/-- What remains of a nested renderer. -/
def RS.after (s t : RS) : RS := { s with logs := t.logs, trace := t.trace }

/-- The helpers and handlers of a registry. -/
def IsHelper (reg : Reg) (h : HelperFn) : Prop :=
  (∃ n, assoc n reg.helpers = some h) ∨ reg.link = some h ∨ reg.helperMissing = some h ∨
  reg.blockHelperMissing = some h

/-- An invariant and a relation (indexed by success). -/
structure Rel where
  I : RS → Prop
  R : Bool → RS → RS → Prop

/-- A computation respects the relation from `s`. -/
def Rel.OkAt (F : Rel) {α : Type} (m : RM α) (s : RS) : Prop :=
  F.I (m s).2 ∧ F.R (m s).1.isOk s (m s).2

/-- A computation respects the relation from every state satisfying the invariant. -/
def Rel.Ok (F : Rel) {α : Type} (m : RM α) : Prop := ∀ s, F.I s → F.OkAt m s

/-- The recursive entry points respect the relation. -/
structure Rel.SemOk (F : Rel) (reg : Reg) (S : Sem) : Prop where
  renderNode : ∀ E, E.reg = reg → ∀ n t, F.Ok (S.renderNode E n t)
  statement : ∀ E, E.reg = reg → ∀ c, F.Ok (S.statement E c)
  call : ∀ E, E.reg = reg → ∀ c, F.Ok (S.call E c)

/-- A partial is entered: its block, if any, is remembered, and it becomes the current one unless it is a
block (`ok`: it exists). -/
def Started (name : Str) (ok : Bool) (s t : RS) : Prop :=
  ∃ ps files, t = { s.enter (.part name) with partials := ps, curPartial := files } ∧
    (∀ k, k ≠ nmPartialBlock → assoc k ps = assoc k s.partials) ∧
    (ok = true → (files = s.curPartial ∧ (assoc name ps).isSome = true) ∨
      ∃ f, files = f :: s.curPartial ∧ assoc name ps = none)

theorem Started.minor {name : Str} {ok : Bool} {s t : RS} (h : Started name ok s t) :
    Minor (s.enter (.part name)) t := by
  obtain ⟨ps, files, rfl, h1, _⟩ := h
  exact ⟨rfl, rfl, rfl, rfl, ⟨[], by simp⟩, h1⟩

/-- Closure under the primitive state changes, for relations that do not mention the current partial. -/
structure PlainBase (reg : Reg) extends Rel where
  refl : ∀ b s, R b s s
  trans : ∀ {b s t u}, R true s t → R b t u → R b s u
  minor : ∀ {s s'}, I s → Minor s s' → I s' ∧ R true s s'
  enterCall : ∀ {s name content}, I s → (s.stack.filter (· == siteOf name content)).length < stackMax →
    I (s.enter (siteOf name content))
  enterPartial : ∀ {s name}, I s → s.stack.contains (.part name) = false → I (s.enter (.part name))
  leaveOk : ∀ {s t site}, I s → R true (s.enter site) t → I t → I t.leaveOk ∧ R true s t.leaveOk
  leaveErr : ∀ {s t site}, I s → R false (s.enter site) t → I t → I t.leave ∧ R false s t.leave
  push : ∀ {s sc}, I s → I (s.push sc)
  pushErr : ∀ {s t sc}, R false (s.push sc) t → R false s t
  leavePartial : ∀ {s t u site sc}, I s → R true (s.enter site) t → I t → R true (t.push sc) u → I u →
    I u.leavePartial ∧ R true s u.leavePartial
  inner : ∀ {s scs}, I s → I (s.inner scs)
  after : ∀ {b s t scs}, I s → R b (s.inner scs) t → I t → I (s.after t) ∧ R true s (s.after t)

/-- Closure under the primitive state changes. -/
structure FrameBase (reg : Reg) extends Rel where
  refl : ∀ b s, R b s s
  trans : ∀ {b s t u}, R true s t → R b t u → R b s u
  minor : ∀ {s s'}, I s → Minor1 s s' → I s' ∧ R true s s'
  enterCall : ∀ {s name content}, I s → (s.stack.filter (· == siteOf name content)).length < stackMax →
    I (s.enter (siteOf name content))
  enterPartial : ∀ {s name t ok}, I s → s.stack.contains (.part name) = false → Started name ok s t → I t
  leaveOk : ∀ {s t name content}, I s → R true (s.enter (siteOf name content)) t → I t → I t.leaveOk ∧ R true s t.leaveOk
  leaveErr : ∀ {s t site}, I s → R false (s.enter site) t → I t → I t.leave ∧ R false s t.leave
  push : ∀ {s sc}, I s → I (s.push sc)
  pushErr : ∀ {s t sc}, R false (s.push sc) t → R false s t
  leavePartial : ∀ {s t0 t u name sc}, I s → s.stack.contains (.part name) = false → Started name true s t0 → R true t0 t → I t → R true (t.push sc) u →
    I u → I u.leavePartial ∧ R true s u.leavePartial
  leavePartialErr : ∀ {s t0 t name ok}, I s → s.stack.contains (.part name) = false →
    Started name ok s t0 → R false t0 t → I t → I t.leave ∧ R false s t.leave
  inner : ∀ {s scs}, I s → I (s.inner scs)
  after : ∀ {b s t scs}, I s → R b (s.inner scs) t → I t → I (s.after t) ∧ R true s (s.after t)

def PlainBase.toBase {reg : Reg} (F : PlainBase reg) : FrameBase reg where
  toRel := F.toRel
  refl := F.refl
  trans := F.trans
  minor := fun hs h => F.minor hs h.toMinor
  enterCall := F.enterCall
  enterPartial := fun hs h h' => (F.minor (F.enterPartial hs h) h'.minor).1
  leaveOk := F.leaveOk
  leaveErr := F.leaveErr
  push := F.push
  pushErr := F.pushErr
  leavePartial := fun hs hc h h1 ht h2 hu => F.leavePartial hs (F.trans (F.minor (F.enterPartial hs hc) h.minor).2 h1) ht h2 hu
  leavePartialErr := fun hs hc h h1 ht => F.leaveErr hs (F.trans (F.minor (F.enterPartial hs hc) h.minor).2 h1) ht
  inner := F.inner
  after := F.after

/-- ... and the helpers respect the relation. -/
structure Frame [Host] (reg : Reg) extends FrameBase reg where
  helper : ∀ S, toRel.SemOk reg S → ∀ E, E.reg = reg → ∀ h, IsHelper reg h → ∀ ctx content,
    toRel.Ok (run S E (h ctx content))
  localHelper : ∀ S, toRel.SemOk reg S → ∀ E, E.reg = reg → ∀ s, I s → ∀ n h,
    assoc n s.locals = some h → ∀ ctx content, toRel.Ok (run S E (h ctx content))

/-- The end of a helper call. -/
def finishCall {α : Type} : Res α × RS → Res α × RS
  | (.ok a, t) => (.ok a, t.leaveOk)
  | (.err e, t) => (.err e, t.leave)
  | (.panic, t) => (.panic, t.leave)
  | (.fuel, t) => (.fuel, t.leave)

/-- The inside of a helper call. -/
def invokeBody [Host] (S : Sem) (E : Env) (name : Str) (target : Target) (c : Call)
    (content : Option Node) (text : Option Str) (prop : Option (Str × Value)) : RM (Option Value) := do
  let a ← argumentsLoop S E 0 c.args []
  let h ← hashLoop S E c.params [] a.2
  let s ← RM.get
  runTarget S E name target
    { call := c, name, args := a.1, params := h.1, text, property := prop, missing := h.2 }
    content s.locals

theorem invoke_eq [Host] (S : Sem) (E : Env) (name : Str) (target : Target) (c : Call)
    (content : Option Node) (text : Option Str) (prop : Option (Str × Value)) (s : RS) :
    invoke S E name target c content text prop s =
      if (s.stack.filter (· == siteOf name content)).length ≥ stackMax then (.err (.helperCycle name), s)
      else finishCall (invokeBody S E name target c content text prop (s.enter (siteOf name content))) := by
  unfold invoke
  simp only [RM.bind_def, RM.get]
  by_cases hc : (s.stack.filter (· == siteOf name content)).length ≥ stackMax
  · rw [if_pos hc, if_pos hc]; rfl
  · rw [if_neg hc, if_neg hc]
    unfold traced invokeBody
    simp only [RM.bind_def, RM.modify, RM.get]
    rw [show ({ s with trace := s.trace ++ [.enter (siteOf name content)], stack := siteOf name content :: s.stack } : RS)
      = s.enter (siteOf name content) from rfl]
    rcases argumentsLoop S E 0 c.args [] (s.enter (siteOf name content)) with ⟨r, t1⟩
    cases r with
    | ok a =>
        simp only
        rcases hashLoop S E c.params [] a.2 t1 with ⟨r, t2⟩
        cases r with
        | ok h =>
            simp only
            rcases runTarget S E name target _ content t2.locals t2 with ⟨r, t3⟩
            cases r <;> rfl
        | _ => rfl
    | _ => rfl

/-- The inside of a partial, up to the scope being pushed. -/
def partialBody [Host] (S : Sem) (E : Env) (name : Str) (c : Call) (pb : Option Node) : RM Unit := do
  RM.modify fun s => { s with partials := withBlock pb s.partials }
  let node ← findPartial E name
  let scope ← partialScope S E c
  RM.modify (RS.push scope)
  let s ← RM.get
  runEvents (fun ev => S.renderNode E ev.node ev.trim) node.children none s.hint

/-- The end of a partial. -/
def finishPartial : Res Unit × RS → Res Unit × RS
  | (.ok a, t) => (.ok a, t.leavePartial)
  | (.err e, t) => (.err e, t.leave)
  | (.panic, t) => (.panic, t.leave)
  | (.fuel, t) => (.fuel, t.leave)

/-- A partial, once its name is known. -/
def partialAt [Host] (S : Sem) (E : Env) (c : Call) (pb : Option Node) (name : Str) : RM Unit := fun s =>
  if s.stack.contains (.part name) then (.err (.partialCycle name), s)
  else finishPartial (partialBody S E name c pb (s.enter (.part name)))

theorem renderPartial_eq [Host] (S : Sem) (E : Env) (c : Call) (pb : Option Node) :
    renderPartial S E c pb = partialName S E c >>= partialAt S E c pb := by
  funext s
  unfold renderPartial
  simp only [RM.bind_def, RM.get]
  rcases partialName S E c s with ⟨r, s⟩
  cases r with
  | ok name =>
      simp only
      unfold partialAt
      by_cases hc : s.stack.contains (.part name) = true
      · rw [if_pos hc, if_pos hc]; rfl
      · rw [if_neg hc, if_neg hc]
        unfold traced partialBody
        simp only [RM.bind_def, RM.modify, RM.get]
        rw [show ({ s with trace := s.trace ++ [.enter (.part name)], stack := .part name :: s.stack, partials := withBlock pb s.partials } : RS)
            = { s.enter (.part name) with partials := withBlock pb (s.enter (.part name)).partials } from rfl]
        generalize ({ s.enter (.part name) with partials := withBlock pb (s.enter (.part name)).partials } : RS) = s1
        rcases findPartial E name s1 with ⟨r, t⟩
        cases r with
        | ok node =>
            simp only
            rcases partialScope S E c t with ⟨r, u⟩
            cases r with
            | ok sc =>
                simp only
                rw [show ({ u with scopes := sc :: u.scopes } : RS) = u.push sc from rfl]
                rw [show (u.push sc).hint = u.hint from rfl]
                rcases runEvents (fun ev => S.renderNode E ev.node ev.trim) node.children none u.hint
                  (u.push sc) with ⟨r, v⟩
                cases r with
                | ok a => cases a; rfl
                | _ => rfl
            | _ => rfl
        | _ => rfl
  | _ => rfl

namespace FrameBase
variable [Host] {reg : Reg} (F : FrameBase reg)

theorem pure {α : Type} (a : α) {s : RS} (hs : F.I s) : F.OkAt (Pure.pure a : RM α) s :=
  ⟨hs, F.refl _ _⟩

theorem fail {α : Type} (e : RenderErr) {s : RS} (hs : F.I s) : F.OkAt (RM.fail e : RM α) s :=
  ⟨hs, F.refl _ _⟩

theorem panic {α : Type} {s : RS} (hs : F.I s) : F.OkAt (RM.panic : RM α) s :=
  ⟨hs, F.refl _ _⟩

theorem outOfFuel {α : Type} {s : RS} (hs : F.I s) : F.OkAt (RM.outOfFuel : RM α) s :=
  ⟨hs, F.refl _ _⟩

theorem orPanic {α : Type} (o : Option α) {s : RS} (hs : F.I s) : F.OkAt (RM.orPanic o) s := by
  unfold RM.orPanic
  cases o <;> exact ⟨hs, F.refl _ _⟩

theorem bind {α β : Type} {m : RM α} {f : α → RM β} {s : RS} (h : F.OkAt m s)
    (hf : ∀ a t, m s = (.ok a, t) → F.I t → F.OkAt (f a) t) : F.OkAt (m >>= f) s := by
  unfold Rel.OkAt at h ⊢
  rw [RM.bind_def]
  rcases hm : m s with ⟨r, t⟩
  rw [hm] at h
  cases r with
  | ok a =>
      have := hf a t hm h.1
      exact ⟨this.1, F.trans h.2 this.2⟩
  | err e => exact h
  | panic => exact h
  | fuel => exact h

theorem bindOk {α β : Type} {m : RM α} {f : α → RM β} (h : F.Ok m) (hf : ∀ a, F.Ok (f a)) :
    F.Ok (m >>= f) := fun s hs => F.bind (h s hs) fun a t _ ht => hf a t ht

theorem getBind {β : Type} {f : RS → RM β} {s : RS} (h : F.OkAt (f s) s) : F.OkAt (RM.get >>= f) s := h

theorem modify {f : RS → RS} {s : RS} (hs : F.I s) (h : Minor1 s (f s)) : F.OkAt (RM.modify f) s :=
  F.minor hs h

/-- When failing steps are related like successful ones, errors may be caught. -/
theorem catchErr {α β : Type} {m : RM α} {f : Except RenderErr α → RM β} {s : RS} (h : F.OkAt m s)
    (hok : ∀ a t, m s = (.ok a, t) → F.I t → F.OkAt (f (.ok a)) t)
    (herr : ∀ e t, m s = (.err e, t) → F.I t → F.R false s t →
      F.I (f (.error e) t).2 ∧ F.R (f (.error e) t).1.isOk s (f (.error e) t).2) :
    F.OkAt (RM.catchErr m f) s := by
  unfold Rel.OkAt at h ⊢
  unfold RM.catchErr
  rcases hm : m s with ⟨r, t⟩
  rw [hm] at h
  cases r with
  | ok a =>
      have := hok a t hm h.1
      exact ⟨this.1, F.trans h.2 this.2⟩
  | err e => exact herr e t hm h.1 h.2
  | panic => exact h
  | fuel => exact h

theorem rawWrite (E : Env) (c : Str) : F.Ok (rawWrite E c) := by
  intro s hs
  exact F.minor hs ⟨⟨rfl, rfl, rfl, rfl, ⟨_, rfl⟩, fun _ _ => rfl⟩, rfl⟩

theorem writeStr (E : Env) (c : Str) (esc : Bool) : F.Ok (writeStr E c esc) := by
  intro s hs
  unfold Bracket.writeStr
  refine F.getBind ?_
  dsimp only
  by_cases hv : List.isEmpty (applyTrim s.trim c) = true
  · rw [if_pos hv]; exact F.pure _ hs
  · rw [if_neg hv]
    refine F.bind (F.rawWrite E _ s hs) fun r t _ ht => ?_
    cases r with
    | ok n => exact F.pure _ ht
    | error e => exact F.fail _ ht

theorem lookupM (E : Env) (p : Path) : F.Ok (lookupM E p) := by
  intro s hs
  exact F.getBind (F.orPanic _ hs)

theorem evaluate (E : Env) (p : Str) : F.Ok (evaluate E p) := by
  intro s hs
  unfold Bracket.evaluate
  cases pathFromStr p with
  | ok p =>
      cases p with
      | some p => exact F.bind (F.lookupM E p s hs) fun _ t _ ht => F.pure _ ht
      | none => exact F.pure _ hs
  | err e => exact F.pure _ hs
  | panic => exact F.panic hs
  | fuel => exact F.outOfFuel hs

theorem nested {m : RM Unit} {s : RS} {scs : List Scope} (hs : F.I s) (h : F.OkAt m (s.inner scs)) :
    F.OkAt (nested { RS.init s.stack with scopes := scs } m) s := by
  unfold Rel.OkAt Bracket.nested at *
  rcases hm : m (s.inner scs) with ⟨r, t⟩
  rw [hm] at h
  have hm' : m { RS.init s.stack with scopes := scs, logs := s.logs, trace := s.trace } = (r, t) := hm
  rw [hm']
  have := F.after hs h.2 h.1
  cases r with
  | ok a => exact this
  | err e => exact ⟨this.1, F.trans this.2 (F.refl _ _)⟩
  | panic => exact ⟨this.1, F.trans this.2 (F.refl _ _)⟩
  | fuel => exact ⟨this.1, F.trans this.2 (F.refl _ _)⟩

section
variable {S : Sem} (H : F.SemOk reg S)
include H

theorem nextBefore (l : List Node) : F.Ok (nextBefore l) := by
  intro s hs
  unfold Bracket.nextBefore
  cases l with
  | nil => exact F.pure _ hs
  | cons x l => exact F.bind (F.orPanic _ hs) fun _ t _ ht => F.pure _ ht

theorem runEvents {f : Ev → RM Unit} (h : ∀ ev, F.Ok (f ev)) :
    ∀ ns prev hint, F.Ok (runEvents f ns prev hint) := by
  intro ns
  induction ns with
  | nil => intro _ _ s hs; exact F.pure _ hs
  | cons n rest ih =>
      intro prev hint s hs
      unfold Bracket.runEvents
      exact F.bind (F.nextBefore H _ _ hs) fun _ t _ ht => F.bind (F.orPanic _ ht) fun _ t _ ht =>
        F.bind (h _ _ ht) fun _ t _ ht => ih _ _ _ ht

theorem renderAll {E : Env} (hE : E.reg = reg) (n : Node) : F.Ok (renderAll S E n) :=
  F.runEvents H (fun ev => H.renderNode E hE ev.node ev.trim) _ _ _

theorem templateEvent {E : Env} (hE : E.reg = reg) (n : Node) (ev : Ev) :
    F.Ok (templateEvent S E n ev) := by
  intro s hs
  unfold Bracket.templateEvent
  refine F.bind ?_ fun _ t _ ht => F.bind ?_ fun _ u _ hu => H.renderNode E hE _ _ _ hu
  · unfold firstHint; split
    · exact F.orPanic _ hs
    · exact F.pure _ hs
  · unfold lastHint
    cases n with
    | block b =>
        simp only
        split
        · exact F.orPanic _ ht
        · exact F.pure _ ht
    | _ => exact F.pure _ ht

theorem template {E : Env} (hE : E.reg = reg) (n : Node) : F.Ok (template S E n) := by
  intro s hs
  unfold Bracket.template
  refine F.getBind (F.bind (F.runEvents H (F.templateEvent H hE n) _ _ _ _ hs) fun _ t _ ht =>
    F.bind (F.orPanic _ ht) fun _ u _ hu => F.modify hu ?_)
  exact ⟨⟨rfl, rfl, rfl, rfl, ⟨[], by simp⟩, fun _ _ => rfl⟩, rfl⟩

theorem inverse {E : Env} (hE : E.reg = reg) (n : Node) : F.Ok (inverse S E n) := by
  unfold Bracket.inverse
  cases n with
  | block b =>
      simp only
      suffices ∀ l alt, F.Ok (inverseLoop S E l alt) from this _ _
      intro l
      induction l with
      | nil => intro alt s hs; exact F.pure _ hs
      | cons x l ih =>
          intro alt s hs
          cases x with
          | block c =>
              unfold inverseLoop
              split
              · exact ih _ _ hs
              · refine F.bind (H.call E hE _ _ hs) fun v t _ ht => ?_
                cases v with
                | none => exact ih _ _ ht
                | some v =>
                    simp only
                    split
                    · exact F.pure _ ht
                    · exact ih _ _ ht
          | _ => unfold inverseLoop; exact ih _ _ hs
  | _ => exact fun s hs => F.pure _ hs

theorem buffer {E : Env} (hE : E.reg = reg) (n : Node) : F.Ok (buffer S E n) := by
  intro s hs
  unfold Bracket.buffer
  exact F.getBind (F.nested hs (F.template H (E := { E with sink := stringSink }) hE n _ (F.inner hs)))

theorem once {E : Env} (hE : E.reg = reg) (f c : Str) (d : Value) : F.Ok (once S E f c d) := by
  intro s hs
  unfold Bracket.once
  refine F.getBind ?_
  cases compile c ⟨f, 0, 0⟩ with
  | ok doc =>
      have h := F.nested (s := s) (scs := []) hs
        (F.renderAll H (E := { E with name := f, root := d, sink := stringSink }) hE doc _ (F.inner hs))
      -- the error of the nested render is caught, its state is already that of a success
      simp only
      unfold Rel.OkAt RM.catchErr
      have h2 : ∀ m : RM Unit, F.OkAt m (s.inner []) →
          F.I (Bracket.nested (RS.init s.stack) m s).2 ∧
          F.R true s (Bracket.nested (RS.init s.stack) m s).2 := by
        intro m hm
        unfold Rel.OkAt at hm
        unfold Bracket.nested
        rcases hx : m (s.inner []) with ⟨r, t⟩
        rw [hx] at hm
        have hx' : m { RS.init s.stack with logs := s.logs, trace := s.trace } = (r, t) := hx
        rw [hx']
        have := F.after hs hm.2 hm.1
        cases r <;> exact this
      have h3 := h2 _ (F.renderAll H (E := { E with name := f, root := d, sink := stringSink }) hE doc _
        (F.inner hs))
      rcases hx : Bracket.nested (RS.init s.stack)
        (Bracket.renderAll S { E with name := f, root := d, sink := stringSink } doc) s with ⟨r, t⟩
      rw [hx] at h3
      cases r with
      | ok a => exact h3
      | err e => exact h3
      | panic => exact ⟨h3.1, F.trans h3.2 (F.refl _ _)⟩
      | fuel => exact ⟨h3.1, F.trans h3.2 (F.refl _ _)⟩
  | err e => exact F.pure _ hs
  | panic => exact F.panic hs
  | fuel => exact F.outOfFuel hs

theorem paramM {E : Env} (hE : E.reg = reg) (p : ParamValue) : F.Ok (paramM S E p) := by
  intro s hs
  unfold Bracket.paramM
  cases p with
  | json => exact F.pure _ hs
  | path p =>
      refine F.bind (F.lookupM E p s hs) fun v t _ ht => ?_
      cases v with
      | some v => exact F.pure _ ht
      | none => exact F.bind (F.orPanic _ ht) fun _ u _ hu => F.pure _ hu
  | subExpr c =>
      refine F.bind (H.statement E hE c s hs) fun v t _ ht => ?_
      cases v with
      | some v => exact F.pure _ ht
      | none => exact F.bind (F.orPanic _ ht) fun _ u _ hu => F.pure _ hu

theorem argumentsLoop {E : Env} (hE : E.reg = reg) : ∀ ps i ms, F.Ok (argumentsLoop S E i ps ms) := by
  intro ps
  induction ps with
  | nil => intro i ms s hs; exact F.pure _ hs
  | cons p ps ih =>
      intro i ms s hs
      exact F.bind (F.paramM H hE p s hs) fun _ t _ ht => F.bind (ih _ _ _ ht) fun _ u _ hu => F.pure _ hu

theorem hashLoop {E : Env} (hE : E.reg = reg) : ∀ ps out ms, F.Ok (hashLoop S E ps out ms) := by
  intro ps
  induction ps with
  | nil => intro i ms s hs; exact F.pure _ hs
  | cons p ps ih =>
      intro i ms s hs
      exact F.bind (F.paramM H hE p.2 s hs) fun _ t _ ht => ih _ _ _ ht

end

/-- Every helper body respects the relation if it may change scopes and local helpers at will and
errors can be caught. -/
theorem runAny {S : Sem} (H : F.SemOk reg S) {E : Env} (hE : E.reg = reg)
    (hcatch : ∀ {s t}, F.R false s t → F.R true s t)
    (hscopes : ∀ {s scs}, F.I s → F.I { s with scopes := scs } ∧ F.R true s { s with scopes := scs })
    (hlocals : ∀ {s n h}, F.I s → F.I { s with locals := assocInsert n h s.locals } ∧
      F.R true s { s with locals := assocInsert n h s.locals })
    (herase : ∀ {s n}, F.I s → F.I { s with locals := assocErase n s.locals } ∧
      F.R true s { s with locals := assocErase n s.locals }) (p : Prog) : F.Ok (run S E p) := by
  have hc : ∀ {α : Type} {m : RM α} {f : Except RenderErr α → RM (Option Value)} {s : RS},
      F.I s → F.OkAt m s → (∀ x, F.Ok (f x)) → F.OkAt (RM.catchErr m f) s := by
    intro α m f s hs hm hf
    refine F.catchErr hm (fun a t _ ht => hf _ t ht) ?_
    intro e t _ ht hr
    have := hf (.error e) t ht
    exact ⟨this.1, F.trans (hcatch hr) this.2⟩
  induction p with
  | ret v => exact fun s hs => F.pure _ hs
  | fail e => exact fun s hs => F.fail _ hs
  | panic => exact fun s hs => F.panic hs
  | write c k ih => intro s hs; unfold run; exact hc hs (F.writeStr E _ _ s hs) fun r => ih _
  | writeEscaped c k ih => intro s hs; unfold run; exact hc hs (F.writeStr E _ _ s hs) fun r => ih _
  | outWrite c k ih => intro s hs; unfold run; exact F.bind (F.rawWrite E _ s hs) fun r t _ ht => ih _ t ht
  | template n k ih => intro s hs; unfold run; exact hc hs (F.template H hE n s hs) fun r => ih _
  | render n k ih => intro s hs; unfold run; exact hc hs (F.renderAll H hE n s hs) fun r => ih _
  | inverse n k ih => intro s hs; unfold run; exact hc hs (F.inverse H hE n s hs) fun r => ih _
  | buffer n k ih => intro s hs; unfold run; exact hc hs (F.buffer H hE n s hs) fun r => ih _
  | once f c d k ih =>
      intro s hs; unfold run; exact F.bind (F.once H hE f c d s hs) fun r t _ ht => ih _ t ht
  | evaluate p k ih =>
      intro s hs; unfold run
      exact F.bind (F.evaluate E p s hs) fun r t _ ht => ih _ t ht
  | pushScope sc k ih => intro s hs; unfold run; exact F.bind (hscopes hs) fun _ t _ ht => ih t ht
  | popScope k ih =>
      intro s hs; unfold run
      exact F.getBind (F.bind (hscopes hs) fun _ t _ ht => ih _ t ht)
  | scopeMut f k ih =>
      intro s hs; unfold run
      refine F.getBind (F.bind ?_ fun _ t _ ht => ih _ t ht)
      cases hsc : s.scopes with
      | nil =>
          unfold Rel.OkAt RM.modify
          simp only [hsc]
          exact ⟨hs, F.refl _ _⟩
      | cons sc r =>
          unfold Rel.OkAt RM.modify
          simp only [hsc]
          exact hscopes hs
  | registerLocal n h k ih1 ih2 => intro s hs; unfold run; exact F.bind (hlocals hs) fun _ t _ ht => ih2 t ht
  | unregisterLocal n k ih => intro s hs; unfold run; exact F.bind (herase hs) fun _ t _ ht => ih t ht
  | peek k ih => intro s hs; unfold run; exact F.getBind (ih _ s hs)
  | log l m k ih =>
      intro s hs; unfold run
      refine F.bind (F.modify hs ?_) fun _ t _ ht => ih t ht
      exact ⟨⟨rfl, rfl, rfl, rfl, ⟨[], by simp⟩, fun _ _ => rfl⟩, rfl⟩

end FrameBase

namespace Frame
variable [Host] {reg : Reg} (F : Frame reg)

section
variable {S : Sem} (H : F.SemOk reg S)
include H

theorem runTarget {E : Env} (hE : E.reg = reg) (name : Str) (t : Target)
    (ht : ∀ h, t = .handler h → IsHelper reg h) (ctx : Ctx) (content : Option Node) {s : RS}
    (hs : F.I s) : F.OkAt (runTarget S E name t ctx content s.locals) s := by
  unfold Bracket.runTarget
  cases t with
  | name =>
      simp only
      cases hl : assoc name s.locals with
      | some h => exact F.localHelper S H E hE s hs name h hl _ _ s hs
      | none =>
          cases hr : assoc name E.reg.helpers with
          | some h => exact F.helper S H E hE h (.inl ⟨name, by rw [← hE]; exact hr⟩) _ _ s hs
          | none => exact F.pure _ hs
  | handler h => exact F.helper S H E hE h (ht h rfl) _ _ s hs

theorem invokeBody {E : Env} (hE : E.reg = reg) (name : Str) (t : Target)
    (ht : ∀ h, t = .handler h → IsHelper reg h) (c : Call) (content : Option Node)
    (text : Option Str) (prop : Option (Str × Value)) :
    F.Ok (invokeBody S E name t c content text prop) := by
  intro s hs
  unfold Bracket.invokeBody
  exact F.bind (F.argumentsLoop H hE _ _ _ _ hs) fun _ _ _ h1 =>
    F.bind (F.hashLoop H hE _ _ _ _ h1) fun _ _ _ h2 => F.getBind (F.runTarget H hE name t ht _ _ h2)

theorem invoke {E : Env} (hE : E.reg = reg) (name : Str) (t : Target)
    (ht : ∀ h, t = .handler h → IsHelper reg h) (c : Call) (content : Option Node)
    (text : Option Str) (prop : Option (Str × Value)) :
    F.Ok (invoke S E name t c content text prop) := by
  intro s hs
  unfold Rel.OkAt
  rw [invoke_eq]
  by_cases hc : (s.stack.filter (· == siteOf name content)).length ≥ stackMax
  · rw [if_pos hc]; exact F.fail (α := Unit) (.helperCycle name) hs
  · rw [if_neg hc]
    have he := F.enterCall (name := name) (content := content) hs (by omega)
    have hm := F.invokeBody H hE name t ht c content text prop _ he
    unfold Rel.OkAt at hm
    generalize Bracket.invokeBody S E name t c content text prop (s.enter (siteOf name content)) = x at hm ⊢
    obtain ⟨r, t⟩ := x
    cases r with
    | ok a => exact F.leaveOk hs hm.2 hm.1
    | err e => exact F.leaveErr hs hm.2 hm.1
    | panic => exact F.leaveErr hs hm.2 hm.1
    | fuel => exact F.leaveErr hs hm.2 hm.1

theorem callF {E : Env} (hE : E.reg = reg) (c : Call) : F.Ok (callF S E c) := by
  intro s hs
  unfold Bracket.callF
  cases c.target with
  | path p =>
      simp only
      split
      · exact F.lookupM E p s hs
      · split
        · refine F.bind (F.orPanic _ hs) fun name t _ ht => F.getBind ?_
          split
          · exact F.invoke H hE _ _ (by simp) _ _ _ _ _ ht
          · refine F.bind (F.lookupM E p t ht) fun v u _ hu => ?_
            cases v with
            | some v => exact F.pure _ hu
            | none =>
                cases hh : E.reg.helperMissing with
                | some h =>
                    exact F.invoke H hE _ _ (by
                      intro h' e; cases e; exact .inr (.inr (.inl (by rw [← hE]; exact hh)))) _ _ _ _ _ hu
                | none =>
                    simp only
                    split
                    · exact F.fail _ hu
                    · exact F.pure _ hu
        · refine F.bind (F.lookupM E p s hs) fun v u _ hu => ?_
          cases v with
          | some v => exact F.pure _ hu
          | none =>
              simp only
              split
              · exact F.bind (F.orPanic _ hu) fun _ t _ ht => F.fail _ ht
              · exact F.pure _ hu
  | subExpr sub => exact H.call E hE _ s hs

theorem partialName {E : Env} (hE : E.reg = reg) (c : Call) : F.Ok (partialName S E c) := by
  intro s hs
  unfold Bracket.partialName
  cases c.target with
  | path p =>
      simp only
      refine F.bind (F.orPanic _ hs) fun txt t _ ht => ?_
      split
      · exact F.pure _ ht
      · split
        · exact F.pure _ ht
        · exact F.fail _ ht
  | subExpr sub => exact F.bind (H.statement E hE _ s hs) fun _ t _ ht => F.pure _ ht

omit [Host] H in
theorem findPartial_start {E : Env} {name : Str} {s s1 t : RS} {r : Res Node} (ps : List (Str × Node))
    (hp : ∀ k, k ≠ nmPartialBlock → assoc k ps = assoc k s.partials)
    (h1 : s1 = { s.enter (.part name) with partials := ps }) (h : Bracket.findPartial E name s1 = (r, t)) :
    Started name r.isOk s t := by
  subst h1
  unfold Bracket.findPartial at h
  rw [RM.bind_def] at h
  simp only [RM.get] at h
  cases h1 : assoc name ps with
  | some n =>
      rw [h1] at h
      cases h
      exact ⟨ps, s.curPartial, rfl, hp, fun _ => .inl ⟨rfl, by rw [h1]; rfl⟩⟩
  | none =>
      rw [h1] at h
      cases h2 : assoc name E.reg.templates with
      | none =>
          rw [h2] at h
          cases h
          exact ⟨ps, s.curPartial, rfl, hp, fun h => by cases h⟩
      | some tm =>
          rw [h2] at h
          cases h
          exact ⟨ps, tm.fileName :: s.curPartial, rfl, hp, fun _ => .inr ⟨tm.fileName, rfl, h1⟩⟩

theorem partialScope {E : Env} (hE : E.reg = reg) (c : Call) : F.Ok (partialScope S E c) := by
  intro s hs
  unfold Bracket.partialScope
  refine F.bind (F.hashLoop H hE _ _ _ _ hs) fun h t _ ht => ?_
  split
  · exact F.pure _ ht
  · exact F.bind (F.argumentsLoop H hE _ _ _ _ ht) fun _ u _ hu => F.pure _ hu

theorem renderPartial {E : Env} (hE : E.reg = reg) (c : Call) (pb : Option Node) :
    F.Ok (renderPartial S E c pb) := by
  intro s hs
  unfold Bracket.renderPartial
  refine F.bind (F.partialName H hE c s hs) fun name s _ hs => F.getBind ?_
  by_cases hc : s.stack.contains (.part name) = true
  · rw [if_pos hc]; exact F.fail _ hs
  · rw [if_neg hc]
    have hc' : s.stack.contains (.part name) = false := by simpa using hc
    unfold Rel.OkAt Bracket.traced
    simp only [RM.bind_def, RM.modify]
    -- the stack and trace are pushed, then `@partial-block` is set
    generalize hp : withBlock pb s.partials = ps
    have hmin : ∀ k, k ≠ nmPartialBlock → assoc k ps = assoc k s.partials := by
      intro k hk
      rw [← hp]
      cases pb with
      | none => rfl
      | some n =>
          show assoc k (assocInsert nmPartialBlock n s.partials) = assoc k s.partials
          induction s.partials with
          | nil => simp [assocInsert, assoc, Ne.symm hk]
          | cons q l ih =>
              obtain ⟨a, b⟩ := q
              unfold assocInsert
              by_cases h1 : a = nmPartialBlock
              · rw [if_pos h1]; simp only [assoc]
                rw [if_neg (Ne.symm hk), if_neg (by rw [h1]; exact Ne.symm hk)]
              · rw [if_neg h1]; simp only [assoc]; rw [ih]
    rw [show ({ s with trace := s.trace ++ [.enter (.part name)], stack := .part name :: s.stack,
                       partials := ps } : RS) = { s.enter (.part name) with partials := ps } from rfl]
    generalize hs1 : ({ s.enter (.part name) with partials := ps } : RS) = s1
    rcases hf : Bracket.findPartial E name s1 with ⟨r, t⟩
    have hst := findPartial_start ps hmin hs1.symm hf
    have hi := F.enterPartial hs hc' hst
    cases r with
    | ok node =>
        simp only [Res.isOk] at hst ⊢
        have h2 := F.partialScope H hE c _ hi
        unfold Rel.OkAt at h2
        rcases hg : Bracket.partialScope S E c t with ⟨r, u⟩
        rw [hg] at h2
        cases r with
        | ok sc =>
            simp only at h2 ⊢
            have h3 := F.runEvents H (fun ev => H.renderNode E hE ev.node ev.trim) node.children none u.hint
              (u.push sc) (F.push h2.1)
            unfold Rel.OkAt at h3
            rw [show (RM.get : RM RS) { u with scopes := sc :: u.scopes } = (.ok (u.push sc), u.push sc) from rfl]
            simp only
            rw [show (u.push sc).hint = u.hint from rfl]
            rcases hv : Bracket.runEvents (fun ev => S.renderNode E ev.node ev.trim) node.children none u.hint
              (u.push sc) with ⟨r, v⟩
            rw [hv] at h3
            cases r with
            | ok a => exact F.leavePartial hs hc' hst h2.2 h2.1 h3.2 h3.1
            | err e => exact F.leavePartialErr hs hc' hst (F.trans h2.2 (F.pushErr h3.2)) h3.1
            | panic => exact F.leavePartialErr hs hc' hst (F.trans h2.2 (F.pushErr h3.2)) h3.1
            | fuel => exact F.leavePartialErr hs hc' hst (F.trans h2.2 (F.pushErr h3.2)) h3.1
        | err e => exact F.leavePartialErr hs hc' hst h2.2 h2.1
        | panic => exact F.leavePartialErr hs hc' hst h2.2 h2.1
        | fuel => exact F.leavePartialErr hs hc' hst h2.2 h2.1
    | err e => exact F.leavePartialErr hs hc' hst (F.refl _ _) hi
    | panic => exact F.leavePartialErr hs hc' hst (F.refl _ _) hi
    | fuel => exact F.leavePartialErr hs hc' hst (F.refl _ _) hi

theorem statementF {E : Env} (hE : E.reg = reg) (c : Call) : F.Ok (statementF S E c) := by
  intro s hs
  unfold Bracket.statementF
  split
  · exact F.bind (F.renderPartial H hE c none s hs) fun _ t _ ht => F.pure _ ht
  · exact H.call E hE c s hs

theorem templateQ {E : Env} (hE : E.reg = reg) (n : Node) : F.Ok (templateQ S E n) := by
  intro s hs
  refine F.catchErr (F.template H hE n s hs) (fun a t _ ht => F.pure _ ht) ?_
  intro e t _ ht hr
  exact ⟨ht, hr⟩

theorem blockHelperMissing {E : Env} (hE : E.reg = reg) (node : Node) (c : Call) (p : Path)
    (text : Option Str) (raw : Bool) : F.Ok (blockHelperMissing S E node c p text raw) := by
  intro s hs
  unfold Bracket.blockHelperMissing
  split
  · cases text with
    | some t => exact F.bind (F.writeStr E _ _ s hs) fun _ t _ ht => F.pure _ ht
    | none => exact F.pure _ hs
  · refine F.bind (F.lookupM E p s hs) fun v t _ ht => ?_
    cases v with
    | some v =>
        cases hh : E.reg.blockHelperMissing with
        | some h =>
            simp only
            exact F.bind (F.orPanic _ ht) fun _ u _ hu => F.bind (F.invoke H hE _ _ (by
              intro h' e; cases e; exact .inr (.inr (.inr (by rw [← hE]; exact hh)))) _ _ _ _ _ hu)
              fun _ w _ hw => F.pure _ hw
        | none => simp only; exact F.templateQ H hE node t ht
    | none =>
        cases hh : E.reg.helperMissing with
        | some h =>
            simp only
            exact F.bind (F.invoke H hE _ _ (by
              intro h' e; cases e; exact .inr (.inr (.inl (by rw [← hE]; exact hh)))) _ _ _ _ _ ht)
              fun _ w _ hw => F.pure _ hw
        | none =>
            simp only
            split
            · exact F.bind (F.orPanic _ ht) fun _ u _ hu => F.fail _ hu
            · exact F.pure _ ht

theorem blockF {E : Env} (hE : E.reg = reg) (b : Block) : F.Ok (blockF S E b) := by
  intro s hs
  unfold Bracket.blockF
  split
  · exact F.renderPartial H hE _ _ s hs
  · cases b.call.target with
    | path p =>
        simp only
        split
        · refine F.bind ?_ fun text t _ ht => F.bind (F.orPanic _ ht) fun name u _ hu => F.getBind ?_
          · unfold blockText
            split
            · refine F.bind (F.orPanic _ hs) fun _ t _ ht => F.bind (F.modify ht ?_) fun _ u _ hu => F.pure _ hu
              exact ⟨⟨rfl, rfl, rfl, rfl, ⟨[], by simp⟩, fun _ _ => rfl⟩, rfl⟩
            · exact F.pure _ hs
          · split
            · exact F.bind (F.invoke H hE _ _ (by simp) _ _ _ _ _ hu) fun _ w _ hw => F.pure _ hw
            · exact F.blockHelperMissing H hE _ _ _ _ _ _ hu
        · exact F.bind (F.orPanic _ hs) fun _ t _ ht => F.fail _ ht
    | subExpr c => exact F.fail _ hs

theorem renderKind {E : Env} (hE : E.reg = reg) (node : Node) : F.Ok (renderKind S E node) := by
  intro s hs
  unfold Bracket.renderKind
  cases node with
  | text t => exact F.bind (F.orPanic _ hs) fun _ u _ hu => F.bind (F.writeStr E _ _ u hu) fun _ v _ hv => F.pure _ hv
  | rawStatement t =>
      exact F.bind (F.orPanic _ hs) fun _ u _ hu => F.bind (F.orPanic _ hu) fun _ u _ hu =>
        F.bind (F.writeStr E _ _ u hu) fun _ v _ hv => F.pure _ hv
  | link l =>
      simp only
      refine F.bind (F.orPanic _ hs) fun esc t _ ht => ?_
      split
      · exact F.bind (F.orPanic _ ht) fun _ u _ hu => F.bind (F.writeStr E _ _ u hu) fun _ v _ hv => F.pure _ hv
      · cases hh : E.reg.link with
        | some h =>
            simp only
            exact F.bind (F.orPanic _ ht) fun _ u _ hu => F.bind (F.invoke H hE _ _ (by
              intro h' e; cases e; exact .inr (.inl (by rw [← hE]; exact hh))) _ _ _ _ _ hu)
              fun _ w _ hw => F.pure _ hw
        | none =>
            simp only
            exact F.bind (F.orPanic _ ht) fun _ u _ hu => F.bind (F.writeStr E _ _ u hu) fun _ v _ hv => F.pure _ hv
  | statement c =>
      refine F.bind (H.statement E hE c s hs) fun v t _ ht => ?_
      cases v with
      | some v =>
          exact F.bind (F.orPanic _ ht) fun _ u _ hu => F.bind (F.writeStr E _ _ u hu) fun _ v _ hv => F.pure _ hv
      | none => exact F.pure _ ht
  | block b => exact F.blockF H hE b s hs
  | rawComment t => exact F.pure _ hs
  | comment t => exact F.pure _ hs
  | document _ _ => exact F.pure _ hs

theorem renderNodeF {E : Env} (hE : E.reg = reg) (node : Node) (t : TrimState) :
    F.Ok (renderNodeF S E node t) := by
  intro s hs
  unfold Bracket.renderNodeF
  refine F.bind (F.orPanic _ hs) fun h u _ hu => F.bind (F.modify hu ?_) fun _ v _ hv => F.renderKind H hE node v hv
  exact ⟨⟨rfl, rfl, rfl, rfl, ⟨[], by simp⟩, fun _ _ => rfl⟩, rfl⟩

end

/-- The induction over the recursion depth. -/
theorem semOk : ∀ n, F.SemOk reg (sem n) := by
  intro n
  induction n with
  | zero =>
      exact ⟨fun _ _ _ _ s hs => F.outOfFuel hs, fun _ _ _ s hs => F.outOfFuel hs, fun _ _ _ s hs => F.outOfFuel hs⟩
  | succ n ih =>
      exact ⟨fun E hE nd t => F.renderNodeF ih hE nd t, fun E hE c => F.statementF ih hE c,
        fun E hE c => F.callF ih hE c⟩

end Frame
end Bracket
