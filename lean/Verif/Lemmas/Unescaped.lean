import Verif.Spec.Unescaped
import Verif.Lemmas.Uses
import Verif.Lemmas.Frame
import Verif.Lemmas.Basic

/-! Where nothing is escaped the escape function does not matter. -/

set_option linter.unusedSectionVars false

namespace Bracket.Unescaped
open Spec

variable [Host]

theorem within {n x : Node} (h : NodeRaw n) (hx : Inhabits x n) : NodeRaw x :=
  fun c hc => h c (Uses.inhabits_trans hc hx)

/-- The two registries differ at most in the escape function. -/
structure SameBut (r r' : Reg) : Prop where
  templates : r.templates = r'.templates
  helpers : r.helpers = r'.helpers
  link : r.link = r'.link
  helperMissing : r.helperMissing = r'.helperMissing
  blockHelperMissing : r.blockHelperMissing = r'.blockHelperMissing
  strict : r.strict = r'.strict

theorem inner {n x : Node} (h : NodeRaw n) (hx : x ∈ n.children) : NodeRaw x :=
  within h (.child .self hx)

/-- The local helpers and the contents of block partials use no other names. -/
structure Inv (s : RS) : Prop where
  locals : ∀ n h, assoc n s.locals = some h → HelperRaw h
  partials : ∀ n x, assoc n s.partials = some x → NodeRaw x

def After {α : Type} (Q : α → Prop) : Res α × RS → Prop
  | (.ok a, t) => Q a ∧ Inv t
  | (.err _, t) => Inv t
  | (.fuel, _) => True
  | (.panic, _) => True

/-- From `s` the two computations do the same; then `Q` and the invariant hold. -/
def EqAt {α : Type} (m m' : RM α) (Q : α → Prop) (s : RS) : Prop :=
  m s = m' s ∧ After Q (m s)

def Eqv {α : Type} (m m' : RM α) (Q : α → Prop) : Prop :=
  ∀ s, Inv s → EqAt m m' Q s

abbrev Any {α : Type} : α → Prop := fun _ => True

theorem Inv.of {s t : RS} (h : Inv s) (hl : t.locals = s.locals) (hp : t.partials = s.partials) : Inv t :=
  ⟨by rw [hl]; exact h.locals, by rw [hp]; exact h.partials⟩

theorem pure {α : Type} {a : α} {Q : α → Prop} (ha : Q a) {s : RS} (hs : Inv s) :
    EqAt (Pure.pure a : RM α) (Pure.pure a) Q s := ⟨rfl, ha, hs⟩
theorem fail {α : Type} {Q : α → Prop} (e : RenderErr) {s : RS} (hs : Inv s) :
    EqAt (RM.fail e : RM α) (RM.fail e) Q s := ⟨rfl, hs⟩
theorem panic {α : Type} {Q : α → Prop} {s : RS} : EqAt (RM.panic : RM α) RM.panic Q s := ⟨rfl, trivial⟩
theorem outOfFuel {α : Type} {Q : α → Prop} {s : RS} : EqAt (RM.outOfFuel : RM α) RM.outOfFuel Q s :=
  ⟨rfl, trivial⟩
theorem orPanic {α : Type} {o : Option α} {Q : α → Prop} (h : ∀ a, o = some a → Q a) {s : RS} (hs : Inv s) :
    EqAt (RM.orPanic o) (RM.orPanic o) Q s := by
  refine ⟨rfl, ?_⟩
  cases o with
  | none => exact trivial
  | some a => exact ⟨h a rfl, hs⟩
theorem orPanic' {α : Type} {o : Option α} {s : RS} (hs : Inv s) : EqAt (RM.orPanic o) (RM.orPanic o) Any s :=
  orPanic (fun _ _ => trivial) hs

theorem bind {α β : Type} {m m' : RM α} {f f' : α → RM β} {P : α → Prop} {Q : β → Prop} {s : RS} (h : EqAt m m' P s)
    (hf : ∀ a t, P a → Inv t → EqAt (f a) (f' a) Q t) : EqAt (m >>= f) (m' >>= f') Q s := by
  obtain ⟨h1, h2⟩ := h
  unfold EqAt
  rw [RM.bind_def, RM.bind_def, ← h1]
  generalize m s = y at h2 ⊢
  obtain ⟨r, t⟩ := y
  cases r with
  | ok a => exact hf a t h2.1 h2.2
  | err e => exact ⟨rfl, h2⟩
  | panic => exact ⟨rfl, h2⟩
  | fuel => exact ⟨rfl, h2⟩

theorem getBind {β : Type} {f f' : RS → RM β} {Q : β → Prop} {s : RS} (h : EqAt (f s) (f' s) Q s) :
    EqAt (RM.get >>= f) (RM.get >>= f') Q s := h

theorem modify {f : RS → RS} {s : RS} (h : Inv (f s)) : EqAt (RM.modify f) (RM.modify f) Any s :=
  ⟨rfl, trivial, h⟩

theorem catchErr {α β : Type} {m m' : RM α} {f f' : Except RenderErr α → RM β} {P : α → Prop} {Q : β → Prop} {s : RS}
    (h : EqAt m m' P s) (hf : ∀ r, (∀ a, r = .ok a → P a) → Eqv (f r) (f' r) Q) :
    EqAt (RM.catchErr m f) (RM.catchErr m' f') Q s := by
  obtain ⟨h1, h2⟩ := h
  unfold EqAt RM.catchErr
  rw [← h1]
  generalize m s = y at h2 ⊢
  obtain ⟨r, t⟩ := y
  cases r with
  | ok a => exact hf _ (by rintro _ ⟨⟩; exact h2.1) t h2.2
  | err e => exact hf _ (by rintro _ ⟨⟩) t h2
  | panic => exact ⟨rfl, h2⟩
  | fuel => exact ⟨rfl, h2⟩

theorem lookupM {r r' : Reg} (a : Str) (b : Value) (c : Sink) (p : Path) :
    Eqv (lookupM ⟨r, a, b, c⟩ p) (lookupM ⟨r', a, b, c⟩ p) Any := fun _ hs => getBind (orPanic' hs)

theorem nested {init : RS} (hi : init.locals = []) (hp : init.partials = []) {m m' : RM Unit}
    (h : Eqv m m' Any) : Eqv (nested init m) (nested init m') Any := by
  intro s hs
  obtain ⟨h1, h2⟩ := h { init with logs := s.logs, trace := s.trace } ⟨by simp [hi, assoc], by simp [hp, assoc]⟩
  unfold EqAt Bracket.nested
  rw [← h1]
  generalize m { init with logs := s.logs, trace := s.trace } = x at h2 ⊢
  obtain ⟨r, t⟩ := x
  cases r with
  | ok a => exact ⟨rfl, trivial, hs.locals, hs.partials⟩
  | err e => exact ⟨rfl, hs.locals, hs.partials⟩
  | panic => exact ⟨rfl, trivial⟩
  | fuel => exact ⟨rfl, trivial⟩

theorem traced {α : Type} {site : CallSite} {m m' : RM α} {Q : α → Prop} (h : Eqv m m' Q) :
    Eqv (traced site m) (traced site m') Q := by
  intro s hs
  obtain ⟨h1, h2⟩ := h { s with trace := s.trace ++ [.enter site] } (hs.of rfl rfl)
  unfold EqAt Bracket.traced
  rw [← h1]
  generalize m { s with trace := s.trace ++ [.enter site] } = x at h2 ⊢
  obtain ⟨r, t⟩ := x
  cases r with
  | ok a => exact ⟨rfl, h2.1, h2.2.of rfl rfl⟩
  | err e => exact ⟨rfl, Inv.of (s := t) h2 rfl rfl⟩
  | panic => exact ⟨rfl, trivial⟩
  | fuel => exact ⟨rfl, trivial⟩

theorem nextBefore (l : List Node) : Eqv (nextBefore l) (nextBefore l) Any := by
  intro s hs
  cases l with
  | nil => exact pure trivial hs
  | cons x l => exact bind (orPanic' hs) fun _ t _ ht => pure trivial ht

theorem runEvents {f f' : Ev → RM Unit} (h : ∀ ev : Ev, NodeRaw ev.node → Eqv (f ev) (f' ev) Any) :
    ∀ ns, (∀ x ∈ ns, NodeRaw x) → ∀ prev hint, Eqv (runEvents f ns prev hint) (runEvents f' ns prev hint) Any := by
  intro ns
  induction ns with
  | nil => intro _ _ _ s hs; exact pure trivial hs
  | cons n rest ih =>
      intro hn prev hint s hs
      unfold Bracket.runEvents
      exact bind (nextBefore rest _ hs) fun _ t _ ht => bind (orPanic' ht) fun _ t _ ht =>
        bind (h _ (hn n (by simp)) _ ht) fun _ t _ ht => ih (fun x hx => hn x (by simp [hx])) _ _ _ ht

/-- The recursive entry points do the same with the two registries, for what uses only these names. -/
structure SemSame (r r' : Reg) (S : Sem) : Prop where
  node : ∀ a b c n t, NodeRaw n → Eqv (S.renderNode ⟨r, a, b, c⟩ n t) (S.renderNode ⟨r', a, b, c⟩ n t) Any
  stmt : ∀ a b c x, Eqv (S.statement ⟨r, a, b, c⟩ x) (S.statement ⟨r', a, b, c⟩ x) (fun v => x.isPartial = true → v = none)
  call : ∀ a b c x, Eqv (S.call ⟨r, a, b, c⟩ x) (S.call ⟨r', a, b, c⟩ x) Any

section
variable {r r' : Reg} {S : Sem} (hr : SameBut r r') (hu : RegRaw r) (H : SemSame r r' S)
  (a : Str) (b : Value) (c : Sink)
include hr hu H

theorem writeStr (x : Str) : Eqv (writeStr ⟨r, a, b, c⟩ x false) (writeStr ⟨r', a, b, c⟩ x false) Any := by
  intro s hs
  have h : Bracket.writeStr ⟨r, a, b, c⟩ x false = Bracket.writeStr ⟨r', a, b, c⟩ x false := rfl
  rw [← h]
  unfold Bracket.writeStr
  refine getBind ?_
  by_cases hv : (applyTrim s.trim x).isEmpty = true
  · simp only [hv, if_true]
    exact pure (Q := Any) trivial hs
  · simp only [hv, Bool.false_eq_true, if_false]
    refine bind (P := Any) ⟨rfl, trivial, hs.of rfl rfl⟩ fun q t _ ht => ?_
    cases q with
    | ok n => exact pure (Q := Any) trivial ht
    | error e => exact fail (Q := Any) _ ht

theorem renderAll {n : Node} (hn : NodeRaw n) :
    Eqv (renderAll S ⟨r, a, b, c⟩ n) (renderAll S ⟨r', a, b, c⟩ n) Any :=
  runEvents (fun ev hev => H.node a b c ev.node ev.trim hev) _ (fun _ hx => inner hn hx) _ _

theorem templateEvent (n : Node) (ev : Ev) (hev : NodeRaw ev.node) :
    Eqv (templateEvent S ⟨r, a, b, c⟩ n ev) (templateEvent S ⟨r', a, b, c⟩ n ev) Any := by
  intro s hs
  unfold Bracket.templateEvent
  refine bind (P := Any) ?_ fun _ t _ ht => bind (P := Any) ?_ fun _ u _ hu => H.node a b c _ _ hev _ hu
  · unfold firstHint; split
    · exact orPanic' hs
    · exact pure trivial hs
  · unfold lastHint
    cases n with
    | block b =>
        simp only
        split
        · exact orPanic' ht
        · exact pure trivial ht
    | _ => exact pure trivial ht

theorem template {n : Node} (hn : NodeRaw n) :
    Eqv (template S ⟨r, a, b, c⟩ n) (template S ⟨r', a, b, c⟩ n) Any := by
  intro s hs
  unfold Bracket.template
  exact getBind (bind (runEvents (templateEvent hr hu H a b c n) _ (fun _ hx => inner hn hx) _ _ _ hs) fun _ t _ ht =>
    bind (orPanic' ht) fun _ u _ hu => modify (hu.of rfl rfl))

theorem inverse {n : Node} (hn : NodeRaw n) :
    Eqv (inverse S ⟨r, a, b, c⟩ n) (inverse S ⟨r', a, b, c⟩ n) (fun o => ∀ m, o = some m → NodeRaw m) := by
  unfold Bracket.inverse
  cases n with
  | block bl =>
      simp only
      suffices ∀ l, (∀ x ∈ l, NodeRaw x) → ∀ alt, (∀ m, alt = some m → NodeRaw m) →
          Eqv (inverseLoop S ⟨r, a, b, c⟩ l alt) (inverseLoop S ⟨r', a, b, c⟩ l alt) (fun o => ∀ m, o = some m → NodeRaw m) from
        this _ (fun _ hx => within hn (.clause .self hx)) _ (by rintro _ ⟨⟩)
      intro l
      induction l with
      | nil => intro _ alt ha s hs; exact pure ha hs
      | cons x l ih =>
          intro hl alt ha s hs
          have hx := hl x (by simp)
          have hrest : ∀ y ∈ l, NodeRaw y := fun y hy => hl y (by simp [hy])
          cases x with
          | block cl =>
              unfold inverseLoop
              split
              · exact ih hrest _ (by rintro _ ⟨⟩; exact hx) _ hs
              · refine bind (H.call a b c _ _ hs) fun v t _ ht => ?_
                cases v with
                | none => exact ih hrest _ ha _ ht
                | some v =>
                    simp only
                    split
                    · exact pure (by rintro _ ⟨⟩; exact hx) ht
                    · exact ih hrest _ ha _ ht
          | _ => unfold inverseLoop; exact ih hrest _ ha _ hs
  | _ => exact fun s hs => pure (by rintro _ ⟨⟩) hs

theorem buffer {n : Node} (hn : NodeRaw n) :
    Eqv (buffer S ⟨r, a, b, c⟩ n) (buffer S ⟨r', a, b, c⟩ n) Any := fun s hs =>
  getBind (nested (init := { RS.init s.stack with scopes := s.scopes }) rfl rfl (template hr hu H a b stringSink hn) s hs)

theorem once (f : Str) (x : Str) (d : Value) (hc : ∀ n, compile x ⟨f, 0, 0⟩ = .ok n → NodeRaw n) :
    Eqv (once S ⟨r, a, b, c⟩ f x d) (once S ⟨r', a, b, c⟩ f x d) Any := by
  intro s hs
  unfold Bracket.once
  refine getBind ?_
  cases hd' : compile x ⟨f, 0, 0⟩ with
  | ok doc =>
      simp only
      exact catchErr (nested (init := RS.init s.stack) rfl rfl
        (renderAll hr hu H f d stringSink (hc _ hd')) s hs) fun r _ t ht => pure trivial ht
  | err e => exact pure trivial hs
  | panic => exact panic
  | fuel => exact outOfFuel

theorem evaluate (p : Str) : Eqv (evaluate ⟨r, a, b, c⟩ p) (evaluate ⟨r', a, b, c⟩ p) Any := by
  intro s hs
  unfold Bracket.evaluate
  cases pathFromStr p with
  | ok q =>
      cases q with
      | none => exact pure trivial hs
      | some q => exact bind (lookupM a b c q s hs) fun _ t _ ht => pure trivial ht
  | err e => exact pure trivial hs
  | panic => exact panic
  | fuel => exact outOfFuel

theorem run {p : Prog} (hp : ProgRaw p) :
    Eqv (run S ⟨r, a, b, c⟩ p) (run S ⟨r', a, b, c⟩ p) Any := by
  induction hp with
  | panic => exact fun s hs => panic
  | ret v => exact fun s hs => pure trivial hs
  | fail e => exact fun s hs => fail _ hs
  | write x k h ih => intro s hs; unfold Bracket.run; exact catchErr (writeStr hr hu H a b c _ s hs) fun r _ => ih _
  | outWrite x k h ih =>
      intro s hs; unfold Bracket.run
      exact bind (P := Any) ⟨rfl, trivial, hs.of rfl rfl⟩ fun r t _ ht => ih _ t ht
  | template n k hn h ih => intro s hs; unfold Bracket.run; exact catchErr (template hr hu H a b c hn s hs) fun r _ => ih _
  | render n k hn h ih => intro s hs; unfold Bracket.run; exact catchErr (renderAll hr hu H a b c hn s hs) fun r _ => ih _
  | inverse n k hn h ih =>
      intro s hs; unfold Bracket.run
      refine catchErr (inverse hr hu H a b c hn s hs) fun r hr => ih _ ?_
      intro m hm
      cases r with
      | ok a => cases hm; exact hr _ rfl m rfl
      | error e => cases hm
  | buffer n k hn h ih => intro s hs; unfold Bracket.run; exact catchErr (buffer hr hu H a b c hn s hs) fun r _ => ih _
  | once f x d k hc h ih => intro s hs; unfold Bracket.run; exact bind (once hr hu H a b c f x d hc s hs) fun r t _ ht => ih _ t ht
  | evaluate p k h ih => intro s hs; unfold Bracket.run; exact bind (evaluate hr hu H a b c p s hs) fun r t _ ht => ih _ t ht
  | pushScope sc k h ih => intro s hs; unfold Bracket.run; exact bind (modify (hs.of rfl rfl)) fun _ t _ ht => ih t ht
  | popScope k h ih => intro s hs; unfold Bracket.run; exact getBind (bind (modify (hs.of rfl rfl)) fun _ t _ ht => ih _ t ht)
  | scopeMut f k h ih =>
      intro s hs; unfold Bracket.run
      refine getBind (bind (modify ?_) fun _ t _ ht => ih _ t ht)
      split
      · exact hs
      · exact hs.of rfl rfl
  | registerLocal n g k hg h _ ih =>
      intro s hs; unfold Bracket.run
      refine bind (modify ⟨?_, hs.partials⟩) fun _ t _ ht => ih t ht
      intro m f hf
      change assoc m (assocInsert n g s.locals) = _ at hf
      by_cases hm : m = n
      · subst hm; rw [assoc_insert_self] at hf; cases hf; exact hg
      · rw [assoc_insert_ne _ _ hm] at hf; exact hs.locals m f hf
  | unregisterLocal n k h ih =>
      intro s hs; unfold Bracket.run
      refine bind (modify ⟨?_, hs.partials⟩) fun _ t _ ht => ih t ht
      intro m f hf
      change assoc m (assocErase n s.locals) = _ at hf
      by_cases hm : m = n
      · subst hm; rw [assoc_erase_self] at hf; cases hf
      · rw [assoc_erase_ne _ hm] at hf; exact hs.locals m f hf
  | peek k hv h ih =>
      intro s hs; unfold Bracket.run
      refine getBind ?_
      rw [← hv (view ⟨r, a, b, c⟩ s) (view ⟨r', a, b, c⟩ s) ⟨rfl, rfl, rfl, by simp only [view, hr.templates]⟩]
      exact ih _ (fun n t ht => hu.templates n t ht) s hs
  | log l m k h ih => intro s hs; unfold Bracket.run; exact bind (modify (hs.of rfl rfl)) fun _ t _ ht => ih t ht

theorem paramM (p : ParamValue) :
    Eqv (paramM S ⟨r, a, b, c⟩ p) (paramM S ⟨r', a, b, c⟩ p) Any := by
  intro s hs
  unfold Bracket.paramM
  cases p with
  | json => exact pure trivial hs
  | path p =>
      refine bind (lookupM a b c p s hs) fun v t _ ht => ?_
      cases v with
      | some v => exact pure trivial ht
      | none => exact bind (orPanic' ht) fun _ u _ hu => pure trivial hu
  | subExpr x =>
      refine bind (H.stmt a b c x s hs) fun v t _ ht => ?_
      cases v with
      | some v => exact pure trivial ht
      | none => exact bind (orPanic' ht) fun _ u _ hu => pure trivial hu

theorem argumentsLoop : ∀ ps i ms, Eqv (argumentsLoop S ⟨r, a, b, c⟩ i ps ms) (argumentsLoop S ⟨r', a, b, c⟩ i ps ms) Any := by
  intro ps
  induction ps with
  | nil => intro i ms s hs; exact pure trivial hs
  | cons p ps ih =>
      intro i ms s hs
      exact bind (paramM hr hu H a b c p s hs) fun _ t _ ht => bind (ih _ _ _ ht) fun _ u _ hu => pure trivial hu

theorem hashLoop : ∀ ps out ms, Eqv (hashLoop S ⟨r, a, b, c⟩ ps out ms) (hashLoop S ⟨r', a, b, c⟩ ps out ms) Any := by
  intro ps
  induction ps with
  | nil => intro i ms s hs; exact pure trivial hs
  | cons p ps ih =>
      obtain ⟨k, p⟩ := p
      intro i ms s hs
      exact bind (paramM hr hu H a b c p s hs) fun _ t _ ht => ih _ _ _ ht

theorem runTarget (name : Str) (t : Target) (ht : ∀ h, t = .handler h → HelperRaw h) (ctx : Ctx) {content : Option Node}
    (hc : ∀ m, content = some m → NodeRaw m) {s : RS} (hs : Inv s) :
    EqAt (runTarget S ⟨r, a, b, c⟩ name t ctx content s.locals) (runTarget S ⟨r', a, b, c⟩ name t ctx content s.locals) Any s := by
  unfold Bracket.runTarget
  cases t with
  | name =>
      simp only
      cases hl : assoc name s.locals with
      | some h => exact run hr hu H a b c (hs.locals name h hl _ _ hc) s hs
      | none =>
          simp only
          rw [← hr.helpers]
          cases hh : assoc name r.helpers with
          | some h => exact run hr hu H a b c (hu.helpers name h hh _ _ hc) s hs
          | none => exact pure trivial hs
  | handler h => exact run hr hu H a b c (ht h rfl _ _ hc) s hs

theorem invoke (name : Str) (t : Target) (ht : ∀ h, t = .handler h → HelperRaw h) (x : Call) {content : Option Node}
    (hct : ∀ m, content = some m → NodeRaw m) (text : Option Str) (prop : Option (Str × Value)) :
    Eqv (invoke S ⟨r, a, b, c⟩ name t x content text prop) (invoke S ⟨r', a, b, c⟩ name t x content text prop) Any := by
  intro s hs
  unfold Bracket.invoke
  refine getBind ?_
  split
  · exact fail _ hs
  · refine traced (fun s hs => ?_) s hs
    exact bind (modify (hs.of rfl rfl)) fun _ s _ hs => bind (argumentsLoop hr hu H a b c _ _ _ s hs) fun _ s _ hs =>
      bind (hashLoop hr hu H a b c _ _ _ s hs) fun _ s _ hs => getBind (bind (runTarget hr hu H a b c name t ht _ hct hs)
        fun _ s _ hs => bind (modify (hs.of rfl rfl)) fun _ s _ hs => pure trivial hs)

theorem hasHelper (s : RS) (name : Str) :
    hasHelper ⟨r, a, b, c⟩ s name = hasHelper ⟨r', a, b, c⟩ s name := by
  simp only [Bracket.hasHelper, hr.helpers]

theorem callF (x : Call) : Eqv (callF S ⟨r, a, b, c⟩ x) (callF S ⟨r', a, b, c⟩ x) Any := by
  intro s hs
  unfold Bracket.callF
  cases hct : x.target with
  | path p =>
      simp only
      split
      · exact lookupM a b c p s hs
      · split
        · refine bind (orPanic' hs) fun name t _ ht => getBind ?_
          rw [← hasHelper hr hu H a b c t]
          split
          · exact invoke hr hu H a b c _ _ (by simp) _ (by simp) _ _ _ ht
          · refine bind (lookupM a b c p t ht) fun v u _ hi => ?_
            cases v with
            | some v => exact pure trivial hi
            | none =>
                simp only
                rw [← hr.helperMissing, ← hr.strict]
                cases hh : r.helperMissing with
                | some h =>
                    exact invoke hr hu H a b c _ _ (by
                      intro h' e; cases e; exact hu.helperMissing _ hh) _ (by simp) _ _ _ hi
                | none =>
                    simp only
                    split
                    · exact fail _ hi
                    · exact pure trivial hi
        · refine bind (lookupM a b c p s hs) fun v u _ hi => ?_
          cases v with
          | some v => exact pure trivial hi
          | none =>
              simp only
              rw [← hr.strict]
              split
              · exact bind (orPanic' hi) fun _ t _ ht => fail _ ht
              · exact pure trivial hi
  | subExpr sub => exact H.call a b c _ s hs

theorem partialName (x : Call) :
    Eqv (partialName S ⟨r, a, b, c⟩ x) (partialName S ⟨r', a, b, c⟩ x) Any := by
  intro s hs
  unfold Bracket.partialName
  cases hct : x.target with
  | path p =>
      simp only
      refine bind (orPanic' hs) fun txt t hT ht => ?_
      split
      · exact pure trivial ht
      · split
        · exact pure trivial ht
        · exact fail _ ht
  | subExpr sub => exact bind (H.stmt a b c _ s hs) fun _ t _ ht => pure trivial ht

theorem partialScope (x : Call) :
    Eqv (partialScope S ⟨r, a, b, c⟩ x) (partialScope S ⟨r', a, b, c⟩ x) Any := by
  intro s hs
  unfold Bracket.partialScope
  refine bind (hashLoop hr hu H a b c _ _ _ _ hs) fun h t _ ht => ?_
  split
  · exact pure trivial ht
  · exact bind (argumentsLoop hr hu H a b c _ _ _ _ ht) fun _ u _ hu => pure trivial hu

theorem findPartial (name : Str) :
    Eqv (findPartial ⟨r, a, b, c⟩ name) (findPartial ⟨r', a, b, c⟩ name) (NodeRaw) := by
  intro s hs
  unfold Bracket.findPartial
  refine getBind ?_
  cases hp : assoc name s.partials with
  | some n => exact pure (hs.partials _ _ hp) hs
  | none =>
      simp only
      rw [← hr.templates]
      cases ht : assoc name r.templates with
      | some t => exact bind (modify (hs.of rfl rfl)) fun _ u _ hi => pure (hu.templates _ _ ht) hi
      | none => exact fail _ hs

theorem renderPartial (x : Call) {pb : Option Node}
    (hpb : ∀ m, pb = some m → NodeRaw m) :
    Eqv (renderPartial S ⟨r, a, b, c⟩ x pb) (renderPartial S ⟨r', a, b, c⟩ x pb) Any := by
  intro s hs
  unfold Bracket.renderPartial
  refine bind (partialName hr hu H a b c x s hs) fun name s hT hs => getBind ?_
  by_cases hc : s.stack.contains (.part name) = true
  · rw [if_pos hc, if_pos hc]; exact fail _ hs
  · rw [if_neg hc, if_neg hc]
    refine traced (fun s hs => ?_) s hs
    refine bind (modify ⟨hs.locals, ?_⟩) fun _ t _ ht => bind (findPartial hr hu H a b c _ t ht) fun node t hn ht =>
      bind (partialScope hr hu H a b c x t ht) fun sc t _ ht => bind (modify (ht.of rfl rfl)) fun _ t _ ht =>
      getBind (bind (runEvents (fun ev hev => H.node a b c ev.node ev.trim hev) _ (fun _ hx => inner hn hx) _ _ t ht)
        fun _ t _ ht => modify (ht.of rfl rfl))
    intro n x hx
    change assoc n (withBlock pb s.partials) = _ at hx
    unfold withBlock at hx
    cases pb with
    | none => exact hs.partials n x hx
    | some m =>
        simp only at hx
        by_cases hm : n = nmPartialBlock
        · subst hm; rw [assoc_insert_self] at hx; cases hx; exact hpb _ rfl
        · rw [assoc_insert_ne _ _ hm] at hx; exact hs.partials n x hx

theorem statementF (x : Call) :
    Eqv (statementF S ⟨r, a, b, c⟩ x) (statementF S ⟨r', a, b, c⟩ x) (fun v => x.isPartial = true → v = none) := by
  intro s hs
  unfold Bracket.statementF
  split
  · exact bind (renderPartial hr hu H a b c x (by simp) s hs) fun _ t _ ht => pure (fun _ => rfl) ht
  · rename_i hp
    obtain ⟨h1, h2⟩ := H.call a b c x s hs
    refine ⟨h1, ?_⟩
    generalize S.call ⟨r, a, b, c⟩ x s = y at h2 ⊢
    obtain ⟨q, t⟩ := y
    cases q with
    | ok v => exact ⟨fun h => absurd h hp, h2.2⟩
    | err e => exact h2
    | panic => exact h2
    | fuel => exact h2

theorem templateQ {n : Node} (hn : NodeRaw n) :
    Eqv (templateQ S ⟨r, a, b, c⟩ n) (templateQ S ⟨r', a, b, c⟩ n) Any := by
  intro s hs
  refine catchErr (template hr hu H a b c hn s hs) ?_
  intro q _ t ht
  cases q with
  | ok a => exact pure trivial ht
  | error e => exact fail _ ht

theorem blockHelperMissing {node : Node} (hn : NodeRaw node) (x : Call) (p : Path)
    (text : Option Str) (raw : Bool) :
    Eqv (blockHelperMissing S ⟨r, a, b, c⟩ node x p text raw) (blockHelperMissing S ⟨r', a, b, c⟩ node x p text raw) Any := by
  intro s hs
  unfold Bracket.blockHelperMissing
  split
  · cases text with
    | some t => exact bind (writeStr hr hu H a b c _ s hs) fun _ t _ ht => pure trivial ht
    | none => exact pure trivial hs
  · refine bind (lookupM a b c p s hs) fun v t _ ht => ?_
    cases v with
    | some v =>
        simp only
        rw [← hr.blockHelperMissing]
        cases hh : r.blockHelperMissing with
        | some h =>
            simp only
            exact bind (orPanic' ht) fun _ u _ hi => bind (invoke hr hu H a b c _ _ (by
              intro h' e; cases e; exact hu.blockHelperMissing _ hh) _ (by rintro _ ⟨⟩; exact hn) _ _ _ hi)
              fun _ w _ hw => pure trivial hw
        | none => simp only; exact templateQ hr hu H a b c hn t ht
    | none =>
        simp only
        rw [← hr.helperMissing, ← hr.strict]
        cases hh : r.helperMissing with
        | some h =>
            simp only
            exact bind (invoke hr hu H a b c _ _ (by
              intro h' e; cases e; exact hu.helperMissing _ hh) _ (by simp) _ _ _ ht)
              fun _ w _ hw => pure trivial hw
        | none =>
            simp only
            split
            · exact bind (orPanic' ht) fun _ u _ hu => fail _ hu
            · exact pure trivial ht

theorem blockF {x : Block} (hb : NodeRaw (.block x)) :
    Eqv (blockF S ⟨r, a, b, c⟩ x) (blockF S ⟨r', a, b, c⟩ x) Any := by
  intro s hs
  unfold Bracket.blockF
  simp only
  split
  · exact renderPartial hr hu H a b c _ (by rintro _ ⟨⟩; exact hb) s hs
  · cases hct : x.call.target with
    | path p =>
        simp only
        split
        · refine bind (P := Any) ?_ fun text t _ ht => bind (orPanic' ht) fun name u _ hi => getBind ?_
          · unfold blockText
            split
            · exact bind (orPanic' hs) fun _ t _ ht => bind (modify (ht.of rfl rfl)) fun _ u _ hu => pure trivial hu
            · exact pure trivial hs
          · rw [← hasHelper hr hu H a b c u]
            split
            · exact bind (invoke hr hu H a b c _ _ (by simp) _ (by rintro _ ⟨⟩; exact hb) _ _ _ hi) fun _ w _ hw => pure trivial hw
            · exact blockHelperMissing hr hu H a b c hb _ p _ _ _ hi
        · exact bind (orPanic' hs) fun _ t _ ht => fail _ ht
    | subExpr _ => exact fail _ hs

theorem renderKind {node : Node} (hn : NodeRaw node) :
    Eqv (renderKind S ⟨r, a, b, c⟩ node) (renderKind S ⟨r', a, b, c⟩ node) Any := by
  intro s hs
  unfold Bracket.renderKind
  cases node with
  | text t => exact bind (orPanic' hs) fun _ u _ hi => bind (writeStr hr hu H a b c _ u hi) fun _ v _ hv => pure trivial hv
  | rawStatement t =>
      exact bind (orPanic' hs) fun _ u _ hi => bind (orPanic' hi) fun _ u _ hi =>
        bind (writeStr hr hu H a b c _ u hi) fun _ v _ hv => pure trivial hv
  | link l =>
      simp only
      refine bind (orPanic' hs) fun esc t _ ht => ?_
      split
      · exact bind (orPanic' ht) fun _ u _ hi => bind (writeStr hr hu H a b c _ u hi) fun _ v _ hv => pure trivial hv
      · rw [← hr.link]
        cases hlk : r.link with
        | some g =>
            simp only
            exact bind (orPanic' ht) fun x u _ hi => bind (invoke hr hu H a b c _ _ (by
              intro h' e'; cases e'; exact hu.link _ hlk) _ (by simp) _ _ _ hi) fun _ v _ hv => pure trivial hv
        | none =>
            exact bind (orPanic' ht) fun _ u _ hi => bind (writeStr hr hu H a b c _ u hi) fun _ v _ hv => pure trivial hv
  | statement x =>
      refine bind (H.stmt a b c x s hs) fun v t hv ht => ?_
      cases v with
      | some v =>
          have hp : x.isPartial = false := by cases h : x.isPartial with | false => rfl | true => cases hv h
          refine bind (P := fun e => e = false) (orPanic (fun e he => ?_) ht) fun e u he hi => ?_
          · cases e with
            | false => rfl
            | true => exact absurd he (hn x .self hp)
          · subst he
            exact bind (writeStr hr hu H a b c _ u hi) fun _ v _ hv => pure trivial hv
      | none => exact pure trivial ht
  | block x => exact blockF hr hu H a b c hn s hs
  | rawComment t => exact pure trivial hs
  | comment t => exact pure trivial hs
  | document _ _ => exact pure trivial hs

theorem renderNodeF {node : Node} (hn : NodeRaw node) (t : TrimState) :
    Eqv (renderNodeF S ⟨r, a, b, c⟩ node t) (renderNodeF S ⟨r', a, b, c⟩ node t) Any := by
  intro s hs
  unfold Bracket.renderNodeF
  exact bind (orPanic' hs) fun h u _ hi => bind (modify (hi.of rfl rfl)) fun _ v _ hv => renderKind hr hu H a b c hn v hv

end

theorem sem_same {r r' : Reg} (hr : SameBut r r') (hu : RegRaw r) :
    ∀ n, SemSame r r' (sem n) := by
  intro n
  induction n with
  | zero => exact ⟨fun _ _ _ _ _ _ _ _ => outOfFuel, fun _ _ _ _ _ _ => outOfFuel, fun _ _ _ _ _ _ => outOfFuel⟩
  | succ n ih =>
      exact ⟨fun a b c x t hn => renderNodeF hr hu ih a b c hn t, fun a b c x => statementF hr hu ih a b c x,
        fun a b c x => callF hr hu ih a b c x⟩

theorem renderTo_same {r r' : Reg} (hr : SameBut r r') (hu : RegRaw r)
    {doc : Node} (hn : NodeRaw doc) (n : Nat) (sink : Sink) (name : Str) (data : Value) :
    renderTo n r sink name doc data = renderTo n r' sink name doc data :=
  (renderAll hr hu (sem_same hr hu n) name data sink hn (RS.init [])
    ⟨fun _ _ h => (by simp [RS.init, assoc] at h), fun _ _ h => (by simp [RS.init, assoc] at h)⟩).1

end Bracket.Unescaped
