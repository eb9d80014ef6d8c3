import Verif.Spec.Uses
import Verif.Lemmas.Frame
import Verif.Lemmas.Basic

/-! Rendering asks the registry only for the names that are used. -/

set_option linter.unusedSectionVars false

namespace Bracket.Uses
open Spec

variable [Host] {N T : Str → Prop} {D : Prop}

theorem inhabits_trans {x y n : Node} (h : Inhabits x y) (g : Inhabits y n) : Inhabits x n := by
  induction h with
  | self => exact g
  | child _ hy ih => exact .child (ih g) hy
  | clause _ hy ih => exact .clause (ih g) hy

theorem within {n x : Node} (h : NodeUses N T D n) (hx : Inhabits x n) : NodeUses N T D x :=
  ⟨fun c hc => h.statement c (inhabits_trans hc hx), fun b hb => h.block b (inhabits_trans hb hx)⟩

theorem inner {n x : Node} (h : NodeUses N T D n) (hx : x ∈ n.children) : NodeUses N T D x :=
  within h (.child .self hx)

/-- The local helpers and the contents of block partials use no other names. -/
structure Inv (N T : Str → Prop) (D : Prop) (s : RS) : Prop where
  locals : ∀ n h, assoc n s.locals = some h → HelperUses N T D h
  partials : ∀ n x, assoc n s.partials = some x → NodeUses N T D x

def After (N T : Str → Prop) (D : Prop) {α : Type} (Q : α → Prop) : Res α × RS → Prop
  | (.ok a, t) => Q a ∧ Inv N T D t
  | (.err _, t) => Inv N T D t
  | (.fuel, _) => True
  | (.panic, _) => True

/-- From `s` the two computations do the same; then `Q` and the invariant hold. -/
def EqAt (N T : Str → Prop) (D : Prop) {α : Type} (m m' : RM α) (Q : α → Prop) (s : RS) : Prop :=
  m s = m' s ∧ After N T D Q (m s)

def Eqv (N T : Str → Prop) (D : Prop) {α : Type} (m m' : RM α) (Q : α → Prop) : Prop :=
  ∀ s, Inv N T D s → EqAt N T D m m' Q s

abbrev Any {α : Type} : α → Prop := fun _ => True

theorem Inv.of {s t : RS} (h : Inv N T D s) (hl : t.locals = s.locals) (hp : t.partials = s.partials) : Inv N T D t :=
  ⟨by rw [hl]; exact h.locals, by rw [hp]; exact h.partials⟩

theorem pure {α : Type} {a : α} {Q : α → Prop} (ha : Q a) {s : RS} (hs : Inv N T D s) :
    EqAt N T D (Pure.pure a : RM α) (Pure.pure a) Q s := ⟨rfl, ha, hs⟩
theorem fail {α : Type} {Q : α → Prop} (e : RenderErr) {s : RS} (hs : Inv N T D s) :
    EqAt N T D (RM.fail e : RM α) (RM.fail e) Q s := ⟨rfl, hs⟩
theorem panic {α : Type} {Q : α → Prop} {s : RS} : EqAt N T D (RM.panic : RM α) RM.panic Q s := ⟨rfl, trivial⟩
theorem outOfFuel {α : Type} {Q : α → Prop} {s : RS} : EqAt N T D (RM.outOfFuel : RM α) RM.outOfFuel Q s :=
  ⟨rfl, trivial⟩
theorem orPanic {α : Type} {o : Option α} {Q : α → Prop} (h : ∀ a, o = some a → Q a) {s : RS} (hs : Inv N T D s) :
    EqAt N T D (RM.orPanic o) (RM.orPanic o) Q s := by
  refine ⟨rfl, ?_⟩
  cases o with
  | none => exact trivial
  | some a => exact ⟨h a rfl, hs⟩
theorem orPanic' {α : Type} {o : Option α} {s : RS} (hs : Inv N T D s) : EqAt N T D (RM.orPanic o) (RM.orPanic o) Any s :=
  orPanic (fun _ _ => trivial) hs

theorem bind {α β : Type} {m m' : RM α} {f f' : α → RM β} {P : α → Prop} {Q : β → Prop} {s : RS} (h : EqAt N T D m m' P s)
    (hf : ∀ a t, P a → Inv N T D t → EqAt N T D (f a) (f' a) Q t) : EqAt N T D (m >>= f) (m' >>= f') Q s := by
  obtain ⟨h1, h2⟩ := h
  unfold EqAt
  rw [RM.bind_def, RM.bind_def, ← h1]
  generalize m s = y at h2 ⊢
  obtain ⟨r, t⟩ := y
  cases r with
  | ok a => exact hf a t h2.1 h2.2
  | err e => exact ⟨rfl, h2⟩
  | panic => exact ⟨rfl, h2⟩
  | fuel => exact ⟨rfl, h2⟩

theorem getBind {β : Type} {f f' : RS → RM β} {Q : β → Prop} {s : RS} (h : EqAt N T D (f s) (f' s) Q s) :
    EqAt N T D (RM.get >>= f) (RM.get >>= f') Q s := h

theorem modify {f : RS → RS} {s : RS} (h : Inv N T D (f s)) : EqAt N T D (RM.modify f) (RM.modify f) Any s :=
  ⟨rfl, trivial, h⟩

theorem catchErr {α β : Type} {m m' : RM α} {f f' : Except RenderErr α → RM β} {P : α → Prop} {Q : β → Prop} {s : RS}
    (h : EqAt N T D m m' P s) (hf : ∀ r, (∀ a, r = .ok a → P a) → Eqv N T D (f r) (f' r) Q) :
    EqAt N T D (RM.catchErr m f) (RM.catchErr m' f') Q s := by
  obtain ⟨h1, h2⟩ := h
  unfold EqAt RM.catchErr
  rw [← h1]
  generalize m s = y at h2 ⊢
  obtain ⟨r, t⟩ := y
  cases r with
  | ok a => exact hf _ (by rintro _ ⟨⟩; exact h2.1) t h2.2
  | err e => exact hf _ (by rintro _ ⟨⟩) t h2
  | panic => exact ⟨rfl, h2⟩
  | fuel => exact ⟨rfl, h2⟩

theorem lookupM {r r' : Reg} (a : Str) (b : Value) (c : Sink) (p : Path) :
    Eqv N T D (lookupM ⟨r, a, b, c⟩ p) (lookupM ⟨r', a, b, c⟩ p) Any := fun _ hs => getBind (orPanic' hs)

theorem nested {init : RS} (hi : init.locals = []) (hp : init.partials = []) {m m' : RM Unit}
    (h : Eqv N T D m m' Any) : Eqv N T D (nested init m) (nested init m') Any := by
  intro s hs
  obtain ⟨h1, h2⟩ := h { init with logs := s.logs, trace := s.trace } ⟨by simp [hi, assoc], by simp [hp, assoc]⟩
  unfold EqAt Bracket.nested
  rw [← h1]
  generalize m { init with logs := s.logs, trace := s.trace } = x at h2 ⊢
  obtain ⟨r, t⟩ := x
  cases r with
  | ok a => exact ⟨rfl, trivial, hs.locals, hs.partials⟩
  | err e => exact ⟨rfl, hs.locals, hs.partials⟩
  | panic => exact ⟨rfl, trivial⟩
  | fuel => exact ⟨rfl, trivial⟩

theorem traced {α : Type} {site : CallSite} {m m' : RM α} {Q : α → Prop} (h : Eqv N T D m m' Q) :
    Eqv N T D (traced site m) (traced site m') Q := by
  intro s hs
  obtain ⟨h1, h2⟩ := h { s with trace := s.trace ++ [.enter site] } (hs.of rfl rfl)
  unfold EqAt Bracket.traced
  rw [← h1]
  generalize m { s with trace := s.trace ++ [.enter site] } = x at h2 ⊢
  obtain ⟨r, t⟩ := x
  cases r with
  | ok a => exact ⟨rfl, h2.1, h2.2.of rfl rfl⟩
  | err e => exact ⟨rfl, Inv.of (s := t) h2 rfl rfl⟩
  | panic => exact ⟨rfl, trivial⟩
  | fuel => exact ⟨rfl, trivial⟩

theorem nextBefore (l : List Node) : Eqv N T D (nextBefore l) (nextBefore l) Any := by
  intro s hs
  cases l with
  | nil => exact pure trivial hs
  | cons x l => exact bind (orPanic' hs) fun _ t _ ht => pure trivial ht

theorem runEvents {f f' : Ev → RM Unit} (h : ∀ ev : Ev, NodeUses N T D ev.node → Eqv N T D (f ev) (f' ev) Any) :
    ∀ ns, (∀ x ∈ ns, NodeUses N T D x) → ∀ prev hint, Eqv N T D (runEvents f ns prev hint) (runEvents f' ns prev hint) Any := by
  intro ns
  induction ns with
  | nil => intro _ _ _ s hs; exact pure trivial hs
  | cons n rest ih =>
      intro hn prev hint s hs
      unfold Bracket.runEvents
      exact bind (nextBefore rest _ hs) fun _ t _ ht => bind (orPanic' ht) fun _ t _ ht =>
        bind (h _ (hn n (by simp)) _ ht) fun _ t _ ht => ih (fun x hx => hn x (by simp [hx])) _ _ _ ht

/-- The recursive entry points do the same with the two registries, for what uses only these names. -/
structure SemSame (N T : Str → Prop) (D : Prop) (r r' : Reg) (S : Sem) : Prop where
  node : ∀ a b c n t, NodeUses N T D n → Eqv N T D (S.renderNode ⟨r, a, b, c⟩ n t) (S.renderNode ⟨r', a, b, c⟩ n t) Any
  stmt : ∀ a b c x, CallUses N T D x → Eqv N T D (S.statement ⟨r, a, b, c⟩ x) (S.statement ⟨r', a, b, c⟩ x) Any
  call : ∀ a b c x, CallUses N T D x → Eqv N T D (S.call ⟨r, a, b, c⟩ x) (S.call ⟨r', a, b, c⟩ x) Any

section
variable {r r' : Reg} {S : Sem} (hr : SameOn N T r r') (hd : D → ∀ w, T w) (hu : RegUses N T D r) (H : SemSame N T D r r' S)
  (a : Str) (b : Value) (c : Sink)
include hr hd hu H

theorem writeStr (x : Str) (esc : Bool) : Eqv N T D (writeStr ⟨r, a, b, c⟩ x esc) (writeStr ⟨r', a, b, c⟩ x esc) Any := by
  intro s hs
  have h : Bracket.writeStr ⟨r, a, b, c⟩ x esc = Bracket.writeStr ⟨r', a, b, c⟩ x esc := by
    unfold Bracket.writeStr rawWrite
    simp only [hr.escape]
  rw [← h]
  unfold Bracket.writeStr
  refine getBind ?_
  by_cases hv : (applyTrim s.trim x).isEmpty = true
  · simp only [hv, if_true]
    exact pure (Q := Any) trivial hs
  · simp only [hv, Bool.false_eq_true, if_false]
    refine bind (P := Any) ⟨rfl, trivial, hs.of rfl rfl⟩ fun q t _ ht => ?_
    cases q with
    | ok n => exact pure (Q := Any) trivial ht
    | error e => exact fail (Q := Any) _ ht

theorem renderAll {n : Node} (hn : NodeUses N T D n) :
    Eqv N T D (renderAll S ⟨r, a, b, c⟩ n) (renderAll S ⟨r', a, b, c⟩ n) Any :=
  runEvents (fun ev hev => H.node a b c ev.node ev.trim hev) _ (fun _ hx => inner hn hx) _ _

theorem templateEvent (n : Node) (ev : Ev) (hev : NodeUses N T D ev.node) :
    Eqv N T D (templateEvent S ⟨r, a, b, c⟩ n ev) (templateEvent S ⟨r', a, b, c⟩ n ev) Any := by
  intro s hs
  unfold Bracket.templateEvent
  refine bind (P := Any) ?_ fun _ t _ ht => bind (P := Any) ?_ fun _ u _ hu => H.node a b c _ _ hev _ hu
  · unfold firstHint; split
    · exact orPanic' hs
    · exact pure trivial hs
  · unfold lastHint
    cases n with
    | block b =>
        simp only
        split
        · exact orPanic' ht
        · exact pure trivial ht
    | _ => exact pure trivial ht

theorem template {n : Node} (hn : NodeUses N T D n) :
    Eqv N T D (template S ⟨r, a, b, c⟩ n) (template S ⟨r', a, b, c⟩ n) Any := by
  intro s hs
  unfold Bracket.template
  exact getBind (bind (runEvents (templateEvent hr hd hu H a b c n) _ (fun _ hx => inner hn hx) _ _ _ hs) fun _ t _ ht =>
    bind (orPanic' ht) fun _ u _ hu => modify (hu.of rfl rfl))

theorem inverse {n : Node} (hn : NodeUses N T D n) :
    Eqv N T D (inverse S ⟨r, a, b, c⟩ n) (inverse S ⟨r', a, b, c⟩ n) (fun o => ∀ m, o = some m → NodeUses N T D m) := by
  unfold Bracket.inverse
  cases n with
  | block bl =>
      simp only
      suffices ∀ l, (∀ x ∈ l, NodeUses N T D x) → ∀ alt, (∀ m, alt = some m → NodeUses N T D m) →
          Eqv N T D (inverseLoop S ⟨r, a, b, c⟩ l alt) (inverseLoop S ⟨r', a, b, c⟩ l alt) (fun o => ∀ m, o = some m → NodeUses N T D m) from
        this _ (fun _ hx => within hn (.clause .self hx)) _ (by rintro _ ⟨⟩)
      intro l
      induction l with
      | nil => intro _ alt ha s hs; exact pure ha hs
      | cons x l ih =>
          intro hl alt ha s hs
          have hx := hl x (by simp)
          have hrest : ∀ y ∈ l, NodeUses N T D y := fun y hy => hl y (by simp [hy])
          cases x with
          | block cl =>
              unfold inverseLoop
              split
              · exact ih hrest _ (by rintro _ ⟨⟩; exact hx) _ hs
              · refine bind (H.call a b c _ (hx.block cl .self) _ hs) fun v t _ ht => ?_
                cases v with
                | none => exact ih hrest _ ha _ ht
                | some v =>
                    simp only
                    split
                    · exact pure (by rintro _ ⟨⟩; exact hx) ht
                    · exact ih hrest _ ha _ ht
          | _ => unfold inverseLoop; exact ih hrest _ ha _ hs
  | _ => exact fun s hs => pure (by rintro _ ⟨⟩) hs

theorem buffer {n : Node} (hn : NodeUses N T D n) :
    Eqv N T D (buffer S ⟨r, a, b, c⟩ n) (buffer S ⟨r', a, b, c⟩ n) Any := fun s hs =>
  getBind (nested (init := { RS.init s.stack with scopes := s.scopes }) rfl rfl (template hr hd hu H a b stringSink hn) s hs)

theorem once (f : Str) (x : Str) (d : Value) (hc : ∀ n, compile x ⟨f, 0, 0⟩ = .ok n → NodeUses N T D n) :
    Eqv N T D (once S ⟨r, a, b, c⟩ f x d) (once S ⟨r', a, b, c⟩ f x d) Any := by
  intro s hs
  unfold Bracket.once
  refine getBind ?_
  cases hd' : compile x ⟨f, 0, 0⟩ with
  | ok doc =>
      simp only
      exact catchErr (nested (init := RS.init s.stack) rfl rfl
        (renderAll hr hd hu H f d stringSink (hc _ hd')) s hs) fun r _ t ht => pure trivial ht
  | err e => exact pure trivial hs
  | panic => exact panic
  | fuel => exact outOfFuel

theorem evaluate (p : Str) : Eqv N T D (evaluate ⟨r, a, b, c⟩ p) (evaluate ⟨r', a, b, c⟩ p) Any := by
  intro s hs
  unfold Bracket.evaluate
  cases pathFromStr p with
  | ok q =>
      cases q with
      | none => exact pure trivial hs
      | some q => exact bind (lookupM a b c q s hs) fun _ t _ ht => pure trivial ht
  | err e => exact pure trivial hs
  | panic => exact panic
  | fuel => exact outOfFuel

theorem run {p : Prog} (hp : ProgUses N T D p) :
    Eqv N T D (run S ⟨r, a, b, c⟩ p) (run S ⟨r', a, b, c⟩ p) Any := by
  induction hp with
  | panic => exact fun s hs => panic
  | ret v => exact fun s hs => pure trivial hs
  | fail e => exact fun s hs => fail _ hs
  | write x k h ih => intro s hs; unfold Bracket.run; exact catchErr (writeStr hr hd hu H a b c _ _ s hs) fun r _ => ih _
  | writeEscaped x k h ih => intro s hs; unfold Bracket.run; exact catchErr (writeStr hr hd hu H a b c _ _ s hs) fun r _ => ih _
  | outWrite x k h ih =>
      intro s hs; unfold Bracket.run
      exact bind (P := Any) ⟨rfl, trivial, hs.of rfl rfl⟩ fun r t _ ht => ih _ t ht
  | template n k hn h ih => intro s hs; unfold Bracket.run; exact catchErr (template hr hd hu H a b c hn s hs) fun r _ => ih _
  | render n k hn h ih => intro s hs; unfold Bracket.run; exact catchErr (renderAll hr hd hu H a b c hn s hs) fun r _ => ih _
  | inverse n k hn h ih =>
      intro s hs; unfold Bracket.run
      refine catchErr (inverse hr hd hu H a b c hn s hs) fun r hr => ih _ ?_
      intro m hm
      cases r with
      | ok a => cases hm; exact hr _ rfl m rfl
      | error e => cases hm
  | buffer n k hn h ih => intro s hs; unfold Bracket.run; exact catchErr (buffer hr hd hu H a b c hn s hs) fun r _ => ih _
  | once f x d k hc h ih => intro s hs; unfold Bracket.run; exact bind (once hr hd hu H a b c f x d hc s hs) fun r t _ ht => ih _ t ht
  | evaluate p k h ih => intro s hs; unfold Bracket.run; exact bind (evaluate hr hd hu H a b c p s hs) fun r t _ ht => ih _ t ht
  | pushScope sc k h ih => intro s hs; unfold Bracket.run; exact bind (modify (hs.of rfl rfl)) fun _ t _ ht => ih t ht
  | popScope k h ih => intro s hs; unfold Bracket.run; exact getBind (bind (modify (hs.of rfl rfl)) fun _ t _ ht => ih _ t ht)
  | scopeMut f k h ih =>
      intro s hs; unfold Bracket.run
      refine getBind (bind (modify ?_) fun _ t _ ht => ih _ t ht)
      split
      · exact hs
      · exact hs.of rfl rfl
  | registerLocal n g k hg h _ ih =>
      intro s hs; unfold Bracket.run
      refine bind (modify ⟨?_, hs.partials⟩) fun _ t _ ht => ih t ht
      intro m f hf
      change assoc m (assocInsert n g s.locals) = _ at hf
      by_cases hm : m = n
      · subst hm; rw [assoc_insert_self] at hf; cases hf; exact hg
      · rw [assoc_insert_ne _ _ hm] at hf; exact hs.locals m f hf
  | unregisterLocal n k h ih =>
      intro s hs; unfold Bracket.run
      refine bind (modify ⟨?_, hs.partials⟩) fun _ t _ ht => ih t ht
      intro m f hf
      change assoc m (assocErase n s.locals) = _ at hf
      by_cases hm : m = n
      · subst hm; rw [assoc_erase_self] at hf; cases hf
      · rw [assoc_erase_ne _ hm] at hf; exact hs.locals m f hf
  | peek k hv h ih =>
      intro s hs; unfold Bracket.run
      refine getBind ?_
      rw [← hv (view ⟨r, a, b, c⟩ s) (view ⟨r', a, b, c⟩ s) ⟨rfl, rfl, rfl, hr.escape, hr.templates⟩]
      exact ih _ (fun n t ht => hu.templates n t ht) s hs
  | log l m k h ih => intro s hs; unfold Bracket.run; exact bind (modify (hs.of rfl rfl)) fun _ t _ ht => ih t ht

theorem paramM {p : ParamValue} (hc : ∀ d, p = .subExpr d → CallUses N T D d) :
    Eqv N T D (paramM S ⟨r, a, b, c⟩ p) (paramM S ⟨r', a, b, c⟩ p) Any := by
  intro s hs
  unfold Bracket.paramM
  cases p with
  | json => exact pure trivial hs
  | path p =>
      refine bind (lookupM a b c p s hs) fun v t _ ht => ?_
      cases v with
      | some v => exact pure trivial ht
      | none => exact bind (orPanic' ht) fun _ u _ hu => pure trivial hu
  | subExpr x =>
      refine bind (H.stmt a b c x (hc x rfl) s hs) fun v t _ ht => ?_
      cases v with
      | some v => exact pure trivial ht
      | none => exact bind (orPanic' ht) fun _ u _ hu => pure trivial hu

theorem argumentsLoop : ∀ ps, (∀ d, ParamValue.subExpr d ∈ ps → CallUses N T D d) →
    ∀ i ms, Eqv N T D (argumentsLoop S ⟨r, a, b, c⟩ i ps ms) (argumentsLoop S ⟨r', a, b, c⟩ i ps ms) Any := by
  intro ps
  induction ps with
  | nil => intro _ i ms s hs; exact pure trivial hs
  | cons p ps ih =>
      intro h2 i ms s hs
      exact bind (paramM hr hd hu H a b c (p := p) (by rintro q rfl; exact h2 q (by simp)) s hs)
        fun _ t _ ht => bind (ih (fun q hq => h2 q (by simp [hq])) _ _ _ ht) fun _ u _ hu => pure trivial hu

theorem hashLoop : ∀ ps, (∀ k d, (k, ParamValue.subExpr d) ∈ ps → CallUses N T D d) →
    ∀ out ms, Eqv N T D (hashLoop S ⟨r, a, b, c⟩ ps out ms) (hashLoop S ⟨r', a, b, c⟩ ps out ms) Any := by
  intro ps
  induction ps with
  | nil => intro _ i ms s hs; exact pure trivial hs
  | cons p ps ih =>
      obtain ⟨k, p⟩ := p
      intro h2 i ms s hs
      exact bind (paramM hr hd hu H a b c (p := p) (by rintro q rfl; exact h2 k q (by simp)) s hs)
        fun _ t _ ht => ih (fun k q hq => h2 k q (by simp [hq])) _ _ _ ht

theorem runTarget (name : Str) (t : Target) (hn : t = .name → N name)
    (ht : ∀ h, t = .handler h → HelperUses N T D h) (ctx : Ctx) {content : Option Node}
    (hc : ∀ m, content = some m → NodeUses N T D m) {s : RS} (hs : Inv N T D s) :
    EqAt N T D (runTarget S ⟨r, a, b, c⟩ name t ctx content s.locals) (runTarget S ⟨r', a, b, c⟩ name t ctx content s.locals) Any s := by
  unfold Bracket.runTarget
  cases t with
  | name =>
      simp only
      cases hl : assoc name s.locals with
      | some h => exact run hr hd hu H a b c (hs.locals name h hl _ _ hc) s hs
      | none =>
          simp only
          rw [← hr.helpers name (hn rfl)]
          cases hh : assoc name r.helpers with
          | some h => exact run hr hd hu H a b c (hu.helpers name h (hn rfl) hh _ _ hc) s hs
          | none => exact pure trivial hs
  | handler h => exact run hr hd hu H a b c (ht h rfl _ _ hc) s hs

theorem invoke (name : Str) (t : Target) (hn : t = .name → N name)
    (ht : ∀ h, t = .handler h → HelperUses N T D h) {x : Call} (hx : CallUses N T D x) {content : Option Node}
    (hct : ∀ m, content = some m → NodeUses N T D m) (text : Option Str) (prop : Option (Str × Value)) :
    Eqv N T D (invoke S ⟨r, a, b, c⟩ name t x content text prop) (invoke S ⟨r', a, b, c⟩ name t x content text prop) Any := by
  intro s hs
  cases hx with
  | mk _ _ _ _ h1 h2 =>
  unfold Bracket.invoke
  refine getBind ?_
  split
  · exact fail _ hs
  · refine traced (fun s hs => ?_) s hs
    exact bind (modify (hs.of rfl rfl)) fun _ s _ hs => bind (argumentsLoop hr hd hu H a b c _ h1 _ _ s hs) fun _ s _ hs =>
      bind (hashLoop hr hd hu H a b c _ h2 _ _ s hs) fun _ s _ hs => getBind (bind (runTarget hr hd hu H a b c name t hn ht _ hct hs)
        fun _ s _ hs => bind (modify (hs.of rfl rfl)) fun _ s _ hs => pure trivial hs)

theorem hasHelper (s : RS) {name : Str} (hn : N name) :
    hasHelper ⟨r, a, b, c⟩ s name = hasHelper ⟨r', a, b, c⟩ s name := by
  simp only [Bracket.hasHelper, hr.helpers name hn]

theorem callF {x : Call} (hx : CallUses N T D x) : Eqv N T D (callF S ⟨r, a, b, c⟩ x) (callF S ⟨r', a, b, c⟩ x) Any := by
  intro s hs
  have hx' := hx
  cases hx' with
  | mk hname _ _ hsub _ _ =>
  unfold Bracket.callF
  cases hct : x.target with
  | path p =>
      simp only
      split
      · exact lookupM a b c p s hs
      · split
        · rename_i hsimple
          refine bind (orPanic (fun w hw => hname p hct hsimple w hw) hs) fun name t hN ht => getBind ?_
          rw [← hasHelper hr hd hu H a b c t hN]
          split
          · exact invoke hr hd hu H a b c _ _ (fun _ => hN) (by simp) hx (by simp) _ _ _ ht
          · refine bind (lookupM a b c p t ht) fun v u _ hi => ?_
            cases v with
            | some v => exact pure trivial hi
            | none =>
                simp only
                rw [← hr.helperMissing, ← hr.strict]
                cases hh : r.helperMissing with
                | some h =>
                    exact invoke hr hd hu H a b c _ _ (by simp) (by
                      intro h' e; cases e; exact hu.helperMissing _ hh) hx (by simp) _ _ _ hi
                | none =>
                    simp only
                    split
                    · exact fail _ hi
                    · exact pure trivial hi
        · refine bind (lookupM a b c p s hs) fun v u _ hi => ?_
          cases v with
          | some v => exact pure trivial hi
          | none =>
              simp only
              rw [← hr.strict]
              split
              · exact bind (orPanic' hi) fun _ t _ ht => fail _ ht
              · exact pure trivial hi
  | subExpr sub => exact H.call a b c _ (hsub sub hct) s hs

theorem partialName {x : Call} (hx : CallUses N T D x) (hpart : x.isPartial = true) :
    Eqv N T D (partialName S ⟨r, a, b, c⟩ x) (partialName S ⟨r', a, b, c⟩ x) T := by
  intro s hs
  cases hx with
  | mk _ hp hcomp hsub _ _ =>
  unfold Bracket.partialName
  cases hct : x.target with
  | path p =>
      simp only
      refine bind (orPanic (fun w hw => hp hpart p hct w hw) hs) fun txt t hT ht => ?_
      split
      · rename_i e
        exact pure (e ▸ hT) ht
      · split
        · exact pure hT ht
        · exact fail _ ht
  | subExpr sub => exact bind (H.stmt a b c _ (hsub sub hct) s hs) fun _ t _ ht => pure (hd (hcomp hpart sub hct) _) ht

theorem partialScope {x : Call} (hx : CallUses N T D x) :
    Eqv N T D (partialScope S ⟨r, a, b, c⟩ x) (partialScope S ⟨r', a, b, c⟩ x) Any := by
  intro s hs
  cases hx with
  | mk _ _ _ _ h1 h2 =>
  unfold Bracket.partialScope
  refine bind (hashLoop hr hd hu H a b c _ h2 _ _ _ hs) fun h t _ ht => ?_
  split
  · exact pure trivial ht
  · exact bind (argumentsLoop hr hd hu H a b c _ h1 _ _ _ ht) fun _ u _ hu => pure trivial hu

theorem findPartial {name : Str} (hn : T name) :
    Eqv N T D (findPartial ⟨r, a, b, c⟩ name) (findPartial ⟨r', a, b, c⟩ name) (NodeUses N T D) := by
  intro s hs
  unfold Bracket.findPartial
  refine getBind ?_
  cases hp : assoc name s.partials with
  | some n => exact pure (hs.partials _ _ hp) hs
  | none =>
      simp only
      have h : assoc name r.templates = assoc name r'.templates := hr.templates name hn
      rw [← h]
      cases ht : assoc name r.templates with
      | some t => exact bind (modify (hs.of rfl rfl)) fun _ u _ hi => pure (hu.templates _ _ hn ht) hi
      | none => exact fail _ hs

theorem renderPartial {x : Call} (hx : CallUses N T D x) (hpart : x.isPartial = true) {pb : Option Node}
    (hpb : ∀ m, pb = some m → NodeUses N T D m) :
    Eqv N T D (renderPartial S ⟨r, a, b, c⟩ x pb) (renderPartial S ⟨r', a, b, c⟩ x pb) Any := by
  intro s hs
  unfold Bracket.renderPartial
  refine bind (partialName hr hd hu H a b c hx hpart s hs) fun name s hT hs => getBind ?_
  by_cases hc : s.stack.contains (.part name) = true
  · rw [if_pos hc, if_pos hc]; exact fail _ hs
  · rw [if_neg hc, if_neg hc]
    refine traced (fun s hs => ?_) s hs
    refine bind (modify ⟨hs.locals, ?_⟩) fun _ t _ ht => bind (findPartial hr hd hu H a b c hT t ht) fun node t hn ht =>
      bind (partialScope hr hd hu H a b c hx t ht) fun sc t _ ht => bind (modify (ht.of rfl rfl)) fun _ t _ ht =>
      getBind (bind (runEvents (fun ev hev => H.node a b c ev.node ev.trim hev) _ (fun _ hx => inner hn hx) _ _ t ht)
        fun _ t _ ht => modify (ht.of rfl rfl))
    intro n x hx
    change assoc n (withBlock pb s.partials) = _ at hx
    unfold withBlock at hx
    cases pb with
    | none => exact hs.partials n x hx
    | some m =>
        simp only at hx
        by_cases hm : n = nmPartialBlock
        · subst hm; rw [assoc_insert_self] at hx; cases hx; exact hpb _ rfl
        · rw [assoc_insert_ne _ _ hm] at hx; exact hs.partials n x hx

theorem statementF {x : Call} (hx : CallUses N T D x) :
    Eqv N T D (statementF S ⟨r, a, b, c⟩ x) (statementF S ⟨r', a, b, c⟩ x) Any := by
  intro s hs
  unfold Bracket.statementF
  split
  · rename_i hp
    exact bind (renderPartial hr hd hu H a b c hx hp (by simp) s hs) fun _ t _ ht => pure trivial ht
  · exact H.call a b c x hx s hs

theorem templateQ {n : Node} (hn : NodeUses N T D n) :
    Eqv N T D (templateQ S ⟨r, a, b, c⟩ n) (templateQ S ⟨r', a, b, c⟩ n) Any := by
  intro s hs
  refine catchErr (template hr hd hu H a b c hn s hs) ?_
  intro q _ t ht
  cases q with
  | ok a => exact pure trivial ht
  | error e => exact fail _ ht

theorem blockHelperMissing {node : Node} (hn : NodeUses N T D node) {x : Call} (hx : CallUses N T D x) (p : Path)
    (text : Option Str) (raw : Bool) :
    Eqv N T D (blockHelperMissing S ⟨r, a, b, c⟩ node x p text raw) (blockHelperMissing S ⟨r', a, b, c⟩ node x p text raw) Any := by
  intro s hs
  unfold Bracket.blockHelperMissing
  split
  · cases text with
    | some t => exact bind (writeStr hr hd hu H a b c _ _ s hs) fun _ t _ ht => pure trivial ht
    | none => exact pure trivial hs
  · refine bind (lookupM a b c p s hs) fun v t _ ht => ?_
    cases v with
    | some v =>
        simp only
        rw [← hr.blockHelperMissing]
        cases hh : r.blockHelperMissing with
        | some h =>
            simp only
            exact bind (orPanic' ht) fun _ u _ hi => bind (invoke hr hd hu H a b c _ _ (by simp) (by
              intro h' e; cases e; exact hu.blockHelperMissing _ hh) hx (by rintro _ ⟨⟩; exact hn) _ _ _ hi)
              fun _ w _ hw => pure trivial hw
        | none => simp only; exact templateQ hr hd hu H a b c hn t ht
    | none =>
        simp only
        rw [← hr.helperMissing, ← hr.strict]
        cases hh : r.helperMissing with
        | some h =>
            simp only
            exact bind (invoke hr hd hu H a b c _ _ (by simp) (by
              intro h' e; cases e; exact hu.helperMissing _ hh) hx (by simp) _ _ _ ht)
              fun _ w _ hw => pure trivial hw
        | none =>
            simp only
            split
            · exact bind (orPanic' ht) fun _ u _ hu => fail _ hu
            · exact pure trivial ht

theorem blockF {x : Block} (hb : NodeUses N T D (.block x)) :
    Eqv N T D (blockF S ⟨r, a, b, c⟩ x) (blockF S ⟨r', a, b, c⟩ x) Any := by
  intro s hs
  have hx := hb.block x .self
  unfold Bracket.blockF
  simp only
  split
  · rename_i hp
    exact renderPartial hr hd hu H a b c hx hp (by rintro _ ⟨⟩; exact hb) s hs
  · cases hct : x.call.target with
    | path p =>
        have hname : p.isSimple = true → ∀ w, p.asStr = some w → N w := by cases hx with | mk h _ _ _ _ _ => exact h p hct
        simp only
        split
        · rename_i hsimple
          refine bind (P := Any) ?_ fun text t _ ht => bind (orPanic (hname hsimple) ht) fun name u hN hi => getBind ?_
          · unfold blockText
            split
            · exact bind (orPanic' hs) fun _ t _ ht => bind (modify (ht.of rfl rfl)) fun _ u _ hu => pure trivial hu
            · exact pure trivial hs
          · rw [← hasHelper hr hd hu H a b c u hN]
            split
            · exact bind (invoke hr hd hu H a b c _ _ (fun _ => hN) (by simp) hx (by rintro _ ⟨⟩; exact hb) _ _ _ hi) fun _ w _ hw => pure trivial hw
            · exact blockHelperMissing hr hd hu H a b c hb hx p _ _ _ hi
        · exact bind (orPanic' hs) fun _ t _ ht => fail _ ht
    | subExpr _ => exact fail _ hs

theorem linkCall_uses {l : Link} {x : Call} (h : linkCall l = some x) : CallUses N T D x := by
  unfold linkCall at h
  cases h1 : l.hrefStr with
  | none => rw [h1] at h; cases h
  | some v1 =>
    cases h2 : l.labelStr with
    | none => rw [h1, h2] at h; cases h
    | some v2 =>
      cases h3 : l.titleStr with
      | none => rw [h1, h2, h3] at h; cases h
      | some v3 =>
        rw [h1, h2, h3] at h
        simp only [Option.bind_eq_bind, Option.bind_some, Option.some.injEq] at h
        subst h
        refine .mk ?_ ?_ ?_ ?_ ?_ ?_
        · intro p hp hs
          cases hp
          simp [Path.isSimple, Path.new] at hs
        · intro hp; cases hp
        · intro hp; cases hp
        · intro d hp; cases hp
        · intro d hd
          simp [Call.addArg, Call.new, Call.args] at hd
        · intro k d hd
          simp [Call.addArg, Call.new, Call.params] at hd

theorem renderKind {node : Node} (hn : NodeUses N T D node) :
    Eqv N T D (renderKind S ⟨r, a, b, c⟩ node) (renderKind S ⟨r', a, b, c⟩ node) Any := by
  intro s hs
  unfold Bracket.renderKind
  cases node with
  | text t => exact bind (orPanic' hs) fun _ u _ hi => bind (writeStr hr hd hu H a b c _ _ u hi) fun _ v _ hv => pure trivial hv
  | rawStatement t =>
      exact bind (orPanic' hs) fun _ u _ hi => bind (orPanic' hi) fun _ u _ hi =>
        bind (writeStr hr hd hu H a b c _ _ u hi) fun _ v _ hv => pure trivial hv
  | link l =>
      simp only
      refine bind (orPanic' hs) fun esc t _ ht => ?_
      split
      · exact bind (orPanic' ht) fun _ u _ hi => bind (writeStr hr hd hu H a b c _ _ u hi) fun _ v _ hv => pure trivial hv
      · rw [← hr.link]
        cases hlk : r.link with
        | some g =>
            simp only
            exact bind (orPanic (fun x hx => linkCall_uses hr hd hu H hx) ht) fun x u hx hi => bind (invoke hr hd hu H a b c _ _ (by simp) (by
              intro h' e'; cases e'; exact hu.link _ hlk) hx (by simp) _ _ _ hi) fun _ v _ hv => pure trivial hv
        | none =>
            exact bind (orPanic' ht) fun _ u _ hi => bind (writeStr hr hd hu H a b c _ _ u hi) fun _ v _ hv => pure trivial hv
  | statement x =>
      refine bind (H.stmt a b c x (hn.statement x .self) s hs) fun v t _ ht => ?_
      cases v with
      | some v =>
          exact bind (orPanic' ht) fun _ u _ hi => bind (writeStr hr hd hu H a b c _ _ u hi) fun _ v _ hv => pure trivial hv
      | none => exact pure trivial ht
  | block x => exact blockF hr hd hu H a b c hn s hs
  | rawComment t => exact pure trivial hs
  | comment t => exact pure trivial hs
  | document _ _ => exact pure trivial hs

theorem renderNodeF {node : Node} (hn : NodeUses N T D node) (t : TrimState) :
    Eqv N T D (renderNodeF S ⟨r, a, b, c⟩ node t) (renderNodeF S ⟨r', a, b, c⟩ node t) Any := by
  intro s hs
  unfold Bracket.renderNodeF
  exact bind (orPanic' hs) fun h u _ hi => bind (modify (hi.of rfl rfl)) fun _ v _ hv => renderKind hr hd hu H a b c hn v hv

end

theorem sem_same {r r' : Reg} (hr : SameOn N T r r') (hd : D → ∀ w, T w) (hu : RegUses N T D r) :
    ∀ n, SemSame N T D r r' (sem n) := by
  intro n
  induction n with
  | zero => exact ⟨fun _ _ _ _ _ _ _ _ => outOfFuel, fun _ _ _ _ _ _ _ => outOfFuel, fun _ _ _ _ _ _ _ => outOfFuel⟩
  | succ n ih =>
      exact ⟨fun a b c x t hn => renderNodeF hr hd hu ih a b c hn t, fun a b c x hx => statementF hr hd hu ih a b c hx,
        fun a b c x hx => callF hr hd hu ih a b c hx⟩

theorem renderTo_same {r r' : Reg} (hr : SameOn N T r r') (hd : D → ∀ w, T w) (hu : RegUses N T D r)
    {doc : Node} (hn : NodeUses N T D doc) (n : Nat) (sink : Sink) (name : Str) (data : Value) :
    renderTo n r sink name doc data = renderTo n r' sink name doc data :=
  (renderAll hr hd hu (sem_same hr hd hu n) name data sink hn (RS.init [])
    ⟨fun _ _ h => (by simp [RS.init, assoc] at h), fun _ _ h => (by simp [RS.init, assoc] at h)⟩).1

end Bracket.Uses
