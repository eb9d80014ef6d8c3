import Verif.Spec.Reads
import Verif.Lemmas.Uses

/-! Rendering looks up only the paths that are written, and reads the name of the template only for errors. -/

set_option linter.unusedSectionVars false

namespace Bracket.Reads
open Spec

variable [Host] {P : Path → Prop} {A B : Prop} {f g : Str} {b b' : Value}

theorem within {n x : Node} (h : NodeReads P n) (hx : Inhabits x n) : NodeReads P x :=
  ⟨fun c hc => h.statement c (Uses.inhabits_trans hc hx), fun b hb => h.block b (Uses.inhabits_trans hb hx),
    fun b y hb => h.clause b y (Uses.inhabits_trans hb hx)⟩

theorem inner {n x : Node} (h : NodeReads P n) (hx : x ∈ n.children) : NodeReads P x :=
  within h (.child .self hx)

theorem weaken {t : Bool} {c : Call} (h : CallReads P true c) : CallReads P t c := by
  cases h with
  | mk h1 h2 h3 h4 h5 h6 => exact .mk (fun _ => h1 rfl) h2 h3 h4 h5 h6

theorem renamed_self {e e' : RenderErr} (h : Renamed f f e e') : e = e' := by
  induction h with
  | same e => rfl
  | missing p => rfl
  | through _ ih => rw [ih]

/-- The local helpers and the contents of block partials look up only such paths. -/
structure Inv (P : Path → Prop) (A B : Prop) (s : RS) : Prop where
  locals : ∀ n h, assoc n s.locals = some h → HelperReads P A B h
  partials : ∀ n x, assoc n s.partials = some x → NodeReads P x

def After (P : Path → Prop) (A B : Prop) {α : Type} (Q : α → Prop) : Res α × RS → Prop
  | (.ok a, t) => Q a ∧ Inv P A B t
  | (.err _, t) => Inv P A B t
  | (.fuel, _) => True
  | (.panic, _) => True

/-- From `s` the two computations do the same, but for the name in an error; then `Q` and the invariant hold. -/
structure EqAt (P : Path → Prop) (A B : Prop) (f g : Str) {α : Type} (m m' : RM α) (Q : α → Prop) (s : RS) : Prop where
  ends : EndsAlike f g (m s).1 (m' s).1
  state : (m s).2 = (m' s).2
  after : After P A B Q (m s)

def Eqv (P : Path → Prop) (A B : Prop) (f g : Str) {α : Type} (m m' : RM α) (Q : α → Prop) : Prop :=
  ∀ s, Inv P A B s → EqAt P A B f g m m' Q s

abbrev Any {α : Type} : α → Prop := fun _ => True

theorem Inv.of {s t : RS} (h : Inv P A B s) (hl : t.locals = s.locals) (hp : t.partials = s.partials) : Inv P A B t :=
  ⟨by rw [hl]; exact h.locals, by rw [hp]; exact h.partials⟩

theorem self {α : Type} {m : RM α} {Q : α → Prop} {s : RS} (h : After P A B Q (m s)) : EqAt P A B f g m m Q s :=
  ⟨.same _, rfl, h⟩

theorem pure {α : Type} {a : α} {Q : α → Prop} (ha : Q a) {s : RS} (hs : Inv P A B s) :
    EqAt P A B f g (Pure.pure a : RM α) (Pure.pure a) Q s := self ⟨ha, hs⟩
theorem fail {α : Type} {Q : α → Prop} (e : RenderErr) {s : RS} (hs : Inv P A B s) :
    EqAt P A B f g (RM.fail e : RM α) (RM.fail e) Q s := self hs
theorem failRenamed {α : Type} {Q : α → Prop} {e e' : RenderErr} (he : Renamed f g e e') {s : RS} (hs : Inv P A B s) :
    EqAt P A B f g (RM.fail e : RM α) (RM.fail e') Q s := ⟨.err he, rfl, hs⟩
theorem panic {α : Type} {Q : α → Prop} {s : RS} : EqAt P A B f g (RM.panic : RM α) RM.panic Q s := self trivial
theorem outOfFuel {α : Type} {Q : α → Prop} {s : RS} : EqAt P A B f g (RM.outOfFuel : RM α) RM.outOfFuel Q s :=
  self trivial
theorem orPanic {α : Type} {o : Option α} {Q : α → Prop} (h : ∀ a, o = some a → Q a) {s : RS} (hs : Inv P A B s) :
    EqAt P A B f g (RM.orPanic o) (RM.orPanic o) Q s := by
  refine self ?_
  cases o with
  | none => exact trivial
  | some a => exact ⟨h a rfl, hs⟩
theorem orPanic' {α : Type} {o : Option α} {s : RS} (hs : Inv P A B s) : EqAt P A B f g (RM.orPanic o) (RM.orPanic o) Any s :=
  orPanic (fun _ _ => trivial) hs

theorem bind {α β : Type} {m m' : RM α} {F F' : α → RM β} {R : α → Prop} {Q : β → Prop} {s : RS} (h : EqAt P A B f g m m' R s)
    (hf : ∀ a t, R a → Inv P A B t → EqAt P A B f g (F a) (F' a) Q t) : EqAt P A B f g (m >>= F) (m' >>= F') Q s := by
  obtain ⟨h1, h2, h3⟩ := h
  have key : ∀ y y' : Res α × RS, m s = y → m' s = y' → EqAt P A B f g (m >>= F) (m' >>= F') Q s := by
    rintro ⟨r, t⟩ ⟨r', t'⟩ e e'
    rw [e] at h1 h2 h3
    rw [e'] at h1 h2
    simp only at h1 h2
    subst h2
    refine ⟨?_, ?_, ?_⟩ <;> rw [RM.bind_def] <;> try rw [RM.bind_def]
    all_goals rw [e]
    all_goals try rw [e']
    all_goals cases h1 with
      | same =>
          cases r with
          | ok a => first | exact (hf a t h3.1 h3.2).ends | exact (hf a t h3.1 h3.2).state | exact (hf a t h3.1 h3.2).after
          | err e => first | exact .same _ | exact rfl | exact h3
          | panic => first | exact .same _ | exact rfl | exact trivial
          | fuel => first | exact .same _ | exact rfl | exact trivial
      | err h => first | exact .err h | exact rfl | exact h3
  exact key _ _ rfl rfl

theorem getBind {β : Type} {F F' : RS → RM β} {Q : β → Prop} {s : RS} (h : EqAt P A B f g (F s) (F' s) Q s) :
    EqAt P A B f g (RM.get >>= F) (RM.get >>= F') Q s := ⟨h.ends, h.state, h.after⟩

theorem modify {F : RS → RS} {s : RS} (h : Inv P A B (F s)) : EqAt P A B f g (RM.modify F) (RM.modify F) Any s :=
  self ⟨trivial, h⟩

theorem catchErr {α β : Type} {m m' : RM α} {F F' : Except RenderErr α → RM β} {R : α → Prop} {Q : β → Prop} {s : RS}
    (h : EqAt P A B f g m m' R s) (hok : ∀ a, R a → Eqv P A B f g (F (.ok a)) (F' (.ok a)) Q)
    (herr : ∀ e e', Renamed f g e e' → Eqv P A B f g (F (.error e)) (F' (.error e')) Q) :
    EqAt P A B f g (RM.catchErr m F) (RM.catchErr m' F') Q s := by
  obtain ⟨h1, h2, h3⟩ := h
  have key : ∀ y y' : Res α × RS, m s = y → m' s = y' → EqAt P A B f g (RM.catchErr m F) (RM.catchErr m' F') Q s := by
    rintro ⟨r, t⟩ ⟨r', t'⟩ e e'
    rw [e] at h1 h2 h3
    rw [e'] at h1 h2
    simp only at h1 h2
    subst h2
    refine ⟨?_, ?_, ?_⟩ <;> unfold RM.catchErr <;> simp only [e, e']
    all_goals cases h1 with
      | same =>
          cases r with
          | ok a => first | exact (hok a h3.1 t h3.2).ends | exact (hok a h3.1 t h3.2).state | exact (hok a h3.1 t h3.2).after
          | err e => first | exact (herr _ _ (.same _) t h3).ends | exact (herr _ _ (.same _) t h3).state | exact (herr _ _ (.same _) t h3).after
          | panic => first | exact .same _ | exact rfl | exact trivial
          | fuel => first | exact .same _ | exact rfl | exact trivial
      | err h => first | exact (herr _ _ h t h3).ends | exact (herr _ _ h t h3).state | exact (herr _ _ h t h3).after
  exact key _ _ rfl rfl

/-- The first part is the same computation, with the same error. -/
theorem catchSame {α β : Type} {m : RM α} {F F' : Except RenderErr α → RM β} {Q : β → Prop} {s : RS}
    (h : After P A B (fun _ => True) (m s)) (hf : ∀ r, Eqv P A B f g (F r) (F' r) Q) :
    EqAt P A B f g (RM.catchErr m F) (RM.catchErr m F') Q s := by
  have key : ∀ y : Res α × RS, m s = y → EqAt P A B f g (RM.catchErr m F) (RM.catchErr m F') Q s := by
    rintro ⟨r, t⟩ e
    rw [e] at h
    refine ⟨?_, ?_, ?_⟩ <;> unfold RM.catchErr <;> simp only [e]
    all_goals cases r with
      | ok a => first | exact (hf (.ok a) t h.2).ends | exact (hf (.ok a) t h.2).state | exact (hf (.ok a) t h.2).after
      | err x => first | exact (hf (.error x) t h).ends | exact (hf (.error x) t h).state | exact (hf (.error x) t h).after
      | panic => first | exact .same _ | exact rfl | exact trivial
      | fuel => first | exact .same _ | exact rfl | exact trivial
  exact key _ rfl

theorem lookupM {r : Reg} (c : Sink) {p : Path} (hp : FindsSame b b' p) :
    Eqv P A B f g (lookupM ⟨r, f, b, c⟩ p) (lookupM ⟨r, g, b', c⟩ p) Any := fun s hs => by
  unfold Bracket.lookupM
  refine getBind ?_
  simp only [hp s.scopes]
  exact orPanic' hs

theorem nested {init : RS} (hi : init.locals = []) (hp : init.partials = []) {m m' : RM Unit}
    (h : Eqv P A B f g m m' Any) : Eqv P A B f g (nested init m) (nested init m') Any := by
  intro s hs
  obtain ⟨h1, h2, -⟩ := h { init with logs := s.logs, trace := s.trace } ⟨by simp [hi, assoc], by simp [hp, assoc]⟩
  have key : ∀ y y' : Res Unit × RS, m { init with logs := s.logs, trace := s.trace } = y →
      m' { init with logs := s.logs, trace := s.trace } = y' → EqAt P A B f g (Bracket.nested init m) (Bracket.nested init m') Any s := by
    rintro ⟨r, t⟩ ⟨r', t'⟩ e e'
    rw [e, e'] at h1 h2
    simp only at h1 h2
    subst h2
    refine ⟨?_, ?_, ?_⟩ <;> unfold Bracket.nested <;> simp only [e, e']
    all_goals cases h1 with
      | same =>
          cases r with
          | ok a => first | exact .same _ | exact rfl | exact ⟨trivial, hs.locals, hs.partials⟩
          | err e => first | exact .same _ | exact rfl | exact ⟨hs.locals, hs.partials⟩
          | panic => first | exact .same _ | exact rfl | exact trivial
          | fuel => first | exact .same _ | exact rfl | exact trivial
      | err h => first | exact .err h | exact rfl | exact ⟨hs.locals, hs.partials⟩
  exact key _ _ rfl rfl

theorem traced {α : Type} {site : CallSite} {m m' : RM α} {Q : α → Prop} (h : Eqv P A B f g m m' Q) :
    Eqv P A B f g (traced site m) (traced site m') Q := by
  intro s hs
  obtain ⟨h1, h2, h3⟩ := h { s with trace := s.trace ++ [.enter site] } (hs.of rfl rfl)
  refine ⟨h1, ?_, ?_⟩
  · unfold Bracket.traced
    simp only [h2]
  · unfold Bracket.traced
    generalize m { s with trace := s.trace ++ [.enter site] } = x at h3 ⊢
    obtain ⟨r, t⟩ := x
    cases r with
    | ok a => exact ⟨h3.1, h3.2.of rfl rfl⟩
    | err e => exact Inv.of (s := t) h3 rfl rfl
    | panic => exact trivial
    | fuel => exact trivial

theorem nextBefore (l : List Node) : Eqv P A B f g (nextBefore l) (nextBefore l) Any := by
  intro s hs
  cases l with
  | nil => exact pure trivial hs
  | cons x l => exact bind (orPanic' hs) fun _ t _ ht => pure trivial ht

theorem runEvents {F F' : Ev → RM Unit} (h : ∀ ev : Ev, NodeReads P ev.node → Eqv P A B f g (F ev) (F' ev) Any) :
    ∀ ns, (∀ x ∈ ns, NodeReads P x) → ∀ prev hint, Eqv P A B f g (runEvents F ns prev hint) (runEvents F' ns prev hint) Any := by
  intro ns
  induction ns with
  | nil => intro _ _ _ s hs; exact pure trivial hs
  | cons n rest ih =>
      intro hn prev hint s hs
      unfold Bracket.runEvents
      exact bind (nextBefore rest _ hs) fun _ t _ ht => bind (orPanic' ht) fun _ t _ ht =>
        bind (h _ (hn n (by simp)) _ ht) fun _ t _ ht => ih (fun x hx => hn x (by simp [hx])) _ _ _ ht

/-- The recursive entry points do the same, for what looks up only such paths. -/
structure SemSame (P : Path → Prop) (A B : Prop) (f g : Str) (b b' : Value) (r : Reg) (S : Sem) : Prop where
  node : ∀ c n t, NodeReads P n → Eqv P A B f g (S.renderNode ⟨r, f, b, c⟩ n t) (S.renderNode ⟨r, g, b', c⟩ n t) Any
  stmt : ∀ c x, CallReads P (!x.isPartial) x → Eqv P A B f g (S.statement ⟨r, f, b, c⟩ x) (S.statement ⟨r, g, b', c⟩ x) Any
  call : ∀ c x, CallReads P true x → Eqv P A B f g (S.call ⟨r, f, b, c⟩ x) (S.call ⟨r, g, b', c⟩ x) Any

section
variable {r : Reg} {S : Sem} (hA : A → f = g) (hB : B → b = b') (hP : ∀ p, P p → FindsSame b b' p) (hu : RegReads P A B r)
  (H : SemSame P A B f g b b' r S) (c : Sink)
include hA hB hP hu H

omit hA hB hP hu H in
theorem write_after (E : Env) (x : Str) (esc : Bool) {s : RS} (hs : Inv P A B s) :
    After P A B (fun _ => True) (writeStr E x esc s) := by
  unfold Bracket.writeStr
  rw [RM.bind_def]
  simp only [RM.get]
  by_cases hv : (applyTrim s.trim x).isEmpty = true
  · simp only [hv, if_true]; exact ⟨trivial, hs⟩
  · simp only [hv, Bool.false_eq_true, if_false]
    rw [RM.bind_def]
    unfold rawWrite
    simp only
    generalize E.sink s.out _ = q
    cases q with
    | ok n => exact ⟨trivial, hs.of rfl rfl⟩
    | error e => exact hs.of rfl rfl

theorem writeStr (x : Str) (esc : Bool) : Eqv P A B f g (writeStr ⟨r, f, b, c⟩ x esc) (writeStr ⟨r, g, b', c⟩ x esc) Any :=
  fun s hs => self (write_after ⟨r, f, b, c⟩ x esc hs)

/-- What the helper does after an error. -/
theorem passes {α : Type} {k : Except HelperErr α → Prog} (he : Passes A id k)
    (h : ∀ e, Eqv P A B f g (run S ⟨r, f, b, c⟩ (k (.error e))) (run S ⟨r, g, b', c⟩ (k (.error e))) Any)
    (e e' : RenderErr) (hr : Renamed f g e e') :
    Eqv P A B f g (run S ⟨r, f, b, c⟩ (k (.error (.render e)))) (run S ⟨r, g, b', c⟩ (k (.error (.render e')))) Any := by
  rcases he with ha | he | he
  · obtain rfl := hA ha
    rw [← renamed_self hr]
    exact h _
  · rw [he, he]
    exact fun s hs => failRenamed (.through hr) hs
  · rw [he (.render e') (.render e)]
    exact h _

theorem renderAll {n : Node} (hn : NodeReads P n) :
    Eqv P A B f g (renderAll S ⟨r, f, b, c⟩ n) (renderAll S ⟨r, g, b', c⟩ n) Any :=
  runEvents (fun ev hev => H.node c ev.node ev.trim hev) _ (fun _ hx => inner hn hx) _ _

theorem templateEvent (n : Node) (ev : Ev) (hev : NodeReads P ev.node) :
    Eqv P A B f g (templateEvent S ⟨r, f, b, c⟩ n ev) (templateEvent S ⟨r, g, b', c⟩ n ev) Any := by
  intro s hs
  unfold Bracket.templateEvent
  refine bind (R := Any) ?_ fun _ t _ ht => bind (R := Any) ?_ fun _ u _ hu => H.node c _ _ hev _ hu
  · unfold firstHint; split
    · exact orPanic' hs
    · exact pure trivial hs
  · unfold lastHint
    cases n with
    | block b =>
        simp only
        split
        · exact orPanic' ht
        · exact pure trivial ht
    | _ => exact pure trivial ht

theorem template {n : Node} (hn : NodeReads P n) :
    Eqv P A B f g (template S ⟨r, f, b, c⟩ n) (template S ⟨r, g, b', c⟩ n) Any := by
  intro s hs
  unfold Bracket.template
  exact getBind (bind (runEvents (templateEvent hA hB hP hu H c n) _ (fun _ hx => inner hn hx) _ _ _ hs) fun _ t _ ht =>
    bind (orPanic' ht) fun _ u _ hu => modify (hu.of rfl rfl))

theorem inverse {n : Node} (hn : NodeReads P n) :
    Eqv P A B f g (inverse S ⟨r, f, b, c⟩ n) (inverse S ⟨r, g, b', c⟩ n) (fun o => ∀ m, o = some m → NodeReads P m) := by
  unfold Bracket.inverse
  cases n with
  | block bl =>
      simp only
      suffices ∀ l, (∀ x ∈ l, NodeReads P x) → (∀ x, .block x ∈ l → x.call.isEmpty = false → CallReads P true x.call) → ∀ alt, (∀ m, alt = some m → NodeReads P m) →
          Eqv P A B f g (inverseLoop S ⟨r, f, b, c⟩ l alt) (inverseLoop S ⟨r, g, b', c⟩ l alt) (fun o => ∀ m, o = some m → NodeReads P m) from
        this _ (fun _ hx => within hn (.clause .self hx)) (fun x hx => hn.clause bl x .self hx) _ (by rintro _ ⟨⟩)
      intro l
      induction l with
      | nil => intro _ _ alt ha s hs; exact pure ha hs
      | cons x l ih =>
          intro hl hcl alt ha s hs
          have hx := hl x (by simp)
          have hrest : ∀ y ∈ l, NodeReads P y := fun y hy => hl y (by simp [hy])
          have hcr : ∀ x, .block x ∈ l → x.call.isEmpty = false → CallReads P true x.call := fun x hx => hcl x (by simp [hx])
          cases x with
          | block cl =>
              unfold inverseLoop
              split
              · exact ih hrest hcr _ (by rintro _ ⟨⟩; exact hx) _ hs
              · rename_i hem
                refine bind (H.call c _ (hcl cl (by simp) (by simpa using hem)) _ hs) fun v t _ ht => ?_
                cases v with
                | none => exact ih hrest hcr _ ha _ ht
                | some v =>
                    simp only
                    split
                    · exact pure (by rintro _ ⟨⟩; exact hx) ht
                    · exact ih hrest hcr _ ha _ ht
          | _ => unfold inverseLoop; exact ih hrest hcr _ ha _ hs
  | _ => exact fun s hs => pure (by rintro _ ⟨⟩) hs

theorem buffer {n : Node} (hn : NodeReads P n) :
    Eqv P A B f g (buffer S ⟨r, f, b, c⟩ n) (buffer S ⟨r, g, b', c⟩ n) Any := fun s hs =>
  getBind (nested (init := { RS.init s.stack with scopes := s.scopes }) rfl rfl (template hA hB hP hu H stringSink hn) s hs)

omit hA hB hP hu H in
theorem nested_after {init : RS} {m : RM Unit} {s : RS} (hs : Inv P A B s) : After P A B (fun _ => True) (Bracket.nested init m s) := by
  unfold Bracket.nested
  generalize m { init with logs := s.logs, trace := s.trace } = y
  obtain ⟨q, t⟩ := y
  cases q with
  | ok a => exact ⟨trivial, hs.of rfl rfl⟩
  | err e => exact hs.of rfl rfl
  | panic => exact trivial
  | fuel => exact trivial

theorem once (k : Str) (x : Str) (d : Value) :
    Eqv P A B f g (once S ⟨r, f, b, c⟩ k x d) (once S ⟨r, g, b', c⟩ k x d) Any := by
  intro s hs
  unfold Bracket.once
  refine getBind ?_
  cases hd' : compile x ⟨k, 0, 0⟩ with
  | ok doc =>
      simp only
      exact catchSame (nested_after hs) fun r t ht => pure trivial ht
  | err e => exact pure trivial hs
  | panic => exact panic
  | fuel => exact outOfFuel

theorem evaluate {p : Str} (hp : B ∨ ∀ q, pathFromStr p = .ok (some q) → P q) :
    Eqv P A B f g (evaluate ⟨r, f, b, c⟩ p) (evaluate ⟨r, g, b', c⟩ p) Any := by
  intro s hs
  unfold Bracket.evaluate
  cases hq : pathFromStr p with
  | ok q =>
      cases q with
      | none => exact pure trivial hs
      | some q =>
          refine bind (lookupM c (p := q) ?_ s hs) fun _ t _ ht => pure trivial ht
          rcases hp with hb | hp
          · obtain rfl := hB hb
            exact fun _ => rfl
          · exact hP q (hp q hq)
  | err e => exact pure trivial hs
  | panic => exact panic
  | fuel => exact outOfFuel

theorem run {p : Prog} (hp : ProgReads P A B p) :
    Eqv P A B f g (run S ⟨r, f, b, c⟩ p) (run S ⟨r, g, b', c⟩ p) Any := by
  induction hp with
  | panic => exact fun s hs => panic
  | ret v => exact fun s hs => pure trivial hs
  | fail e => exact fun s hs => fail _ hs
  | write x k h ih => intro s hs; unfold Bracket.run; exact catchSame (write_after _ _ _ hs) fun r => ih _
  | writeEscaped x k h ih => intro s hs; unfold Bracket.run; exact catchSame (write_after _ _ _ hs) fun r => ih _
  | outWrite x k h ih =>
      intro s hs; unfold Bracket.run
      exact bind (R := Any) (self (m := rawWrite ⟨r, f, b, c⟩ x) ⟨trivial, hs.of rfl rfl⟩) fun r t _ ht => ih _ t ht
  | template n k hn he h ih => intro s hs; unfold Bracket.run; exact catchErr (template hA hB hP hu H c hn s hs) (fun a _ => ih _) (passes hA hB hP hu H c he fun _ => ih _)
  | render n k hn he h ih =>
      intro s hs; unfold Bracket.run
      refine catchErr (renderAll hA hB hP hu H c hn s hs) (fun a _ => ih _) fun e e' hr => ?_
      rcases he with ha | he | he
      · obtain rfl := hA ha
        rw [← renamed_self hr]
        exact ih _
      · rw [he, he]
        exact fun s hs => failRenamed (.through hr) hs
      · rw [he e' e]
        exact ih _
  | inverse n k hn he h ih =>
      intro s hs; unfold Bracket.run
      refine catchErr (inverse hA hB hP hu H c hn s hs) (fun a ha => ih _ ?_) (passes hA hB hP hu H c he fun _ => ih _ (by rintro _ ⟨⟩))
      rintro m hm
      cases hm
      exact ha m rfl
  | buffer n k hn he h ih => intro s hs; unfold Bracket.run; exact catchErr (buffer hA hB hP hu H c hn s hs) (fun a _ => ih _) (passes hA hB hP hu H c he fun _ => ih _)
  | once q x d k h ih => intro s hs; unfold Bracket.run; exact bind (once hA hB hP hu H c q x d s hs) fun r t _ ht => ih _ t ht
  | evaluate p k hp h ih => intro s hs; unfold Bracket.run; exact bind (evaluate hA hB hP hu H c hp s hs) fun r t _ ht => ih _ t ht
  | pushScope sc k h ih => intro s hs; unfold Bracket.run; exact bind (modify (hs.of rfl rfl)) fun _ t _ ht => ih t ht
  | popScope k h ih => intro s hs; unfold Bracket.run; exact getBind (bind (modify (hs.of rfl rfl)) fun _ t _ ht => ih _ t ht)
  | scopeMut f k h ih =>
      intro s hs; unfold Bracket.run
      refine getBind (bind (modify ?_) fun _ t _ ht => ih _ t ht)
      split
      · exact hs
      · exact hs.of rfl rfl
  | registerLocal n g k hg h _ ih =>
      intro s hs; unfold Bracket.run
      refine bind (modify ⟨?_, hs.partials⟩) fun _ t _ ht => ih t ht
      intro m f hf
      change assoc m (assocInsert n g s.locals) = _ at hf
      by_cases hm : m = n
      · subst hm; rw [assoc_insert_self] at hf; cases hf; exact hg
      · rw [assoc_insert_ne _ _ hm] at hf; exact hs.locals m f hf
  | unregisterLocal n k h ih =>
      intro s hs; unfold Bracket.run
      refine bind (modify ⟨?_, hs.partials⟩) fun _ t _ ht => ih t ht
      intro m f hf
      change assoc m (assocErase n s.locals) = _ at hf
      by_cases hm : m = n
      · subst hm; rw [assoc_erase_self] at hf; cases hf
      · rw [assoc_erase_ne _ hm] at hf; exact hs.locals m f hf
  | peek k hv h ih =>
      intro s hs; unfold Bracket.run
      refine getBind ?_
      rw [← hv (view ⟨r, f, b, c⟩ s) (view ⟨r, g, b', c⟩ s) ⟨fun ha => hA ha,
        fun ha => by obtain rfl := hA ha; rfl, fun hb => hB hb, rfl, rfl⟩]
      exact ih _ (fun n t ht => hu.templates n t ht) s hs
  | log l m k h ih => intro s hs; unfold Bracket.run; exact bind (modify (hs.of rfl rfl)) fun _ t _ ht => ih t ht

theorem paramM {p : ParamValue} (hq : ∀ q, p = .path q → P q) (hc : ∀ d, p = .subExpr d → CallReads P true d) :
    Eqv P A B f g (paramM S ⟨r, f, b, c⟩ p) (paramM S ⟨r, g, b', c⟩ p) Any := by
  intro s hs
  unfold Bracket.paramM
  cases p with
  | json => exact pure trivial hs
  | path p =>
      refine bind (lookupM c (hP p (hq p rfl)) s hs) fun v t _ ht => ?_
      cases v with
      | some v => exact pure trivial ht
      | none => exact bind (orPanic' ht) fun _ u _ hu => pure trivial hu
  | subExpr x =>
      refine bind (H.stmt c x (weaken (hc x rfl)) s hs) fun v t _ ht => ?_
      cases v with
      | some v => exact pure trivial ht
      | none => exact bind (orPanic' ht) fun _ u _ hu => pure trivial hu

theorem argumentsLoop : ∀ ps, (∀ p, ParamValue.path p ∈ ps → P p) → (∀ d, ParamValue.subExpr d ∈ ps → CallReads P true d) →
    ∀ i ms, Eqv P A B f g (argumentsLoop S ⟨r, f, b, c⟩ i ps ms) (argumentsLoop S ⟨r, g, b', c⟩ i ps ms) Any := by
  intro ps
  induction ps with
  | nil => intro _ _ i ms s hs; exact pure trivial hs
  | cons p ps ih =>
      intro h1 h2 i ms s hs
      exact bind (paramM hA hB hP hu H c (p := p) (by rintro q rfl; exact h1 q (by simp)) (by rintro q rfl; exact h2 q (by simp)) s hs)
        fun _ t _ ht => bind (ih (fun q hq => h1 q (by simp [hq])) (fun q hq => h2 q (by simp [hq])) _ _ _ ht) fun _ u _ hu => pure trivial hu

theorem hashLoop : ∀ ps, (∀ k p, (k, ParamValue.path p) ∈ ps → P p) → (∀ k d, (k, ParamValue.subExpr d) ∈ ps → CallReads P true d) →
    ∀ out ms, Eqv P A B f g (hashLoop S ⟨r, f, b, c⟩ ps out ms) (hashLoop S ⟨r, g, b', c⟩ ps out ms) Any := by
  intro ps
  induction ps with
  | nil => intro _ _ i ms s hs; exact pure trivial hs
  | cons p ps ih =>
      obtain ⟨k, p⟩ := p
      intro h1 h2 i ms s hs
      exact bind (paramM hA hB hP hu H c (p := p) (by rintro q rfl; exact h1 k q (by simp)) (by rintro q rfl; exact h2 k q (by simp)) s hs)
        fun _ t _ ht => ih (fun k q hq => h1 k q (by simp [hq])) (fun k q hq => h2 k q (by simp [hq])) _ _ _ ht

theorem runTarget (name : Str) (t : Target)
    (ht : ∀ h, t = .handler h → HelperReads P A B h) (ctx : Ctx) {content : Option Node}
    (hc : ∀ m, content = some m → NodeReads P m) {s : RS} (hs : Inv P A B s) :
    EqAt P A B f g (runTarget S ⟨r, f, b, c⟩ name t ctx content s.locals) (runTarget S ⟨r, g, b', c⟩ name t ctx content s.locals) Any s := by
  unfold Bracket.runTarget
  cases t with
  | name =>
      simp only
      cases hl : assoc name s.locals with
      | some h => exact run hA hB hP hu H c (hs.locals name h hl _ _ hc) s hs
      | none =>
          simp only
          cases hh : assoc name r.helpers with
          | some h => exact run hA hB hP hu H c (hu.helpers name h hh _ _ hc) s hs
          | none => exact pure trivial hs
  | handler h => exact run hA hB hP hu H c (ht h rfl _ _ hc) s hs

theorem invoke (name : Str) (t : Target)
    (ht : ∀ h, t = .handler h → HelperReads P A B h) {q : Bool} {x : Call} (hx : CallReads P q x) {content : Option Node}
    (hct : ∀ m, content = some m → NodeReads P m) (text : Option Str) (prop : Option (Str × Value)) :
    Eqv P A B f g (invoke S ⟨r, f, b, c⟩ name t x content text prop) (invoke S ⟨r, g, b', c⟩ name t x content text prop) Any := by
  intro s hs
  cases hx with
  | mk _ h1 h2 _ h3 h4 =>
  unfold Bracket.invoke
  refine getBind ?_
  split
  · exact fail _ hs
  · refine traced (fun s hs => ?_) s hs
    exact bind (modify (hs.of rfl rfl)) fun _ s _ hs => bind (argumentsLoop hA hB hP hu H c _ h1 h3 _ _ s hs) fun _ s _ hs =>
      bind (hashLoop hA hB hP hu H c _ h2 h4 _ _ s hs) fun _ s _ hs => getBind (bind (runTarget hA hB hP hu H c name t ht _ hct hs)
        fun _ s _ hs => bind (modify (hs.of rfl rfl)) fun _ s _ hs => pure trivial hs)

theorem callF {x : Call} (hx : CallReads P true x) : Eqv P A B f g (callF S ⟨r, f, b, c⟩ x) (callF S ⟨r, g, b', c⟩ x) Any := by
  intro s hs
  have hx' := hx
  cases hx' with
  | mk htg _ _ hsub _ _ =>
  unfold Bracket.callF
  cases hct : x.target with
  | path p =>
      have hp := hP p (htg rfl p hct)
      simp only
      split
      · exact lookupM c hp s hs
      · split
        · refine bind (orPanic' hs) fun name t _ ht => getBind ?_
          show EqAt P A B f g (if hasHelper ⟨r, f, b, c⟩ t name then _ else _) (if hasHelper ⟨r, f, b, c⟩ t name then _ else _) Any t
          split
          · exact invoke hA hB hP hu H c _ _ (by simp) hx (by simp) _ _ _ ht
          · refine bind (lookupM c hp t ht) fun v u _ hi => ?_
            cases v with
            | some v => exact pure trivial hi
            | none =>
                simp only
                cases hh : r.helperMissing with
                | some h =>
                    exact invoke hA hB hP hu H c _ _ (by
                      intro h' e; cases e; exact hu.helperMissing _ hh) hx (by simp) _ _ _ hi
                | none =>
                    simp only
                    split
                    · exact failRenamed (.missing name) hi
                    · exact pure trivial hi
        · refine bind (lookupM c hp s hs) fun v u _ hi => ?_
          cases v with
          | some v => exact pure trivial hi
          | none =>
              simp only
              split
              · exact bind (orPanic' hi) fun txt t _ ht => failRenamed (.missing txt) ht
              · exact pure trivial hi
  | subExpr sub => exact H.call c _ (hsub sub hct) s hs

theorem partialName {q : Bool} {x : Call} (hx : CallReads P q x) :
    Eqv P A B f g (partialName S ⟨r, f, b, c⟩ x) (partialName S ⟨r, g, b', c⟩ x) Any := by
  intro s hs
  cases hx with
  | mk _ _ _ hsub _ _ =>
  unfold Bracket.partialName
  cases hct : x.target with
  | path p =>
      simp only
      refine bind (orPanic' hs) fun txt t _ ht => ?_
      split
      · exact pure trivial ht
      · split
        · exact pure trivial ht
        · exact fail _ ht
  | subExpr sub => exact bind (H.stmt c _ (weaken (hsub sub hct)) s hs) fun _ t _ ht => pure trivial ht

theorem partialScope {q : Bool} {x : Call} (hx : CallReads P q x) :
    Eqv P A B f g (partialScope S ⟨r, f, b, c⟩ x) (partialScope S ⟨r, g, b', c⟩ x) Any := by
  intro s hs
  cases hx with
  | mk _ h1 h2 _ h3 h4 =>
  unfold Bracket.partialScope
  refine bind (hashLoop hA hB hP hu H c _ h2 h4 _ _ _ hs) fun h t _ ht => ?_
  split
  · exact pure trivial ht
  · exact bind (argumentsLoop hA hB hP hu H c _ h1 h3 _ _ _ ht) fun _ u _ hu => pure trivial hu

theorem findPartial {name : Str} :
    Eqv P A B f g (findPartial ⟨r, f, b, c⟩ name) (findPartial ⟨r, g, b', c⟩ name) (NodeReads P) := by
  intro s hs
  unfold Bracket.findPartial
  refine getBind ?_
  cases hp : assoc name s.partials with
  | some n => exact pure (hs.partials _ _ hp) hs
  | none =>
      simp only
      cases ht : assoc name r.templates with
      | some t => exact bind (modify (hs.of rfl rfl)) fun _ u _ hi => pure (hu.templates _ _ ht) hi
      | none => exact fail _ hs

theorem renderPartial {q : Bool} {x : Call} (hx : CallReads P q x) {pb : Option Node}
    (hpb : ∀ m, pb = some m → NodeReads P m) :
    Eqv P A B f g (renderPartial S ⟨r, f, b, c⟩ x pb) (renderPartial S ⟨r, g, b', c⟩ x pb) Any := by
  intro s hs
  unfold Bracket.renderPartial
  refine bind (partialName hA hB hP hu H c hx s hs) fun name s _ hs => getBind ?_
  by_cases hc : s.stack.contains (.part name) = true
  · rw [if_pos hc, if_pos hc]; exact fail _ hs
  · rw [if_neg hc, if_neg hc]
    refine traced (fun s hs => ?_) s hs
    refine bind (modify ⟨hs.locals, ?_⟩) fun _ t _ ht => bind (findPartial hA hB hP hu H c t ht) fun node t hn ht =>
      bind (partialScope hA hB hP hu H c hx t ht) fun sc t _ ht => bind (modify (ht.of rfl rfl)) fun _ t _ ht =>
      getBind (bind (runEvents (fun ev hev => H.node c ev.node ev.trim hev) _ (fun _ hx => inner hn hx) _ _ t ht)
        fun _ t _ ht => modify (ht.of rfl rfl))
    intro n x hx
    change assoc n (withBlock pb s.partials) = _ at hx
    unfold withBlock at hx
    cases pb with
    | none => exact hs.partials n x hx
    | some m =>
        simp only at hx
        by_cases hm : n = nmPartialBlock
        · subst hm; rw [assoc_insert_self] at hx; cases hx; exact hpb _ rfl
        · rw [assoc_insert_ne _ _ hm] at hx; exact hs.partials n x hx

theorem statementF {x : Call} (hx : CallReads P (!x.isPartial) x) :
    Eqv P A B f g (statementF S ⟨r, f, b, c⟩ x) (statementF S ⟨r, g, b', c⟩ x) Any := by
  intro s hs
  unfold Bracket.statementF
  split
  · exact bind (renderPartial hA hB hP hu H c hx (by simp) s hs) fun _ t _ ht => pure trivial ht
  · rename_i hp
    have e : (!x.isPartial) = true := by simpa using hp
    exact H.call c x (e ▸ hx) s hs

theorem templateQ {n : Node} (hn : NodeReads P n) :
    Eqv P A B f g (templateQ S ⟨r, f, b, c⟩ n) (templateQ S ⟨r, g, b', c⟩ n) Any := by
  intro s hs
  exact catchErr (template hA hB hP hu H c hn s hs) (fun _ _ t ht => pure trivial ht) fun e e' hr t ht => failRenamed (.through hr) ht

theorem blockHelperMissing {node : Node} (hn : NodeReads P node) {x : Call} (hx : CallReads P true x) {p : Path} (hp : FindsSame b b' p)
    (text : Option Str) (raw : Bool) :
    Eqv P A B f g (blockHelperMissing S ⟨r, f, b, c⟩ node x p text raw) (blockHelperMissing S ⟨r, g, b', c⟩ node x p text raw) Any := by
  intro s hs
  unfold Bracket.blockHelperMissing
  split
  · cases text with
    | some t => exact bind (writeStr hA hB hP hu H c _ _ s hs) fun _ t _ ht => pure trivial ht
    | none => exact pure trivial hs
  · refine bind (lookupM c hp s hs) fun v t _ ht => ?_
    cases v with
    | some v =>
        simp only
        cases hh : r.blockHelperMissing with
        | some h =>
            simp only
            exact bind (orPanic' ht) fun _ u _ hi => bind (invoke hA hB hP hu H c _ _ (by
              intro h' e; cases e; exact hu.blockHelperMissing _ hh) hx (by rintro _ ⟨⟩; exact hn) _ _ _ hi)
              fun _ w _ hw => pure trivial hw
        | none => simp only; exact templateQ hA hB hP hu H c hn t ht
    | none =>
        simp only
        cases hh : r.helperMissing with
        | some h =>
            simp only
            exact bind (invoke hA hB hP hu H c _ _ (by
              intro h' e; cases e; exact hu.helperMissing _ hh) hx (by simp) _ _ _ ht)
              fun _ w _ hw => pure trivial hw
        | none =>
            simp only
            split
            · exact bind (orPanic' ht) fun _ u _ hu => fail _ hu
            · exact pure trivial ht

theorem blockF {x : Block} (hb : NodeReads P (.block x)) :
    Eqv P A B f g (blockF S ⟨r, f, b, c⟩ x) (blockF S ⟨r, g, b', c⟩ x) Any := by
  intro s hs
  have hx := hb.block x .self
  unfold Bracket.blockF
  simp only
  split
  · exact renderPartial hA hB hP hu H c hx (by rintro _ ⟨⟩; exact hb) s hs
  · rename_i hpart
    cases hct : x.call.target with
    | path p =>
        simp only
        split
        · rename_i hsimple
          have hx : CallReads P true x.call := by
            have e : (!x.call.isPartial && !x.call.isEmpty) = true := by
              have : x.call.isEmpty = false := by
                unfold Call.isEmpty
                rw [hct]
                unfold Path.isSimple at hsimple
                show p.components.isEmpty = false
                cases hcs : p.components with
                | nil => rw [hcs] at hsimple; cases hsimple
                | cons a l => rfl
              simp [this, hpart]
            rw [e] at hx
            exact hx
          have hp : FindsSame b b' p := by cases hx with | mk h _ _ _ _ _ => exact hP p (h rfl p hct)
          refine bind (R := Any) ?_ fun text t _ ht => bind (orPanic' ht) fun name u _ hi => getBind ?_
          · unfold blockText
            split
            · exact bind (orPanic' hs) fun _ t _ ht => bind (modify (ht.of rfl rfl)) fun _ u _ hu => pure trivial hu
            · exact pure trivial hs
          · show EqAt P A B f g (if hasHelper ⟨r, f, b, c⟩ u name then _ else _) (if hasHelper ⟨r, f, b, c⟩ u name then _ else _) Any u
            split
            · exact bind (invoke hA hB hP hu H c _ _ (by simp) hx (by rintro _ ⟨⟩; exact hb) _ _ _ hi) fun _ w _ hw => pure trivial hw
            · exact blockHelperMissing hA hB hP hu H c hb hx hp _ _ _ hi
        · exact bind (orPanic' hs) fun _ t _ ht => fail _ ht
    | subExpr _ => exact fail _ hs

theorem linkCall_reads {l : Link} {x : Call} (h : linkCall l = some x) : CallReads P false x := by
  unfold linkCall at h
  cases h1 : l.hrefStr with
  | none => rw [h1] at h; cases h
  | some v1 =>
    cases h2 : l.labelStr with
    | none => rw [h1, h2] at h; cases h
    | some v2 =>
      cases h3 : l.titleStr with
      | none => rw [h1, h2, h3] at h; cases h
      | some v3 =>
        rw [h1, h2, h3] at h
        simp only [Option.bind_eq_bind, Option.bind_some, Option.some.injEq] at h
        subst h
        refine .mk (fun h => by cases h) ?_ ?_ ?_ ?_ ?_
        · intro p hd
          simp [Call.addArg, Call.new, Call.args] at hd
        · intro k p hd
          simp [Call.addArg, Call.new, Call.params] at hd
        · intro d hp; cases hp
        · intro d hd
          simp [Call.addArg, Call.new, Call.args] at hd
        · intro k d hd
          simp [Call.addArg, Call.new, Call.params] at hd

theorem renderKind {node : Node} (hn : NodeReads P node) :
    Eqv P A B f g (renderKind S ⟨r, f, b, c⟩ node) (renderKind S ⟨r, g, b', c⟩ node) Any := by
  intro s hs
  unfold Bracket.renderKind
  cases node with
  | text t => exact bind (orPanic' hs) fun _ u _ hi => bind (writeStr hA hB hP hu H c _ _ u hi) fun _ v _ hv => pure trivial hv
  | rawStatement t =>
      exact bind (orPanic' hs) fun _ u _ hi => bind (orPanic' hi) fun _ u _ hi =>
        bind (writeStr hA hB hP hu H c _ _ u hi) fun _ v _ hv => pure trivial hv
  | link l =>
      simp only
      refine bind (orPanic' hs) fun esc t _ ht => ?_
      split
      · exact bind (orPanic' ht) fun _ u _ hi => bind (writeStr hA hB hP hu H c _ _ u hi) fun _ v _ hv => pure trivial hv
      · cases hlk : r.link with
        | some g =>
            simp only
            exact bind (orPanic (fun x hx => linkCall_reads hA hB hP hu H hx) ht) fun x u hx hi => bind (invoke hA hB hP hu H c _ _ (by
              intro h' e'; cases e'; exact hu.link _ hlk) hx (by simp) _ _ _ hi) fun _ v _ hv => pure trivial hv
        | none =>
            exact bind (orPanic' ht) fun _ u _ hi => bind (writeStr hA hB hP hu H c _ _ u hi) fun _ v _ hv => pure trivial hv
  | statement x =>
      refine bind (H.stmt c x (hn.statement x .self) s hs) fun v t _ ht => ?_
      cases v with
      | some v =>
          exact bind (orPanic' ht) fun _ u _ hi => bind (writeStr hA hB hP hu H c _ _ u hi) fun _ v _ hv => pure trivial hv
      | none => exact pure trivial ht
  | block x => exact blockF hA hB hP hu H c hn s hs
  | rawComment t => exact pure trivial hs
  | comment t => exact pure trivial hs
  | document _ _ => exact pure trivial hs

theorem renderNodeF {node : Node} (hn : NodeReads P node) (t : TrimState) :
    Eqv P A B f g (renderNodeF S ⟨r, f, b, c⟩ node t) (renderNodeF S ⟨r, g, b', c⟩ node t) Any := by
  intro s hs
  unfold Bracket.renderNodeF
  exact bind (orPanic' hs) fun h u _ hi => bind (modify (hi.of rfl rfl)) fun _ v _ hv => renderKind hA hB hP hu H c hn v hv

end

theorem sem_same {r : Reg} (hA : A → f = g) (hB : B → b = b') (hP : ∀ p, P p → FindsSame b b' p) (hu : RegReads P A B r) :
    ∀ n, SemSame P A B f g b b' r (sem n) := by
  intro n
  induction n with
  | zero => exact ⟨fun _ _ _ _ _ _ => outOfFuel, fun _ _ _ _ _ => outOfFuel, fun _ _ _ _ _ => outOfFuel⟩
  | succ n ih =>
      exact ⟨fun c x t hn => renderNodeF hA hB hP hu ih c hn t, fun c x hx => statementF hA hB hP hu ih c hx,
        fun c x hx => callF hA hB hP hu ih c hx⟩

theorem renderTo_same {r : Reg} (hA : A → f = g) (hB : B → b = b') (hP : ∀ p, P p → FindsSame b b' p) (hu : RegReads P A B r)
    {doc : Node} (hn : NodeReads P doc) (n : Nat) (sink : Sink) :
    EndsAlike f g (renderTo n r sink f doc b).1 (renderTo n r sink g doc b').1 ∧
    (renderTo n r sink f doc b).2 = (renderTo n r sink g doc b').2 := by
  have h := renderAll hA hB hP hu (sem_same hA hB hP hu n) sink hn (RS.init [])
    ⟨fun _ _ h => (by simp [RS.init, assoc] at h), fun _ _ h => (by simp [RS.init, assoc] at h)⟩
  exact ⟨h.ends, h.state⟩

end Bracket.Reads
