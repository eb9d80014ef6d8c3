import Verif.Spec.Robust
import Verif.Lemmas.Frame
import Verif.Lemmas.Basic

/-! Rendering without panics: an induction over all executions. -/

set_option linter.unusedSectionVars false

namespace Bracket.Robust
open Spec

/-- The texts of the path and of its components can be read. -/
structure PathGood (p : Path) : Prop where
  text : ∃ w, p.asStr = some w
  comps : ∀ c ∈ p.components, ∃ w, c.asValue = some w

/-- Everything that is read of a call while rendering can be read. -/
inductive CallGood : Call → Prop
  | mk {c : Call} (text : ∃ w, c.asStr = some w) (esc : ∃ b, c.isEscaped = some b)
      (path : ∀ p, c.target = .path p → PathGood p) (sub : ∀ d, c.target = .subExpr d → CallGood d)
      (argPath : ∀ p, .path p ∈ c.args → PathGood p) (argSub : ∀ d, .subExpr d ∈ c.args → CallGood d)
      (argText : ∀ v ∈ c.args, ∃ w, v.asStr = some w)
      (parPath : ∀ k p, (k, .path p) ∈ c.params → PathGood p) (parSub : ∀ k d, (k, .subExpr d) ∈ c.params → CallGood d) : CallGood c

/-- Everything that is read of a node of a template while rendering can be read. -/
structure NodesGood [Host] (L : Bool) : Prop where
  trim : ∀ n, OfTemplate L n → ∃ t, n.trim = some t
  close : ∀ b, OfTemplate L (.block b) → ∃ t, b.trimClose = some t
  raw : ∀ b, OfTemplate L (.block b) → b.raw = true → ∃ t, rawText b = some t
  block : ∀ b, OfTemplate L (.block b) → CallGood b.call
  statement : ∀ c, OfTemplate L (.statement c) → CallGood c
  text : ∀ t, OfTemplate L (.text t) → ∃ w, t.asStr = some w
  rawStatement : ∀ t, OfTemplate L (.rawStatement t) → ∃ w v, t.asStr = some w ∧ slice w 1 (blen w) = some v
  link : ∀ l, OfTemplate L (.link l) → ∃ e w, l.isEscaped = some e ∧ l.asStr = some w ∧ (e = true → ∃ v, l.afterEscape = some v)
  handled : L = true → ∀ l, OfTemplate L (.link l) → ∃ c, linkCall l = some c ∧ CallGood c

variable [Host] {L : Bool} {W : Str → Prop} {w : Prop}

theorem ofTemplate {c f : Str} {n : Node} (ha : ∀ n, compile c ⟨f, 0, 0⟩ = .ok n → Fit L n) (hc : compile c ⟨f, 0, 0⟩ = .ok n) :
    OfTemplate L n := ⟨_, _, _, n, hc, ha n hc, .self⟩
theorem inner {n x : Node} (h : OfTemplate L n) (hx : x ∈ n.children) : OfTemplate L x := by
  obtain ⟨s, f, l, t, h1, h2, h3⟩ := h
  exact ⟨s, f, l, t, h1, h2, .child h3 hx⟩
theorem clause {b : Block} {x : Node} (h : OfTemplate L (.block b)) (hx : x ∈ b.conditionals) : OfTemplate L x := by
  obtain ⟨s, f, l, t, h1, h2, h3⟩ := h
  exact ⟨s, f, l, t, h1, h2, .clause h3 hx⟩

/-- The local helpers do not panic, and the content of block partials is part of compiled templates. -/
structure Inv (L : Bool) (W : Str → Prop) (w : Prop) (s : RS) : Prop where
  locals : ∀ n h, assoc n s.locals = some h → CalmHelper L False h
  partials : ∀ n x, assoc n s.partials = some x → OfTemplate L x
  wild : w → Blamed W s

def FineAt (L : Bool) (W : Str → Prop) (w : Prop) {α : Type} (m : RM α) (Q : α → Prop) (s : RS) : Prop :=
  match m s with
  | (.ok a, t) => Q a ∧ Inv L W w t
  | (.err _, t) => Inv L W w t
  | (.fuel, t) => Inv L W w t
  | (.panic, t) => Blamed W t

def Fine (L : Bool) (W : Str → Prop) (w : Prop) {α : Type} (m : RM α) (Q : α → Prop) : Prop := ∀ s, Inv L W w s → FineAt L W w m Q s

/-- Any value. -/
abbrev Any {α : Type} : α → Prop := fun _ => True

structure SemOk (L : Bool) (W : Str → Prop) (reg : Reg) (S : Sem) : Prop where
  renderNode : ∀ {w : Prop} E, E.reg = reg → ∀ n t, OfTemplate L n → Fine L W w (S.renderNode E n t) Any
  statement : ∀ {w : Prop} E, E.reg = reg → ∀ c, CallGood c → Fine L W w (S.statement E c) Any
  call : ∀ {w : Prop} E, E.reg = reg → ∀ c, CallGood c → Fine L W w (S.call E c) Any

theorem Inv.of {s t : RS} (h : Inv L W w s) (hl : t.locals = s.locals) (hp : t.partials = s.partials) (ht : ∀ e ∈ s.trace, e ∈ t.trace := by exact fun _ h => h) : Inv L W w t :=
  ⟨by rw [hl]; exact h.locals, by rw [hp]; exact h.partials, fun hw => by
    obtain ⟨n, h1, h2⟩ := h.wild hw
    exact ⟨n, h1, h2.imp (ht _) (ht _)⟩⟩

theorem blamed_of {s t : RS} (h : Blamed W s) (ht : ∀ e ∈ s.trace, e ∈ t.trace) : Blamed W t := by
  obtain ⟨n, h1, h2⟩ := h
  exact ⟨n, h1, h2.imp (ht _) (ht _)⟩
theorem weaken {v : Prop} {s : RS} (h : Inv L W (w ∨ v) s) : Inv L W w s := ⟨h.locals, h.partials, fun hw => h.wild (.inl hw)⟩
theorem mem_snoc {α : Type} {l : List α} {x : α} : ∀ e ∈ l, e ∈ l ++ [x] := fun _ h => List.mem_append_left _ h

theorem pure {α : Type} {a : α} {Q : α → Prop} (ha : Q a) {s : RS} (hs : Inv L W w s) : FineAt L W w (Pure.pure a : RM α) Q s := ⟨ha, hs⟩
theorem fail {α : Type} {Q : α → Prop} (e : RenderErr) {s : RS} (hs : Inv L W w s) : FineAt L W w (RM.fail e : RM α) Q s := hs
theorem outOfFuel {α : Type} {Q : α → Prop} {s : RS} (hs : Inv L W w s) : FineAt L W w (RM.outOfFuel : RM α) Q s := hs
theorem orPanic {α : Type} {o : Option α} {Q : α → Prop} (h : ∃ a, o = some a ∧ Q a) {s : RS} (hs : Inv L W w s) : FineAt L W w (RM.orPanic o) Q s := by
  obtain ⟨a, rfl, ha⟩ := h
  exact ⟨ha, hs⟩
theorem orPanic' {α : Type} {o : Option α} (h : ∃ a, o = some a) {s : RS} (hs : Inv L W w s) : FineAt L W w (RM.orPanic o) Any s := by
  obtain ⟨a, rfl⟩ := h
  exact ⟨trivial, hs⟩

theorem bind {α β : Type} {m : RM α} {f : α → RM β} {P : α → Prop} {Q : β → Prop} {s : RS} (h : FineAt L W w m P s)
    (hf : ∀ a t, P a → Inv L W w t → FineAt L W w (f a) Q t) : FineAt L W w (m >>= f) Q s := by
  unfold FineAt at h ⊢
  rw [RM.bind_def]
  rcases hm : m s with ⟨r, t⟩
  rw [hm] at h
  cases r with
  | ok a => exact hf a t h.1 h.2
  | err e => exact h
  | panic => exact h
  | fuel => exact h

theorem getBind {β : Type} {f : RS → RM β} {Q : β → Prop} {s : RS} (h : FineAt L W w (f s) Q s) : FineAt L W w (RM.get >>= f) Q s := h

theorem modify {f : RS → RS} {s : RS} (h : Inv L W w (f s)) : FineAt L W w (RM.modify f) Any s := ⟨trivial, h⟩

theorem catchErr {α β : Type} {m : RM α} {f : Except RenderErr α → RM β} {P : α → Prop} {Q : β → Prop} {s : RS} (h : FineAt L W w m P s)
    (hf : ∀ r, (∀ a, r = .ok a → P a) → Fine L W w (f r) Q) : FineAt L W w (RM.catchErr m f) Q s := by
  unfold FineAt at h ⊢
  unfold RM.catchErr
  rcases hm : m s with ⟨r, t⟩
  rw [hm] at h
  cases r with
  | ok a => exact hf _ (by rintro _ ⟨⟩; exact h.1) t h.2
  | err e => exact hf _ (by rintro _ ⟨⟩) t h
  | panic => exact h
  | fuel => exact h

theorem rawWrite {E : Env} (c : Str) : Fine L W w (rawWrite E c) Any := by
  intro s hs
  unfold FineAt Bracket.rawWrite
  exact ⟨trivial, hs.of rfl rfl⟩

theorem writeStr {E : Env} (c : Str) (esc : Bool) : Fine L W w (writeStr E c esc) Any := by
  intro s hs
  unfold Bracket.writeStr
  refine getBind ?_
  by_cases hv : (applyTrim s.trim c).isEmpty = true
  · simp only [hv, if_true]
    exact pure (Q := Any) trivial hs
  · simp only [hv, Bool.false_eq_true, if_false]
    refine bind (P := Any) (rawWrite _ s hs) fun r t _ ht => ?_
    cases r with
    | ok n => exact pure (Q := Any) trivial ht
    | error e => exact fail (Q := Any) _ ht

theorem mapM_some {α β : Type} {f : α → Option β} : ∀ {l : List α}, (∀ x ∈ l, ∃ y, f x = some y) → ∃ r, l.mapM f = some r
  | [], _ => ⟨[], rfl⟩
  | x :: l, h => by
      obtain ⟨y, hy⟩ := h x (by simp)
      obtain ⟨r, hr⟩ := mapM_some (f := f) (l := l) fun z hz => h z (by simp [hz])
      exact ⟨y :: r, by simp [List.mapM_cons, hy, hr]⟩

theorem lookupM (E : Env) {p : Path} (hp : PathGood p) : Fine L W w (lookupM E p) Any := by
  intro s hs
  refine getBind (orPanic' ?_ hs)
  obtain ⟨r, hr⟩ := mapM_some hp.comps
  exact ⟨_, by unfold lookup; rw [hr]; rfl⟩

/-- A nested renderer starts with no local helpers and no block partials. -/
theorem nested {init : RS} (hi : init.locals = []) (hp : init.partials = []) {m : RM Unit} (h : Fine L W w m Any) : Fine L W w (nested init m) Any := by
  intro s hs
  have := h { init with logs := s.logs, trace := s.trace } ⟨by simp [hi, assoc], by simp [hp, assoc], fun hw => blamed_of (hs.wild hw) fun _ h => h⟩
  unfold FineAt at this ⊢
  unfold Bracket.nested
  generalize m { init with logs := s.logs, trace := s.trace } = x at this ⊢
  obtain ⟨r, t⟩ := x
  cases r with
  | ok a => exact ⟨trivial, hs.locals, hs.partials, fun hw => blamed_of (this.2.wild hw) fun _ h => h⟩
  | err e => exact ⟨hs.locals, hs.partials, fun hw => blamed_of (Inv.wild this hw) fun _ h => h⟩
  | panic => exact blamed_of this fun _ h => h
  | fuel => exact ⟨hs.locals, hs.partials, fun hw => blamed_of (Inv.wild this hw) fun _ h => h⟩

theorem traced {α : Type} {site : CallSite} {m : RM α} {Q : α → Prop} (h : Fine L W w m Q) : Fine L W w (traced site m) Q := by
  intro s hs
  have := h { s with trace := s.trace ++ [.enter site] } (hs.of rfl rfl mem_snoc)
  unfold FineAt at this ⊢
  unfold Bracket.traced
  generalize m { s with trace := s.trace ++ [.enter site] } = x at this ⊢
  obtain ⟨r, t⟩ := x
  cases r with
  | ok a => exact ⟨this.1, this.2.of rfl rfl mem_snoc⟩
  | err e => exact Inv.of (s := t) this rfl rfl mem_snoc
  | panic => exact blamed_of this mem_snoc
  | fuel => exact Inv.of (s := t) this rfl rfl mem_snoc

section
variable {reg : Reg} {S : Sem} (NG : NodesGood L) (H : SemOk L W reg S)
include NG H

theorem nextBefore {l : List Node} (hl : ∀ x ∈ l, OfTemplate L x) : Fine L W w (nextBefore l) Any := by
  intro s hs
  unfold Bracket.nextBefore
  cases l with
  | nil => exact pure trivial hs
  | cons x l => exact bind (orPanic' (NG.trim x (hl x (by simp))) hs) fun _ t _ ht => pure trivial ht

theorem runEvents {f : Ev → RM Unit} (h : ∀ ev : Ev, OfTemplate L ev.node → Fine L W w (f ev) Any) :
    ∀ ns, (∀ x ∈ ns, OfTemplate L x) → ∀ prev hint, Fine L W w (runEvents f ns prev hint) Any := by
  intro ns
  induction ns with
  | nil => intro _ _ _ s hs; exact pure trivial hs
  | cons n rest ih =>
      intro hn prev hint s hs
      unfold Bracket.runEvents
      exact bind (nextBefore NG H (fun x hx => hn x (by simp [hx])) _ hs) fun _ t _ ht => bind (orPanic' (NG.trim n (hn n (by simp))) ht) fun _ t _ ht =>
        bind (h _ (hn n (by simp)) _ ht) fun _ t _ ht => ih (fun x hx => hn x (by simp [hx])) _ _ _ ht

theorem renderAll {E : Env} (hE : E.reg = reg) {n : Node} (hn : OfTemplate L n) : Fine L W w (renderAll S E n) Any :=
  runEvents NG H (fun ev hev => H.renderNode E hE ev.node ev.trim hev) _ (fun _ hx => inner hn hx) _ _

theorem templateEvent {E : Env} (hE : E.reg = reg) {n : Node} (hn : OfTemplate L n) (ev : Ev) (hev : OfTemplate L ev.node) :
    Fine L W w (templateEvent S E n ev) Any := by
  intro s hs
  unfold Bracket.templateEvent
  refine bind (P := Any) ?_ fun _ t _ ht => bind (P := Any) ?_ fun _ u _ hu => H.renderNode E hE _ _ hev _ hu
  · unfold firstHint; split
    · exact orPanic' (NG.trim n hn) hs
    · exact pure trivial hs
  · unfold lastHint
    cases n with
    | block b =>
        simp only
        split
        · exact orPanic' (NG.close b hn) ht
        · exact pure trivial ht
    | _ => exact pure trivial ht

theorem template {E : Env} (hE : E.reg = reg) {n : Node} (hn : OfTemplate L n) : Fine L W w (template S E n) Any := by
  intro s hs
  unfold Bracket.template
  refine getBind (bind (runEvents NG H (templateEvent NG H hE hn) _ (fun _ hx => inner hn hx) _ _ _ hs) fun _ t _ ht =>
    bind (orPanic' ?_ ht) fun _ u _ hu => modify (hu.of rfl rfl))
  unfold closeHint
  cases n with
  | block b =>
      simp only
      split
      · exact ⟨_, rfl⟩
      · obtain ⟨t, ht⟩ := NG.close b hn
        exact ⟨_, by rw [ht]; rfl⟩
  | _ => exact ⟨_, rfl⟩

theorem inverse {E : Env} (hE : E.reg = reg) {n : Node} (hn : OfTemplate L n) :
    Fine L W w (inverse S E n) (fun r => ∀ m, r = some m → OfTemplate L m) := by
  unfold Bracket.inverse
  cases n with
  | block b =>
      simp only
      suffices ∀ l, (∀ x ∈ l, OfTemplate L x) → ∀ alt, (∀ m, alt = some m → OfTemplate L m) →
          Fine L W w (inverseLoop S E l alt) (fun r => ∀ m, r = some m → OfTemplate L m) from
        this _ (fun _ hx => clause hn hx) _ (by rintro _ ⟨⟩)
      intro l
      induction l with
      | nil => intro _ alt ha s hs; exact pure ha hs
      | cons x l ih =>
          intro hl alt ha s hs
          have hx := hl x (by simp)
          have hr : ∀ y ∈ l, OfTemplate L y := fun y hy => hl y (by simp [hy])
          cases x with
          | block c =>
              unfold inverseLoop
              split
              · exact ih hr _ (by rintro _ ⟨⟩; exact hx) _ hs
              · refine bind (H.call E hE _ (NG.block c hx) _ hs) fun v t _ ht => ?_
                cases v with
                | none => exact ih hr _ ha _ ht
                | some v =>
                    simp only
                    split
                    · exact pure (by rintro _ ⟨⟩; exact hx) ht
                    · exact ih hr _ ha _ ht
          | _ => unfold inverseLoop; exact ih hr _ ha _ hs
  | _ => exact fun s hs => pure (by rintro _ ⟨⟩) hs

theorem buffer {E : Env} (hE : E.reg = reg) {n : Node} (hn : OfTemplate L n) : Fine L W w (buffer S E n) Any := fun s hs =>
  getBind (nested (init := { RS.init s.stack with scopes := s.scopes }) rfl rfl (template (E := { E with sink := stringSink }) NG H hE hn) s hs)

theorem once {E : Env} (hE : E.reg = reg) (f : Str) {c : Str} (d : Value) (hc : compile c ⟨f, 0, 0⟩ ≠ .panic)
    (ha : ∀ n, compile c ⟨f, 0, 0⟩ = .ok n → Fit L n) :
    Fine L W w (once S E f c d) Any := by
  intro s hs
  unfold Bracket.once
  refine getBind ?_
  cases hd : compile c ⟨f, 0, 0⟩ with
  | ok doc =>
      simp only
      exact catchErr (nested (init := RS.init s.stack) rfl rfl
        (renderAll (E := { E with name := f, root := d, sink := stringSink }) NG H hE (ofTemplate ha hd)) s hs) fun r _ t ht => pure trivial ht
  | err e => exact pure trivial hs
  | panic => exact absurd hd hc
  | fuel => exact outOfFuel hs

theorem paramM {E : Env} (hE : E.reg = reg) {p : ParamValue} (hp : ∀ q, p = .path q → PathGood q) (hc : ∀ d, p = .subExpr d → CallGood d) :
    Fine L W w (paramM S E p) Any := by
  intro s hs
  unfold Bracket.paramM
  cases p with
  | json => exact pure trivial hs
  | path p =>
      refine bind (lookupM E (hp p rfl) s hs) fun v t _ ht => ?_
      cases v with
      | some v => exact pure trivial ht
      | none => exact bind (orPanic' (hp p rfl).text ht) fun _ u _ hu => pure trivial hu
  | subExpr c =>
      refine bind (H.statement E hE c (hc c rfl) s hs) fun v t _ ht => ?_
      cases v with
      | some v => exact pure trivial ht
      | none =>
          have : ∃ w, c.asStr = some w := by cases hc c rfl; assumption
          exact bind (orPanic' this ht) fun _ u _ hu => pure trivial hu

theorem argumentsLoop {E : Env} (hE : E.reg = reg) : ∀ ps, (∀ p, ParamValue.path p ∈ ps → PathGood p) → (∀ d, ParamValue.subExpr d ∈ ps → CallGood d) →
    ∀ i ms, Fine L W w (argumentsLoop S E i ps ms) Any := by
  intro ps
  induction ps with
  | nil => intro _ _ i ms s hs; exact pure trivial hs
  | cons p ps ih =>
      intro h1 h2 i ms s hs
      exact bind (paramM NG H hE (p := p) (by rintro q rfl; exact h1 q (by simp)) (by rintro q rfl; exact h2 q (by simp)) s hs)
        fun _ t _ ht => bind (ih (fun q hq => h1 q (by simp [hq])) (fun q hq => h2 q (by simp [hq])) _ _ _ ht) fun _ u _ hu => pure trivial hu

theorem hashLoop {E : Env} (hE : E.reg = reg) : ∀ ps, (∀ k p, (k, ParamValue.path p) ∈ ps → PathGood p) → (∀ k d, (k, ParamValue.subExpr d) ∈ ps → CallGood d) →
    ∀ out ms, Fine L W w (hashLoop S E ps out ms) Any := by
  intro ps
  induction ps with
  | nil => intro _ _ i ms s hs; exact pure trivial hs
  | cons p ps ih =>
      obtain ⟨k, p⟩ := p
      intro h1 h2 i ms s hs
      exact bind (paramM NG H hE (p := p) (by rintro q rfl; exact h1 k q (by simp)) (by rintro q rfl; exact h2 k q (by simp)) s hs)
        fun _ t _ ht => ih (fun k q hq => h1 k q (by simp [hq])) (fun k q hq => h2 k q (by simp [hq])) _ _ _ ht

variable (HR : CalmReg L W reg)
include HR

theorem run {E : Env} (hE : E.reg = reg) {B : Prop} {p : Prog} (hp : Calm L B p) (hB : B → w) : Fine L W w (run S E p) Any := by
  induction hp with
  | panic h => exact fun s hs => hs.wild (hB h)
  | ret v => exact fun s hs => pure trivial hs
  | fail e => exact fun s hs => fail _ hs
  | write c k h ih => intro s hs; unfold Bracket.run; exact catchErr (writeStr _ _ s hs) fun r _ => ih _ hB
  | writeEscaped c k h ih => intro s hs; unfold Bracket.run; exact catchErr (writeStr _ _ s hs) fun r _ => ih _ hB
  | outWrite c k h ih =>
      intro s hs; unfold Bracket.run
      exact bind (P := Any) ⟨trivial, hs.of rfl rfl⟩ fun r t _ ht => ih _ hB t ht
  | template n k hn h ih => intro s hs; unfold Bracket.run; exact catchErr (template NG H hE hn s hs) fun r _ => ih _ hB
  | render n k hn h ih => intro s hs; unfold Bracket.run; exact catchErr (renderAll NG H hE hn s hs) fun r _ => ih _ hB
  | inverse n k hn h ih =>
      intro s hs; unfold Bracket.run
      refine catchErr (inverse NG H hE hn s hs) fun r hr => ih _ ?_ hB
      intro m hm
      cases r with
      | ok a => cases hm; exact hr _ rfl m rfl
      | error e => cases hm
  | buffer n k hn h ih => intro s hs; unfold Bracket.run; exact catchErr (buffer NG H hE hn s hs) fun r _ => ih _ hB
  | once f c d k hc ha h ih => intro s hs; unfold Bracket.run; exact bind (once NG H hE f d hc ha s hs) fun r t _ ht => ih _ hB t ht
  | evaluate p k hp h ih =>
      intro s hs; unfold Bracket.run
      refine bind (P := Any) ?_ fun r t _ ht => ih _ hB t ht
      have hst : (Bracket.evaluate E p s).2 = s := by
        unfold Bracket.evaluate
        cases pathFromStr p with
        | ok q =>
            cases q with
            | none => rfl
            | some q =>
                change ((Bracket.lookupM E q >>= fun v => Pure.pure (Except.ok v)) s).2 = s
                rw [RM.bind_def]
                have : ∃ r, Bracket.lookupM E q s = (r, s) := by
                  change ∃ r, RM.orPanic (lookup E.root s.scopes q) s = (r, s)
                  cases lookup E.root s.scopes q <;> exact ⟨_, rfl⟩
                obtain ⟨r, hr⟩ := this
                rw [hr]
                cases r <;> rfl
        | _ => rfl
      have := hp E s
      unfold FineAt
      rcases he : Bracket.evaluate E p s with ⟨r, t⟩
      rw [he] at this hst
      subst hst
      cases r with
      | ok a => exact ⟨trivial, hs⟩
      | panic => exact absurd rfl this
      | _ => exact hs
  | pushScope sc k h ih => intro s hs; unfold Bracket.run; exact bind (modify (hs.of rfl rfl)) fun _ t _ ht => ih hB t ht
  | popScope k h ih => intro s hs; unfold Bracket.run; exact getBind (bind (modify (hs.of rfl rfl)) fun _ t _ ht => ih _ hB t ht)
  | scopeMut f k h ih =>
      intro s hs; unfold Bracket.run
      refine getBind (bind (modify ?_) fun _ t _ ht => ih _ hB t ht)
      split
      · exact hs
      · exact hs.of rfl rfl
  | registerLocal n g k hg h _ ih =>
      intro s hs; unfold Bracket.run
      refine bind (modify ⟨?_, hs.partials, hs.wild⟩) fun _ t _ ht => ih hB t ht
      intro m f hf
      change assoc m (assocInsert n g s.locals) = _ at hf
      by_cases hm : m = n
      · subst hm; rw [assoc_insert_self] at hf; cases hf; exact hg
      · rw [assoc_insert_ne _ _ hm] at hf; exact hs.locals m f hf
  | unregisterLocal n k h ih =>
      intro s hs; unfold Bracket.run
      refine bind (modify ⟨?_, hs.partials, hs.wild⟩) fun _ t _ ht => ih hB t ht
      intro m f hf
      change assoc m (assocErase n s.locals) = _ at hf
      by_cases hm : m = n
      · subst hm; rw [assoc_erase_self] at hf; cases hf
      · rw [assoc_erase_ne _ hm] at hf; exact hs.locals m f hf
  | peek k h ih =>
      intro s hs; unfold Bracket.run
      exact getBind (ih _ (fun n t ht => HR.templates n t (by rw [← hE]; exact ht)) hB s hs)
  | log l m k h ih => intro s hs; unfold Bracket.run; exact bind (modify (hs.of rfl rfl)) fun _ t _ ht => ih hB t ht

theorem runTarget {E : Env} (hE : E.reg = reg) (name : Str) (hW : W name → w) (t : Target)
    (ht : ∀ h, t = .handler h → CalmHelper L False h) {ctx : Ctx} (hx : ∀ i, ctx.raw i ≠ none) {content : Option Node}
    (hc : ∀ m, content = some m → OfTemplate L m) {s : RS} (hs : Inv L W w s) : FineAt L W w (runTarget S E name t ctx content s.locals) Any s := by
  unfold Bracket.runTarget
  cases t with
  | name =>
      simp only
      cases hl : assoc name s.locals with
      | some h => exact run NG H HR hE (hs.locals name h hl _ _ hx hc) False.elim s hs
      | none =>
          cases hr : assoc name E.reg.helpers with
          | some h => exact run NG H HR hE (HR.helpers name h (by rw [← hE]; exact hr) _ _ hx hc) hW s hs
          | none => exact pure trivial hs
  | handler h => exact run NG H HR hE (ht h rfl _ _ hx hc) False.elim s hs

theorem invokeBody {E : Env} (hE : E.reg = reg) (name : Str) (hW : W name → w) (t : Target)
    (ht : ∀ h, t = .handler h → CalmHelper L False h) {c : Call} (hg : CallGood c) {content : Option Node} (hc : ∀ m, content = some m → OfTemplate L m)
    (text : Option Str) (prop : Option (Str × Value)) :
    Fine L W w (invokeBody S E name t c content text prop) Any := by
  intro s hs
  unfold Bracket.invokeBody
  cases hg with
  | mk _ _ _ _ h1 h2 h3 h4 h5 =>
    refine bind (argumentsLoop NG H hE _ h1 h2 _ _ _ hs) fun _ _ _ g1 =>
      bind (hashLoop NG H hE _ h4 h5 _ _ _ g1) fun _ _ _ g2 => getBind (runTarget NG H HR hE name hW t ht ?_ hc g2)
    intro i
    unfold Ctx.raw
    simp only
    cases hi : c.args[i]? with
    | none => simp
    | some v =>
        obtain ⟨w, hw⟩ := h3 v (List.mem_of_getElem? hi)
        simp [hw]

theorem invoke {E : Env} (hE : E.reg = reg) (name : Str) (t : Target)
    (ht : ∀ h, t = .handler h → CalmHelper L False h) {c : Call} (hg : CallGood c) {content : Option Node} (hct : ∀ m, content = some m → OfTemplate L m)
    (text : Option Str) (prop : Option (Str × Value)) :
    Fine L W w (invoke S E name t c content text prop) Any := by
  intro s hs
  unfold FineAt
  rw [invoke_eq]
  by_cases hc : (s.stack.filter (· == siteOf name content)).length ≥ stackMax
  · rw [if_pos hc]; exact hs
  · rw [if_neg hc]
    have hm := invokeBody (w := w ∨ W name) NG H HR hE name Or.inr t ht hg hct text prop (s.enter (siteOf name content)) (by
      refine ⟨hs.locals, hs.partials, ?_⟩
      rintro (hw | hw)
      · exact blamed_of (hs.wild hw) mem_snoc
      · refine ⟨name, hw, ?_⟩
        cases content with
        | none => left; exact List.mem_append_right _ (by simp [siteOf])
        | some m => right; exact List.mem_append_right _ (by simp [siteOf]))
    unfold FineAt at hm
    generalize Bracket.invokeBody S E name t c content text prop (s.enter (siteOf name content)) = x at hm ⊢
    obtain ⟨r, t⟩ := x
    cases r with
    | ok a => exact ⟨trivial, Inv.of (s := t) (weaken hm.2) rfl rfl mem_snoc⟩
    | err e => exact Inv.of (s := t) (weaken hm) rfl rfl mem_snoc
    | panic => exact blamed_of hm mem_snoc
    | fuel => exact Inv.of (s := t) (weaken hm) rfl rfl mem_snoc

theorem callF {E : Env} (hE : E.reg = reg) {c : Call} (hg : CallGood c) : Fine L W w (callF S E c) Any := by
  intro s hs
  have hg' := hg
  cases hg' with
  | mk _ _ hp hsub _ _ _ _ _ =>
  unfold Bracket.callF
  cases hct : c.target with
  | path p =>
      have hp := hp p hct
      simp only
      split
      · exact lookupM E hp s hs
      · split
        · refine bind (orPanic' hp.text hs) fun name t _ ht => getBind ?_
          split
          · exact invoke NG H HR hE _ _ (by simp) hg (by simp) _ _ _ ht
          · refine bind (lookupM E hp t ht) fun v u _ hu => ?_
            cases v with
            | some v => exact pure trivial hu
            | none =>
                cases hh : E.reg.helperMissing with
                | some h =>
                    exact invoke NG H HR hE _ _ (by
                      intro h' e; cases e; exact HR.helperMissing _ (by rw [← hE]; exact hh)) hg (by simp) _ _ _ hu
                | none =>
                    simp only
                    split
                    · exact fail _ hu
                    · exact pure trivial hu
        · refine bind (lookupM E hp s hs) fun v u _ hu => ?_
          cases v with
          | some v => exact pure trivial hu
          | none =>
              simp only
              split
              · exact bind (orPanic' hp.text hu) fun _ t _ ht => fail _ ht
              · exact pure trivial hu
  | subExpr sub => exact H.call E hE _ (hsub sub hct) s hs

theorem partialName {E : Env} (hE : E.reg = reg) {c : Call} (hg : CallGood c) : Fine L W w (partialName S E c) Any := by
  intro s hs
  cases hg with
  | mk _ _ hp hsub _ _ _ _ _ =>
  unfold Bracket.partialName
  cases hct : c.target with
  | path p =>
      simp only
      refine bind (orPanic' (hp p hct).text hs) fun txt t _ ht => ?_
      split
      · exact pure trivial ht
      · split
        · exact pure trivial ht
        · exact fail _ ht
  | subExpr sub => exact bind (H.statement E hE _ (hsub sub hct) s hs) fun _ t _ ht => pure trivial ht

theorem partialScope {E : Env} (hE : E.reg = reg) {c : Call} (hg : CallGood c) : Fine L W w (partialScope S E c) Any := by
  intro s hs
  cases hg with
  | mk _ _ _ _ h1 h2 _ h4 h5 =>
  unfold Bracket.partialScope
  refine bind (hashLoop NG H hE _ h4 h5 _ _ _ hs) fun h t _ ht => ?_
  split
  · exact pure trivial ht
  · exact bind (argumentsLoop NG H hE _ h1 h2 _ _ _ ht) fun _ u _ hu => pure trivial hu

theorem findPartial {E : Env} (hE : E.reg = reg) (name : Str) : Fine L W w (findPartial E name) (OfTemplate L) := by
  intro s hs
  unfold Bracket.findPartial
  refine getBind ?_
  cases hp : assoc name s.partials with
  | some n => exact pure (hs.partials _ _ hp) hs
  | none =>
      cases ht : assoc name E.reg.templates with
      | some t => exact bind (modify (hs.of rfl rfl)) fun _ u _ hu => pure (HR.templates _ _ (by rw [← hE]; exact ht)) hu
      | none => exact fail _ hs

theorem renderPartial {E : Env} (hE : E.reg = reg) {c : Call} (hg : CallGood c) {pb : Option Node} (hpb : ∀ m, pb = some m → OfTemplate L m) :
    Fine L W w (renderPartial S E c pb) Any := by
  intro s hs
  unfold Bracket.renderPartial
  refine bind (partialName NG H HR hE hg s hs) fun name s _ hs => getBind ?_
  by_cases hc : s.stack.contains (.part name) = true
  · rw [if_pos hc]; exact fail _ hs
  · rw [if_neg hc]
    refine traced (fun s hs => ?_) s hs
    refine bind (modify ⟨hs.locals, ?_, hs.wild⟩) fun _ t _ ht => bind (findPartial NG H HR hE name t ht) fun node t hn ht =>
      bind (partialScope NG H HR hE hg t ht) fun sc t _ ht => bind (modify (ht.of rfl rfl)) fun _ t _ ht =>
      getBind (bind (runEvents NG H (fun ev hev => H.renderNode E hE ev.node ev.trim hev) _ (fun _ hx => inner hn hx) _ _ t ht)
        fun _ t _ ht => modify (ht.of rfl rfl))
    intro n x hx
    change assoc n (withBlock pb s.partials) = _ at hx
    unfold withBlock at hx
    cases pb with
    | none => exact hs.partials n x hx
    | some m =>
        simp only at hx
        by_cases hm : n = nmPartialBlock
        · subst hm; rw [assoc_insert_self] at hx; cases hx; exact hpb _ rfl
        · rw [assoc_insert_ne _ _ hm] at hx; exact hs.partials n x hx

theorem statementF {E : Env} (hE : E.reg = reg) {c : Call} (hg : CallGood c) : Fine L W w (statementF S E c) Any := by
  intro s hs
  unfold Bracket.statementF
  split
  · exact bind (renderPartial NG H HR hE hg (by simp) s hs) fun _ t _ ht => pure trivial ht
  · exact H.call E hE c hg s hs

theorem templateQ {E : Env} (hE : E.reg = reg) {n : Node} (hn : OfTemplate L n) : Fine L W w (templateQ S E n) Any := by
  intro s hs
  refine catchErr (template NG H hE hn s hs) ?_
  intro r _ t ht
  cases r with
  | ok a => exact pure trivial ht
  | error e => exact fail _ ht

theorem blockHelperMissing {E : Env} (hE : E.reg = reg) {node : Node} (hn : OfTemplate L node) {c : Call} (hg : CallGood c) {p : Path}
    (hp : PathGood p) (text : Option Str) (raw : Bool) : Fine L W w (blockHelperMissing S E node c p text raw) Any := by
  intro s hs
  unfold Bracket.blockHelperMissing
  split
  · cases text with
    | some t => exact bind (writeStr _ _ s hs) fun _ t _ ht => pure trivial ht
    | none => exact pure trivial hs
  · refine bind (lookupM E hp s hs) fun v t _ ht => ?_
    cases v with
    | some v =>
        cases hh : E.reg.blockHelperMissing with
        | some h =>
            simp only
            exact bind (orPanic' hp.text ht) fun _ u _ hu => bind (invoke NG H HR hE _ _ (by
              intro h' e; cases e; exact HR.blockHelperMissing _ (by rw [← hE]; exact hh)) hg (by rintro _ ⟨⟩; exact hn) _ _ _ hu)
              fun _ w _ hw => pure trivial hw
        | none => simp only; exact templateQ NG H HR hE hn t ht
    | none =>
        cases hh : E.reg.helperMissing with
        | some h =>
            simp only
            exact bind (invoke NG H HR hE _ _ (by
              intro h' e; cases e; exact HR.helperMissing _ (by rw [← hE]; exact hh)) hg (by simp) _ _ _ ht)
              fun _ w _ hw => pure trivial hw
        | none =>
            simp only
            split
            · exact bind (orPanic' hp.text ht) fun _ u _ hu => fail _ hu
            · exact pure trivial ht

theorem blockF {E : Env} (hE : E.reg = reg) {b : Block} (hb : OfTemplate L (.block b)) : Fine L W w (blockF S E b) Any := by
  intro s hs
  have hg := NG.block b hb
  unfold Bracket.blockF
  split
  · exact renderPartial NG H HR hE hg (by rintro _ ⟨⟩; exact hb) s hs
  · cases hct : b.call.target with
    | path p =>
        have hp : PathGood p := by cases hg with | mk _ _ h _ _ _ _ _ _ => exact h p hct
        simp only
        split
        · refine bind (P := Any) ?_ fun text t _ ht => bind (orPanic' hp.text ht) fun name u _ hu => getBind ?_
          · unfold blockText
            split
            · rename_i hr
              exact bind (orPanic' (NG.raw b hb hr) hs) fun _ t _ ht => bind (modify (ht.of rfl rfl)) fun _ u _ hu => pure trivial hu
            · exact pure trivial hs
          · split
            · exact bind (invoke NG H HR hE _ _ (by simp) hg (by rintro _ ⟨⟩; exact hb) _ _ _ hu) fun _ w _ hw => pure trivial hw
            · exact blockHelperMissing NG H HR hE hb hg hp _ _ _ hu
        · exact bind (orPanic' hp.text hs) fun _ t _ ht => fail _ ht
    | subExpr c => exact fail _ hs

theorem renderKind {E : Env} (hE : E.reg = reg) {node : Node} (hn : OfTemplate L node) : Fine L W w (renderKind S E node) Any := by
  intro s hs
  unfold Bracket.renderKind
  cases node with
  | text t => exact bind (orPanic' (NG.text t hn) hs) fun _ u _ hu => bind (writeStr _ _ u hu) fun _ v _ hv => pure trivial hv
  | rawStatement t =>
      obtain ⟨w, v, h1, h2⟩ := NG.rawStatement t hn
      exact bind (orPanic (Q := (· = w)) ⟨w, h1, rfl⟩ hs) fun _ u e hu => bind (orPanic' (by subst e; exact ⟨v, h2⟩) hu) fun _ u _ hu =>
        bind (writeStr _ _ u hu) fun _ v _ hv => pure trivial hv
  | link l =>
      obtain ⟨e, w, h1, h2, h3⟩ := NG.link l hn
      simp only
      refine bind (orPanic (Q := (· = e)) ⟨e, h1, rfl⟩ hs) fun esc t he ht => ?_
      subst he
      split
      · rename_i hesc
        exact bind (orPanic' (h3 hesc) ht) fun _ u _ hu => bind (writeStr _ _ u hu) fun _ v _ hv => pure trivial hv
      · cases hlk : E.reg.link with
        | some g =>
            obtain ⟨hL, hg⟩ := HR.link g (by rw [← hE]; exact hlk)
            obtain ⟨c, hc, hcg⟩ := NG.handled hL l hn
            simp only
            exact bind (orPanic (Q := (· = c)) ⟨c, hc, rfl⟩ ht) fun c' u e hu => bind (invoke NG H HR hE _ _ (by
              intro h' e'; cases e'; exact hg) (by subst e; exact hcg) (by simp) _ _ _ hu) fun _ v _ hv => pure trivial hv
        | none =>
        exact bind (orPanic' ⟨w, h2⟩ ht) fun _ u _ hu => bind (writeStr _ _ u hu) fun _ v _ hv => pure trivial hv
  | statement c =>
      have hg := NG.statement c hn
      refine bind (H.statement E hE c hg s hs) fun v t _ ht => ?_
      cases v with
      | some v =>
          have : ∃ b, c.isEscaped = some b := by cases hg; assumption
          exact bind (orPanic' this ht) fun _ u _ hu => bind (writeStr _ _ u hu) fun _ v _ hv => pure trivial hv
      | none => exact pure trivial ht
  | block b => exact blockF NG H HR hE hn s hs
  | rawComment t => exact pure trivial hs
  | comment t => exact pure trivial hs
  | document _ _ => exact pure trivial hs

theorem renderNodeF {E : Env} (hE : E.reg = reg) {node : Node} (hn : OfTemplate L node) (t : TrimState) :
    Fine L W w (renderNodeF S E node t) Any := by
  intro s hs
  unfold Bracket.renderNodeF
  exact bind (orPanic' (NG.trim node hn) hs) fun h u _ hu => bind (modify (hu.of rfl rfl)) fun _ v _ hv => renderKind NG H HR hE hn v hv

end

/-- The induction over the recursion depth. -/
theorem semOk {reg : Reg} (NG : NodesGood L) (HR : CalmReg L W reg) : ∀ n, SemOk L W reg (sem n) := by
  intro n
  induction n with
  | zero => exact ⟨fun _ _ _ _ _ s hs => outOfFuel hs, fun _ _ _ _ s hs => outOfFuel hs, fun _ _ _ _ s hs => outOfFuel hs⟩
  | succ n ih =>
      exact ⟨fun E hE nd t hn => renderNodeF NG ih HR hE hn t, fun E hE c hg => statementF NG ih HR hE hg,
        fun E hE c hg => callF NG ih HR hE hg⟩

end Bracket.Robust
