import Verif.Spec.Tame
import Verif.Lemmas.Frame
import Verif.Lemmas.Basic

/-! What is written, by an induction over all executions: pieces of sources and texts without markup. -/

set_option linter.unusedSectionVars false

namespace Bracket.Tame
open Spec

variable {A : Str → Prop}

/-! ### Pieces -/

theorem safe_trimStart {c : Str} (h : HtmlSafe c) : HtmlSafe (trimStart c) := by
  obtain ⟨w, hw, -⟩ := trimStart_suffix c
  refine ⟨fun x hx => h.1 x (by rw [hw]; exact List.mem_append_right _ hx), fun a b hab => ?_⟩
  exact h.2 (w ++ a) b (by rw [List.append_assoc, ← hab]; exact hw)

theorem entity_solid : ∀ e ∈ entities, ∀ x ∈ e.1, isWs x = false := by decide

theorem safe_trimEnd {c : Str} (h : HtmlSafe c) : HtmlSafe (trimEnd c) := by
  obtain ⟨w, hw, hws⟩ := trimEnd_prefix c
  refine ⟨fun x hx => h.1 x (by rw [hw]; exact List.mem_append_left _ hx), fun a b hab => ?_⟩
  obtain ⟨e, he, t, ht⟩ := h.2 a (b ++ w) (by rw [hw, hab]; simp)
  rw [← List.cons_append] at ht
  rcases List.append_eq_append_iff.1 ht with ⟨u, hu, hv⟩ | ⟨u, hu, hv⟩
  · cases u with
    | nil => exact ⟨e, he, [], by rw [hu]; simp⟩
    | cons x u =>
        have h1 := entity_solid e he x (by rw [hu]; simp)
        have h2 := hws x (by rw [hv]; simp)
        rw [h1] at h2
        cases h2
  · exact ⟨e, he, u, hu⟩

theorem piece_trimStart {c : Str} (h : Piece A c) : Piece A (trimStart c) := by
  rcases h with ⟨src, hs, hc⟩ | h
  · obtain ⟨w, hw, -⟩ := trimStart_suffix c
    exact .inl ⟨src, hs, List.IsInfix.trans ⟨w, [], by simp [← hw]⟩ hc⟩
  · exact .inr (safe_trimStart h)

theorem piece_trimEnd {c : Str} (h : Piece A c) : Piece A (trimEnd c) := by
  rcases h with ⟨src, hs, hc⟩ | h
  · obtain ⟨w, hw, -⟩ := trimEnd_prefix c
    exact .inl ⟨src, hs, List.IsInfix.trans ⟨[], w, by simp [← hw]⟩ hc⟩
  · exact .inr (safe_trimEnd h)

theorem _root_.Bracket.Spec.Pieced.one {c : Str} (h : Piece A c) : Pieced A c := ⟨[c], by simp, by simpa using h⟩
theorem _root_.Bracket.Spec.Pieced.nil : Pieced A [] := ⟨[], rfl, by simp⟩
theorem _root_.Bracket.Spec.Pieced.append {v w : Str} (h : Pieced A v) (h' : Pieced A w) : Pieced A (v ++ w) := by
  obtain ⟨cs, rfl, hc⟩ := h
  obtain ⟨ds, rfl, hd⟩ := h'
  exact ⟨cs ++ ds, by simp, fun c hm => (List.mem_append.1 hm).elim (hc c) (hd c)⟩

theorem _root_.Bracket.Spec.Pieced.infix {src w : Str} (hs : A src) (h : w <:+: src) : Pieced A w := .one (.inl ⟨src, hs, h⟩)

theorem trimStart_append (a b : Str) : trimStart (a ++ b) = if trimStart a = [] then trimStart b else trimStart a ++ b := by
  induction a with
  | nil => simp [trimStart]
  | cons x a ih =>
      rw [List.cons_append, trimStart, trimStart]
      split
      · exact ih
      · simp

theorem trimEnd_append (a b : Str) : trimEnd (a ++ b) = if trimEnd b = [] then trimEnd a else a ++ trimEnd b := by
  unfold trimEnd
  rw [List.reverse_append, trimStart_append]
  by_cases h : trimStart b.reverse = []
  · rw [if_pos h, if_pos (by rw [h]; rfl)]
  · rw [if_neg h, if_neg (by simpa using h)]
    simp

theorem _root_.Bracket.Spec.Pieced.trimStart {w : Str} (h : Pieced A w) : Pieced A (trimStart w) := by
  obtain ⟨cs, rfl, hc⟩ := h
  induction cs with
  | nil => exact .nil
  | cons c cs ih =>
      rw [List.flatten_cons, trimStart_append]
      split
      · exact ih fun x hx => hc x (by simp [hx])
      · exact .append (.one (piece_trimStart (hc c (by simp)))) ⟨cs, rfl, fun x hx => hc x (by simp [hx])⟩

theorem _root_.Bracket.Spec.Pieced.trimEnd {w : Str} (h : Pieced A w) : Pieced A (trimEnd w) := by
  obtain ⟨cs, rfl, hc⟩ := h
  induction cs with
  | nil => exact .nil
  | cons c cs ih =>
      rw [List.flatten_cons, trimEnd_append]
      split
      · exact .one (piece_trimEnd (hc c (by simp)))
      · exact .append (.one (hc c (by simp))) (ih fun x hx => hc x (by simp [hx]))

theorem _root_.Bracket.Spec.Pieced.trimmed {w : Str} (h : Pieced A w) (t : TrimState) : Pieced A (applyTrim t w) := by
  unfold applyTrim
  simp only
  split <;> split
  · exact h.trimStart.trimEnd
  · exact h.trimEnd
  · exact h.trimStart
  · exact h

theorem outText_pieced : ∀ {ws : List Wr}, (∀ x ∈ ws, Pieced A x.chunk) → Pieced A (outText ws)
  | [], _ => .nil
  | x :: ws, h => .append (h x (by simp)) (outText_pieced fun y hy => h y (by simp [hy]))

theorem slice_infix {s w : Str} {i j : Nat} (h : slice s i j = some w) : w <:+: s := by
  obtain ⟨a, c, rfl, -, -⟩ := slice_some h
  exact ⟨a, c, by simp⟩

theorem asStr_infix {n : Node} {w : Str} (h : n.asStr = some w) : w <:+: nodeSource n := by
  cases n with
  | document s ns => cases h; exact List.infix_refl _
  | text t => exact slice_infix h
  | statement c =>
      simp only [Node.asStr, Call.asStr] at h
      split at h <;> exact slice_infix h
  | block b =>
      simp only [Node.asStr, Block.asStr] at h
      split at h <;> exact slice_infix h
  | rawStatement t => exact slice_infix h
  | rawComment t => exact slice_infix h
  | comment t => exact slice_infix h
  | link l => exact slice_infix h

theorem node_inhabits {n x y : Node} (h : Inhabits x n) (hy : Inhabits y x) : Inhabits y n := by
  induction hy with
  | self => exact h
  | child _ hy ih => exact .child (ih h) hy
  | clause _ hy ih => exact .clause (ih h) hy

theorem inside {n x : Node} (h : NodeTame A n) (hx : Inhabits x n) : NodeTame A x :=
  ⟨fun y hy => h.source y (node_inhabits hx hy), fun c hc => h.escaped c (node_inhabits hx hc)⟩
theorem inner {n x : Node} (h : NodeTame A n) (hx : x ∈ n.children) : NodeTame A x := inside h (.child .self hx)
theorem clause {b : Block} {x : Node} (h : NodeTame A (.block b)) (hx : x ∈ b.conditionals) : NodeTame A x := inside h (.clause .self hx)
theorem own {n : Node} (h : NodeTame A n) {w : Str} (hw : w <:+: nodeSource n) : Pieced A w := .infix (h.source n .self) hw

/-! ### Computations -/

variable [Host]

/-- What was written is made of pieces; the local helpers and the content of block partials are tame. -/
structure Inv (A : Str → Prop) (s : RS) : Prop where
  out : ∀ x ∈ s.out, Pieced A x.chunk
  locals : ∀ n h, assoc n s.locals = some h → HelperTame A h
  partials : ∀ n x, assoc n s.partials = some x → NodeTame A x

def FineAt (A : Str → Prop) {α : Type} (m : RM α) (Q : α → Prop) (s : RS) : Prop :=
  (∀ a, (m s).1 = .ok a → Q a) ∧ Inv A (m s).2

def Fine (A : Str → Prop) {α : Type} (m : RM α) (Q : α → Prop) : Prop := ∀ s, Inv A s → FineAt A m Q s

/-- Any value. -/
abbrev Any {α : Type} : α → Prop := fun _ => True

structure SemOk (A : Str → Prop) (reg : Reg) (S : Sem) : Prop where
  renderNode : ∀ E, E.reg = reg → ∀ n t, NodeTame A n → Fine A (S.renderNode E n t) Any
  statement : ∀ E, E.reg = reg → ∀ c, Fine A (S.statement E c) (fun v => c.isPartial = true → v = none)
  call : ∀ E, E.reg = reg → ∀ c, Fine A (S.call E c) Any

theorem Inv.of {s t : RS} (h : Inv A s) (ho : t.out = s.out) (hl : t.locals = s.locals) (hp : t.partials = s.partials) : Inv A t :=
  ⟨by rw [ho]; exact h.out, by rw [hl]; exact h.locals, by rw [hp]; exact h.partials⟩

theorem pure {α : Type} {a : α} {Q : α → Prop} (ha : Q a) {s : RS} (hs : Inv A s) : FineAt A (Pure.pure a : RM α) Q s :=
  ⟨fun b hb => (by cases hb; exact ha), hs⟩
theorem fail {α : Type} {Q : α → Prop} (e : RenderErr) {s : RS} (hs : Inv A s) : FineAt A (RM.fail e : RM α) Q s := ⟨fun _ h => (nomatch h), hs⟩
theorem panic {α : Type} {Q : α → Prop} {s : RS} (hs : Inv A s) : FineAt A (RM.panic : RM α) Q s := ⟨fun _ h => (nomatch h), hs⟩
theorem outOfFuel {α : Type} {Q : α → Prop} {s : RS} (hs : Inv A s) : FineAt A (RM.outOfFuel : RM α) Q s := ⟨fun _ h => (nomatch h), hs⟩
theorem orPanic {α : Type} {o : Option α} {s : RS} (hs : Inv A s) : FineAt A (RM.orPanic o) (fun a => o = some a) s := by
  cases o with
  | none => exact ⟨fun _ h => (nomatch h), hs⟩
  | some a => exact ⟨fun _ h => (by cases h; rfl), hs⟩

theorem weaken {α : Type} {m : RM α} {P Q : α → Prop} {s : RS} (h : FineAt A m P s) (hq : ∀ a, P a → Q a) : FineAt A m Q s :=
  ⟨fun a ha => hq a (h.1 a ha), h.2⟩

theorem bind {α β : Type} {m : RM α} {f : α → RM β} {P : α → Prop} {Q : β → Prop} {s : RS} (h : FineAt A m P s)
    (hf : ∀ a t, P a → Inv A t → FineAt A (f a) Q t) : FineAt A (m >>= f) Q s := by
  unfold FineAt at h ⊢
  rw [RM.bind_def]
  rcases hm : m s with ⟨r, t⟩
  rw [hm] at h
  cases r with
  | ok a => exact hf a t (h.1 a rfl) h.2
  | err e => exact ⟨fun _ h => (nomatch h), h.2⟩
  | panic => exact ⟨fun _ h => (nomatch h), h.2⟩
  | fuel => exact ⟨fun _ h => (nomatch h), h.2⟩

theorem getBind {β : Type} {f : RS → RM β} {Q : β → Prop} {s : RS} (h : FineAt A (f s) Q s) : FineAt A (RM.get >>= f) Q s := h

theorem modify {f : RS → RS} {s : RS} (h : Inv A (f s)) : FineAt A (RM.modify f) Any s := ⟨fun _ _ => trivial, h⟩

theorem catchErr {α β : Type} {m : RM α} {f : Except RenderErr α → RM β} {P : α → Prop} {Q : β → Prop} {s : RS} (h : FineAt A m P s)
    (hf : ∀ r, (∀ a, r = .ok a → P a) → Fine A (f r) Q) : FineAt A (RM.catchErr m f) Q s := by
  unfold FineAt at h ⊢
  unfold RM.catchErr
  rcases hm : m s with ⟨r, t⟩
  rw [hm] at h
  cases r with
  | ok a => exact hf _ (by rintro _ ⟨⟩; exact h.1 a rfl) t h.2
  | err e => exact hf _ (by rintro _ ⟨⟩) t h.2
  | panic => exact ⟨fun _ h => (nomatch h), h.2⟩
  | fuel => exact ⟨fun _ h => (nomatch h), h.2⟩

theorem rawWrite {E : Env} {c : Str} (hc : Pieced A c) : Fine A (rawWrite E c) Any := by
  intro s hs
  refine ⟨fun _ _ => trivial, ?_, hs.locals, hs.partials⟩
  intro x hx
  rcases List.mem_append.1 hx with hx | hx
  · exact hs.out x hx
  · rw [List.mem_singleton] at hx
    subst hx
    exact hc

theorem writeStr {E : Env} {c : Str} {esc : Bool} (he : ∀ w, HtmlSafe (E.reg.escape w)) (hc : esc = false → Pieced A c) :
    Fine A (writeStr E c esc) Any := by
  intro s hs
  unfold Bracket.writeStr
  refine getBind ?_
  by_cases hv : (applyTrim s.trim c).isEmpty = true
  · simp only [hv, if_true]
    exact pure (Q := Any) trivial hs
  · simp only [hv, Bool.false_eq_true, if_false]
    refine bind (P := Any) (rawWrite ?_ s hs) fun r t _ ht => ?_
    · cases esc with
      | true => exact .one (.inr (he _))
      | false => exact (hc rfl).trimmed _
    · cases r with
      | ok n => exact pure (Q := Any) trivial ht
      | error e => exact fail (Q := Any) _ ht

theorem lookupM (E : Env) (p : Path) : Fine A (lookupM E p) Any := fun _ hs => getBind (weaken (orPanic hs) fun _ _ => trivial)

/-- A nested renderer leaves the outer one as it is. -/
theorem nested {init : RS} (ho : init.out = []) (hi : init.locals = []) (hp : init.partials = []) {m : RM Unit} {s : RS} (hs : Inv A s) :
    FineAt A (nested init m) (fun w => Fine A m Any → Pieced A w) s := by
  have := fun h : Fine A m Any => h { init with logs := s.logs, trace := s.trace } ⟨by simp [ho], by simp [hi, assoc], by simp [hp, assoc]⟩
  unfold FineAt at this ⊢
  unfold Bracket.nested
  generalize m { init with logs := s.logs, trace := s.trace } = x at this ⊢
  obtain ⟨r, t⟩ := x
  cases r with
  | ok a => exact ⟨fun w hw h => by cases hw; exact outText_pieced (this h).2.out, hs.of rfl rfl rfl⟩
  | err e => exact ⟨fun _ h => (nomatch h), hs.of rfl rfl rfl⟩
  | panic => exact ⟨fun _ h => (nomatch h), hs.of rfl rfl rfl⟩
  | fuel => exact ⟨fun _ h => (nomatch h), hs.of rfl rfl rfl⟩

theorem traced {α : Type} {site : CallSite} {m : RM α} {Q : α → Prop} (h : Fine A m Q) : Fine A (traced site m) Q := by
  intro s hs
  have := h { s with trace := s.trace ++ [.enter site] } (hs.of rfl rfl rfl)
  unfold FineAt at this ⊢
  unfold Bracket.traced
  generalize m { s with trace := s.trace ++ [.enter site] } = x at this ⊢
  obtain ⟨r, t⟩ := x
  exact ⟨this.1, this.2.of rfl rfl rfl⟩

theorem nextBefore (l : List Node) : Fine A (nextBefore l) Any := by
  intro s hs
  unfold Bracket.nextBefore
  cases l with
  | nil => exact pure trivial hs
  | cons x l => exact bind (orPanic hs) fun _ t _ ht => pure trivial ht

theorem runEvents {f : Ev → RM Unit} (h : ∀ ev : Ev, NodeTame A ev.node → Fine A (f ev) Any) :
    ∀ ns, (∀ x ∈ ns, NodeTame A x) → ∀ prev hint, Fine A (runEvents f ns prev hint) Any := by
  intro ns
  induction ns with
  | nil => intro _ _ _ s hs; exact pure trivial hs
  | cons n rest ih =>
      intro hn prev hint s hs
      unfold Bracket.runEvents
      exact bind (nextBefore _ _ hs) fun _ t _ ht => bind (orPanic ht) fun _ t _ ht =>
        bind (h _ (hn n (by simp)) _ ht) fun _ t _ ht => ih (fun x hx => hn x (by simp [hx])) _ _ _ ht

section
variable {reg : Reg} {S : Sem} (H : SemOk A reg S)
include H

theorem renderAll {E : Env} (hE : E.reg = reg) {n : Node} (hn : NodeTame A n) : Fine A (renderAll S E n) Any :=
  runEvents (fun ev hev => H.renderNode E hE ev.node ev.trim hev) _ (fun _ hx => inner hn hx) _ _

theorem templateEvent {E : Env} (hE : E.reg = reg) (n : Node) (ev : Ev) (hev : NodeTame A ev.node) :
    Fine A (templateEvent S E n ev) Any := by
  intro s hs
  unfold Bracket.templateEvent
  refine bind (P := Any) ?_ fun _ t _ ht => bind (P := Any) ?_ fun _ u _ hu => H.renderNode E hE _ _ hev _ hu
  · unfold firstHint; split
    · exact weaken (orPanic hs) fun _ _ => trivial
    · exact pure trivial hs
  · unfold lastHint
    cases n with
    | block b =>
        simp only
        split
        · exact weaken (orPanic ht) fun _ _ => trivial
        · exact pure trivial ht
    | _ => exact pure trivial ht

theorem template {E : Env} (hE : E.reg = reg) {n : Node} (hn : NodeTame A n) : Fine A (template S E n) Any := by
  intro s hs
  unfold Bracket.template
  exact getBind (bind (runEvents (templateEvent H hE n) _ (fun _ hx => inner hn hx) _ _ _ hs) fun _ t _ ht =>
    bind (orPanic ht) fun _ u _ hu => modify (hu.of rfl rfl rfl))

theorem inverse {E : Env} (hE : E.reg = reg) {n : Node} (hn : NodeTame A n) :
    Fine A (inverse S E n) (fun r => ∀ m, r = some m → NodeTame A m) := by
  unfold Bracket.inverse
  cases n with
  | block b =>
      simp only
      suffices ∀ l, (∀ x ∈ l, NodeTame A x) → ∀ alt, (∀ m, alt = some m → NodeTame A m) →
          Fine A (inverseLoop S E l alt) (fun r => ∀ m, r = some m → NodeTame A m) from
        this _ (fun _ hx => clause hn hx) _ (by rintro _ ⟨⟩)
      intro l
      induction l with
      | nil => intro _ alt ha s hs; exact pure ha hs
      | cons x l ih =>
          intro hl alt ha s hs
          have hx := hl x (by simp)
          have hr : ∀ y ∈ l, NodeTame A y := fun y hy => hl y (by simp [hy])
          cases x with
          | block c =>
              unfold inverseLoop
              split
              · exact ih hr _ (by rintro _ ⟨⟩; exact hx) _ hs
              · refine bind (H.call E hE _ _ hs) fun v t _ ht => ?_
                cases v with
                | none => exact ih hr _ ha _ ht
                | some v =>
                    simp only
                    split
                    · exact pure (by rintro _ ⟨⟩; exact hx) ht
                    · exact ih hr _ ha _ ht
          | _ => unfold inverseLoop; exact ih hr _ ha _ hs
  | _ => exact fun s hs => pure (by rintro _ ⟨⟩) hs

theorem buffer {E : Env} (hE : E.reg = reg) (n : Node) : Fine A (buffer S E n) (fun w => NodeTame A n → Pieced A w) := fun s hs =>
  getBind (weaken (nested (init := { RS.init s.stack with scopes := s.scopes }) rfl rfl rfl hs) fun _ h hn =>
    h (template (E := { E with sink := stringSink }) H hE hn))

theorem once {E : Env} (hE : E.reg = reg) (f c : Str) (d : Value) :
    Fine A (once S E f c d) (fun r => (∀ n, compile c ⟨f, 0, 0⟩ = .ok n → NodeTame A n) → ∀ w, r = .ok w → Pieced A w) := by
  intro s hs
  unfold Bracket.once
  refine getBind ?_
  cases hd : compile c ⟨f, 0, 0⟩ with
  | ok doc =>
      simp only
      refine catchErr (nested (init := RS.init s.stack) rfl rfl rfl hs) fun r hr t ht => pure ?_ ht
      intro hn w hw
      cases r with
      | ok v =>
          cases hw
          exact hr w rfl (renderAll (E := { E with name := f, root := d, sink := stringSink }) H hE (hn doc rfl))
      | error e => cases hw
  | err e => exact pure (by rintro - w ⟨⟩) hs
  | panic => exact panic hs
  | fuel => exact outOfFuel hs

theorem paramM {E : Env} (hE : E.reg = reg) (p : ParamValue) : Fine A (paramM S E p) Any := by
  intro s hs
  unfold Bracket.paramM
  cases p with
  | json => exact pure trivial hs
  | path p =>
      refine bind (lookupM E p s hs) fun v t _ ht => ?_
      cases v with
      | some v => exact pure trivial ht
      | none => exact bind (orPanic ht) fun _ u _ hu => pure trivial hu
  | subExpr c =>
      refine bind (H.statement E hE c s hs) fun v t _ ht => ?_
      cases v with
      | some v => exact pure trivial ht
      | none => exact bind (orPanic ht) fun _ u _ hu => pure trivial hu

theorem argumentsLoop {E : Env} (hE : E.reg = reg) : ∀ ps i ms, Fine A (argumentsLoop S E i ps ms) Any := by
  intro ps
  induction ps with
  | nil => intro i ms s hs; exact pure trivial hs
  | cons p ps ih =>
      intro i ms s hs
      exact bind (paramM H hE p s hs) fun _ t _ ht => bind (ih _ _ _ ht) fun _ u _ hu => pure trivial hu

theorem hashLoop {E : Env} (hE : E.reg = reg) : ∀ ps out ms, Fine A (hashLoop S E ps out ms) Any := by
  intro ps
  induction ps with
  | nil => intro i ms s hs; exact pure trivial hs
  | cons p ps ih =>
      obtain ⟨k, p⟩ := p
      intro i ms s hs
      exact bind (paramM H hE p s hs) fun _ t _ ht => ih _ _ _ ht

variable (HR : RegTame A reg)
include HR

theorem run {E : Env} (hE : E.reg = reg) {p : Prog} (hp : ProgTame A p) : Fine A (run S E p) Any := by
  have he : ∀ w, HtmlSafe (E.reg.escape w) := by rw [hE]; exact HR.escape
  induction hp with
  | panic => exact fun s hs => panic hs
  | ret v => exact fun s hs => pure trivial hs
  | fail e => exact fun s hs => fail _ hs
  | write c k hc h ih => intro s hs; unfold Bracket.run; exact catchErr (writeStr he (fun _ => hc) s hs) fun r _ => ih _
  | writeEscaped c k h ih => intro s hs; unfold Bracket.run; exact catchErr (writeStr (esc := true) he (fun h => (nomatch h)) s hs) fun r _ => ih _
  | outWrite c k hc h ih => intro s hs; unfold Bracket.run; exact bind (rawWrite hc s hs) fun r t _ ht => ih _ t ht
  | template n k hn h ih => intro s hs; unfold Bracket.run; exact catchErr (template H hE hn s hs) fun r _ => ih _
  | render n k hn h ih => intro s hs; unfold Bracket.run; exact catchErr (renderAll H hE hn s hs) fun r _ => ih _
  | inverse n k hn h ih =>
      intro s hs; unfold Bracket.run
      refine catchErr (inverse H hE hn s hs) fun r hr => ih _ ?_
      intro m hm
      cases r with
      | ok a => cases hm; exact hr _ rfl m rfl
      | error e => cases hm
  | buffer n k h ih =>
      intro s hs; unfold Bracket.run
      refine catchErr (buffer H hE n s hs) fun r hr => ih _ ?_
      intro hn w hw
      cases r with
      | ok a => cases hw; exact hr _ rfl hn
      | error e => cases hw
  | once f c d k h ih => intro s hs; unfold Bracket.run; exact bind (once H hE f c d s hs) fun r t hr ht => ih _ hr t ht
  | evaluate p k h ih =>
      intro s hs; unfold Bracket.run
      refine bind (P := Any) ?_ fun r t _ ht => ih _ t ht
      unfold Bracket.evaluate
      cases pathFromStr p with
      | ok q =>
          cases q with
          | none => exact pure trivial hs
          | some q => exact bind (lookupM E q s hs) fun _ t _ ht => pure trivial ht
      | err e => exact pure trivial hs
      | panic => exact panic hs
      | fuel => exact outOfFuel hs
  | pushScope sc k h ih => intro s hs; unfold Bracket.run; exact bind (modify (hs.of rfl rfl rfl)) fun _ t _ ht => ih t ht
  | popScope k h ih => intro s hs; unfold Bracket.run; exact getBind (bind (modify (hs.of rfl rfl rfl)) fun _ t _ ht => ih _ t ht)
  | scopeMut f k h ih =>
      intro s hs; unfold Bracket.run
      refine getBind (bind (modify ?_) fun _ t _ ht => ih _ t ht)
      split
      · exact hs
      · exact hs.of rfl rfl rfl
  | registerLocal n g k hg h _ ih =>
      intro s hs; unfold Bracket.run
      refine bind (modify ⟨hs.out, ?_, hs.partials⟩) fun _ t _ ht => ih t ht
      intro m f hf
      change assoc m (assocInsert n g s.locals) = _ at hf
      by_cases hm : m = n
      · subst hm; rw [assoc_insert_self] at hf; cases hf; exact hg
      · rw [assoc_insert_ne _ _ hm] at hf; exact hs.locals m f hf
  | unregisterLocal n k h ih =>
      intro s hs; unfold Bracket.run
      refine bind (modify ⟨hs.out, ?_, hs.partials⟩) fun _ t _ ht => ih t ht
      intro m f hf
      change assoc m (assocErase n s.locals) = _ at hf
      by_cases hm : m = n
      · subst hm; rw [assoc_erase_self] at hf; cases hf
      · rw [assoc_erase_ne _ hm] at hf; exact hs.locals m f hf
  | peek k h ih =>
      intro s hs; unfold Bracket.run
      exact getBind (ih _ (fun n t ht => HR.templates n t (by rw [← hE]; exact ht)) he s hs)
  | log l m k h ih => intro s hs; unfold Bracket.run; exact bind (modify (hs.of rfl rfl rfl)) fun _ t _ ht => ih t ht

theorem runTarget {E : Env} (hE : E.reg = reg) (name : Str) (t : Target)
    (ht : ∀ h, t = .handler h → HelperTame A h) {ctx : Ctx} (hx : ∀ w, ctx.text = some w → Pieced A w) {content : Option Node}
    (hc : ∀ m, content = some m → NodeTame A m) {s : RS} (hs : Inv A s) : FineAt A (runTarget S E name t ctx content s.locals) Any s := by
  unfold Bracket.runTarget
  cases t with
  | name =>
      simp only
      cases hl : assoc name s.locals with
      | some h => exact run H HR hE (hs.locals name h hl _ _ hc hx) s hs
      | none =>
          cases hr : assoc name E.reg.helpers with
          | some h => exact run H HR hE (HR.helpers name h (by rw [← hE]; exact hr) _ _ hc hx) s hs
          | none => exact pure trivial hs
  | handler h => exact run H HR hE (ht h rfl _ _ hc hx) s hs

theorem invoke {E : Env} (hE : E.reg = reg) (name : Str) (t : Target)
    (ht : ∀ h, t = .handler h → HelperTame A h) (c : Call) {content : Option Node} (hct : ∀ m, content = some m → NodeTame A m)
    {text : Option Str} (hx : ∀ w, text = some w → Pieced A w) (prop : Option (Str × Value)) :
    Fine A (invoke S E name t c content text prop) Any := by
  intro s hs
  unfold Bracket.invoke
  refine getBind ?_
  split
  · exact fail _ hs
  · refine traced (fun s hs => ?_) s hs
    exact bind (modify (hs.of rfl rfl rfl)) fun _ _ _ h => bind (argumentsLoop H hE _ _ _ _ h) fun _ _ _ g1 =>
      bind (hashLoop H hE _ _ _ _ g1) fun _ _ _ g2 => getBind (bind (runTarget H HR hE name t ht hx hct g2) fun _ _ _ g3 =>
      bind (modify (g3.of rfl rfl rfl)) fun _ _ _ g4 => pure trivial g4)

theorem callF {E : Env} (hE : E.reg = reg) (c : Call) : Fine A (callF S E c) Any := by
  intro s hs
  unfold Bracket.callF
  cases hct : c.target with
  | path p =>
      simp only
      split
      · exact lookupM E p s hs
      · split
        · refine bind (orPanic hs) fun name t _ ht => getBind ?_
          split
          · exact invoke H HR hE _ _ (by simp) _ (by simp) (by simp) _ _ ht
          · refine bind (lookupM E p t ht) fun v u _ hu => ?_
            cases v with
            | some v => exact pure trivial hu
            | none =>
                cases hh : E.reg.helperMissing with
                | some h =>
                    exact invoke H HR hE _ _ (by
                      intro h' e; cases e; exact HR.helperMissing _ (by rw [← hE]; exact hh)) _ (by simp) (by simp) _ _ hu
                | none =>
                    simp only
                    split
                    · exact fail _ hu
                    · exact pure trivial hu
        · refine bind (lookupM E p s hs) fun v u _ hu => ?_
          cases v with
          | some v => exact pure trivial hu
          | none =>
              simp only
              split
              · exact bind (orPanic hu) fun _ t _ ht => fail _ ht
              · exact pure trivial hu
  | subExpr sub => exact H.call E hE _ s hs

theorem partialName {E : Env} (hE : E.reg = reg) (c : Call) : Fine A (partialName S E c) Any := by
  intro s hs
  unfold Bracket.partialName
  cases hct : c.target with
  | path p =>
      simp only
      refine bind (orPanic hs) fun txt t _ ht => ?_
      split
      · exact pure trivial ht
      · split
        · exact pure trivial ht
        · exact fail _ ht
  | subExpr sub => exact bind (H.statement E hE _ s hs) fun _ t _ ht => pure trivial ht

theorem partialScope {E : Env} (hE : E.reg = reg) (c : Call) : Fine A (partialScope S E c) Any := by
  intro s hs
  unfold Bracket.partialScope
  refine bind (hashLoop H hE _ _ _ _ hs) fun h t _ ht => ?_
  split
  · exact pure trivial ht
  · exact bind (argumentsLoop H hE _ _ _ _ ht) fun _ u _ hu => pure trivial hu

theorem findPartial {E : Env} (hE : E.reg = reg) (name : Str) : Fine A (findPartial E name) (NodeTame A) := by
  intro s hs
  unfold Bracket.findPartial
  refine getBind ?_
  cases hp : assoc name s.partials with
  | some n => exact pure (hs.partials _ _ hp) hs
  | none =>
      cases ht : assoc name E.reg.templates with
      | some t => exact bind (modify (hs.of rfl rfl rfl)) fun _ u _ hu => pure (HR.templates _ _ (by rw [← hE]; exact ht)) hu
      | none => exact fail _ hs

theorem renderPartial {E : Env} (hE : E.reg = reg) (c : Call) {pb : Option Node} (hpb : ∀ m, pb = some m → NodeTame A m) :
    Fine A (renderPartial S E c pb) Any := by
  intro s hs
  unfold Bracket.renderPartial
  refine bind (partialName H HR hE c s hs) fun name s _ hs => getBind ?_
  by_cases hc : s.stack.contains (.part name) = true
  · rw [if_pos hc]; exact fail _ hs
  · rw [if_neg hc]
    refine traced (fun s hs => ?_) s hs
    refine bind (modify ⟨hs.out, hs.locals, ?_⟩) fun _ t _ ht => bind (findPartial H HR hE name t ht) fun node t hn ht =>
      bind (partialScope H HR hE c t ht) fun sc t _ ht => bind (modify (ht.of rfl rfl rfl)) fun _ t _ ht =>
      getBind (bind (runEvents (fun ev hev => H.renderNode E hE ev.node ev.trim hev) _ (fun _ hx => inner hn hx) _ _ t ht)
        fun _ t _ ht => modify (ht.of rfl rfl rfl))
    intro n x hx
    change assoc n (withBlock pb s.partials) = _ at hx
    unfold withBlock at hx
    cases pb with
    | none => exact hs.partials n x hx
    | some m =>
        simp only at hx
        by_cases hm : n = nmPartialBlock
        · subst hm; rw [assoc_insert_self] at hx; cases hx; exact hpb _ rfl
        · rw [assoc_insert_ne _ _ hm] at hx; exact hs.partials n x hx

theorem statementF {E : Env} (hE : E.reg = reg) (c : Call) : Fine A (statementF S E c) (fun v => c.isPartial = true → v = none) := by
  intro s hs
  unfold Bracket.statementF
  split
  · exact bind (renderPartial H HR hE c (by simp) s hs) fun _ t _ ht => pure (fun _ => rfl) ht
  · rename_i h
    exact weaken (H.call E hE c s hs) fun _ _ h' => absurd h' h

theorem templateQ {E : Env} (hE : E.reg = reg) {n : Node} (hn : NodeTame A n) : Fine A (templateQ S E n) Any := by
  intro s hs
  refine catchErr (template H hE hn s hs) ?_
  intro r _ t ht
  cases r with
  | ok a => exact pure trivial ht
  | error e => exact fail _ ht

theorem blockHelperMissing {E : Env} (hE : E.reg = reg) {node : Node} (hn : NodeTame A node) (c : Call) (p : Path)
    {text : Option Str} (hx : ∀ w, text = some w → Pieced A w) (raw : Bool) : Fine A (blockHelperMissing S E node c p text raw) Any := by
  have he : ∀ w, HtmlSafe (E.reg.escape w) := by rw [hE]; exact HR.escape
  intro s hs
  unfold Bracket.blockHelperMissing
  split
  · cases text with
    | some t => exact bind (writeStr he (fun _ => hx t rfl) s hs) fun _ t _ ht => pure trivial ht
    | none => exact pure trivial hs
  · refine bind (lookupM E p s hs) fun v t _ ht => ?_
    cases v with
    | some v =>
        cases hh : E.reg.blockHelperMissing with
        | some h =>
            simp only
            exact bind (orPanic ht) fun _ u _ hu => bind (invoke H HR hE _ _ (by
              intro h' e; cases e; exact HR.blockHelperMissing _ (by rw [← hE]; exact hh)) _ (by rintro _ ⟨⟩; exact hn) (by simp) _ _ hu)
              fun _ w _ hw => pure trivial hw
        | none => simp only; exact templateQ H HR hE hn t ht
    | none =>
        cases hh : E.reg.helperMissing with
        | some h =>
            simp only
            exact bind (invoke H HR hE _ _ (by
              intro h' e; cases e; exact HR.helperMissing _ (by rw [← hE]; exact hh)) _ (by simp) (by simp) _ _ ht)
              fun _ w _ hw => pure trivial hw
        | none =>
            simp only
            split
            · exact bind (orPanic ht) fun _ u _ hu => fail _ hu
            · exact pure trivial ht

theorem rawText_pieced {b : Block} (hb : NodeTame A (.block b)) {x : Str × TrimHint} (h : rawText b = some x) : Pieced A x.1 := by
  have key : ∀ w, Pieced A w → ((b.trimClose.bind fun hint => (Node.block b).trim.bind fun trim =>
      some ((if hint.before = true then Bracket.trimEnd (if trim.after = true then Bracket.trimStart w else w) else if trim.after = true then Bracket.trimStart w else w), hint)) = some x) →
      Pieced A x.1 := by
    intro w h0 h
    simp only [Option.bind_eq_some_iff] at h
    obtain ⟨h', -, t, -, hx⟩ := h
    cases hx
    simp only
    split <;> split
    · exact h0.trimStart.trimEnd
    · exact h0.trimEnd
    · exact h0.trimStart
    · exact h0
  unfold rawText at h
  simp only [Option.bind_eq_bind] at h
  split at h
  · exact key [] .nil h
  · rename_i n ns hn
    obtain ⟨w, hw, h⟩ := Option.bind_eq_some_iff.1 h
    exact key w (own (inner hb (by show n ∈ b.nodes; rw [hn]; simp)) (asStr_infix hw)) h

theorem blockText {b : Block} (hb : NodeTame A (.block b)) : Fine A (blockText b) (fun t => ∀ w, t = some w → Pieced A w) := by
  intro s hs
  unfold Bracket.blockText
  split
  · exact bind (orPanic hs) fun x t hx ht => bind (modify (ht.of rfl rfl rfl)) fun _ u _ hu =>
      pure (by rintro _ ⟨⟩; exact rawText_pieced H HR hb hx) hu
  · exact pure (by simp) hs

theorem blockF {E : Env} (hE : E.reg = reg) {b : Block} (hb : NodeTame A (.block b)) : Fine A (blockF S E b) Any := by
  intro s hs
  unfold Bracket.blockF
  split
  · exact renderPartial H HR hE _ (by rintro _ ⟨⟩; exact hb) s hs
  · cases hct : b.call.target with
    | path p =>
        simp only
        split
        · refine bind (blockText H HR hb s hs) fun text t hx ht => bind (orPanic ht) fun name u _ hu => getBind ?_
          split
          · exact bind (invoke H HR hE _ _ (by simp) _ (by rintro _ ⟨⟩; exact hb) hx _ _ hu) fun _ w _ hw => pure trivial hw
          · exact blockHelperMissing H HR hE hb _ p hx _ _ hu
        · exact bind (orPanic hs) fun _ t _ ht => fail _ ht
    | subExpr c => exact fail _ hs

theorem renderKind {E : Env} (hE : E.reg = reg) {node : Node} (hn : NodeTame A node) : Fine A (renderKind S E node) Any := by
  have he : ∀ w, HtmlSafe (E.reg.escape w) := by rw [hE]; exact HR.escape
  intro s hs
  unfold Bracket.renderKind
  cases node with
  | text t =>
      exact bind (orPanic hs) fun w u hw hu => bind (writeStr he (fun _ => own hn (asStr_infix (n := .text t) hw)) u hu) fun _ v _ hv => pure trivial hv
  | rawStatement t =>
      exact bind (orPanic hs) fun w u hw hu => bind (orPanic hu) fun x u hx hu =>
        bind (writeStr he (fun _ => own hn ((slice_infix hx).trans (asStr_infix (n := .rawStatement t) hw))) u hu) fun _ v _ hv => pure trivial hv
  | link l =>
      simp only
      refine bind (orPanic hs) fun esc t _ ht => ?_
      split
      · exact bind (orPanic ht) fun w u hw hu => bind (writeStr he (fun _ => own hn (slice_infix hw)) u hu) fun _ v _ hv => pure trivial hv
      · cases hlk : E.reg.link with
        | some g =>
            simp only
            exact bind (orPanic ht) fun c' u e hu => bind (invoke H HR hE _ _ (by
              intro h' e'; cases e'; exact HR.link g (by rw [← hE]; exact hlk)) _ (by simp) (by simp) _ _ hu) fun _ v _ hv => pure trivial hv
        | none =>
            exact bind (orPanic ht) fun w u hw hu => bind (writeStr he (fun _ => own hn (slice_infix hw)) u hu) fun _ v _ hv => pure trivial hv
  | statement c =>
      refine bind (H.statement E hE c s hs) fun v t hv ht => ?_
      cases v with
      | some v =>
          refine bind (orPanic ht) fun e u hesc hu => bind (writeStr he ?_ u hu) fun _ v _ hv => pure trivial hv
          rintro rfl
          have hp : c.isPartial = false := by
            cases h : c.isPartial with
            | false => rfl
            | true => exact nomatch hv h
          exact absurd hesc (hn.escaped c .self hp)
      | none => exact pure trivial ht
  | block b => exact blockF H HR hE hn s hs
  | rawComment t => exact pure trivial hs
  | comment t => exact pure trivial hs
  | document _ _ => exact pure trivial hs

theorem renderNodeF {E : Env} (hE : E.reg = reg) {node : Node} (hn : NodeTame A node) (t : TrimState) :
    Fine A (renderNodeF S E node t) Any := by
  intro s hs
  unfold Bracket.renderNodeF
  exact bind (orPanic hs) fun h u _ hu => bind (modify (hu.of rfl rfl rfl)) fun _ v _ hv => renderKind H HR hE hn v hv

end

/-- The induction over the recursion depth. -/
theorem semOk {reg : Reg} (HR : RegTame A reg) : ∀ n, SemOk A reg (sem n) := by
  intro n
  induction n with
  | zero => exact ⟨fun _ _ _ _ _ s hs => outOfFuel hs, fun _ _ _ s hs => outOfFuel hs, fun _ _ _ s hs => outOfFuel hs⟩
  | succ n ih =>
      exact ⟨fun E hE nd t hn => renderNodeF ih HR hE hn t, fun E hE c => statementF ih HR hE c,
        fun E hE c => callF ih HR hE c⟩

end Bracket.Tame
