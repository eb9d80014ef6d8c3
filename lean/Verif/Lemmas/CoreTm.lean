import Verif.Lemmas.CoreExpr
import Verif.Props.Blocks
import Verif.Props.Roundtrip

/-! What templates write. -/

set_option linter.unusedSectionVars false
set_option linter.unusedSimpArgs false

namespace Bracket.Props
open Bracket Re Spec

section
variable [Host] [Custom]

/-- No pending white space removal. -/
structure Settled (s : RS) : Prop where
  endTag : ∀ h, s.endTagHint = some h → h.after = false
  hint : ∀ h, s.hint = some h → h.after = false
  trim : Trims .none s

/-- The computation writes what `o` says, and ends as `o` says. -/
def Does {α : Type} (f : Nat → RM α) (s : RS) (Γ : Scene) (E : Env) (o : Written) : Prop :=
  match o.2 with
  | none => ∃ a t, Eval f s (.ok a) t ∧ At Γ E t ∧ Settled t ∧ outText t.out = outText s.out ++ o.1
  | some e => ∃ t, Eval f s e.res t ∧ outText t.out = outText s.out ++ o.1

theorem Does.congr {α : Type} {f g : Nat → RM α} {s : RS} {Γ : Scene} {E : Env} {o : Written} (h : ∀ n, f n s = g n s)
    (hd : Does g s Γ E o) : Does f s Γ E o := by
  obtain ⟨w, e⟩ := o
  cases e with
  | none => obtain ⟨a, t, h1, h2⟩ := hd; exact ⟨a, t, (Spec.Eval.congr h).2 h1, h2⟩
  | some e => obtain ⟨t, h1, h2⟩ := hd; exact ⟨t, (Spec.Eval.congr h).2 h1, h2⟩

theorem Does.andThen {α β : Type} {f : Nat → RM α} {g : α → Nat → RM β} (hf : MonoF f) (hg : ∀ a, MonoF (g a)) {s : RS} {Γ : Scene}
    {E : Env} {o o' : Written} (h : Does f s Γ E o) (h' : ∀ a t, At Γ E t → Settled t → Does (g a) t Γ E o') :
    Does (fun n => f n >>= fun a => g a n) s Γ E (Spec.andThen o o') := by
  obtain ⟨w, e⟩ := o
  cases e with
  | some e =>
      obtain ⟨t, h1, h2⟩ := h
      have h3 := h1.bindFail (g := g) (res_notOk e)
      rw [res_cast] at h3
      exact ⟨t, h3, h2⟩
  | none =>
      obtain ⟨a, t, h1, h2, h3, h4⟩ := h
      have := h' a t h2 h3
      obtain ⟨w', e'⟩ := o'
      simp only at h4
      cases e' with
      | none =>
          obtain ⟨b, u, g1, g2, g3, g4⟩ := this
          exact ⟨b, u, h1.bindOk hf hg g1, g2, g3, by rw [g4, h4, List.append_assoc]; rfl⟩
      | some e' =>
          obtain ⟨u, g1, g2⟩ := this
          exact ⟨u, h1.bindOk hf hg g1, by rw [g2, h4, List.append_assoc]; rfl⟩

theorem andThen_done (o : Written) : Spec.andThen o ([], none) = o := by
  obtain ⟨w, e⟩ := o
  cases e <;> simp [Spec.andThen, put]

theorem does_pure {α : Type} {a : α} {s : RS} {Γ : Scene} {E : Env} (ha : At Γ E s) (hc : Settled s) :
    Does (fun _ => (Pure.pure a : RM α)) s Γ E ([], none) :=
  ⟨a, s, Spec.Eval.pure.2 ⟨rfl, rfl⟩, ha, hc, by simp⟩

theorem Does.drop {α : Type} {f : Nat → RM α} (hf : MonoF f) {s : RS} {Γ : Scene} {E : Env} {o : Written} (h : Does f s Γ E o) :
    Does (fun n => f n >>= fun _ => (Pure.pure () : RM Unit)) s Γ E o := by
  have := h.andThen hf (g := fun _ _ => (Pure.pure () : RM Unit)) (fun _ => MonoF.const _) (o' := ([], none)) fun a t ha hc => does_pure ha hc
  rwa [andThen_done] at this

/-! ### One node -/

theorem begin_at {Γ : Scene} {E : Env} {s : RS} (ha : At Γ E s) (tr : TrimState) (h : TrimHint) : At Γ E (begin_ s tr h) :=
  ⟨ha.1, ha.2, ha.3, ha.4, ha.5, ha.6, ha.7, ha.8, ha.9, ha.10, ha.11, ha.12⟩

theorem begin_trim {s : RS} (hc : Settled s) (h : TrimHint) : (begin_ s ⟨false, false⟩ h).trim = ⟨false, false⟩ := by
  unfold begin_ startAsked
  simp only [Bool.false_or, TrimState.mk.injEq, and_true]
  cases he : s.endTagHint with
  | none => rfl
  | some x => exact hc.endTag x he

theorem begin_calm {s : RS} (hc : Settled s) {h : TrimHint} (hh : h.after = false) : Settled (begin_ s ⟨false, false⟩ h) :=
  ⟨by rintro _ ⟨⟩, by rintro _ ⟨⟩; exact hh, begin_trim hc h⟩

theorem silent_calm {w : Str} {s t : RS} (h : Silent w s t) (hc : Settled s) : Settled t := by
  obtain ⟨o, l, tr, rfl, _⟩ := h
  exact ⟨hc.1, hc.2, hc.3⟩

/-- After some steps that wrote `w`. -/
theorem Does.shift {α : Type} {f : Nat → RM α} {g : Nat → RM α} {s t : RS} {Γ : Scene} {E : Env} {w : Str} {o : Written}
    (hs : Silent w s t) (h : Does g t Γ E o) (hfg : ∀ r u, Eval g t r u → Eval f s r u) : Does f s Γ E (put w o) := by
  obtain ⟨w', e⟩ := o
  cases e with
  | none => obtain ⟨a, u, h1, h2, h3, h4⟩ := h; exact ⟨a, u, hfg _ _ h1, h2, h3, by rw [h4, hs.out, List.append_assoc]; rfl⟩
  | some e => obtain ⟨u, h1, h2⟩ := h; exact ⟨u, hfg _ _ h1, by rw [h2, hs.out, List.append_assoc]; rfl⟩

/-- Evaluate, then write. -/
theorem Does.after {α β γ : Type} {f : Nat → RM α} {g : α → Nat → RM γ} (hf : MonoF f) (hg : ∀ a, MonoF (g a)) {s : RS} {Γ : Scene}
    {E : Env} {x : Said β} {R : β → α → Prop} {F : β → Written} (h : Sees f s x R)
    (h' : ∀ b a t, Silent x.1 s t → R b a → Does (g a) t Γ E (F b)) :
    Does (fun n => f n >>= fun a => g a n) s Γ E (x.andThen F) := by
  obtain ⟨w, x⟩ := x
  cases x with
  | error e =>
      obtain ⟨t, h1, h2⟩ := h
      have h3 := h1.bindFail (g := g) (res_notOk e)
      rw [res_cast] at h3
      exact ⟨t, h3, h2⟩
  | ok b =>
      obtain ⟨a, t, h1, h2, h3⟩ := h
      exact Does.shift h2 (h' b a t h2 h3) fun r u h => h1.bindOk hf hg h

omit [Custom] in
theorem applyTrim_none (w : Str) : applyTrim ⟨false, false⟩ w = w := rfl

/-- A write, with nothing to trim. -/
theorem does_writeUnit {Γ : Scene} {E : Env} {s : RS} (ha : At Γ E s) (hc : Settled s) (ht : s.trim = ⟨false, false⟩) (w : Str) (esc : Bool) :
    Does (fun _ => writeUnit E w esc) s Γ E (if w = [] then [] else escOf E esc w, none) := by
  have he := writeStr_eq E w esc s
  rw [ht, applyTrim_none] at he
  by_cases h : w = []
  · subst h
    rw [if_pos rfl]
    rw [if_pos (show ([] : Str).isEmpty = true from rfl)] at he
    refine ⟨(), s, ⟨by simp, 0, ?_⟩, ha, hc, by simp⟩
    simp only
    unfold writeUnit
    rw [RM.bind_def, he]
    rfl
  · rw [if_neg h]
    rw [if_neg (by simpa using h)] at he
    have hch : chunkOf E s w esc = escOf E esc w := by
      unfold chunkOf escOf
      rw [ht, applyTrim_none]
    rw [hch] at he
    obtain ⟨n, hn⟩ := ha.sink s.out (escOf E esc w)
    rw [hn] at he
    refine ⟨(), { s with out := s.out ++ [⟨escOf E esc w, .ok n⟩] }, ⟨by simp, 0, ?_⟩,
      ⟨ha.1, ha.2, ha.3, ha.4, ha.5, ha.6, ha.7, ha.8, ha.9, ha.10, ha.11, ha.12⟩, ⟨hc.1, hc.2, hc.3⟩, ?_⟩
    · simp only
      unfold writeUnit
      rw [RM.bind_def, he]
      rfl
    · simp [outText]

theorem Does.node {Γ : Scene} {E : Env} {s : RS} {m : Node} {tl : TrimHint} (hm : m.trim = some tl) {o : Written}
    (h : Does (fun n => renderKind (sem n) E m) (begin_ s ⟨false, false⟩ tl) Γ E o) :
    Does (fun n => (sem n).renderNode E m ⟨false, false⟩) s Γ E o := by
  obtain ⟨w, e⟩ := o
  cases e with
  | none => obtain ⟨a, t, h1, h2⟩ := h; exact ⟨a, t, (renders_kind hm).2 h1, h2⟩
  | some e => obtain ⟨t, h1, h2⟩ := h; exact ⟨t, (renders_kind hm).2 h1, h2⟩

theorem does_write {Γ : Scene} {E : Env} {s : RS} (ha : At Γ E s) (hc : Settled s) {m : Node} (hm : m.trim = some ⟨false, false⟩) {w : Str}
    (hk : ∀ n s, renderKind (sem n) E m s = writeUnit E w false s) :
    Does (fun n => (sem n).renderNode E m ⟨false, false⟩) s Γ E (w, none) := by
  refine Does.node hm (Does.congr (fun n => hk n _) ?_)
  have := does_writeUnit (begin_at ha ⟨false, false⟩ ⟨false, false⟩) (begin_calm hc rfl) (begin_trim hc ⟨false, false⟩) w false
  have e : (if w = [] then [] else escOf E false w) = w := by
    split
    · rename_i h; exact h.symm
    · rfl
  rwa [e] at this

theorem does_text {Γ : Scene} {E : Env} {s : RS} (ha : At Γ E s) (hc : Settled s) {t : Text} {w : Str} (h : t.asStr = some w) :
    Does (fun n => (sem n).renderNode E (.text t) ⟨false, false⟩) s Γ E (w, none) :=
  does_write ha hc rfl fun n s => by
    show (RM.orPanic t.asStr >>= fun txt => writeUnit E txt false) s = _
    rw [orPanic_bind h]

/-! ### Nodes in a row -/

/-- How the loop renders a node when nothing is to be trimmed. -/
def Plain (E : Env) (f : Nat → Ev → RM Unit) : Prop :=
  (∀ ev, MonoF fun n => f n ev) ∧
  ∀ ev, ev.trim = ⟨false, false⟩ → ∀ n s, f n ev s = (sem n).renderNode E ev.node ⟨false, false⟩ s

/-- The nodes ask for no white space removal. -/
def NoTrim (ns : List Node) : Prop := ∀ m ∈ ns, m.trim = some ⟨false, false⟩

theorem does_nil {Γ : Scene} {E : Env} {s : RS} (ha : At Γ E s) (hc : Settled s) (f : Nat → Ev → RM Unit) (prev : Option Bool)
    (hint : Option TrimHint) : Does (fun n => runEvents (f n) [] prev hint) s Γ E ([], none) := by
  unfold runEvents
  exact does_pure ha hc

theorem does_cons {Γ : Scene} {E : Env} {s : RS} {f : Nat → Ev → RM Unit} (hf : Plain E f) {m : Node} {ns : List Node}
    (ht : NoTrim (m :: ns)) {o o' : Written} (hd : Does (fun n => (sem n).renderNode E m ⟨false, false⟩) s Γ E o)
    (hr : ∀ t prev hint, At Γ E t → Settled t → prev.getD false = false → (∀ h, hint = some h → h.after = false) →
      Does (fun n => runEvents (f n) ns prev hint) t Γ E o') (prev : Option Bool) (hint : Option TrimHint)
    (hp : prev.getD false = false) (hh : ∀ h, hint = some h → h.after = false) :
    Does (fun n => runEvents (f n) (m :: ns) prev hint) s Γ E (Spec.andThen o o') := by
  have hm : m.trim = some ⟨false, false⟩ := ht m List.mem_cons_self
  have hnb : ∀ u, nextBefore ns u = (.ok false, u) := by
    intro u
    unfold nextBefore
    cases ns with
    | nil => rfl
    | cons x xs =>
        simp only
        rw [orPanic_bind (ht x (by simp))]
        rfl
  have hst : startTrim prev hint = false := by
    unfold startTrim
    cases prev with
    | some b => exact hp
    | none =>
        cases hint with
        | none => rfl
        | some h => exact hh h rfl
  have key : ∀ n, runEvents (f n) (m :: ns) prev hint s =
      (f n ⟨m, ⟨false, false⟩, prev.isNone, ns.isEmpty⟩ >>= fun _ => runEvents (f n) ns (trimAfterOf m ⟨false, false⟩) (nextHint prev hint)) s := by
    intro n
    rw [runEvents, RM.bind_def, hnb]
    simp only
    rw [orPanic_bind hm, hst]
  refine Does.congr key ?_
  refine Does.andThen (f := fun n => f n ⟨m, ⟨false, false⟩, prev.isNone, ns.isEmpty⟩) (g := fun _ n => runEvents (f n) ns (trimAfterOf m ⟨false, false⟩) (nextHint prev hint))
    (hf.1 _) (fun _ => mono_runEvents hf.1 _ _ _) (hd.congr fun n => hf.2 _ rfl n s) ?_
  intro _ t ha hc
  refine hr t _ _ ha hc ?_ ?_
  · cases m <;> rfl
  · intro h e
    unfold nextHint at e
    cases prev with
    | none => cases e
    | some b => exact hh h e

theorem plain_top (E : Env) : Plain E fun n ev => (sem n).renderNode E ev.node ev.trim :=
  ⟨fun ev => mono_renderNode E _ _, fun ev h n s => by simp only [h]⟩

theorem plain_block {E : Env} {b : Block} (ho : (Node.block b).trim = some ⟨false, false⟩) (hc : b.trimClose = some ⟨false, false⟩) :
    Plain E fun n => templateEvent (sem n) E (.block b) := by
  refine ⟨fun ev => mono_templateEvent E _ ev, fun ev h n s => ?_⟩
  have h1 : ∀ u, firstHint (.block b) ev u = (.ok ⟨false, false⟩, u) := by
    intro u
    unfold firstHint
    split
    · simp only [RM.orPanic, ho]
    · rfl
  have h2 : ∀ u, lastHint (.block b) ev u = (.ok ⟨false, false⟩, u) := by
    intro u
    unfold lastHint
    simp only
    split
    · simp only [RM.orPanic, hc]
    · rfl
  show templateEvent (sem n) E (.block b) ev s = _
  unfold templateEvent
  rw [RM.bind_def, h1]
  simp only
  rw [RM.bind_def, h2]
  simp only [h, hintTrim, Bool.or_self]

/-- The content of a block. -/
theorem does_template {Γ : Scene} {E : Env} {s : RS} {b : Block}
    (hc : b.trimClose = some ⟨false, false⟩) {o : Written}
    (hl : Does (fun n => runEvents (templateEvent (sem n) E (.block b)) b.nodes none s.hint) s Γ E o) :
    Does (fun n => template (sem n) E (.block b)) s Γ E o := by
  have hch : ∃ x, closeHint (.block b) = some x ∧ ∀ h, x = some h → h.after = false := by
    unfold closeHint
    simp only
    split
    · exact ⟨none, rfl, by rintro _ ⟨⟩⟩
    · rw [hc]; exact ⟨some ⟨false, false⟩, rfl, by rintro _ ⟨⟩; rfl⟩
  obtain ⟨x, hx, hx'⟩ := hch
  have key : ∀ n, template (sem n) E (.block b) s =
      (runEvents (templateEvent (sem n) E (.block b)) b.nodes none s.hint >>= fun _ => (RM.modify fun s => { s with endTagHint := x } : RM Unit)) s := by
    intro n
    unfold template
    rw [RM.bind_def]
    simp only [RM.get]
    rw [orPanic_bind hx]
    rfl
  refine Does.congr key ?_
  have := Does.andThen (g := fun _ _ => (RM.modify fun s => { s with endTagHint := x } : RM Unit)) (o' := ([], none))
    (mono_runEvents (fun ev => mono_templateEvent E _ ev) _ _ _) (fun _ => MonoF.const _) hl (by
      intro _ t ha hct
      refine ⟨(), { t with endTagHint := x }, ⟨by simp, 0, rfl⟩, ⟨ha.1, ha.2, ha.3, ha.4, ha.5, ha.6, ha.7, ha.8, ha.9, ha.10, ha.11, ha.12⟩, ⟨hx', hct.2, hct.3⟩, by simp⟩)
  rwa [andThen_done] at this

/-! ### Block helpers -/

/-- Rendering `m` writes what `D` says, wherever it happens. -/
def Content (E : Env) (m : Node) (D : Scene → Written) : Prop :=
  ∀ Γ s, At Γ E s → Settled s → Does (fun n => template (sem n) E m) s Γ E (D Γ)

theorem does_tmpl {Γ Δ : Scene} {E : Env} {s s' : RS} {m : Node} {o o' : Written} {k : Prog}
    (h : Does (fun n => template (sem n) E m) s Γ E o) (hout : s.out = s'.out)
    (hk : ∀ t, At Γ E t → Settled t → Does (fun n => run (sem n) E k) t Δ E o') :
    ∀ (o'' : Written), o'' = Spec.andThen (within o) o' →
    match o''.2 with
    | none => ∃ a t, RunsHelper E (.tmpl m k) s (.ok a) t ∧ At Δ E t ∧ Settled t ∧ outText t.out = outText s'.out ++ o''.1
    | some e => ∃ t, RunsHelper E (.tmpl m k) s e.res t ∧ outText t.out = outText s'.out ++ o''.1 := by
  rintro _ rfl
  obtain ⟨w, e⟩ := o
  cases e with
  | some e =>
      obtain ⟨t, h1, h2⟩ := h
      simp only [within, Option.map_some, Spec.andThen]
      rw [← hout]
      refine ⟨t, runs_tmpl.2 (.inr ⟨e.res, h1, ?_⟩), h2⟩
      cases e <;> rfl
  | none =>
      obtain ⟨a, t, h1, h2, h3, h4⟩ := h
      have := hk t h2 h3
      simp only [within, Option.map_none, Spec.andThen, put]
      rw [← hout]
      simp only at h4
      obtain ⟨w', e'⟩ := o'
      cases e' with
      | none =>
          obtain ⟨b, u, g1, g2, g3, g4⟩ := this
          exact ⟨b, u, runs_tmpl.2 (.inl ⟨t, h1, g1⟩), g2, g3, by rw [g4, h4, List.append_assoc]⟩
      | some e' =>
          obtain ⟨u, g1, g2⟩ := this
          exact ⟨u, runs_tmpl.2 (.inl ⟨t, h1, g1⟩), by rw [g2, h4, List.append_assoc]⟩

theorem does_tmpl_ret {Γ : Scene} {E : Env} {s : RS} {m : Node} {o : Written} (h : Does (fun n => template (sem n) E m) s Γ E o) :
    Does (fun n => run (sem n) E (.tmpl m (.ret none))) s Γ E (within o) :=
  does_tmpl h rfl (o' := ([], none)) (fun t ha hc => does_pure ha hc) _ (by rw [andThen_done])

theorem at_push {Γ : Scene} {E : Env} {s : RS} (ha : At Γ E s) (sc : Scope) :
    At (Γ.push sc) E { s with scopes := sc :: Γ.scopes } :=
  ⟨ha.1, ha.2, ha.3, ha.4, ha.5, ha.6, ha.7, ha.8, ha.9, rfl, ha.11, ha.12⟩

theorem at_pop {Γ : Scene} {E : Env} {s : RS} {sc : Scope} (ha : At (Γ.push sc) E s) : At Γ E { s with scopes := s.scopes.tail } :=
  ⟨ha.1, ha.2, ha.3, ha.4, ha.5, ha.6, ha.7, ha.8, ha.9, by show s.scopes.tail = _; rw [ha.scopes]; rfl, ha.11, ha.12⟩

theorem does_pop {Γ : Scene} {E : Env} {s : RS} {sc : Scope} (ha : At (Γ.push sc) E s) (hc : Settled s) :
    Does (fun n => run (sem n) E (.popScope fun _ => .ret none)) s Γ E ([], none) :=
  ⟨none, { s with scopes := s.scopes.tail }, runs_popScope.2 (runs_ret.2 ⟨rfl, rfl⟩), at_pop ha, ⟨hc.1, hc.2, hc.3⟩, by simp⟩

theorem does_with {Γ : Scene} {E : Env} {s : RS} (ha : At Γ E s) (hc : Settled s) {m : Node} {D : Scene → Written} (hm : Content E m D) {v : Value}
    {ctx : Ctx} (hv : ctx.args = [v]) (hn : v ≠ .null) :
    Does (fun n => run (sem n) E (hWith ctx (some m))) s Γ E (within (D (Γ.push ⟨some v, []⟩))) := by
  have e : hWith ctx (some m) = .pushScope Scope.new (.scopeMut (Scope.setBase v) fun _ => .tmpl m (.popScope fun _ => .ret none)) := by
    unfold hWith
    rw [withArity_one hv, get_one hv]
    cases v <;> first | exact absurd rfl hn | rfl
  rw [e]
  have h1 := hm (Γ.push ⟨some v, []⟩) { s with scopes := ⟨some v, []⟩ :: Γ.scopes } (at_push ha _) ⟨hc.1, hc.2, hc.3⟩
  have h2 := does_tmpl (s' := s) h1 rfl (Δ := Γ) (o' := ([], none)) (k := .popScope fun _ => .ret none) (fun t ha hc => does_pop ha hc) _ rfl
  rw [andThen_done] at h2
  have h3 : ∀ r t, RunsHelper E (.tmpl m (.popScope fun _ => .ret none)) { s with scopes := ⟨some v, []⟩ :: Γ.scopes } r t →
      RunsHelper E (.pushScope Scope.new (.scopeMut (Scope.setBase v) fun _ => .tmpl m (.popScope fun _ => .ret none))) s r t := by
    intro r t h
    rw [runs_pushScope, runs_scopeMut (sc := Scope.new) (rest := s.scopes) rfl, ha.scopes]
    exact h
  unfold Does
  revert h2
  generalize within (D (Γ.push ⟨some v, []⟩)) = o
  obtain ⟨w, e⟩ := o
  cases e with
  | none => rintro ⟨a, t, g1, g2⟩; exact ⟨a, t, h3 _ _ g1, g2⟩
  | some e => rintro ⟨t, g1, g2⟩; exact ⟨t, h3 _ _ g1, g2⟩

theorem does_arr {Γ : Scene} {E : Env} {m : Node} {D : Scene → Written} (hm : Content E m D) (len : Nat) :
    ∀ (l : List Value) (i : Nat) (sc : Scope) (s : RS), At (Γ.push sc) E s → Settled s →
      (sc.locals = [] ∨ ∃ r : Round, r.key = none ∧ sc = r.scope) →
      Does (fun n => run (sem n) E (eachArr m len i l)) s Γ E (rounds D Γ (arrFrom len i l))
  | [], i, sc, s, ha, hc, hsc => does_pop ha hc
  | v :: l, i, sc, s, ha, hc, hsc => by
      have hs : s.scopes = sc :: Γ.scopes := ha.scopes
      rw [eachArr, arrFrom, rounds]
      have h1 := hm (Γ.push (Round.mk i (i == 0) (i == len - 1) none v).scope) { s with scopes := (Round.mk i (i == 0) (i == len - 1) none v).scope :: Γ.scopes }
        ⟨ha.1, ha.2, ha.3, ha.4, ha.5, ha.6, ha.7, ha.8, ha.9, rfl, ha.11, ha.12⟩ ⟨hc.1, hc.2, hc.3⟩
      have h2 := does_tmpl (s' := s) h1 rfl (Δ := Γ) (o' := rounds D Γ (arrFrom len (i + 1) l)) (k := eachArr m len (i + 1) l)
        (fun t ha' hc' => does_arr hm len l (i + 1) _ t ha' hc' (.inr ⟨_, rfl, rfl⟩)) _ rfl
      have h3 : ∀ r t, RunsHelper E (.tmpl m (eachArr m len (i + 1) l)) { s with scopes := (Round.mk i (i == 0) (i == len - 1) none v).scope :: Γ.scopes } r t →
          RunsHelper E (.scopeMut (eachScope i (i == len - 1) none v) fun _ => .tmpl m (eachArr m len (i + 1) l)) s r t := by
        intro r t h
        rw [runs_scopeMut hs, eachScope_array i _ v sc hsc]
        exact h
      unfold Does
      revert h2
      generalize Spec.andThen _ _ = o
      obtain ⟨w, e⟩ := o
      cases e with
      | none => rintro ⟨a, t, g1, g2⟩; exact ⟨a, t, h3 _ _ g1, g2⟩
      | some e => rintro ⟨t, g1, g2⟩; exact ⟨t, h3 _ _ g1, g2⟩

theorem does_obj {Γ : Scene} {E : Env} {m : Node} {D : Scene → Written} (hm : Content E m D) :
    ∀ (l : List (Str × Value)) (i : Nat) (sc : Scope) (s : RS), At (Γ.push sc) E s → Settled s →
      (sc.locals = [] ∨ ∃ r : Round, r.key.isSome ∧ sc = r.scope) →
      Does (fun n => run (sem n) E (eachObj m i l)) s Γ E (rounds D Γ (objFrom i l))
  | [], i, sc, s, ha, hc, hsc => does_pop ha hc
  | (k, v) :: l, i, sc, s, ha, hc, hsc => by
      have hs : s.scopes = sc :: Γ.scopes := ha.scopes
      rw [eachObj, objFrom, rounds]
      have h1 := hm (Γ.push (Round.mk i (i == 0) l.isEmpty (some k) v).scope) { s with scopes := (Round.mk i (i == 0) l.isEmpty (some k) v).scope :: Γ.scopes }
        ⟨ha.1, ha.2, ha.3, ha.4, ha.5, ha.6, ha.7, ha.8, ha.9, rfl, ha.11, ha.12⟩ ⟨hc.1, hc.2, hc.3⟩
      have h2 := does_tmpl (s' := s) h1 rfl (Δ := Γ) (o' := rounds D Γ (objFrom (i + 1) l)) (k := eachObj m (i + 1) l)
        (fun t ha' hc' => does_obj hm l (i + 1) _ t ha' hc' (.inr ⟨_, rfl, rfl⟩)) _ rfl
      have h3 : ∀ r t, RunsHelper E (.tmpl m (eachObj m (i + 1) l)) { s with scopes := (Round.mk i (i == 0) l.isEmpty (some k) v).scope :: Γ.scopes } r t →
          RunsHelper E (.scopeMut (eachScope i l.isEmpty (some k) v) fun _ => .tmpl m (eachObj m (i + 1) l)) s r t := by
        intro r t h
        rw [runs_scopeMut hs, eachScope_object i _ k v sc hsc]
        exact h
      unfold Does
      revert h2
      generalize Spec.andThen _ _ = o
      obtain ⟨w, e⟩ := o
      cases e with
      | none => rintro ⟨a, t, g1, g2⟩; exact ⟨a, t, h3 _ _ g1, g2⟩
      | some e => rintro ⟨t, g1, g2⟩; exact ⟨t, h3 _ _ g1, g2⟩

/-- What the `else` clauses of a block come to. -/
def Inverts (E : Env) (m : Node) (D : Scene → Written) : Prop :=
  ∀ Γ s, At Γ E s → Settled s → Does (fun n => run (sem n) E (.tryInverse m)) s Γ E (within (D Γ))

theorem does_each {Γ : Scene} {E : Env} {s : RS} (ha : At Γ E s) (hc : Settled s) {m : Node} {D : Scene → Written} (hm : Content E m D) {v : Value}
    {ctx : Ctx} (hv : ctx.args = [v]) :
    Does (fun n => run (sem n) E (hEach ctx (some m))) s Γ E (match v with
        | .arr l => rounds D Γ (arrayRounds l)
        | .obj m => rounds D Γ (objectRounds m)
        | _ => ([], none)) := by
  unfold hEach
  rw [withArity_one hv, get_one hv]
  have hn := at_push ha Scope.new
  rw [← ha.scopes] at hn
  have key : ∀ (p : Prog) (o : Written), Does (fun n => run (sem n) E p) { s with scopes := Scope.new :: s.scopes } Γ E o →
      Does (fun n => run (sem n) E (.pushScope Scope.new p)) s Γ E o := by
    rintro p ⟨w, e⟩ h
    cases e with
    | none => obtain ⟨a, t, g1, g2⟩ := h; exact ⟨a, t, runs_pushScope.2 g1, g2⟩
    | some e => obtain ⟨t, g1, g2⟩ := h; exact ⟨t, runs_pushScope.2 g1, g2⟩
  simp only
  refine key _ _ ?_
  have hcalm : Settled { s with scopes := Scope.new :: s.scopes } := ⟨hc.1, hc.2, hc.3⟩
  cases v with
  | arr l => simp only; rw [← arrayRounds_eq]; exact does_arr hm _ l 0 _ _ hn hcalm (.inl rfl)
  | obj l => simp only; rw [← objectRounds_eq]; exact does_obj hm l 0 _ _ hn hcalm (.inl rfl)
  | _ => exact does_pop hn hcalm

/-- What a built-in helper does with its block. -/
theorem does_builtin {Γ : Scene} {E : Env} {s : RS} (ha : At Γ E s) (hc : Settled s) {m : Node} {D A : Scene → Written} (hm : Content E m D)
    (hi : Inverts E m A) {name : Str} {h : HelperFn} (hh : assoc name builtins = some h) {ctx : Ctx} {vs : List Value}
    {hs : List (Str × Value)} (hv : ctx.args = vs) (hn : ctx.name = name) (hp : ∀ k, ctx.param k = hs.lookup k) :
    Does (fun n => run (sem n) E (h ctx (some m))) s Γ E (builtinBlock name vs hs D A Γ) := by
  have other : (name ∉ special ∨ ∀ v, vs ≠ [v]) → Does (fun n => run (sem n) E (h ctx (some m))) s Γ E (match builtinValue name vs hs with
        | .error f => ([], some f)
        | .ok _ => ([], none)) := by
    intro hx
    have hb := builtin_value (E := E) hh hv hn hp (content := some m) (.inr hx) s
    cases hy : builtinValue name vs hs with
    | error f =>
        rw [hy] at hb
        obtain ⟨t, h1, h2⟩ := hb
        exact ⟨t, h1, h2⟩
    | ok v =>
        rw [hy] at hb
        obtain ⟨v', t, h1, h2, _⟩ := hb
        exact ⟨v', t, h1, h2.at ha, silent_calm h2 hc, h2.out⟩
  unfold builtinBlock
  match vs, hv, other with
  | [v], hv, other =>
      simp only
      by_cases h1 : name = c!"if"
      · subst h1
        rw [if_pos rfl]
        cases hh
        unfold hIf
        rw [withArity_one hv, get_one hv]
        simp only
        by_cases ht : isTruthy v = true
        · rw [if_pos ht, if_pos ht]; exact does_tmpl_ret (hm Γ s ha hc)
        · rw [if_neg ht, if_neg ht]; exact hi Γ s ha hc
      rw [if_neg h1]
      by_cases h2 : name = c!"unless"
      · subst h2
        rw [if_pos rfl]
        cases hh
        unfold hUnless
        rw [withArity_one hv, get_one hv]
        simp only
        by_cases ht : isTruthy v = true
        · rw [if_pos ht, if_neg (by simp [ht])]; exact hi Γ s ha hc
        · rw [if_neg ht, if_pos (by simp [ht])]; exact does_tmpl_ret (hm Γ s ha hc)
      rw [if_neg h2]
      by_cases h3 : name = c!"each"
      · subst h3
        rw [if_pos rfl]
        cases hh
        have := does_each ha hc hm hv
        cases v <;> exact this
      rw [if_neg h3]
      by_cases h4 : name = c!"with"
      · subst h4
        rw [if_pos rfl]
        cases hh
        by_cases hnull : v = .null
        · subst hnull
          have e : hWith ctx (some m) = .ret none := by
            unfold hWith
            rw [withArity_one hv, get_one hv]
          rw [e]
          exact does_pure ha hc
        · have := does_with ha hc hm hv hnull
          cases v <;> first | exact absurd rfl hnull | exact this
      rw [if_neg h4]
      exact other (.inl (by simp [special, h1, h2, h3, h4]))
  | [], hv, other => exact other (.inr (by simp))
  | _ :: _ :: _, hv, other => exact other (.inr (by simp))

/-- A helper of the application that renders its content again and again. -/
theorem does_contents {Γ : Scene} {E : Env} {m : Node} {D : Scene → Written} (hm : Content E m D) (e : Option HelperErr) :
    ∀ (l : List Act) (s : RS), At Γ E s → Settled s →
      Does (fun n => run (sem n) E (contentsProg m e l)) s Γ E (contents D Γ e l)
  | [], s, ha, hc => by
      cases e with
      | none => exact does_pure ha hc
      | some e => exact ⟨s, runs_fail.2 ⟨rfl, rfl⟩, by simp [contents]⟩
  | .print x :: l, s, ha, hc => by
      obtain ⟨t, h1, h2⟩ := run_print ha hc.trim x (contentsProg m e l)
      exact Does.shift h1 (does_contents hm e l t (h1.at ha) (silent_calm h1 hc)) fun r u ⟨g0, n, g1⟩ => ⟨g0, n, (h2 n).trans g1⟩
  | .content none :: l, s, ha, hc =>
      does_tmpl (hm Γ s ha hc) rfl (fun t ha' hc' => does_contents hm e l t ha' hc') _ rfl
  | .content (some sc) :: l, s, ha, hc => by
      have h1 := hm (Γ.push sc) { s with scopes := sc :: Γ.scopes } (at_push ha _) ⟨hc.1, hc.2, hc.3⟩
      have h2 := does_tmpl (s' := s) h1 rfl (Δ := Γ) (o' := contents D Γ e l) (k := .popScope fun _ => contentsProg m e l)
        (fun t ha' hc' => by
          have h := does_contents hm e l { t with scopes := t.scopes.tail } (at_pop ha') ⟨hc'.1, hc'.2, hc'.3⟩
          revert h
          generalize contents D Γ e l = o
          obtain ⟨w, x⟩ := o
          cases x with
          | none => rintro ⟨a, u, g1, g2⟩; exact ⟨a, u, runs_popScope.2 g1, g2⟩
          | some x => rintro ⟨u, g1, g2⟩; exact ⟨u, runs_popScope.2 g1, g2⟩) _ rfl
      have h3 : ∀ r t, RunsHelper E (.tmpl m (.popScope fun _ => contentsProg m e l)) { s with scopes := sc :: Γ.scopes } r t →
          RunsHelper E (contentsProg m e (.content (some sc) :: l)) s r t := by
        intro r t h
        rw [contentsProg, runs_pushScope, ha.scopes]
        exact h
      rw [contents]
      unfold Does
      revert h2
      generalize Spec.andThen _ _ = o
      obtain ⟨w, e⟩ := o
      cases e with
      | none => rintro ⟨a, t, g1, g2⟩; exact ⟨a, t, h3 _ _ g1, g2⟩
      | some e => rintro ⟨t, g1, g2⟩; exact ⟨t, h3 _ _ g1, g2⟩

/-- What a helper of the application does with its block. -/
theorem does_custom {Γ : Scene} {E : Env} {s : RS} (ha : At Γ E s) (hc : Settled s) {m : Node} {D A : Scene → Written} (hm : Content E m D)
    (hi : Inverts E m A) (f : CustomFn) {ctx : Ctx} {vs : List Value} {text : Option Str}
    {hs : List (Str × Value)} (hv : ctx.args = vs) (hp : ∀ k, ctx.param k = hs.lookup k) (ht : ctx.text = text) :
    Does (fun n => run (sem n) E (f.prog ctx (some m))) s Γ E (f.blocks text vs hs D A Γ) := by
  have e : (fun k => ctx.param k) = fun k => hs.lookup k := funext hp
  unfold CustomFn.prog CustomFn.blocks
  simp only
  rw [hv, e, ht]
  cases f.block text vs (fun k => hs.lookup k) with
  | contents l e => exact does_contents hm e l s ha hc
  | otherwise => exact hi Γ s ha hc

/-- What a helper does with its block. -/
theorem does_helper {Γ : Scene} {E : Env} {s : RS} (ha : At Γ E s) (hc : Settled s) {m : Node} {D A : Scene → Written} (hm : Content E m D)
    (hi : Inverts E m A) {name : Str} {h : HelperFn} (hh : helperFn name = some h) {ctx : Ctx} {vs : List Value} {text : Option Str}
    {hs : List (Str × Value)} (hv : ctx.args = vs) (hn : ctx.name = name) (hp : ∀ k, ctx.param k = hs.lookup k) (ht : ctx.text = text) :
    Does (fun n => run (sem n) E (h ctx (some m))) s Γ E (blockHelper name text vs hs D A Γ) := by
  unfold helperFn at hh
  unfold blockHelper
  cases hcu : Custom.fn name with
  | none => rw [hcu] at hh; exact does_builtin ha hc hm hi hh hv hn hp
  | some f =>
      rw [hcu] at hh
      cases hh
      exact does_custom ha hc hm hi f hv hp ht

/-! ### Blocks -/

theorem at_leave {Γ : Scene} {E : Env} {s : RS} {x : CallSite} (ha : At (Γ.enter x) E s) : At Γ E s.leaveOk :=
  ⟨ha.1, ha.2, ha.3, ha.4, ha.5, ha.6, ha.7, ha.8, ha.9, ha.10, by show s.stack.tail = _; rw [ha.stack]; rfl, ha.12⟩

/-- A call with a block. -/
theorem does_invoke {Γ : Scene} {E : Env} {s : RS} (ha : At Γ E s) (hc : Settled s) {m : Node} {name : Str} {target : Target} {h : HelperFn}
    (hh : Resolves E name target h) {a : SArgs} {c : Call} {text : Option Str} {prop : Option (Str × Value)}
    (hargs : ArgsSee E a c) {F : List Value → List (Str × Value) → Written}
    (hF : ∀ ctx s1 vs hs, At (Γ.enter (.block name)) E s1 → Settled s1 → ctx.args = vs → ctx.name = name → (∀ k, ctx.param k = hs.lookup k) →
      ctx.text = text → ctx.property = prop → Does (fun n => run (sem n) E (h ctx (some m))) s1 (Γ.enter (.block name)) E (F vs hs)) :
    Does (fun n => invoke (sem n) E name target c (some m) text prop) s Γ E
      (if Γ.full (.block name) then ([], some (.err (.helperCycle name)))
       else (a.eval (Γ.enter (.block name)) .none).andThen fun x => F x.1 x.2) := by
  cases hfull : Γ.full (.block name) with
  | true =>
      rw [if_pos rfl]
      exact ⟨s, invoke_full ha (content := some m) hfull, by simp⟩
  | false =>
      rw [if_neg (by simp)]
      cases hev : a.eval (Γ.enter (.block name)) .none with
      | mk w x =>
      cases x with
      | error g => exact invoke_badArgs ha hc.trim (target := target) (content := some m) (text := text) (prop := prop) hargs hfull hev
      | ok x =>
          obtain ⟨vs, hs⟩ := x
          obtain ⟨ctx, s1, h1, h2, h3, h4, h6, h5⟩ := invoke_runs ha hc.trim hh (content := some m) (text := text) (prop := prop) hargs hfull hev
          have hd := hF ctx s1 vs hs (h1.at (at_enter ha _)) (silent_calm h1 ⟨hc.1, hc.2, hc.3⟩) h2 h3 h4 h6.2.1 h6.2.2
          have hout : outText s1.out = outText s.out ++ w := h1.out
          unfold Said.andThen
          simp only
          revert hd
          generalize F vs hs = o
          obtain ⟨w', e⟩ := o
          cases e with
          | none =>
              rintro ⟨v, t, g1, g2, g3, g4⟩
              exact ⟨v, _, h5 _ _ g1, at_leave g2, ⟨g3.1, g3.2, g3.3⟩, by rw [show (afterCall (.ok v : Res (Option Value)) t).out = t.out from rfl, g4, hout, List.append_assoc]; rfl⟩
          | some e =>
              rintro ⟨t, g1, g2⟩
              refine ⟨_, h5 _ _ g1, ?_⟩
              have : outText t.out = outText s.out ++ (w ++ w') := by rw [g2, hout, List.append_assoc]
              unfold afterCall
              cases e <;> exact this

theorem name_text (name : Str) : (⟨0, .name name, []⟩ : SPath).shown = name := plain_shown rfl rfl

/-- A block that is not raw. -/
theorem does_block {Γ : Scene} {E : Env} {s : RS} (ha : At Γ E s) (hc : Settled s) {b : Block} {D A : Scene → Written}
    (hm : Content E (.block b) D) (hi : Inverts E (.block b) A) {name : Str} (hok : nameOk name = true) {a : SArgs} (haok : a.ok = true)
    (hraw : b.raw = false) (ht : TagRep false false (some ⟨0, .name name, []⟩) a b.call) :
    Does (fun n => blockF (sem n) E b) s Γ E (block name none a D A Γ) := by
  obtain ⟨q, hq, hr⟩ := ht.target
  have hpok : (⟨0, .name name, []⟩ : SPath).ok = true := by simp [SPath.ok, hok]
  have hsim : q.isSimple = true := (simple_iff hr rfl).2 ⟨⟨name, rfl⟩, rfl⟩
  have hlk := at_lookup ha hr
  have hstr : q.asStr = some name := by rw [hr.asStr, name_text]
  have key : ∀ n, blockF (sem n) E b s = (if hasHelper E s name then do
            let _ ← invoke (sem n) E name .name b.call (some (.block b)) none none
            pure ()
          else blockHelperMissing (sem n) E (.block b) b.call q none b.raw) s := by
    intro n
    unfold blockF
    rw [ht.isPartial, if_neg (by simp), hq]
    simp only
    have hbt : blockText b s = (.ok none, s) := by
      unfold blockText
      rw [if_neg (by simp [hraw])]
      rfl
    rw [if_pos hsim, RM.bind_def, hbt]
    simp only
    rw [orPanic_bind hstr, RM.bind_def]
    simp only [RM.get]
  refine Does.congr key ?_
  unfold block
  cases hh : isHelper name with
  | true =>
      obtain ⟨f, hf⟩ := helperFn_of hh
      have : hasHelper E s name = true := by unfold hasHelper; rw [ha.helpers, hf]; simp
      simp only [this, if_true]
      exact (does_invoke ha hc (resolves_name ha hf) (argsSee ht.args haok) (F := fun vs hs => blockHelper name none vs hs D A (Γ.enter (.block name)))
        fun ctx s1 vs hs ha1 hc1 h1 h2 h3 h4 _ => does_helper ha1 hc1 hm hi hf h1 h2 h3 h4).drop (mono_invoke _ _ _ _ _ _ _)
  | false =>
      have hno : hasHelper E s name = false := by
        unfold hasHelper
        rw [ha.locals, ha.helpers, helperFn_none hh]; rfl
      simp only [hno, Bool.false_eq_true, if_false]
      have key2 : ∀ n, blockHelperMissing (sem n) E (.block b) b.call q none b.raw s = (match Γ.find ⟨0, .name name, []⟩ with
          | some v => match Custom.blockMissing with
              | some f => (invoke (sem n) E nmBlockHelperMissing (.handler (blockMissingProg f)) b.call (some (.block b)) none (some (name, v)) >>= fun _ => pure ())
              | none => templateQ (sem n) E (.block b)
          | none => match Custom.missing with
              | some f => (invoke (sem n) E nmHelperMissing (.handler (missingProg f)) b.call none none none >>= fun _ => pure ())
              | none => if Γ.strict then RM.fail (.helperNotFound name) else pure ()) s := by
        intro n
        unfold blockHelperMissing
        rw [hraw, if_neg (by simp), RM.bind_def, lookupM_eq hlk]
        simp only [ha.blockHelperMissing, ha.helperMissing, ha.strict]
        cases Γ.find ⟨0, .name name, []⟩ with
        | some v =>
            simp only
            cases Custom.blockMissing with
            | none => rfl
            | some f => simp only [Option.map_some]; rw [orPanic_bind hstr]
        | none =>
            simp only
            cases Custom.missing with
            | none => simp only [Option.map_none]; rw [orPanic_bind hstr]
            | some f => rfl
      refine Does.congr key2 ?_
      have hhn : (⟨0, .name name, []⟩ : SPath).helper = none := by
        unfold SPath.helper
        simp only
        rw [if_neg (by simp [hh])]
      have hcall := sees_call ha hc.trim hr hpok hq (argsSee ht.args haok) (E := E)
      cases hfd : Γ.find ⟨0, .name name, []⟩ with
      | none =>
          simp only
          cases hmi : Custom.missing with
          | some f =>
              simp only
              have e : ∀ n, invoke (sem n) E nmHelperMissing (.handler (missingProg f)) b.call none none none s = callF (sem n) E b.call s := by
                intro n
                unfold callF
                rw [hq]
                simp only
                rw [show q.explicit = false from hr.explicit, if_neg (by simp), if_pos hsim, orPanic_bind hstr, RM.bind_def]
                simp only [RM.get]
                rw [hno, if_neg (by simp), RM.bind_def, lookupM_eq hlk, hfd]
                simp only [ha.helperMissing, hmi, Option.map_some]
              refine Does.after (f := fun n => invoke (sem n) E nmHelperMissing (.handler (missingProg f)) b.call none none none)
                (g := fun _ _ => (pure () : RM Unit)) (mono_invoke _ _ _ _ _ _ _) (fun _ => MonoF.const _) (Sees.congr e hcall) ?_
              intro _ _ t h1 _
              exact does_pure (h1.at ha) (silent_calm h1 hc)
          | none =>
              simp only
              cases Γ.strict with
              | true =>
                  simp only [if_true]
                  exact ⟨s, ⟨by simp [Fault.res], 0, rfl⟩, by simp⟩
              | false =>
                  simp only [Bool.false_eq_true, if_false]
                  exact does_pure ha hc
      | some v =>
          simp only
          cases hbm : Custom.blockMissing with
          | some f =>
              simp only
              refine (does_invoke ha hc (resolves_handler E nmBlockHelperMissing (blockMissingProg f)) (argsSee ht.args haok)
                (F := fun vs hs => (f name v).blocks none vs hs D A (Γ.enter (.block blockMissingName))) ?_).drop (mono_invoke _ _ _ _ _ _ _)
              intro ctx s1 vs hs ha1 hc1 h1 h2 h3 h4 h5
              have e : blockMissingProg f ctx (some (.block b)) = (f name v).prog ctx (some (.block b)) := by
                unfold blockMissingProg
                rw [h5]
              rw [e]
              exact does_custom ha1 hc1 hm hi _ h1 h3 h4
          | none =>
              simp only
              have hd := hm Γ s ha hc
              revert hd
              generalize D Γ = o
              obtain ⟨w, e⟩ := o
              unfold templateQ
              have hq := @Spec.Eval.catchErr_iff Unit Unit (fun n => template (sem n) E (.block b))
                (fun r _ => match r with
                  | .ok _ => pure ()
                  | .error e => RM.fail (.helper (.render e))) (mono_template E _) (fun _ => MonoF.const _) s
              cases e with
              | none =>
                  rintro ⟨x, t, g1, g2⟩
                  exact ⟨(), t, hq.2
                    (.inl ⟨(), t, g1, ⟨by simp, 0, rfl⟩⟩), g2⟩
              | some e =>
                  rintro ⟨t, g1, g2⟩
                  refine ⟨t, ?_, g2⟩
                  cases e with
                  | err e => exact hq.2 (.inr (.inl ⟨e, t, g1, ⟨by simp [Fault.res, Fault.within], 0, rfl⟩⟩))
                  | panic => exact hq.2 (.inr (.inr ⟨g1, rfl⟩))

/-- A raw block. -/
theorem does_rawBlock {Γ : Scene} {E : Env} {s : RS} (ha : At Γ E s) (hc : Settled s) {b : Block} {D A : Scene → Written}
    (hm : Content E (.block b) D) (hi : Inverts E (.block b) A) {name : Str} (hok : nameOk name = true) {a : SArgs} (haok : a.ok = true)
    (hraw : b.raw = true) (ht : TagRep false false (some ⟨0, .name name, []⟩) a b.call) {w : Str} (hw : rawText b = some (w, ⟨false, false⟩)) :
    Does (fun n => blockF (sem n) E b) s Γ E
      (if isHelper name then block name (some w) a D A Γ else (w, none)) := by
  obtain ⟨q, hq, hr⟩ := ht.target
  have hpok : (⟨0, .name name, []⟩ : SPath).ok = true := by simp [SPath.ok, hok]
  have hsim : q.isSimple = true := (simple_iff hr rfl).2 ⟨⟨name, rfl⟩, rfl⟩
  have hstr : q.asStr = some name := by rw [hr.asStr, name_text]
  let s1 : RS := { s with endTagHint := some ⟨false, false⟩ }
  have ha1 : At Γ E s1 := ⟨ha.1, ha.2, ha.3, ha.4, ha.5, ha.6, ha.7, ha.8, ha.9, ha.10, ha.11, ha.12⟩
  have hc1 : Settled s1 := ⟨by rintro _ ⟨⟩; rfl, hc.2, hc.3⟩
  have key : ∀ n, blockF (sem n) E b s = (if hasHelper E s1 name then do
            let _ ← invoke (sem n) E name .name b.call (some (.block b)) (some w) none
            pure ()
          else writeUnit E w false) s1 := by
    intro n
    unfold blockF
    rw [ht.isPartial, if_neg (by simp), hq]
    simp only
    rw [if_pos hsim, RM.bind_def]
    have : blockText b s = (.ok (some w), s1) := by
      unfold blockText
      rw [if_pos hraw, orPanic_bind hw]
      rfl
    rw [this]
    simp only
    rw [orPanic_bind hstr, RM.bind_def]
    simp only [RM.get]
    cases hasHelper E s1 name with
    | true => rfl
    | false => simp only [Bool.false_eq_true, if_false]; unfold blockHelperMissing; rw [if_pos hraw]; rfl
  have out : ∀ o, Does (fun n => (if hasHelper E s1 name then do
            let _ ← invoke (sem n) E name .name b.call (some (.block b)) (some w) none
            pure ()
          else writeUnit E w false)) s1 Γ E o → Does (fun n => blockF (sem n) E b) s Γ E o := by
    rintro ⟨w, e⟩ h
    cases e with
    | none => obtain ⟨x, t, ⟨g0, n, g1⟩, g2⟩ := h; exact ⟨x, t, ⟨g0, n, (key n).trans g1⟩, g2⟩
    | some e => obtain ⟨t, ⟨g0, n, g1⟩, g2⟩ := h; exact ⟨t, ⟨g0, n, (key n).trans g1⟩, g2⟩
  refine out _ ?_
  cases hh : isHelper name with
  | true =>
      obtain ⟨f, hf⟩ := helperFn_of hh
      have : hasHelper E s1 name = true := by unfold hasHelper; rw [ha.helpers, hf]; simp
      simp only [this, if_true]
      unfold block
      rw [if_pos hh]
      exact (does_invoke ha1 hc1 (resolves_name ha hf) (argsSee ht.args haok) (F := fun vs hs => blockHelper name (some w) vs hs D A (Γ.enter (.block name)))
        fun ctx s1 vs hs ha2 hc2 h1 h2 h3 h4 _ => does_helper ha2 hc2 hm hi hf h1 h2 h3 h4).drop (mono_invoke _ _ _ _ _ _ _)
  | false =>
      have : hasHelper E s1 name = false := by
        unfold hasHelper
        rw [ha1.locals, ha.helpers, helperFn_none hh]; rfl
      simp only [this, Bool.false_eq_true, if_false]
      have h := does_writeUnit ha1 hc1 hc1.trim w false
      have e : (if w = [] then [] else escOf E false w) = w := by
        split
        · rename_i h; exact h.symm
        · rfl
      rw [e] at h
      exact h

/-! ### Clauses -/

/-- The chosen clause writes `o`. -/
def Picks (Γ : Scene) (E : Env) (pick : Option Node) (o : Written) : Prop :=
  match pick with
  | none => o = ([], none)
  | some m => ∀ s, At Γ E s → Settled s → Does (fun n => template (sem n) E m) s Γ E o

/-- The clauses come to `o`. -/
def Clauses (Γ : Scene) (E : Env) (cs : List Node) (alt : Option Node) (s : RS) (o : Written) : Prop :=
  (∃ pick t w o', Eval (fun n => inverseLoop (sem n) E cs alt) s (.ok pick) t ∧ Silent w s t ∧ Picks Γ E pick o' ∧ o = put w o') ∨
  (∃ f t w, Eval (fun n => inverseLoop (sem n) E cs alt) s f.res t ∧ outText t.out = outText s.out ++ w ∧ o = (w, some f))

theorem does_inverse {Γ : Scene} {E : Env} {s : RS} (ha : At Γ E s) (hc : Settled s) {b : Block} {o : Written}
    (h : Clauses Γ E b.conditionals none s o) : Does (fun n => run (sem n) E (.tryInverse (.block b))) s Γ E (within o) := by
  rcases h with ⟨pick, t, w0, o', h1, h2, h3, rfl⟩ | ⟨f, t, w0, h1, h2, rfl⟩
  · have key : ∀ r u, RunsHelper E (match pick with | none => .ret none | some m => .tmpl m (.ret none)) t r u →
        RunsHelper E (.tryInverse (.block b)) s r u := by
      intro r u hr
      refine (Spec.Eval.catchErr_iff (f := fun m => inverse (sem m) E (.block b)) (mono_inverse E _) (fun a => mono_run E _)).2 (.inl ⟨pick, t, h1, ?_⟩)
      cases pick <;> exact hr
    have e : within (put w0 o') = put w0 (within o') := rfl
    rw [e]
    cases pick with
    | none =>
        cases h3
        exact Does.shift h2 (does_pure (a := none) (h2.at ha) (silent_calm h2 hc)) key
    | some m => exact Does.shift h2 (does_tmpl_ret (h3 t (h2.at ha) (silent_calm h2 hc))) key
  · refine ⟨t, ?_, h2⟩
    cases f with
    | err e =>
        exact (Spec.Eval.catchErr_iff (f := fun m => inverse (sem m) E (.block b)) (mono_inverse E _) (fun a => mono_run E _)).2
          (.inr (.inl ⟨e, t, h1, runs_fail.2 ⟨rfl, rfl⟩⟩))
    | panic =>
        exact (Spec.Eval.catchErr_iff (f := fun m => inverse (sem m) E (.block b)) (mono_inverse E _) (fun a => mono_run E _)).2
          (.inr (.inr ⟨h1, rfl⟩))

theorem no_inverse {E : Env} {b : Block} (h : b.conditionals = []) : Inverts E (.block b) fun _ => ([], none) := by
  intro Γ s ha hc
  refine does_inverse ha hc (.inl ⟨none, s, [], _, ?_, .refl s, rfl, rfl⟩)
  rw [h]
  exact Spec.Eval.pure.2 ⟨rfl, rfl⟩

theorem plain_spec {tl : Tilde} (h : tl.plain = true) : tl.before = false ∧ tl.after = false := by
  simpa [Tilde.plain] using h

theorem trim_of_tildes {n : Node} {tl : Tilde} (hp : tl.plain = true) (h : TildeRep tl n) : n.trim = some ⟨false, false⟩ := by
  obtain ⟨h1, h2⟩ := plain_spec hp
  unfold Node.trim
  rw [h.before, h.after, h1, h2]
  rfl

theorem plain_seen {tl : Tilde} (h : tl.plain = true) : tl.seen.plain = true := by
  obtain ⟨h1, h2⟩ := plain_spec h
  simp [Tilde.plain, Tilde.seen, h1, h2]

theorem core_noTrim {T : STm} {ns : List Node} (h : TmRep T ns) (hc : T.core = true) : NoTrim ns := by
  match T, ns, h with
  | _, _, .nil => intro m hm; cases hm
  | _, _, .text h hr => rw [STm.core] at hc; exact List.forall_mem_cons.2 ⟨rfl, core_noTrim hr hc⟩
  | _, _, .comment h hw hr => rw [STm.core] at hc; exact List.forall_mem_cons.2 ⟨rfl, core_noTrim hr hc⟩
  | _, _, .longComment h hw hr => rw [STm.core] at hc; exact List.forall_mem_cons.2 ⟨rfl, core_noTrim hr hc⟩
  | _, _, .escaped h hw hr => rw [STm.core] at hc; exact List.forall_mem_cons.2 ⟨rfl, core_noTrim hr hc⟩
  | _, _, .link h he h1 h2 h3 hn => rw [STm.core] at hc; exact List.forall_mem_cons.2 ⟨rfl, core_noTrim hn hc⟩
  | _, _, .stmt h ht he hl hr =>
      rw [STm.core] at hc
      simp only [Bool.and_eq_true, beq_iff_eq] at hc
      exact List.forall_mem_cons.2 ⟨trim_of_tildes (plain_seen hc.1.2) hl, core_noTrim hr hc.2⟩
  | _, _, .dyn h hp hcond ht hd ha he hl hr =>
      rw [STm.core] at hc
      simp only [Bool.and_eq_true, beq_iff_eq] at hc
      exact List.forall_mem_cons.2 ⟨trim_of_tildes (plain_seen hc.1.2) hl, core_noTrim hr hc.2⟩
  | _, _, .rawBlock h hraw ht hl hcl hn hw hcs hr =>
      rw [STm.core] at hc
      simp only [Bool.and_eq_true, beq_iff_eq] at hc
      exact List.forall_mem_cons.2 ⟨trim_of_tildes hc.1.1 hl, core_noTrim hr hc.2⟩
  | _, _, .block h hraw ht hl hcl hb hcs hr =>
      rw [STm.core] at hc
      simp only [Bool.and_eq_true, beq_iff_eq] at hc
      exact List.forall_mem_cons.2 ⟨trim_of_tildes hc.1.1.1.1.2 hl, core_noTrim hr hc.2⟩

/-! ### Templates -/

/-- What is done with the value of a statement. -/
def sayValue (E : Env) (c : Call) (v : Option Value) : RM Unit :=
  match v with
  | some v => do
      let esc ← RM.orPanic c.isEscaped
      let _ ← writeStr E (stringify v) esc
      pure ()
  | none => pure ()

theorem does_stmt {Γ : Scene} {E : Env} {s : RS} (ha : At Γ E s) (hc : Settled s) {raw : Bool} {x : SExpr} {c : Call}
    (hpart : c.isPartial = false) (hx : ∀ t, At Γ E t → Trims .none t → Sees (fun n => callF (sem n) E c) t (x.eval Γ .none) Eq) (he : c.isEscaped = some (!raw))
    {tl : Tilde} (htl : tl.plain = true) (hl : TildeRep tl (.statement c)) :
    Does (fun n => (sem n).renderNode E (.statement c) ⟨false, false⟩) s Γ E (Γ.says raw (x.eval Γ .none)) := by
  have hm := trim_of_tildes htl hl
  refine Does.node hm ?_
  have hA := begin_at ha ⟨false, false⟩ ⟨false, false⟩
  have hC : Settled (begin_ s ⟨false, false⟩ ⟨false, false⟩) := begin_calm hc rfl
  have hs := (hx _ hA hC.trim).map (f := fun n => (sem n).statement E c) fun r u h => (evaluates_callF hpart).2 h
  refine Does.after (g := fun v _ => sayValue E c v) (mono_statement E c) (fun _ => MonoF.const _) hs ?_
  rintro v _ t h2 rfl
  have hAt := h2.at hA
  have hCt := silent_calm h2 hC
  cases v with
  | none => exact does_pure hAt hCt
  | some v =>
      have hw := does_writeUnit hAt hCt hCt.trim (stringify v) (!raw)
      have e : (if stringify v = [] then [] else escOf E (!raw) (stringify v)) = Γ.printed raw v := by
        unfold Scene.printed escOf
        rw [ha.escape]
        cases raw <;> rfl
      rw [e] at hw
      refine hw.congr fun n => ?_
      unfold sayValue
      simp only
      rw [orPanic_bind he]
      rfl

theorem put_eq (w : Str) (o : Written) : put w o = Spec.andThen (w, none) o := rfl
theorem nothing_then (o : Written) : Spec.andThen ([], none) o = o := by obtain ⟨w, e⟩ := o; rfl

theorem does_comment {Γ : Scene} {E : Env} {s : RS} (ha : At Γ E s) (hc : Settled s) {m : Node} (hm : m.trim = some ⟨false, false⟩)
    (hk : ∀ n, renderKind (sem n) E m = pure ()) :
    Does (fun n => (sem n).renderNode E m ⟨false, false⟩) s Γ E ([], none) :=
  Does.node hm (Does.congr (fun n => by rw [hk]) (does_pure (begin_at ha _ _) (begin_calm hc rfl)))

theorem does_link {Γ : Scene} {E : Env} {s : RS} (ha : At Γ E s) (hc : Settled s) {e : Bool} {hr : Str} {lb tt : Option Str} {l : Link}
    (h : l.asStr = some (linkText e hr lb tt)) (he : l.isEscaped = some e) (h1 : l.hrefStr = some (fieldValue hr))
    (h2 : l.labelStr = some (fieldValue (lb.getD []))) (h3 : l.titleStr = some (fieldValue (tt.getD []))) :
    Does (fun n => (sem n).renderNode E (.link l) ⟨false, false⟩) s Γ E (Γ.link e hr lb tt) := by
  unfold Scene.link
  cases e with
  | true =>
      refine does_write ha hc rfl fun n u => ?_
      unfold renderKind
      simp only
      rw [orPanic_bind he]
      rw [if_pos rfl]
      have : l.afterEscape = some (linkText false hr lb tt) := by
        have h' : l.asStr = some ('\\' :: linkText false hr lb tt) := h
        unfold Link.asStr at h'
        unfold Link.afterEscape
        obtain ⟨a, c, h1, h2, h3⟩ := slice_some h'
        have e1 : Char.utf8Size '\\' = 1 := by decide
        refine slice_eq (a := a ++ ['\\']) (b := linkText false hr lb tt) (c := c) (by simp [h1]) (by simp [h2]; omega) ?_
        simp only [blen_append, blen_cons, blen_nil] at h3 ⊢
        omega
      rw [orPanic_bind this]
      rfl
  | false =>
      rw [if_neg (by simp)]
      cases hl : Custom.link with
      | none =>
          refine does_write ha hc rfl fun n u => ?_
          unfold renderKind
          simp only
          rw [orPanic_bind he]
          rw [if_neg (by simp), ha.link, hl]
          simp only [Option.map_none]
          rw [orPanic_bind h]
          rfl
      | some f =>
          simp only
          refine Does.node rfl ?_
          have hA := begin_at ha ⟨false, false⟩ ⟨false, false⟩
          have hC : Settled (begin_ s ⟨false, false⟩ ⟨false, false⟩) := begin_calm hc rfl
          have key : ∀ n, renderKind (sem n) E (.link l) (begin_ s ⟨false, false⟩ ⟨false, false⟩) =
              (invoke (sem n) E nmLink (.handler f.prog) (linkArgs l (fieldValue hr) (fieldValue (lb.getD [])) (fieldValue (tt.getD []))) none none none
                >>= fun _ => (pure () : RM Unit)) (begin_ s ⟨false, false⟩ ⟨false, false⟩) := by
            intro n
            unfold renderKind
            simp only
            rw [orPanic_bind he, if_neg (by simp), ha.link, hl]
            simp only [Option.map_some]
            have : linkCall l = some (linkArgs l (fieldValue hr) (fieldValue (lb.getD [])) (fieldValue (tt.getD []))) := by
              unfold linkCall
              rw [h1, h2, h3]
              rfl
            rw [orPanic_bind this]
          refine Does.congr key ?_
          have hs := Does.after (F := fun _ => ([], none)) (g := fun _ _ => (pure () : RM Unit)) (mono_invoke _ _ _ _ _ _ _) (fun _ => MonoF.const _)
            (sees_linkCall hA hC.trim f l (fieldValue hr) (fieldValue (lb.getD [])) (fieldValue (tt.getD [])))
            (fun _ _ t g1 _ => does_pure (E := E) (g1.at hA) (silent_calm g1 hC))
          revert hs
          cases Γ.full (.helper linkName) <;> exact id

/-- After the condition of a clause. -/
def nextClause (S : Sem) (E : Env) (b : Block) (ns : List Node) (al : Option Node) (v : Option Value) : RM (Option Node) :=
  match v with
  | some v => if isTruthy v then pure (some (.block b)) else inverseLoop S E ns al
  | none => inverseLoop S E ns al

mutual
theorem does_tm (E : Env) : ∀ (T : STm) (ns : List Node) (k : Str), TmRep T ns → T.ok k = true → T.core = true →
    ∀ (f : Nat → Ev → RM Unit), Plain E f → ∀ (Γ : Scene) (s : RS) (prev : Option Bool) (hint : Option TrimHint), At Γ E s → Settled s →
      prev.getD false = false → (∀ h, hint = some h → h.after = false) →
      Does (fun n => runEvents (f n) ns prev hint) s Γ E (T.den Γ)
  | .nil, ns, k, hT, hok, hco, f, hf, Γ, s, prev, hint, ha, hc, hp, hh => by
      cases hT
      rw [STm.den]
      exact does_nil ha hc f prev hint
  | .text w r, ns, k, hT, hok, hco, f, hf, Γ, s, prev, hint, ha, hc, hp, hh => by
      have hno := core_noTrim hT hco
      rw [STm.ok] at hok
      simp only [Bool.and_eq_true] at hok
      rw [STm.core] at hco
      rw [STm.den, put_eq]
      cases hT with
      | text h hr =>
          exact does_cons hf hno (does_text ha hc h)
            (fun t p' h' ha' hc' hp' hh' => does_tm E r _ k hr hok.2 hco f hf Γ t p' h' ha' hc' hp' hh') prev hint hp hh
  | .comment w r, ns, k, hT, hok, hco, f, hf, Γ, s, prev, hint, ha, hc, hp, hh => by
      have hno := core_noTrim hT hco
      rw [STm.ok] at hok
      simp only [Bool.and_eq_true] at hok
      rw [STm.core] at hco
      rw [STm.den, ← nothing_then (r.den Γ)]
      cases hT with
      | comment h hw hr =>
          exact does_cons hf hno (does_comment ha hc rfl fun n => rfl)
            (fun t p' h' ha' hc' hp' hh' => does_tm E r _ k hr hok.2 hco f hf Γ t p' h' ha' hc' hp' hh') prev hint hp hh
  | .longComment w r, ns, k, hT, hok, hco, f, hf, Γ, s, prev, hint, ha, hc, hp, hh => by
      have hno := core_noTrim hT hco
      rw [STm.ok] at hok
      simp only [Bool.and_eq_true] at hok
      rw [STm.core] at hco
      rw [STm.den, ← nothing_then (r.den Γ)]
      cases hT with
      | longComment h hw hr =>
          exact does_cons hf hno (does_comment ha hc rfl fun n => rfl)
            (fun t p' h' ha' hc' hp' hh' => does_tm E r _ k hr hok.2 hco f hf Γ t p' h' ha' hc' hp' hh') prev hint hp hh
  | .escaped w r, ns, k, hT, hok, hco, f, hf, Γ, s, prev, hint, ha, hc, hp, hh => by
      have hno := core_noTrim hT hco
      rw [STm.ok] at hok
      simp only [Bool.and_eq_true] at hok
      rw [STm.core] at hco
      rw [STm.den, put_eq]
      cases hT with
      | escaped h hw hr =>
          refine does_cons hf hno (does_write ha hc rfl fun n u => ?_)
            (fun t p' h' ha' hc' hp' hh' => does_tm E r _ k hr hok.2 hco f hf Γ t p' h' ha' hc' hp' hh') prev hint hp hh
          unfold renderKind
          simp only
          rw [orPanic_bind h]
          have e : escapedText w = '\\' :: (c!"{{" ++ (w ++ c!"}}")) := rfl
          rw [e, orPanic_bind (slice_tail (by decide))]
          rfl
  | .link e h lb tt r, ns, k, hT, hok, hco, f, hf, Γ, s, prev, hint, ha, hc, hp, hh => by
      have hno := core_noTrim hT hco
      rw [STm.ok] at hok
      simp only [Bool.and_eq_true] at hok
      rw [STm.core] at hco
      rw [STm.den]
      cases hT with
      | link h he h1 h2 h3 hn =>
          exact does_cons hf hno (does_link ha hc h he h1 h2 h3)
            (fun t p' h' ha' hc' hp' hh' => does_tm E r _ k hn hok.2 hco f hf Γ t p' h' ha' hc' hp' hh') prev hint hp hh
  | .stmt raw part tl p a r, ns, k, hT, hok, hco, f, hf, Γ, s, prev, hint, ha, hc, hp, hh => by
      have hno := core_noTrim hT hco
      rw [STm.ok] at hok
      simp only [Bool.and_eq_true] at hok
      rw [STm.core] at hco
      simp only [Bool.and_eq_true, Bool.not_eq_true', beq_iff_eq] at hco
      obtain ⟨⟨rfl, hpl⟩, hco⟩ := hco
      rw [STm.den]
      cases hT with
      | stmt h ht he hl hr =>
          obtain ⟨q, hq, hqr⟩ := ht.target
          exact does_cons hf hno (does_stmt (x := .sub p a) ha hc ht.isPartial (fun t hA hK => sees_call hA hK hqr hok.1.1.1.2 hq (argsSee ht.args hok.1.1.2)) he (plain_seen hpl) hl)
            (fun t p' h' ha' hc' hp' hh' => does_tm E r _ k hr hok.2 hco f hf Γ t p' h' ha' hc' hp' hh') prev hint hp hh
  | .dyn raw part tl q b a r, ns, k, hT, hok, hco, f, hf, Γ, s, prev, hint, ha, hc, hp, hh => by
      have hno := core_noTrim hT hco
      rw [STm.ok] at hok
      simp only [Bool.and_eq_true] at hok
      rw [STm.core] at hco
      simp only [Bool.and_eq_true, Bool.not_eq_true', beq_iff_eq] at hco
      obtain ⟨⟨rfl, hpl⟩, hco⟩ := hco
      rw [STm.den]
      cases hT with
      | dyn h hpa hcond ht hd hargs he hl hr =>
          exact does_cons hf hno (does_stmt (x := .sub q b) ha hc hpa (fun t hA hK => sees_dyn hA hK hok.1.1.1.1.2 hok.1.1.1.2 ht hd) he (plain_seen hpl) hl)
            (fun t p' h' ha' hc' hp' hh' => does_tm E r _ k hr hok.2 hco f hf Γ t p' h' ha' hc' hp' hh') prev hint hp hh
  | .rawBlock tl name a w cl r, ns, k, hT, hok, hco, f, hf, Γ, s, prev, hint, ha, hc, hp, hh => by
      have hno := core_noTrim hT hco
      rw [STm.ok] at hok
      simp only [Bool.and_eq_true] at hok
      rw [STm.core] at hco
      simp only [Bool.and_eq_true, beq_iff_eq] at hco
      obtain ⟨⟨hpl, hpc⟩, hco⟩ := hco
      rw [STm.den]
      cases hT with
      | rawBlock h hraw ht hl hcl hn hw hcs hr =>
          rename_i b t ns
          rw [(plain_spec hpc).1, (plain_spec hpc).2] at hcl
          have htr := trim_of_tildes hpl hl
          have hcont : Content E (.block b) fun _ => (w, none) := by
            intro Δ u ha' hc'
            refine does_template hcl ?_
            rw [hn]
            have := does_cons (plain_block (E := E) htr hcl) (m := .text t) (ns := []) (by intro m hm; simp only [List.mem_singleton] at hm; subst hm; rfl)
              (does_text ha' hc' hw) (fun v p' h' ha'' hc'' _ _ => does_nil ha'' hc'' _ p' h') none u.hint rfl hc'.hint
            rwa [andThen_done] at this
          have hrt : rawText b = some (w, ⟨false, false⟩) := by
            rw [rawText_eq (inner := w) (by rw [hn]; exact hw) htr hcl]
            rfl
          exact does_cons hf hno (Does.node htr (does_rawBlock (begin_at ha _ _) (begin_calm hc rfl) hcont (no_inverse hcs)
              hok.1.1.1.1.2 hok.1.1.1.2 hraw ht hrt))
            (fun t p' h' ha' hc' hp' hh' => does_tm E r _ k hr hok.2 hco f hf Γ t p' h' ha' hc' hp' hh') prev hint hp hh
  | .block part tl name a body cs cl r, ns, k, hT, hok, hco, f, hf, Γ, s, prev, hint, ha, hc, hp, hh => by
      have hno := core_noTrim hT hco
      rw [STm.ok] at hok
      simp only [Bool.and_eq_true] at hok
      obtain ⟨⟨⟨⟨⟨⟨⟨⟨⟨⟨_, _⟩, _⟩, hname⟩, haok⟩, _⟩, hbok⟩, hcok⟩, _⟩, _⟩, hrok⟩ := hok
      rw [STm.core] at hco
      simp only [Bool.and_eq_true, Bool.not_eq_true', beq_iff_eq] at hco
      obtain ⟨⟨⟨⟨⟨rfl, hpl⟩, hpc⟩, hbc⟩, hcc⟩, hco⟩ := hco
      rw [STm.den]
      cases hT with
      | block h hraw ht hl hcl hb hcs hr =>
          rename_i b ns
          rw [(plain_spec hpc).1, (plain_spec hpc).2] at hcl
          have htr := trim_of_tildes hpl hl
          have hcont : Content E (.block b) fun Δ => body.den Δ := fun Δ u ha' hc' =>
            does_template hcl (does_tm E body _ _ hb hbok hbc _ (plain_block htr hcl) Δ u none u.hint ha' hc' rfl hc'.hint)
          have hinv : Inverts E (.block b) fun Δ => cs.den Δ ([], none) := fun Δ u ha' hc' =>
            does_inverse ha' hc' (does_cls E cs cl hpc _ _ hcs hcok hcc Δ u none ([], none) ha' hc' rfl)
          exact does_cons hf hno (Does.node htr (does_block (begin_at ha _ _) (begin_calm hc rfl) hcont hinv hname haok hraw ht))
            (fun t p' h' ha' hc' hp' hh' => does_tm E r _ k hr hrok hco f hf Γ t p' h' ha' hc' hp' hh') prev hint hp hh
theorem does_cls (E : Env) : ∀ (cs : SCls) (cl : Tilde), cl.plain = true → ∀ (ns : List Node) (k : Str), ClsRep cl cs ns → cs.ok k = true → cs.core = true →
    ∀ (Γ : Scene) (s : RS) (al : Option Node) (o : Written), At Γ E s → Settled s → Picks Γ E al o → Clauses Γ E ns al s (cs.den Γ o)
  | .nil, cl, hpc, ns, k, hT, hok, hco, Γ, s, al, o, ha, hc, hp => by
      cases hT
      rw [SCls.den]
      exact .inl ⟨al, s, [], o, Spec.Eval.pure.2 ⟨rfl, rfl⟩, .refl s, hp, rfl⟩
  | .cons tl cond body r, cl, hpc, ns, k, hT, hok, hco, Γ, s, al, o, ha, hc, hp => by
      unfold SCls.ok at hok
      simp only [Bool.and_eq_true] at hok
      obtain ⟨⟨⟨⟨⟨_, hcond⟩, _⟩, hbok⟩, _⟩, hrok⟩ := hok
      rw [SCls.core] at hco
      simp only [Bool.and_eq_true, beq_iff_eq] at hco
      obtain ⟨⟨hpl, hbc⟩, hrc⟩ := hco
      cases hT with
      | cons hraw ht hl hcl hb hcs hr =>
          rename_i b ns
          have htr := trim_of_tildes hpl hl
          have hcl' : b.trimClose = some ⟨false, false⟩ := by
            rw [hcl, (plain_spec hpc).1, (plain_spec hpc).2]; cases r <;> rfl
          have hcont : Content E (.block b) fun Δ => body.den Δ := fun Δ u ha' hc' =>
            does_template hcl' (does_tm E body _ _ hb hbok hbc _ (plain_block htr hcl') Δ u none u.hint ha' hc' rfl hc'.hint)
          cases cond with
          | none =>
              have hem : b.call.isEmpty = true := ht.target
              have := does_cls E r cl hpc ns k hr hrok hrc Γ s (some (.block b)) (body.den Γ) ha hc (fun u ha' hc' => hcont Γ u ha' hc')
              have e1 : (fun n => inverseLoop (sem n) E (.block b :: ns) al) = fun n => inverseLoop (sem n) E ns (some (.block b)) :=
                funext fun n => by rw [inverseLoop, if_pos hem]
              unfold Clauses
              rw [e1, SCls.den]
              exact this
          | some x =>
              obtain ⟨p, a⟩ := x
              simp only [Bool.and_eq_true] at hcond
              obtain ⟨q, hq, hqr⟩ := ht.target
              have hem : b.call.isEmpty = false := by
                unfold Call.isEmpty
                rw [hq]
                show q.components.isEmpty = false
                have hk := hqr.kinds
                cases hcomp : q.components with
                | nil => rw [hcomp] at hk; simp at hk
                | cons _ _ => rfl
              have hs := sees_call ha hc.trim hqr hcond.1.2 hq (argsSee ht.args hcond.2)
              have e1 : (fun n => inverseLoop (sem n) E (.block b :: ns) al) = fun n => (sem n).call E b.call >>= fun v => nextClause (sem n) E b ns al v :=
                funext fun n => by rw [inverseLoop, if_neg (by simp [hem])]; rfl
              unfold Clauses
              rw [e1, SCls.den]
              have hmono : ∀ v : Option Value, MonoF fun n => nextClause (sem n) E b ns al v := by
                intro v
                cases v with
                | none => exact mono_inverseLoop E ns al
                | some v =>
                    unfold nextClause
                    simp only
                    split
                    · exact MonoF.const _
                    · exact mono_inverseLoop E ns al
              revert hs
              generalize (SExpr.sub p a).eval Γ .none = x
              intro hs
              obtain ⟨w0, x⟩ := x
              cases x with
              | error g =>
                  obtain ⟨t, h1, h2⟩ := hs
                  have h3 := ((calls_iff).2 h1).bindFail (g := fun v n => nextClause (sem n) E b ns al v) (res_notOk g)
                  rw [res_cast] at h3
                  exact .inr ⟨g, t, w0, h3, h2, rfl⟩
              | ok v =>
                  obtain ⟨v', t, h1, h2, rfl⟩ := hs
                  have h1 := (calls_iff).2 h1
                  simp only [Said.andThen]
                  by_cases htv : isTruthy (v.getD .null) = true
                  · rw [if_pos htv]
                    cases v with
                    | none => cases htv
                    | some v =>
                        refine .inl ⟨some (.block b), t, w0, body.den Γ, h1.bindOk (mono_call E _) hmono ?_, h2, fun u ha' hc' => hcont Γ u ha' hc', rfl⟩
                        simp only [Option.getD_some] at htv
                        simp only [nextClause, htv, if_true]
                        exact Spec.Eval.pure.2 ⟨rfl, rfl⟩
                  · rw [if_neg htv]
                    have ih := does_cls E r cl hpc ns k hr hrok hrc Γ t al o (h2.at ha) (silent_calm h2 hc) hp
                    have hgo : ∀ rr u, Eval (fun n => inverseLoop (sem n) E ns al) t rr u →
                        Eval (fun n => nextClause (sem n) E b ns al v) t rr u := by
                      intro rr u hx
                      cases v with
                      | none => exact hx
                      | some v =>
                          simp only [Option.getD_some] at htv
                          simp only [nextClause, htv, if_false]
                          exact hx
                    rcases ih with ⟨pick, u, w1, o1, g1, g2, g3, g4⟩ | ⟨g, u, w1, g1, g2, g3⟩
                    · refine .inl ⟨pick, u, w0 ++ w1, o1, h1.bindOk (mono_call E _) hmono (hgo _ _ g1), h2.trans g2, g3, ?_⟩
                      rw [g4]; simp [put]
                    · refine .inr ⟨g, u, w0 ++ w1, h1.bindOk (mono_call E _) hmono (hgo _ _ g1), by rw [g2, h2.out, List.append_assoc], ?_⟩
                      rw [g3]; rfl
end

end

end Bracket.Props
