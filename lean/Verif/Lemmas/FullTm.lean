import Verif.Spec.Full
import Verif.Lemmas.CoreTm
import Verif.Props.Partials

/-! What templates write, with `~` and partials. -/

set_option linter.unusedSectionVars false
set_option linter.unusedSimpArgs false

namespace Bracket.Props.Whole
open Bracket Re Spec Bracket.Props
open Bracket.Spec.Full (Mood Outcome wrote failed cut opens isNil stops Library)

section
variable [Host] [Custom]

def asks (h : Option TrimHint) : Bool := (h.map (·.after)).getD false

/-- The state of the renderer fits the mood. -/
structure Feels (μ : Mood) (s : RS) : Prop where
  hint : asks s.hint = μ.hint
  close : asks s.endTagHint = μ.close
  block : match μ.block with
    | none => s.partials = []
    | some T => ∃ b k, s.partials = [(nmPartialBlock, .block b)] ∧ TmRep T b.nodes ∧ T.ok k = true
  trim : Trims μ.trim s

/-- The computation writes what `o` says, and ends as `o` says. -/
def Does {α : Type} (f : Nat → RM α) (s : RS) (Γ : Scene) (E : Env) (o : Outcome) : Prop :=
  match o.2 with
  | .ok μ => ∃ a t, Eval f s (.ok a) t ∧ At Γ E t ∧ Feels μ t ∧ outText t.out = outText s.out ++ o.1
  | .error e => ∃ t, Eval f s e.res t ∧ outText t.out = outText s.out ++ o.1

theorem Does.map {α : Type} {f g : Nat → RM α} {s s' : RS} {Γ : Scene} {E : Env} {o : Outcome} (hd : Does f s' Γ E o)
    (h : ∀ r t, Eval f s' r t → Eval g s r t) (ho : s'.out = s.out) : Does g s Γ E o := by
  obtain ⟨w, e⟩ := o
  cases e with
  | ok μ => obtain ⟨a, t, h1, h2, h3, h4⟩ := hd; exact ⟨a, t, h _ _ h1, h2, h3, by rw [h4, ho]⟩
  | error e => obtain ⟨t, h1, h2⟩ := hd; exact ⟨t, h _ _ h1, by rw [h2, ho]⟩

theorem Does.congr {α : Type} {f g : Nat → RM α} {s : RS} {Γ : Scene} {E : Env} {o : Outcome} (h : ∀ n, f n s = g n s)
    (hd : Does g s Γ E o) : Does f s Γ E o := hd.map (fun _ _ h1 => (Spec.Eval.congr h).2 h1) rfl

theorem Does.andThen {α β : Type} {f : Nat → RM α} {g : α → Nat → RM β} (hf : MonoF f) (hg : ∀ a, MonoF (g a)) {s : RS} {Γ : Scene}
    {E : Env} {o : Outcome} {k : Mood → Outcome} (h : Does f s Γ E o)
    (h' : ∀ a t μ, At Γ E t → Feels μ t → Does (g a) t Γ E (k μ)) :
    Does (fun n => f n >>= fun a => g a n) s Γ E (o.andThen k) := by
  obtain ⟨w, e⟩ := o
  cases e with
  | error e =>
      obtain ⟨t, h1, h2⟩ := h
      have h3 := h1.bindFail (g := g) (res_notOk e)
      rw [res_cast] at h3
      exact ⟨t, h3, h2⟩
  | ok μ =>
      obtain ⟨a, t, h1, h2, h3, h4⟩ := h
      have := h' a t μ h2 h3
      simp only [Full.Outcome.andThen]
      simp only at h4
      revert this
      generalize k μ = o'
      obtain ⟨w', e'⟩ := o'
      cases e' with
      | ok ν =>
          rintro ⟨b, u, g1, g2, g3, g4⟩
          exact ⟨b, u, h1.bindOk hf hg g1, g2, g3, by rw [g4, h4, List.append_assoc]⟩
      | error e' =>
          rintro ⟨u, g1, g2⟩
          exact ⟨u, h1.bindOk hf hg g1, by rw [g2, h4, List.append_assoc]⟩

theorem andThen_done (o : Outcome) : o.andThen (wrote []) = o := by
  obtain ⟨w, e⟩ := o
  cases e <;> simp [Full.Outcome.andThen, wrote]

theorem does_pure {α : Type} {a : α} {s : RS} {Γ : Scene} {E : Env} {μ : Mood} (ha : At Γ E s) (hc : Feels μ s) :
    Does (fun _ => (Pure.pure a : RM α)) s Γ E (wrote [] μ) :=
  ⟨a, s, Spec.Eval.pure.2 ⟨rfl, rfl⟩, ha, hc, by simp [wrote]⟩

theorem Does.drop {α : Type} {f : Nat → RM α} (hf : MonoF f) {s : RS} {Γ : Scene} {E : Env} {o : Outcome} (h : Does f s Γ E o) :
    Does (fun n => f n >>= fun _ => (Pure.pure () : RM Unit)) s Γ E o := by
  have := h.andThen hf (g := fun _ _ => (Pure.pure () : RM Unit)) (fun _ => MonoF.const _) (k := wrote []) fun a t μ ha hc => does_pure ha hc
  rwa [andThen_done] at this

theorem does_failed {α : Type} {f : Nat → RM α} {s t : RS} {Γ : Scene} {E : Env} {e : Fault} (h : Eval f s e.res t)
    (ho : t.out = s.out) : Does f s Γ E (failed e) := ⟨t, h, by rw [ho]; simp [failed]⟩

theorem silent_feels {w : Str} {s t : RS} {μ : Mood} (h : Silent w s t) (hc : Feels μ s) : Feels μ t := by
  obtain ⟨o, l, tr, rfl, _⟩ := h
  exact ⟨hc.1, hc.2, hc.3, hc.4⟩

/-- After some steps that wrote `w`. -/
theorem Does.shift {α : Type} {f : Nat → RM α} {g : Nat → RM α} {s t : RS} {Γ : Scene} {E : Env} {w : Str} {o : Outcome}
    (hs : outText t.out = outText s.out ++ w) (h : Does g t Γ E o) (hfg : ∀ r u, Eval g t r u → Eval f s r u) : Does f s Γ E (w ++ o.1, o.2) := by
  obtain ⟨w', e⟩ := o
  cases e with
  | ok ν => obtain ⟨a, u, h1, h2, h3, h4⟩ := h; exact ⟨a, u, hfg _ _ h1, h2, h3, by rw [h4, hs, List.append_assoc]⟩
  | error e => obtain ⟨u, h1, h2⟩ := h; exact ⟨u, hfg _ _ h1, by rw [h2, hs, List.append_assoc]⟩

/-- Evaluate, then write. -/
theorem Does.after {α β γ : Type} {f : Nat → RM α} {g : α → Nat → RM γ} (hf : MonoF f) (hg : ∀ a, MonoF (g a)) {s : RS} {Γ : Scene}
    {E : Env} {x : Said β} {R : β → α → Prop} {F : β → Outcome} (h : Sees f s x R)
    (h' : ∀ b a t, Silent x.1 s t → R b a → Does (g a) t Γ E (F b)) :
    Does (fun n => f n >>= fun a => g a n) s Γ E (.after x F) := by
  obtain ⟨w, x⟩ := x
  cases x with
  | error e =>
      obtain ⟨t, h1, h2⟩ := h
      have h3 := h1.bindFail (g := g) (res_notOk e)
      rw [res_cast] at h3
      exact ⟨t, h3, h2⟩
  | ok b =>
      obtain ⟨a, t, h1, h2, h3⟩ := h
      exact Does.shift h2.out (h' b a t h2 h3) fun r u h => h1.bindOk hf hg h

/-! ### One node -/


theorem begin_trim {s : RS} {μ : Mood} (hc : Feels μ s) (tr : TrimState) (h : TrimHint) :
    (begin_ s tr h).trim = ⟨tr.start || μ.close, tr.stop⟩ := by
  unfold begin_ startAsked
  simp only
  rw [← hc.close]
  cases s.endTagHint <;> rfl

theorem begin_feels {s : RS} {μ : Mood} (hc : Feels μ s) (tr : TrimState) (h : TrimHint) :
    Feels (μ.next h.after ⟨tr.start || μ.close, tr.stop⟩) (begin_ s tr h) :=
  ⟨rfl, rfl, hc.3, begin_trim hc tr h⟩

theorem applyTrim_cut (a b : Bool) (w : Str) : applyTrim ⟨a, b⟩ w = cut a b w := rfl

/-- A write. -/
theorem does_writeUnit {Γ : Scene} {E : Env} {s : RS} {μ : Mood} (ha : At Γ E s) (hc : Feels μ s) {a b : Bool} (ht : s.trim = ⟨a, b⟩) (w : Str) (esc : Bool) :
    Does (fun _ => writeUnit E w esc) s Γ E (wrote (if cut a b w = [] then [] else escOf E esc (cut a b w)) μ) := by
  have he := writeStr_eq E w esc s
  rw [ht, applyTrim_cut] at he
  by_cases h : cut a b w = []
  · rw [if_pos h]
    rw [if_pos (by rw [h]; rfl)] at he
    refine ⟨(), s, ⟨by simp, 0, ?_⟩, ha, hc, by simp [wrote]⟩
    simp only
    unfold writeUnit
    rw [RM.bind_def, he]
    rfl
  · rw [if_neg h]
    rw [if_neg (by simpa using h)] at he
    have hch : chunkOf E s w esc = escOf E esc (cut a b w) := by
      unfold chunkOf escOf
      rw [ht, applyTrim_cut]
    rw [hch] at he
    obtain ⟨n, hn⟩ := ha.sink s.out (escOf E esc (cut a b w))
    rw [hn] at he
    refine ⟨(), { s with out := s.out ++ [⟨escOf E esc (cut a b w), .ok n⟩] }, ⟨by simp, 0, ?_⟩,
      ⟨ha.1, ha.2, ha.3, ha.4, ha.5, ha.6, ha.7, ha.8, ha.9, ha.10, ha.11, ha.12⟩, ⟨hc.1, hc.2, hc.3, hc.4⟩, ?_⟩
    · simp only
      unfold writeUnit
      rw [RM.bind_def, he]
      rfl
    · simp [outText, wrote]

theorem does_writePlain {Γ : Scene} {E : Env} {s : RS} {μ : Mood} (ha : At Γ E s) (hc : Feels μ s) {a b : Bool} (ht : s.trim = ⟨a, b⟩) (w : Str) :
    Does (fun _ => writeUnit E w false) s Γ E (wrote (cut a b w) μ) := by
  have := does_writeUnit ha hc ht w false
  have e : (if cut a b w = [] then [] else escOf E false (cut a b w)) = cut a b w := by
    split
    · rename_i h; exact h.symm
    · rfl
  rwa [e] at this

theorem Does.node {Γ : Scene} {E : Env} {s : RS} {m : Node} {tl : TrimHint} (hm : m.trim = some tl) {tr : TrimState} {o : Outcome}
    (h : Does (fun n => renderKind (sem n) E m) (begin_ s tr tl) Γ E o) :
    Does (fun n => (sem n).renderNode E m tr) s Γ E o :=
  h.map (fun _ _ h1 => (renders_kind hm).2 h1) rfl

theorem does_write {Γ : Scene} {E : Env} {s : RS} {μ : Mood} (ha : At Γ E s) (hc : Feels μ s) {m : Node} (hm : m.trim = some ⟨false, false⟩) {w : Str}
    (hk : ∀ n s, renderKind (sem n) E m s = writeUnit E w false s) (a b : Bool) :
    Does (fun n => (sem n).renderNode E m ⟨a, b⟩) s Γ E (wrote (cut (a || μ.close) b w) (μ.next false ⟨a || μ.close, b⟩)) := by
  refine Does.node hm (Does.congr (fun n => hk n _) ?_)
  exact does_writePlain (begin_at ha _ _) (begin_feels hc _ _) (begin_trim hc _ _) w

theorem does_text {Γ : Scene} {E : Env} {s : RS} {μ : Mood} (ha : At Γ E s) (hc : Feels μ s) {t : Text} {w : Str} (h : t.asStr = some w) (a b : Bool) :
    Does (fun n => (sem n).renderNode E (.text t) ⟨a, b⟩) s Γ E (wrote (cut (a || μ.close) b w) (μ.next false ⟨a || μ.close, b⟩)) :=
  does_write ha hc rfl (fun n s => by
    show (RM.orPanic t.asStr >>= fun txt => writeUnit E txt false) s = _
    rw [orPanic_bind h]) a b

theorem does_comment {Γ : Scene} {E : Env} {s : RS} {μ : Mood} (ha : At Γ E s) (hc : Feels μ s) {m : Node} (hm : m.trim = some ⟨false, false⟩)
    (hk : ∀ n, renderKind (sem n) E m = pure ()) (a b : Bool) :
    Does (fun n => (sem n).renderNode E m ⟨a, b⟩) s Γ E (wrote [] (μ.next false ⟨a || μ.close, b⟩)) :=
  Does.node hm (Does.congr (fun n => by rw [hk]) (does_pure (begin_at ha _ _) (begin_feels hc ⟨a, b⟩ ⟨false, false⟩)))

theorem does_link {Γ : Scene} {E : Env} {s : RS} {μ : Mood} (ha : At Γ E s) (hc : Feels μ s) {e : Bool} {hr : Str} {lb tt : Option Str} {l : Link}
    (h : l.asStr = some (linkText e hr lb tt)) (he : l.isEscaped = some e) (h1 : l.hrefStr = some (fieldValue hr))
    (h2 : l.labelStr = some (fieldValue (lb.getD []))) (h3 : l.titleStr = some (fieldValue (tt.getD []))) (a b : Bool) :
    Does (fun n => (sem n).renderNode E (.link l) ⟨a, b⟩) s Γ E (Full.link Γ e hr lb tt (μ.next false ⟨a || μ.close, b⟩)) := by
  unfold Full.link
  cases e with
  | true =>
      refine does_write ha hc rfl (fun n u => ?_) a b
      unfold renderKind
      simp only
      rw [orPanic_bind he]
      rw [if_pos rfl]
      have : l.afterEscape = some (linkText false hr lb tt) := by
        have h' : l.asStr = some ('\\' :: linkText false hr lb tt) := h
        unfold Link.asStr at h'
        unfold Link.afterEscape
        obtain ⟨a, c, h1, h2, h3⟩ := slice_some h'
        have e1 : Char.utf8Size '\\' = 1 := by decide
        refine slice_eq (a := a ++ ['\\']) (b := linkText false hr lb tt) (c := c) (by simp [h1]) (by simp [h2]; omega) ?_
        simp only [blen_append, blen_cons, blen_nil] at h3 ⊢
        omega
      rw [orPanic_bind this]
      rfl
  | false =>
      rw [if_neg (by simp)]
      cases hl : Custom.link with
      | none =>
          refine does_write ha hc rfl (fun n u => ?_) a b
          unfold renderKind
          simp only
          rw [orPanic_bind he]
          rw [if_neg (by simp), ha.link, hl]
          simp only [Option.map_none]
          rw [orPanic_bind h]
          rfl
      | some f =>
          simp only
          refine Does.node rfl ?_
          have hA := begin_at ha ⟨a, b⟩ ⟨false, false⟩
          have hC := begin_feels hc ⟨a, b⟩ ⟨false, false⟩
          have key : ∀ n, renderKind (sem n) E (.link l) (begin_ s ⟨a, b⟩ ⟨false, false⟩) =
              (invoke (sem n) E nmLink (.handler f.prog) (linkArgs l (fieldValue hr) (fieldValue (lb.getD [])) (fieldValue (tt.getD []))) none none none
                >>= fun _ => (pure () : RM Unit)) (begin_ s ⟨a, b⟩ ⟨false, false⟩) := by
            intro n
            unfold renderKind
            simp only
            rw [orPanic_bind he, if_neg (by simp), ha.link, hl]
            simp only [Option.map_some]
            have : linkCall l = some (linkArgs l (fieldValue hr) (fieldValue (lb.getD [])) (fieldValue (tt.getD []))) := by
              unfold linkCall
              rw [h1, h2, h3]
              rfl
            rw [orPanic_bind this]
          refine Does.congr key ?_
          have hs := Does.after (F := fun _ => wrote [] (μ.next false ⟨a || μ.close, b⟩)) (g := fun _ _ => (pure () : RM Unit)) (mono_invoke _ _ _ _ _ _ _) (fun _ => MonoF.const _)
            (sees_linkCall hA hC.trim f l (fieldValue hr) (fieldValue (lb.getD [])) (fieldValue (tt.getD [])))
            (fun _ _ t g1 _ => does_pure (E := E) (g1.at hA) (silent_feels g1 hC))
          revert hs
          cases Γ.full (.helper linkName) <;> exact id

/-! ### Nodes in a row -/

/-- How a loop renders a node: `opn` and `cls` are what the tags around the nodes ask for. -/
def Loop (E : Env) (opn cls : Bool) (f : Nat → Ev → RM Unit) : Prop :=
  (∀ ev, MonoF fun n => f n ev) ∧
  ∀ ev n s, f n ev s = (sem n).renderNode E ev.node ⟨ev.trim.start || (ev.first && opn), ev.trim.stop || (ev.last && cls)⟩ s

/-- Where the loop is: `start` tells if the start of the next node is cut. -/
structure LoopAt (prev : Option Bool) (hint : Option TrimHint) (opn start : Bool) : Prop where
  start : (startTrim prev hint || (prev.isNone && opn)) = start
  hint : prev.isSome = true → hint = none

theorem loop_first {hint : Option TrimHint} {opn : Bool} : LoopAt none hint opn (asks hint || opn) :=
  ⟨by cases hint <;> rfl, by simp⟩

/-- The `~` before the first node. -/
def FirstTrim (T : STm) (ns : List Node) : Prop :=
  match ns with
  | [] => isNil T = true
  | m :: _ => isNil T = false ∧ ∃ h, m.trim = some h ∧ h.before = opens T

theorem trim_of {n : Node} {tl : Tilde} (h : TildeRep tl n) : n.trim = some ⟨tl.before, tl.after⟩ := by
  unfold Node.trim
  rw [h.before, h.after]
  rfl

theorem firstTrim {T : STm} {ns : List Node} (h : TmRep T ns) : FirstTrim T ns := by
  cases h with
  | nil => rfl
  | text h hr => exact ⟨rfl, _, rfl, rfl⟩
  | comment h hw hr => exact ⟨rfl, _, rfl, rfl⟩
  | longComment h hw hr => exact ⟨rfl, _, rfl, rfl⟩
  | escaped h hw hr => exact ⟨rfl, _, rfl, rfl⟩
  | link h he h1 h2 h3 hn => exact ⟨rfl, _, rfl, rfl⟩
  | stmt h ht he hl hr => exact ⟨rfl, _, trim_of hl, rfl⟩
  | dyn h hp hcond ht hd ha he hl hr => exact ⟨rfl, _, trim_of hl, rfl⟩
  | rawBlock h hraw ht hl hcl hn hw hcs hr => exact ⟨rfl, _, trim_of hl, rfl⟩
  | block h hraw ht hl hcl hb hcs hr => exact ⟨rfl, _, trim_of hl, rfl⟩

theorem nextBefore_eq {r : STm} {ns : List Node} (h : TmRep r ns) (u : RS) : nextBefore ns u = (.ok (opens r), u) := by
  have hf := firstTrim h
  unfold nextBefore
  cases ns with
  | nil => cases h; rfl
  | cons x xs =>
      obtain ⟨_, t, h1, h2⟩ := hf
      simp only
      rw [orPanic_bind h1, h2]
      rfl

theorem isEmpty_eq {r : STm} {ns : List Node} (h : TmRep r ns) : ns.isEmpty = isNil r := by
  have hf := firstTrim h
  cases ns with
  | nil => exact hf.symm
  | cons x xs => exact hf.1.symm

theorem does_nil {Γ : Scene} {E : Env} {s : RS} {μ : Mood} (ha : At Γ E s) (hc : Feels μ s) (f : Nat → Ev → RM Unit) (prev : Option Bool)
    (hint : Option TrimHint) : Does (fun n => runEvents (f n) [] prev hint) s Γ E (wrote [] μ) := by
  unfold runEvents
  exact does_pure ha hc

/-- What the loop remembers after a node. -/
def after (m : Node) (opn tilde : Bool) : Bool :=
  match m with
  | .block _ => opn
  | _ => tilde

theorem does_cons {Γ : Scene} {E : Env} {s : RS} {f : Nat → Ev → RM Unit} {opn cls start : Bool} (hf : Loop E opn cls f) {m : Node} {r : STm}
    {ns : List Node} (hr : TmRep r ns) {tl : TrimHint} (hm : m.trim = some tl) {o : Outcome} {k : Mood → Outcome}
    {prev : Option Bool} {hint : Option TrimHint} (hp : LoopAt prev hint opn start)
    (hd : Does (fun n => (sem n).renderNode E m ⟨start, stops r cls⟩) s Γ E o)
    (hk : ∀ t μ prev hint, At Γ E t → Feels μ t → LoopAt prev hint opn (after m opn tl.after) →
      Does (fun n => runEvents (f n) ns prev hint) t Γ E (k μ)) :
    Does (fun n => runEvents (f n) (m :: ns) prev hint) s Γ E (o.andThen k) := by
  have key : ∀ n, runEvents (f n) (m :: ns) prev hint s =
      (f n ⟨m, ⟨startTrim prev hint, opens r⟩, prev.isNone, isNil r⟩ >>= fun _ => runEvents (f n) ns (trimAfterOf m tl) (nextHint prev hint)) s := by
    intro n
    rw [runEvents, RM.bind_def, nextBefore_eq hr]
    simp only
    rw [orPanic_bind hm, isEmpty_eq hr]
  refine Does.congr key ?_
  refine Does.andThen (f := fun n => f n ⟨m, ⟨startTrim prev hint, opens r⟩, prev.isNone, isNil r⟩)
    (g := fun _ n => runEvents (f n) ns (trimAfterOf m tl) (nextHint prev hint))
    (hf.1 _) (fun _ => mono_runEvents hf.1 _ _ _) (hd.congr fun n => ?_) ?_
  · rw [hf.2, hp.start]
    rfl
  · intro _ t μ ha hc
    have hh : nextHint prev hint = none := by
      unfold nextHint
      cases prev with
      | none => rfl
      | some b => exact hp.hint rfl
    refine hk t μ _ _ ha hc ⟨?_, fun _ => hh⟩
    rw [hh]
    cases m <;> simp [trimAfterOf, startTrim, after]

theorem loop_top (E : Env) : Loop E false false fun n ev => (sem n).renderNode E ev.node ev.trim :=
  ⟨fun ev => mono_renderNode E _ _, fun ev n s => by simp⟩

theorem loop_block {E : Env} {b : Block} {tl cl : TrimHint} (ho : (Node.block b).trim = some tl) (hc : b.trimClose = some cl) :
    Loop E tl.after cl.before fun n => templateEvent (sem n) E (.block b) := by
  refine ⟨fun ev => mono_templateEvent E _ ev, fun ev n s => ?_⟩
  have h1 : ∀ u, firstHint (.block b) ev u = (.ok (if ev.first then tl else ⟨false, false⟩), u) := by
    intro u
    unfold firstHint
    split
    · simp only [RM.orPanic, ho]
    · rfl
  have h2 : ∀ u, lastHint (.block b) ev u = (.ok (if ev.last then cl else ⟨false, false⟩), u) := by
    intro u
    unfold lastHint
    simp only
    split
    · simp only [RM.orPanic, hc]
    · rfl
  show templateEvent (sem n) E (.block b) ev s = _
  unfold templateEvent
  rw [RM.bind_def, h1]
  simp only
  rw [RM.bind_def, h2]
  simp only [hintTrim]
  cases ev.first <;> cases ev.last <;> rfl

/-- What remains of the end tag. -/
def closed (o : Outcome) (c : Bool) : Outcome := o.andThen fun μ => wrote [] { μ with close := c }

/-- The content of a block. -/
theorem does_template {Γ : Scene} {E : Env} {s : RS} {b : Block} {cl : TrimHint} (hc : b.trimClose = some cl) {o : Outcome}
    (hl : Does (fun n => runEvents (templateEvent (sem n) E (.block b)) b.nodes none s.hint) s Γ E o) :
    Does (fun n => template (sem n) E (.block b)) s Γ E (closed o (!b.nodes.isEmpty && cl.after)) := by
  have hch : ∃ x, closeHint (.block b) = some x ∧ asks x = (!b.nodes.isEmpty && cl.after) := by
    unfold closeHint
    simp only
    split
    · rename_i h; exact ⟨none, rfl, by rw [h]; rfl⟩
    · rename_i h; rw [hc]; exact ⟨some cl, rfl, by simp at h; simp [h, asks]⟩
  obtain ⟨x, hx, hx'⟩ := hch
  have key : ∀ n, template (sem n) E (.block b) s =
      (runEvents (templateEvent (sem n) E (.block b)) b.nodes none s.hint >>= fun _ => (RM.modify fun s => { s with endTagHint := x } : RM Unit)) s := by
    intro n
    unfold template
    rw [RM.bind_def]
    simp only [RM.get]
    rw [orPanic_bind hx]
    rfl
  refine Does.congr key ?_
  refine Does.andThen (g := fun _ _ => (RM.modify fun s => { s with endTagHint := x } : RM Unit))
    (mono_runEvents (fun ev => mono_templateEvent E _ ev) _ _ _) (fun _ => MonoF.const _) hl ?_
  intro _ t μ ha hct
  exact ⟨(), { t with endTagHint := x }, ⟨by simp, 0, rfl⟩, ⟨ha.1, ha.2, ha.3, ha.4, ha.5, ha.6, ha.7, ha.8, ha.9, ha.10, ha.11, ha.12⟩,
    ⟨hct.1, hx', hct.3, hct.4⟩, by simp [wrote]⟩

/-! ### Block helpers -/

/-- The scenes in which at most `N` partials can still be entered. -/
def Room (names : List Str) (N : Nat) (Γ : Scene) : Prop :=
  (names.filter fun x => !Γ.calls.contains (.part x)).length ≤ N

theorem Room.push {names : List Str} {N : Nat} {Γ : Scene} (h : Room names N Γ) (sc : Scope) : Room names N (Γ.push sc) := h

theorem Room.enter {names : List Str} {N : Nat} {Γ : Scene} (h : Room names N Γ) (x : Str) : Room names N (Γ.enter (.block x)) := by
  unfold Room at h ⊢
  have : (fun y => !(Γ.enter (.block x)).calls.contains (.part y)) = fun y => !Γ.calls.contains (CallSite.part y) := by
    funext y
    simp [Scene.enter, List.contains_cons]
  rwa [this]

/-- Rendering `m` writes what `D` says, wherever it happens. -/
def Content (P : Scene → Prop) (E : Env) (m : Node) (D : Scene → Mood → Outcome) : Prop :=
  ∀ Γ s μ, P Γ → At Γ E s → Feels μ s → Does (fun n => template (sem n) E m) s Γ E (D Γ μ)

/-- What the `else` clauses of a block come to. -/
def Inverts (P : Scene → Prop) (E : Env) (m : Node) (D : Scene → Mood → Outcome) : Prop :=
  ∀ Γ s μ, P Γ → At Γ E s → Feels μ s → Does (fun n => run (sem n) E (.tryInverse m)) s Γ E (D Γ μ).within

theorem does_tmpl {Γ Δ : Scene} {E : Env} {s : RS} {m : Node} {o : Outcome} {k : Prog} {K : Mood → Outcome}
    (h : Does (fun n => template (sem n) E m) s Γ E o)
    (hk : ∀ t μ, At Γ E t → Feels μ t → Does (fun n => run (sem n) E k) t Δ E (K μ)) :
    Does (fun n => run (sem n) E (.tmpl m k)) s Δ E (o.within.andThen K) := by
  obtain ⟨w, e⟩ := o
  cases e with
  | error e =>
      obtain ⟨t, h1, h2⟩ := h
      simp only [Full.Outcome.within, Full.Outcome.andThen]
      refine ⟨t, runs_tmpl.2 (.inr ⟨e.res, h1, ?_⟩), h2⟩
      cases e <;> rfl
  | ok μ =>
      obtain ⟨a, t, h1, h2, h3, h4⟩ := h
      have := hk t μ h2 h3
      simp only [Full.Outcome.within, Full.Outcome.andThen]
      simp only at h4
      revert this
      generalize K μ = o'
      obtain ⟨w', e'⟩ := o'
      cases e' with
      | ok ν =>
          rintro ⟨b, u, g1, g2, g3, g4⟩
          exact ⟨b, u, runs_tmpl.2 (.inl ⟨t, h1, g1⟩), g2, g3, by rw [g4, h4, List.append_assoc]⟩
      | error e' =>
          rintro ⟨u, g1, g2⟩
          exact ⟨u, runs_tmpl.2 (.inl ⟨t, h1, g1⟩), by rw [g2, h4, List.append_assoc]⟩

theorem does_tmpl_ret {Γ : Scene} {E : Env} {s : RS} {m : Node} {o : Outcome} (h : Does (fun n => template (sem n) E m) s Γ E o) :
    Does (fun n => run (sem n) E (.tmpl m (.ret none))) s Γ E o.within := by
  have := does_tmpl h (Δ := Γ) (k := .ret none) (K := wrote []) fun t μ ha hc => does_pure ha hc
  rwa [andThen_done] at this

theorem does_pop {Γ : Scene} {E : Env} {s : RS} {μ : Mood} {sc : Scope} (ha : At (Γ.push sc) E s) (hc : Feels μ s) :
    Does (fun n => run (sem n) E (.popScope fun _ => .ret none)) s Γ E (wrote [] μ) :=
  ⟨none, { s with scopes := s.scopes.tail }, runs_popScope.2 (runs_ret.2 ⟨rfl, rfl⟩), at_pop ha, ⟨hc.1, hc.2, hc.3, hc.4⟩, by simp [wrote]⟩

section
variable {names : List Str} {N : Nat}

theorem does_with {Γ : Scene} {E : Env} {s : RS} {μ : Mood} (hr : Room names N Γ) (ha : At Γ E s) (hc : Feels μ s) {m : Node} {D : Scene → Mood → Outcome}
    (hm : Content (Room names N) E m D) {v : Value} {ctx : Ctx} (hv : ctx.args = [v]) (hn : v ≠ .null) :
    Does (fun n => run (sem n) E (hWith ctx (some m))) s Γ E (D (Γ.push ⟨some v, []⟩) μ).within := by
  have e : hWith ctx (some m) = .pushScope Scope.new (.scopeMut (Scope.setBase v) fun _ => .tmpl m (.popScope fun _ => .ret none)) := by
    unfold hWith
    rw [withArity_one hv, get_one hv]
    cases v <;> first | exact absurd rfl hn | rfl
  rw [e]
  have h1 := hm (Γ.push ⟨some v, []⟩) { s with scopes := ⟨some v, []⟩ :: Γ.scopes } μ (hr.push _) (at_push ha _) ⟨hc.1, hc.2, hc.3, hc.4⟩
  have h2 := does_tmpl h1 (Δ := Γ) (K := wrote []) (k := .popScope fun _ => .ret none) (fun t μ ha hc => does_pop ha hc)
  rw [andThen_done] at h2
  refine h2.map (fun r t h => ?_) rfl
  change RunsHelper E _ s r t
  rw [runs_pushScope, runs_scopeMut (sc := Scope.new) (rest := s.scopes) rfl, ha.scopes]
  exact h

theorem does_arr {Γ : Scene} {E : Env} {m : Node} {D : Scene → Mood → Outcome} (hr : Room names N Γ) (hm : Content (Room names N) E m D) (len : Nat) :
    ∀ (l : List Value) (i : Nat) (sc : Scope) (s : RS) (μ : Mood), At (Γ.push sc) E s → Feels μ s →
      (sc.locals = [] ∨ ∃ r : Round, r.key = none ∧ sc = r.scope) →
      Does (fun n => run (sem n) E (eachArr m len i l)) s Γ E (Full.rounds D Γ (arrFrom len i l) μ)
  | [], i, sc, s, μ, ha, hc, hsc => does_pop ha hc
  | v :: l, i, sc, s, μ, ha, hc, hsc => by
      have hs : s.scopes = sc :: Γ.scopes := ha.scopes
      rw [eachArr, arrFrom, Full.rounds]
      have h1 := hm (Γ.push (Round.mk i (i == 0) (i == len - 1) none v).scope) { s with scopes := (Round.mk i (i == 0) (i == len - 1) none v).scope :: Γ.scopes } μ
        (hr.push _) ⟨ha.1, ha.2, ha.3, ha.4, ha.5, ha.6, ha.7, ha.8, ha.9, rfl, ha.11, ha.12⟩ ⟨hc.1, hc.2, hc.3, hc.4⟩
      have h2 := does_tmpl h1 (Δ := Γ) (K := Full.rounds D Γ (arrFrom len (i + 1) l)) (k := eachArr m len (i + 1) l)
        (fun t ν ha' hc' => does_arr hr hm len l (i + 1) _ t ν ha' hc' (.inr ⟨_, rfl, rfl⟩))
      refine h2.map (fun r t h => ?_) rfl
      change RunsHelper E _ s r t
      rw [runs_scopeMut hs, eachScope_array i _ v sc hsc]
      exact h

theorem does_obj {Γ : Scene} {E : Env} {m : Node} {D : Scene → Mood → Outcome} (hr : Room names N Γ) (hm : Content (Room names N) E m D) :
    ∀ (l : List (Str × Value)) (i : Nat) (sc : Scope) (s : RS) (μ : Mood), At (Γ.push sc) E s → Feels μ s →
      (sc.locals = [] ∨ ∃ r : Round, r.key.isSome ∧ sc = r.scope) →
      Does (fun n => run (sem n) E (eachObj m i l)) s Γ E (Full.rounds D Γ (objFrom i l) μ)
  | [], i, sc, s, μ, ha, hc, hsc => does_pop ha hc
  | (k, v) :: l, i, sc, s, μ, ha, hc, hsc => by
      have hs : s.scopes = sc :: Γ.scopes := ha.scopes
      rw [eachObj, objFrom, Full.rounds]
      have h1 := hm (Γ.push (Round.mk i (i == 0) l.isEmpty (some k) v).scope) { s with scopes := (Round.mk i (i == 0) l.isEmpty (some k) v).scope :: Γ.scopes } μ
        (hr.push _) ⟨ha.1, ha.2, ha.3, ha.4, ha.5, ha.6, ha.7, ha.8, ha.9, rfl, ha.11, ha.12⟩ ⟨hc.1, hc.2, hc.3, hc.4⟩
      have h2 := does_tmpl h1 (Δ := Γ) (K := Full.rounds D Γ (objFrom (i + 1) l)) (k := eachObj m (i + 1) l)
        (fun t ν ha' hc' => does_obj hr hm l (i + 1) _ t ν ha' hc' (.inr ⟨_, rfl, rfl⟩))
      refine h2.map (fun r t h => ?_) rfl
      change RunsHelper E _ s r t
      rw [runs_scopeMut hs, eachScope_object i _ k v sc hsc]
      exact h

theorem does_each {Γ : Scene} {E : Env} {s : RS} {μ : Mood} (hr : Room names N Γ) (ha : At Γ E s) (hc : Feels μ s) {m : Node} {D : Scene → Mood → Outcome}
    (hm : Content (Room names N) E m D) {v : Value} {ctx : Ctx} (hv : ctx.args = [v]) :
    Does (fun n => run (sem n) E (hEach ctx (some m))) s Γ E (match v with
        | .arr l => Full.rounds D Γ (arrayRounds l) μ
        | .obj m => Full.rounds D Γ (objectRounds m) μ
        | _ => wrote [] μ) := by
  unfold hEach
  rw [withArity_one hv, get_one hv]
  have hn := at_push ha Scope.new
  rw [← ha.scopes] at hn
  have key : ∀ (p : Prog) (o : Outcome), Does (fun n => run (sem n) E p) { s with scopes := Scope.new :: s.scopes } Γ E o →
      Does (fun n => run (sem n) E (.pushScope Scope.new p)) s Γ E o :=
    fun p o h => h.map (fun r t g => runs_pushScope.2 g) rfl
  simp only
  refine key _ _ ?_
  have hcalm : Feels μ { s with scopes := Scope.new :: s.scopes } := ⟨hc.1, hc.2, hc.3, hc.4⟩
  cases v with
  | arr l => simp only; rw [← arrayRounds_eq]; exact does_arr hr hm _ l 0 _ _ μ hn hcalm (.inl rfl)
  | obj l => simp only; rw [← objectRounds_eq]; exact does_obj hr hm l 0 _ _ μ hn hcalm (.inl rfl)
  | _ => exact does_pop hn hcalm

/-- What a built-in helper does with its block. -/
theorem does_builtin {Γ : Scene} {E : Env} {s : RS} {μ : Mood} (hr : Room names N Γ) (ha : At Γ E s) (hc : Feels μ s) {m : Node} {D A : Scene → Mood → Outcome}
    (hm : Content (Room names N) E m D) (hi : Inverts (Room names N) E m A) {name : Str} {h : HelperFn} (hh : assoc name builtins = some h) {ctx : Ctx} {vs : List Value}
    {hs : List (Str × Value)} (hv : ctx.args = vs) (hn : ctx.name = name) (hp : ∀ k, ctx.param k = hs.lookup k) :
    Does (fun n => run (sem n) E (h ctx (some m))) s Γ E (Full.builtinBlock name vs hs D A Γ μ) := by
  have other : (name ∉ special ∨ ∀ v, vs ≠ [v]) → Does (fun n => run (sem n) E (h ctx (some m))) s Γ E (match builtinValue name vs hs with
        | .error f => failed f
        | .ok _ => wrote [] μ) := by
    intro hx
    have hb := builtin_value (E := E) hh hv hn hp (content := some m) (.inr hx) s
    cases hy : builtinValue name vs hs with
    | error f =>
        rw [hy] at hb
        obtain ⟨t, h1, h2⟩ := hb
        exact ⟨t, h1, h2⟩
    | ok v =>
        rw [hy] at hb
        obtain ⟨v', t, h1, h2, _⟩ := hb
        exact ⟨v', t, h1, h2.at ha, silent_feels h2 hc, h2.out⟩
  unfold Full.builtinBlock
  match vs, hv, other with
  | [v], hv, other =>
      simp only
      by_cases h1 : name = c!"if"
      · subst h1
        rw [if_pos rfl]
        cases hh
        unfold hIf
        rw [withArity_one hv, get_one hv]
        simp only
        by_cases ht : isTruthy v = true
        · rw [if_pos ht, if_pos ht]; exact does_tmpl_ret (hm Γ s μ hr ha hc)
        · rw [if_neg ht, if_neg ht]; exact hi Γ s μ hr ha hc
      rw [if_neg h1]
      by_cases h2 : name = c!"unless"
      · subst h2
        rw [if_pos rfl]
        cases hh
        unfold hUnless
        rw [withArity_one hv, get_one hv]
        simp only
        by_cases ht : isTruthy v = true
        · rw [if_pos ht, if_neg (by simp [ht])]; exact hi Γ s μ hr ha hc
        · rw [if_neg ht, if_pos (by simp [ht])]; exact does_tmpl_ret (hm Γ s μ hr ha hc)
      rw [if_neg h2]
      by_cases h3 : name = c!"each"
      · subst h3
        rw [if_pos rfl]
        cases hh
        have := does_each hr ha hc hm hv
        cases v <;> exact this
      rw [if_neg h3]
      by_cases h4 : name = c!"with"
      · subst h4
        rw [if_pos rfl]
        cases hh
        by_cases hnull : v = .null
        · subst hnull
          have e : hWith ctx (some m) = .ret none := by
            unfold hWith
            rw [withArity_one hv, get_one hv]
          rw [e]
          exact does_pure ha hc
        · have := does_with hr ha hc hm hv hnull
          cases v <;> first | exact absurd rfl hnull | exact this
      rw [if_neg h4]
      exact other (.inl (by simp [special, h1, h2, h3, h4]))
  | [], hv, other => exact other (.inr (by simp))
  | _ :: _ :: _, hv, other => exact other (.inr (by simp))

/-- A helper of the application that renders its content again and again. -/
theorem does_contents {Γ : Scene} {E : Env} {m : Node} {D : Scene → Mood → Outcome} (hr : Room names N Γ) (hm : Content (Room names N) E m D) (e : Option HelperErr) :
    ∀ (l : List Act) (s : RS) (μ : Mood), At Γ E s → Feels μ s →
      Does (fun n => run (sem n) E (contentsProg m e l)) s Γ E (Full.contents D Γ e l μ)
  | [], s, μ, ha, hc => by
      cases e with
      | none => exact does_pure ha hc
      | some e => exact does_failed (runs_fail.2 ⟨rfl, rfl⟩) rfl
  | .print x :: l, s, μ, ha, hc => by
      obtain ⟨t, h1, h2⟩ := run_print ha hc.trim x (contentsProg m e l)
      exact Does.shift h1.out (does_contents hr hm e l t μ (h1.at ha) (silent_feels h1 hc)) fun r u ⟨g0, n, g1⟩ => ⟨g0, n, (h2 n).trans g1⟩
  | .content none :: l, s, μ, ha, hc =>
      does_tmpl (hm Γ s μ hr ha hc) fun t ν ha' hc' => does_contents hr hm e l t ν ha' hc'
  | .content (some sc) :: l, s, μ, ha, hc => by
      have h1 := hm (Γ.push sc) { s with scopes := sc :: Γ.scopes } μ (hr.push _) (at_push ha _) ⟨hc.1, hc.2, hc.3, hc.4⟩
      have h2 := does_tmpl h1 (Δ := Γ) (K := Full.contents D Γ e l) (k := .popScope fun _ => contentsProg m e l)
        (fun t ν ha' hc' =>
          (does_contents hr hm e l { t with scopes := t.scopes.tail } ν (at_pop ha') ⟨hc'.1, hc'.2, hc'.3, hc'.4⟩).map (fun r u g => runs_popScope.2 g) rfl)
      refine h2.map (fun r t h => ?_) rfl
      change RunsHelper E _ s r t
      rw [contentsProg, runs_pushScope, ha.scopes]
      exact h

/-- What a helper of the application does with its block. -/
theorem does_custom {Γ : Scene} {E : Env} {s : RS} {μ : Mood} (hr : Room names N Γ) (ha : At Γ E s) (hc : Feels μ s) {m : Node} {D A : Scene → Mood → Outcome}
    (hm : Content (Room names N) E m D) (hi : Inverts (Room names N) E m A) (f : CustomFn) {ctx : Ctx} {vs : List Value} {text : Option Str}
    {hs : List (Str × Value)} (hv : ctx.args = vs) (hp : ∀ k, ctx.param k = hs.lookup k) (ht : ctx.text = text) :
    Does (fun n => run (sem n) E (f.prog ctx (some m))) s Γ E (Full.customBlock f text vs hs D A Γ μ) := by
  have e : (fun k => ctx.param k) = fun k => hs.lookup k := funext hp
  unfold CustomFn.prog Full.customBlock
  simp only
  rw [hv, e, ht]
  cases f.block text vs (fun k => hs.lookup k) with
  | contents l e => exact does_contents hr hm e l s μ ha hc
  | otherwise => exact hi Γ s μ hr ha hc

/-- What a helper does with its block. -/
theorem does_helper {Γ : Scene} {E : Env} {s : RS} {μ : Mood} (hr : Room names N Γ) (ha : At Γ E s) (hc : Feels μ s) {m : Node} {D A : Scene → Mood → Outcome}
    (hm : Content (Room names N) E m D) (hi : Inverts (Room names N) E m A) {name : Str} {h : HelperFn} (hh : helperFn name = some h) {ctx : Ctx} {vs : List Value}
    {text : Option Str}
    {hs : List (Str × Value)} (hv : ctx.args = vs) (hn : ctx.name = name) (hp : ∀ k, ctx.param k = hs.lookup k) (ht : ctx.text = text) :
    Does (fun n => run (sem n) E (h ctx (some m))) s Γ E (Full.blockHelper name text vs hs D A Γ μ) := by
  unfold helperFn at hh
  unfold Full.blockHelper
  cases hcu : Custom.fn name with
  | none => rw [hcu] at hh; exact does_builtin hr ha hc hm hi hh hv hn hp
  | some f =>
      rw [hcu] at hh
      cases hh
      exact does_custom hr ha hc hm hi f hv hp ht

/-! ### Blocks -/

/-- A call with a block. -/
theorem does_invoke {Γ : Scene} {E : Env} {s : RS} {μ : Mood} (ha : At Γ E s) (hc : Feels μ s) {m : Node} {name : Str} {target : Target} {h : HelperFn}
    (hh : Resolves E name target h) {a : SArgs} {c : Call} {text : Option Str} {prop : Option (Str × Value)}
    (hargs : ArgsSee E a c) {F : List Value → List (Str × Value) → Outcome}
    (hF : ∀ ctx s1 vs hs, At (Γ.enter (.block name)) E s1 → Feels μ s1 → ctx.args = vs → ctx.name = name → (∀ k, ctx.param k = hs.lookup k) →
      ctx.text = text → ctx.property = prop → Does (fun n => run (sem n) E (h ctx (some m))) s1 (Γ.enter (.block name)) E (F vs hs)) :
    Does (fun n => invoke (sem n) E name target c (some m) text prop) s Γ E
      (if Γ.full (.block name) then failed (.err (.helperCycle name))
       else .after (a.eval (Γ.enter (.block name)) μ.trim) fun x => F x.1 x.2) := by
  cases hfull : Γ.full (.block name) with
  | true =>
      rw [if_pos rfl]
      exact does_failed (invoke_full ha (content := some m) hfull) rfl
  | false =>
      rw [if_neg (by simp)]
      cases hev : a.eval (Γ.enter (.block name)) μ.trim with
      | mk w x =>
      cases x with
      | error g => exact invoke_badArgs ha hc.trim (target := target) (content := some m) (text := text) (prop := prop) hargs hfull hev
      | ok x =>
          obtain ⟨vs, hs⟩ := x
          obtain ⟨ctx, s1, h1, h2, h3, h4, h6, h5⟩ := invoke_runs ha hc.trim hh (content := some m) (text := text) (prop := prop) hargs hfull hev
          have hd := hF ctx s1 vs hs (h1.at (at_enter ha _)) (silent_feels h1 ⟨hc.1, hc.2, hc.3, hc.4⟩) h2 h3 h4 h6.2.1 h6.2.2
          have hout : outText s1.out = outText s.out ++ w := h1.out
          unfold Full.Outcome.after
          simp only
          revert hd
          generalize F vs hs = o
          obtain ⟨w', e⟩ := o
          cases e with
          | ok ν =>
              rintro ⟨v, t, g1, g2, g3, g4⟩
              exact ⟨v, _, h5 _ _ g1, at_leave g2, ⟨g3.1, g3.2, g3.3, g3.4⟩, by rw [show (afterCall (.ok v : Res (Option Value)) t).out = t.out from rfl, g4, hout, List.append_assoc]⟩
          | error e =>
              rintro ⟨t, g1, g2⟩
              refine ⟨_, h5 _ _ g1, ?_⟩
              have : outText t.out = outText s.out ++ (w ++ w') := by rw [g2, hout, List.append_assoc]
              unfold afterCall
              cases e <;> exact this

/-- A block that is not raw. -/
theorem does_block {Γ : Scene} {E : Env} {s : RS} {μ : Mood} (hro : Room names N Γ) (ha : At Γ E s) (hc : Feels μ s) {b : Block} {D A : Scene → Mood → Outcome}
    (hm : Content (Room names N) E (.block b) D) (hi : Inverts (Room names N) E (.block b) A) {name : Str} (hok : nameOk name = true) {a : SArgs} (haok : a.ok = true)
    (hraw : b.raw = false) (ht : TagRep false false (some ⟨0, .name name, []⟩) a b.call) :
    Does (fun n => blockF (sem n) E b) s Γ E (Full.block name a D A Γ μ) := by
  obtain ⟨q, hq, hr⟩ := ht.target
  have hpok : (⟨0, .name name, []⟩ : SPath).ok = true := by simp [SPath.ok, hok]
  have hsim : q.isSimple = true := (simple_iff hr rfl).2 ⟨⟨name, rfl⟩, rfl⟩
  have hlk := at_lookup ha hr
  have hstr : q.asStr = some name := by rw [hr.asStr, name_text]
  have key : ∀ n, blockF (sem n) E b s = (if hasHelper E s name then do
            let _ ← invoke (sem n) E name .name b.call (some (.block b)) none none
            pure ()
          else blockHelperMissing (sem n) E (.block b) b.call q none b.raw) s := by
    intro n
    unfold blockF
    rw [ht.isPartial, if_neg (by simp), hq]
    simp only
    have hbt : blockText b s = (.ok none, s) := by
      unfold blockText
      rw [if_neg (by simp [hraw])]
      rfl
    rw [if_pos hsim, RM.bind_def, hbt]
    simp only
    rw [orPanic_bind hstr, RM.bind_def]
    simp only [RM.get]
  refine Does.congr key ?_
  unfold Full.block
  cases hh : isHelper name with
  | true =>
      obtain ⟨f, hf⟩ := helperFn_of hh
      have : hasHelper E s name = true := by unfold hasHelper; rw [ha.helpers, hf]; simp
      simp only [this, if_true]
      exact (does_invoke ha hc (resolves_name ha hf) (argsSee ht.args haok) (F := fun vs hs => Full.blockHelper name none vs hs D A (Γ.enter (.block name)) μ)
        fun ctx s1 vs hs ha1 hc1 h1 h2 h3 h4 _ => does_helper (hro.enter name) ha1 hc1 hm hi hf h1 h2 h3 h4).drop (mono_invoke _ _ _ _ _ _ _)
  | false =>
      have hno : hasHelper E s name = false := by
        unfold hasHelper
        rw [ha.locals, ha.helpers, helperFn_none hh]; rfl
      simp only [hno, Bool.false_eq_true, if_false]
      have key2 : ∀ n, blockHelperMissing (sem n) E (.block b) b.call q none b.raw s = (match Γ.find ⟨0, .name name, []⟩ with
          | some v => match Custom.blockMissing with
              | some f => (invoke (sem n) E nmBlockHelperMissing (.handler (blockMissingProg f)) b.call (some (.block b)) none (some (name, v)) >>= fun _ => pure ())
              | none => templateQ (sem n) E (.block b)
          | none => match Custom.missing with
              | some f => (invoke (sem n) E nmHelperMissing (.handler (missingProg f)) b.call none none none >>= fun _ => pure ())
              | none => if Γ.strict then RM.fail (.helperNotFound name) else pure ()) s := by
        intro n
        unfold blockHelperMissing
        rw [hraw, if_neg (by simp), RM.bind_def, lookupM_eq hlk]
        simp only [ha.blockHelperMissing, ha.helperMissing, ha.strict]
        cases Γ.find ⟨0, .name name, []⟩ with
        | some v =>
            simp only
            cases Custom.blockMissing with
            | none => rfl
            | some f => simp only [Option.map_some]; rw [orPanic_bind hstr]
        | none =>
            simp only
            cases Custom.missing with
            | none => simp only [Option.map_none]; rw [orPanic_bind hstr]
            | some f => rfl
      refine Does.congr key2 ?_
      have hcall := sees_call ha hc.trim hr hpok hq (argsSee ht.args haok) (E := E)
      cases hfd : Γ.find ⟨0, .name name, []⟩ with
      | none =>
          simp only
          cases hmi : Custom.missing with
          | some f =>
              simp only
              have e : ∀ n, invoke (sem n) E nmHelperMissing (.handler (missingProg f)) b.call none none none s = callF (sem n) E b.call s := by
                intro n
                unfold callF
                rw [hq]
                simp only
                rw [show q.explicit = false from hr.explicit, if_neg (by simp), if_pos hsim, orPanic_bind hstr, RM.bind_def]
                simp only [RM.get]
                rw [hno, if_neg (by simp), RM.bind_def, lookupM_eq hlk, hfd]
                simp only [ha.helperMissing, hmi, Option.map_some]
              refine Does.after (f := fun n => invoke (sem n) E nmHelperMissing (.handler (missingProg f)) b.call none none none)
                (g := fun _ _ => (pure () : RM Unit)) (mono_invoke _ _ _ _ _ _ _) (fun _ => MonoF.const _) (Sees.congr e hcall) ?_
              intro _ _ t h1 _
              exact does_pure (h1.at ha) (silent_feels h1 hc)
          | none =>
              simp only
              cases Γ.strict with
              | true =>
                  simp only [if_true]
                  exact does_failed (t := s) ⟨by simp [Fault.res], 0, rfl⟩ rfl
              | false =>
                  simp only [Bool.false_eq_true, if_false]
                  exact does_pure ha hc
      | some v =>
          simp only
          cases hbm : Custom.blockMissing with
          | some f =>
              simp only
              refine (does_invoke ha hc (resolves_handler E nmBlockHelperMissing (blockMissingProg f)) (argsSee ht.args haok)
                (F := fun vs hs => Full.customBlock (f name v) none vs hs D A (Γ.enter (.block blockMissingName)) μ) ?_).drop (mono_invoke _ _ _ _ _ _ _)
              intro ctx s1 vs hs ha1 hc1 h1 h2 h3 h4 h5
              have e : blockMissingProg f ctx (some (.block b)) = (f name v).prog ctx (some (.block b)) := by
                unfold blockMissingProg
                rw [h5]
              rw [e]
              exact does_custom (hro.enter blockMissingName) ha1 hc1 hm hi _ h1 h3 h4
          | none =>
              simp only
              have hd := hm Γ s μ hro ha hc
              revert hd
              generalize D Γ μ = o
              obtain ⟨w, e⟩ := o
              unfold templateQ
              have hq := @Spec.Eval.catchErr_iff Unit Unit (fun n => template (sem n) E (.block b))
                (fun r _ => match r with
                  | .ok _ => pure ()
                  | .error e => RM.fail (.helper (.render e))) (mono_template E _) (fun _ => MonoF.const _) s
              cases e with
              | ok ν =>
                  rintro ⟨x, t, g1, g2⟩
                  exact ⟨(), t, hq.2
                    (.inl ⟨(), t, g1, ⟨by simp, 0, rfl⟩⟩), g2⟩
              | error e =>
                  rintro ⟨t, g1, g2⟩
                  refine ⟨t, ?_, g2⟩
                  cases e with
                  | err e => exact hq.2 (.inr (.inl ⟨e, t, g1, ⟨by simp [Fault.res, Fault.within], 0, rfl⟩⟩))
                  | panic => exact hq.2 (.inr (.inr ⟨g1, rfl⟩))

/-- A raw block. -/
theorem does_rawBlock {Γ : Scene} {E : Env} {s : RS} {μ : Mood} (hro : Room names N Γ) (ha : At Γ E s) (hc : Feels μ s) {st sp : Bool} (htr : s.trim = ⟨st, sp⟩)
    {b : Block} {D A : Scene → Mood → Outcome}
    (hm : Content (Room names N) E (.block b) D) (hi : Inverts (Room names N) E (.block b) A) {name : Str} (hok : nameOk name = true) {a : SArgs} (haok : a.ok = true)
    (hraw : b.raw = true) (ht : TagRep false false (some ⟨0, .name name, []⟩) a b.call) {w : Str} {cl : TrimHint} (hw : rawText b = some (w, cl)) :
    Does (fun n => blockF (sem n) E b) s Γ E
      (if isHelper name then Full.helped name (some w) a D A Γ { μ with close := cl.after } else wrote (cut st sp w) { μ with close := cl.after }) := by
  obtain ⟨q, hq, hr⟩ := ht.target
  have hpok : (⟨0, .name name, []⟩ : SPath).ok = true := by simp [SPath.ok, hok]
  have hsim : q.isSimple = true := (simple_iff hr rfl).2 ⟨⟨name, rfl⟩, rfl⟩
  have hstr : q.asStr = some name := by rw [hr.asStr, name_text]
  let s1 : RS := { s with endTagHint := some cl }
  have ha1 : At Γ E s1 := ⟨ha.1, ha.2, ha.3, ha.4, ha.5, ha.6, ha.7, ha.8, ha.9, ha.10, ha.11, ha.12⟩
  have hc1 : Feels { μ with close := cl.after } s1 := ⟨hc.1, rfl, hc.3, hc.4⟩
  have key : ∀ n, blockF (sem n) E b s = (if hasHelper E s1 name then do
            let _ ← invoke (sem n) E name .name b.call (some (.block b)) (some w) none
            pure ()
          else writeUnit E w false) s1 := by
    intro n
    unfold blockF
    rw [ht.isPartial, if_neg (by simp), hq]
    simp only
    rw [if_pos hsim, RM.bind_def]
    have : blockText b s = (.ok (some w), s1) := by
      unfold blockText
      rw [if_pos hraw, orPanic_bind hw]
      rfl
    rw [this]
    simp only
    rw [orPanic_bind hstr, RM.bind_def]
    simp only [RM.get]
    cases hasHelper E s1 name with
    | true => rfl
    | false => simp only [Bool.false_eq_true, if_false]; unfold blockHelperMissing; rw [if_pos hraw]; rfl
  refine Does.map (s' := s1) (f := fun n => (if hasHelper E s1 name then do
            let _ ← invoke (sem n) E name .name b.call (some (.block b)) (some w) none
            pure ()
          else writeUnit E w false)) ?_ (by rintro r t ⟨g0, n, g1⟩; exact ⟨g0, n, (key n).trans g1⟩) rfl
  cases hh : isHelper name with
  | true =>
      obtain ⟨f, hf⟩ := helperFn_of hh
      have : hasHelper E s1 name = true := by unfold hasHelper; rw [ha.helpers, hf]; simp
      simp only [this, if_true]
      exact (does_invoke ha1 hc1 (resolves_name ha hf) (argsSee ht.args haok)
        (F := fun vs hs => Full.blockHelper name (some w) vs hs D A (Γ.enter (.block name)) { μ with close := cl.after })
        fun ctx s1 vs hs ha2 hc2 h1 h2 h3 h4 _ => does_helper (hro.enter name) ha2 hc2 hm hi hf h1 h2 h3 h4).drop (mono_invoke _ _ _ _ _ _ _)
  | false =>
      have : hasHelper E s1 name = false := by
        unfold hasHelper
        rw [ha1.locals, ha.helpers, helperFn_none hh]; rfl
      simp only [this, Bool.false_eq_true, if_false]
      exact does_writePlain ha1 hc1 (by exact htr) w

/-! ### Clauses -/

/-- The chosen clause writes `o`. -/
def Picks (Γ : Scene) (E : Env) (μ : Mood) (pick : Option Node) (o : Outcome) : Prop :=
  match pick with
  | none => o = wrote [] μ
  | some m => ∀ s, At Γ E s → Feels μ s → Does (fun n => template (sem n) E m) s Γ E o

/-- The clauses come to `o`. -/
def Clauses (Γ : Scene) (E : Env) (μ : Mood) (cs : List Node) (alt : Option Node) (s : RS) (o : Outcome) : Prop :=
  (∃ pick t w o', Eval (fun n => inverseLoop (sem n) E cs alt) s (.ok pick) t ∧ Silent w s t ∧ Picks Γ E μ pick o' ∧ o = (w ++ o'.1, o'.2)) ∨
  (∃ f t w, Eval (fun n => inverseLoop (sem n) E cs alt) s f.res t ∧ outText t.out = outText s.out ++ w ∧ o = (w, .error f))

theorem does_inverse {Γ : Scene} {E : Env} {s : RS} {μ : Mood} (ha : At Γ E s) (hc : Feels μ s) {b : Block} {o : Outcome}
    (h : Clauses Γ E μ b.conditionals none s o) : Does (fun n => run (sem n) E (.tryInverse (.block b))) s Γ E o.within := by
  rcases h with ⟨pick, t, w0, o', h1, h2, h3, rfl⟩ | ⟨f, t, w0, h1, h2, rfl⟩
  · have key : ∀ r u, RunsHelper E (match pick with | none => .ret none | some m => .tmpl m (.ret none)) t r u →
        RunsHelper E (.tryInverse (.block b)) s r u := by
      intro r u hr
      refine (Spec.Eval.catchErr_iff (f := fun m => inverse (sem m) E (.block b)) (mono_inverse E _) (fun a => mono_run E _)).2 (.inl ⟨pick, t, h1, ?_⟩)
      cases pick <;> exact hr
    have e : Full.Outcome.within (w0 ++ o'.1, o'.2) = (w0 ++ o'.within.1, o'.within.2) := rfl
    rw [e]
    cases pick with
    | none =>
        cases h3
        exact Does.shift h2.out (does_pure (a := none) (h2.at ha) (silent_feels h2 hc)) key
    | some m => exact Does.shift h2.out (does_tmpl_ret (h3 t (h2.at ha) (silent_feels h2 hc))) key
  · refine ⟨t, ?_, h2⟩
    cases f with
    | err e =>
        exact (Spec.Eval.catchErr_iff (f := fun m => inverse (sem m) E (.block b)) (mono_inverse E _) (fun a => mono_run E _)).2
          (.inr (.inl ⟨e, t, h1, runs_fail.2 ⟨rfl, rfl⟩⟩))
    | panic =>
        exact (Spec.Eval.catchErr_iff (f := fun m => inverse (sem m) E (.block b)) (mono_inverse E _) (fun a => mono_run E _)).2
          (.inr (.inr ⟨h1, rfl⟩))

theorem no_inverse {P : Scene → Prop} {E : Env} {b : Block} (h : b.conditionals = []) : Inverts P E (.block b) fun _ μ => wrote [] μ := by
  intro Γ s μ _ ha hc
  refine does_inverse ha hc (.inl ⟨none, s, [], _, ?_, .refl s, rfl, rfl⟩)
  rw [h]
  exact Spec.Eval.pure.2 ⟨rfl, rfl⟩

/-! ### Partials -/

theorem positional_eq : ∀ (a : SArgs) (Γ : Scene) (k : Cut), Full.positional a Γ k = a.pos Γ k
  | .done _, Γ, k => rfl
  | .argW _ x r, Γ, k => by
      unfold Full.positional SArgs.pos
      rw [positional_eq r Γ k]

theorem named_eq : ∀ (a : SArgs), Full.named a = a.tail
  | .done _ => rfl
  | .argW _ x r => by
      unfold Full.named SArgs.tail
      exact named_eq r

theorem sees_hashExact (E : Env) : ∀ (h : SHash) (hs : List (Str × ParamValue)) (Γ : Scene) (s : RS) (c : Cut) (out : List (Str × Value)) (ms : List Missing),
    HashRep h hs → h.ok = true → At Γ E s → Trims c s →
    Sees (fun n => hashLoop (sem n) E hs out ms) s (h.eval Γ c) fun hs r => r.1 = hs.foldl (fun m x => mapInsert x.1 x.2 m) out
  | .tail ws, hs, Γ, s, c, out, ms, hr, hok, ha, hk => by
      cases hr with
      | nil => exact Sees.pure rfl
  | .pairW ws k x r, hs, Γ, s, c, out, ms, hr, hok, ha, hk => by
      rw [SHash.ok] at hok
      simp only [Bool.and_eq_true, Bool.not_eq_true'] at hok
      obtain ⟨⟨⟨⟨⟨_, _⟩, _⟩, hxok⟩, hkey⟩, hrok⟩ := hok
      cases hr with
      | pair hx hrr =>
          rename_i v hs
          unfold hashLoop SHash.eval
          refine Sees.bind (Q := fun (hs : List (Str × Value)) r => r.1 = hs.foldl (fun m x => mapInsert x.1 x.2 m) out) (mono_paramM E v) (fun a => mono_hash _ _ _ _)
            (sees_expr E x v Γ s c hx hxok ha hk)
            (g := fun a n => hashLoop (sem n) E hs (mapInsert k a.1 out) (addMissing ms (.param k) a.2)) ?_
          intro b a t _ hS h1
          have ih := sees_hashExact E r hs Γ t c (mapInsert k a.1 out) (addMissing ms (.param k) a.2) hrr hrok (hS.at ha) (hS.trims hk)
          revert ih
          generalize r.eval Γ c = y
          obtain ⟨w, y⟩ := y
          intro ih
          cases y with
          | error f => exact ih
          | ok hs' =>
              obtain ⟨q, u, g1, g2, g3⟩ := ih
              refine ⟨q, u, g1, by simpa [said, Said.bind] using g2, ?_⟩
              show q.1 = List.foldl (fun m x => mapInsert x.1 x.2 m) (mapInsert k (b.getD .null) out) hs'
              rw [g3, h1]

theorem sees_tailExact (E : Env) : ∀ (a : SArgs) (vs : List ParamValue) (hs : List (Str × ParamValue)) (Γ : Scene) (s : RS) (c : Cut) (ms : List Missing),
    ArgsRep a vs hs → a.ok = true → At Γ E s → Trims c s →
    Sees (fun n => hashLoop (sem n) E hs [] ms) s (a.tail.eval Γ c) fun hs r => r.1 = Full.object hs
  | .done h, vs, hs, Γ, s, c, ms, hr, hok, ha, hk => by
      rw [SArgs.ok] at hok
      cases hr with
      | done hh => exact sees_hashExact E h hs Γ s c [] ms hh hok ha hk
  | .argW ws x r, vs, hs, Γ, s, c, ms, hr, hok, ha, hk => by
      rw [SArgs.ok] at hok
      simp only [Bool.and_eq_true] at hok
      cases hr with
      | arg hx hrr => exact sees_tailExact E r _ _ Γ s c ms hrr hok.2 ha hk

theorem pos_length : ∀ (a : SArgs) {vs : List ParamValue} {hs : List (Str × ParamValue)} {Γ : Scene} {k : Cut} {l : List Value},
    ArgsRep a vs hs → (a.pos Γ k).2 = .ok l → l.length = vs.length
  | .done h, vs, hs, Γ, k, l, hr, he => by cases hr; cases he; rfl
  | .argW _ x r, vs, hs, Γ, k, l, hr, he => by
      cases hr with
      | arg hx hrr =>
          unfold SArgs.pos at he
          obtain ⟨v, _, he⟩ := bind_ok he
          obtain ⟨l', hl', he⟩ := bind_ok he
          cases he
          simp [pos_length r hrr hl']

theorem sees_partialScope {E : Env} {a : SArgs} {c : Call} {Γ : Scene} {s : RS} {k : Cut} (hr : ArgsRep a c.args c.params) (hok : a.ok = true) (ha : At Γ E s)
    (hk : Trims k s) :
    Sees (fun n => partialScope (sem n) E c) s ((a.tail.eval Γ k).bind fun hs => (a.pos Γ k).bind fun vs => said (Full.partialScope vs hs)) Eq := by
  unfold partialScope
  refine Sees.bind (mono_hash _ _ _ _) (fun x => ?_) (sees_tailExact E a _ _ Γ s k [] hr hok ha hk) ?_
  · by_cases h : c.args.isEmpty
    · simp only [h, if_true]; exact .const _
    · simp only [h]; exact .bind (mono_arguments _ _ _ _) fun _ => .const _
  · intro hs x t _ hS hx
    by_cases h : c.args.isEmpty = true
    · simp only [h, if_true]
      have hp : a.pos Γ k = said [] := by
        simp only [List.isEmpty_iff] at h
        rw [h] at hr
        cases a with
        | done _ => rfl
        | argW _ _ _ => cases hr
      rw [hp, bind_said]
      refine Sees.pure ?_
      unfold Full.partialScope Scope.ofHash Scope.new
      rw [hx]
    · simp only [h]
      refine Sees.bind (mono_arguments _ _ _ _) (fun _ => .const _) (sees_args E a _ _ Γ t k 0 x.2 hr hok (hS.at ha) (hS.trims hk)) ?_
      intro vs y u hvs _ hy
      refine Sees.pure ?_
      have hl := pos_length a hr hvs
      rw [hy]
      cases vs with
      | nil =>
          exfalso
          apply h
          simp only [List.length_nil] at hl
          simp [List.length_eq_zero_iff.1 hl.symm]
      | cons v vs => simp only [Full.partialScope, Scope.ofContext, Scope.new, hx]

/-- The registered templates are those of the library. -/
def LibRep (E : Env) (get : Str → Option STm) : Prop :=
  ∀ name, match get name with
    | none => assoc name E.reg.templates = none
    | some T => ∃ t ns k, assoc name E.reg.templates = some t ∧ t.node.children = ns ∧ TmRep T ns ∧ T.ok k = true

/-- The content of a block partial. -/
def ContentRep (content : Option STm) (pb : Option Node) : Prop :=
  match content with
  | none => pb = none
  | some T => ∃ b k, pb = some (.block b) ∧ TmRep T b.nodes ∧ T.ok k = true

/-- Rendering a template inside another one. -/
def Inner (P : Scene → Prop) (E : Env) (R : STm → Scene → Mood → Outcome) : Prop :=
  ∀ T ns k Γ s μ, TmRep T ns → T.ok k = true → P Γ → At Γ E s → Feels μ s →
    Does (fun n => runEvents (fun ev => (sem n).renderNode E ev.node ev.trim) ns none s.hint) s Γ E (R T Γ μ)

theorem Room.part {Γ : Scene} (h : Room names (N + 1) Γ) {x : Str} (hx : x ∈ names) (hn : Γ.calls.contains (.part x) = false) :
    Room names N (Γ.enter (.part x)) := by
  unfold Room at h ⊢
  have key : ∀ (l : List Str), (l.filter fun y => !(Γ.enter (.part x)).calls.contains (.part y)).length ≤ (l.filter fun y => !Γ.calls.contains (.part y)).length ∧
      (x ∈ l → (l.filter fun y => !(Γ.enter (.part x)).calls.contains (.part y)).length < (l.filter fun y => !Γ.calls.contains (.part y)).length) := by
    intro l
    induction l with
    | nil => simp
    | cons y l ih =>
        by_cases hy : y = x
        · subst hy
          have h1 : (!(Γ.enter (.part y)).calls.contains (.part y)) = false := by simp [Scene.enter]
          have h2 : (!Γ.calls.contains (.part y)) = true := by rw [hn]; rfl
          simp only [List.filter_cons, h1, h2, if_true, List.length_cons, Bool.false_eq_true, if_false]
          exact ⟨by omega, fun _ => by omega⟩
        · have h1 : (!(Γ.enter (.part x)).calls.contains (.part y)) = !Γ.calls.contains (.part y) := by
            simp [Scene.enter, List.contains_cons, hy]
          simp only [List.filter_cons, h1, List.mem_cons]
          cases (!Γ.calls.contains (.part y)) with
          | true =>
              simp only [if_true, List.length_cons]
              refine ⟨by omega, ?_⟩
              rintro (rfl | hm)
              · exact absurd rfl hy
              · have := ih.2 hm; omega
          | false =>
              simp only [Bool.false_eq_true, if_false]
              refine ⟨ih.1, ?_⟩
              rintro (rfl | hm)
              · exact absurd rfl hy
              · exact ih.2 hm
  have := (key names).2 hx
  omega

theorem Room.zero {Γ : Scene} (h : Room names 0 Γ) {x : Str} (hx : x ∈ names) : Γ.calls.contains (.part x) = true := by
  unfold Room at h
  have h0 := List.length_eq_zero_iff.1 (Nat.le_zero.1 h)
  rw [List.filter_eq_nil_iff] at h0
  simpa using h0 x hx

theorem plain_iff {p : SPath} : Full.plainName p = true ↔ (∃ w, p.head = .name w) ∧ p.rest = [] := by
  unfold Full.plainName
  cases p.head <;> simp

/-- Looking for a partial. -/
theorem find_partial {E : Env} {L : Library} (hlib : LibRep E L.get) {s : RS} {μ : Mood} (hc : Feels μ s) (name : Str) :
    match L.find μ name with
    | none => findPartial E name s = (.err (.partialNotFound name), s)
    | some T => ∃ node files ns k, findPartial E name s = (.ok node, { s with curPartial := files }) ∧ node.children = ns ∧ TmRep T ns ∧ T.ok k = true := by
  have hreg : assoc name s.partials = none →
      match L.get name with
      | none => findPartial E name s = (.err (.partialNotFound name), s)
      | some T => ∃ node files ns k, findPartial E name s = (.ok node, { s with curPartial := files }) ∧ node.children = ns ∧ TmRep T ns ∧ T.ok k = true := by
    intro h
    have hl := hlib name
    cases hg : L.get name with
    | none =>
        rw [hg] at hl
        unfold findPartial
        rw [RM.bind_def]
        simp only [RM.get, h, hl]
        rfl
    | some T =>
        rw [hg] at hl
        obtain ⟨t, ns, k, h1, h2, h3, h4⟩ := hl
        refine ⟨t.node, t.fileName :: s.curPartial, ns, k, ?_, h2, h3, h4⟩
        unfold findPartial
        rw [RM.bind_def]
        simp only [RM.get, h, h1]
        rfl
  unfold Full.Library.find
  have hb := hc.block
  by_cases hn : name = c!"@partial-block"
  · rw [if_pos hn]
    cases hm : μ.block with
    | none =>
        rw [hm] at hb
        exact hreg (by rw [hb]; rfl)
    | some T =>
        rw [hm] at hb
        obtain ⟨b, k, h1, h2, h3⟩ := hb
        refine ⟨.block b, s.curPartial, b.nodes, k, ?_, rfl, h2, h3⟩
        have h4 : assoc name s.partials = some (.block b) := by rw [h1, hn]; rfl
        unfold findPartial
        rw [RM.bind_def]
        simp only [RM.get, h4]
        rfl
  · rw [if_neg hn]
    refine hreg ?_
    cases hm : μ.block with
    | none => rw [hm] at hb; rw [hb]; rfl
    | some T =>
        rw [hm] at hb
        obtain ⟨b, k, h1, h2, h3⟩ := hb
        rw [h1]
        unfold assoc
        rw [if_neg (fun e => hn e.symm)]
        rfl

theorem withBlock_partials {content : Option STm} {pb : Option Node} (h : ContentRep content pb) {s : RS} {μ : Mood} (hc : Feels μ s) :
    Feels (μ.given content) { s with partials := withBlock pb s.partials } := by
  cases content with
  | none => cases h; exact ⟨hc.1, hc.2, hc.3, hc.4⟩
  | some T =>
      obtain ⟨b, k, rfl, h1, h2⟩ := h
      refine ⟨hc.1, hc.2, ?_, hc.4⟩
      refine ⟨b, k, ?_, h1, h2⟩
      have hb := hc.block
      show assocInsert nmPartialBlock (.block b) s.partials = _
      cases hm : μ.block with
      | none => rw [hm] at hb; rw [hb]; rfl
      | some T' =>
          rw [hm] at hb
          obtain ⟨b', k', h3, _, _⟩ := hb
          rw [h3]
          rfl

theorem partialName_rep {E : Env} {c : Call} {p : SPath} {q : Path} (hq : c.target = .path q) (hr : PathRep p q) (hok : p.ok = true) (S : Sem) (s : RS) :
    partialName S E c s = if p.shown ≠ c!"@partial-block" ∧ Full.plainName p = false then (.err (.partialIdentifier p.shown), s) else (.ok p.shown, s) := by
  unfold partialName
  rw [hq]
  simp only
  rw [orPanic_bind hr.asStr]
  by_cases h1 : p.shown = nmPartialBlock
  · rw [if_pos h1, if_neg (fun h => h.1 h1), h1]; rfl
  · rw [if_neg h1]
    by_cases h2 : q.isSimple = true
    · rw [if_pos h2, if_neg (fun h => by rw [plain_iff.2 ((simple_iff hr (ok_absolute hok)).1 h2)] at h; cases h.2)]; rfl
    · have h3 : Full.plainName p = false := by
        cases hp : Full.plainName p with
        | false => rfl
        | true => exact absurd ((simple_iff hr (ok_absolute hok)).2 (plain_iff.1 hp)) h2
      rw [if_neg h2, if_pos ⟨h1, h3⟩]; rfl

/-- The partial `name`. -/
theorem does_included {get : Str → Option STm} {R : STm → Scene → Mood → Outcome} {E : Env} (hlib : LibRep E get)
    (hnames : ∀ name, (name = c!"@partial-block" ∨ (get name).isSome) → name ∈ names)
    (hR : ∀ Γ x, Room names N Γ → x ∈ names → Γ.calls.contains (.part x) = false → ∀ sc, ∃ M, Room names M ((Γ.enter (.part x)).push sc) ∧ Inner (Room names M) E R)
    {Γ : Scene} {s : RS} {μ : Mood} (hro : Room names N Γ) (ha : At Γ E s) (hc : Feels μ s) {name : Str} {a : SArgs} {c : Call}
    (hargs : ArgsRep a c.args c.params) (haok : a.ok = true)
    {content : Option STm} {pb : Option Node} (hcon : ContentRep content pb) :
    Does (fun n => partialAt (sem n) E c pb name) s Γ E (Full.included ⟨get, R⟩ content name a Γ μ) := by
  have key : ∀ n, partialAt (sem n) E c pb name s =
      if Γ.calls.contains (.part name) then (.err (.partialCycle name), s)
      else finishPartial (partialBody (sem n) E name c pb (s.enter (.part name))) := by
    intro n
    unfold partialAt
    rw [ha.stack]
  unfold Full.included
  cases h2 : Γ.calls.contains (.part name) with
  | true =>
      rw [if_pos rfl]
      exact does_failed (t := s) ⟨by simp [Fault.res], 0, by simp only; rw [key, if_pos h2]; rfl⟩ rfl
  | false =>
      rw [if_neg (by simp)]
      have key : ∀ n, partialAt (sem n) E c pb name s = finishPartial (partialBody (sem n) E name c pb (s.enter (.part name))) := by
        intro n
        rw [key, if_neg (fun h => Bool.noConfusion (h2.symm.trans h))]
      have fin : ∀ (e : Fault) t, Eval (fun n => partialBody (sem n) E name c pb) (s.enter (.part name)) e.res t →
          ∃ u, Eval (fun n => partialAt (sem n) E c pb name) s e.res u ∧ u.out = t.out := by
        rintro e t ⟨g0, n, g1⟩
        refine ⟨t.leave, ⟨res_ne e, n, ?_⟩, rfl⟩
        simp only at g1 ⊢
        rw [key, g1]
        cases e <;> rfl
      have ha1 := at_enter ha (.part name)
      let s1 : RS := { s.enter (.part name) with partials := withBlock pb (s.enter (.part name)).partials }
      have hs1 : At (Γ.enter (.part name)) E s1 := ⟨ha1.1, ha1.2, ha1.3, ha1.4, ha1.5, ha1.6, ha1.7, ha1.8, ha1.9, ha1.10, ha1.11, ha1.12⟩
      have hc1 := withBlock_partials hcon (s := s.enter (.part name)) (μ := μ) ⟨hc.1, hc.2, hc.3, hc.4⟩
      have htrim : (μ.given content).trim = μ.trim := by cases content <;> rfl
      revert hc1 htrim
      generalize μ.given content = ν
      intro hc1 htrim
      have hfind := find_partial (L := ⟨get, R⟩) hlib hc1 name
      have body : ∀ r t, Eval (fun n => (do
            let node ← findPartial E name
            let scope ← partialScope (sem n) E c
            RM.modify (RS.push scope)
            let s ← RM.get
            runEvents (fun ev => (sem n).renderNode E ev.node ev.trim) node.children none s.hint : RM Unit)) s1 r t →
          Eval (fun n => partialBody (sem n) E name c pb) (s.enter (.part name)) r t := by
        intro r t h
        unfold partialBody
        rw [Spec.Eval.step (m := RM.modify fun s => { s with partials := withBlock pb s.partials }) (t := s1) rfl]
        exact h
      cases hf : Library.find ⟨get, R⟩ ν name with
      | none =>
          rw [hf] at hfind
          simp only at hfind
          obtain ⟨u, g1, g2⟩ := fin (.err (.partialNotFound name)) s1 (body _ _ ⟨by simp [Fault.res], 0, by
            simp only
            rw [RM.bind_def, show findPartial E name s1 = _ from hfind]
            rfl⟩)
          exact does_failed g1 g2
      | some T =>
          rw [hf] at hfind
          obtain ⟨node, files, ns, k, g1, g2, g3, g4⟩ := hfind
          let s2 : RS := { s1 with curPartial := files }
          have hs2 : At (Γ.enter (.part name)) E s2 := ⟨hs1.1, hs1.2, hs1.3, hs1.4, hs1.5, hs1.6, hs1.7, hs1.8, hs1.9, hs1.10, hs1.11, hs1.12⟩
          have hc2 : Feels ν s2 := ⟨hc1.1, hc1.2, hc1.3, hc1.4⟩
          have body2 : ∀ r t, Eval (fun n => (do
            let scope ← partialScope (sem n) E c
            RM.modify (RS.push scope)
            let s ← RM.get
            runEvents (fun ev => (sem n).renderNode E ev.node ev.trim) node.children none s.hint : RM Unit)) s2 r t →
            Eval (fun n => partialBody (sem n) E name c pb) (s.enter (.part name)) r t := by
            intro r t h
            refine body r t ?_
            rw [Spec.Eval.step (m := findPartial E name) (t := s2) (a := node) g1]
            exact h
          have hsc := sees_partialScope hargs haok hs2 hc2.trim
          rw [htrim] at hsc
          have heq : (Full.Outcome.after ((Full.named a).eval (Γ.enter (.part name)) μ.trim) fun hs =>
                .after (Full.positional a (Γ.enter (.part name)) μ.trim) fun vs => R T ((Γ.enter (.part name)).push (Full.partialScope vs hs)) ν)
              = .after ((a.tail.eval (Γ.enter (.part name)) μ.trim).bind fun hs => (a.pos (Γ.enter (.part name)) μ.trim).bind fun vs => said (Full.partialScope vs hs))
                fun sc => R T ((Γ.enter (.part name)).push sc) ν := by
            rw [named_eq, positional_eq]
            generalize a.tail.eval (Γ.enter (.part name)) μ.trim = x
            generalize a.pos (Γ.enter (.part name)) μ.trim = y
            obtain ⟨w1, x⟩ := x
            obtain ⟨w2, y⟩ := y
            cases x with
            | error f => rfl
            | ok hs =>
                cases y with
                | error f => rfl
                | ok vs => simp [Full.Outcome.after, Said.bind, said]
          show Does _ s Γ E (Full.Outcome.after ((Full.named a).eval (Γ.enter (.part name)) μ.trim) fun hs =>
                .after (Full.positional a (Γ.enter (.part name)) μ.trim) fun vs => R T ((Γ.enter (.part name)).push (Full.partialScope vs hs)) ν)
          rw [heq]
          revert hsc
          generalize ((a.tail.eval (Γ.enter (.part name)) μ.trim).bind fun hs => (a.pos (Γ.enter (.part name)) μ.trim).bind fun vs => said (Full.partialScope vs hs)) = x
          intro hsc
          obtain ⟨w0, x⟩ := x
          cases x with
          | error f =>
              obtain ⟨t, e1, e2⟩ := hsc
              have e3 := e1.bindFail (g := fun scope n => (do
                RM.modify (RS.push scope)
                let s ← RM.get
                runEvents (fun ev => (sem n).renderNode E ev.node ev.trim) node.children none s.hint : RM Unit)) (res_notOk f)
              rw [res_cast] at e3
              obtain ⟨u, e4, e5⟩ := fin f t (body2 _ _ e3)
              exact ⟨u, e4, by rw [e5, e2]; rfl⟩
          | ok sc =>
              obtain ⟨sc', t, e1, e2, rfl⟩ := hsc
              have hin : name ∈ names := by
                apply hnames
                unfold Full.Library.find at hf
                by_cases hpb : name = c!"@partial-block"
                · exact .inl hpb
                · rw [if_neg hpb] at hf
                  exact .inr (by rw [show get name = some T from hf]; rfl)
              obtain ⟨M, hM, hI⟩ := hR Γ name hro hin h2 sc
              have hat := e2.at hs2
              have hfe := silent_feels e2 hc2
              have hd := hI T ns k ((Γ.enter (.part name)).push sc) (t.push sc) ν g3 g4 hM
                ⟨hat.1, hat.2, hat.3, hat.4, hat.5, hat.6, hat.7, hat.8, hat.9, by show _ :: t.scopes = _ :: _; rw [hat.scopes], hat.11, hat.12⟩
                ⟨hfe.1, hfe.2, hfe.3, hfe.4⟩
              have run : ∀ r u, Eval (fun n => runEvents (fun ev => (sem n).renderNode E ev.node ev.trim) ns none (t.push sc).hint) (t.push sc) r u →
                  Eval (fun n => partialBody (sem n) E name c pb) (s.enter (.part name)) r u := by
                intro r u h
                refine body2 r u (e1.bindOk (mono_partialScope _ _) (fun _ => .bind (.const _) fun _ => .bind (.const _) fun _ => mono_runEvents (fun _ => mono_renderNode _ _ _) _ _ _) ?_)
                rw [Spec.Eval.step (m := RM.modify _) rfl, Spec.Eval.step (m := RM.get) rfl, g2]
                exact h
              have hout : outText (t.push sc).out = outText s.out ++ w0 := e2.out
              unfold Full.Outcome.after
              simp only
              revert hd
              generalize R T ((Γ.enter (.part name)).push sc) ν = o
              obtain ⟨w, e⟩ := o
              cases e with
              | error e =>
                  rintro ⟨u, f1, f2⟩
                  obtain ⟨u', f3, f4⟩ := fin e u (run _ _ f1)
                  exact ⟨u', f3, by rw [f4, f2, hout, List.append_assoc]⟩
              | ok ν' =>
                  rintro ⟨_, u, f1, f2, f3, f4⟩
                  obtain ⟨_, n, f5⟩ := run _ _ f1
                  refine ⟨(), u.leavePartial, ⟨by simp, n, ?_⟩, ?_, ⟨f3.1, f3.2, f3.3, f3.4⟩, by rw [show u.leavePartial.out = u.out from rfl, f4, hout, List.append_assoc]⟩
                  · simp only at f5 ⊢
                    rw [key, f5]
                    rfl
                  · exact ⟨f2.1, f2.2, f2.3, f2.4, f2.5, f2.6, f2.7, f2.8, f2.9, by show u.scopes.tail = _; rw [f2.scopes]; rfl,
                      by show u.stack.tail = _; rw [f2.stack]; rfl, f2.12⟩

/-- A partial called by its name. -/
theorem does_partial {L : Library} {E : Env} {Γ : Scene} {s : RS} {μ : Mood} {p : SPath} {a : SArgs} {c : Call} {q : Path}
    (hq : c.target = .path q) (hr : PathRep p q) (hok : p.ok = true) {content : Option STm} {pb : Option Node}
    (hI : ∀ name, Does (fun n => partialAt (sem n) E c pb name) s Γ E (Full.included L content name a Γ μ)) :
    Does (fun n => renderPartial (sem n) E c pb) s Γ E (Full.partialCall L content p a Γ μ) := by
  unfold Full.partialCall
  by_cases h1 : p.shown ≠ c!"@partial-block" ∧ Full.plainName p = false
  · rw [if_pos h1]
    exact does_failed (t := s) ⟨by simp [Fault.res], 0, by simp only; rw [renderPartial_eq, RM.bind_def, partialName_rep hq hr hok, if_pos h1]; rfl⟩ rfl
  · rw [if_neg h1]
    exact (hI p.shown).congr fun n => by rw [renderPartial_eq, RM.bind_def, partialName_rep hq hr hok, if_neg h1]

theorem mono_partialAt (E : Env) (c : Call) (pb : Option Node) (name : Str) : MonoF fun n => partialAt (sem n) E c pb name := by
  intro n m h s
  have hb : MonoF fun n => partialBody (sem n) E name c pb := by
    unfold partialBody
    exact .bind (.const _) fun _ => .bind (.const _) fun _ => .bind (mono_partialScope _ _) fun _ => .bind (.const _) fun _ => .bind (.const _) fun _ =>
      mono_runEvents (fun _ => mono_renderNode _ _ _) _ _ _
  unfold partialAt
  simp only
  split
  · exact .inr rfl
  · rcases hb n m h (s.enter (.part name)) with h1 | h1
    · left
      simp only at h1
      generalize partialBody (sem n) E name c pb (s.enter (.part name)) = x at h1 ⊢
      obtain ⟨r, t⟩ := x
      cases h1
      rfl
    · right
      simp only at h1
      rw [h1]

/-- A partial whose name is computed. -/
theorem does_computed {L : Library} {E : Env} {Γ : Scene} {s : RS} (ha : At Γ E s) {μ : Mood} (hc : Feels μ s) {q : SPath} {b a : SArgs} (hqok : q.ok = true) (hbok : b.ok = true)
    {c d : Call} (ht : c.target = .subExpr d) (hd : ExprRep (.sub q b) (.subExpr d))
    (hI : ∀ t name, At Γ E t → Feels μ t → Does (fun n => partialAt (sem n) E c none name) t Γ E (Full.included L none name a Γ μ)) :
    Does (fun n => renderPartial (sem n) E c none) s Γ E (Full.computedCall L q b a Γ μ) := by
  unfold Full.computedCall
  cases hd with
  | sub e1 e2 e3 e4 e5 e6 =>
      have key : ∀ n u, renderPartial (sem n) E c none u =
          ((sem n).statement E d >>= fun v => partialAt (sem n) E c none (stringify (v.getD .null))) u := by
        intro n u
        rw [renderPartial_eq, RM.bind_def, RM.bind_def]
        unfold partialName
        rw [ht]
        simp only
        rw [RM.bind_def]
        generalize (sem n).statement E d u = y
        obtain ⟨r, w⟩ := y
        cases r <;> rfl
      refine Does.congr (fun n => key n s) ?_
      have hs := (sees_call ha hc.trim e2 hqok e1 (argsSee e3 hbok)).map (f := fun n => (sem n).statement E d) fun r u h => (evaluates_callF e4).2 h
      refine Does.after (g := fun v n => partialAt (sem n) E c none (stringify (v.getD .null))) (mono_statement E d) (fun _ => mono_partialAt E c none _) hs ?_
      rintro v _ t h2 rfl
      exact hI t _ (h2.at ha) (silent_feels h2 hc)

end

end

end Bracket.Props.Whole
