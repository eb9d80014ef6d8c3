import Verif.Spec.Terminates
import Verif.Spec.Calls
import Verif.Lemmas.Write
import Verif.Lemmas.Basic
import Verif.Lemmas.ExHost
import Verif.Props.ParserTotal

/-! C26: every render finishes. -/

set_option linter.unusedSectionVars false
set_option linter.unusedVariables false

/-! ### Composition -/

namespace Bracket.Spec.Finishes
variable {α β : Type}

theorem of_eq {f : Nat → RM α} {s t : RS} {r : Res α} (hr : r ≠ .fuel) (h : ∀ n, f n s = (r, t)) :
    Finishes f s := ⟨r, t, hr, 0, fun n _ => h n⟩

theorem pure (a : α) (s : RS) : Finishes (fun _ => (Pure.pure a : RM α)) s := of_eq (by simp) fun _ => rfl
theorem fail (e : RenderErr) (s : RS) : Finishes (fun _ => (RM.fail e : RM α)) s := of_eq (by simp) fun _ => rfl
theorem panic (s : RS) : Finishes (fun _ => (RM.panic : RM α)) s := of_eq (by simp) fun _ => rfl
theorem orPanic (o : Option α) (s : RS) : Finishes (fun _ => RM.orPanic o) s := by
  cases o with
  | none => exact of_eq (by simp) fun _ => rfl
  | some a => exact of_eq (by simp) fun _ => rfl
theorem modify (f : RS → RS) (s : RS) : Finishes (fun _ => RM.modify f) s := of_eq (by simp) fun _ => rfl
theorem get (s : RS) : Finishes (fun _ => RM.get) s := of_eq (by simp) fun _ => rfl
theorem lookupM (E : Env) (p : Path) (s : RS) : Finishes (fun _ => lookupM E p) s := by
  have := orPanic (Bracket.lookup E.root s.scopes p) s
  exact this
theorem rawWrite (E : Env) (c : Str) (s : RS) : Finishes (fun _ => rawWrite E c) s := of_eq (by simp) fun _ => rfl
theorem writeStr (E : Env) (c : Str) (b : Bool) (s : RS) : Finishes (fun _ => writeStr E c b) s := by
  refine of_eq (r := (Bracket.writeStr E c b s).1) (t := (Bracket.writeStr E c b s).2) ?_ fun _ => rfl
  rw [writeStr_eq]
  split
  · simp
  · cases E.sink s.out (chunkOf E s c b) <;> simp [writeRes]

/-- The next recursion level. -/
theorem shift {f : Nat → RM α} {s : RS} (h : Finishes (fun n => f (n + 1)) s) : Finishes f s := by
  obtain ⟨r, t, hr, N, h⟩ := h
  exact ⟨r, t, hr, N + 1, fun n hn => by
    obtain ⟨k, rfl⟩ : ∃ k, n = k + 1 := ⟨n - 1, by omega⟩
    exact h k (by omega)⟩

theorem bind {m : Nat → RM α} {f : Nat → α → RM β} {s : RS} (hm : Finishes m s)
    (hf : ∀ n a t, m n s = (.ok a, t) → Finishes (fun n => f n a) t) :
    Finishes (fun n => m n >>= f n) s := by
  obtain ⟨r, t, hr, N, h⟩ := hm
  cases r with
  | ok a =>
      obtain ⟨r', t', hr', N', h'⟩ := hf N a t (h N (Nat.le_refl _))
      refine ⟨r', t', hr', N + N', fun n hn => ?_⟩
      show (m n >>= f n) s = _
      rw [RM.bind_def, h n (by omega)]
      exact h' n (by omega)
  | err e => exact ⟨.err e, t, by simp, N, fun n hn => by
      show (m n >>= f n) s = _
      rw [RM.bind_def, h n hn]⟩
  | panic => exact ⟨.panic, t, by simp, N, fun n hn => by
      show (m n >>= f n) s = _
      rw [RM.bind_def, h n hn]⟩
  | fuel => exact (hr rfl).elim

theorem catchErr {m : Nat → RM α} {f : Nat → Except RenderErr α → RM β} {s : RS} (hm : Finishes m s)
    (hf : ∀ n a t, (m n s).2 = t → Finishes (fun n => f n a) t) :
    Finishes (fun n => RM.catchErr (m n) (f n)) s := by
  obtain ⟨r, t, hr, N, h⟩ := hm
  have ht : (m N s).2 = t := by rw [h N (Nat.le_refl _)]
  cases r with
  | ok a =>
      obtain ⟨r', t', hr', N', h'⟩ := hf N (.ok a) t ht
      refine ⟨r', t', hr', N + N', fun n hn => ?_⟩
      show RM.catchErr (m n) (f n) s = _
      unfold RM.catchErr
      rw [h n (by omega)]
      exact h' n (by omega)
  | err e =>
      obtain ⟨r', t', hr', N', h'⟩ := hf N (.error e) t ht
      refine ⟨r', t', hr', N + N', fun n hn => ?_⟩
      show RM.catchErr (m n) (f n) s = _
      unfold RM.catchErr
      rw [h n (by omega)]
      exact h' n (by omega)
  | panic => exact ⟨.panic, t, by simp, N, fun n hn => by
      show RM.catchErr (m n) (f n) s = _
      unfold RM.catchErr
      rw [h n hn]⟩
  | fuel => exact (hr rfl).elim

theorem nested {m : Nat → RM Unit} {i s : RS} (h : Finishes m { i with logs := s.logs, trace := s.trace }) :
    Finishes (fun n => nested i (m n)) s := by
  obtain ⟨r, t, hr, N, h⟩ := h
  refine ⟨(Bracket.nested i (m N) s).1, (Bracket.nested i (m N) s).2, ?_, N, fun n hn => ?_⟩
  · unfold Bracket.nested
    rw [h N (Nat.le_refl _)]
    cases r with
    | fuel => exact (hr rfl).elim
    | _ => simp
  · show Bracket.nested i (m n) s = Bracket.nested i (m N) s
    unfold Bracket.nested
    rw [h N (Nat.le_refl _), h n hn]

/-- A total transformation of the outcome keeps finishing. -/
theorem map {m : Nat → RM α} {s s' : RS} {g : Res α × RS → Res β × RS}
    (hg : ∀ r t, r ≠ .fuel → (g (r, t)).1 ≠ .fuel) (h : Finishes m s') :
    Finishes (fun n => fun _ => g (m n s')) s := by
  obtain ⟨r, t, hr, N, h⟩ := h
  refine ⟨(g (r, t)).1, (g (r, t)).2, hg r t hr, N, fun n hn => ?_⟩
  show g (m n s') = _
  rw [h n hn]

end Bracket.Spec.Finishes

namespace Bracket.Props
open Spec

/-! ### The room left on the call stack -/

/-- How many more calls of the given sites fit on the stack. -/
def room (U : List CallSite) (stack : List CallSite) : Nat :=
  (U.map fun x => nestingLimit x - stack.count x).sum

theorem room_suffix (U : List CallSite) {a b : List CallSite} (h : a <:+ b) : room U b ≤ room U a := by
  unfold room
  induction U with
  | nil => simp
  | cons x U ih =>
      have := h.sublist.count_le x
      simp only [List.map_cons, List.sum_cons]
      omega

theorem room_push {U : List CallSite} {site : CallSite} {stack : List CallSite} (hm : site ∈ U)
    (h : stack.count site < nestingLimit site) : room U (site :: stack) < room U stack := by
  unfold room
  induction U with
  | nil => cases hm
  | cons x U ih =>
      simp only [List.map_cons, List.sum_cons]
      have hle : room U (site :: stack) ≤ room U stack := room_suffix U (List.suffix_cons _ _)
      unfold room at hle
      by_cases hx : site = x
      · subst hx
        rw [List.count_cons_self]
        omega
      · have hU : site ∈ U := by
          rcases List.mem_cons.1 hm with h | h
          · exact (hx h).elim
          · exact h
        have := ih hU
        rw [List.count_cons_of_ne (by simpa using hx)]
        omega

/-- The names of all entries of a map. -/
def keysOf {β : Type} (l : List (Str × β)) : List Str := l.map (·.1)

theorem mem_keysOf {β : Type} {n : Str} {v : β} {l : List (Str × β)} (h : assoc n l = some v) : n ∈ keysOf l :=
  List.mem_map.2 ⟨(n, v), assoc_mem h, rfl⟩

/-- The helper names that can be called. -/
def helperNames (L : List Str) (reg : Reg) : List Str :=
  keysOf reg.helpers ++ L ++ [nmHelperMissing, nmBlockHelperMissing, nmLink]

/-- Everything that can be called. -/
def sites (L : List Str) (reg : Reg) : List CallSite :=
  (nmPartialBlock :: keysOf reg.templates).map .part ++ (helperNames L reg).map .helper ++
    (helperNames L reg).map .block

theorem siteOf_mem {L : List Str} {reg : Reg} {name : Str} (h : name ∈ helperNames L reg) (content : Option Node) :
    siteOf name content ∈ sites L reg := by
  unfold siteOf sites
  cases content with
  | none => exact List.mem_append_left _ (List.mem_append_right _ (List.mem_map.2 ⟨name, h, rfl⟩))
  | some n => exact List.mem_append_right _ (List.mem_map.2 ⟨name, h, rfl⟩)

/-! ### The invariant -/

/-- Local helpers have names in `L` and stay within `L`; only `@partial-block` is a block partial. -/
structure TermOk (L : List Str) (s : RS) : Prop where
  locals : ∀ n h, assoc n s.locals = some h → n ∈ L ∧ WithinHelper L h
  partials : ∀ n, n ≠ nmPartialBlock → assoc n s.partials = none

theorem TermOk.of_eq {L : List Str} {s t : RS} (h : TermOk L s) (e : t.locals = s.locals)
    (e' : t.partials = s.partials) : TermOk L t := ⟨by rw [e]; exact h.locals, by rw [e']; exact h.partials⟩

def termRel (L : List Str) : Rel := ⟨TermOk L, fun _ s t => s.stack <:+ t.stack⟩

theorem tail_suffix_of {a : CallSite} {l m : List CallSite} (h : a :: l <:+ m) : l <:+ m.tail := by
  obtain ⟨p, rfl⟩ := h
  cases p with
  | nil => exact List.suffix_refl _
  | cons b p => exact ⟨p ++ [a], by simp⟩

theorem suffix_of_cons' {a : CallSite} {l m : List CallSite} (h : a :: l <:+ m) : l <:+ m := by
  obtain ⟨p, rfl⟩ := h
  exact ⟨p ++ [a], by simp⟩

def termPlain (L : List Str) (reg : Reg) : PlainBase reg where
  toRel := termRel L
  refl := fun _ _ => List.suffix_refl _
  trans := fun h h' => h.trans h'
  minor := fun {s s'} hs h => ⟨⟨by rw [h.locals]; exact hs.locals,
    fun n hn => by rw [h.partials n hn]; exact hs.partials n hn⟩, by
      show s.stack <:+ s'.stack
      rw [h.stack]; exact List.suffix_refl _⟩
  enterCall := fun hs _ => hs.of_eq rfl rfl
  enterPartial := fun hs _ => hs.of_eq rfl rfl
  leaveOk := fun _ hr ht => ⟨ht.of_eq rfl rfl, tail_suffix_of hr⟩
  leaveErr := fun _ hr ht => ⟨ht.of_eq rfl rfl, suffix_of_cons' hr⟩
  push := fun hs => hs.of_eq rfl rfl
  pushErr := fun h => h
  leavePartial := fun _ hr _ hr' hu => ⟨hu.of_eq rfl rfl, tail_suffix_of (hr.trans hr')⟩
  inner := fun hs => ⟨fun n h e => by simp [RS.inner, RS.init, assoc] at e,
    fun n _ => by simp [RS.inner, RS.init, assoc]⟩
  after := fun hs _ _ => ⟨hs.of_eq rfl rfl, List.suffix_refl _⟩

def termBase (L : List Str) (reg : Reg) : FrameBase reg := (termPlain L reg).toBase

section
variable [Host]

/-- A body that stays within `L` keeps the invariant. -/
theorem within_ok {L : List Str} {reg : Reg} {S : Sem} (H : (termRel L).SemOk reg S) {E : Env} (hE : E.reg = reg)
    (p : Prog) : Within L p → (termRel L).Ok (run S E p) := by
  let F := termBase L reg
  have hc : ∀ {α : Type} {m : RM α} {f : Except RenderErr α → RM (Option Value)} {s : RS},
      F.I s → F.OkAt m s → (∀ x, F.Ok (f x)) → F.OkAt (RM.catchErr m f) s := by
    intro α m f s hs hm hf
    refine F.catchErr hm (fun a t _ ht => hf _ t ht) ?_
    intro e t _ ht hr
    have := hf (.error e) t ht
    exact ⟨this.1, F.trans hr this.2⟩
  have hmod : ∀ {s t : RS}, TermOk L s → TermOk L t → t.stack = s.stack → F.I t ∧ F.R true s t := by
    intro s t hs ht e
    refine ⟨ht, ?_⟩
    show s.stack <:+ t.stack
    rw [e]; exact List.suffix_refl _
  induction p with
  | ret v => exact fun _ s hs => F.pure _ hs
  | fail e => exact fun _ s hs => F.fail _ hs
  | panic => exact fun _ s hs => F.panic hs
  | write c k ih => intro h s hs; unfold run; exact hc hs (F.writeStr E _ _ s hs) fun r => ih _ (h _)
  | writeEscaped c k ih => intro h s hs; unfold run; exact hc hs (F.writeStr E _ _ s hs) fun r => ih _ (h _)
  | outWrite c k ih => intro h s hs; unfold run; exact F.bind (F.rawWrite E _ s hs) fun r t _ ht => ih _ (h _) t ht
  | template n k ih => intro h s hs; unfold run; exact hc hs (F.template H hE n s hs) fun r => ih _ (h _)
  | render n k ih => intro h s hs; unfold run; exact hc hs (F.renderAll H hE n s hs) fun r => ih _ (h _)
  | inverse n k ih => intro h s hs; unfold run; exact hc hs (F.inverse H hE n s hs) fun r => ih _ (h _)
  | buffer n k ih => intro h s hs; unfold run; exact hc hs (F.buffer H hE n s hs) fun r => ih _ (h _)
  | once f c d k ih =>
      intro h s hs; unfold run; exact F.bind (F.once H hE f c d s hs) fun r t _ ht => ih _ (h _) t ht
  | evaluate p k ih =>
      intro h s hs; unfold run; exact F.bind (F.evaluate E p s hs) fun r t _ ht => ih _ (h _) t ht
  | pushScope sc k ih =>
      intro h s hs; unfold run
      exact F.bind (hmod hs (hs.of_eq rfl rfl) rfl) fun _ t _ ht => ih h t ht
  | popScope k ih =>
      intro h s hs; unfold run
      exact F.getBind (F.bind (hmod hs (hs.of_eq rfl rfl) rfl) fun _ t _ ht => ih _ (h _) t ht)
  | scopeMut f k ih =>
      intro h s hs; unfold run
      refine F.getBind (F.bind ?_ fun _ t _ ht => ih _ (h _) t ht)
      unfold Rel.OkAt RM.modify
      cases hsc : s.scopes with
      | nil => simp only [hsc]; exact ⟨hs, F.refl _ _⟩
      | cons sc r => simp only [hsc]; exact hmod hs (hs.of_eq rfl rfl) rfl
  | registerLocal n g k ih1 ih2 =>
      intro h s hs; unfold run
      refine F.bind (hmod hs ⟨?_, hs.partials⟩ rfl) fun _ t _ ht => ih2 h.2.2 t ht
      intro m f hf
      change assoc m (assocInsert n g s.locals) = some f at hf
      by_cases hm : m = n
      · subst hm; rw [assoc_insert_self] at hf; cases hf; exact ⟨h.1, h.2.1⟩
      · rw [assoc_insert_ne _ _ hm] at hf; exact hs.locals m f hf
  | unregisterLocal n k ih =>
      intro h s hs; unfold run
      refine F.bind (hmod hs ⟨?_, hs.partials⟩ rfl) fun _ t _ ht => ih h t ht
      intro m f hf
      change assoc m (assocErase n s.locals) = some f at hf
      by_cases hm : m = n
      · subst hm; rw [assoc_erase_self] at hf; cases hf
      · rw [assoc_erase_ne _ hm] at hf; exact hs.locals m f hf
  | peek k ih => intro h s hs; unfold run; exact F.getBind (ih _ (h _) s hs)
  | log l m k ih =>
      intro h s hs; unfold run
      exact F.bind (hmod hs (hs.of_eq rfl rfl) rfl) fun _ t _ ht => ih h t ht

theorem term_findPartial {L : List Str} (E : Env) (name : Str) : (termRel L).Ok (findPartial E name) := by
  intro s hs
  unfold Rel.OkAt findPartial
  rw [RM.bind_def]
  simp only [RM.get]
  cases assoc name s.partials with
  | some n => exact ⟨hs, List.suffix_refl _⟩
  | none =>
      cases assoc name E.reg.templates with
      | some t => exact ⟨hs.of_eq rfl rfl, List.suffix_refl _⟩
      | none => exact ⟨hs, List.suffix_refl _⟩

theorem isHelper_within {L : List Str} {reg : Reg} (hr : WithinReg L reg) {h : HelperFn} (hh : IsHelper reg h) :
    WithinHelper L h := by
  rcases hh with ⟨n, e⟩ | e | e | e
  · exact hr.helpers n h e
  · exact hr.link h e
  · exact hr.helperMissing h e
  · exact hr.blockHelperMissing h e

def termFrame (L : List Str) (reg : Reg) (hr : WithinReg L reg) : Frame reg where
  toFrameBase := termBase L reg
  helper := fun S H E hE h hh ctx content => within_ok H hE _ (isHelper_within hr hh ctx content)
  localHelper := fun S H E hE s hs n h e ctx content => within_ok H hE _ ((hs.locals n h e).2 ctx content)

/-! ### The induction -/

variable {L : List Str} {reg : Reg} (hr : WithinReg L reg)

/-- Every node, statement and call finishes from states with at most `k` room. -/
structure AllFinish (L : List Str) (reg : Reg) (k : Nat) : Prop where
  node : ∀ E, E.reg = reg → ∀ s, TermOk L s → room (sites L reg) s.stack ≤ k →
    ∀ node trim, Finishes (fun n => (sem n).renderNode E node trim) s
  statement : ∀ E, E.reg = reg → ∀ s, TermOk L s → room (sites L reg) s.stack ≤ k →
    ∀ c, Finishes (fun n => (sem n).statement E c) s
  call : ∀ E, E.reg = reg → ∀ s, TermOk L s → room (sites L reg) s.stack ≤ k →
    ∀ c, Finishes (fun n => (sem n).call E c) s

theorem AllFinish.mono {k j : Nat} (h : AllFinish L reg k) (hj : j ≤ k) : AllFinish L reg j :=
  ⟨fun E hE s hs hk => h.node E hE s hs (Nat.le_trans hk hj), fun E hE s hs hk => h.statement E hE s hs (Nat.le_trans hk hj),
   fun E hE s hs hk => h.call E hE s hs (Nat.le_trans hk hj)⟩

/-- A state reached from `s` that has no more room. -/
structure From (L : List Str) (reg : Reg) (s t : RS) : Prop where
  ok : TermOk L t
  le : room (sites L reg) t.stack ≤ room (sites L reg) s.stack

theorem From.of {m : RM α} {s : RS} (h : (termRel L).OkAt m s) : From L reg s (m s).2 :=
  ⟨h.1, room_suffix _ h.2⟩

section
include hr

theorem fin_bind {α β : Type} {m : Nat → RM α} {f : Nat → α → RM β} {s : RS} (hs : TermOk L s)
    (hm : Finishes m s) (hok : ∀ n, (termRel L).Ok (m n))
    (hf : ∀ a t, From L reg s t → Finishes (fun n => f n a) t) : Finishes (fun n => m n >>= f n) s := by
  refine hm.bind fun n a t e => hf a t ?_
  have := From.of (reg := reg) (hok n s hs)
  rw [e] at this
  exact this

theorem fin_catch {α β : Type} {m : Nat → RM α} {f : Nat → Except RenderErr α → RM β} {s : RS} (hs : TermOk L s)
    (hm : Finishes m s) (hok : ∀ n, (termRel L).Ok (m n))
    (hf : ∀ a t, From L reg s t → Finishes (fun n => f n a) t) : Finishes (fun n => RM.catchErr (m n) (f n)) s := by
  refine hm.catchErr fun n a t e => hf a t ?_
  have := From.of (reg := reg) (hok n s hs)
  rw [e] at this
  exact this

theorem From.trans {s t u : RS} (h : From L reg s t) (h' : From L reg t u) : From L reg s u :=
  ⟨h'.ok, Nat.le_trans h'.le h.le⟩

theorem fin_runEvents {f : Nat → Ev → RM Unit} {s : RS} (hs : TermOk L s) (hok : ∀ n ev, (termRel L).Ok (f n ev))
    (ns : List Node) :
    (∀ ev : Ev, ev.node ∈ ns → ∀ t, From L reg s t → Finishes (fun n => f n ev) t) →
    ∀ prev hint t, From L reg s t → Finishes (fun n => runEvents (f n) ns prev hint) t := by
  induction ns with
  | nil => intro _ _ _ t _; exact Finishes.pure _ _
  | cons x rest ih =>
      intro hf prev hint t ht
      unfold runEvents
      refine fin_bind hr ht.ok ?_ (fun n => (termBase L reg).nextBefore ((termFrame L reg hr).semOk n) rest) fun _ u hu => ?_
      · cases rest with
        | nil => exact Finishes.pure _ _
        | cons y _ => exact (Finishes.orPanic _ _).bind fun _ _ _ _ => Finishes.pure _ _
      refine fin_bind hr hu.ok (Finishes.orPanic _ _) (fun n s hs => (termBase L reg).orPanic _ hs) fun _ v hv => ?_
      have h1 := (ht.trans hr hu).trans hr hv
      refine fin_bind hr hv.ok (hf _ (by simp) v h1) (fun n => hok n _) fun _ w hw => ?_
      exact ih (fun ev hev => hf ev (List.mem_cons_of_mem _ hev)) _ _ w (h1.trans hr hw)

/-- The frame of the renderer at every depth. -/
theorem sem_ok (n : Nat) : (termRel L).SemOk reg (sem n) := (termFrame L reg hr).semOk n

theorem fin_template {E : Env} (hE : E.reg = reg) {s : RS} (hs : TermOk L s) (node : Node)
    (h : ∀ c ∈ node.children, ∀ t, From L reg s t → ∀ tr, Finishes (fun n => (sem n).renderNode E c tr) t) :
    Finishes (fun n => template (sem n) E node) s := by
  unfold template
  refine fin_bind hr hs (Finishes.get _) (fun n s hs => ⟨hs, List.suffix_refl _⟩) fun st t ht => ?_
  refine fin_bind hr ht.ok ?_ (fun n => (termBase L reg).runEvents (sem_ok hr n)
    (fun ev => (termBase L reg).templateEvent (sem_ok hr n) hE node ev) _ _ _) fun _ u hu => ?_
  · refine fin_runEvents hr hs (fun n ev => (termBase L reg).templateEvent (sem_ok hr n) hE node ev) _ ?_ _ _ t ht
    intro ev hev u hu
    unfold templateEvent
    refine fin_bind hr hu.ok ?_ ?_ fun _ v hv => ?_
    · unfold firstHint
      by_cases hfst : ev.first = true
      · simp only [hfst, if_true]; exact Finishes.orPanic _ _
      · simp only [hfst]; exact Finishes.pure _ _
    · intro n s hs
      unfold firstHint; split
      · exact (termBase L reg).orPanic _ hs
      · exact (termBase L reg).pure _ hs
    refine fin_bind hr hv.ok ?_ ?_ fun _ w hw => ?_
    · unfold lastHint
      cases node with
      | block b =>
          by_cases hl : ev.last = true
          · simp only [hl, if_true]; exact Finishes.orPanic _ _
          · simp only [hl]; exact Finishes.pure _ _
      | _ => exact Finishes.pure _ _
    · intro n s hs
      unfold lastHint
      cases node with
      | block b =>
          simp only
          split
          · exact (termBase L reg).orPanic _ hs
          · exact (termBase L reg).pure _ hs
      | _ => exact (termBase L reg).pure _ hs
    exact h _ hev w ((hu.trans hr hv).trans hr hw) _
  refine fin_bind hr hu.ok (Finishes.orPanic _ _) (fun n s hs => (termBase L reg).orPanic _ hs) fun _ v hv => ?_
  exact Finishes.modify _ _

variable {k : Nat} (A : AllFinish L reg k)
include A

theorem fin_renderAll {E : Env} (hE : E.reg = reg) {s : RS} (hs : TermOk L s)
    (hk : room (sites L reg) s.stack ≤ k) (node : Node) : Finishes (fun n => renderAll (sem n) E node) s := by
  unfold renderAll
  refine fin_runEvents hr hs (fun n ev => (sem_ok hr n).renderNode E hE _ _) _ ?_ _ _ s ⟨hs, Nat.le_refl _⟩
  intro ev _ t ht
  exact A.node E hE t ht.ok (Nat.le_trans ht.le hk) _ _

theorem fin_templateA {E : Env} (hE : E.reg = reg) {s : RS} (hs : TermOk L s)
    (hk : room (sites L reg) s.stack ≤ k) (node : Node) : Finishes (fun n => template (sem n) E node) s :=
  fin_template hr hE hs node fun _ _ t ht tr => A.node E hE t ht.ok (Nat.le_trans ht.le hk) _ tr

theorem fin_inverse {E : Env} (hE : E.reg = reg) {s : RS} (hs : TermOk L s)
    (hk : room (sites L reg) s.stack ≤ k) (node : Node) : Finishes (fun n => inverse (sem n) E node) s := by
  unfold inverse
  cases node with
  | block b =>
      simp only
      suffices ∀ l alt s, TermOk L s → room (sites L reg) s.stack ≤ k →
        Finishes (fun n => inverseLoop (sem n) E l alt) s from this _ _ s hs hk
      intro l
      induction l with
      | nil => intro alt s _ _; exact Finishes.pure _ _
      | cons x l ih =>
          intro alt s hs hk
          cases x with
          | block c =>
              unfold inverseLoop
              split
              · exact ih _ s hs hk
              · refine fin_bind hr hs (A.call E hE s hs hk _) (fun n => (sem_ok hr n).call E hE _) fun v t ht => ?_
                cases v with
                | none => exact ih _ t ht.ok (Nat.le_trans ht.le hk)
                | some v =>
                    simp only
                    split
                    · exact Finishes.pure _ _
                    · exact ih _ t ht.ok (Nat.le_trans ht.le hk)
          | _ => unfold inverseLoop; exact ih _ s hs hk
  | _ => exact Finishes.pure _ _

theorem fin_run {E : Env} (hE : E.reg = reg) (p : Prog) :
    Within L p → ∀ {s : RS}, TermOk L s → room (sites L reg) s.stack ≤ k →
    Finishes (fun n => run (sem n) E p) s := by
  let F := termBase L reg
  induction p with
  | ret v => intro _ s _ _; exact Finishes.pure _ _
  | fail e => intro _ s _ _; exact Finishes.fail _ _
  | panic => intro _ s _ _; exact Finishes.panic _
  | write c kk ih =>
      intro h s hs hk; unfold run
      exact fin_catch hr hs (Finishes.writeStr _ _ _ _) (fun n => F.writeStr E _ _)
        fun r t ht => ih _ (h _) ht.ok (Nat.le_trans ht.le hk)
  | writeEscaped c kk ih =>
      intro h s hs hk; unfold run
      exact fin_catch hr hs (Finishes.writeStr _ _ _ _) (fun n => F.writeStr E _ _)
        fun r t ht => ih _ (h _) ht.ok (Nat.le_trans ht.le hk)
  | outWrite c kk ih =>
      intro h s hs hk; unfold run
      exact fin_bind hr hs (Finishes.rawWrite _ _ _) (fun n => F.rawWrite E _)
        fun r t ht => ih _ (h _) ht.ok (Nat.le_trans ht.le hk)
  | template nd kk ih =>
      intro h s hs hk; unfold run
      exact fin_catch hr hs (fin_templateA hr A hE hs hk nd) (fun n => F.template (sem_ok hr n) hE nd)
        fun r t ht => ih _ (h _) ht.ok (Nat.le_trans ht.le hk)
  | render nd kk ih =>
      intro h s hs hk; unfold run
      exact fin_catch hr hs (fin_renderAll hr A hE hs hk nd) (fun n => F.renderAll (sem_ok hr n) hE nd)
        fun r t ht => ih _ (h _) ht.ok (Nat.le_trans ht.le hk)
  | inverse nd kk ih =>
      intro h s hs hk; unfold run
      exact fin_catch hr hs (fin_inverse hr A hE hs hk nd) (fun n => F.inverse (sem_ok hr n) hE nd)
        fun r t ht => ih _ (h _) ht.ok (Nat.le_trans ht.le hk)
  | buffer nd kk ih =>
      intro h s hs hk; unfold run
      refine fin_catch hr hs ?_ (fun n => F.buffer (sem_ok hr n) hE nd)
        fun r t ht => ih _ (h _) ht.ok (Nat.le_trans ht.le hk)
      have := fin_templateA hr A (E := { E with sink := stringSink }) hE
        (s := s.inner s.scopes) (F.inner hs) hk nd
      exact this.nested (i := { RS.init s.stack with scopes := s.scopes })
  | once f c d kk ih =>
      intro h s hs hk; unfold run
      refine fin_bind hr hs ?_ (fun n => F.once (sem_ok hr n) hE f c d)
        fun r t ht => ih _ (h _) ht.ok (Nat.le_trans ht.le hk)
      unfold once
      refine (Finishes.get s).bind fun _ st t e => ?_
      cases e
      have hfu := C03_compile c ⟨f, 0, 0⟩
      revert hfu
      cases compile c ⟨f, 0, 0⟩ with
      | ok doc =>
          intro _
          simp only
          have := fin_renderAll hr A (E := { E with name := f, root := d, sink := stringSink }) hE
            (s := s.inner []) (F.inner hs) hk doc
          exact (this.nested (i := RS.init s.stack)).catchErr fun _ a t _ => Finishes.pure _ _
      | err e => intro _; exact Finishes.pure _ _
      | panic => intro _; exact Finishes.panic _
      | fuel => intro h; exact (h rfl).elim
  | evaluate p kk ih =>
      intro h s hs hk; unfold run
      refine fin_bind hr hs ?_ (fun n => F.evaluate E p)
        fun r t ht => ih _ (h _) ht.ok (Nat.le_trans ht.le hk)
      unfold evaluate
      have hfu := C03_evaluate p
      revert hfu
      cases pathFromStr p with
      | ok o =>
          intro _
          cases o with
          | none => exact Finishes.pure _ _
          | some q => exact (Finishes.lookupM E q s).bind fun _ _ _ _ => Finishes.pure _ _
      | err e => intro _; exact Finishes.pure _ _
      | panic => intro _; exact Finishes.panic _
      | fuel => intro h; exact (h rfl).elim
  | pushScope sc kk ih =>
      intro h s hs hk
      have := ih h (s := { s with scopes := sc :: s.scopes }) (hs.of_eq rfl rfl) hk
      exact (Finishes.modify _ s).bind fun _ _ t e => by cases e; exact this
  | popScope kk ih =>
      intro h s hs hk
      have := ih s.scopes.head? (h _) (s := { s with scopes := s.scopes.tail }) (hs.of_eq rfl rfl) hk
      exact (Finishes.get s).bind fun _ st t e => by
        cases e
        exact (Finishes.modify _ s).bind fun _ _ t e => by cases e; exact this
  | scopeMut f kk ih =>
      intro h s hs hk
      unfold run
      refine (Finishes.get s).bind fun _ st t e => ?_
      cases e
      refine (Finishes.modify _ s).bind fun _ _ t e => ?_
      cases e
      refine ih _ (h _) ?_ ?_
      · dsimp only
        split
        · exact hs
        · exact hs.of_eq rfl rfl
      · dsimp only
        split <;> exact hk
  | registerLocal m g kk ih1 ih2 =>
      intro h s hs hk
      have := ih2 h.2.2 (s := { s with locals := assocInsert m g s.locals }) ⟨by
        intro m' f hf
        by_cases hm : m' = m
        · subst hm; rw [assoc_insert_self] at hf; cases hf; exact ⟨h.1, h.2.1⟩
        · rw [assoc_insert_ne _ _ hm] at hf; exact hs.locals m' f hf, hs.partials⟩ hk
      exact (Finishes.modify _ s).bind fun _ _ t e => by cases e; exact this
  | unregisterLocal m kk ih =>
      intro h s hs hk
      have := ih h (s := { s with locals := assocErase m s.locals }) ⟨by
        intro m' f hf
        by_cases hm : m' = m
        · subst hm; rw [assoc_erase_self] at hf; cases hf
        · rw [assoc_erase_ne _ hm] at hf; exact hs.locals m' f hf, hs.partials⟩ hk
      exact (Finishes.modify _ s).bind fun _ _ t e => by cases e; exact this
  | peek kk ih =>
      intro h s hs hk
      exact (Finishes.get s).bind fun _ st t e => by cases e; exact ih _ (h _) hs hk
  | log l m kk ih =>
      intro h s hs hk
      have := ih h (s := { s with logs := s.logs ++ [(l, m)] }) (hs.of_eq rfl rfl) hk
      exact (Finishes.modify _ s).bind fun _ _ t e => by cases e; exact this

theorem fin_paramM {E : Env} (hE : E.reg = reg) {s : RS} (hs : TermOk L s)
    (hk : room (sites L reg) s.stack ≤ k) (p : ParamValue) : Finishes (fun n => paramM (sem n) E p) s := by
  unfold paramM
  cases p with
  | json => exact Finishes.pure _ _
  | path p =>
      refine (Finishes.lookupM E p s).bind fun _ v t _ => ?_
      cases v with
      | some v => exact Finishes.pure _ _
      | none => exact (Finishes.orPanic _ _).bind fun _ _ _ _ => Finishes.pure _ _
  | subExpr c =>
      refine (A.statement E hE s hs hk c).bind fun _ v t _ => ?_
      cases v with
      | some v => exact Finishes.pure _ _
      | none => exact (Finishes.orPanic _ _).bind fun _ _ _ _ => Finishes.pure _ _

theorem fin_arguments {E : Env} (hE : E.reg = reg) : ∀ ps i ms {s : RS}, TermOk L s →
    room (sites L reg) s.stack ≤ k → Finishes (fun n => argumentsLoop (sem n) E i ps ms) s := by
  intro ps
  induction ps with
  | nil => intro i ms s _ _; exact Finishes.pure _ _
  | cons p ps ih =>
      intro i ms s hs hk
      unfold argumentsLoop
      refine fin_bind hr hs (fin_paramM hr A hE hs hk p) (fun n => (termBase L reg).paramM (sem_ok hr n) hE p)
        fun v t ht => ?_
      exact (ih _ _ ht.ok (Nat.le_trans ht.le hk)).bind fun _ _ _ _ => Finishes.pure _ _

theorem fin_hash {E : Env} (hE : E.reg = reg) : ∀ ps out ms {s : RS}, TermOk L s →
    room (sites L reg) s.stack ≤ k → Finishes (fun n => hashLoop (sem n) E ps out ms) s := by
  intro ps
  induction ps with
  | nil => intro i ms s _ _; exact Finishes.pure _ _
  | cons p ps ih =>
      intro i ms s hs hk
      unfold hashLoop
      exact fin_bind hr hs (fin_paramM hr A hE hs hk p.2) (fun n => (termBase L reg).paramM (sem_ok hr n) hE p.2)
        fun v t ht => ih _ _ ht.ok (Nat.le_trans ht.le hk)

end

/-! Calls made with smaller room finish (`A`), so calls finish. -/
section
include hr
variable {k : Nat} (A : ∀ j, j < k → AllFinish L reg j)
include A

theorem fin_invoke {E : Env} (hE : E.reg = reg) {s : RS} (hs : TermOk L s)
    (hk : room (sites L reg) s.stack ≤ k) {name : Str} (hn : name ∈ helperNames L reg) (tg : Target)
    (htg : ∀ h, tg = .handler h → IsHelper reg h) (c : Call) (content : Option Node)
    (text : Option Str) (prop : Option (Str × Value)) :
    Finishes (fun n => invoke (sem n) E name tg c content text prop) s := by
  have hfun : (fun n => invoke (sem n) E name tg c content text prop s) = fun n =>
      if (s.stack.filter (· == siteOf name content)).length ≥ stackMax then (.err (.helperCycle name), s)
      else finishCall (invokeBody (sem n) E name tg c content text prop (s.enter (siteOf name content))) :=
    funext fun n => invoke_eq _ _ _ _ _ _ _ _ _
  by_cases hc : (s.stack.filter (· == siteOf name content)).length ≥ stackMax
  · refine Finishes.of_eq (r := .err (.helperCycle name)) (t := s) (by simp) fun n => ?_
    rw [congrFun hfun n, if_pos hc]
  · have hlt : room (sites L reg) (s.enter (siteOf name content)).stack < room (sites L reg) s.stack := by
      refine room_push (siteOf_mem hn content) ?_
      have : (s.stack.filter (· == siteOf name content)).length = s.stack.count (siteOf name content) := by
        rw [List.count_eq_countP, List.countP_eq_length_filter]
      rw [this] at hc
      have hl : nestingLimit (siteOf name content) = 32 := by cases content <;> rfl
      rw [hl]
      unfold stackMax at hc
      omega
    have hA := A _ (Nat.lt_of_lt_of_le hlt hk)
    have hs' : TermOk L (s.enter (siteOf name content)) := hs.of_eq rfl rfl
    have hbody : Finishes (fun n => invokeBody (sem n) E name tg c content text prop)
        (s.enter (siteOf name content)) := by
      unfold invokeBody
      refine fin_bind hr hs' (fin_arguments hr hA hE _ _ _ hs' (Nat.le_refl _))
        (fun n => (termBase L reg).argumentsLoop (sem_ok hr n) hE _ _ _) fun a t ht => ?_
      refine fin_bind hr ht.ok (fin_hash hr hA hE _ _ _ ht.ok ht.le)
        (fun n => (termBase L reg).hashLoop (sem_ok hr n) hE _ _ _) fun h u hu => ?_
      refine (Finishes.get u).bind fun _ st v e => ?_
      cases e
      have hle := (ht.trans hr hu).le
      unfold runTarget
      cases tg with
      | name =>
          simp only
          cases hl : assoc name u.locals with
          | some g => exact fin_run hr hA hE _ ((hu.ok.locals name g hl).2 _ _) hu.ok hle
          | none =>
              cases hg : assoc name E.reg.helpers with
              | some g =>
                  exact fin_run hr hA hE _ (hr.helpers name g (by rw [← hE]; exact hg) _ _) hu.ok hle
              | none => exact Finishes.pure _ _
      | handler g =>
          exact fin_run hr hA hE _ (isHelper_within hr (htg g rfl) _ _) hu.ok hle
    have := hbody.map (s := s) (g := finishCall) (by
      intro r t hr; cases r <;> simp [finishCall] at hr ⊢)
    obtain ⟨r, t, h1, N, h2⟩ := this
    refine ⟨r, t, h1, N, fun n hn => ?_⟩
    show invoke (sem n) E name tg c content text prop s = (r, t)
    rw [congrFun hfun n, if_neg hc]
    exact h2 n hn

theorem hasHelper_mem {E : Env} (hE : E.reg = reg) {s : RS} (hs : TermOk L s) {name : Str}
    (h : hasHelper E s name = true) : name ∈ helperNames L reg := by
  unfold hasHelper at h
  unfold helperNames
  cases hl : assoc name s.locals with
  | some g => exact List.mem_append_left _ (List.mem_append_right _ (hs.locals name g hl).1)
  | none =>
      cases hg : assoc name E.reg.helpers with
      | some g =>
          rw [hE] at hg
          exact List.mem_append_left _ (List.mem_append_left _ (mem_keysOf hg))
      | none => rw [hl, hg] at h; simp at h

theorem fin_call {E : Env} (hE : E.reg = reg) : ∀ (m : Nat) (c : Call), sizeOf c < m → ∀ {s : RS}, TermOk L s →
    room (sites L reg) s.stack ≤ k → Finishes (fun n => (sem n).call E c) s := by
  intro m
  induction m with
  | zero => intro c h; omega
  | succ m ih =>
      intro c hm s hs hk
      refine Finishes.shift ?_
      show Finishes (fun n => callF (sem n) E c) s
      unfold callF
      cases htg : c.target with
      | path p =>
          simp only
          split
          · exact Finishes.lookupM E p s
          · split
            · refine fin_bind hr hs (Finishes.orPanic _ _) (fun n s hs => (termBase L reg).orPanic _ hs) fun name t ht => ?_
              refine (Finishes.get t).bind fun _ st u e => ?_
              cases e
              by_cases hh : hasHelper E t name = true
              · simp only [hh, if_true]
                exact fin_invoke hr A hE ht.ok (Nat.le_trans ht.le hk) (hasHelper_mem hr A hE ht.ok hh) _ (by simp) _ _ _ _
              · simp only [hh]
                refine fin_bind hr ht.ok (Finishes.lookupM E p t) (fun n => (termBase L reg).lookupM E p) fun v u hu => ?_
                cases v with
                | some v => exact Finishes.pure _ _
                | none =>
                    cases hg : E.reg.helperMissing with
                    | some g =>
                        exact fin_invoke hr A hE hu.ok (Nat.le_trans (ht.trans hr hu).le hk) (by simp [helperNames]) _ (by
                          intro g' e; cases e; exact .inr (.inr (.inl (by rw [← hE]; exact hg)))) _ _ _ _
                    | none =>
                        simp only
                        split
                        · exact Finishes.fail _ _
                        · exact Finishes.pure _ _
            · refine (Finishes.lookupM E p s).bind fun _ v t _ => ?_
              cases v with
              | some v => exact Finishes.pure _ _
              | none =>
                  simp only
                  split
                  · exact (Finishes.orPanic _ _).bind fun _ _ _ _ => Finishes.fail _ _
                  · exact Finishes.pure _ _
      | subExpr sub =>
          refine ih sub ?_ hs hk
          cases c with
          | mk s p c o cl t a ps l =>
              simp only [Call.target] at htg
              subst htg
              simp at hm
              omega

theorem fin_partialAt {E : Env} (hE : E.reg = reg) {s : RS} (hs : TermOk L s)
    (hk : room (sites L reg) s.stack ≤ k) (c : Call) (pb : Option Node) (name : Str) :
    Finishes (fun n => partialAt (sem n) E c pb name) s := by
  by_cases hc : s.stack.contains (.part name) = true
  · refine Finishes.of_eq (r := .err (.partialCycle name)) (t := s) (by simp) fun n => ?_
    unfold partialAt; rw [if_pos hc]
  · have hbody : Finishes (fun n => partialBody (sem n) E name c pb) (s.enter (.part name)) := by
      unfold partialBody
      refine (Finishes.modify _ _).bind fun _ _ t e => ?_
      cases e
      have hp : ∀ n, n ≠ nmPartialBlock → assoc n (withBlock pb s.partials) = none := by
        intro n hn
        unfold withBlock
        cases pb with
        | none => exact hs.partials n hn
        | some nd => simp only; rw [assoc_insert_ne _ _ hn]; exact hs.partials n hn
      have hs1 : TermOk L { s.enter (.part name) with partials := withBlock pb s.partials } := ⟨hs.locals, hp⟩
      show Finishes _ { s.enter (.part name) with partials := withBlock pb s.partials }
      by_cases hmem : CallSite.part name ∈ sites L reg
      · have hlt : room (sites L reg) (s.enter (.part name)).stack < room (sites L reg) s.stack := by
          refine room_push hmem ?_
          have : CallSite.part name ∉ s.stack := by simpa using hc
          rw [List.count_eq_zero_of_not_mem this]
          exact Nat.zero_lt_one
        have hA := A _ (Nat.lt_of_lt_of_le hlt hk)
        refine fin_bind hr hs1 ?_ (fun n => term_findPartial E name) fun node t ht => ?_
        · unfold findPartial
          refine (Finishes.get _).bind fun _ st u e => ?_
          cases e
          split
          · exact Finishes.pure _ _
          · split
            · exact (Finishes.modify _ _).bind fun _ _ _ _ => Finishes.pure _ _
            · exact Finishes.fail _ _
        refine fin_bind hr ht.ok ?_ (fun n => (termFrame L reg hr).partialScope (sem_ok hr n) hE c) fun sc u hu => ?_
        · unfold partialScope
          refine fin_bind hr ht.ok (fin_hash hr hA hE _ _ _ ht.ok ht.le)
            (fun n => (termBase L reg).hashLoop (sem_ok hr n) hE _ _ _) fun h v hv => ?_
          split
          · exact Finishes.pure _ _
          · exact (fin_arguments hr hA hE _ _ _ hv.ok (ht.trans hr hv).le).bind fun _ _ _ _ => Finishes.pure _ _
        refine (Finishes.modify _ _).bind fun _ _ v e => ?_
        cases e
        refine (Finishes.get _).bind fun _ st v e => ?_
        cases e
        have hu' : TermOk L (u.push sc) := hu.ok.of_eq rfl rfl
        have hle : room (sites L reg) (u.push sc).stack ≤ room (sites L reg) (s.enter (.part name)).stack :=
          (ht.trans hr hu).le
        refine fin_runEvents hr hu' (fun n ev => (sem_ok hr n).renderNode E hE _ _) _ ?_ _ _ _ ⟨hu', Nat.le_refl _⟩
        intro ev _ t ht
        exact hA.node E hE t ht.ok (Nat.le_trans ht.le hle) _ _
      · -- an unknown name: the partial is not found
        have h1 : name ≠ nmPartialBlock := by
          intro e; apply hmem; rw [e]; simp [sites]
        have h2 : assoc name E.reg.templates = none := by
          rw [hE]
          cases ht : assoc name reg.templates with
          | none => rfl
          | some t =>
              exfalso; apply hmem
              unfold sites
              refine List.mem_append_left _ (List.mem_append_left _ (List.mem_map.2 ⟨name, ?_, rfl⟩))
              exact List.mem_cons_of_mem _ (mem_keysOf ht)
        refine Finishes.bind ?_ fun n a t e => ?_
        · unfold findPartial
          refine (Finishes.get _).bind fun _ st u e => ?_
          cases e
          rw [hp name h1, h2]
          exact Finishes.fail _ _
        · exfalso
          have : findPartial E name { s.enter (.part name) with partials := withBlock pb s.partials } =
              (.err (.partialNotFound name), { s.enter (.part name) with partials := withBlock pb s.partials }) := by
            unfold findPartial
            rw [RM.bind_def]
            show (match assoc name (withBlock pb s.partials) with
              | some n => (pure n : RM Node)
              | none => _) _ = _
            rw [hp name h1, h2]
            rfl
          rw [this] at e
          cases e
    have := hbody.map (s := s) (g := finishPartial) (by
      intro r t hr; cases r <;> simp [finishPartial] at hr ⊢)
    obtain ⟨r, t, h1, N, h2⟩ := this
    refine ⟨r, t, h1, N, fun n hn => ?_⟩
    show partialAt (sem n) E c pb name s = _
    unfold partialAt
    rw [if_neg hc]
    exact h2 n hn

/-- A partial finishes if the statement naming it does. -/
theorem fin_renderPartial {E : Env} (hE : E.reg = reg) {s : RS} (hs : TermOk L s)
    (hk : room (sites L reg) s.stack ≤ k) (c : Call) (pb : Option Node)
    (hsub : ∀ sub, c.target = .subExpr sub → Finishes (fun n => (sem n).statement E sub) s) :
    Finishes (fun n => renderPartial (sem n) E c pb) s := by
  have : (fun n => renderPartial (sem n) E c pb) = fun n => partialName (sem n) E c >>= partialAt (sem n) E c pb :=
    funext fun n => renderPartial_eq _ _ _ _
  rw [this]
  refine fin_bind hr hs ?_ (fun n => (termFrame L reg hr).partialName (sem_ok hr n) hE c) fun name t ht =>
    fin_partialAt hr A hE ht.ok (Nat.le_trans ht.le hk) c pb name
  unfold partialName
  cases htg : c.target with
  | path p =>
      simp only
      refine (Finishes.orPanic _ _).bind fun _ txt t _ => ?_
      split
      · exact Finishes.pure _ _
      · split
        · exact Finishes.pure _ _
        · exact Finishes.fail _ _
  | subExpr sub => exact (hsub sub htg).bind fun _ _ _ _ => Finishes.pure _ _

theorem fin_statement {E : Env} (hE : E.reg = reg) : ∀ (m : Nat) (c : Call), sizeOf c < m → ∀ {s : RS}, TermOk L s →
    room (sites L reg) s.stack ≤ k → Finishes (fun n => (sem n).statement E c) s := by
  intro m
  induction m with
  | zero => intro c h; omega
  | succ m ih =>
      intro c hm s hs hk
      refine Finishes.shift ?_
      show Finishes (fun n => statementF (sem n) E c) s
      unfold statementF
      split
      · refine (fin_renderPartial hr A hE hs hk c none fun sub htg => ih sub ?_ hs hk).bind fun _ _ _ _ => Finishes.pure _ _
        cases c with
        | mk s p c o cl t a ps l =>
            simp only [Call.target] at htg
            subst htg
            simp at hm
            omega
      · exact fin_call hr A hE _ c (Nat.lt_succ_self _) hs hk

theorem fin_blockHelperMissing {E : Env} (hE : E.reg = reg) {s : RS} (hs : TermOk L s)
    (hk : room (sites L reg) s.stack ≤ k) (node : Node) (c : Call) (p : Path) (text : Option Str) (raw : Bool)
    (hch : ∀ c ∈ node.children, ∀ t, From L reg s t → ∀ tr, Finishes (fun n => (sem n).renderNode E c tr) t) :
    Finishes (fun n => blockHelperMissing (sem n) E node c p text raw) s := by
  unfold blockHelperMissing
  cases raw with
  | true =>
      simp only [if_true]
      cases text with
      | some t => exact (Finishes.writeStr _ _ _ _).bind fun _ _ _ _ => Finishes.pure _ _
      | none => exact Finishes.pure _ _
  | false =>
      simp only [Bool.false_eq_true, if_false]
      refine fin_bind hr hs (Finishes.lookupM E p s) (fun n => (termBase L reg).lookupM E p) fun v t ht => ?_
      cases v with
      | some v =>
          cases hg : E.reg.blockHelperMissing with
          | some g =>
              simp only
              refine fin_bind hr ht.ok (Finishes.orPanic _ _) (fun n s hs => (termBase L reg).orPanic _ hs) fun name u hu => ?_
              exact (fin_invoke hr A hE hu.ok (Nat.le_trans (ht.trans hr hu).le hk) (by simp [helperNames]) _ (by
                intro g' e; cases e; exact .inr (.inr (.inr (by rw [← hE]; exact hg)))) _ _ _ _).bind
                fun _ _ _ _ => Finishes.pure _ _
          | none =>
              simp only
              unfold templateQ
              refine (fin_template hr hE ht.ok node fun c hc u hu tr => hch c hc u (ht.trans hr hu) tr).catchErr
                fun _ a u _ => ?_
              cases a with
              | ok a => exact Finishes.pure _ _
              | error e => exact Finishes.fail _ _
      | none =>
          cases hg : E.reg.helperMissing with
          | some g =>
              simp only
              exact (fin_invoke hr A hE ht.ok (Nat.le_trans ht.le hk) (by simp [helperNames]) _ (by
                intro g' e; cases e; exact .inr (.inr (.inl (by rw [← hE]; exact hg)))) _ _ _ _).bind
                fun _ _ _ _ => Finishes.pure _ _
          | none =>
              simp only
              split
              · exact (Finishes.orPanic _ _).bind fun _ _ _ _ => Finishes.fail _ _
              · exact Finishes.pure _ _

theorem fin_node {E : Env} (hE : E.reg = reg) : ∀ (m : Nat) (node : Node), sizeOf node < m → ∀ {s : RS}, TermOk L s →
    room (sites L reg) s.stack ≤ k → ∀ tr, Finishes (fun n => (sem n).renderNode E node tr) s := by
  intro m
  induction m with
  | zero => intro c h; omega
  | succ m ih =>
      intro node hm s hs hk tr
      refine Finishes.shift ?_
      show Finishes (fun n => renderNodeF (sem n) E node tr) s
      unfold renderNodeF
      refine fin_bind hr hs (Finishes.orPanic _ _) (fun n s hs => (termBase L reg).orPanic _ hs) fun h t ht => ?_
      refine (Finishes.modify _ _).bind fun _ _ u e => ?_
      cases e
      suffices ∀ u, TermOk L u → room (sites L reg) u.stack ≤ k →
          Finishes (fun n => renderKind (sem n) E node) u from
        this _ (ht.ok.of_eq rfl rfl) (Nat.le_trans ht.le hk)
      intro u hu' hku
      have hpure : ∀ t : RS, Finishes (fun _ => (pure () : RM Unit)) t := fun t => Finishes.pure _ _
      unfold renderKind
      cases node with
      | text t =>
          exact (Finishes.orPanic _ _).bind fun _ _ _ _ => (Finishes.writeStr _ _ _ _).bind fun _ _ _ _ => hpure _
      | rawStatement t =>
          exact (Finishes.orPanic _ _).bind fun _ _ _ _ => (Finishes.orPanic _ _).bind fun _ _ _ _ =>
            (Finishes.writeStr _ _ _ _).bind fun _ _ _ _ => hpure _
      | link l =>
          simp only
          refine fin_bind hr hu' (Finishes.orPanic _ _) (fun n s hs => (termBase L reg).orPanic _ hs) fun esc v hv => ?_
          split
          · exact (Finishes.orPanic _ _).bind fun _ _ _ _ => (Finishes.writeStr _ _ _ _).bind fun _ _ _ _ => hpure _
          · cases hg : E.reg.link with
            | some g =>
                simp only
                refine fin_bind hr hv.ok (Finishes.orPanic _ _) (fun n s hs => (termBase L reg).orPanic _ hs) fun c w hw => ?_
                exact (fin_invoke hr A hE hw.ok (Nat.le_trans (hv.trans hr hw).le hku) (by simp [helperNames]) _ (by
                  intro g' e; cases e; exact .inr (.inl (by rw [← hE]; exact hg))) _ _ _ _).bind
                  fun _ _ _ _ => hpure _
            | none =>
                exact (Finishes.orPanic _ _).bind fun _ _ _ _ => (Finishes.writeStr _ _ _ _).bind fun _ _ _ _ => hpure _
      | statement c =>
          simp only
          refine (fin_statement hr A hE _ c (Nat.lt_succ_self _) hu' hku).bind fun _ v w _ => ?_
          cases v with
          | some v =>
              exact (Finishes.orPanic _ _).bind fun _ _ _ _ => (Finishes.writeStr _ _ _ _).bind fun _ _ _ _ => hpure _
          | none => exact hpure _
      | block b =>
          simp only
          unfold blockF
          simp only
          split
          · exact fin_renderPartial hr A hE hu' hku _ _ fun sub _ => fin_statement hr A hE _ sub (Nat.lt_succ_self _) hu' hku
          · cases b.call.target with
            | path p =>
                simp only
                split
                · refine fin_bind hr hu' ?_ (fun n s hs => ?_) fun text v hv => ?_
                  · unfold blockText
                    split
                    · exact (Finishes.orPanic _ _).bind fun _ _ _ _ => (Finishes.modify _ _).bind fun _ _ _ _ =>
                        Finishes.pure _ _
                    · exact Finishes.pure _ _
                  · unfold blockText
                    split
                    · refine (termBase L reg).bind ((termBase L reg).orPanic _ hs) fun _ t _ ht =>
                        (termBase L reg).bind ((termBase L reg).modify ht ?_) fun _ u _ hu => (termBase L reg).pure _ hu
                      exact ⟨⟨rfl, rfl, rfl, rfl, ⟨[], by simp⟩, fun _ _ => rfl⟩, rfl⟩
                    · exact (termBase L reg).pure _ hs
                  refine fin_bind hr hv.ok (Finishes.orPanic _ _) (fun n s hs => (termBase L reg).orPanic _ hs) fun name w hw => ?_
                  refine (Finishes.get w).bind fun _ st x e => ?_
                  cases e
                  have hvw := hv.trans hr hw
                  by_cases hh : hasHelper E w name = true
                  · simp only [hh, if_true]
                    exact (fin_invoke hr A hE hw.ok (Nat.le_trans hvw.le hku) (hasHelper_mem hr A hE hw.ok hh) _
                      (by simp) _ _ _ _).bind fun _ _ _ _ => hpure _
                  · simp only [hh]
                    refine fin_blockHelperMissing hr A hE hw.ok (Nat.le_trans hvw.le hku) _ _ _ _ _ ?_
                    intro c hc x hx tr'
                    refine ih c ?_ hx.ok (Nat.le_trans hx.le (Nat.le_trans hvw.le hku)) tr'
                    cases b with
                    | mk s' nodes r o cl cc cs l =>
                        have h1 := List.sizeOf_lt_of_mem (show c ∈ nodes from hc)
                        simp at hm
                        omega
                · exact (Finishes.orPanic _ _).bind fun _ _ _ _ => Finishes.fail _ _
            | subExpr sub => exact Finishes.fail _ _
      | rawComment t => exact hpure _
      | comment t => exact hpure _
      | document src ns => exact hpure _

end

include hr in
/-- Everything finishes, whatever room is left. -/
theorem all_finish (k : Nat) : AllFinish L reg k := by
  induction k using Nat.strongRecOn with
  | ind k ih =>
      exact ⟨fun E hE s hs hk node tr => fin_node hr ih hE _ node (Nat.lt_succ_self _) hs hk tr,
        fun E hE s hs hk c => fin_statement hr ih hE _ c (Nat.lt_succ_self _) hs hk,
        fun E hE s hs hk c => fin_call hr ih hE _ c (Nat.lt_succ_self _) hs hk⟩

/-- C26: rendering any document with any data to any destination finishes, if the helpers register
local helpers under finitely many names. -/
theorem C26_render (L : List Str) (r : Reg) (hr : WithinReg L r) (sink : Sink) (name : Str) (doc : Node)
    (data : Value) : Finishes (fun n => renderAll (sem n) ⟨r, name, data, sink⟩ doc) (RS.init []) :=
  fin_renderAll hr (all_finish hr _) rfl
    ⟨fun n h e => by simp [RS.init, assoc] at e, fun n _ => by simp [RS.init, assoc]⟩ (Nat.le_refl _) doc

/-- C26 at the interface: from some recursion depth on, `render` gives one and the same result,
and it is not the model's out-of-fuel result. -/
theorem C26_api (L : List Str) (r : Reg) (hr : WithinReg L r) (name : Str) (data : Value) :
    ∃ N, r.render N name data ≠ .fuel ∧ ∀ n, N ≤ n → r.render n name data = r.render N name data := by
  cases ht : assoc name r.templates with
  | none =>
      refine ⟨0, ?_, fun n _ => ?_⟩
      · unfold Reg.render Reg.renderToWrite; rw [ht]; simp
      · unfold Reg.render Reg.renderToWrite; rw [ht]
  | some t =>
      obtain ⟨x, s, hx, N, h⟩ := C26_render L r hr stringSink name t.node data
      have h' : ∀ n, N ≤ n → renderTo n r stringSink name t.node data = (x, s) := h
      refine ⟨N, ?_, fun n hn => ?_⟩
      · unfold Reg.render Reg.renderToWrite
        rw [ht]
        simp only [h' N (Nat.le_refl _)]
        cases x with
        | fuel => exact (hx rfl).elim
        | _ => simp
      · unfold Reg.render Reg.renderToWrite
        rw [ht]
        simp only [h' n hn, h' N (Nat.le_refl _)]

/-! ### The built-in helpers -/

theorem within_tmpl {L : List Str} (n : Node) (k : Prog) (h : Within L k) : Within L (.tmpl n k) := by
  intro r; cases r <;> first | exact h | trivial

theorem within_arity {L : List Str} (c : Ctx) (lo hi : Nat) (k : Prog) (h : Within L k) :
    Within L (c.withArity lo hi k) := by
  unfold Ctx.withArity
  split
  · exact h
  · trivial

theorem within_tryInverse {L : List Str} (n : Node) : Within L (.tryInverse n) := by
  intro r
  cases r with
  | error e => trivial
  | ok m => cases m with
    | none => trivial
    | some m => exact within_tmpl _ _ trivial

theorem within_eachObj {L : List Str} (n : Node) : ∀ l i, Within L (eachObj n i l) := by
  intro l
  induction l with
  | nil => intro i _; trivial
  | cons x l ih => obtain ⟨k, v⟩ := x; exact fun i _ => within_tmpl _ _ (ih _)

theorem within_eachArr {L : List Str} (n : Node) (len : Nat) : ∀ l i, Within L (eachArr n len i l) := by
  intro l
  induction l with
  | nil => intro i _; trivial
  | cons v l ih => exact fun i _ => within_tmpl _ _ (ih _)

theorem within_log {L : List Str} (lvl : Str) : ∀ l, Within L (logLines lvl l) := by
  intro l
  induction l with
  | nil => trivial
  | cons x l ih => exact ih

theorem within_cmp {L : List Str} (f : F64 → F64 → Bool) : WithinHelper L (hCmp f) := by
  intro ctx content
  refine within_arity _ _ _ _ ?_
  split
  · trivial
  · split
    · trivial
    · split <;> trivial

/-- C26: the built-in helpers register no local helpers. -/
theorem C26_builtins (L : List Str) (name : Str) (h : HelperFn) (hh : (name, h) ∈ builtins) : WithinHelper L h := by
  simp only [builtins, List.mem_cons, Prod.mk.injEq, List.not_mem_nil, or_false] at hh
  rcases hh with ⟨_, rfl⟩ | ⟨_, rfl⟩ | ⟨_, rfl⟩ | ⟨_, rfl⟩ | ⟨_, rfl⟩ | ⟨_, rfl⟩ | ⟨_, rfl⟩ | ⟨_, rfl⟩ |
    ⟨_, rfl⟩ | ⟨_, rfl⟩ | ⟨_, rfl⟩ | ⟨_, rfl⟩ | ⟨_, rfl⟩ | ⟨_, rfl⟩ | ⟨_, rfl⟩ | ⟨_, rfl⟩
  · intro ctx content
    refine within_arity _ _ _ _ ?_
    split
    · trivial
    · split
      · split
        · exact within_tmpl _ _ trivial
        · exact within_tryInverse _
      · trivial
  · intro ctx content
    refine within_arity _ _ _ _ ?_
    split
    · split
      · trivial
      · split
        · exact within_tmpl _ _ trivial
        · exact within_tryInverse _
    · trivial
  · exact within_cmp _
  · exact within_cmp _
  · exact within_cmp _
  · exact within_cmp _
  · exact within_cmp _
  · exact within_cmp _
  · intro ctx content
    refine within_arity _ _ _ _ ?_
    simp only
    split
    · exact within_log _ _
    · exact within_log _ _
    · trivial
  · intro ctx content
    refine within_arity _ _ _ _ ?_
    split
    · trivial
    · split
      · split <;> trivial
      · trivial
      · trivial
  · intro ctx content
    refine within_arity _ _ _ _ ?_
    split <;> trivial
  · intro ctx content
    refine within_arity _ _ _ _ ?_
    split <;> trivial
  · intro ctx content
    refine within_arity _ _ _ _ ?_
    split <;> trivial
  · intro ctx content
    refine within_arity _ _ _ _ ?_
    split
    · trivial
    · trivial
    · split
      · exact fun _ => within_tmpl _ _ fun _ => trivial
      · trivial
  · intro ctx content
    refine within_arity _ _ _ _ ?_
    split
    · split
      · trivial
      · show Within L _
        split
        · exact within_eachObj _ _ _
        · exact within_eachArr _ _ _ _
        · exact fun _ => trivial
    · trivial
  · intro ctx content
    refine within_arity _ _ _ _ ?_
    split <;> trivial

/-- C26: with the built-in helpers and any templates every render finishes, unconditionally. -/
theorem C26_default (templates : List (Str × Template)) (strict : Bool) (name : Str) (data : Value) :
    ∃ N, ({ Reg.new with templates, strict } : Reg).render N name data ≠ .fuel ∧
      ∀ n, N ≤ n → ({ Reg.new with templates, strict } : Reg).render n name data =
        ({ Reg.new with templates, strict } : Reg).render N name data :=
  C26_api [] _ ⟨fun n h e => C26_builtins [] n h (assoc_mem e), fun h e => by simp [Reg.new] at e,
    fun h e => by simp [Reg.new] at e, fun h e => by simp [Reg.new] at e⟩ name data

end

section Witness
attribute [local instance] exHost

/-- A helper that registers a local helper calling the first one again, and runs its block. -/
def loopy : HelperFn := fun _ t =>
  .registerLocal c!"inner" (fun _ _ => .once c!"f" c!"{{#loopy}}{{/loopy}}" .null fun _ => .ret none) <|
    match t with
    | some n => .template n fun _ => .ret none
    | none => .ret none

-- the assumption of C26 is met by helpers that register local helpers and call each other
example : WithinHelper [c!"inner"] loopy := by
  intro ctx t
  refine ⟨by simp, fun _ _ _ => trivial, ?_⟩
  cases t with
  | none => trivial
  | some n => exact fun _ => trivial
end Witness
end Bracket.Props
