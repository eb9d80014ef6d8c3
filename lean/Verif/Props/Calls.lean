import Verif.Spec.Calls
import Verif.Lemmas.Frame
import Verif.Lemmas.ExHost
import Verif.Model.Registry

/-! C24, C25, C28: nesting of calls, growth of the output. -/

namespace Bracket.Props
open Spec

theorem openCalls_snoc (evs : List CallEv) (e : CallEv) :
    openCalls (evs ++ [e]) = openStep (openCalls evs) e := by
  simp [openCalls, List.foldl_append]

theorem prefix_snoc {α : Type} {p l : List α} {a : α} (h : p <+: l ++ [a]) : p <+: l ∨ p = l ++ [a] := by
  rcases h with ⟨t, ht⟩
  rcases List.eq_nil_or_concat t with rfl | ⟨t', b, rfl⟩
  · right; simpa using ht
  · left
    rw [List.concat_eq_append, ← List.append_assoc] at ht
    have := List.append_inj_left' ht rfl
    exact ⟨t', this⟩

/-- What holds in every state a render goes through: the calls in progress are on the call stack,
and neither exceeds the nesting limits, now or earlier. -/
structure CallsOk (s : RS) : Prop where
  onStack : (openCalls s.trace).Sublist s.stack
  stackLimit : ∀ site, s.stack.count site ≤ nestingLimit site
  limit : ∀ p, p <+: s.trace → ∀ site, (openCalls p).count site ≤ nestingLimit site

/-- How a step changes calls and output. -/
structure CallsRel (s t : RS) : Prop where
  trace : s.trace <+: t.trace
  same : openCalls t.trace = openCalls s.trace
  stack : s.stack <:+ t.stack
  out : s.out <+: t.out

theorem suffix_tail {α : Type} {a : α} {l m : List α} (h : a :: l <:+ m) : l <:+ m.tail := by
  obtain ⟨p, rfl⟩ := h
  cases p with
  | nil => exact List.suffix_refl _
  | cons b p => exact ⟨p ++ [a], by simp⟩

theorem suffix_of_cons {α : Type} {a : α} {l m : List α} (h : a :: l <:+ m) : l <:+ m := by
  obtain ⟨p, rfl⟩ := h
  exact ⟨p ++ [a], by simp⟩

theorem CallsOk.enter {s : RS} {site : CallSite} (h : CallsOk s) (hc : s.stack.count site < nestingLimit site) :
    CallsOk (s.enter site) := by
  have onS : (openCalls (s.trace ++ [.enter site])).Sublist (site :: s.stack) := by
    rw [openCalls_snoc]; exact h.onStack.cons_cons site
  have lim : ∀ x, (site :: s.stack).count x ≤ nestingLimit x := by
    intro x
    by_cases hx : site = x
    · subst hx; rw [List.count_cons_self]; omega
    · rw [List.count_cons_of_ne (by simpa using hx)]; exact h.stackLimit x
  refine ⟨onS, lim, ?_⟩
  intro p hp x
  rcases prefix_snoc hp with hp | rfl
  · exact h.limit p hp x
  · exact Nat.le_trans (onS.count_le x) (lim x)

theorem CallsOk.leave {s t : RS} {site : CallSite} (hs : CallsOk s) (hr : CallsRel (s.enter site) t)
    (ht : CallsOk t) {st : List CallSite} (hst : s.stack <:+ st) (hst' : st.Sublist t.stack) :
    openCalls (t.trace ++ [.leave]) = openCalls s.trace ∧
    (∀ u : RS, u.trace = t.trace ++ [.leave] → u.stack = st → u.out = t.out →
      CallsOk u ∧ CallsRel s u) := by
  have e : openCalls (t.trace ++ [.leave]) = openCalls s.trace := by
    rw [openCalls_snoc, hr.same]
    show (openCalls (s.trace ++ [.enter site])).tail = _
    rw [openCalls_snoc]; rfl
  refine ⟨e, ?_⟩
  intro u h1 h2 h3
  refine ⟨⟨?_, ?_, ?_⟩, ⟨?_, ?_, ?_, ?_⟩⟩
  · rw [h1, h2, e]; exact hs.onStack.trans hst.sublist
  · intro x; rw [h2]; exact Nat.le_trans (hst'.count_le x) (ht.stackLimit x)
  · intro p hp x
    rw [h1] at hp
    rcases prefix_snoc hp with hp | rfl
    · exact ht.limit p hp x
    · rw [e]; exact hs.limit _ (List.prefix_refl _) x
  · rw [h1]
    exact ((List.prefix_append _ _).trans hr.trace).trans (List.prefix_append _ _)
  · rw [h1, e]
  · rw [h2]; exact hst
  · rw [h3]; exact hr.out

theorem minor_calls {s s' : RS} (hs : CallsOk s) (h : Minor s s') : CallsOk s' ∧ CallsRel s s' := by
  refine ⟨⟨?_, ?_, ?_⟩, ⟨?_, ?_, ?_, ?_⟩⟩
  · rw [h.trace, h.stack]; exact hs.onStack
  · rw [h.stack]; exact hs.stackLimit
  · rw [h.trace]; exact hs.limit
  · rw [h.trace]; exact List.prefix_refl _
  · rw [h.trace]
  · rw [h.stack]; exact List.suffix_refl _
  · obtain ⟨ws, e⟩ := h.out; rw [e]; exact List.prefix_append _ _

theorem CallsRel.refl (s : RS) : CallsRel s s :=
  ⟨List.prefix_refl _, rfl, List.suffix_refl _, List.prefix_refl _⟩

theorem CallsRel.trans {s t u : RS} (h : CallsRel s t) (h' : CallsRel t u) : CallsRel s u :=
  ⟨h.trace.trans h'.trace, h'.same.trans h.same, h.stack.trans h'.stack, h.out.trans h'.out⟩

/-- The invariant and the relation. -/
def callsRel : Rel := ⟨CallsOk, fun _ => CallsRel⟩

theorem same_calls {s u : RS} (hs : CallsOk s) (h1 : u.trace = s.trace) (h2 : u.stack = s.stack)
    (h3 : u.out = s.out) : CallsOk u ∧ CallsRel s u := by
  refine ⟨⟨?_, ?_, ?_⟩, ⟨?_, ?_, ?_, ?_⟩⟩
  · rw [h1, h2]; exact hs.onStack
  · rw [h2]; exact hs.stackLimit
  · rw [h1]; exact hs.limit
  · rw [h1]; exact List.prefix_refl _
  · rw [h1]
  · rw [h2]; exact List.suffix_refl _
  · rw [h3]; exact List.prefix_refl _

theorem count_filter (l : List CallSite) (x : CallSite) : (l.filter (· == x)).length = l.count x := by
  rw [List.count_eq_countP, List.countP_eq_length_filter]

/-- The call nesting invariant is respected by the primitive state changes. -/
def callsPlain (reg : Reg) : PlainBase reg where
  toRel := callsRel
  refl := fun _ s => CallsRel.refl s
  trans := fun h h' => CallsRel.trans h h'
  minor := fun hs h => minor_calls hs h
  enterCall := by
    intro s name content hs h
    rw [count_filter] at h
    refine CallsOk.enter hs ?_
    unfold siteOf at *
    cases content <;> exact h
  enterPartial := by
    intro s name hs h
    refine CallsOk.enter hs ?_
    have : CallSite.part name ∉ s.stack := by simpa using h
    rw [List.count_eq_zero_of_not_mem this]
    exact Nat.zero_lt_one
  leaveOk := by
    intro s t site hs hr ht
    exact (CallsOk.leave hs hr ht (st := t.stack.tail) (suffix_tail hr.stack) (List.tail_sublist _)).2 _ rfl rfl rfl
  leaveErr := by
    intro s t site hs hr ht
    exact (CallsOk.leave hs hr ht (st := t.stack) (suffix_of_cons hr.stack) (List.Sublist.refl _)).2 _ rfl rfl rfl
  push := fun {s sc} hs => (same_calls (u := s.push sc) hs rfl rfl rfl).1
  pushErr := fun h => ⟨h.trace, h.same, h.stack, h.out⟩
  leavePartial := by
    intro s t u site sc hs hr ht hr' hu
    have h2 : CallsRel (s.enter site) u := CallsRel.trans hr ⟨hr'.trace, hr'.same, hr'.stack, hr'.out⟩
    exact (CallsOk.leave hs h2 hu (st := u.stack.tail) (suffix_tail h2.stack) (List.tail_sublist _)).2 _ rfl rfl rfl
  inner := by
    intro s scs hs
    exact ⟨hs.onStack, hs.stackLimit, hs.limit⟩
  after := by
    intro b s t scs hs hr ht
    refine ⟨⟨?_, hs.stackLimit, ht.limit⟩, ⟨hr.trace, hr.same, List.suffix_refl _, List.prefix_refl _⟩⟩
    show (openCalls t.trace).Sublist s.stack
    rw [hr.same]; exact hs.onStack

def callsBase (reg : Reg) : FrameBase reg := (callsPlain reg).toBase

theorem calls_any [Host] (reg : Reg) (S : Sem) (H : callsRel.SemOk reg S) (E : Env) (hE : E.reg = reg) (p : Prog) :
    callsRel.Ok (run S E p) := by
  refine FrameBase.runAny (callsBase reg) H hE ?_ ?_ ?_ ?_ p
  · exact fun h => h
  · exact fun hs => same_calls hs rfl rfl rfl
  · exact fun hs => same_calls hs rfl rfl rfl
  · exact fun hs => same_calls hs rfl rfl rfl

/-- The call nesting invariant is respected by every helper. -/
def callsFrame [Host] (reg : Reg) : Frame reg where
  toFrameBase := callsBase reg
  helper := fun S H E hE _ _ _ _ => calls_any reg S H E hE _
  localHelper := fun S H E hE _ _ _ _ _ _ _ => calls_any reg S H E hE _


theorem calls_init : CallsOk (RS.init []) := by
  refine ⟨by decide, by intro x; simp [RS.init], ?_⟩
  intro p hp x
  have : p = [] := by simpa [RS.init] using hp
  subst this; simp [openCalls]

/-- Every state a render can reach from an empty call stack satisfies the invariant. -/
theorem calls_render [Host] (n : Nat) (r : Reg) (sink : Sink) (name : Str) (doc : Node) (data : Value) :
    CallsOk (renderTo n r sink name doc data).2 :=
  ((callsFrame r).renderAll ((callsFrame r).semOk n) (E := ⟨r, name, data, sink⟩) rfl doc _ calls_init).1

/-- C24: at no moment of any render is a partial in progress inside a partial of the same name. -/
theorem C24_partials [Host] (n : Nat) (r : Reg) (sink : Sink) (name : Str) (doc : Node) (data : Value)
    (before : List CallEv) (h : before <+: (renderTo n r sink name doc data).2.trace) (p : Str) :
    (openCalls before).count (.part p) ≤ 1 :=
  (calls_render n r sink name doc data).limit before h (.part p)

/-- C25: at no moment of any render are more than 32 calls of the same kind and name nested. -/
theorem C25_helpers [Host] (n : Nat) (r : Reg) (sink : Sink) (name : Str) (doc : Node) (data : Value)
    (before : List CallEv) (h : before <+: (renderTo n r sink name doc data).2.trace) (p : Str) :
    (openCalls before).count (.helper p) ≤ 32 ∧ (openCalls before).count (.block p) ≤ 32 :=
  ⟨(calls_render n r sink name doc data).limit before h (.helper p),
   (calls_render n r sink name doc data).limit before h (.block p)⟩

/-- The calls entered are all left again. -/
theorem C25_balanced [Host] (n : Nat) (r : Reg) (sink : Sink) (name : Str) (doc : Node) (data : Value) :
    openCalls (renderTo n r sink name doc data).2.trace = [] :=
  ((callsFrame r).renderAll ((callsFrame r).semOk n) (E := ⟨r, name, data, sink⟩) rfl doc _ calls_init).2.same

/-- C24: calling a partial that is in progress is an error, writes nothing and calls nothing. -/
theorem C24_cycle [Host] (n : Nat) (E : Env) (c : Call) (pb : Option Node) (s t : RS) (name : Str)
    (hn : partialName (sem n) E c s = (.ok name, t)) (hs : CallsOk t)
    (hc : CallSite.part name ∈ openCalls t.trace) :
    renderPartial (sem n) E c pb s = (.err (.partialCycle name), t) := by
  have : t.stack.contains (.part name) = true := by simpa using hs.onStack.subset hc
  unfold renderPartial
  simp only [RM.bind_def, hn, RM.get, this, if_true, RM.fail]

/-- C25: with 32 calls of the same kind and name in progress a further one is an error, writes
nothing and calls nothing. -/
theorem C25_cycle [Host] (n : Nat) (E : Env) (name : Str) (target : Target) (c : Call) (content : Option Node)
    (text : Option Str) (prop : Option (Str × Value)) (s : RS) (hs : CallsOk s)
    (hc : 32 ≤ (openCalls s.trace).count (siteOf name content)) :
    invoke (sem n) E name target c content text prop s = (.err (.helperCycle name), s) := by
  have : (s.stack.filter (· == siteOf name content)).length ≥ stackMax := by
    rw [count_filter]; exact Nat.le_trans hc (hs.onStack.count_le _)
  unfold invoke
  simp only [RM.bind_def, RM.get, if_pos this, RM.fail]

/-- C25: with fewer on the call stack it is entered. -/
theorem C25_enters [Host] (n : Nat) (E : Env) (name : Str) (target : Target)
    (ht : ∀ h, target = .handler h → IsHelper E.reg h) (c : Call) (content : Option Node)
    (text : Option Str) (prop : Option (Str × Value)) (s : RS) (hs : CallsOk s)
    (hc : s.stack.count (siteOf name content) < 32) :
    s.trace ++ [.enter (siteOf name content)] <+:
      (invoke (sem n) E name target c content text prop s).2.trace := by
  have hl : ¬ (s.stack.filter (· == siteOf name content)).length ≥ stackMax := by
    rw [count_filter]; exact Nat.not_le.mpr hc
  rw [invoke_eq, if_neg hl]
  have he : CallsOk (s.enter (siteOf name content)) :=
    (callsBase E.reg).enterCall hs (Nat.not_le.mp hl)
  have hb := (((callsFrame E.reg).invokeBody ((callsFrame E.reg).semOk n) rfl name target ht c content text prop) _ he).2.trace
  change (s.enter (siteOf name content)).trace <+: _ at hb
  generalize invokeBody (sem n) E name target c content text prop (s.enter (siteOf name content)) = x at hb ⊢
  obtain ⟨r, t⟩ := x
  cases r <;> exact List.IsPrefix.trans hb (List.prefix_append _ _)

/-! ### C28 -/

/-- The destination only grows. -/
def growsPlain (reg : Reg) : PlainBase reg where
  I := fun _ => True
  R := fun _ s t => s.out <+: t.out
  refl := fun _ _ => List.prefix_refl _
  trans := fun h h' => h.trans h'
  minor := fun _ h => ⟨trivial, by obtain ⟨ws, e⟩ := h.out; rw [e]; exact List.prefix_append _ _⟩
  enterCall := fun _ _ => trivial
  enterPartial := fun _ _ => trivial
  leaveOk := fun _ h _ => ⟨trivial, h⟩
  leaveErr := fun _ h _ => ⟨trivial, h⟩
  push := fun _ => trivial
  pushErr := fun h => h
  leavePartial := fun _ h _ h' _ => ⟨trivial, h.trans h'⟩
  inner := fun _ => trivial
  after := fun _ _ _ => ⟨trivial, List.prefix_refl _⟩

def growsBase (reg : Reg) : FrameBase reg := (growsPlain reg).toBase

theorem grows_any [Host] (reg : Reg) (S : Sem) (H : (growsBase reg).SemOk reg S) (E : Env) (hE : E.reg = reg)
    (p : Prog) : (growsBase reg).Ok (run S E p) := by
  refine FrameBase.runAny (growsBase reg) H hE (fun h => h) ?_ ?_ ?_ p
  all_goals exact fun _ => ⟨trivial, List.prefix_refl _⟩

/-- ... whatever the helpers do. -/
def growsFrame [Host] (reg : Reg) : Frame reg where
  toFrameBase := growsBase reg
  helper := fun S H E hE _ _ _ _ => grows_any reg S H E hE _
  localHelper := fun S H E hE _ _ _ _ _ _ _ => grows_any reg S H E hE _

/-- C28: rendering a node only appends to the destination, whether it succeeds or not. -/
theorem C28_grows [Host] (n : Nat) (E : Env) (node : Node) (t : TrimState) (s : RS) :
    s.out <+: ((sem n).renderNode E node t s).2.out :=
  (((growsFrame E.reg).semOk n).renderNode E rfl node t s trivial).2

theorem runEvents_err (f : Ev → RM Unit) : ∀ (ns : List Node) (prev : Option Bool) (hint : Option TrimHint)
    (s t : RS) (e : RenderErr), runEvents f ns prev hint s = (.err e, t) →
    ∃ pre n post s1 ev, ns = pre ++ n :: post ∧ Rendered f pre s s1 ∧ ev.node = n ∧ f ev s1 = (.err e, t) := by
  intro ns
  induction ns with
  | nil => intro prev hint s t e h; cases h
  | cons n rest ih =>
      intro prev hint s t e h
      unfold runEvents at h
      rw [RM.bind_def] at h
      have hnb : ∃ r, nextBefore rest s = (r, s) ∧ ∀ e, r ≠ .err e := by
        unfold nextBefore
        cases rest with
        | nil => exact ⟨_, rfl, by simp⟩
        | cons x l =>
            cases hx : x.trim with
            | none => exact ⟨_, by simp only [hx, RM.bind_def, RM.orPanic]; rfl, by simp⟩
            | some t => exact ⟨_, by simp only [hx, RM.bind_def, RM.orPanic]; rfl, by simp⟩
      obtain ⟨r, hr, hne⟩ := hnb
      rw [hr] at h
      cases r with
      | err e => exact absurd rfl (hne e)
      | panic => cases h
      | fuel => cases h
      | ok stop =>
          simp only at h
          rw [RM.bind_def] at h
          cases hx : n.trim with
          | none => rw [hx] at h; cases h
          | some cur =>
              rw [hx] at h
              simp only [RM.orPanic] at h
              rw [RM.bind_def] at h
              generalize hev : (⟨n, ⟨startTrim prev hint, stop⟩, prev.isNone, rest.isEmpty⟩ : Ev) = ev at h
              have hn : ev.node = n := by rw [← hev]
              rcases hf : f ev s with ⟨r, s1⟩
              rw [hf] at h
              cases r with
              | err e' => cases h; exact ⟨[], n, rest, s, ev, rfl, .nil s, hn, hf⟩
              | panic => cases h
              | fuel => cases h
              | ok a =>
                  obtain ⟨pre, m, post, s2, ev2, h1, h2, h3, h4⟩ := ih _ _ _ _ _ h
                  refine ⟨n :: pre, m, post, s2, ev2, by rw [h1]; rfl, ?_, h3, h4⟩
                  rw [← hn]
                  exact .cons hf h2

/-- C28: when a render fails, some nodes were rendered, then one failed, and what was written is what
they wrote and part of what the failing one writes; the remaining nodes were not touched. -/
theorem C28_error [Host] (n : Nat) (r : Reg) (sink : Sink) (name : Str) (doc : Node) (data : Value)
    (e : RenderErr) (t : RS) (h : renderTo n r sink name doc data = (.err e, t)) :
    ∃ done failed rest s tr, doc.children = done ++ failed :: rest ∧
      Rendered (fun ev => (sem n).renderNode ⟨r, name, data, sink⟩ ev.node ev.trim) done (RS.init []) s ∧
      (sem n).renderNode ⟨r, name, data, sink⟩ failed tr s = (.err e, t) ∧ s.out <+: t.out := by
  obtain ⟨pre, m, post, s1, ev, h1, h2, h3, h4⟩ := runEvents_err _ _ _ _ _ _ _ h
  change (sem n).renderNode ⟨r, name, data, sink⟩ ev.node ev.trim s1 = _ at h4
  rw [h3] at h4
  refine ⟨pre, m, post, s1, ev.trim, h1, h2, h4, ?_⟩
  have := C28_grows n ⟨r, name, data, sink⟩ m ev.trim s1
  rw [h4] at this
  exact this

/-! ### Witnesses -/
section Witness
attribute [local instance] exHost

/-- A registry with a partial calling itself, and a helper calling a template that calls it. -/
def cyclic : Reg := (((Reg.new.insert c!"a" c!"x{{> a}}").2.insert c!"b" c!"{{again}}").2).insertHelper c!"again"
  (fun _ _ => .once c!"f" c!"{{again}}" .null fun
    | .ok s => .write s fun _ => .ret none
    | .error e => .fail e)

/-- The outcome of rendering a source text. -/
def runSrc (n : Nat) (r : Reg) (src : Str) : Option (Res Unit × RS) :=
  match compile src ⟨c!"m", 0, 0⟩ with
  | .ok doc => some (renderTo n r stringSink c!"m" doc .null)
  | _ => none

-- the outer partial is entered, the inner one is refused after `x` was written
example : (runSrc 40 cyclic c!"{{> a}}").map (fun x => (x.2.trace, outText x.2.out, match x.1 with
    | .err (.partialCycle n) => some n
    | _ => none)) = some ([.enter (.part c!"a"), .leave], c!"x", some c!"a") := by decide +kernel
-- 32 nested calls of the helper are made
example : (runSrc 200 cyclic c!"{{again}}").map (fun x => (x.2.trace.length, match x.1 with
    | .err _ => true
    | _ => false)) = some (64, true) := by decide +kernel
end Witness

end Bracket.Props
