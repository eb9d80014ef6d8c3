import Verif.Lemmas.Direct
import Verif.Props.Io

/-! C94: what is written does not depend on the destination; and C64 for every template and helper. -/

set_option linter.unusedSectionVars false

namespace Bracket.Props
open Spec

section
variable [Host]

/-- **C94**: whatever the destination, as long as its writes succeed the render does exactly what it does
with a string: it has the same result and hands over the same texts in the same order.  Once a write fails,
the render fails, and what was handed over until then is what the render with the string begins with. -/
theorem C94_string (r : Reg) (hr : PromptReg r) (n : Nat) (sink : Sink) (name : Str) (doc : Node) (data : Value)
    (res res' : Res Unit) (t t' : RS) (h : renderTo n r sink name doc data = (res, t))
    (h' : renderTo n r stringSink name doc data = (res', t')) :
    (Clean t.out → res = res' ∧ chunks t.out = chunks t'.out) ∧
    (¬ Clean t.out → (∃ e, res = .err e) ∧ chunks t.out <+: chunks t'.out) := by
  have := Follow.renderTo_follows (r := r) (r' := r) ⟨rfl, rfl, rfl, rfl, rfl, rfl, id⟩ hr (F := True) (c := sink) (c' := stringSink)
    (.inr trivial) Follow.good_string doc n name data
  rw [h, h'] at this
  rcases this with ⟨q, u, vs, e1, e2, e3, e4⟩ | ⟨h1 | h1, h2⟩
  · cases e1; cases e2
    exact ⟨fun _ => ⟨rfl, e3⟩, fun hc => absurd e4.clean hc⟩
  · obtain ⟨e, he, ⟨_, hc⟩ | hn⟩ := h1
    · exact ⟨fun h => absurd h hc, fun _ => ⟨⟨e, he⟩, h2⟩⟩
    · exact absurd rfl hn
  · exact absurd rfl h1.1

theorem outText_prefix {ws vs : List Wr} (h : chunks ws <+: chunks vs) : outText ws <+: outText vs := by
  have e : ∀ l : List Wr, outText l = (chunks l).flatten := by
    intro l; unfold outText chunks; rw [List.flatMap_def]
  rw [e, e]
  obtain ⟨q, hq⟩ := h
  exact ⟨q.flatten, by rw [← hq, List.flatten_append]⟩

/-- **C94**, at the API: when no write failed, `render_to_write` has the result of `render`, and has handed
over the text that `render` returns. -/
theorem C94_api (r : Reg) (hr : PromptReg r) (n : Nat) (sink : Sink) (name : Str) (data : Value) (res : Out Unit) (ws : List Wr)
    (h : r.renderToWrite n sink name data = (res, ws)) (hc : Clean ws) :
    r.render n name data = giving (outText ws) res := by
  unfold Reg.render
  unfold Reg.renderToWrite at h ⊢
  cases ht : assoc name r.templates with
  | none =>
      rw [ht] at h
      cases h
      rfl
  | some tm =>
      rw [ht] at h
      simp only at h ⊢
      rcases hx : renderTo n r sink name tm.node data with ⟨x, t⟩
      rcases hy : renderTo n r stringSink name tm.node data with ⟨y, t'⟩
      rw [hx] at h
      have hws : t.out = ws := by cases x <;> cases h <;> rfl
      obtain ⟨rfl, h2⟩ := (C94_string r hr n sink name tm.node data x y t t' hx hy).1 (by rw [hws]; exact hc)
      rw [hws] at h2
      cases x with
      | ok a => cases h; exact congrArg Out.ok (Follow.outText_chunks h2).symm
      | err e => cases h; rfl
      | panic => cases h; rfl
      | fuel => cases h; rfl

/-- **C94**: whatever happens at the destination, what was handed over is what the text begins with. -/
theorem C94_prefix (r : Reg) (hr : PromptReg r) (n : Nat) (sink : Sink) (name : Str) (data : Value) (w : Str)
    (h : r.render n name data = .ok w) : outText (r.renderToWrite n sink name data).2 <+: w := by
  unfold Reg.render at h
  unfold Reg.renderToWrite at h ⊢
  cases ht : assoc name r.templates with
  | none => rw [ht] at h; cases h
  | some tm =>
      rw [ht] at h
      simp only at h ⊢
      rcases hx : renderTo n r sink name tm.node data with ⟨x, t⟩
      rcases hy : renderTo n r stringSink name tm.node data with ⟨y, t'⟩
      rw [hy] at h
      have hw : outText t'.out = w := by cases y <;> cases h <;> rfl
      have := C94_string r hr n sink name tm.node data x y t t' hx hy
      have hp : chunks t.out <+: chunks t'.out := by
        by_cases hc : Clean t.out
        · rw [(this.1 hc).2]; exact List.prefix_rfl
        · exact (this.2 hc).2
      rw [← hw]
      cases x <;> exact outText_prefix hp

/-- **C94**: of two destinations, what one was handed is what the other was handed, or begins it. -/
theorem C94_two (r : Reg) (hr : PromptReg r) (n : Nat) (sink sink' : Sink) (name : Str) (doc : Node) (data : Value) :
    let ws := chunks (renderTo n r sink name doc data).2.out
    let ws' := chunks (renderTo n r sink' name doc data).2.out
    ws <+: ws' ∨ ws' <+: ws := by
  have : ∀ s, chunks (renderTo n r s name doc data).2.out <+: chunks (renderTo n r stringSink name doc data).2.out := by
    intro s
    rcases hx : renderTo n r s name doc data with ⟨x, t⟩
    rcases hy : renderTo n r stringSink name doc data with ⟨y, t'⟩
    have := C94_string r hr n s name doc data _ _ _ _ hx hy
    by_cases hc : Clean t.out
    · show chunks t.out <+: chunks t'.out
      rw [(this.1 hc).2]; exact List.prefix_rfl
    · exact (this.2 hc).2
  exact List.prefix_or_prefix_of_prefix (this _) (this _)

/-- **C64** for every template, compiled from any text, and all helpers that give up at the first error:
what is written in strict mode is what is written without begins with, and when the rendering in strict mode
succeeds, so does the other, with the same output. -/
theorem C64_compiled (r : Reg) (hr : PromptReg r) (n : Nat) (sink sink' : Sink) (hs : ∀ ws w, ∃ n, sink' ws w = .ok n) (name : Str) (data : Value) :
    let x := Reg.renderToWrite n { r with strict := true } sink name data
    let y := Reg.renderToWrite n { r with strict := false } sink' name data
    chunks x.2 <+: chunks y.2 ∧ (x.1 = .ok () → y.1 = .ok () ∧ chunks x.2 = chunks y.2) := by
  intro x y
  have hr' : PromptReg { r with strict := true } := ⟨hr.1, hr.2, hr.3, hr.4⟩
  have hx : x = Reg.renderToWrite n { r with strict := true } sink name data := rfl
  have hy : y = Reg.renderToWrite n { r with strict := false } sink' name data := rfl
  clear_value x y
  unfold Reg.renderToWrite at hx hy
  simp only at hx hy
  cases ht : assoc name r.templates with
  | none =>
      rw [ht] at hx hy
      subst hx; subst hy
      exact ⟨List.prefix_rfl, nofun⟩
  | some tm =>
      rw [ht] at hx hy
      simp only at hx hy
      have := Follow.renderTo_follows (r := { r with strict := true }) (r' := { r with strict := false }) ⟨rfl, rfl, rfl, rfl, rfl, rfl, nofun⟩ hr'
        (F := True) (c := sink) (c' := sink') (.inr trivial) hs tm.node n name data
      rcases h1 : renderTo n { r with strict := true } sink name tm.node data with ⟨u, t⟩
      rcases h2 : renderTo n { r with strict := false } sink' name tm.node data with ⟨v, t'⟩
      rw [h1] at hx this
      rw [h2] at hy this
      have ho : x.2 = t.out := by rw [hx]; cases u <;> rfl
      have ho' : y.2 = t'.out := by rw [hy]; cases v <;> rfl
      rw [ho, ho']
      rcases this with ⟨q, w, vs, e1, e2, e3, e4⟩ | ⟨hst, hp⟩
      · cases e1; cases e2
        refine ⟨?_, fun hok => ⟨?_, e3⟩⟩
        · show chunks t.out <+: chunks vs
          rw [e3]; exact List.prefix_rfl
        · rw [hx] at hok; rw [hy]
          cases u with
          | ok a => rfl
          | err e => cases hok
          | panic => cases hok
          | fuel => cases hok
      · refine ⟨hp, fun hok => ?_⟩
        rw [hx] at hok
        rcases hst with ⟨e, he, _⟩ | ⟨_, he⟩
        · simp only at he; subst he; cases hok
        · simp only at he; subst he; cases hok

/-! ### The built-in helpers -/

theorem direct_tmpl (n : Node) (k : Prog) (h : Prompt k) : Prompt (.tmpl n k) := by
  refine .template _ _ ?_ ?_
  · intro r; cases r with
    | ok a => exact h
    | error e => exact .fail e
  · intro e; exact ⟨e, rfl⟩

theorem direct_arity (c : Ctx) (lo hi : Nat) (k : Prog) (h : Prompt k) : Prompt (c.withArity lo hi k) := by
  unfold Ctx.withArity
  split
  · exact h
  · exact .fail _

theorem direct_tryInverse (n : Node) : Prompt (.tryInverse n) := by
  refine .inverse _ _ ?_ ?_
  · intro r
    cases r with
    | error e => exact .fail e
    | ok m => cases m with
      | none => exact .ret _
      | some m => exact direct_tmpl _ _ (.ret _)
  · intro e; exact ⟨e, rfl⟩

theorem direct_eachObj (n : Node) : ∀ l i, Prompt (eachObj n i l) := by
  intro l
  induction l with
  | nil => intro i; exact .popScope _ fun _ => .ret _
  | cons x l ih => obtain ⟨k, v⟩ := x; exact fun i => .scopeMut _ _ fun _ => direct_tmpl _ _ (ih _)

theorem direct_eachArr (n : Node) (len : Nat) : ∀ l i, Prompt (eachArr n len i l) := by
  intro l
  induction l with
  | nil => intro i; exact .popScope _ fun _ => .ret _
  | cons v l ih => exact fun i => .scopeMut _ _ fun _ => direct_tmpl _ _ (ih _)

theorem direct_log (lvl : Str) : ∀ l, Prompt (logLines lvl l) := by
  intro l
  induction l with
  | nil => exact .ret _
  | cons x l ih => exact .log _ _ _ ih

theorem direct_cmp (f : F64 → F64 → Bool) (ctx : Ctx) (content : Option Node) : Prompt (hCmp f ctx content) := by
  refine direct_arity _ _ _ _ ?_
  split
  · exact .fail _
  · split
    · exact .fail _
    · split
      · exact .ret _
      · exact .fail _

/-- C94: the built-in helpers give up at the first error. -/
theorem C94_builtins (name : Str) (h : HelperFn) (hh : (name, h) ∈ builtins) (ctx : Ctx) (content : Option Node) :
    Prompt (h ctx content) := by
  simp only [builtins, List.mem_cons, Prod.mk.injEq, List.not_mem_nil, or_false] at hh
  rcases hh with ⟨_, rfl⟩ | ⟨_, rfl⟩ | ⟨_, rfl⟩ | ⟨_, rfl⟩ | ⟨_, rfl⟩ | ⟨_, rfl⟩ | ⟨_, rfl⟩ | ⟨_, rfl⟩ |
    ⟨_, rfl⟩ | ⟨_, rfl⟩ | ⟨_, rfl⟩ | ⟨_, rfl⟩ | ⟨_, rfl⟩ | ⟨_, rfl⟩ | ⟨_, rfl⟩ | ⟨_, rfl⟩
  · refine direct_arity _ _ _ _ ?_
    split
    · exact .panic
    · split
      · split
        · exact direct_tmpl _ _ (.ret _)
        · exact direct_tryInverse _
      · exact .ret _
  · refine direct_arity _ _ _ _ ?_
    split
    · split
      · exact .panic
      · split
        · exact direct_tmpl _ _ (.ret _)
        · exact direct_tryInverse _
    · exact .ret _
  · exact direct_cmp _ _ _
  · exact direct_cmp _ _ _
  · exact direct_cmp _ _ _
  · exact direct_cmp _ _ _
  · exact direct_cmp _ _ _
  · exact direct_cmp _ _ _
  · refine direct_arity _ _ _ _ ?_
    simp only
    split
    · exact direct_log _ _
    · exact direct_log _ _
    · exact .panic
  · refine direct_arity _ _ _ _ ?_
    split
    · exact .panic
    · split
      · split
        · exact .ret _
        · exact .fail _
      · exact .panic
      · exact .panic
  · refine direct_arity _ _ _ _ ?_
    split <;> first | exact .ret _ | exact .panic
  · refine direct_arity _ _ _ _ ?_
    split <;> first | exact .ret _ | exact .panic
  · refine direct_arity _ _ _ _ ?_
    split <;> first | exact .ret _ | exact .panic
  · refine direct_arity _ _ _ _ ?_
    split
    · exact .ret _
    · exact .ret _
    · split
      · exact .pushScope _ _ (.scopeMut _ _ fun _ => direct_tmpl _ _ (.popScope _ fun _ => .ret _))
      · exact .ret _
  · refine direct_arity _ _ _ _ ?_
    split
    · split
      · exact .panic
      · refine .pushScope _ _ ?_
        split
        · exact direct_eachObj _ _ _
        · exact direct_eachArr _ _ _ _
        · exact .popScope _ fun _ => .ret _
    · exact .ret _
  · refine direct_arity _ _ _ _ ?_
    split <;> first | exact .ret _ | exact .panic

/-- C94: registries with the built-in helpers meet the assumption, whatever their templates. -/
theorem C94_default (templates : List (Str × Template)) (strict : Bool) (escape : Str → Str) :
    PromptReg { Reg.new with templates, strict, escape } :=
  ⟨fun n h e => C94_builtins n h (assoc_mem e), fun h e => by simp [Reg.new] at e,
    fun h e => by simp [Reg.new] at e, fun h e => by simp [Reg.new] at e⟩

/-- C94: a new registry meets the assumption. -/
theorem C94_new : PromptReg Reg.new := C94_default [] _ _

/-- C94: registering templates does not matter. -/
theorem C94_insert {r : Reg} (hr : PromptReg r) (name src : Str) : PromptReg (r.insert name src).2 := by
  have : (r.insert name src).2.helpers = r.helpers ∧ (r.insert name src).2.link = r.link ∧
      (r.insert name src).2.helperMissing = r.helperMissing ∧ (r.insert name src).2.blockHelperMissing = r.blockHelperMissing := by
    unfold Reg.insert
    cases compileTemplate src ⟨name, 0, 0⟩ <;> exact ⟨rfl, rfl, rfl, rfl⟩
  obtain ⟨h1, h2, h3, h4⟩ := this
  exact ⟨by rw [h1]; exact hr.1, by rw [h2]; exact hr.2, by rw [h3]; exact hr.3, by rw [h4]; exact hr.4⟩

end

section Witness
attribute [local instance] exHost

/-- A destination that takes three bytes at a time. -/
example (data : Value) (n : Nat) (res : Out Unit) (ws : List Wr)
    (h : (Reg.new.insert c!"t" c!"a{{#if x}}b{{y}}{{/if}}c").2.renderToWrite n (fun _ c => .ok (min 3 (blen c))) c!"t" data = (res, ws))
    (hc : Clean ws) :
    (Reg.new.insert c!"t" c!"a{{#if x}}b{{y}}{{/if}}c").2.render n c!"t" data =
      giving (outText ws) res :=
  C94_api _ (C94_insert (C94_new) _ _) n _ _ data res ws h hc

/-- A destination that fails its second write gets the beginning of the text. -/
example : Ex.render Reg.new c!"a{{#if x}}b{{y}}{{/if}}c" (.obj [(c!"x", .bool true)]) (failSecond (.mk 28)) = some (.helper, c!"ab") ∧
    Ex.render Reg.new c!"a{{#if x}}b{{y}}{{/if}}c" (.obj [(c!"x", .bool true)]) stringSink = some (.ok, c!"abc") := by
  constructor <;> decide +kernel

/-- A helper that writes a text before and after its block. -/
def framed : HelperFn := fun _ content =>
  .write c!"<" fun r => match r with
    | .error e => .fail e
    | .ok _ => match content with
      | none => .ret none
      | some n => .tmpl n (.write c!">" fun r => match r with
          | .error e => .fail e
          | .ok _ => .ret none)

theorem direct_framed (ctx : Ctx) (content : Option Node) : Prompt (framed ctx content) := by
  refine .write _ _ (fun r => ?_) (fun _ _ => rfl) fun e => ⟨e, rfl⟩
  cases r with
  | error e => exact .fail _
  | ok _ =>
      cases content with
      | none => exact .ret _
      | some n =>
          refine direct_tmpl _ _ (.write _ _ (fun r => ?_) (fun _ _ => rfl) fun e => ⟨e, rfl⟩)
          cases r with
          | error e => exact .fail _
          | ok _ => exact .ret _

/-- A registry with that helper meets the assumptions of `C64_compiled`; in strict mode the render stops. -/
example : PromptReg (Reg.new.insertHelper c!"f" framed) ∧
    Ex.render { Reg.new.insertHelper c!"f" framed with strict := true } c!"a{{#f}}b{{y}}c{{/f}}d" (.obj []) = some (.helper, c!"a<b") ∧
    Ex.render (Reg.new.insertHelper c!"f" framed) c!"a{{#f}}b{{y}}c{{/f}}d" (.obj []) = some (.ok, c!"a<bc>d") := by
  refine ⟨⟨fun n h e => ?_, (fun h e => by cases e), (fun h e => by cases e), (fun h e => by cases e)⟩, ?_, ?_⟩
  · change assoc n (assocInsert c!"f" framed Reg.new.helpers) = _ at e
    by_cases hn : n = c!"f"
    · subst hn; rw [assoc_insert_self] at e; cases e; exact direct_framed
    · rw [assoc_insert_ne _ _ hn] at e; exact C94_new.helpers n h e
  · decide +kernel
  · decide +kernel

/-- A helper that looks at the error and goes on is not prompt, and then the destination does matter. -/
def stubborn : HelperFn := fun _ _ =>
  .write c!"a" fun r => match r with
    | .ok _ => .ret none
    | .error _ => .write c!"b" fun _ => .ret none

example : ¬ Prompt (stubborn ⟨Call.new [] ⟨0, 0⟩ ⟨0, 0⟩, [], [], [], none, none, []⟩ none) := by
  intro h
  unfold stubborn at h
  cases h with
  | write _ _ _ _ err =>
      obtain ⟨e, he⟩ := err (.io (.mk 0))
      cases he

example : Ex.render (Reg.new.insertHelper c!"s" stubborn) c!"x{{s}}" (.obj []) (failSecond (.mk 28)) = some (.ok, c!"xab") ∧
    Ex.render (Reg.new.insertHelper c!"s" stubborn) c!"x{{s}}" (.obj []) stringSink = some (.ok, c!"xa") := by
  constructor <;> decide +kernel

end Witness
end Bracket.Props
