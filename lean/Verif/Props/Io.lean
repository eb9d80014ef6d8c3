import Verif.Lemmas.Io
import Verif.Lemmas.Examples
import Verif.Model.Output

/-! C46: the destination. -/

set_option linter.unusedSectionVars false

namespace Bracket.Props
open Spec RM

section
variable [Host]

/-! ### Errors of the destination -/

/-- C46: with helpers that pass on the destination's errors, the destination is asked to write one chunk
after another and, when it fails a write, the render stops there with an error that carries its error;
when the render succeeds (or fails for another reason) every write succeeded. -/
theorem C46_aborts (n : Nat) (r : Reg) (hr : HonestReg r) (sink : Sink) (name : Str) (doc : Node) (data : Value)
    (res : Res Unit) (t : RS) (h : renderTo n r sink name doc data = (res, t)) :
    Answers sink [] t.out ∧
      (Clean t.out ∨ ∃ init w io e, t.out = init ++ [w] ∧ Clean init ∧ w.res = .error io ∧ res = .err e ∧ Carries io e) := by
  have := Io.renderAll (sink := sink) (Io.semOk hr n) (E := { reg := r, name, root := data, sink }) ⟨rfl, rfl⟩ doc (RS.init [])
    (fun n h e => by cases e)
  unfold Io.OkAt at this
  change Io.Step sink (Io.errOf (renderTo n r sink name doc data).1) (RS.init []) (renderTo n r sink name doc data).2 at this
  rw [h] at this
  obtain ⟨ws, h1, h2, h3⟩ := this.writes
  have h1' : t.out = ws := h1
  subst h1'
  refine ⟨h2, ?_⟩
  rcases h3 with h3 | ⟨init, w, io, e, g1, g2, g3, g4, g5⟩
  · exact .inl h3
  · refine .inr ⟨init, w, io, e, g1, g2, g3, ?_, g5⟩
    cases res with
    | err x => cases g4; rfl
    | ok a => cases g4
    | panic => cases g4
    | fuel => cases g4

/-- C46, at the API: when `render_to_write` succeeds no write failed, and when a write failed it was the
last one and the result is a render error that carries the destination's error. -/
theorem C46_api (n : Nat) (r : Reg) (hr : HonestReg r) (sink : Sink) (name : Str) (data : Value)
    (res : Out Unit) (ws : List Wr) (h : r.renderToWrite n sink name data = (res, ws)) :
    Answers sink [] ws ∧ ((∃ a, res = .ok a) → Clean ws) ∧
      ∀ w ∈ ws, ∀ io, w.res = .error io → (∃ init, ws = init ++ [w] ∧ Clean init) ∧ ∃ e, res = .err (.render e) ∧ Carries io e := by
  unfold Reg.renderToWrite at h
  cases ht : assoc name r.templates with
  | none =>
      rw [ht] at h
      cases h
      exact ⟨trivial, fun _ w hw => (by cases hw), fun w hw => (by cases hw)⟩
  | some tm =>
      rw [ht] at h
      simp only at h
      rcases hx : renderTo n r sink name tm.node data with ⟨x, t⟩
      rw [hx] at h
      obtain ⟨h1, h2⟩ := C46_aborts n r hr sink name tm.node data x t hx
      have hws : ws = t.out := by cases x <;> cases h <;> rfl
      subst hws
      refine ⟨h1, ?_, ?_⟩
      · rintro ⟨a, rfl⟩
        rcases h2 with h2 | ⟨_, _, _, e, _, _, _, rfl, _⟩
        · exact h2
        · cases h
      · intro w hw io hio
        rcases h2 with h2 | ⟨init, w', io', e, g1, g2, g3, rfl, g5⟩
        · obtain ⟨m, hm⟩ := h2 w hw
          rw [hio] at hm; cases hm
        · rw [g1] at hw
          rcases List.mem_append.1 hw with hw | hw
          · obtain ⟨m, hm⟩ := g2 w hw
            rw [hio] at hm; cases hm
          · cases List.mem_singleton.1 hw
            rw [hio] at g3
            cases g3
            cases h
            exact ⟨⟨init, g1, g2⟩, e, rfl, g5⟩

/-! ### The built-in helpers -/

theorem honest_tmpl (n : Node) (k : Prog) (h : Honest k) : Honest (.tmpl n k) := by
  refine .template _ _ ?_ ?_
  · intro r; cases r with
    | ok a => exact h
    | error e => exact .fail e
  · intro io e he; exact ⟨e, rfl, he⟩

theorem honest_arity (c : Ctx) (lo hi : Nat) (k : Prog) (h : Honest k) : Honest (c.withArity lo hi k) := by
  unfold Ctx.withArity
  split
  · exact h
  · exact .fail _

theorem honest_tryInverse (n : Node) : Honest (.tryInverse n) := by
  refine .inverse _ _ ?_ ?_
  · intro r
    cases r with
    | error e => exact .fail e
    | ok m => cases m with
      | none => exact .ret _
      | some m => exact honest_tmpl _ _ (.ret _)
  · intro io e he; exact ⟨e, rfl, he⟩

theorem honest_eachObj (n : Node) : ∀ l i, Honest (eachObj n i l) := by
  intro l
  induction l with
  | nil => intro i; exact .popScope _ fun _ => .ret _
  | cons x l ih => obtain ⟨k, v⟩ := x; exact fun i => .scopeMut _ _ fun _ => honest_tmpl _ _ (ih _)

theorem honest_eachArr (n : Node) (len : Nat) : ∀ l i, Honest (eachArr n len i l) := by
  intro l
  induction l with
  | nil => intro i; exact .popScope _ fun _ => .ret _
  | cons v l ih => exact fun i => .scopeMut _ _ fun _ => honest_tmpl _ _ (ih _)

theorem honest_log (lvl : Str) : ∀ l, Honest (logLines lvl l) := by
  intro l
  induction l with
  | nil => exact .ret _
  | cons x l ih => exact .log _ _ _ ih

theorem honest_cmp (f : F64 → F64 → Bool) (ctx : Ctx) (content : Option Node) : Honest (hCmp f ctx content) := by
  refine honest_arity _ _ _ _ ?_
  split
  · exact .fail _
  · split
    · exact .fail _
    · split
      · exact .ret _
      · exact .fail _

/-- C46: the built-in helpers pass on the destination's errors. -/
theorem C46_builtins (name : Str) (h : HelperFn) (hh : (name, h) ∈ builtins) (ctx : Ctx) (content : Option Node) :
    Honest (h ctx content) := by
  simp only [builtins, List.mem_cons, Prod.mk.injEq, List.not_mem_nil, or_false] at hh
  rcases hh with ⟨_, rfl⟩ | ⟨_, rfl⟩ | ⟨_, rfl⟩ | ⟨_, rfl⟩ | ⟨_, rfl⟩ | ⟨_, rfl⟩ | ⟨_, rfl⟩ | ⟨_, rfl⟩ |
    ⟨_, rfl⟩ | ⟨_, rfl⟩ | ⟨_, rfl⟩ | ⟨_, rfl⟩ | ⟨_, rfl⟩ | ⟨_, rfl⟩ | ⟨_, rfl⟩ | ⟨_, rfl⟩
  · refine honest_arity _ _ _ _ ?_
    split
    · exact .panic
    · split
      · split
        · exact honest_tmpl _ _ (.ret _)
        · exact honest_tryInverse _
      · exact .ret _
  · refine honest_arity _ _ _ _ ?_
    split
    · split
      · exact .panic
      · split
        · exact honest_tmpl _ _ (.ret _)
        · exact honest_tryInverse _
    · exact .ret _
  · exact honest_cmp _ _ _
  · exact honest_cmp _ _ _
  · exact honest_cmp _ _ _
  · exact honest_cmp _ _ _
  · exact honest_cmp _ _ _
  · exact honest_cmp _ _ _
  · refine honest_arity _ _ _ _ ?_
    simp only
    split
    · exact honest_log _ _
    · exact honest_log _ _
    · exact .panic
  · refine honest_arity _ _ _ _ ?_
    split
    · exact .panic
    · split
      · split
        · exact .ret _
        · exact .fail _
      · exact .panic
      · exact .panic
  · refine honest_arity _ _ _ _ ?_
    split <;> first | exact .ret _ | exact .panic
  · refine honest_arity _ _ _ _ ?_
    split <;> first | exact .ret _ | exact .panic
  · refine honest_arity _ _ _ _ ?_
    split <;> first | exact .ret _ | exact .panic
  · refine honest_arity _ _ _ _ ?_
    split
    · exact .ret _
    · exact .ret _
    · split
      · exact .pushScope _ _ (.scopeMut _ _ fun _ => honest_tmpl _ _ (.popScope _ fun _ => .ret _))
      · exact .ret _
  · refine honest_arity _ _ _ _ ?_
    split
    · split
      · exact .panic
      · refine .pushScope _ _ ?_
        split
        · exact honest_eachObj _ _ _
        · exact honest_eachArr _ _ _ _
        · exact .popScope _ fun _ => .ret _
    · exact .ret _
  · refine honest_arity _ _ _ _ ?_
    split <;> first | exact .ret _ | exact .panic

/-- C46: registries with the built-in helpers meet the assumption of `C46_aborts`, whatever their
templates. -/
theorem C46_default (templates : List (Str × Template)) (strict : Bool) (escape : Str → Str) :
    HonestReg { Reg.new with templates, strict, escape } :=
  ⟨fun n h e => C46_builtins n h (assoc_mem e), fun h e => by simp [Reg.new] at e,
    fun h e => by simp [Reg.new] at e, fun h e => by simp [Reg.new] at e⟩

/-! ### String output -/

/-- The text of a `StringOutput` after a sequence of writes. -/
def stringAfter (o : StringOutput) (chunks : List Str) : StringOutput := chunks.foldl (fun o s => (o.writeStr s).2) o

/-- C46: a `StringOutput` receives exactly the concatenation of the writes. -/
theorem C46_string (chunks : List Str) (o : StringOutput) : (stringAfter o chunks).value = o.value ++ chunks.flatten := by
  induction chunks generalizing o with
  | nil => simp [stringAfter]
  | cons c cs ih =>
      show (stringAfter (o.writeStr c).2 cs).value = _
      rw [ih]
      simp [StringOutput.writeStr]

/-- C46: the destination of `render` behaves like a `StringOutput`, and `render` returns its final text. -/
theorem C46_render (n : Nat) (r : Reg) (name : Str) (data : Value) (s : Str) (h : r.render n name data = .ok s) :
    ∃ ws a, r.renderToWrite n stringSink name data = (.ok a, ws) ∧
      s = (stringAfter StringOutput.new (ws.map (·.chunk))).value ∧
      ∀ before c, stringSink before c = ((stringAfter StringOutput.new (before.map (·.chunk))).writeStr c).1 := by
  unfold Reg.render at h
  rcases hx : r.renderToWrite n stringSink name data with ⟨x, ws⟩
  rw [hx] at h
  cases x with
  | ok a =>
      cases h
      refine ⟨ws, a, rfl, ?_, fun _ _ => rfl⟩
      rw [C46_string]
      simp [StringOutput.new, outText, List.flatMap]
  | err e => cases h
  | panic => cases h
  | fuel => cases h

/-! ### Writers -/

/-- What a well-behaved device holds: a successful write of `n` bytes appends the first `n` bytes offered. -/
structure DeviceHolds {σ : Type} (d : Device σ) (content : σ → List UInt8) : Prop where
  took : ∀ st bytes n, (d.write st bytes).1 = .ok n → n ≤ bytes.length ∧
    content (d.write st bytes).2 = content st ++ bytes.take n

/-- C46, partial: a device that takes all bytes of every successful write holds, at the end of a successful
render, exactly the bytes of what was written. -/
theorem C46_written_partial {σ : Type} (d : Device σ) (content : σ → List UInt8) (hd : DeviceHolds d content)
    (hall : ∀ st bytes n, (d.write st bytes).1 = .ok n → n = bytes.length) (st : σ)
    (n : Nat) (r : Reg) (hr : HonestReg r) (name : Str) (data : Value) (ws : List Wr) (a : Unit)
    (h : r.renderToWrite n (d.sink st) name data = (.ok a, ws)) :
    content (d.after st ws) = content st ++ utf8 (outText ws) := by
  obtain ⟨h1, h2, _⟩ := C46_api n r hr (d.sink st) name data _ ws h
  have hc := h2 ⟨a, rfl⟩
  have : ∀ ws before, Answers (d.sink st) before ws → Clean ws →
      content (d.after st (before ++ ws)) = content (d.after st before) ++ utf8 (outText ws) := by
    intro ws
    induction ws with
    | nil => intro before _ _; simp [outText, utf8]
    | cons w ws ih =>
        intro before ha hc
        obtain ⟨k, hk⟩ := hc w List.mem_cons_self
        have := ih (before ++ [w]) ha.2 fun x hx => hc x (List.mem_cons_of_mem _ hx)
        rw [List.append_assoc] at this
        rw [show before ++ w :: ws = before ++ ([w] ++ ws) from rfl, this]
        have hw : (d.write (d.after st before) (utf8 w.chunk)).1 = .ok k := by
          rw [← hk]; exact ha.1.symm
        have e : d.after st (before ++ [w]) = (d.write (d.after st before) (utf8 w.chunk)).2 := by
          simp [Device.after, Device.writeStr, List.foldl_append]
        rw [e, (hd.took _ _ _ hw).2, hall _ _ _ hw, List.take_length]
        simp [outText, utf8, List.flatMap_append, List.append_assoc]
  have := this ws [] h1 hc
  simpa [Device.after] using this

end

section Witness
attribute [local instance] exHost

/-- A device that takes at most one byte at a time, as `io::Write` allows. -/
def slowDevice : Device (List UInt8) where
  write := fun st bytes => (.ok (bytes.take 1).length, st ++ bytes.take 1)

/-- It behaves as `io::Write` requires. -/
theorem slow_holds : DeviceHolds slowDevice id := by
  refine ⟨?_⟩
  intro st bytes n h
  cases h
  constructor
  · simp only [List.length_take]; omega
  · simp only [slowDevice, id, List.length_take]
    cases bytes with
    | nil => simp
    | cons b bs => simp

/-- C46 is violated: `Writer::write_str` calls `write` once and ignores how many bytes were taken, so
rendering to a slow device succeeds although most bytes are lost. -/
theorem C46_violated :
    let r := (Reg.new.insert c!"t" c!"ab{{x}}").2
    let x := r.renderToWrite 20 (slowDevice.sink []) c!"t" (.obj [(c!"x", .str c!"cd")])
    (match x.1 with | .ok _ => true | _ => false) = true ∧ outText x.2 = c!"abcd" ∧
      slowDevice.after [] x.2 = utf8 c!"ac" := by decide +kernel

/-- A destination that fails its second write. -/
def failSecond (e : IoErr) : Sink := fun ws c => if ws.length = 1 then .error e else .ok (blen c)

/-- The failing case of `C46_aborts` occurs, inside a helper's block. -/
example : Ex.render Reg.new c!"a{{#if x}}b{{y}}{{/if}}c" (.obj [(c!"x", .bool true)]) (failSecond (.mk 28)) =
    some (.helper, c!"ab") := by decide +kernel

end Witness
end Bracket.Props
