import Verif.Lemmas.Core
import Verif.Lemmas.Args
import Verif.Props.Invoke

/-! The value of expressions. -/

set_option linter.unusedSectionVars false
set_option linter.unusedSimpArgs false

namespace Bracket.Props
open Bracket Re Spec

section
variable [Host] [Custom]

/-- The state of the renderer fits the scene. -/
structure At (Γ : Scene) (E : Env) (s : RS) : Prop where
  helpers : ∀ w, assoc w E.reg.helpers = helperFn w
  link : E.reg.link = Custom.link.map CustomFn.prog
  helperMissing : E.reg.helperMissing = Custom.missing.map missingProg
  blockHelperMissing : E.reg.blockHelperMissing = Custom.blockMissing.map blockMissingProg
  strict : E.reg.strict = Γ.strict
  escape : E.reg.escape = Γ.escape
  name : E.name = Γ.file
  root : E.root = Γ.root
  sink : ∀ ws w, ∃ n, E.sink ws w = .ok n
  scopes : s.scopes = Γ.scopes
  stack : s.stack = Γ.calls
  locals : s.locals = []

/-- Only what has been written, the log and the trace differ; `w` has been written. -/
def Silent (w : Str) (s t : RS) : Prop :=
  ∃ o l tr, t = { s with out := s.out ++ o, logs := l, trace := tr } ∧ outText o = w

theorem outText_append (a b : List Wr) : outText (a ++ b) = outText a ++ outText b := by simp [outText]

theorem Silent.refl (s : RS) : Silent [] s s := ⟨[], s.logs, s.trace, by simp, rfl⟩
theorem Silent.trans {a b : Str} {s t u : RS} (h : Silent a s t) (h' : Silent b t u) : Silent (a ++ b) s u := by
  obtain ⟨o, l, tr, rfl, rfl⟩ := h
  obtain ⟨o', l', tr', rfl, rfl⟩ := h'
  exact ⟨o ++ o', l', tr', by simp, outText_append _ _⟩
theorem Silent.out {w : Str} {s t : RS} (h : Silent w s t) : outText t.out = outText s.out ++ w := by
  obtain ⟨o, l, tr, rfl, rfl⟩ := h; exact outText_append _ _
theorem Silent.at {w : Str} {Γ : Scene} {E : Env} {s t : RS} (h : Silent w s t) (ha : At Γ E s) : At Γ E t := by
  obtain ⟨o, l, tr, rfl, rfl⟩ := h
  exact ⟨ha.1, ha.2, ha.3, ha.4, ha.5, ha.6, ha.7, ha.8, ha.9, ha.10, ha.11, ha.12⟩

/-- White space is removed from what is written as `k` says. -/
def Trims (k : Cut) (s : RS) : Prop := s.trim = ⟨k.start, k.stop⟩

theorem Silent.trims {w : Str} {k : Cut} {s t : RS} (h : Silent w s t) (ht : Trims k s) : Trims k t := by
  obtain ⟨o, l, tr, rfl, rfl⟩ := h
  exact ht

/-- A fault as a result. -/
def _root_.Bracket.Spec.Fault.res {α : Type} : Fault → Res α
  | .err e => .err e
  | .panic => .panic

theorem res_ne {α : Type} (f : Fault) : (f.res : Res α) ≠ .fuel := by cases f <;> simp [Fault.res]
theorem res_notOk {α : Type} (f : Fault) : (f.res : Res α).isOk = false := by cases f <;> rfl
theorem res_cast {α β : Type} (f : Fault) : ((f.res : Res α).cast : Res β) = f.res := by cases f <;> rfl

/-- The computation writes and yields what `x` says. -/
def Sees {α β : Type} (f : Nat → RM α) (s : RS) (x : Said β) (R : β → α → Prop) : Prop :=
  match x.2 with
  | .ok b => ∃ a t, Eval f s (.ok a) t ∧ Silent x.1 s t ∧ R b a
  | .error e => ∃ t, Eval f s e.res t ∧ outText t.out = outText s.out ++ x.1

theorem Sees.pure {α β : Type} {a : α} {b : β} {s : RS} {R : β → α → Prop} (h : R b a) :
    Sees (fun _ => (Pure.pure a : RM α)) s (said b) R := ⟨a, s, Spec.Eval.pure.2 ⟨rfl, rfl⟩, .refl s, h⟩

theorem Sees.bind {α β γ δ : Type} {f : Nat → RM α} {g : α → Nat → RM γ} (hf : MonoF f) (hg : ∀ a, MonoF (g a)) {s : RS}
    {x : Said β} {R : β → α → Prop} {y : β → Said δ} {Q : δ → γ → Prop}
    (h : Sees f s x R) (h' : ∀ b a t, x.2 = .ok b → Silent x.1 s t → R b a → Sees (g a) t (y b) Q) :
    Sees (fun n => f n >>= fun a => g a n) s (x.bind y) Q := by
  obtain ⟨w, x⟩ := x
  cases x with
  | error e =>
      obtain ⟨t, h1, h2⟩ := h
      exact ⟨t, by simpa [res_cast] using h1.bindFail (g := g) (res_notOk e), h2⟩
  | ok b =>
      obtain ⟨a, t, h1, h2, h3⟩ := h
      have := h' b a t rfl h2 h3
      unfold Said.bind
      simp only at h2 ⊢
      revert this
      generalize y b = z
      obtain ⟨w', z⟩ := z
      cases z with
      | error e =>
          rintro ⟨u, h4, h5⟩
          exact ⟨u, h1.bindOk hf hg h4, by rw [h5, h2.out, List.append_assoc]⟩
      | ok d =>
          rintro ⟨c, u, h4, h5, h6⟩
          exact ⟨c, u, h1.bindOk hf hg h4, h2.trans h5, h6⟩

/-- After some steps that wrote `w`. -/
theorem Sees.after {α β : Type} {f g : Nat → RM α} {s t : RS} {w : Str} {x : Said β} {R : β → α → Prop} (h : Sees g t x R)
    (hs : Silent w s t) (hfg : ∀ r u, Eval g t r u → Eval f s r u) : Sees f s (w ++ x.1, x.2) R := by
  obtain ⟨w', x⟩ := x
  cases x with
  | error e => obtain ⟨u, h1, h2⟩ := h; exact ⟨u, hfg _ _ h1, by rw [h2, hs.out, List.append_assoc]⟩
  | ok b => obtain ⟨a, u, h1, h2, h3⟩ := h; exact ⟨a, u, hfg _ _ h1, hs.trans h2, h3⟩

theorem Sees.map {α β : Type} {f g : Nat → RM α} {s : RS} {x : Said β} {R : β → α → Prop} (h : Sees g s x R)
    (hfg : ∀ r u, Eval g s r u → Eval f s r u) : Sees f s x R := h.after (.refl s) hfg

theorem Sees.congr {α β : Type} {f g : Nat → RM α} {s : RS} {x : Said β} {R : β → α → Prop} (h : ∀ n, f n s = g n s)
    (hs : Sees g s x R) : Sees f s x R := hs.map fun _ _ h1 => (Spec.Eval.congr h).2 h1

theorem Sees.mono {α β : Type} {f : Nat → RM α} {s : RS} {x : Said β} {R Q : β → α → Prop} (h : Sees f s x R)
    (hQ : ∀ b a, R b a → Q b a) : Sees f s x Q := by
  obtain ⟨w, x⟩ := x
  cases x with
  | error e => exact h
  | ok b => obtain ⟨a, t, h1, h2, h3⟩ := h; exact ⟨a, t, h1, h2, hQ _ _ h3⟩

theorem bind_said {α β : Type} (a : α) (f : α → Said β) : (said a).bind f = f a := by simp [said, Said.bind]
theorem bind_fault {α β : Type} (e : Fault) (f : α → Said β) : (fault e : Said α).bind f = fault e := rfl
theorem said_id {α : Type} (x : Said α) : x.bind said = x := by
  obtain ⟨w, x⟩ := x
  cases x <;> simp [Said.bind, said]
theorem bind_assoc' {α β γ : Type} (x : Said α) (f : α → Said β) (g : β → Said γ) :
    (x.bind f).bind g = x.bind fun a => (f a).bind g := by
  obtain ⟨w, x⟩ := x
  cases x with
  | error e => rfl
  | ok a =>
      simp only [Said.bind]
      cases h : (f a).2 <;> simp [Said.bind, h]

/-! ### Writing -/

/-- A helper writes a text. -/
theorem run_print {Γ : Scene} {E : Env} {s : RS} {k : Cut} (ha : At Γ E s) (ht : Trims k s) (x : Print) (p : Prog) :
    ∃ t, Silent (Γ.print k x) s t ∧ ∀ n, run (sem n) E (printProg x p) s = run (sem n) E p t := by
  have he := writeStr_eq E x.text x.escaped s
  rw [show s.trim = ⟨k.start, k.stop⟩ from ht, show applyTrim ⟨k.start, k.stop⟩ x.text = Full.cut k.start k.stop x.text from rfl] at he
  have key : ∀ m t, writeStr E x.text x.escaped s = (.ok m, t) → ∀ n, run (sem n) E (printProg x p) s = run (sem n) E p t := by
    intro m t h n
    unfold printProg
    cases hx : x.escaped with
    | true =>
        rw [hx] at h
        rw [if_pos rfl]
        conv => lhs; unfold run
        simp only [RM.catchErr, h, toHelper]
    | false =>
        rw [hx] at h
        rw [if_neg (by simp)]
        conv => lhs; unfold run
        simp only [RM.catchErr, h, toHelper]
  unfold Scene.print
  by_cases h : Full.cut k.start k.stop x.text = []
  · rw [if_pos h]
    rw [if_pos (by rw [h]; rfl)] at he
    exact ⟨s, .refl s, key _ _ he⟩
  · rw [if_neg h]
    rw [if_neg (by simpa using h)] at he
    have hch : chunkOf E s x.text x.escaped = if x.escaped then Γ.escape (Full.cut k.start k.stop x.text) else Full.cut k.start k.stop x.text := by
      unfold chunkOf
      rw [show s.trim = ⟨k.start, k.stop⟩ from ht, ha.escape]
      rfl
    rw [hch] at he
    generalize (if x.escaped then Γ.escape (Full.cut k.start k.stop x.text) else Full.cut k.start k.stop x.text) = c at he ⊢
    obtain ⟨m, hm⟩ := ha.sink s.out c
    rw [hm] at he
    exact ⟨{ s with out := s.out ++ [⟨c, .ok m⟩] }, ⟨[⟨c, .ok m⟩], s.logs, s.trace, rfl, by simp [outText]⟩, key _ _ he⟩

/-- A helper writes texts. -/
theorem run_printAll {Γ : Scene} {E : Env} {k : Cut} (p : Prog) : ∀ (l : List Print) (s : RS), At Γ E s → Trims k s →
    ∃ t, Silent (Γ.printAll k l) s t ∧ ∀ n, run (sem n) E (printAllProg l p) s = run (sem n) E p t
  | [], s, ha, ht => ⟨s, .refl s, fun _ => rfl⟩
  | x :: l, s, ha, ht => by
      obtain ⟨t, h1, h2⟩ := run_print ha ht x (printAllProg l p)
      obtain ⟨u, h3, h4⟩ := run_printAll p l t (h1.at ha) (h1.trims ht)
      exact ⟨u, h1.trans h3, fun n => (h2 n).trans (h4 n)⟩

theorem at_lookup {Γ : Scene} {E : Env} {s : RS} (ha : At Γ E s) {p : SPath} {q : Path} (hr : PathRep p q) :
    lookup E.root s.scopes q = some (Γ.find p) := by
  rw [ha.root, ha.scopes]
  exact lookup_find hr Γ

/-! ### Helpers that only yield a value -/

theorem sees_ret {E : Env} {s : RS} {v : Option Value} : Sees (fun n => run (sem n) E (.ret v)) s ([], .ok v) Eq :=
  ⟨v, s, runs_ret.2 ⟨rfl, rfl⟩, .refl s, rfl⟩
theorem sees_fail {E : Env} {s : RS} {e : HelperErr} :
    Sees (fun n => run (sem n) E (.fail e)) s ([], (helperErr e : Except Fault (Option Value))) Eq :=
  ⟨s, runs_fail.2 ⟨rfl, rfl⟩, by simp⟩
theorem sees_panic {E : Env} {s : RS} {R : Option Value → Option Value → Prop} :
    Sees (fun n => run (sem n) E .panic) s ([], .error .panic) R :=
  ⟨s, ⟨by simp [Fault.res], 0, rfl⟩, by simp⟩

/-- The program of a helper yields what `x` says. -/
def Answers (E : Env) (p : Prog) (x : Except Fault (Option Value)) : Prop :=
  ∀ s, Sees (fun n => run (sem n) E p) s ([], x) Eq

theorem answers_unary {E : Env} {name : Str} {ctx : Ctx} {vs : List Value} (hv : ctx.args = vs) (hn : ctx.name = name) {k : Prog}
    {f : Value → Except Fault (Option Value)} (h : ∀ v, vs = [v] → Answers E k (f v)) :
    Answers E (ctx.withArity 1 1 k) (unary name vs f) := by
  intro s
  unfold Ctx.withArity Ctx.arity unary
  rw [hv, hn]
  match vs, h with
  | [], _ => exact sees_fail
  | [v], h => exact h v rfl s
  | _ :: _ :: _, _ => rw [if_pos rfl, if_pos (by simp)]; exact sees_fail

theorem answers_binary {E : Env} {name : Str} {ctx : Ctx} {vs : List Value} (hv : ctx.args = vs) (hn : ctx.name = name) {k : Prog}
    {f : Value → Value → Except Fault (Option Value)} (h : ∀ a b, vs = [a, b] → Answers E k (f a b)) :
    Answers E (ctx.withArity 2 2 k) (binary name vs f) := by
  intro s
  unfold Ctx.withArity Ctx.arity binary
  rw [hv, hn]
  match vs, h with
  | [], _ => exact sees_fail
  | [_], _ => exact sees_fail
  | [a, b], h => exact h a b rfl s
  | _ :: _ :: _ :: _, _ => rw [if_pos rfl, if_pos (by simp)]; exact sees_fail

theorem answers_cmp {E : Env} {name : Str} {ctx : Ctx} {vs : List Value} (hv : ctx.args = vs) (hn : ctx.name = name)
    (content : Option Node) (f : F64 → F64 → Bool) :
    Answers E (hCmp f ctx content) (binary name vs (comparison name f)) := by
  unfold hCmp
  refine answers_binary hv hn ?_
  intro a b hab s
  have h0 : ctx.get 0 = some a := by unfold Ctx.get; rw [hv, hab]; rfl
  have h1 : ctx.get 1 = some b := by unfold Ctx.get; rw [hv, hab]; rfl
  unfold Ctx.tryGet Ctx.assert
  rw [h0, h1, hn]
  cases a <;> simp only [Option.getD_some, assertKinds, assertType, comparison] <;> try exact sees_fail
  cases b <;> simp only [Option.getD_some, assertKinds, assertType, comparison] <;> first | exact sees_fail | exact sees_ret

theorem answers_log {E : Env} (lvl : Str) : ∀ ls, Answers E (logLines lvl ls) (.ok none)
  | [], s => sees_ret
  | l :: ls, s => by
      obtain ⟨v, t, h1, ⟨o, l', tr, h2, h4⟩, h3⟩ := answers_log lvl ls { s with logs := s.logs ++ [(lvl, l)] }
      obtain ⟨hne, N, hN⟩ := h1
      exact ⟨v, t, ⟨hne, N, (runs_log _ _ _ _ _ _).trans hN⟩, ⟨o, l', tr, by rw [h2], h4⟩, h3⟩

/-- Used as a block, these helpers render their content. -/
def special : List Str := [c!"if", c!"unless", c!"each", c!"with"]

theorem builtin_value {E : Env} {name : Str} {h : HelperFn} (hh : assoc name builtins = some h) {ctx : Ctx} {vs : List Value}
    {hs : List (Str × Value)} (hv : ctx.args = vs) (hn : ctx.name = name) (hp : ∀ k, ctx.param k = hs.lookup k)
    {content : Option Node} (hc : content = none ∨ name ∉ special ∨ ∀ v, vs ≠ [v]) :
    Answers E (h ctx content) (builtinValue name vs hs) := by
  have get1 : ∀ {v}, vs = [v] → ctx.get 0 = some v := by intro v e; unfold Ctx.get; rw [hv, e]; rfl
  have get2 : ∀ {a b}, vs = [a, b] → ctx.get 0 = some a ∧ ctx.get 1 = some b := by
    intro a b e; unfold Ctx.get; rw [hv, e]; exact ⟨rfl, rfl⟩
  have blocky : ∀ {v}, name ∈ special → vs = [v] → content = none := by
    intro v h1 h2
    rcases hc with h | h | h
    · exact h
    · exact absurd h1 h
    · exact absurd h2 (h v)
  unfold builtins at hh
  rw [assoc] at hh
  split at hh
  · rename_i e; cases hh; subst e
    refine answers_unary hv hn fun v e s => ?_
    rw [get1 e, blocky (by decide) e]; exact sees_ret
  rw [assoc] at hh
  split at hh
  · rename_i e; cases hh; subst e
    refine answers_unary hv hn fun v e s => ?_
    rw [blocky (by decide) e]; exact sees_ret
  rw [assoc] at hh
  split at hh
  · rename_i e; cases hh; subst e; exact answers_cmp hv hn content _
  rw [assoc] at hh
  split at hh
  · rename_i e; cases hh; subst e; exact answers_cmp hv hn content _
  rw [assoc] at hh
  split at hh
  · rename_i e; cases hh; subst e; exact answers_cmp hv hn content _
  rw [assoc] at hh
  split at hh
  · rename_i e; cases hh; subst e; exact answers_cmp hv hn content _
  rw [assoc] at hh
  split at hh
  · rename_i e; cases hh; subst e; exact answers_cmp hv hn content _
  rw [assoc] at hh
  split at hh
  · rename_i e; cases hh; subst e; exact answers_cmp hv hn content _
  rw [assoc] at hh
  split at hh
  · rename_i e; cases hh; subst e
    intro s
    show Sees _ s ([], (if vs.length = 0 ∨ 2 ^ 64 ≤ vs.length then helperErr (.arityRange c!"log" 1 (2 ^ 64 - 1))
      else match hs.lookup c!"level" with
        | none => .ok none
        | some (.str _) => .ok none
        | some _ => .error .panic)) _
    unfold hLog Ctx.withArity Ctx.arity
    rw [hv, hn, hp, if_neg (by decide)]
    by_cases hl : vs.length < 1 ∨ vs.length > 2 ^ 64 - 1
    · rw [if_pos hl, if_pos (by omega)]; exact sees_fail
    · rw [if_neg hl, if_neg (by omega)]
      simp only
      cases List.lookup c!"level" hs with
      | none => exact answers_log _ _ s
      | some v =>
          cases v <;> first | exact sees_panic | exact answers_log _ _ s
  rw [assoc] at hh
  split at hh
  · rename_i e; cases hh; subst e
    unfold hLookup
    refine answers_binary hv hn fun a b e s => ?_
    obtain ⟨h0, h1⟩ := get2 e
    unfold Ctx.tryGet Ctx.assert
    rw [h0, h1]
    cases b with
    | str f =>
        show Sees (fun n => run (sem n) E (match findField a f with
            | some v => .ret (some v)
            | none => .fail (.lookupField ctx.name f))) s ([], (match member a f with
            | some v => .ok (some v)
            | none => helperErr (.lookupField _ f))) Eq
        rw [findField_member]
        cases member a f with
        | none => simp only [hn]; exact sees_fail
        | some v => exact sees_ret
    | _ => exact sees_panic
  rw [assoc] at hh
  split at hh
  · rename_i e; cases hh; subst e
    unfold hAnd
    refine answers_binary hv hn fun a b e s => ?_
    obtain ⟨h0, h1⟩ := get2 e
    rw [h0, h1]; exact sees_ret
  rw [assoc] at hh
  split at hh
  · rename_i e; cases hh; subst e
    unfold hOr
    refine answers_binary hv hn fun a b e s => ?_
    obtain ⟨h0, h1⟩ := get2 e
    rw [h0, h1]; exact sees_ret
  rw [assoc] at hh
  split at hh
  · rename_i e; cases hh; subst e
    unfold hNot
    refine answers_unary hv hn fun v e s => ?_
    rw [get1 e]; exact sees_ret
  rw [assoc] at hh
  split at hh
  · rename_i e; cases hh; subst e
    unfold hWith
    refine answers_unary hv hn fun v e s => ?_
    rw [get1 e, blocky (by decide) e]
    cases v <;> exact sees_ret
  rw [assoc] at hh
  split at hh
  · rename_i e; cases hh; subst e
    unfold hEach
    refine answers_unary hv hn fun v e s => ?_
    rw [blocky (by decide) e]; exact sees_ret
  rw [assoc] at hh
  split at hh
  · rename_i e; cases hh; subst e
    unfold hJson
    refine answers_unary hv hn fun v e s => ?_
    rw [get1 e, hp]; exact sees_ret
  · cases hh

/-- What a helper of the application writes and yields. -/
theorem custom_value {Γ : Scene} {E : Env} {s : RS} {k : Cut} (ha : At Γ E s) (ht : Trims k s) (f : CustomFn) {ctx : Ctx} {vs : List Value}
    {hs : List (Str × Value)} (hv : ctx.args = vs) (hp : ∀ k, ctx.param k = hs.lookup k) :
    Sees (fun n => run (sem n) E (f.prog ctx none)) s (f.said Γ k vs hs) Eq := by
  have e : (fun k => ctx.param k) = fun k => hs.lookup k := funext hp
  unfold CustomFn.prog CustomFn.said
  simp only
  rw [hv, e]
  obtain ⟨t, h1, h2⟩ := run_printAll (Γ := Γ) (E := E) (k := k) (match (f.value vs (fun k => hs.lookup k)).2 with
        | .error e => .fail e
        | .ok v => .ret v) (f.value vs (fun k => hs.lookup k)).1 s ha ht
  have h3 : Sees (fun n => run (sem n) E (match (f.value vs (fun k => hs.lookup k)).2 with
        | .error e => .fail e
        | .ok v => .ret v)) t ([], (match (f.value vs (fun k => hs.lookup k)).2 with
        | .error e => .error (.err (.helper e))
        | .ok v => .ok v)) Eq := by
    cases (f.value vs (fun k => hs.lookup k)).2 with
    | error e => exact sees_fail
    | ok v => exact sees_ret
  have h4 := h3.after h1 (f := fun n => run (sem n) E (printAllProg (f.value vs (fun k => hs.lookup k)).1 (match (f.value vs (fun k => hs.lookup k)).2 with
        | .error e => .fail e
        | .ok v => .ret v))) (by
    rintro r u ⟨h5, n, h6⟩
    exact ⟨h5, n, (h2 n).trans h6⟩)
  rwa [List.append_nil] at h4

/-- What a helper writes and yields. -/
theorem helper_value {Γ : Scene} {E : Env} {s : RS} {k : Cut} (ha : At Γ E s) (ht : Trims k s) {name : Str} {h : HelperFn}
    (hh : helperFn name = some h) {ctx : Ctx} {vs : List Value}
    {hs : List (Str × Value)} (hv : ctx.args = vs) (hn : ctx.name = name) (hp : ∀ k, ctx.param k = hs.lookup k) :
    Sees (fun n => run (sem n) E (h ctx none)) s (helperValue name Γ k vs hs) Eq := by
  unfold helperFn at hh
  unfold helperValue
  cases hc : Custom.fn name with
  | none =>
      rw [hc] at hh
      exact builtin_value hh hv hn hp (.inl rfl) s
  | some f =>
      rw [hc] at hh
      cases hh
      exact custom_value ha ht f hv hp

/-! ### Calls -/

/-- The positional arguments. -/
def _root_.Bracket.Spec.SArgs.pos : SArgs → Scene → Cut → Said (List Value)
  | .done _, _, _ => said []
  | .argW _ x r, Γ, k => (x.eval Γ k).bind fun v => (r.pos Γ k).bind fun vs => said (v.getD .null :: vs)

/-- The hash arguments. -/
def _root_.Bracket.Spec.SArgs.tail : SArgs → SHash
  | .done h => h
  | .argW _ _ r => r.tail

theorem eval_split : ∀ (a : SArgs) (Γ : Scene) (k : Cut),
    a.eval Γ k = (a.pos Γ k).bind fun vs => (a.tail.eval Γ k).bind fun hs => said (vs, hs)
  | .done h, Γ, k => by
      unfold SArgs.eval SArgs.pos SArgs.tail
      rw [bind_said]
  | .argW _ x r, Γ, k => by
      unfold SArgs.eval SArgs.pos SArgs.tail
      rw [eval_split r Γ k]
      simp only [bind_assoc', bind_said]

/-- The hash that comes out is the one of the specification. -/
def SameHash (out : List (Str × Value)) (hs : List (Str × Value)) (r : List (Str × Value) × List Missing) : Prop :=
  ∀ k, assoc k r.1 = (hs.lookup k).or (assoc k out)

/-- The arguments of `c` evaluate as those of `a`. -/
structure ArgsSee (E : Env) (a : SArgs) (c : Call) : Prop where
  pos : ∀ Γ s k, At Γ E s → Trims k s → Sees (fun n => argumentsLoop (sem n) E 0 c.args []) s (a.pos Γ k) fun vs r => r.1 = vs
  hash : ∀ Γ s k ms, At Γ E s → Trims k s → Sees (fun n => hashLoop (sem n) E c.params [] ms) s (a.tail.eval Γ k) (SameHash [])

theorem at_enter {Γ : Scene} {E : Env} {s : RS} (ha : At Γ E s) (x : CallSite) : At (Γ.enter x) E (s.enter x) :=
  ⟨ha.1, ha.2, ha.3, ha.4, ha.5, ha.6, ha.7, ha.8, ha.9, ha.10, by show x :: s.stack = _; rw [ha.stack]; rfl, ha.12⟩

/-- The state after a call. -/
def afterCall {α : Type} (r : Res α) (t : RS) : RS := (finishCall (r, t)).2

omit [Custom] in
theorem eval_invoke {E : Env} {name : Str} {target : Target} {c : Call} {content : Option Node} {text : Option Str}
    {prop : Option (Str × Value)} {s t : RS} {r : Res (Option Value)} (hd : depth s name content < 32)
    (h : Eval (fun n => invokeBody (sem n) E name target c content text prop) (s.enter (siteOf name content)) r t) :
    Eval (fun n => invoke (sem n) E name target c content text prop) s r (afterCall r t) := by
  obtain ⟨h0, n, hn⟩ := h
  refine ⟨h0, n, ?_⟩
  simp only at hn ⊢
  rw [invoke_eq, depth_eq, if_neg (by unfold stackMax; omega), hn]
  unfold afterCall
  cases r <;> rfl

theorem full_iff {Γ : Scene} {E : Env} {s : RS} (ha : At Γ E s) (name : Str) (content : Option Node) :
    Γ.full (siteOf name content) = true ↔ 32 ≤ depth s name content := by
  unfold Scene.full depth
  rw [ha.stack, site_eq, decide_eq_true_iff]

theorem invoke_full {Γ : Scene} {E : Env} {s : RS} (ha : At Γ E s) {name : Str} {target : Target} {c : Call} {content : Option Node}
    {text : Option Str} {prop : Option (Str × Value)} (hf : Γ.full (siteOf name content) = true) :
    Eval (fun n => invoke (sem n) E name target c content text prop) s (.err (.helperCycle name)) s := by
  refine ⟨by simp, 0, ?_⟩
  simp only
  rw [invoke_eq, depth_eq, if_pos (show _ ≥ stackMax from (full_iff ha name content).1 hf)]

theorem invoke_badArgs {Γ : Scene} {E : Env} {s : RS} {k : Cut} (ha : At Γ E s) (hk : Trims k s) {name : Str} {target : Target} {a : SArgs} {c : Call}
    {content : Option Node} {text : Option Str} {prop : Option (Str × Value)} (hargs : ArgsSee E a c)
    (hf : Γ.full (siteOf name content) = false) {w : Str} {f : Fault} (he : a.eval (Γ.enter (siteOf name content)) k = (w, .error f)) :
    ∃ t, Eval (fun n => invoke (sem n) E name target c content text prop) s f.res t ∧ outText t.out = outText s.out ++ w := by
  have hd : depth s name content < 32 := by
    by_contra hx
    rw [(full_iff ha name content).2 (by omega)] at hf; cases hf
  suffices ∃ t, Eval (fun n => invokeBody (sem n) E name target c content text prop) (s.enter (siteOf name content)) f.res t ∧ outText t.out = outText s.out ++ w by
    obtain ⟨t, h1, h2⟩ := this
    refine ⟨_, eval_invoke hd h1, ?_⟩
    unfold afterCall
    cases f <;> exact h2
  have ha' := at_enter ha (siteOf name content)
  have hp := hargs.pos _ _ k ha' hk
  rw [eval_split] at he
  revert he hp
  generalize a.pos (Γ.enter (siteOf name content)) k = x
  obtain ⟨w1, x⟩ := x
  cases x with
  | error g =>
      intro he hp
      cases he
      obtain ⟨t, h1, h2⟩ := hp
      have h3 := h1.bindFail (g := fun a n => do
          let h ← hashLoop (sem n) E c.params [] a.2
          let s ← RM.get
          runTarget (sem n) E name target { call := c, name, args := a.1, params := h.1, text, property := prop, missing := h.2 } content s.locals) (res_notOk f)
      rw [res_cast] at h3
      exact ⟨t, h3, h2⟩
  | ok vs =>
      intro he hp
      obtain ⟨r, t, h1, h2, _⟩ := hp
      have hh := hargs.hash _ _ k r.2 (h2.at ha') (h2.trims hk)
      revert he hh
      simp only [Said.bind]
      generalize a.tail.eval (Γ.enter (siteOf name content)) k = y
      obtain ⟨w2, y⟩ := y
      cases y with
      | ok hs => intro he; cases he
      | error g =>
          intro he hh
          cases he
          obtain ⟨u, h3, h4⟩ := hh
          have h6 := h3.bindFail (g := fun h n => do
            let s ← RM.get
            runTarget (sem n) E name target { call := c, name, args := r.1, params := h.1, text, property := prop, missing := h.2 } content s.locals) (res_notOk f)
          rw [res_cast] at h6
          refine ⟨u, h1.bindOk (mono_arguments _ _ _ _) (fun a => ?_) h6, by rw [h4, h2.out, List.append_assoc]; rfl⟩
          exact MonoF.bind (mono_hash _ _ _ _) fun h => MonoF.bind (MonoF.const _) fun s => mono_runTarget _ _ _ _ _ _

/-- What the call runs. -/
def Resolves (E : Env) (name : Str) (target : Target) (h : HelperFn) : Prop :=
  ∀ S ctx content, runTarget S E name target ctx content [] = run S E (h ctx content)

theorem resolves_name {Γ : Scene} {E : Env} {s : RS} (ha : At Γ E s) {name : Str} {h : HelperFn} (hh : helperFn name = some h) :
    Resolves E name .name h := by
  intro S ctx content
  unfold runTarget
  rw [ha.helpers, hh]
  rfl

theorem resolves_handler (E : Env) (name : Str) (h : HelperFn) : Resolves E name (.handler h) h := fun _ _ _ => rfl

theorem invoke_runs {Γ : Scene} {E : Env} {s : RS} {k : Cut} (ha : At Γ E s) (hk : Trims k s) {name : Str} {target : Target} {h : HelperFn}
    (hh : Resolves E name target h)
    {a : SArgs} {c : Call} {content : Option Node} {text : Option Str} {prop : Option (Str × Value)} (hargs : ArgsSee E a c)
    (hf : Γ.full (siteOf name content) = false) {w : Str} {vs : List Value} {hs : List (Str × Value)}
    (he : a.eval (Γ.enter (siteOf name content)) k = (w, .ok (vs, hs))) :
    ∃ ctx s1, Silent w (s.enter (siteOf name content)) s1 ∧ ctx.args = vs ∧ ctx.name = name ∧ (∀ k, ctx.param k = hs.lookup k) ∧
      (ctx.call = c ∧ ctx.text = text ∧ ctx.property = prop) ∧
      ∀ r t, RunsHelper E (h ctx content) s1 r t →
        Eval (fun n => invoke (sem n) E name target c content text prop) s r (afterCall r t) := by
  have hd : depth s name content < 32 := by
    by_contra hx
    rw [(full_iff ha name content).2 (by omega)] at hf; cases hf
  have ha' := at_enter ha (siteOf name content)
  have hp := hargs.pos _ _ k ha' hk
  rw [eval_split] at he
  revert he hp
  generalize a.pos (Γ.enter (siteOf name content)) k = x
  obtain ⟨w1, x⟩ := x
  cases x with
  | error g => intro he; cases he
  | ok vs' =>
      intro he hp
      obtain ⟨r, t, h1, h2, rfl⟩ := hp
      have hh' := hargs.hash _ _ k r.2 (h2.at ha') (h2.trims hk)
      revert he hh'
      simp only [Said.bind]
      generalize a.tail.eval (Γ.enter (siteOf name content)) k = y
      obtain ⟨w2, y⟩ := y
      cases y with
      | error g => intro he; cases he
      | ok hs' =>
          intro he hh'
          simp only [said, List.append_nil, Prod.mk.injEq, Except.ok.injEq] at he
          obtain ⟨rfl, rfl, rfl⟩ := he
          obtain ⟨q, u, h3, h4, h5⟩ := hh'
          refine ⟨{ call := c, name, args := r.1, params := q.1, text, property := prop, missing := q.2 }, u, h2.trans h4, rfl, rfl, ?_,
            ⟨rfl, rfl, rfl⟩, ?_⟩
          · intro k
            show assoc k q.1 = _
            rw [h5 k]
            simp [assoc]
          · intro r' t' hr
            refine eval_invoke hd ?_
            refine h1.bindOk (mono_arguments _ _ _ _) (fun a => ?_) ?_
            · exact MonoF.bind (mono_hash _ _ _ _) fun h => MonoF.bind (MonoF.const _) fun s => mono_runTarget _ _ _ _ _ _
            · refine h3.bindOk (mono_hash _ _ _ _) (fun a => MonoF.bind (MonoF.const _) fun s => mono_runTarget _ _ _ _ _ _) ?_
              refine (Spec.Eval.step (m := RM.get) (a := u) (t := u) rfl).2 ?_
              have hl : u.locals = [] := ((h2.trans h4).at ha').locals
              refine (Spec.Eval.congr fun n => ?_).2 hr
              show runTarget (sem n) E name target _ content u.locals u = _
              rw [hl, hh]

/-- A call without a block: what it writes and yields. -/
theorem sees_invoke {Γ : Scene} {E : Env} {s : RS} {k : Cut} (ha : At Γ E s) (hk : Trims k s) {name : Str} {target : Target} {h : HelperFn}
    (hh : Resolves E name target h) {a : SArgs} {c : Call} (hargs : ArgsSee E a c) {F : List Value → List (Str × Value) → Said (Option Value)}
    (hF : ∀ ctx s1 vs hs, At (Γ.enter (.helper name)) E s1 → Trims k s1 → ctx.args = vs → ctx.name = name → (∀ k, ctx.param k = hs.lookup k) →
      ctx.call = c → Sees (fun n => run (sem n) E (h ctx none)) s1 (F vs hs) Eq) :
    Sees (fun n => invoke (sem n) E name target c none none none) s
      (if Γ.full (.helper name) then fault (.err (.helperCycle name))
       else (a.eval (Γ.enter (.helper name)) k).bind fun x => F x.1 x.2) Eq := by
  cases hfull : Γ.full (.helper name) with
  | true =>
      rw [if_pos rfl]
      exact ⟨s, invoke_full ha (content := none) hfull, by simp [fault]⟩
  | false =>
      rw [if_neg (by simp)]
      cases hev : a.eval (Γ.enter (.helper name)) k with
      | mk w x =>
      cases x with
      | error g => exact invoke_badArgs ha hk (content := none) hargs hfull hev
      | ok x =>
          obtain ⟨vs, hs⟩ := x
          obtain ⟨ctx, s1, h1, h2, h3, h4, h6, h5⟩ := invoke_runs ha hk hh (content := none) (text := none) (prop := none) hargs hfull hev
          have hb := hF ctx s1 vs hs (h1.at (at_enter ha _)) (h1.trims (s := s.enter _) hk) h2 h3 h4 h6.1
          unfold Said.bind
          simp only
          revert hb
          generalize F vs hs = y
          obtain ⟨w', y⟩ := y
          cases y with
          | error g =>
              rintro ⟨t, g1, g2⟩
              refine ⟨_, h5 _ _ g1, ?_⟩
              have : outText t.out = outText s.out ++ (w ++ w') := by rw [g2, h1.out, List.append_assoc]; rfl
              unfold afterCall
              cases g <;> exact this
          | ok v =>
              rintro ⟨v', t, g1, g2, rfl⟩
              refine ⟨v, _, h5 _ _ g1, ?_, rfl⟩
              obtain ⟨o, l, tr, hl, ho⟩ := h1.trans g2
              refine ⟨o, l, tr ++ [.leave], ?_, ho⟩
              rw [hl]
              rfl

theorem helperFn_of {name : Str} (h : isHelper name = true) : ∃ f, helperFn name = some f := by
  unfold isHelper at h
  unfold helperFn
  cases hc : Custom.fn name with
  | some f => exact ⟨_, rfl⟩
  | none =>
      rw [hc] at h
      have hw : helperNames.contains name = true := by simpa using h
      simp only
      simp only [helperNames, List.contains_cons, List.contains_nil, Bool.or_false, Bool.or_eq_true, beq_iff_eq] at hw
      rcases hw with rfl | rfl | rfl | rfl | rfl | rfl | rfl | rfl | rfl | rfl | rfl | rfl | rfl | rfl | rfl | rfl <;> exact ⟨_, rfl⟩

theorem helper_spec {p : SPath} {name : Str} (h : p.helper = some name) : p = ⟨0, .name name, []⟩ ∧ ∃ f, helperFn name = some f := by
  unfold SPath.helper at h
  split at h
  · split at h
    · rename_i w hw
      cases h
      exact ⟨rfl, helperFn_of hw⟩
    · cases h
  · cases h

theorem assoc_builtins_none {w : Str} (h : helperNames.contains w = false) : assoc w builtins = none := by
  cases hb : assoc w builtins with
  | none => rfl
  | some f =>
      exfalso
      unfold builtins at hb
      simp only [helperNames, List.contains_cons, List.contains_nil, Bool.or_false, Bool.or_eq_false_iff, beq_eq_false_iff_ne, ne_eq] at h
      obtain ⟨h1, h2, h3, h4, h5, h6, h7, h8, h9, h10, h11, h12, h13, h14, h15, h16⟩ := h
      iterate 16
        rw [assoc, if_neg (Ne.symm ‹_›)] at hb
      cases hb

theorem helperFn_none {w : Str} (h : isHelper w = false) : helperFn w = none := by
  unfold isHelper at h
  unfold helperFn
  simp only [Bool.or_eq_false_iff] at h
  cases hc : Custom.fn w with
  | some f => rw [hc] at h; cases h.1
  | none => exact assoc_builtins_none h.2

theorem dots_head {n : Nat} {w : Str} (hn : 0 < n) : ∃ r, dots n ++ w = '.' :: r := by
  cases n with
  | zero => omega
  | succ n => exact ⟨_, rfl⟩

/-- The recorded text of a plain name is its text. -/
theorem plain_shown {p : SPath} {w : Str} (hw : p.head = .name w) (hr : p.rest = []) : p.shown = dots p.parents ++ w := by
  obtain ⟨n, hd, rest⟩ := p
  simp only at hw hr
  subst hw hr
  simp [SPath.shown, followingShown, dottedShown, Head.text]

/-- A path that is simple but no helper. -/
theorem noHelper_text {p : SPath} (hh : p.helper = none) {w : Str} (hw : p.head = .name w) (hr : p.rest = []) :
    helperFn p.shown = none := by
  rw [plain_shown hw hr]
  obtain ⟨n, hd, rest⟩ := p
  simp only at hw hr
  subst hw hr
  apply helperFn_none
  cases n with
  | zero =>
      simp only [dots, List.nil_append]
      unfold SPath.helper at hh
      simp only at hh
      by_contra hx
      rw [if_pos (by simpa using hx)] at hh
      cases hh
  | succ n =>
      obtain ⟨r, e⟩ := dots_head (n := n + 1) (w := w) (by omega)
      rw [e]
      unfold isHelper
      rw [Custom.plain]
      rfl

theorem ok_absolute {p : SPath} (h : p.ok = true) : p.head.absolute = false := head_absolute (SPath.ok_spec h).1

theorem simple_iff {p : SPath} {q : Path} (hr : PathRep p q) (ha : p.head.absolute = false) : q.isSimple = true ↔ (∃ w, p.head = .name w) ∧ p.rest = [] := by
  have hk := hr.kinds
  unfold Path.isSimple
  cases hc : q.components with
  | nil => rw [hc] at hk; simp at hk
  | cons c cs =>
      rw [hc] at hk
      simp only [List.map_cons, List.cons.injEq] at hk
      cases cs with
      | nil =>
          simp only [beq_iff_eq, hk.1]
          have : p.rest = [] := by simpa using hk.2.symm
          rw [this]
          cases hh : p.head <;> first | (rw [hh] at ha; cases ha; done) | simp [Head.kind]
      | cons d ds =>
          simp only [Bool.false_eq_true, false_iff, not_and]
          rintro _ h
          rw [h] at hk
          simp at hk

/-- A path that is simple is a plain name. -/
theorem plainName_iff {p : SPath} : Full.plainName p = true ↔ (∃ w, p.head = .name w) ∧ p.rest = [] := by
  unfold Full.plainName
  cases p.head <;> simp

/-- A call has the value the specification gives it. -/
theorem sees_call {Γ : Scene} {E : Env} {s : RS} {k : Cut} (ha : At Γ E s) (hk : Trims k s) {p : SPath} {q : Path} (hr : PathRep p q) (hok : p.ok = true) {a : SArgs}
    {c : Call} (ht : c.target = .path q) (hargs : ArgsSee E a c) :
    Sees (fun n => callF (sem n) E c) s ((SExpr.sub p a).eval Γ k) Eq := by
  have hl := at_lookup ha hr
  have hexp : q.explicit = p.head.explicit := hr.explicit
  unfold SExpr.eval
  cases hh : p.helper with
  | none =>
      simp only
      have hlm : ∀ t : RS, t = s → lookupM E q t = (.ok (Γ.find p), t) := by rintro t rfl; exact lookupM_eq hl
      have hasn : q.isSimple = true → hasHelper E s p.shown = false := by
        intro hs
        obtain ⟨⟨w, hw⟩, hrest⟩ := (simple_iff hr (ok_absolute hok)).1 hs
        unfold hasHelper
        rw [ha.locals, ha.helpers, noHelper_text hh hw hrest]
        rfl
      have hsimp : q.isSimple = Full.plainName p := by
        rw [Bool.eq_iff_iff, simple_iff hr (ok_absolute hok), plainName_iff]
      have hexp' : Full.plainName p = true → p.head.explicit = false := by
        intro h
        obtain ⟨⟨w, hw⟩, _⟩ := plainName_iff.1 h
        rw [hw]; rfl
      cases hf : Γ.find p with
      | some v =>
          refine ⟨some v, s, ⟨by simp, 0, ?_⟩, .refl s, rfl⟩
          simp only
          unfold callF
          rw [ht]
          simp only
          cases he : q.explicit with
          | true => rw [if_pos rfl, hlm s rfl, hf]
          | false =>
              rw [if_neg (by simp)]
              cases hs : q.isSimple with
              | true =>
                  rw [if_pos rfl, orPanic_bind hr.asStr, RM.bind_def]
                  simp only [RM.get]
                  rw [hasn hs, if_neg (by simp), RM.bind_def, hlm s rfl, hf]
                  rfl
              | false =>
                  rw [if_neg (by simp), RM.bind_def, hlm s rfl, hf]
                  rfl
      | none =>
          simp only
          cases hhd : p.handler with
          | some f =>
              unfold SPath.handler at hhd
              split at hhd
              rotate_left
              · cases hhd
              rename_i hpn
              rw [Option.map_eq_some_iff] at hhd
              obtain ⟨F, hF, rfl⟩ := hhd
              have key : ∀ n, callF (sem n) E c s = invoke (sem n) E nmHelperMissing (.handler (missingProg F)) c none none none s := by
                intro n
                unfold callF
                rw [ht]
                simp only
                rw [hexp, hexp' hpn, if_neg (by simp), hsimp, hpn, if_pos rfl, orPanic_bind hr.asStr, RM.bind_def]
                simp only [RM.get]
                rw [hasn (hsimp.trans hpn), if_neg (by simp), RM.bind_def, hlm s rfl, hf]
                simp only [ha.helperMissing, hF, Option.map_some]
              refine Sees.congr key ?_
              refine sees_invoke ha hk (resolves_handler E _ _) hargs (F := fun vs hs => (F p.shown).said Γ k vs hs) ?_
              intro ctx s1 vs hs ha1 hk1 h1 h2 h3 h4
              have : missingProg F ctx none = (F p.shown).prog ctx none := by
                unfold missingProg
                rw [h4, ht]
                simp only [hr.asStr]
              rw [this]
              exact custom_value ha1 hk1 _ h1 h3
          | none =>
              have key : ∀ n, callF (sem n) E c s = if Γ.strict && !p.head.explicit then (.err (.variableNotFound p.shown Γ.file), s) else (.ok none, s) := by
                intro n
                unfold callF
                rw [ht]
                simp only
                cases he : q.explicit with
                | true =>
                    have hth : (!p.head.explicit) = false := by rw [← hexp, he]; rfl
                    rw [if_pos rfl, hlm s rfl, hth, hf]
                    simp
                | false =>
                    have hth : (!p.head.explicit) = true := by rw [← hexp, he]; rfl
                    rw [if_neg (by simp), hth]
                    cases hs : q.isSimple with
                    | true =>
                        rw [if_pos rfl, orPanic_bind hr.asStr, RM.bind_def]
                        simp only [RM.get]
                        have hm : Custom.missing = none := by
                          unfold SPath.handler at hhd
                          rw [if_pos (hsimp.symm.trans hs)] at hhd
                          simpa using hhd
                        rw [hasn hs, if_neg (by simp), RM.bind_def, hlm s rfl, hf]
                        simp only [ha.helperMissing, hm, Option.map_none, ha.strict, Bool.and_true, ha.name]
                        cases Γ.strict <;> rfl
                    | false =>
                        rw [if_neg (by simp), RM.bind_def, hlm s rfl, hf]
                        simp only [ha.strict, Bool.and_true, ha.name]
                        cases Γ.strict with
                        | true => simp only [if_true]; rw [orPanic_bind hr.asStr]; rfl
                        | false => rfl
              unfold Scene.absent
              simp only
              by_cases hst : (Γ.strict && !p.head.explicit) = true
              · rw [if_pos hst]
                exact ⟨s, ⟨by simp [Fault.res], 0, by simp only; rw [key]; simp only [hst, if_true]; rfl⟩, by simp [fault]⟩
              · rw [if_neg hst]
                exact ⟨none, s, ⟨by simp, 0, by simp only; rw [key]; rw [if_neg hst]⟩, .refl s, rfl⟩
  | some name =>
      obtain ⟨rfl, f, hfn⟩ := helper_spec hh
      have htext : (⟨0, .name name, []⟩ : SPath).shown = name := plain_shown rfl rfl
      have hsim : q.isSimple = true := (simple_iff hr rfl).2 ⟨⟨name, rfl⟩, rfl⟩
      have key : ∀ n, callF (sem n) E c s = invoke (sem n) E name .name c none none none s := by
        intro n
        unfold callF
        rw [ht]
        simp only
        rw [hexp, if_neg (by simp [Head.explicit]), if_pos hsim, orPanic_bind hr.asStr, htext, RM.bind_def]
        simp only [RM.get]
        have : hasHelper E s name = true := by
          unfold hasHelper; rw [ha.helpers, hfn]; simp
        rw [this]; rfl
      simp only
      refine Sees.congr key ?_
      refine sees_invoke ha hk (resolves_name ha hfn) hargs (F := fun vs hs => helperValue name Γ k vs hs) ?_
      intro ctx s1 vs hs ha1 hk1 h1 h2 h3 h4
      exact helper_value ha1 hk1 hfn h1 h2 h3

theorem bind_ok {α β : Type} {x : Said α} {f : α → Said β} {b : β} (h : (x.bind f).2 = .ok b) : ∃ a, x.2 = .ok a ∧ (f a).2 = .ok b := by
  obtain ⟨w, x⟩ := x
  cases x with
  | error e => cases h
  | ok a => exact ⟨a, rfl, h⟩

theorem eval_lookup_keys : ∀ (h : SHash) (Γ : Scene) (k : Cut) (hs : List (Str × Value)), (h.eval Γ k).2 = .ok hs → hs.map (·.1) = h.keys
  | .tail _, Γ, k, hs, e => by cases e; rfl
  | .pairW _ k x r, Γ, c, hs, e => by
      unfold SHash.eval at e
      obtain ⟨v, _, e⟩ := bind_ok e
      obtain ⟨hs', e', e⟩ := bind_ok e
      cases e
      simp only [List.map_cons, SHash.keys, eval_lookup_keys r Γ c hs' e']

theorem lookup_none_of_keys {hs : List (Str × Value)} {k : Str} (h : k ∉ hs.map (·.1)) : hs.lookup k = none := by
  induction hs with
  | nil => rfl
  | cons x hs ih =>
      obtain ⟨j, v⟩ := x
      simp only [List.map_cons, List.mem_cons, not_or] at h
      rw [List.lookup_cons]
      have : (k == j) = false := by simpa using h.1
      rw [this]
      exact ih h.2

mutual
theorem sees_expr (E : Env) : ∀ (x : SExpr) (v : ParamValue) (Γ : Scene) (s : RS) (k : Cut), ExprRep x v → x.ok = true → At Γ E s → Trims k s →
    Sees (fun n => paramM (sem n) E v) s (x.eval Γ k) fun b r => r.1 = b.getD .null
  | .path p, v, Γ, s, k, hr, hok, ha, hk => by
      cases hr with
      | path h =>
          have hl := at_lookup ha h
          unfold SExpr.eval
          cases hf : Γ.find p with
          | some v =>
              refine ⟨(v, none), s, ⟨by simp, 0, ?_⟩, .refl s, rfl⟩
              simp only [paramM]
              rw [RM.bind_def, lookupM_eq hl, hf]
              rfl
          | none =>
              refine ⟨(.null, some p.shown), s, ⟨by simp, 0, ?_⟩, .refl s, rfl⟩
              simp only [paramM]
              rw [RM.bind_def, lookupM_eq hl, hf]
              simp only
              rw [orPanic_bind h.asStr]
              rfl
  | .lit l, v, Γ, s, k, hr, hok, ha, hk => by
      cases hr with
      | lit h => unfold SExpr.eval; exact Sees.pure rfl
  | .sub p a, v, Γ, s, k, hr, hok, ha, hk => by
      rw [SExpr.ok, Bool.and_eq_true] at hok
      cases hr with
      | sub ht hp hargs h1 h2 hs =>
          rename_i c q
          have hc := sees_call ha hk hp hok.1 ht ⟨fun Γ s k hA hK => sees_args E a _ _ Γ s k 0 [] hargs hok.2 hA hK,
            fun Γ s k ms hA hK => sees_tail E a _ _ Γ s k ms hargs hok.2 hA hK⟩
          unfold paramM
          have key : Sees (fun n => (sem n).statement E c) s ((SExpr.sub p a).eval Γ k) Eq :=
            hc.map fun r u h => (evaluates_callF h1).2 h
          have hmono : ∀ o : Option Value, MonoF fun _ => ((match o with
              | some v => pure (v, none)
              | none => do
                  let raw ← RM.orPanic c.asStr
                  pure (.null, some raw)) : RM (Value × Option Str)) := fun o => MonoF.const _
          have := Sees.bind (mono_statement E c) hmono key (y := said) (Q := fun b r => r.1 = b.getD .null) (by
            rintro b _ t _ _ rfl
            cases b with
            | some v => exact Sees.pure rfl
            | none =>
                refine ⟨(.null, some (SExpr.sub p a).text), t, ⟨by simp, 0, ?_⟩, .refl t, rfl⟩
                simp only
                rw [orPanic_bind hs]
                rfl)
          rwa [said_id] at this
theorem sees_args (E : Env) : ∀ (a : SArgs) (vs : List ParamValue) (hs : List (Str × ParamValue)) (Γ : Scene) (s : RS) (k : Cut) (i : Nat) (ms : List Missing),
    ArgsRep a vs hs → a.ok = true → At Γ E s → Trims k s →
    Sees (fun n => argumentsLoop (sem n) E i vs ms) s (a.pos Γ k) fun b r => r.1 = b
  | .done h, vs, hs, Γ, s, k, i, ms, hr, hok, ha, hk => by
      cases hr with
      | done hh => exact Sees.pure rfl
  | .argW ws x r, vs, hs, Γ, s, k, i, ms, hr, hok, ha, hk => by
      rw [SArgs.ok] at hok
      simp only [Bool.and_eq_true] at hok
      cases hr with
      | arg hx hrr =>
          rename_i v vs
          unfold argumentsLoop SArgs.pos
          refine Sees.bind (mono_paramM E v) (fun a => MonoF.bind (mono_arguments _ _ _ _) fun _ => MonoF.const _)
            (sees_expr E x v Γ s k hx hok.1.2 ha hk) ?_
          intro b a t _ hs h1
          refine Sees.bind (mono_arguments _ _ _ _) (fun _ => MonoF.const _)
            (sees_args E r vs _ Γ t k (i + 1) _ hrr hok.2 (hs.at ha) (hs.trims hk)) ?_
          intro b' a' t' _ _ h2
          exact Sees.pure (by simp only [h1, h2])
theorem sees_tail (E : Env) : ∀ (a : SArgs) (vs : List ParamValue) (hs : List (Str × ParamValue)) (Γ : Scene) (s : RS) (k : Cut) (ms : List Missing),
    ArgsRep a vs hs → a.ok = true → At Γ E s → Trims k s →
    Sees (fun n => hashLoop (sem n) E hs [] ms) s (a.tail.eval Γ k) (SameHash [])
  | .done h, vs, hs, Γ, s, k, ms, hr, hok, ha, hk => by
      rw [SArgs.ok] at hok
      cases hr with
      | done hh => exact sees_hash E h hs Γ s k [] ms hh hok ha hk
  | .argW ws x r, vs, hs, Γ, s, k, ms, hr, hok, ha, hk => by
      rw [SArgs.ok] at hok
      simp only [Bool.and_eq_true] at hok
      cases hr with
      | arg hx hrr => exact sees_tail E r _ _ Γ s k ms hrr hok.2 ha hk
theorem sees_hash (E : Env) : ∀ (h : SHash) (hs : List (Str × ParamValue)) (Γ : Scene) (s : RS) (c : Cut) (out : List (Str × Value)) (ms : List Missing),
    HashRep h hs → h.ok = true → At Γ E s → Trims c s →
    Sees (fun n => hashLoop (sem n) E hs out ms) s (h.eval Γ c) (SameHash out)
  | .tail ws, hs, Γ, s, c, out, ms, hr, hok, ha, hk => by
      cases hr with
      | nil => exact Sees.pure fun k => rfl
  | .pairW ws k x r, hs, Γ, s, c, out, ms, hr, hok, ha, hk => by
      rw [SHash.ok] at hok
      simp only [Bool.and_eq_true, Bool.not_eq_true'] at hok
      obtain ⟨⟨⟨⟨⟨_, _⟩, _⟩, hxok⟩, hkey⟩, hrok⟩ := hok
      cases hr with
      | pair hx hrr =>
          rename_i v hs
          unfold hashLoop SHash.eval
          refine Sees.bind (Q := SameHash out) (mono_paramM E v) (fun a => mono_hash _ _ _ _) (sees_expr E x v Γ s c hx hxok ha hk) (g := fun a n => hashLoop (sem n) E hs (mapInsert k a.1 out) (addMissing ms (.param k) a.2)) ?_
          intro b a t _ hS h1
          have ih := sees_hash E r hs Γ t c (mapInsert k a.1 out) (addMissing ms (.param k) a.2) hrr hrok (hS.at ha) (hS.trims hk)
          have hkeys := eval_lookup_keys r Γ c
          revert ih hkeys
          generalize r.eval Γ c = y
          obtain ⟨w, y⟩ := y
          intro ih hkeys
          cases y with
          | error f => exact ih
          | ok hs' =>
              obtain ⟨q, u, g1, g2, g3⟩ := ih
              refine ⟨q, u, g1, by simpa [said, Said.bind] using g2, ?_⟩
              intro j
              have hj := g3 j
              rw [hj, assoc_mapInsert, List.lookup_cons]
              by_cases hjk : j = k
              · subst hjk
                have hno : hs'.lookup j = none := by
                  apply lookup_none_of_keys
                  rw [hkeys hs' rfl]
                  simpa using hkey
                simp [hno, h1]
              · have : (j == k) = false := by simpa using hjk
                rw [if_neg hjk, this]
end

/-- The arguments of a compiled tag. -/
theorem argsSee {E : Env} {a : SArgs} {c : Call} (hr : ArgsRep a c.args c.params) (hok : a.ok = true) : ArgsSee E a c :=
  ⟨fun Γ s k hA hK => sees_args E a _ _ Γ s k 0 [] hr hok hA hK, fun Γ s k ms hA hK => sees_tail E a _ _ Γ s k ms hr hok hA hK⟩

/-- A tag: the call of its path, or the call that is its target (its own arguments are then not looked at). -/
theorem sees_dyn {Γ : Scene} {E : Env} {s : RS} {k : Cut} (ha : At Γ E s) (hk : Trims k s) {q : SPath} {b : SArgs} (hq : q.ok = true) (hb : b.ok = true) {c d : Call}
    (ht : c.target = .subExpr d) (hd : ExprRep (.sub q b) (.subExpr d)) :
    Sees (fun n => callF (sem n) E c) s ((SExpr.sub q b).eval Γ k) Eq := by
  have e : (fun n => callF (sem n) E c) = fun n => (sem n).call E d := by
    funext n; unfold callF; rw [ht]
  rw [e]
  cases hd with
  | sub e1 e2 e3 e4 e5 e6 =>
      exact (sees_call ha hk e2 hq e1 (argsSee e3 hb)).map fun r u h => calls_iff.2 h

/-! ### Links -/

/-- The context a link handler receives: the three fields, and nothing else. -/
def linkCtx (c : Call) (href label title : Str) : Ctx :=
  ⟨c, nmLink, [.str href, .str label, .str title], [], none, none, []⟩

/-- The call made for a link: its three fields as JSON string arguments. -/
def linkArgs (l : Link) (href label title : Str) : Call :=
  ((((Call.new l.src ⟨0, 0⟩ ⟨0, 0⟩).addArg (.json l.src (.str href) l.hrefSpan l.line)).addArg
    (.json l.src (.str label) l.labelSpan l.line)).addArg (.json l.src (.str title) l.titleSpan l.line))

/-- The call of the link handler. -/
theorem sees_linkCall {Γ : Scene} {E : Env} {s : RS} {k : Cut} (ha : At Γ E s) (hk : Trims k s) (f : CustomFn) (l : Link) (href label title : Str) :
    Sees (fun n => invoke (sem n) E nmLink (.handler f.prog) (linkArgs l href label title) none none none) s
      (if Γ.full (.helper linkName) then fault (.err (.helperCycle linkName))
       else f.said Γ k [.str href, .str label, .str title] []) Eq := by
  cases hfull : Γ.full (.helper linkName) with
  | true =>
      rw [if_pos rfl]
      exact ⟨s, invoke_full ha (content := none) hfull, by simp [fault]⟩
  | false =>
      rw [if_neg (by simp)]
      have hd : depth s nmLink none < 32 := by
        by_contra hx
        have := (full_iff ha nmLink none).2 (by omega)
        rw [show siteOf nmLink none = .helper linkName from rfl, hfull] at this
        cases this
      have hb : ∀ n s, invokeBody (sem n) E nmLink (.handler f.prog) (linkArgs l href label title) none none none s =
          run (sem n) E (f.prog (linkCtx (linkArgs l href label title) href label title) none) s := by
        intro n s
        rfl
      have hs := custom_value (at_enter ha (.helper linkName)) (k := k) hk f (ctx := linkCtx (linkArgs l href label title) href label title)
        (vs := [.str href, .str label, .str title]) (hs := []) rfl fun k => rfl
      have go : ∀ r t, Eval (fun n => run (sem n) E (f.prog (linkCtx (linkArgs l href label title) href label title) none)) (s.enter (.helper linkName)) r t →
          Eval (fun n => invoke (sem n) E nmLink (.handler f.prog) (linkArgs l href label title) none none none) s r (afterCall r t) :=
        fun r t h => eval_invoke hd ((Spec.Eval.congr fun n => hb n _).2 h)
      have e : f.said (Γ.enter (.helper linkName)) k [.str href, .str label, .str title] [] = f.said Γ k [.str href, .str label, .str title] [] := rfl
      rw [e] at hs
      revert hs
      generalize f.said Γ k [.str href, .str label, .str title] [] = x
      obtain ⟨w, x⟩ := x
      cases x with
      | error g =>
          rintro ⟨t, h1, h2⟩
          refine ⟨_, go _ _ h1, ?_⟩
          unfold afterCall
          cases g <;> exact h2
      | ok v =>
          rintro ⟨v', t, h1, ⟨o, lg, tr, rfl, ho⟩, rfl⟩
          exact ⟨v, _, go _ _ h1, ⟨o, lg, tr ++ [.leave], rfl, ho⟩, rfl⟩

end

end Bracket.Props
