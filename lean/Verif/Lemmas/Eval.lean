import Verif.Spec.Step
import Verif.Lemmas.Write

/-! Rules for `Eval`: the recursion bound disappears. -/

set_option linter.unusedSectionVars false

namespace Bracket
open Spec RM

/-- Larger bounds change nothing but `fuel`. -/
def MonoF {α : Type} (f : Nat → RM α) : Prop := ∀ n m, n ≤ m → Le (f n) (f m)

namespace MonoF
theorem const {α : Type} (m : RM α) : MonoF fun _ => m := fun _ _ _ => Le.refl _
theorem bind {α β : Type} {f : Nat → RM α} {g : α → Nat → RM β} (hf : MonoF f) (hg : ∀ a, MonoF (g a)) :
    MonoF fun n => f n >>= fun a => g a n :=
  fun n m h => Le.bind (hf n m h) fun a => hg a n m h
theorem catchErr {α β : Type} {f : Nat → RM α} {g : Except RenderErr α → Nat → RM β} (hf : MonoF f)
    (hg : ∀ a, MonoF (g a)) : MonoF fun n => RM.catchErr (f n) fun a => g a n :=
  fun n m h => Le.catchErr (hf n m h) fun a => hg a n m h
end MonoF

theorem Spec.Eval.ge {α : Type} {f : Nat → RM α} (hf : MonoF f) {s t : RS} {r : Res α} (h : Eval f s r t) :
    ∃ N, ∀ n, N ≤ n → f n s = (r, t) := by
  obtain ⟨hr, N, hN⟩ := h
  refine ⟨N, fun n hn => ?_⟩
  rcases hf N n hn s with h | h
  · rw [hN] at h; exact absurd h hr
  · rw [← h, hN]

theorem Spec.Eval.det {α : Type} {f : Nat → RM α} (hf : MonoF f) {s t t' : RS} {r r' : Res α}
    (h : Eval f s r t) (h' : Eval f s r' t') : r = r' ∧ t = t' := by
  obtain ⟨N, hN⟩ := h.ge hf
  obtain ⟨M, hM⟩ := h'.ge hf
  have := (hN (max N M) (Nat.le_max_left _ _)).symm.trans (hM _ (Nat.le_max_right _ _))
  simpa using this

theorem Spec.Eval.const {α : Type} {m : RM α} {s t : RS} {r : Res α} :
    Eval (fun _ => m) s r t ↔ r ≠ .fuel ∧ m s = (r, t) :=
  ⟨fun ⟨h, _, h'⟩ => ⟨h, h'⟩, fun ⟨h, h'⟩ => ⟨h, 0, h'⟩⟩

theorem Spec.Eval.pure {α : Type} {a : α} {s t : RS} {r : Res α} :
    Eval (fun _ => (Pure.pure a : RM α)) s r t ↔ r = .ok a ∧ t = s := by
  rw [Spec.Eval.const]
  constructor
  · rintro ⟨_, h⟩
    cases h; exact ⟨rfl, rfl⟩
  · rintro ⟨rfl, rfl⟩
    exact ⟨by simp, rfl⟩

/-- The first of two steps succeeds. -/
theorem Spec.Eval.bindOk {α β : Type} {f : Nat → RM α} {g : α → Nat → RM β} (hf : MonoF f)
    (hg : ∀ a, MonoF (g a)) {s t u : RS} {a : α} {r : Res β} (h : Eval f s (.ok a) t) (h' : Eval (g a) t r u) :
    Eval (fun n => f n >>= fun a => g a n) s r u := by
  obtain ⟨N, hN⟩ := h.ge hf
  obtain ⟨M, hM⟩ := h'.ge (hg a)
  refine ⟨h'.1, max N M, ?_⟩
  show (f (max N M) >>= fun a => g a (max N M)) s = _
  rw [RM.bind_def, hN _ (Nat.le_max_left _ _)]
  exact hM _ (Nat.le_max_right _ _)

/-- The failure of a step, as a failure of what follows it. -/
def Res.cast {α β : Type} : Res α → Res β
  | .ok _ => .fuel
  | .err e => .err e
  | .panic => .panic
  | .fuel => .fuel

/-- The first of two steps fails. -/
theorem Spec.Eval.bindFail {α β : Type} {f : Nat → RM α} {g : α → Nat → RM β} {s t : RS}
    {r : Res α} (h : Eval f s r t) (hr : r.isOk = false) :
    Eval (fun n => f n >>= fun a => g a n) s r.cast t := by
  obtain ⟨h1, N, hN⟩ := h
  refine ⟨?_, N, ?_⟩
  · cases r <;> simp_all [Res.isOk, Res.cast]
  · show (f N >>= fun a => g a N) s = _
    rw [RM.bind_def, hN]
    cases r <;> simp_all [Res.isOk, Res.cast]

/-- A sequence of two steps ends: either the first fails, or both end. -/
theorem Spec.Eval.bind_inv {α β : Type} {f : Nat → RM α} {g : α → Nat → RM β} {s u : RS} {r : Res β}
    (h : Eval (fun n => f n >>= fun a => g a n) s r u) :
    (∃ a t, Eval f s (.ok a) t ∧ Eval (g a) t r u) ∨
    (∃ r', Eval f s r' u ∧ r'.isOk = false ∧ r = r'.cast) := by
  obtain ⟨h1, N, hN⟩ := h
  change (f N >>= fun a => g a N) s = _ at hN
  rw [RM.bind_def] at hN
  rcases hf : f N s with ⟨r', t⟩
  rw [hf] at hN
  cases r' with
  | ok a => exact .inl ⟨a, t, ⟨by simp, N, hf⟩, h1, N, hN⟩
  | err e => cases hN; exact .inr ⟨_, ⟨by simp, N, hf⟩, rfl, rfl⟩
  | panic => cases hN; exact .inr ⟨_, ⟨by simp, N, hf⟩, rfl, rfl⟩
  | fuel => cases hN; exact absurd rfl h1

theorem Spec.Eval.bind_inv_ok {α β : Type} {f : Nat → RM α} {g : α → Nat → RM β} {s u : RS} {b : β}
    (h : Eval (fun n => f n >>= fun a => g a n) s (.ok b) u) :
    ∃ a t, Eval f s (.ok a) t ∧ Eval (g a) t (.ok b) u := by
  rcases h.bind_inv with h | ⟨r', h1, h2, h3⟩
  · exact h
  · cases r' <;> simp_all [Res.cast, Res.isOk]

/-- A deterministic first step that always succeeds. -/
theorem Spec.Eval.step {α β : Type} {m : RM α} {g : α → Nat → RM β} {s t u : RS} {a : α} {r : Res β}
    (h : m s = (.ok a, t)) :
    Eval (fun n => m >>= fun a => g a n) s r u ↔ Eval (g a) t r u := by
  unfold Eval
  refine and_congr_right fun _ => exists_congr fun n => ?_
  show (m >>= fun a => g a n) s = _ ↔ _
  rw [RM.bind_def, h]

/-- Two computations that agree on the state. -/
theorem Spec.Eval.congr {α : Type} {f g : Nat → RM α} {s t : RS} {r : Res α} (h : ∀ n, f n s = g n s) :
    Eval f s r t ↔ Eval g s r t := by
  unfold Eval
  simp only [h]

/-- One level of recursion is free. -/
theorem Spec.Eval.succ {α : Type} {f g : Nat → RM α} (h0 : ∀ s, f 0 s = (.fuel, s))
    (h : ∀ n, f (n + 1) = g n) {s t : RS} {r : Res α} : Eval f s r t ↔ Eval g s r t := by
  constructor
  · rintro ⟨hr, N, hN⟩
    cases N with
    | zero => rw [h0] at hN; cases hN; exact absurd rfl hr
    | succ n => rw [h] at hN; exact ⟨hr, n, hN⟩
  · rintro ⟨hr, n, hN⟩
    exact ⟨hr, n + 1, by rw [h]; exact hN⟩

section
variable [Host]

theorem renders_iff {E : Env} {node : Node} {trim : TrimState} {s t : RS} {r : Res Unit} :
    Renders E node trim s r t ↔ Eval (fun n => renderNodeF (sem n) E node trim) s r t :=
  Spec.Eval.succ (fun _ => rfl) fun _ => rfl

theorem evaluates_iff {E : Env} {c : Call} {s t : RS} {r : Res (Option Value)} :
    Evaluates E c s r t ↔ Eval (fun n => statementF (sem n) E c) s r t :=
  Spec.Eval.succ (fun _ => rfl) fun _ => rfl

theorem calls_iff {E : Env} {c : Call} {s t : RS} {r : Res (Option Value)} :
    Calls E c s r t ↔ Eval (fun n => callF (sem n) E c) s r t :=
  Spec.Eval.succ (fun _ => rfl) fun _ => rfl

theorem mono_renderNode (E : Env) (node : Node) (trim : TrimState) :
    MonoF fun n => (sem n).renderNode E node trim := fun _ _ h => (sem_le h).renderNode _ _ _
theorem mono_statement (E : Env) (c : Call) : MonoF fun n => (sem n).statement E c :=
  fun _ _ h => (sem_le h).statement _ _
theorem mono_call (E : Env) (c : Call) : MonoF fun n => (sem n).call E c :=
  fun _ _ h => (sem_le h).call _ _
theorem mono_template (E : Env) (node : Node) : MonoF fun n => template (sem n) E node :=
  fun _ _ h => template_le (sem_le h) _ _
theorem mono_renderAll (E : Env) (node : Node) : MonoF fun n => renderAll (sem n) E node :=
  fun _ _ h => renderAll_le (sem_le h) _ _
theorem mono_inverse (E : Env) (node : Node) : MonoF fun n => inverse (sem n) E node :=
  fun _ _ h => inverse_le (sem_le h) _ _
theorem mono_run (E : Env) (p : Prog) : MonoF fun n => run (sem n) E p :=
  fun _ _ h => run_le (sem_le h) _ _
theorem mono_paramM (E : Env) (p : ParamValue) : MonoF fun n => paramM (sem n) E p :=
  fun _ _ h => paramM_le (sem_le h) _ _
theorem mono_arguments (E : Env) (ps : List ParamValue) (i : Nat) (ms : List Missing) :
    MonoF fun n => argumentsLoop (sem n) E i ps ms := fun _ _ h => argumentsLoop_le (sem_le h) _ _ _ _
theorem mono_hash (E : Env) (ps : List (Str × ParamValue)) (out : List (Str × Value)) (ms : List Missing) :
    MonoF fun n => hashLoop (sem n) E ps out ms := fun _ _ h => hashLoop_le (sem_le h) _ _ _ _
theorem mono_runTarget (E : Env) (name : Str) (t : Target) (ctx : Ctx) (content : Option Node)
    (l : List (Str × HelperFn)) : MonoF fun n => runTarget (sem n) E name t ctx content l :=
  fun _ _ h => runTarget_le (sem_le h) _ _ _ _ _ _
theorem mono_invoke (E : Env) (name : Str) (t : Target) (c : Call) (content : Option Node)
    (text : Option Str) (prop : Option (Str × Value)) :
    MonoF fun n => invoke (sem n) E name t c content text prop :=
  fun _ _ h => invoke_le (sem_le h) _ _ _ _ _ _ _
theorem mono_renderPartial (E : Env) (c : Call) (pb : Option Node) :
    MonoF fun n => renderPartial (sem n) E c pb := fun _ _ h => renderPartial_le (sem_le h) _ _ _
theorem mono_blockF (E : Env) (b : Block) : MonoF fun n => blockF (sem n) E b :=
  fun _ _ h => blockF_le (sem_le h) _ _
theorem mono_runEvents {f : Nat → Ev → RM Unit} (h : ∀ ev, MonoF fun n => f n ev) (ns : List Node)
    (p : Option Bool) (hi : Option TrimHint) : MonoF fun n => runEvents (f n) ns p hi :=
  fun _ _ hnm => runEvents_le (sem_le hnm) (fun ev => h ev _ _ hnm) _ _ _

end

end Bracket
