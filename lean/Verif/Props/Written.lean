import Verif.Props.Parents

/-! C09, C10, C12 and C13 for paths as they are written. -/

set_option linter.unusedSectionVars false

namespace Bracket.Spec

/-- The text denotes what `P` says of the data and the scopes: given to `evaluate` it finds exactly that (and changes
nothing), and as the argument of a tag it has exactly that value (`null` when nothing is found). -/
def ReadAs [Host] (text : Str) (P : Value → List Scope → Value → Prop) : Prop :=
  (∀ (E : Env) (s : RS), ∃ v, evaluate E text s = (.ok (.ok v), s) ∧ Finds v (P E.root s.scopes)) ∧
  (∀ (name : Str) (o : ParserOptions), nameOk name = true → ∃ c x,
    compile (c!"{{" ++ (name ++ (' ' :: (text ++ c!"}}")))) o =
      .ok (.document (c!"{{" ++ (name ++ (' ' :: (text ++ c!"}}")))) [.statement c]) ∧ c.args = [x] ∧
    ∀ (S : Sem) (E : Env) (s : RS), ∃ v raw, paramM S E x s = (.ok (v.getD .null, raw), s) ∧ Finds v (P E.root s.scopes))

end Bracket.Spec

namespace Bracket.Props
open Bracket Re Spec P

section
variable [Host]

theorem readAs_of {p : SPath} (hp : p.argOk = true) {P : Value → List Scope → Value → Prop}
    (h : ∀ q, PathRep p q → ∀ root scopes, ∃ r, lookup root scopes q = some r ∧ Finds r (P root scopes)) : ReadAs p.text P := by
  have h1 : ∀ (E : Env) (s : RS), ∃ v, evaluate E p.text s = (.ok (.ok v), s) ∧ Finds v (P E.root s.scopes) := by
    intro E s
    obtain ⟨q, g1, g2⟩ := pathFromStr_run p hp [] .nil
    rw [List.append_nil] at g1
    obtain ⟨r, g3, g4⟩ := h q g2 E.root s.scopes
    refine ⟨r, ?_, g4⟩
    unfold evaluate
    rw [g1]
    simp only
    rw [RM.bind_def]
    unfold lookupM
    rw [RM.bind_def]
    simp only [RM.get]
    rw [g3]
    rfl
  refine ⟨h1, fun name o hn => ?_⟩
  obtain ⟨c, x, g1, g2, -, g3⟩ := C49_agrees_partial name p o hn hp
  refine ⟨c, x, g1, g2, fun S E s => ?_⟩
  obtain ⟨v, raw, k1, k2⟩ := g3 S E s
  obtain ⟨v', e1, e2⟩ := h1 E s
  rw [k1] at e1
  cases e1
  exact ⟨_, raw, k2, e2⟩

theorem rep_local {p : SPath} {q : Path} (h : PathRep p q) : q.isLocal = (p.head.kind == .localIdentifier) := by
  have hk := h.kinds
  unfold Path.isLocal
  cases hc : q.components with
  | nil => rw [hc] at hk; cases hk
  | cons c cs =>
      rw [hc] at hk
      simp only [List.map_cons, List.cons.injEq] at hk
      simp only [Component.isLocal, hk.1]

/-- **C09**, as written: `a.b.c` denotes what the names reach from the first value that has them, searching the scopes
from the innermost to the data, in each scope the local variables before the base value. -/
theorem C09_written (w : Str) (ws : List SComp) (hw : nameOk w = true) (hws : ws.all (·.part.ok) = true) :
    ReadAs (w ++ dotted ws) (fun root scopes => FirstIn (frames root scopes).flatten (w :: ws.map (·.part.name))) := by
  have hp : (SPath.mk 0 (.name w) ws).ok = true := by simp [SPath.ok, hw]; simpa using hws
  refine readAs_of (p := ⟨0, .name w, ws⟩) (SPath.ok_arg hp) fun q h root scopes => ?_
  exact C09_resolution_order root scopes q _ ⟨h.absolute, h.root, h.explicit, rep_local h, h.parents⟩ h.texts

/-- **C10**, as written: `this.a.b` is what the names reach from the base value of the innermost scope (the data, if it has
none), and `this` alone is that value. -/
theorem C10_written (ws : List SComp) (hws : ws.all (·.part.ok) = true) :
    ReadAs (c!"this" ++ dotted ws) (fun root scopes w => if ws = [] then w = thisValue root scopes
      else Reach (thisValue root scopes) (ws.map (·.part.name)) w) := by
  have hp : (SPath.mk 0 .this ws).ok = true := by simp [SPath.ok]; simpa using hws
  refine readAs_of (p := ⟨0, .this, ws⟩) (SPath.ok_arg hp) fun q h root scopes => ?_
  obtain ⟨r, h1, h2⟩ := C10_explicit_this root scopes q _ _ h.absolute h.root h.explicit h.texts
  refine ⟨r, h1, ?_⟩
  simpa [SPath.names] using h2

/-- **C10**, as written: the same for `./a.b` and `./`. -/
theorem C10_dot (ws : List SComp) (hws : ws.all (·.part.ok) = true) :
    ReadAs (c!"./" ++ following .dot ws) (fun root scopes w => if ws = [] then w = thisValue root scopes
      else Reach (thisValue root scopes) (ws.map (·.part.name)) w) := by
  have hp : (SPath.mk 0 .dot ws).ok = true := by simp [SPath.ok]; simpa using hws
  refine readAs_of (p := ⟨0, .dot, ws⟩) (SPath.ok_arg hp) fun q h root scopes => ?_
  obtain ⟨r, h1, h2⟩ := C10_explicit_this root scopes q _ _ h.absolute h.root h.explicit h.texts
  refine ⟨r, h1, ?_⟩
  simpa [SPath.names] using h2

/-- **C12**, as written: `@root.a.b` is what the names reach from the data, whatever the scopes.  Missing from the full
property: `@root` alone; see `C12_alone_violated`. -/
theorem C12_written_partial (w : SComp) (ws : List SComp) (hws : (w :: ws).all (·.part.ok) = true) :
    ReadAs (c!"@root" ++ dotted (w :: ws)) (fun root _ => Reach root ((w :: ws).map (·.part.name))) := by
  have hp : (SPath.mk 0 (.loc c!"root") (w :: ws)).ok = true := by
    simp only [SPath.ok, hws]; exact (by decide : (0 == 0 && wordOk c!"root" && true && decide (0 ≤ 255)) = true)
  refine readAs_of (p := ⟨0, .loc c!"root", w :: ws⟩) (SPath.ok_arg hp) fun q h root scopes => ?_
  exact C12_root_partial root scopes q _ _ h.absolute (by rw [h.root]; simp) h.texts

/-- **C12** is violated, as written: `@root` alone denotes nothing, whatever the data. -/
theorem C12_alone_violated : ReadAs c!"@root" (fun _ _ _ => False) := by
  refine readAs_of (p := ⟨0, .loc c!"root", []⟩) (SPath.ok_arg (by decide)) fun q h root scopes => ?_
  exact ⟨none, C12_root_alone_missing root scopes q _ h.absolute (by rw [h.root]; decide) h.texts, by simp [Finds]⟩

/-- **C13**, as written: `@name` is the local variable of the innermost scope. -/
theorem C13_local (w : Str) (ws : List SComp) (hr : w ≠ c!"root") (hw : wordOk w = true) (hws : ws.all (·.part.ok) = true) :
    ReadAs ('@' :: (w ++ dotted ws)) (fun _ scopes x =>
      ∃ s, scopes.head? = some s ∧ Reach (.obj s.locals) (('@' :: w) :: ws.map (·.part.name)) x) := by
  have hp : (SPath.mk 0 (.loc w) ws).ok = true := by simp [SPath.ok, hw]; simpa using hws
  refine readAs_of (p := ⟨0, .loc w, ws⟩) (SPath.ok_arg hp) fun q h root scopes => ?_
  exact C13_locals root scopes q _ h.absolute (by rw [h.root]; simpa using hr) h.explicit (rep_local h) h.texts

/-- **C13**, as written: an absolute path is nothing. -/
theorem C13_nothing (w : Str) (ws : List SComp) (hw : nameOk w = true) (hws : ws.all (·.part.ok) = true) :
    ReadAs ('/' :: (w ++ dotted ws)) (fun _ _ _ => False) := by
  have hp : (SPath.mk 0 (.abs w) ws).argOk = true := by simp only [SPath.argOk, hw, hws]; rfl
  refine readAs_of (p := ⟨0, .abs w, ws⟩) hp fun q h root scopes => ?_
  exact ⟨none, C13_absolute root scopes q _ h.absolute h.texts, by simp [Finds]⟩

end

/-! ### Examples -/

example [Host] : ReadAs c!"user.name" (fun root scopes => FirstIn (frames root scopes).flatten [c!"user", c!"name"]) :=
  C09_written c!"user" [.word c!"name"] (by decide) (by decide)
example [Host] : ReadAs c!"this.name" (fun root scopes w => Reach (thisValue root scopes) [c!"name"] w) := by
  have := C10_written [.word c!"name"] (by decide); simpa [dotted, following, SPart.text, SPart.name, SComp.sep] using this
example [Host] : ReadAs c!"this" (fun root scopes w => w = thisValue root scopes) := by
  have := C10_written [] (by decide); simpa [dotted] using this
example [Host] : ReadAs c!"./name" (fun root scopes w => Reach (thisValue root scopes) [c!"name"] w) := by
  have := C10_dot [.word c!"name"] (by decide); simpa [dotted, following, SPart.text, SPart.name, SComp.sep] using this
example [Host] : ReadAs c!"@root.a.b" (fun root _ => Reach root [c!"a", c!"b"]) :=
  C12_written_partial (.word c!"a") [.word c!"b"] (by decide)
example [Host] : ReadAs c!"@index" (fun _ scopes x => ∃ s, scopes.head? = some s ∧ Reach (.obj s.locals) [c!"@index"] x) :=
  C13_local c!"index" [] (by decide) (by decide) (by decide)

end Bracket.Props
