import Verif.Spec.Registry
import Verif.Lemmas.Basic
import Verif.Lemmas.ExHost

/-! C35, C36, C37: the registry. -/

namespace Bracket.Props
open Spec

theorem regStep_refines [Host] (fs : Fs) (r : Reg) (op : RegOp) :
    (regStep fs r op).1 = (mapStep fs r.get op).1 ∧
    (regStep fs r op).2.get = (mapStep fs r.get op).2 := by
  have ins : ∀ name (t : Template),
      Reg.get { r with templates := assocInsert name t r.templates } =
        fun n => if n = name then some t else r.get n := by
    intro name t; funext n
    simp only [Reg.get]
    split
    · rename_i h; subst h; exact assoc_insert_self _ _ _
    · rename_i h; exact assoc_insert_ne _ _ h
  cases op with
  | insert name src =>
      simp only [regStep, mapStep, Reg.insert, produced]
      cases compileTemplate src ⟨name, 0, 0⟩ <;> simp [ins]
  | add name file =>
      simp only [regStep, mapStep, Reg.add, produced]
      cases fs file with
      | error e => simp
      | ok src =>
          dsimp only
          cases compileTemplate src ⟨file, 0, 0⟩ <;> simp [ins]
  | remove name =>
      simp only [regStep, mapStep, Reg.remove, Reg.get, true_and]
      funext n
      split
      · rename_i h; subst h; exact assoc_erase_self _ _
      · rename_i h; exact assoc_erase_ne _ h
  | get name => simp [regStep, mapStep]

/-- C35: over any history of insert, add, remove and get, starting from any registry, every
answer and every later lookup are those of a plain map. -/
theorem C35_registry_is_map [Host] (fs : Fs) (r : Reg) (ops : List RegOp) :
    (regRun fs r ops).1 = (mapRun fs r.get ops).1 ∧
    (regRun fs r ops).2.get = (mapRun fs r.get ops).2 := by
  induction ops generalizing r with
  | nil => exact ⟨rfl, rfl⟩
  | cons op ops ih =>
      obtain ⟨h1, h2⟩ := regStep_refines fs r op
      obtain ⟨h3, h4⟩ := ih (regStep fs r op).2
      rw [h2] at h3 h4
      exact ⟨by simp [regRun, mapRun, h1, h3], by simp [regRun, mapRun, h4]⟩

theorem regRun_append [Host] (fs : Fs) (r : Reg) (a b : List RegOp) :
    (regRun fs r (a ++ b)).2 = (regRun fs (regRun fs r a).2 b).2 := by
  induction a generalizing r with
  | nil => rfl
  | cons op a ih => simp [regRun, ih]

theorem leaves_get [Host] (fs : Fs) (r : Reg) (name : Str) (ops : List RegOp)
    (h : ∀ op ∈ ops, Leaves fs name op) : (regRun fs r ops).2.get name = r.get name := by
  induction ops generalizing r with
  | nil => rfl
  | cons op ops ih =>
      simp only [regRun]
      rw [ih _ fun o ho => h o (by simp [ho]), (regStep_refines fs r op).2]
      obtain ⟨h1, h2⟩ := h op (by simp)
      cases op with
      | insert n src =>
          simp only [mapStep]
          split
          · rename_i t ht
            dsimp only
            split
            · rename_i e; exact absurd ht (h2 (by simp [RegOp.sets, e]) t)
            · rfl
          all_goals rfl
      | add n file =>
          simp only [mapStep]
          split
          · rename_i t ht
            dsimp only
            split
            · rename_i e; exact absurd ht (h2 (by simp [RegOp.sets, e]) t)
            · rfl
          all_goals rfl
      | remove n =>
          simp only [mapStep]
          rw [if_neg]
          rintro rfl; exact h1 rfl
      | get n => rfl

/-- C35: `get` returns what the last successful insertion under that name produced, if
nothing since has removed it or successfully inserted it again. -/
theorem C35_last_insert [Host] (fs : Fs) (r : Reg) (before after : List RegOp) (op : RegOp)
    (name : Str) (t : Template) (hs : op.sets = some name) (hp : produced fs op = .ok t)
    (ha : ∀ o ∈ after, Leaves fs name o) :
    (regRun fs r (before ++ op :: after)).2.get name = some t := by
  rw [regRun_append]
  simp only [regRun]
  rw [leaves_get fs _ name after ha, (regStep_refines fs _ op).2]
  cases op <;> simp [RegOp.sets] at hs <;> subst hs <;> simp [mapStep, hp]

/-- C35: a removed name is gone until it is successfully inserted again; removal answers
with what was registered. -/
theorem C35_removed [Host] (fs : Fs) (r : Reg) (before after : List RegOp) (name : Str)
    (ha : ∀ o ∈ after, Leaves fs name o) :
    (regRun fs r (before ++ .remove name :: after)).2.get name = none := by
  rw [regRun_append]
  simp only [regRun]
  rw [leaves_get fs _ name after ha, (regStep_refines fs _ _).2]
  simp [mapStep]

/-- C35: a failing insertion leaves the whole registry as it was. -/
theorem C35_failed_insert [Host] (fs : Fs) (r : Reg) (name src file : Str) :
    ((r.insert name src).1 ≠ .ok () → (r.insert name src).2 = r) ∧
    ((r.add fs name file).1 ≠ .ok () → (r.add fs name file).2 = r) := by
  constructor
  · simp only [Reg.insert]; split <;> simp
  · simp only [Reg.add]
    split
    · simp
    · split <;> simp

/-- C36: rendering a name that is not registered is `TemplateNotFound` with that name and
no write is made, whatever the destination. -/
theorem C36_missing [Host] (n : Nat) (r : Reg) (sink : Sink) (name : Str) (data : Value)
    (h : r.get name = none) :
    r.renderToWrite n sink name data = (.err (.templateNotFound name), []) ∧
    r.render n name data = .err (.templateNotFound name) := by
  have h' : assoc name r.templates = none := h
  constructor
  · simp [Reg.renderToWrite, h']
  · simp [Reg.render, Reg.renderToWrite, h']

/-- C36: rendering a registered name never reports `TemplateNotFound`. -/
theorem C36_found [Host] (n : Nat) (r : Reg) (sink : Sink) (name : Str) (data : Value)
    (t : Template) (h : r.get name = some t) (m : Str) :
    (r.renderToWrite n sink name data).1 ≠ .err (.templateNotFound m) ∧
    r.render n name data ≠ .err (.templateNotFound m) := by
  have h' : assoc name r.templates = some t := h
  have key : ∀ sink, (r.renderToWrite n sink name data).1 ≠ .err (.templateNotFound m) := by
    intro sink
    simp only [Reg.renderToWrite, h']
    split <;> simp
  refine ⟨key sink, ?_⟩
  have := key stringSink
  simp only [Reg.render]
  split <;> simp_all

/-- A destination that accepts every write in full. -/
def Accepts (sink : Sink) : Prop := ∀ ws s, sink ws s = .ok (blen s)

/-- C37: on a registry in which `name` is registered with the template compiled from
`src`, `render`, `once`, `render_template` of the compiled template and `render_to_write`
to any destination that accepts everything all have the same outcome and text. -/
theorem C37_entry_points_agree [Host] (n : Nat) (r r' : Reg) (name src : Str) (data : Value)
    (h : r.insert name src = (.ok (), r')) (sink : Sink) (hs : Accepts sink) :
    ∃ t, parseTemplate name src = .ok t ∧
      r'.once n name src data = renderTemplate n r' name t data ∧
      r'.render n name data = renderTemplate n r' name t data ∧
      (match r'.renderToWrite n sink name data with
        | (.ok _, ws) => .ok (ws.flatMap (·.chunk))
        | (.err e, _) => .err e
        | (.panic, _) => .panic
        | (.fuel, _) => .fuel) = renderTemplate n r' name t data := by
  have hsink : sink = stringSink := by funext ws s; exact hs ws s
  subst hsink
  simp only [Reg.insert] at h
  cases ht : compileTemplate src ⟨name, 0, 0⟩ with
  | ok t =>
      rw [ht] at h
      have hr : assoc name r'.templates = some t := by
        simp only [Prod.mk.injEq, true_and] at h
        rw [← h]; exact assoc_insert_self _ _ _
      refine ⟨t, ht, ?_, ?_, ?_⟩
      · simp [Reg.once, ht]
      · simp only [Reg.render, Reg.renderToWrite, hr, renderTemplate]
        rcases renderTo n r' stringSink name t.node data with ⟨res, s⟩
        cases res <;> rfl
      · simp only [Reg.renderToWrite, hr, renderTemplate]
        rcases renderTo n r' stringSink name t.node data with ⟨res, s⟩
        cases res <;> rfl
  | err e => rw [ht] at h; simp at h
  | panic => rw [ht] at h; simp at h
  | fuel => rw [ht] at h; simp at h

/-- C37: when the source does not compile, `insert`, `once` and `parse` report the same
error. -/
theorem C37_same_error [Host] (n : Nat) (r : Reg) (name src : Str) (data : Value) (e : ApiErr) :
    (parseTemplate name src = .err e ↔ (r.insert name src).1 = .err e) ∧
    (parseTemplate name src = .err e → r.once n name src data = .err e) := by
  simp only [parseTemplate, Reg.insert, Reg.once]
  cases compileTemplate src ⟨name, 0, 0⟩ <;> simp

/-- Did an insertion succeed? -/
def insertOk [Host] (r : Reg) (name src : Str) : Bool :=
  match (r.insert name src).1 with
  | .ok _ => true
  | _ => false

theorem insertOk_spec [Host] {r : Reg} {name src : Str} (h : insertOk r name src = true) :
    ∃ r', r.insert name src = (.ok (), r') := by
  unfold insertOk at h
  rcases hr : r.insert name src with ⟨o, r'⟩
  rw [hr] at h
  cases o <;> simp at h
  exact ⟨r', rfl⟩

section Witness
attribute [local instance] exHost
example : ∃ r', Reg.new.insert c!"a" c!"hi {{x}}" = (.ok (), r') :=
  insertOk_spec (by decide +kernel)
example : ((Reg.new.insert c!"a" c!"hi {{x}}").2.get c!"a").isSome = true := by decide +kernel
example : Accepts stringSink := fun _ _ => rfl
end Witness

end Bracket.Props
