import Verif.Lemmas.Holdings
import Verif.Props.Registry
import Mathlib.Data.List.Perm.Basic

/-! C92: only what the registry holds matters. -/

namespace Bracket.Props
open Spec

section
variable [Host]

theorem hold_refl (r : Reg) : HoldSame r r :=
  ⟨fun _ => rfl, fun _ => rfl, rfl, rfl, rfl, rfl, rfl⟩

theorem hold_trans {r s t : Reg} (h : HoldSame r s) (k : HoldSame s t) : HoldSame r t :=
  ⟨fun n => (h.templates n).trans (k.templates n), fun n => (h.helpers n).trans (k.helpers n),
    h.link.trans k.link, h.helperMissing.trans k.helperMissing,
    h.blockHelperMissing.trans k.blockHelperMissing, h.escape.trans k.escape, h.strict.trans k.strict⟩

/-- C92: two registries that hold the same give the same result, text, error and writes, for every
template, compiled by whatever means, every data and every destination, at every depth of
recursion. -/
theorem C92_render {r r' : Reg} (h : HoldSame r r') (n : Nat) (data : Value) :
    (∀ name, r.render n name data = r'.render n name data) ∧
    (∀ sink name, r.renderToWrite n sink name data = r'.renderToWrite n sink name data) ∧
    (∀ name src, r.once n name src data = r'.once n name src data) ∧
    (∀ name t, renderTemplate n r name t data = renderTemplate n r' name t data) := by
  have h1 : ∀ sink name, r.renderToWrite n sink name data = r'.renderToWrite n sink name data := by
    intro sink name
    have ht : assoc name r.templates = assoc name r'.templates := h.templates name
    unfold Reg.renderToWrite
    rw [ht]
    cases assoc name r'.templates with
    | none => rfl
    | some t => simp only [same_renderTo h]
  have h2 : ∀ name t, renderTemplate n r name t data = renderTemplate n r' name t data := by
    intro name t
    unfold renderTemplate
    rw [same_renderTo h]
  refine ⟨?_, h1, ?_, h2⟩
  · intro name
    unfold Reg.render
    rw [h1]
  · intro name src
    unfold Reg.once
    simp only [h2]

/-- Inserting, adding, removing and looking up leave all but the templates alone. -/
theorem regStep_rest (fs : Fs) (r : Reg) (op : RegOp) :
    (regStep fs r op).2 = { r with templates := (regStep fs r op).2.templates } := by
  cases op with
  | insert name src =>
    simp only [regStep, Reg.insert]
    cases compileTemplate src ⟨name, 0, 0⟩ <;> rfl
  | add name file =>
    simp only [regStep, Reg.add]
    cases fs file with
    | error e => rfl
    | ok s =>
      dsimp only
      cases compileTemplate s ⟨file, 0, 0⟩ <;> rfl
  | remove name => rfl
  | get name => rfl

theorem regRun_rest (fs : Fs) (r : Reg) (ops : List RegOp) :
    (regRun fs r ops).2 = { r with templates := (regRun fs r ops).2.templates } := by
  induction ops generalizing r with
  | nil => rfl
  | cons op ops ih =>
    simp only [regRun]
    have h := ih (regStep fs r op).2
    rw [h, regStep_rest]

/-- C92: the history by which the templates came to be there is irrelevant: two histories of insert,
add, remove and get that, read as operations on a plain map, end with the same map leave registries
that hold the same. -/
theorem C92_history (fs : Fs) (r : Reg) (ops ops' : List RegOp)
    (h : (mapRun fs r.get ops).2 = (mapRun fs r.get ops').2) :
    HoldSame (regRun fs r ops).2 (regRun fs r ops').2 := by
  have hg : (regRun fs r ops).2.get = (regRun fs r ops').2.get := by
    rw [(C35_registry_is_map fs r ops).2, (C35_registry_is_map fs r ops').2, h]
  refine ⟨fun n => congrFun hg n, ?_, ?_, ?_, ?_, ?_, ?_⟩ <;>
    rw [regRun_rest fs r ops, regRun_rest fs r ops'] <;> intros <;> rfl

omit [Host] in
theorem assoc_insert_if {β : Type} (k m : Str) (v : β) (l : List (Str × β)) :
    assoc m (assocInsert k v l) = if m = k then some v else assoc m l := by
  by_cases h : m = k
  · subst h; rw [if_pos rfl, Bracket.assoc_insert_self]
  · rw [if_neg h, Bracket.assoc_insert_ne v l h]

omit [Host] in
theorem assoc_erase_if {β : Type} (k m : Str) (l : List (Str × β)) :
    assoc m (assocErase k l) = if m = k then none else assoc m l := by
  by_cases h : m = k
  · subst h; rw [if_pos rfl, Bracket.assoc_erase_self]
  · rw [if_neg h, Bracket.assoc_erase_ne l h]

/-- C92: from registries that hold the same, the same change answers the same and leaves registries
that hold the same. -/
theorem C92_change (fs : Fs) {r r' : Reg} (h : HoldSame r r') (c : Change) :
    HoldSame (c.make fs r) (c.make fs r') ∧
    (∀ op, c = .template op → (regStep fs r op).1 = (regStep fs r' op).1) := by
  have hg : r.get = r'.get := funext h.templates
  constructor
  · cases c with
    | template op =>
      simp only [Change.make]
      refine ⟨fun n => ?_, ?_, ?_, ?_, ?_, ?_, ?_⟩
      · rw [(regStep_refines fs r op).2, (regStep_refines fs r' op).2, hg]
      all_goals rw [regStep_rest fs r op, regStep_rest fs r' op]
      · exact h.helpers
      · exact h.link
      · exact h.helperMissing
      · exact h.blockHelperMissing
      · exact h.escape
      · exact h.strict
    | helper name x =>
      exact ⟨h.templates, fun n => by
        simp only [Change.make, Reg.insertHelper, assoc_insert_if, h.helpers], h.link, h.helperMissing,
        h.blockHelperMissing, h.escape, h.strict⟩
    | noHelper name =>
      exact ⟨h.templates, fun n => by
        simp only [Change.make, Reg.removeHelper, assoc_erase_if, h.helpers], h.link, h.helperMissing,
        h.blockHelperMissing, h.escape, h.strict⟩
    | link x => exact ⟨h.templates, h.helpers, rfl, h.helperMissing, h.blockHelperMissing, h.escape, h.strict⟩
    | helperMissing x => exact ⟨h.templates, h.helpers, h.link, rfl, h.blockHelperMissing, h.escape, h.strict⟩
    | blockHelperMissing x => exact ⟨h.templates, h.helpers, h.link, h.helperMissing, rfl, h.escape, h.strict⟩
    | escape x => exact ⟨h.templates, h.helpers, h.link, h.helperMissing, h.blockHelperMissing, rfl, h.strict⟩
    | strict x => exact ⟨h.templates, h.helpers, h.link, h.helperMissing, h.blockHelperMissing, h.escape, rfl⟩
  · rintro op rfl
    rw [(regStep_refines fs r op).1, (regStep_refines fs r' op).1, hg]

theorem changed_same (fs : Fs) (cs : List Change) {r r' : Reg} (h : HoldSame r r') :
    HoldSame (changed fs r cs) (changed fs r' cs) := by
  induction cs generalizing r r' with
  | nil => exact h
  | cons c cs ih => exact ih (C92_change fs h c).1

/-- The effect of a template operation on the map touches its own name only, whatever the map. -/
theorem mapStep_at (fs : Fs) (op : RegOp) : ∃ f : Option Template → Option Template, ∀ (m : TMap) n,
    (mapStep fs m op).2 n =
      if Subject.template n = (Change.template op).about then f (m n) else m n := by
  cases op with
  | insert name src =>
    cases hpo : produced fs (.insert name src) with
    | ok t => exact ⟨fun _ => some t, fun m n => by simp only [mapStep, hpo, Change.about, Subject.template.injEq]⟩
    | err e => exact ⟨id, fun m n => by simp only [mapStep, hpo, id_eq, ite_self]⟩
    | panic => exact ⟨id, fun m n => by simp only [mapStep, hpo, id_eq, ite_self]⟩
    | fuel => exact ⟨id, fun m n => by simp only [mapStep, hpo, id_eq, ite_self]⟩
  | add name file =>
    cases hpo : produced fs (.add name file) with
    | ok t => exact ⟨fun _ => some t, fun m n => by simp only [mapStep, hpo, Change.about, Subject.template.injEq]⟩
    | err e => exact ⟨id, fun m n => by simp only [mapStep, hpo, id_eq, ite_self]⟩
    | panic => exact ⟨id, fun m n => by simp only [mapStep, hpo, id_eq, ite_self]⟩
    | fuel => exact ⟨id, fun m n => by simp only [mapStep, hpo, id_eq, ite_self]⟩
  | remove name =>
    exact ⟨fun _ => none, fun m n => by simp only [Change.about, Subject.template.injEq, mapStep]⟩
  | get name =>
    exact ⟨id, fun m n => by simp only [id_eq, ite_self, mapStep]⟩

/-- What a change does to the lookups of a registry. -/
structure Effect (c : Change) (g : Reg → Reg) : Prop where
  templates : ∃ f : Option Template → Option Template, ∀ r n,
    (g r).get n = if Subject.template n = c.about then f (r.get n) else r.get n
  helpers : ∃ f : Option HelperFn → Option HelperFn, ∀ r n,
    assoc n (g r).helpers = if Subject.helper n = c.about then f (assoc n r.helpers) else assoc n r.helpers
  link : ∃ f : Option HelperFn → Option HelperFn, ∀ r,
    (g r).link = if Subject.link = c.about then f r.link else r.link
  helperMissing : ∃ f : Option HelperFn → Option HelperFn, ∀ r,
    (g r).helperMissing = if Subject.helperMissing = c.about then f r.helperMissing else r.helperMissing
  blockHelperMissing : ∃ f : Option HelperFn → Option HelperFn, ∀ r,
    (g r).blockHelperMissing =
      if Subject.blockHelperMissing = c.about then f r.blockHelperMissing else r.blockHelperMissing
  escape : ∃ f : (Str → Str) → (Str → Str), ∀ r,
    (g r).escape = if Subject.escape = c.about then f r.escape else r.escape
  strict : ∃ f : Bool → Bool, ∀ r,
    (g r).strict = if Subject.strict = c.about then f r.strict else r.strict

theorem about_template (op : RegOp) : ∃ n, (Change.template op).about = .template n := by
  cases op <;> exact ⟨_, rfl⟩

theorem make_effect (fs : Fs) (c : Change) : Effect c (fun r => c.make fs r) := by
  cases c with
  | template op =>
    obtain ⟨f, hf⟩ := mapStep_at fs op
    obtain ⟨w, hw⟩ := about_template op
    refine ⟨⟨f, fun r n => ?_⟩, ⟨id, fun r n => ?_⟩, ⟨id, fun r => ?_⟩, ⟨id, fun r => ?_⟩, ⟨id, fun r => ?_⟩,
      ⟨id, fun r => ?_⟩, ⟨id, fun r => ?_⟩⟩
    · simp only [Change.make]
      rw [(regStep_refines fs r op).2, hf]
    all_goals
      simp only [Change.make, id_eq, ite_self]
      rw [regStep_rest]
  | helper name h =>
    refine ⟨⟨id, fun r n => ?_⟩, ⟨fun _ => some h, fun r n => ?_⟩, ⟨id, fun r => ?_⟩, ⟨id, fun r => ?_⟩,
      ⟨id, fun r => ?_⟩, ⟨id, fun r => ?_⟩, ⟨id, fun r => ?_⟩⟩
    · rw [id_eq, ite_self]; rfl
    · simp only [Change.make, Reg.insertHelper, assoc_insert_if, Change.about, Subject.helper.injEq]
    all_goals rw [id_eq, ite_self]; rfl
  | noHelper name =>
    refine ⟨⟨id, fun r n => ?_⟩, ⟨fun _ => none, fun r n => ?_⟩, ⟨id, fun r => ?_⟩, ⟨id, fun r => ?_⟩,
      ⟨id, fun r => ?_⟩, ⟨id, fun r => ?_⟩, ⟨id, fun r => ?_⟩⟩
    · rw [id_eq, ite_self]; rfl
    · simp only [Change.make, Reg.removeHelper, assoc_erase_if, Change.about, Subject.helper.injEq]
    all_goals rw [id_eq, ite_self]; rfl
  | link h =>
    exact ⟨⟨id, fun r n => (ite_self _).symm⟩, ⟨id, fun r n => (ite_self _).symm⟩, ⟨fun _ => h, fun r => rfl⟩,
      ⟨id, fun r => (ite_self _).symm⟩, ⟨id, fun r => (ite_self _).symm⟩, ⟨id, fun r => (ite_self _).symm⟩,
      ⟨id, fun r => (ite_self _).symm⟩⟩
  | helperMissing h =>
    exact ⟨⟨id, fun r n => (ite_self _).symm⟩, ⟨id, fun r n => (ite_self _).symm⟩, ⟨id, fun r => (ite_self _).symm⟩,
      ⟨fun _ => h, fun r => rfl⟩, ⟨id, fun r => (ite_self _).symm⟩, ⟨id, fun r => (ite_self _).symm⟩,
      ⟨id, fun r => (ite_self _).symm⟩⟩
  | blockHelperMissing h =>
    exact ⟨⟨id, fun r n => (ite_self _).symm⟩, ⟨id, fun r n => (ite_self _).symm⟩, ⟨id, fun r => (ite_self _).symm⟩,
      ⟨id, fun r => (ite_self _).symm⟩, ⟨fun _ => h, fun r => rfl⟩, ⟨id, fun r => (ite_self _).symm⟩,
      ⟨id, fun r => (ite_self _).symm⟩⟩
  | escape h =>
    exact ⟨⟨id, fun r n => (ite_self _).symm⟩, ⟨id, fun r n => (ite_self _).symm⟩, ⟨id, fun r => (ite_self _).symm⟩,
      ⟨id, fun r => (ite_self _).symm⟩, ⟨id, fun r => (ite_self _).symm⟩, ⟨fun _ => h, fun r => rfl⟩,
      ⟨id, fun r => (ite_self _).symm⟩⟩
  | strict h =>
    exact ⟨⟨id, fun r n => (ite_self _).symm⟩, ⟨id, fun r n => (ite_self _).symm⟩, ⟨id, fun r => (ite_self _).symm⟩,
      ⟨id, fun r => (ite_self _).symm⟩, ⟨id, fun r => (ite_self _).symm⟩, ⟨id, fun r => (ite_self _).symm⟩,
      ⟨fun _ => h, fun r => rfl⟩⟩

theorem slot_swap {α : Type} {x p q : Subject} (hpq : p ≠ q) (f g : α → α) (v : α) :
    (if x = q then g (if x = p then f v else v) else if x = p then f v else v) =
    (if x = p then f (if x = q then g v else v) else if x = q then g v else v) := by
  by_cases h1 : x = p
  · have h2 : ¬ x = q := fun h => hpq (h1.symm.trans h)
    simp only [h1, hpq, if_true, if_false]
  · simp only [h1, if_false]

/-- Two changes about different things commute. -/
theorem make_swap (fs : Fs) (r : Reg) (c d : Change) (hcd : c.about ≠ d.about) :
    HoldSame (d.make fs (c.make fs r)) (c.make fs (d.make fs r)) := by
  obtain ⟨⟨f1, c1⟩, ⟨f2, c2⟩, ⟨f3, c3⟩, ⟨f4, c4⟩, ⟨f5, c5⟩, ⟨f6, c6⟩, ⟨f7, c7⟩⟩ := make_effect fs c
  obtain ⟨⟨g1, d1⟩, ⟨g2, d2⟩, ⟨g3, d3⟩, ⟨g4, d4⟩, ⟨g5, d5⟩, ⟨g6, d6⟩, ⟨g7, d7⟩⟩ := make_effect fs d
  exact ⟨fun n => by rw [d1, c1, c1, d1]; exact slot_swap hcd f1 g1 _,
    fun n => by rw [d2, c2, c2, d2]; exact slot_swap hcd f2 g2 _,
    by rw [d3, c3, c3, d3]; exact slot_swap hcd f3 g3 _,
    by rw [d4, c4, c4, d4]; exact slot_swap hcd f4 g4 _,
    by rw [d5, c5, c5, d5]; exact slot_swap hcd f5 g5 _,
    by rw [d6, c6, c6, d6]; exact slot_swap hcd f6 g6 _,
    by rw [d7, c7, c7, d7]; exact slot_swap hcd f7 g7 _⟩

/-- C92: the order of set-up does not matter: any changes about pairwise different things (templates
inserted, added from files or removed, helpers registered or removed, handlers and settings set) can
be made in any order, and the registries hold the same. -/
theorem C92_order (fs : Fs) (r : Reg) {cs ds : List Change} (hp : cs.Perm ds)
    (hd : (cs.map Change.about).Nodup) : HoldSame (changed fs r cs) (changed fs r ds) := by
  induction hp generalizing r with
  | nil => exact hold_refl r
  | cons c _ ih => exact ih (c.make fs r) (List.nodup_cons.1 hd).2
  | swap c d l =>
    refine changed_same fs l (make_swap fs r d c ?_)
    intro h
    exact (List.nodup_cons.1 hd).1 (by rw [h]; exact List.mem_cons_self ..)
  | trans h1 _ ih1 ih2 =>
    exact hold_trans (ih1 r hd) (ih2 r ((h1.map _).nodup_iff.1 hd))

end

section
attribute [local instance] exHost

/-- Non-vacuity: two templates, a helper and strict mode, set up in two orders; the second setup also
takes a detour. The tables themselves differ, what they hold does not. -/
def setupA : List Change :=
  [.template (.insert c!"a" c!"{{> b}}"), .template (.insert c!"b" c!"x"), .helper c!"h" (fun _ _ => .ret none),
    .strict true]

def setupB : List Change :=
  [.strict true, .template (.insert c!"b" c!"x"), .helper c!"h" (fun _ _ => .ret none),
    .template (.insert c!"a" c!"{{> b}}")]

example : (changed (fun _ => .error ⟨0⟩) Reg.new setupA).templates.map (·.1) = [c!"a", c!"b"] ∧
    (changed (fun _ => .error ⟨0⟩) Reg.new setupB).templates.map (·.1) = [c!"b", c!"a"] := by
  constructor <;> decide +kernel

theorem perm4 {α : Type} (a b c d : α) : [a, b, c, d].Perm [d, b, c, a] := by
  have h1 : [a, b, c, d].Perm (d :: [a, b, c]) := (List.perm_append_comm (l₁ := [a, b, c]) (l₂ := [d]))
  have h2 : [a, b, c].Perm [b, c, a] := (List.perm_append_comm (l₁ := [a]) (l₂ := [b, c]))
  exact h1.trans (h2.cons d)

theorem setup_same (fs : Fs) : HoldSame (changed fs Reg.new setupA) (changed fs Reg.new setupB) :=
  C92_order fs _ (perm4 _ _ _ _) (by decide +kernel)

example (fs : Fs) (n : Nat) (data : Value) :
    (changed fs Reg.new setupA).render n c!"a" data = (changed fs Reg.new setupB).render n c!"a" data :=
  (C92_render (setup_same fs) n data).1 _

/-- A detour: a template inserted, replaced and removed again leaves no trace. -/
example (fs : Fs) (n : Nat) (data : Value) :
    (regRun fs Reg.new
      [.insert c!"t" c!"x", .insert c!"a" c!"{{> t}}", .insert c!"t" c!"y", .remove c!"t"]).2.render n c!"a" data =
    (regRun fs Reg.new [.insert c!"a" c!"{{> t}}"]).2.render n c!"a" data := by
  refine (C92_render (C92_history _ _ _ _ ?_) n data).1 _
  have ht : ¬ c!"t" = c!"a" := by decide
  funext x
  simp only [mapRun, mapStep]
  generalize produced fs (.insert c!"t" c!"x") = p1
  generalize produced fs (.insert c!"t" c!"y") = p2
  generalize produced fs (.insert c!"a" c!"{{> t}}") = p3
  by_cases h : x = c!"t"
  · subst h
    cases p1 <;> cases p2 <;> cases p3 <;> simp only [if_pos, if_neg ht] <;> rfl
  · cases p1 <;> cases p2 <;> cases p3 <;> simp only [if_neg h]

end

end Bracket.Props
