import Verif.Spec.Partials
import Verif.Props.Blocks
import Verif.Props.Invoke
import Verif.Props.Balanced

/-! C29: partials. -/

set_option linter.unusedSectionVars false

namespace Bracket.Props
open Spec RM

section
variable [Host]

theorem withBlock_eq (content : Option Node) (s : RS) : withBlock content s.partials = blocksIn content s := by
  cases content <;> rfl

theorem partialScope_iff {E : Env} {c : Call} {s t : RS} {sc : Scope} :
    Eval (fun n => partialScope (sem n) E c) s (.ok sc) t ↔
      ∃ hs vs u, ArgsEval E (c.params.map (·.2)) s hs u ∧ ArgsEval E c.args u vs t ∧
        sc = match vs with
          | v :: _ => ⟨some (v.getD .null), hashOf c.params hs []⟩
          | [] => ⟨some (.obj (hashOf c.params hs [])), []⟩ := by
  unfold partialScope
  constructor
  · intro h
    obtain ⟨⟨m, ms⟩, u, h1, h2⟩ := Spec.Eval.bind_inv_ok h
    obtain ⟨hs, g1, rfl, rfl⟩ := (hashLoop_iff _ _ _ _ _ _ _).1 h1
    refine ⟨hs, ?_⟩
    by_cases hc : c.args = []
    · simp only [hc, List.isEmpty_nil, if_true] at h2
      obtain ⟨h3, rfl⟩ := Spec.Eval.pure.1 h2
      cases h3
      exact ⟨[], t, g1, by rw [hc]; exact .nil _, rfl⟩
    · simp only [List.isEmpty_iff, hc, if_false] at h2
      obtain ⟨⟨vals, ms2⟩, w, h3, h4⟩ := Spec.Eval.bind_inv_ok h2
      obtain ⟨vs, g2, rfl, rfl⟩ := (argumentsLoop_iff _ _ _ _ _ _ _).1 h3
      obtain ⟨h5, rfl⟩ := Spec.Eval.pure.1 h4
      refine ⟨vs, u, g1, g2, ?_⟩
      cases h5
      have := argsEval_length g2
      cases vs with
      | nil => cases hca : c.args with
          | nil => exact absurd hca hc
          | cons a b => rw [hca] at this; cases this
      | cons v vs => rfl
  · rintro ⟨hs, vs, u, g1, g2, rfl⟩
    refine Spec.Eval.bindOk (mono_hash _ _ _ _) (fun a => ?_) ((hashLoop_iff _ _ _ _ _ _ _).2 ⟨hs, g1, rfl, rfl⟩) ?_
    · split
      · exact .const _
      · exact .bind (mono_arguments _ _ _ _) fun _ => .const _
    · by_cases hc : c.args = []
      · rw [hc] at g2
        cases g2
        simp only [hc, List.isEmpty_nil, if_true]
        exact Spec.Eval.pure.2 ⟨rfl, rfl⟩
      · simp only [List.isEmpty_iff, hc, if_false]
        refine Spec.Eval.bindOk (mono_arguments _ _ _ _) (fun a => .const _)
          ((argumentsLoop_iff _ _ _ _ _ _ _).2 ⟨vs, g2, rfl, rfl⟩) (Spec.Eval.pure.2 ⟨?_, rfl⟩)
        have := argsEval_length g2
        cases vs with
        | nil => cases hca : c.args with
          | nil => exact absurd hca hc
          | cons a b => rw [hca] at this; cases this
        | cons v vs => rfl

theorem hashIs (ps : List (Str × ParamValue)) (hk : (ps.map (·.1)).Nodup) (hs : List (Option Value)) :
    HashIs ps hs (hashOf ps hs []) :=
  ⟨fun i k p v h1 h2 => (params_get ps hs [] hk i k p v h1 h2).1,
   fun k h => by rw [hashOf_notMem _ _ _ _ h]; rfl⟩


/-- The scope of a partial, as the code builds it. -/
def scopeFor (c : Call) (vs hs : List (Option Value)) : Scope :=
  match vs with
  | v :: _ => ⟨some (v.getD .null), hashOf c.params hs []⟩
  | [] => ⟨some (.obj (hashOf c.params hs [])), []⟩

theorem partialScope_scopeFor {c : Call} (hk : KeysOk c) (vs hs : List (Option Value)) :
    PartialScope c vs hs (scopeFor c vs hs) := by
  constructor
  · intro v hv
    cases vs with
    | nil => cases hv
    | cons w vs => cases hv; exact ⟨rfl, hashIs _ hk _⟩
  · rintro rfl
    exact ⟨rfl, _, rfl, hashIs _ hk _⟩

theorem findPartial_iff {E : Env} {name : Str} {s t : RS} {n : Node} :
    findPartial E name s = (.ok n, t) ↔
      ∃ files, PartialIs E s.partials s.curPartial name n files ∧ t = { s with curPartial := files } := by
  unfold findPartial
  rw [RM.bind_def]
  simp only [RM.get]
  cases h : assoc name s.partials with
  | some m =>
      simp only
      constructor
      · intro e; cases e; exact ⟨_, .content h, rfl⟩
      · rintro ⟨f, hp, rfl⟩
        cases hp with
        | content h' => rw [h] at h'; cases h'; rfl
        | template h' => rw [h] at h'; cases h'
  | none =>
      simp only
      cases h2 : assoc name E.reg.templates with
      | none =>
          simp only
          constructor
          · intro e; cases e
          · rintro ⟨f, hp, rfl⟩
            cases hp with
            | content h' => rw [h] at h'; cases h'
            | template _ h' => rw [h2] at h'; cases h'
      | some tm =>
          simp only
          constructor
          · intro e; cases e; exact ⟨_, .template h h2, rfl⟩
          · rintro ⟨f, hp, rfl⟩
            cases hp with
            | content h' => rw [h] at h'; cases h'
            | template _ h' => rw [h2] at h'; cases h'; rfl

/-- Rendering nodes after a tag whose request is still pending. -/
theorem rendersHinted {E : Env} (ns : List Node) (hint : Option TrimHint) (s u : RS) :
    Eval (fun n => runEvents (fun ev => (sem n).renderNode E ev.node ev.trim) ns none hint) s (.ok ()) u ↔
      RendersList E (startTrim none hint) ns s u := by
  cases ns with
  | nil =>
      rw [show (fun n => runEvents (fun ev => (sem n).renderNode E ev.node ev.trim) [] none hint)
        = fun _ => (pure () : RM Unit) from rfl, Spec.Eval.pure]
      constructor
      · rintro ⟨_, rfl⟩; exact .nil _ _
      · intro h; cases h; exact ⟨rfl, rfl⟩
  | cons m ns =>
      constructor
      · intro h
        unfold runEvents at h
        obtain ⟨stop, s1, h1, ha⟩ := Spec.Eval.bind_inv_ok h
        obtain ⟨e1, e1'⟩ := nextBefore_ok ns s (Spec.Eval.const.1 h1).2
        subst e1; subst e1'
        clear h
        obtain ⟨cur, s2, h2, h⟩ := Spec.Eval.bind_inv_ok ha
        have h2 := (Spec.Eval.const.1 h2).2
        cases hm : m.trim with
        | none => rw [hm] at h2; cases h2
        | some hh =>
            rw [hm] at h2
            cases h2
            obtain ⟨_, s3, h3, h⟩ := Spec.Eval.bind_inv_ok h
            have := (rendersList_iff _ _ _ _).1 h
            rw [trimAfterOf_eq hm] at this
            exact .cons h3 this
      · intro h
        cases h with
        | cons h1 h2 =>
            obtain ⟨hh, hm⟩ := renders_trim h1
            have hnx : ∀ m' ms, ns = m' :: ms → ∃ x, m'.trim = some x := by
              rintro m' ms rfl
              cases h2 with
              | cons h _ => exact renders_trim h
            unfold runEvents
            rw [Spec.Eval.step (nextBefore_of_trim hnx s)]
            rw [Spec.Eval.step (t := s) (a := hh) (by simp [RM.orPanic, hm])]
            rw [← trimAfterOf_eq hm] at h2
            refine Spec.Eval.bindOk (mono_renderNode _ _ _) (fun _ => ?_) h1 ((rendersList_iff _ _ _ _).2 h2)
            exact mono_runEvents (fun ev => mono_renderNode _ _ _) _ _ _

theorem mono_partialScope (E : Env) (c : Call) : MonoF fun n => partialScope (sem n) E c := by
  unfold partialScope
  refine .bind (mono_hash _ _ _ _) fun a => ?_
  by_cases h : c.args.isEmpty
  · simp only [h, if_true]; exact .const _
  · simp only [h]; exact .bind (mono_arguments _ _ _ _) fun _ => .const _

theorem mono_partialRest (E : Env) (c : Call) (node : Node) : MonoF fun n => (do
    let scope ← partialScope (sem n) E c
    RM.modify (RS.push scope)
    let s ← RM.get
    runEvents (fun ev => (sem n).renderNode E ev.node ev.trim) node.children none s.hint) :=
  .bind (mono_partialScope _ _) fun _ => .bind (.const _) fun _ => .bind (.const _) fun _ =>
    mono_runEvents (fun _ => mono_renderNode _ _ _) _ _ _

theorem partialBody_iff {E : Env} {c : Call} {name : Str} {content : Option Node} {s u : RS} :
    Eval (fun n => partialBody (sem n) E name c content) s (.ok ()) u ↔
      ∃ node files hs vs s1 s2, PartialIs E (blocksIn content s) s.curPartial name node files ∧
        ArgsEval E (c.params.map (·.2)) { s with partials := blocksIn content s, curPartial := files } hs s1 ∧
        ArgsEval E c.args s1 vs s2 ∧
        RendersList E (hintAfter s2) node.children { s2 with scopes := scopeFor c vs hs :: s2.scopes } u := by
  have hev : ∀ (ns : List Node) (s : RS), Eval (fun n => runEvents (fun ev => (sem n).renderNode E ev.node ev.trim) ns none s.hint) s (.ok ()) u ↔
      RendersList E (hintAfter s) ns s u := by
    intro ns s
    rw [rendersHinted]
    have : startTrim none s.hint = hintAfter s := by cases h : s.hint <;> simp [startTrim, hintAfter, h]
    rw [this]
  unfold partialBody
  rw [Spec.Eval.step (m := RM.modify fun s => { s with partials := withBlock content s.partials })
    (t := { s with partials := blocksIn content s }) (by rw [← withBlock_eq]; rfl)]
  constructor
  · intro h
    obtain ⟨node, t1, h1, h2⟩ := Spec.Eval.bind_inv_ok h
    obtain ⟨files, hp, rfl⟩ := findPartial_iff.1 (Spec.Eval.const.1 h1).2
    clear h h1
    obtain ⟨sc, t2, h3, h4⟩ := Spec.Eval.bind_inv_ok h2
    obtain ⟨hs, vs, s1, g1, g2, rfl⟩ := partialScope_iff.1 h3
    clear h2 h3
    rw [Spec.Eval.step (m := RM.modify _) rfl, Spec.Eval.step (m := RM.get) rfl] at h4
    exact ⟨node, files, hs, vs, s1, t2, hp, g1, g2, (hev _ _).1 h4⟩
  · rintro ⟨node, files, hs, vs, s1, s2, hp, g1, g2, g3⟩
    refine Spec.Eval.bindOk (.const _) (fun n => mono_partialRest _ _ _) (Spec.Eval.const.2 ⟨by simp, findPartial_iff.2 ⟨files, hp, rfl⟩⟩) ?_
    refine Spec.Eval.bindOk (mono_partialScope _ _) (fun n => ?_) (partialScope_iff.2 ⟨hs, vs, s1, g1, g2, rfl⟩) ?_
    · exact .bind (.const _) fun _ => .bind (.const _) fun _ => mono_runEvents (fun _ => mono_renderNode _ _ _) _ _ _
    · rw [Spec.Eval.step (m := RM.modify _) rfl, Spec.Eval.step (m := RM.get) rfl]
      exact (hev _ _).2 g3

theorem partialName_of {E : Env} {c : Call} {name : Str} (h : PartialCall c name) (n : Nat) (s : RS) :
    partialName (sem n) E c s = (.ok name, s) := by
  obtain ⟨p, h1, h2, h3⟩ := h.target
  unfold partialName
  rw [h1]
  simp only
  rw [orPanic_bind h2]
  by_cases hn : name = nmPartialBlock
  · rw [if_pos hn, hn]; rfl
  · rw [if_neg hn, if_pos (h3.resolve_left hn)]; rfl

theorem renderPartial_iff {E : Env} {c : Call} {name : Str} (h : PartialCall c name) (content : Option Node) {s t : RS} :
    Eval (fun n => renderPartial (sem n) E c content) s (.ok ()) t ↔
      CallSite.part name ∉ s.stack ∧ ∃ node files hs vs s1 s2 u,
        PartialIs E (blocksIn content s) s.curPartial name node files ∧
        ArgsEval E (c.params.map (·.2)) (insidePartial s name content files) hs s1 ∧
        ArgsEval E c.args s1 vs s2 ∧
        RendersList E (hintAfter s2) node.children { s2 with scopes := scopeFor c vs hs :: s2.scopes } u ∧
        t = afterPartial u := by
  rw [Spec.Eval.congr (g := fun n => partialAt (sem n) E c content name) (fun n => by
    rw [renderPartial_eq, RM.bind_def, partialName_of h])]
  by_cases hs : CallSite.part name ∈ s.stack
  · constructor
    · rintro ⟨_, n, h1⟩
      simp only [partialAt, List.contains_iff_mem, hs, if_true] at h1
      cases h1
    · rintro ⟨h1, _⟩; exact absurd hs h1
  · rw [and_iff_right hs]
    have e : ∀ n, partialAt (sem n) E c content name s
        = finishPartial (partialBody (sem n) E name c content (entered s (.part name))) := by
      intro n
      simp only [partialAt, List.contains_iff_mem, hs, if_false]
      rfl
    have : Eval (fun n => partialAt (sem n) E c content name) s (.ok ()) t ↔
        ∃ u, Eval (fun n => partialBody (sem n) E name c content) (entered s (.part name)) (.ok ()) u ∧ t = afterPartial u := by
      constructor
      · rintro ⟨_, n, h1⟩
        simp only [e] at h1
        rcases hb : partialBody (sem n) E name c content (entered s (.part name)) with ⟨r, u⟩
        rw [hb] at h1
        cases r <;> cases h1
        exact ⟨u, ⟨by simp, n, hb⟩, rfl⟩
      · rintro ⟨u, ⟨_, n, h1⟩, rfl⟩
        refine ⟨by simp, n, ?_⟩
        simp only at h1 ⊢
        rw [e, h1]
        rfl
    rw [this]
    constructor
    · rintro ⟨u, h1, rfl⟩
      obtain ⟨node, files, hs, vs, s1, s2, g⟩ := partialBody_iff.1 h1
      exact ⟨node, files, hs, vs, s1, s2, u, g.1, g.2.1, g.2.2.1, g.2.2.2, rfl⟩
    · rintro ⟨node, files, hs, vs, s1, s2, u, g1, g2, g3, g4, rfl⟩
      exact ⟨u, partialBody_iff.2 ⟨node, files, hs, vs, s1, s2, g1, g2, g3, g4⟩, rfl⟩

/-- C29: a partial statement renders what its name stands for, in a scope made of its context argument
and its hash, on top of the scopes around it; it has no value. -/
theorem C29_statement (E : Env) (c : Call) (name : Str) (hc : PartialCall c name) (hk : KeysOk c) (s t : RS)
    (v : Option Value) (h : Evaluates E c s (.ok v) t) : v = none ∧ RendersPartial E c name none s t := by
  rw [evaluates_iff] at h
  unfold statementF at h
  simp only [hc.isPartial, if_true] at h
  obtain ⟨_, u, h1, h2⟩ := Spec.Eval.bind_inv_ok h
  obtain ⟨e, rfl⟩ := Spec.Eval.pure.1 h2
  cases e
  obtain ⟨h3, node, files, hs, vs, s1, s2, u, g1, g2, g3, g4, g5⟩ := (renderPartial_iff hc none).1 h1
  exact ⟨rfl, h3, node, files, hs, vs, s1, s2, _, u, g1, g2, g3, partialScope_scopeFor hk _ _, g4, g5⟩

/-- C29: and whenever the evaluation of its hash and arguments, and its nodes, succeed, so does the
partial. -/
theorem C29_succeeds (E : Env) (c : Call) (name : Str) (hc : PartialCall c name) (hk : KeysOk c) (s s1 s2 : RS)
    (node : Node) (files : List (Option Str)) (hs vs : List (Option Value)) (h0 : CallSite.part name ∉ s.stack)
    (h1 : PartialIs E s.partials s.curPartial name node files)
    (h2 : ArgsEval E (c.params.map (·.2)) (insidePartial s name none files) hs s1) (h3 : ArgsEval E c.args s1 vs s2) :
    ∃ sc, PartialScope c vs hs sc ∧
      ∀ u, RendersList E (hintAfter s2) node.children { s2 with scopes := sc :: s2.scopes } u →
        Evaluates E c s (.ok none) (afterPartial u) := by
  refine ⟨scopeFor c vs hs, partialScope_scopeFor hk _ _, fun u hu => ?_⟩
  rw [evaluates_iff]
  unfold statementF
  simp only [hc.isPartial, if_true]
  exact Spec.Eval.bindOk (mono_renderPartial _ _ _) (fun _ => .const _)
    ((renderPartial_iff hc none).2 ⟨h0, node, files, hs, vs, s1, s2, u, h1, h2, h3, hu, rfl⟩)
    (Spec.Eval.pure.2 ⟨rfl, rfl⟩)

theorem argsEval_balanced {E : Env} (hr : BalancedReg E.reg) {ps : List ParamValue} {s t : RS}
    {vs : List (Option Value)} (h : ArgsEval E ps s vs t) (hl : LocalsBalanced s) :
    LocalsBalanced t ∧ Rest true s t ∧ t.scopes = s.scopes := by
  induction h with
  | nil => exact ⟨hl, .refl _ _, rfl⟩
  | cons hp _ ih =>
      cases hp with
      | literal => exact ih hl
      | path => exact ih hl
      | sub h _ =>
          obtain ⟨_, n, h⟩ := h
          obtain ⟨h1, h2, h3⟩ := restored_statement E hr n _ _ _ _ hl h
          obtain ⟨g1, g2, g3⟩ := ih h1
          exact ⟨g1, h2.trans g2, g3.trans h3⟩

theorem rendersList_balanced {E : Env} (hr : BalancedReg E.reg) {start : Bool} {ns : List Node} {s t : RS}
    (h : RendersList E start ns s t) (hl : LocalsBalanced s) :
    LocalsBalanced t ∧ Rest true s t ∧ t.scopes = s.scopes := by
  induction h with
  | nil => exact ⟨hl, .refl _ _, rfl⟩
  | cons h _ ih =>
      obtain ⟨_, n, h⟩ := h
      obtain ⟨h1, h2, h3⟩ := restored E hr n _ _ _ _ hl h
      obtain ⟨g1, g2, g3⟩ := ih h1
      exact ⟨g1, h2.trans g2, g3.trans h3⟩

/-- C29: the scopes around the partial are visible behind its own, and afterwards they are what they
were. -/
theorem C29_scopes (E : Env) (hr : BalancedReg E.reg) (c : Call) (name : Str) (content : Option Node) (s t : RS)
    (hl : LocalsBalanced s) (h : RendersPartial E c name content s t) :
    t.scopes = s.scopes ∧ ∃ vs hs s2 sc u node, PartialScope c vs hs sc ∧ s2.scopes = s.scopes ∧
      RendersList E (hintAfter s2) node { s2 with scopes := sc :: s.scopes } u ∧ t = afterPartial u := by
  obtain ⟨_, node, files, hs, vs, s1, s2, sc, u, g1, g2, g3, g4, g5, rfl⟩ := h
  obtain ⟨h1, _, h3⟩ := argsEval_balanced hr g2 (by exact hl.of_eq rfl)
  obtain ⟨k1, _, k3⟩ := argsEval_balanced hr g3 h1
  obtain ⟨m1, _, m3⟩ := rendersList_balanced hr g5 (by exact k1.of_eq rfl)
  have e : s2.scopes = s.scopes := k3.trans h3
  refine ⟨?_, vs, hs, s2, sc, u, node.children, g4, e, by rw [← e]; exact g5, rfl⟩
  show u.scopes.tail = _
  rw [m3]
  exact e

/-- C29: the same for a block partial, whose content is then known as `@partial-block`. -/
theorem C29_block (E : Env) (b : Block) (name : Str) (hc : PartialCall b.call name) (hk : KeysOk b.call)
    (trim : TrimState) (s t : RS) (h : Renders E (.block b) trim s (.ok ()) t) :
    ∃ s0, Quiet s s0 ∧ s0.out = s.out ∧ RendersPartial E b.call name (some (.block b)) s0 t := by
  obtain ⟨hh, hm⟩ := renders_trim h
  rw [renders_kind hm] at h
  change Eval (fun n => blockF (sem n) E b) _ _ _ at h
  unfold blockF at h
  simp only [hc.isPartial, if_true] at h
  obtain ⟨h3, node, files, hs, vs, s1, s2, u, g1, g2, g3, g4, g5⟩ := (renderPartial_iff hc _).1 h
  exact ⟨begin_ s trim hh, ⟨rfl, rfl, rfl, rfl, rfl, rfl, rfl⟩, rfl, h3, node, files, hs, vs, s1, s2, _, u, g1, g2, g3,
    partialScope_scopeFor hk _ _, g4, g5⟩

/-! ### C30 -/

/-- C30: a helper called while the current partial is a template with a file name sees that name; for a
template without one, and outside of partials, it sees the name the renderer was started with. -/
theorem C30_seen (E : Env) (s : RS) (k : View → Prog) (n : Nat) (files : List (Option Str)) (h : s.curPartial = files) :
    run (sem n) E (.peek k) s = run (sem n) E (k (view E s)) s ∧
    (view E s).currentName = (files.head?.join).getD E.name := by
  refine ⟨runs_peek _ _ _ _, ?_⟩
  subst h
  unfold view currentName
  cases s.curPartial with
  | nil => rfl
  | cons f fs => cases f <;> rfl

/-- C30: the file name of a template is the name it was inserted under, or the path of the file it was read
from; only the name `unknown` (the default of `ParserOptions`) counts as no name. -/
theorem C30_file (r r' : Reg) (name src file : Str) (fs : Fs) :
    (r.insert name src = (.ok (), r') → ∃ t, r'.get name = some t ∧ t.fileName = if name = c!"unknown" then none else some name) ∧
    (r.add fs name file = (.ok (), r') → ∃ t, r'.get name = some t ∧ t.fileName = if file = c!"unknown" then none else some file) := by
  have key : ∀ src file t, compileTemplate src ⟨file, 0, 0⟩ = .ok t → t.fileName = if file = c!"unknown" then none else some file := by
    intro src file t h
    unfold compileTemplate at h
    split at h
    · cases h
      by_cases he : file = c!"unknown"
      · simp [unknownName, he]
      · simp [unknownName, he]
    all_goals cases h
  constructor
  · intro h
    unfold Reg.insert at h
    split at h
    · rename_i t ht
      injection h with _ h
      subst h
      exact ⟨t, assoc_insert_self .., key _ _ _ ht⟩
    all_goals (injection h with h _; cases h)
  · intro h
    unfold Reg.add at h
    split at h
    · injection h with h _; cases h
    · split at h
      · rename_i t ht
        injection h with _ h
        subst h
        exact ⟨t, assoc_insert_self .., key _ _ _ ht⟩
      all_goals (injection h with h _; cases h)

/-- C30 (restoration, first part): with balanced helpers, every node that renders successfully leaves the current name as it
was, as long as no `{{> @partial-block}}` is rendered in it. -/
theorem C30_restored_partial (E : Env) (hr : BalancedReg E.reg) (node : Node) (trim : TrimState) (s t : RS)
    (hl : LocalsBalanced s) (ho : OnlyBlock s) (hc : Calm s t) (h : Renders E node trim s (.ok ()) t) :
    t.curPartial = s.curPartial ∧ (view E t).currentName = (view E s).currentName := by
  obtain ⟨_, n, h⟩ := h
  have := restored_node E hr n node trim s t hl ho hc h
  refine ⟨this, ?_⟩
  unfold view currentName
  simp only [this]

/-- C30: while the nodes of a registered partial are rendered, the file name of the partial is the
current one, from its first node on. -/
theorem C30_inside_partial (E : Env) (hr : BalancedReg E.reg) (c : Call) (name : Str) (hc : PartialCall c name) (hk : KeysOk c)
    (tm : Template) (htm : assoc name E.reg.templates = some tm) (s t : RS) (hn : name ≠ c!"@partial-block")
    (hl : LocalsBalanced s) (ho : OnlyBlock s) (hcalm : Calm s t) (v : Option Value) (h : Evaluates E c s (.ok v) t) :
    t.curPartial = s.curPartial ∧ ∃ start s2 u, RendersList E start tm.node.children s2 u ∧ t = afterPartial u ∧
      s2.curPartial = tm.fileName :: s.curPartial ∧ (view E s2).currentName = tm.fileName.getD E.name ∧
      u.curPartial = s2.curPartial := by
  obtain ⟨rfl, _, node, files, hs, vs, s1, s2, sc, u, g1, g2, g3, g4, g5, rfl⟩ := C29_statement E c name hc hk s t v h
  cases g1 with
  | content h1 => change assoc name s.partials = _ at h1; rw [ho name hn] at h1; cases h1
  | template h1 h2 =>
      rw [htm] at h2; cases h2
      have hl0 : LocalsBalanced (insidePartial s name none (tm.fileName :: s.curPartial)) := hl.of_eq rfl
      have ho0 : OnlyBlock (insidePartial s name none (tm.fileName :: s.curPartial)) := ho
      obtain ⟨h1, r1, _⟩ := argsEval_balanced hr g2 hl0
      obtain ⟨k1, r2, _⟩ := argsEval_balanced hr g3 h1
      obtain ⟨m1, r3, _⟩ := rendersList_balanced hr g5 (by exact k1.of_eq rfl)
      have r12 := r1.trans r2
      obtain ⟨x, hx⟩ := r12.grow
      obtain ⟨y, hy⟩ := r3.grow
      have hev : CallEv.enter (.part nmPartialBlock) ∉ (.enter (.part name) :: x ++ y ++ [.leave] : List CallEv) := by
        refine hcalm _ ?_
        show u.trace ++ _ = _
        rw [hy]
        show s2.trace ++ _ ++ _ = _
        rw [hx]
        simp [insidePartial, entered]
      simp only [List.cons_append, List.mem_cons, List.mem_append, not_or, List.not_mem_nil] at hev
      have c2 : s2.curPartial = tm.fileName :: s.curPartial := r12.cur rfl ho0 (fun e he => by
        rw [hx, List.append_cancel_left_eq] at he
        exact he ▸ hev.2.1.1)
      have c3 : u.curPartial = s2.curPartial := r3.cur rfl (r12.blocks ho0) (fun e he => by
        rw [hy, List.append_cancel_left_eq] at he
        exact he ▸ hev.2.1.2)
      refine ⟨?_, _, _, u, g5, rfl, c2, ?_, c3⟩
      · show u.curPartial.tail = _
        rw [c3, c2]; rfl
      · unfold view currentName
        simp only [c2]
        cases tm.fileName <;> rfl

end

section Witness
attribute [local instance] exHost

/-- A helper that prints the current name. -/
def nameHelper : HelperFn := fun _ _ => .peek fun v => .write v.currentName fun _ => .ret none

/-- A registry with named templates and that helper. -/
def nameReg (ts : List (Str × Str)) : Reg :=
  (ts.foldl (fun r t => (r.insert t.1 t.2).2) Reg.new).insertHelper c!"cn" nameHelper

-- C29: context and hash; without a context the hash is `this`; outer data behind both
example : Ex.render (nameReg [(c!"p", c!"{{this.x}}{{k}}{{z}}")]) c!"{{> p a k=b}}|{{> p x=b}}|{{x}}"
    (.obj [(c!"a", .obj [(c!"x", .str c!"1")]), (c!"b", .str c!"2"), (c!"z", .str c!"3")]) =
    some (.ok, c!"123|23|") := by decide +kernel

-- C29/C30: the hypotheses on calls are met by compiled partials
example : (Ex.stmt c!"{{> p a k=b}}").any (fun c => c.isPartial && (Ex.target c).any (fun p =>
    p.asStr == some c!"p" && p.isSimple) && decide ((c.params.map (·.1)).Nodup)) = true := by decide +kernel

-- C30: nested partials
example : Ex.render (nameReg [(c!"p", c!"<{{cn}}{{> q}}{{cn}}>"), (c!"q", c!"({{cn}})")]) c!"{{cn}}{{> p}}{{cn}}" .null =
    some (.ok, c!"m<p(q)p>m") := by decide +kernel

/-- C30 is violated by `{{> @partial-block}}`: a block does not become the current partial but ends it, so
that what follows it in the partial `p` sees the name of the template around the partial. -/
theorem C30_violated : Ex.render (nameReg [(c!"p", c!"{{cn}},{{> @partial-block}},{{cn}}")]) c!"{{#> p}}{{cn}}{{/p}},{{cn}}" .null =
    some (.ok, c!"p,p,m,m") := by decide +kernel

/-- C30 is violated by a partial that is called `unknown`: it counts as a template without a name, and helpers see the name
of the template that was rendered. -/
theorem C30_unknown : Ex.render (nameReg [(c!"unknown", c!"{{cn}}"), (c!"p", c!"{{cn}}")]) c!"{{> p}},{{> unknown}}" .null =
    some (.ok, c!"p,m") := by decide +kernel

-- and two levels deep the name of the wrong partial is seen
example : Ex.render (nameReg [(c!"p", c!"{{> @partial-block}}"), (c!"q", c!"{{#> p}}{{/p}}{{cn}}")]) c!"{{> q}}" .null =
    some (.ok, c!"m") := by decide +kernel

end Witness

end Bracket.Props
