import Verif.Props.Nodes
import Verif.Lemmas.Args

/-! C14, C15, C33, C43, C48, C50: what a call does and what a helper receives. -/

set_option linter.unusedSectionVars false

namespace Bracket.Props
open Spec

section
variable [Host]

/-- The hash keys of a call are distinct (the parser keeps them in a map). -/
def KeysOk (c : Call) : Prop := (c.params.map (·.1)).Nodup

theorem site_eq (name : Str) (content : Option Node) : siteOf name content = site name content := by
  cases content <;> rfl

theorem depth_eq (s : RS) (name : Str) (content : Option Node) :
    (s.stack.filter (· == siteOf name content)).length = depth s name content := by
  unfold depth
  rw [site_eq, List.count_eq_countP, List.countP_eq_length_filter]

theorem paramM_fails {E : Env} {p : ParamValue} {s t : RS} {r : Res (Value × Option Str)}
    (h : Eval (fun n => paramM (sem n) E p) s r t) (hr : r.isOk = false) :
    (∃ c' r' t', p = .subExpr c' ∧ Evaluates E c' s r' t' ∧ failOf r' = some (r.cast : Res (Option Value))) ∨ r = .panic := by
  cases p with
  | json src v sp l =>
      obtain ⟨e, _⟩ := Spec.Eval.pure.1 h
      rw [e] at hr; cases hr
  | path p =>
      right
      obtain ⟨h0, h⟩ := Spec.Eval.const.1 h
      rw [lookupM_def] at h
      cases hl : lookup E.root s.scopes p with
      | none => rw [hl] at h; cases h; rfl
      | some o =>
          rw [hl] at h
          cases o with
          | some v => cases h; cases hr
          | none =>
              simp only at h
              rw [RM.bind_def] at h
              simp only [RM.orPanic] at h
              cases ha : p.asStr with
              | none => simp only [ha] at h; cases h; rfl
              | some raw => simp only [ha] at h; cases h; cases hr
  | subExpr c =>
      unfold paramM at h
      rcases h.bind_inv with ⟨o, t1, h1, h2⟩ | ⟨r', h1, h2, h3⟩
      · right
        obtain ⟨h0, h2⟩ := Spec.Eval.const.1 h2
        cases o with
        | some v => cases h2; cases hr
        | none =>
            simp only at h2
            rw [RM.bind_def] at h2
            simp only [RM.orPanic] at h2
            cases ha : c.asStr with
            | none => simp only [ha] at h2; cases h2; rfl
            | some raw => simp only [ha] at h2; cases h2; cases hr
      · left
        refine ⟨c, r', t, rfl, h1, ?_⟩
        subst h3
        cases r' with
        | ok a => cases h2
        | err e => rfl
        | panic => rfl
        | fuel => exact absurd rfl h1.1

/-- One of the parameters fails with `r`. -/
def ListFails (E : Env) (ps : List ParamValue) (r : Res (Option Value)) : Prop :=
  ∃ p ∈ ps, (∃ c' s' t' r', p = .subExpr c' ∧ Evaluates E c' s' r' t' ∧ failOf r' = some r) ∨ r = .panic

theorem cast_cast {α β γ : Type} {r : Res α} (h : r.isOk = false) : ((r.cast : Res β).cast : Res γ) = r.cast := by
  cases r with
  | ok a => cases h
  | _ => rfl

theorem cast_isOk {α β : Type} (r : Res α) : (r.cast : Res β).isOk = false := by cases r <;> rfl

theorem param_listFails {E : Env} {p : ParamValue} {ps : List ParamValue} {s t : RS} {r : Res (Value × Option Str)}
    (h : Eval (fun n => paramM (sem n) E p) s r t) (hr : r.isOk = false) : ListFails E (p :: ps) r.cast := by
  refine ⟨p, List.mem_cons_self .., ?_⟩
  rcases paramM_fails h hr with ⟨c', r', t', h1, h2, h3⟩ | h
  · exact .inl ⟨c', s, t', r', h1, h2, h3⟩
  · right; rw [h]; rfl

theorem argumentsLoop_fails {E : Env} : ∀ (ps : List ParamValue) (i : Nat) (ms : List Missing) (s t : RS)
    (r : Res (List Value × List Missing)),
    Eval (fun n => argumentsLoop (sem n) E i ps ms) s r t → r.isOk = false → ListFails E ps r.cast := by
  intro ps
  induction ps with
  | nil =>
      intro i ms s t r h hr
      obtain ⟨e, _⟩ := Spec.Eval.pure.1 h
      rw [e] at hr; cases hr
  | cons p ps ih =>
      intro i ms s t r h hr
      unfold argumentsLoop at h
      rcases h.bind_inv with ⟨o, t1, h1, h2⟩ | ⟨r', h1, h2, h3⟩
      · rcases h2.bind_inv with ⟨o2, t2, h3, h4⟩ | ⟨r', h1, h2, h3⟩
        · obtain ⟨e, _⟩ := Spec.Eval.pure.1 h4
          rw [e] at hr; cases hr
        · obtain ⟨q, hq, hf⟩ := ih _ _ _ _ _ h1 h2
          rw [h3, cast_cast h2]
          exact ⟨q, List.mem_cons_of_mem _ hq, hf⟩
      · rw [h3, cast_cast h2]
        exact param_listFails h1 h2

theorem hashLoop_fails {E : Env} : ∀ (ps : List (Str × ParamValue)) (out : List (Str × Value)) (ms : List Missing) (s t : RS)
    (r : Res (List (Str × Value) × List Missing)),
    Eval (fun n => hashLoop (sem n) E ps out ms) s r t → r.isOk = false → ListFails E (ps.map (·.2)) r.cast := by
  intro ps
  induction ps with
  | nil =>
      intro i ms s t r h hr
      obtain ⟨e, _⟩ := Spec.Eval.pure.1 h
      rw [e] at hr; cases hr
  | cons kp ps ih =>
      obtain ⟨k, p⟩ := kp
      intro i ms s t r h hr
      unfold hashLoop at h
      rcases h.bind_inv with ⟨o, t1, h1, h2⟩ | ⟨r', h1, h2, h3⟩
      · obtain ⟨q, hq, hf⟩ := ih _ _ _ _ _ h2 hr
        exact ⟨q, List.mem_cons_of_mem _ hq, hf⟩
      · rw [h3, cast_cast h2]
        exact param_listFails h1 h2

/-- The helpers a target may stand for. -/
def targetOf (E : Env) (name : Str) : Target → RS → HelperFn → Prop
  | .name, s, f => Resolves E s name f
  | .handler h, _, f => f = h

theorem runTarget_cases {E : Env} {name : Str} {target : Target} {ctx : Ctx} {content : Option Node} {s t : RS}
    {r : Res (Option Value)}
    (h : Eval (fun n => runTarget (sem n) E name target ctx content s.locals) s r t) :
    (∃ f, targetOf E name target s f ∧ RunsHelper E (f ctx content) s r t) ∨
    ((∀ f, ¬ targetOf E name target s f) ∧ r = .ok none ∧ t = s) := by
  unfold runTarget at h
  cases target with
  | handler f => exact .inl ⟨f, rfl, h⟩
  | name =>
      simp only at h
      cases h1 : assoc name s.locals with
      | some f => rw [h1] at h; exact .inl ⟨f, .inl h1, h⟩
      | none =>
          rw [h1] at h
          simp only at h
          cases h2 : assoc name E.reg.helpers with
          | some f => rw [h2] at h; exact .inl ⟨f, .inr ⟨h1, h2⟩, h⟩
          | none =>
              rw [h2] at h
              obtain ⟨e1, e2⟩ := Spec.Eval.pure.1 h
              refine .inr ⟨?_, e1, e2⟩
              rintro f (h | ⟨_, h⟩)
              · rw [h1] at h; cases h
              · rw [h2] at h; cases h

/-- Everything that can happen when a helper is called. -/
theorem invoke_cases {E : Env} {name : Str} {target : Target} {c : Call} (hk : KeysOk c) {content : Option Node}
    {text : Option Str} {prop : Option (Str × Value)} {s t : RS} {r : Res (Option Value)}
    (h : Eval (fun n => invoke (sem n) E name target c content text prop) s r t) :
    HelperCall E name (targetOf E name target) c content text prop s r t := by
  obtain ⟨h0, n, h⟩ := h
  change invoke (sem n) E name target c content text prop s = _ at h
  rw [invoke_eq, depth_eq] at h
  by_cases hd : depth s name content ≥ stackMax
  · rw [if_pos hd] at h
    cases h
    exact .inl ⟨hd, rfl, rfl⟩
  · rw [if_neg hd] at h
    have hlt : depth s name content < 32 := by unfold stackMax at hd; omega
    have hb : ∃ r' t', invokeBody (sem n) E name target c content text prop (s.enter (siteOf name content)) = (r', t') :=
      ⟨_, _, rfl⟩
    obtain ⟨r', t', hb⟩ := hb
    rw [hb] at h
    have hr : r' = r ∧ t'.out = t.out ∧ t'.scopes = t.scopes ∧ t'.locals = t.locals := by
      cases r' <;> cases h <;> exact ⟨rfl, rfl, rfl, rfl⟩
    obtain ⟨rfl, hout, hsc, hlo⟩ := hr
    have hev : Eval (fun n => invokeBody (sem n) E name target c content text prop) (s.enter (siteOf name content)) r' t' :=
      ⟨h0, n, hb⟩
    rw [show s.enter (siteOf name content) = entered s (site name content) by rw [← site_eq]; rfl] at hev
    clear hb h
    right
    unfold invokeBody at hev
    rcases hev.bind_inv with ⟨⟨as, ms⟩, u, h1, h2⟩ | ⟨ra, h1, h2, h3⟩
    · obtain ⟨vs, g1, rfl, rfl⟩ := (argumentsLoop_iff _ _ _ _ _ _ _).1 h1
      rcases h2.bind_inv with ⟨⟨hs, ms2⟩, u2, h3, h4⟩ | ⟨ra, h1, h2, h3⟩
      · obtain ⟨hvs, g2, rfl, rfl⟩ := (hashLoop_iff _ _ _ _ _ _ _).1 h3
        right
        have h4 := (Spec.Eval.step (m := RM.get) (a := u2) (t := u2) rfl).1 h4
        refine ⟨hlt, _, u2, receives_of hk g1 g2 (name := name) (text := text) (prop := prop), rfl, rfl, rfl, ?_⟩
        simp only [List.nil_append] at h4
        rcases runTarget_cases h4 with ⟨f, e1, e2⟩ | ⟨e1, e2, e3⟩
        · exact .inl ⟨f, t', e1, e2, hout, hsc, hlo⟩
        · exact .inr ⟨e1, e2, by rw [← hout, e3]⟩
      · left
        obtain ⟨q, hq, hf⟩ := hashLoop_fails _ _ _ _ _ _ h1 h2
        exact ⟨hlt, q, List.mem_append_right _ hq, by rw [h3]; exact hf⟩
    · left
      obtain ⟨q, hq, hf⟩ := argumentsLoop_fails _ _ _ _ _ _ h1 h2
      exact ⟨hlt, q, List.mem_append_left _ hq, by rw [h3]; exact hf⟩

/-! ### C14 -/

/-- The call is of a simple name, like `{{name ...}}`. -/
structure SimpleCall (c : Call) (p : Path) (name : Str) : Prop where
  notPartial : c.isPartial = false
  target : c.target = .path p
  simple : p.isSimple = true
  implicit : p.explicit = false
  text : p.asStr = some name

theorem evaluates_callF {E : Env} {c : Call} (hc : c.isPartial = false) {s t : RS} {r : Res (Option Value)} :
    Evaluates E c s r t ↔ Eval (fun n => callF (sem n) E c) s r t := by
  rw [evaluates_iff, ← calls_iff]
  exact Spec.Eval.congr fun n => by
    unfold statementF
    rw [if_neg (by simp [hc])]

theorem callF_simple {E : Env} {c : Call} {p : Path} {name : Str} (hc : SimpleCall c p name) (S : Sem) (s : RS) :
    callF S E c s =
      if hasHelper E s name then invoke S E name .name c none none none s
      else (lookupM E p >>= fun o => match o with
        | some v => pure (some v)
        | none =>
            match E.reg.helperMissing with
            | some h => invoke S E nmHelperMissing (.handler h) c none none none
            | none => if E.reg.strict then RM.fail (.variableNotFound name E.name) else pure none) s := by
  unfold callF
  rw [hc.target]
  simp only
  rw [if_neg (by simp [hc.implicit]), if_pos hc.simple, orPanic_bind hc.text, RM.bind_def]
  simp only [RM.get]
  split <;> rfl

theorem resolves_hasHelper {E : Env} {s : RS} {name : Str} : hasHelper E s name = true ↔ ∃ f, Resolves E s name f := by
  unfold hasHelper Resolves
  cases h1 : assoc name s.locals with
  | some f => simp
  | none =>
      cases h2 : assoc name E.reg.helpers with
      | some f => simp
      | none => simp

/-- C14: a simple name that stands for a helper calls it, whatever variables there are; the name is
resolved among the local helpers first (`Resolves`). -/
theorem C14_helper (E : Env) (c : Call) (p : Path) (name : Str) (hc : SimpleCall c p name) (hk : KeysOk c)
    (s t : RS) (f : HelperFn) (hf : Resolves E s name f) (r : Res (Option Value)) (h : Evaluates E c s r t) :
    HelperCall E name (fun s1 f => Resolves E s1 name f) c none none none s r t := by
  rw [evaluates_callF hc.notPartial, Spec.Eval.congr (g := fun n => invoke (sem n) E name .name c none none none)
    (fun n => by rw [callF_simple hc, if_pos (resolves_hasHelper.2 ⟨f, hf⟩)])] at h
  exact invoke_cases hk h

theorem plain_args {E : Env} {ps : List ParamValue} (hp : ∀ p ∈ ps, ∀ c', p ≠ .subExpr c') {s t : RS} {vs : List (Option Value)}
    (h : ArgsEval E ps s vs t) : t = s := by
  induction h with
  | nil => rfl
  | cons h1 h2 ih =>
      rw [ih fun p hq => hp p (List.mem_cons_of_mem _ hq)]
      cases h1 with
      | literal => rfl
      | path => rfl
      | sub => exact absurd rfl (hp _ (List.mem_cons_self ..) _)

theorem plain_receives {E : Env} {c : Call} (hp : PlainArgs c) {s t : RS} {ctx : Ctx} (h : Receives E c s ctx t) : t = s := by
  obtain ⟨vs, hs, u, h1, h2, _⟩ := h.values
  have e2 := plain_args (fun p hq => hp p (List.mem_append_right _ hq)) h2
  have e1 := plain_args (fun p hq => hp p (List.mem_append_left _ hq)) h1
  rw [e2, e1]

/-- C14: with plain arguments and fewer than 32 calls of the helper in progress, exactly the helper
the name stands for runs, on what the call gives it (unless slicing the source panics). -/
theorem C14_shadows (E : Env) (c : Call) (p : Path) (name : Str) (hc : SimpleCall c p name) (hk : KeysOk c)
    (hp : PlainArgs c) (s t : RS) (hd : depth s name none < 32) (f : HelperFn) (hf : Resolves E s name f)
    (r : Res (Option Value)) (hr : r ≠ .panic) (h : Evaluates E c s r t) :
    ∃ ctx t1, Receives E c (entered s (.helper name)) ctx (entered s (.helper name)) ∧ ctx.name = name ∧
      RunsHelper E (f ctx none) (entered s (.helper name)) r t1 ∧ t1.out = t.out := by
  rcases C14_helper E c p name hc hk s t f hf r h with ⟨h1, _⟩ | ⟨_, q, hq, hx⟩ | ⟨_, ctx, s1, h1, h2, _, _, h3⟩
  · omega
  · rcases hx with ⟨c', _, _, _, e, _⟩ | e
    · exact absurd e (hp q hq c')
    · exact absurd e hr
  · have e : s1 = entered s (.helper name) := plain_receives hp h1
    subst e
    have hf' : Resolves E (entered s (.helper name)) name f := hf
    have huniq : ∀ {s : RS} {f g : HelperFn}, Resolves E s name f → Resolves E s name g → f = g := by
      rintro s f g (h | ⟨h, h'⟩) (k | ⟨k, k'⟩)
      · rw [h] at k; exact Option.some.inj k
      · rw [h] at k; cases k
      · rw [h] at k; cases k
      · rw [h'] at k'; exact Option.some.inj k'
    rcases h3 with ⟨g, t1, k1, k2, k3, _⟩ | ⟨k1, _⟩
    · have := huniq hf' k1
      subst this
      exact ⟨ctx, t1, h1, h2, k2, k3⟩
    · exact absurd hf' (k1 f)

/-- C14: `this.name` and `./name` read the variable, whatever helpers there are. -/
theorem C14_this (E : Env) (c : Call) (p : Path) (hc : c.isPartial = false) (ht : c.target = .path p)
    (he : p.explicit = true) (s : RS) (v : Option Value) (hv : lookup E.root s.scopes p = some v) :
    Evaluates E c s (.ok v) s := by
  rw [evaluates_callF hc]
  refine ⟨by simp, 0, ?_⟩
  show callF (sem 0) E c s = _
  unfold callF
  rw [ht]
  simp only
  rw [if_pos he]
  exact lookupM_eq hv

/-- C14: a path of several components reads the variable, whatever helpers there are. -/
theorem C14_path (E : Env) (c : Call) (p : Path) (hc : c.isPartial = false) (ht : c.target = .path p)
    (he : p.isSimple = false) (s : RS) (v : Value) (hv : lookup E.root s.scopes p = some (some v)) :
    Evaluates E c s (.ok (some v)) s :=
  evaluates_variable ⟨hc, ht, fun _ h => by rw [he] at h; cases h⟩ hv

/-! ### Blocks -/

theorem eval_drop {α : Type} {f : Nat → RM α} {s t : RS} {r : Res Unit}
    (h : Eval (fun n => f n >>= fun _ => pure ()) s r t) : ∃ r', Eval f s r' t ∧ r = dropValue r' := by
  rcases h.bind_inv with ⟨a, t1, h1, h2⟩ | ⟨r', h1, h2, h3⟩
  · obtain ⟨e1, e2⟩ := Spec.Eval.pure.1 h2
    subst e2
    exact ⟨.ok a, h1, e1⟩
  · refine ⟨r', h1, ?_⟩
    rw [h3]
    cases r' <;> first | rfl | cases h2

/-- The state in which the block's helper is looked for, and the text of a raw block. -/
structure BlockStart (b : Block) (s s0 : RS) (text : Option Str) : Prop where
  quiet : Quiet s s0
  out : s0.out = s.out
  text : text = if b.raw then text else none

theorem blockText_ok {b : Block} {s t : RS} {r : Res (Option Str)} (h : blockText b s = (r, t)) :
    (r = .panic ∧ t = s) ∨ (∃ x, r = .ok x ∧ BlockStart b s t x ∧
      (b.raw = true → ∃ hc, (rawText b).map Prod.fst = x ∧ rawText b = some hc)) := by
  unfold blockText at h
  cases hr : b.raw with
  | false =>
      rw [hr, if_neg (by simp)] at h
      cases h
      exact .inr ⟨none, rfl, ⟨⟨rfl, rfl, rfl, rfl, rfl, rfl, rfl⟩, rfl, by simp⟩, fun h => by cases h⟩
  | true =>
      rw [hr, if_pos rfl, RM.bind_def] at h
      simp only [RM.orPanic] at h
      cases hx : rawText b with
      | none => rw [hx] at h; cases h; exact .inl ⟨rfl, rfl⟩
      | some x =>
          rw [hx] at h
          cases h
          exact .inr ⟨some x.1, rfl, ⟨⟨rfl, rfl, rfl, rfl, rfl, rfl, rfl⟩, rfl, by simp [hr]⟩, fun _ => ⟨x, rfl, rfl⟩⟩

theorem renders_block {E : Env} {b : Block} {name : Str} {p : Path} (hn : b.call.isPartial = false)
    (hp1 : b.call.target = .path p) (hp2 : p.isSimple = true) (hp3 : p.asStr = some name)
    {trim : TrimState} {s t : RS} {r : Res Unit} (h : Renders E (.block b) trim s r t) (hr : r ≠ .panic) :
    ∃ s0 text hint, (Node.block b).trim = some hint ∧ BlockStart b s s0 text ∧
      (b.raw = true → ∃ hc, (rawText b).map Prod.fst = text ∧ rawText b = some hc) ∧
      Eval (fun n => if hasHelper E s0 name then invoke (sem n) E name .name b.call (some (.block b)) text none >>= fun _ => pure ()
        else blockHelperMissing (sem n) E (.block b) b.call p text b.raw) s0 r t ∧
      (b.raw = false → s0.trim.start = startAsked s trim ∧ s0.trim.stop = trim.stop ∧ s0.hint = some hint) := by
  cases hh : (Node.block b).trim with
  | none =>
      exfalso
      rw [renders_iff] at h
      obtain ⟨_, n, h⟩ := h
      change renderNodeF (sem n) E _ trim s = _ at h
      unfold renderNodeF at h
      rw [RM.bind_def, hh] at h
      cases h
      exact hr rfl
  | some hint =>
      rw [renders_kind hh] at h
      have h' : Eval (fun n => blockText b >>= fun text => RM.orPanic p.asStr >>= fun name => RM.get >>= fun s =>
          (if hasHelper E s name then invoke (sem n) E name .name b.call (some (.block b)) text none >>= fun _ => pure ()
          else blockHelperMissing (sem n) E (.block b) b.call p text b.raw)) (begin_ s trim hint) r t := by
        refine (Spec.Eval.congr fun n => ?_).1 h
        show blockF (sem n) E b _ = _
        unfold blockF
        simp only [hn, hp1, hp2, if_true]
        rw [if_neg (by simp)]
      rcases h'.bind_inv with ⟨text, s0, h1, h2⟩ | ⟨r', h1, h2, h3⟩
      · obtain ⟨_, h1⟩ := Spec.Eval.const.1 h1
        rcases blockText_ok h1 with ⟨e, _⟩ | ⟨x, e, hx, hy⟩
        · cases e
        · cases e
          rw [hp3] at h2
          have h3 := (Spec.Eval.step (m := RM.orPanic (some name)) (a := name) (t := s0) rfl).1 h2
          have h4 := (Spec.Eval.step (m := RM.get) (a := s0) (t := s0) rfl).1 h3
          refine ⟨s0, text, hint, rfl, ⟨⟨hx.1.1, hx.1.2, hx.1.3, hx.1.4, hx.1.5, hx.1.6, hx.1.7⟩, hx.2, hx.3⟩, hy, h4, ?_⟩
          intro hraw
          unfold blockText at h1
          rw [hraw, if_neg (by simp)] at h1
          cases h1
          exact ⟨rfl, rfl, rfl⟩
      · obtain ⟨_, h1⟩ := Spec.Eval.const.1 h1
        rcases blockText_ok h1 with ⟨e, _⟩ | ⟨x, e, _⟩
        · subst e
          exact absurd h3 hr
        · subst e; cases h2

/-- C14: a block whose simple name stands for a helper calls it with the block as content. -/
theorem C14_block (E : Env) (b : Block) (name : Str) (hb : NamedBlock b name) (hk : KeysOk b.call)
    (f : HelperFn) (trim : TrimState) (s t : RS) (hf : Resolves E s name f) (r : Res Unit) (hr : r ≠ .panic)
    (h : Renders E (.block b) trim s r t) :
    ∃ s0 text r', Quiet s s0 ∧ s0.out = s.out ∧ r = dropValue r' ∧ (b.raw = false → text = none) ∧
      HelperCall E name (fun s1 f => Resolves E s1 name f) b.call (some (.block b)) text none s0 r' t := by
  obtain ⟨p, hp1, hp2, hp3⟩ := hb.target
  obtain ⟨s0, text, hint, _, hs, _, he, _⟩ := renders_block hb.notPartial hp1 hp2 hp3 h hr
  have hf' : Resolves E s0 name f := by
    unfold Resolves at hf ⊢
    rw [hs.quiet.locals]; exact hf
  rw [resolves_hasHelper.2 ⟨f, hf'⟩] at he
  simp only [if_true] at he
  obtain ⟨r', h1, h2⟩ := eval_drop he
  refine ⟨s0, text, r', hs.quiet, hs.out, h2, ?_, invoke_cases hk h1⟩
  intro hraw
  have := hs.text
  rw [hraw] at this
  simpa using this

/-- C33: with a helper, the text between the tags of a raw block (less whitespace where `~` asks) is
what the helper receives. -/
theorem C33_helper (E : Env) (b : Block) (name inner : Str) (hb : NamedBlock b name) (hraw : b.raw = true) (hk : KeysOk b.call)
    (f : HelperFn) (trim : TrimState) (s t : RS) (hf : Resolves E s name f)
    (hi : b.nodes.head?.elim (some []) Node.asStr = some inner) (h hc : TrimHint)
    (hh : (Node.block b).trim = some h) (hc' : b.trimClose = some hc) (r : Res Unit) (hr : r ≠ .panic)
    (hR : Renders E (.block b) trim s r t) :
    ∃ s0 v r', Quiet s s0 ∧ s0.out = s.out ∧ r = dropValue r' ∧ Trimmed h.after hc.before inner v ∧
      HelperCall E name (fun s1 f => Resolves E s1 name f) b.call (some (.block b)) (some v) none s0 r' t := by
  obtain ⟨p, hp1, hp2, hp3⟩ := hb.target
  obtain ⟨s0, text, hint, _, hs, hx, he, _⟩ := renders_block hb.notPartial hp1 hp2 hp3 hR hr
  have hf' : Resolves E s0 name f := by
    unfold Resolves at hf ⊢
    rw [hs.quiet.locals]; exact hf
  rw [resolves_hasHelper.2 ⟨f, hf'⟩] at he
  simp only [if_true] at he
  obtain ⟨r', h1, h2⟩ := eval_drop he
  obtain ⟨_, e1, _⟩ := hx hraw
  rw [rawText_eq hi hh hc'] at e1
  refine ⟨s0, applyTrim ⟨h.after, hc.before⟩ inner, r', hs.quiet, hs.out, h2, applyTrim_spec _ _, ?_⟩
  have e1 : some (applyTrim ⟨h.after, hc.before⟩ inner) = text := e1
  rw [e1]
  exact invoke_cases hk h1

/-! ### C15, C48 -/

/-- C15: with strict mode on (and no handler) a statement naming a missing variable fails. -/
theorem C15_strict_partial (E : Env) (hs : E.reg.strict = true) (hm : E.reg.helperMissing = none) (c : Call) (p : Path)
    (s : RS) (hc : ReadsVariable E s c p) (he : p.explicit = false) (txt : Str) (ht : p.asStr = some txt)
    (hv : lookup E.root s.scopes p = some none) :
    Evaluates E c s (.err (.variableNotFound txt E.name)) s := by
  rw [evaluates_callF hc.notPartial]
  refine ⟨by simp, 0, ?_⟩
  show callF (sem 0) E c s = _
  unfold callF
  rw [hc.target]
  simp only
  rw [if_neg (by simp [he])]
  cases hsi : p.isSimple with
  | true =>
      obtain ⟨name, h1, h2, h3⟩ := hc.noHelper he hsi
      rw [ht] at h1
      cases h1
      rw [if_pos rfl, orPanic_bind ht, RM.bind_def]
      simp only [RM.get]
      rw [if_neg (by simp [hasHelper, h2, h3]), RM.bind_def, lookupM_eq hv]
      simp only [hm, hs, if_true]
      rfl
  | false =>
      rw [if_neg (by simp), RM.bind_def, lookupM_eq hv]
      simp only [hs, if_true]
      rw [orPanic_bind ht]
      rfl

/-- C15: with strict mode off (and no handler) a statement naming a variable never fails. -/
theorem C15_lenient (E : Env) (hs : E.reg.strict = false) (hm : E.reg.helperMissing = none) (c : Call) (p : Path)
    (s : RS) (hc : ReadsVariable E s c p) (v : Option Value) (hv : lookup E.root s.scopes p = some v) :
    Evaluates E c s (.ok v) s := by
  cases v with
  | some v => exact evaluates_variable hc hv
  | none =>
      rw [evaluates_callF hc.notPartial]
      refine ⟨by simp, 0, ?_⟩
      show callF (sem 0) E c s = _
      unfold callF
      rw [hc.target]
      simp only
      cases he : p.explicit with
      | true => simp only [if_true]; exact lookupM_eq hv
      | false =>
          rw [if_neg (by simp)]
          cases hsi : p.isSimple with
          | true =>
              obtain ⟨name, h1, h2, h3⟩ := hc.noHelper he hsi
              rw [if_pos rfl, orPanic_bind h1, RM.bind_def]
              simp only [RM.get]
              rw [if_neg (by simp [hasHelper, h2, h3]), RM.bind_def, lookupM_eq hv]
              simp only [hm, hs]
              rfl
          | false =>
              rw [if_neg (by simp), RM.bind_def, lookupM_eq hv]
              simp only [hs]
              rfl

/-- C15: a resolvable variable never fails, strict or not, with or without handlers. -/
theorem C15_resolvable (E : Env) (c : Call) (p : Path) (s : RS) (hc : ReadsVariable E s c p) (v : Value)
    (hv : lookup E.root s.scopes p = some (some v)) : Evaluates E c s (.ok (some v)) s :=
  evaluates_variable hc hv

/-- C15, where the code differs: a missing `this.name` or `./name` is not an error even in strict mode. -/
theorem C15_explicit_lenient (E : Env) (c : Call) (p : Path) (hc : c.isPartial = false) (ht : c.target = .path p)
    (he : p.explicit = true) (s : RS) (hv : lookup E.root s.scopes p = some none) :
    Evaluates E c s (.ok none) s := C14_this E c p hc ht he s none hv

theorem notHelper {E : Env} {s s0 : RS} {name : Str} (hq : Quiet s s0) (h1 : assoc name s.locals = none)
    (h2 : assoc name E.reg.helpers = none) : hasHelper E s0 name = false := by
  unfold hasHelper
  rw [hq.locals, h1, h2]; rfl

/-- A block that is neither raw nor names a helper. -/
theorem renders_missing_block {E : Env} {b : Block} {name : Str} {p : Path} (hn : b.call.isPartial = false)
    (hp1 : b.call.target = .path p) (hp2 : p.isSimple = true) (hp3 : p.asStr = some name) (hraw : b.raw = false)
    {trim : TrimState} {s t : RS} (h1 : assoc name s.locals = none) (h2 : assoc name E.reg.helpers = none)
    {v : Option Value} (hv : lookup E.root s.scopes p = some v) {r : Res Unit}
    (h : Renders E (.block b) trim s r t) (hr : r ≠ .panic) :
    ∃ s0 hint, (Node.block b).trim = some hint ∧ Quiet s s0 ∧ s0.out = s.out ∧ s0.hint = some hint ∧
      Eval (fun n => match v with
        | some v =>
            match E.reg.blockHelperMissing with
            | some h => invoke (sem n) E nmBlockHelperMissing (.handler h) b.call (some (.block b)) none (some (name, v)) >>= fun _ => pure ()
            | none => templateQ (sem n) E (.block b)
        | none =>
            match E.reg.helperMissing with
            | some h => invoke (sem n) E nmHelperMissing (.handler h) b.call none none none >>= fun _ => pure ()
            | none => if E.reg.strict then RM.fail (.helperNotFound name) else pure ()) s0 r t := by
  obtain ⟨s0, text, hint, hh, hs, _, he, ht⟩ := renders_block hn hp1 hp2 hp3 h hr
  refine ⟨s0, hint, hh, hs.quiet, hs.out, (ht hraw).2.2, ?_⟩
  rw [notHelper hs.quiet h1 h2] at he
  have hv' : lookup E.root s0.scopes p = some v := by rw [hs.quiet.scopes]; exact hv
  refine (Spec.Eval.congr fun n => ?_).1 he
  show (if false = true then _ else blockHelperMissing (sem n) E (.block b) b.call p text b.raw) s0 = _
  rw [if_neg (by simp)]
  unfold blockHelperMissing
  rw [hraw, if_neg (by simp), RM.bind_def, lookupM_eq hv']
  cases v with
  | some v =>
      simp only
      cases E.reg.blockHelperMissing with
      | some h => simp only; rw [hp3]; rfl
      | none => rfl
  | none =>
      simp only
      cases E.reg.helperMissing with
      | some h => rfl
      | none =>
          simp only
          cases E.reg.strict with
          | true => simp only [if_true]; rw [orPanic_bind hp3]
          | false => rfl

/-- C15: a block naming neither a helper nor a variable (and no handler): an error in strict mode,
nothing otherwise. -/
theorem C15_block (E : Env) (hm : E.reg.helperMissing = none) (b : Block) (name : Str) (p : Path)
    (hn : b.call.isPartial = false) (hp1 : b.call.target = .path p) (hp2 : p.isSimple = true)
    (hp3 : p.asStr = some name) (hraw : b.raw = false) (trim : TrimState) (s t : RS)
    (h1 : assoc name s.locals = none) (h2 : assoc name E.reg.helpers = none)
    (hv : lookup E.root s.scopes p = some none) (r : Res Unit)
    (h : Renders E (.block b) trim s r t) (hr : r ≠ .panic) :
    r = (if E.reg.strict then .err (.helperNotFound name) else .ok ()) ∧ t.out = s.out ∧ Quiet s t := by
  obtain ⟨s0, hint, _, hq, ho, _, he⟩ := renders_missing_block hn hp1 hp2 hp3 hraw h1 h2 hv h hr
  simp only [hm] at he
  cases hs : E.reg.strict with
  | true =>
      simp only [hs, if_true] at he
      obtain ⟨_, e⟩ := Spec.Eval.const.1 he
      cases e
      exact ⟨rfl, ho, hq⟩
  | false =>
      rw [hs] at he
      obtain ⟨e1, e2⟩ := Spec.Eval.pure.1 he
      subst e2
      exact ⟨by rw [e1]; rfl, ho, hq⟩

/-- C48: a simple statement that names neither a helper nor a variable calls `helperMissing`. -/
theorem C48_helper_missing (E : Env) (c : Call) (p : Path) (name : Str) (hc : SimpleCall c p name) (hk : KeysOk c)
    (g : HelperFn) (hg : E.reg.helperMissing = some g) (s t : RS) (h1 : assoc name s.locals = none)
    (h2 : assoc name E.reg.helpers = none) (hv : lookup E.root s.scopes p = some none) (r : Res (Option Value))
    (h : Evaluates E c s r t) :
    HelperCall E c!"helperMissing" (fun _ f => f = g) c none none none s r t := by
  rw [evaluates_callF hc.notPartial, Spec.Eval.congr (g := fun n => invoke (sem n) E nmHelperMissing (.handler g) c none none none)
    (fun n => by
      rw [callF_simple hc, if_neg (by simp [hasHelper, h1, h2]), RM.bind_def, lookupM_eq hv]
      simp only [hg])] at h
  exact invoke_cases hk h

/-- C48: a statement whose variable exists calls no handler: its value is the result, and nothing
else happens. (Helpers come first: C14.) -/
theorem C48_variable (E : Env) (c : Call) (p : Path) (s t : RS) (hc : ReadsVariable E s c p) (v : Value)
    (hv : lookup E.root s.scopes p = some (some v)) (r : Res (Option Value)) (h : Evaluates E c s r t) :
    r = .ok (some v) ∧ t = s := by
  obtain ⟨h1, h2⟩ := h.det (mono_statement E c) (evaluates_variable hc hv)
  exact ⟨h1, h2⟩

/-- C48: a missing path of several components, or starting with `this`, calls no handler. -/
theorem C48_path (E : Env) (c : Call) (p : Path) (hc : c.isPartial = false) (ht : c.target = .path p)
    (hs : p.explicit = true ∨ p.isSimple = false) (s t : RS) (hv : lookup E.root s.scopes p = some none)
    (r : Res (Option Value)) (h : Evaluates E c s r t) : t = s := by
  rw [evaluates_callF hc] at h
  obtain ⟨h0, n, h⟩ := h
  change callF (sem n) E c s = _ at h
  unfold callF at h
  rw [ht] at h
  simp only at h
  cases he : p.explicit with
  | true =>
      rw [he, if_pos rfl, lookupM_eq hv] at h
      cases h; rfl
  | false =>
      have hs' : p.isSimple = false := by
        rcases hs with h | h
        · rw [he] at h; cases h
        · exact h
      rw [he, hs', if_neg (by simp), if_neg (by simp), RM.bind_def, lookupM_eq hv] at h
      simp only at h
      cases hst : E.reg.strict with
      | false => rw [hst] at h; cases h; rfl
      | true =>
          rw [hst, if_pos rfl, RM.bind_def] at h
          simp only [RM.orPanic] at h
          cases ha : p.asStr with
          | none => rw [ha] at h; cases h; rfl
          | some txt => rw [ha] at h; cases h; rfl

/-- C48: a block that names a variable and no helper calls `blockHelperMissing` with that name and
value, and the block as content. -/
theorem C48_block_helper_missing (E : Env) (g : HelperFn) (hg : E.reg.blockHelperMissing = some g) (b : Block)
    (name : Str) (p : Path) (hk : KeysOk b.call)
    (hn : b.call.isPartial = false) (hp1 : b.call.target = .path p) (hp2 : p.isSimple = true)
    (hp3 : p.asStr = some name) (hraw : b.raw = false) (trim : TrimState) (s t : RS)
    (h1 : assoc name s.locals = none) (h2 : assoc name E.reg.helpers = none) (v : Value)
    (hv : lookup E.root s.scopes p = some (some v)) (r : Res Unit)
    (h : Renders E (.block b) trim s r t) (hr : r ≠ .panic) :
    ∃ s0 r', Quiet s s0 ∧ s0.out = s.out ∧ r = dropValue r' ∧
      HelperCall E c!"blockHelperMissing" (fun _ f => f = g) b.call (some (.block b)) none (some (name, v)) s0 r' t := by
  obtain ⟨s0, hint, _, hq, ho, _, he⟩ := renders_missing_block hn hp1 hp2 hp3 hraw h1 h2 hv h hr
  simp only [hg] at he
  obtain ⟨r', e1, e2⟩ := eval_drop he
  exact ⟨s0, r', hq, ho, e2, invoke_cases hk e1⟩

/-- C48: a block that names neither calls `helperMissing` (without content). -/
theorem C48_block_missing (E : Env) (g : HelperFn) (hg : E.reg.helperMissing = some g) (b : Block)
    (name : Str) (p : Path) (hk : KeysOk b.call)
    (hn : b.call.isPartial = false) (hp1 : b.call.target = .path p) (hp2 : p.isSimple = true)
    (hp3 : p.asStr = some name) (hraw : b.raw = false) (trim : TrimState) (s t : RS)
    (h1 : assoc name s.locals = none) (h2 : assoc name E.reg.helpers = none)
    (hv : lookup E.root s.scopes p = some none) (r : Res Unit)
    (h : Renders E (.block b) trim s r t) (hr : r ≠ .panic) :
    ∃ s0 r', Quiet s s0 ∧ s0.out = s.out ∧ r = dropValue r' ∧
      HelperCall E c!"helperMissing" (fun _ f => f = g) b.call none none none s0 r' t := by
  obtain ⟨s0, hint, _, hq, ho, _, he⟩ := renders_missing_block hn hp1 hp2 hp3 hraw h1 h2 hv h hr
  simp only [hg] at he
  obtain ⟨r', e1, e2⟩ := eval_drop he
  exact ⟨s0, r', hq, ho, e2, invoke_cases hk e1⟩

/-- C48: a block that names a variable, when there is no handler, renders its content. -/
theorem C48_block_variable (E : Env) (hg : E.reg.blockHelperMissing = none) (b : Block)
    (name : Str) (p : Path)
    (hn : b.call.isPartial = false) (hp1 : b.call.target = .path p) (hp2 : p.isSimple = true)
    (hp3 : p.asStr = some name) (hraw : b.raw = false) (trim : TrimState) (s t : RS)
    (h1 : assoc name s.locals = none) (h2 : assoc name E.reg.helpers = none) (v : Value)
    (hv : lookup E.root s.scopes p = some (some v))
    (h : Renders E (.block b) trim s (.ok ()) t) :
    ∃ s0, Quiet s s0 ∧ s0.out = s.out ∧ Templates E (.block b) s0 (.ok ()) t := by
  obtain ⟨s0, hint, _, hq, ho, _, he⟩ := renders_missing_block hn hp1 hp2 hp3 hraw h1 h2 hv h (by simp)
  simp only [hg] at he
  refine ⟨s0, hq, ho, ?_⟩
  obtain ⟨_, n, he⟩ := he
  change templateQ (sem n) E (.block b) s0 = _ at he
  unfold templateQ RM.catchErr at he
  rcases hm : template (sem n) E (.block b) s0 with ⟨r, u⟩
  rw [hm] at he
  refine ⟨by simp, n, ?_⟩
  show template (sem n) E (.block b) s0 = _
  rw [hm]
  cases r <;> cases he
  rfl

/-! ### C50 -/

/-- C50: a literal argument is passed as it is, in its place, and is never reported as missing, even
`null`. -/
theorem C50_literal (E : Env) (c : Call) (s t : RS) (ctx : Ctx) (h : Receives E c s ctx t) (i : Nat)
    (src : Str) (v : Value) (sp l : Span) (hi : c.args[i]? = some (.json src v sp l)) :
    ctx.get i = some v ∧ ctx.missingAt i = none := by
  obtain ⟨vs, hs, u, h1, h2, h3, _⟩ := h.values
  have key : ∀ {ps : List ParamValue} {s u : RS} {vs : List (Option Value)}, ArgsEval E ps s vs u → ∀ (i : Nat),
      ps[i]? = some (ParamValue.json src v sp l) → vs[i]? = some (some v) := by
    intro ps s u vs h
    induction h with
    | nil => intro i hi; simp at hi
    | cons h1 _ ih =>
        intro i hi
        cases i with
        | zero => simp only [List.getElem?_cons_zero, Option.some.injEq] at hi; subst hi; cases h1; rfl
        | succ i => exact ih i hi
  exact h3 i _ _ hi (key h1 i hi)

/-- C50: a path argument is passed as the value it has at that moment; a missing one as `null`,
reported with its source text. -/
theorem C50_path (E : Env) (c : Call) (s t : RS) (ctx : Ctx) (h : Receives E c s ctx t) (i : Nat) (p : Path)
    (hi : c.args[i]? = some (.path p)) :
    ∃ s' o, lookup E.root s'.scopes p = some o ∧ (PlainArgs c → s' = s) ∧
      (∀ v, o = some v → ctx.get i = some v ∧ ctx.missingAt i = none) ∧
      (o = none → ∃ raw, p.asStr = some raw ∧ ctx.get i = some .null ∧ ctx.missingAt i = some (.str raw)) := by
  obtain ⟨vs, hs, u, h1, h2, h3, _⟩ := h.values
  have key : ∀ {ps : List ParamValue} {s u : RS} {vs : List (Option Value)}, ArgsEval E ps s vs u → ∀ (i : Nat),
      ps[i]? = some (ParamValue.path p) → ∃ s' o, vs[i]? = some o ∧ lookup E.root s'.scopes p = some o ∧ (o = none → p.asStr.isSome) ∧
        ((∀ q ∈ ps, ∀ c', q ≠ .subExpr c') → s' = s) := by
    intro ps s u vs h
    induction h with
    | nil => intro i hi; simp at hi
    | @cons q qs s t u v vs h1 _ ih =>
        intro i hi
        cases i with
        | zero =>
            simp only [List.getElem?_cons_zero, Option.some.injEq] at hi
            subst hi
            cases h1 with
            | path hv ha => exact ⟨_, _, rfl, hv, ha, fun _ => rfl⟩
        | succ i =>
            obtain ⟨s', o, g1, g2, g3, g4⟩ := ih i hi
            refine ⟨s', o, g1, g2, g3, fun hq => ?_⟩
            rw [g4 fun q' hq' => hq q' (List.mem_cons_of_mem _ hq')]
            cases h1 with
            | literal => rfl
            | path => rfl
            | sub => exact absurd rfl (hq _ (List.mem_cons_self ..) _)
  obtain ⟨s', o, g1, g2, g3, g4⟩ := key h1 i hi
  obtain ⟨k1, k2⟩ := h3 i _ _ hi g1
  refine ⟨s', o, g2, fun hp => g4 fun q hq => hp q (List.mem_append_left _ hq), ?_, ?_⟩
  · rintro v rfl; exact ⟨k1, k2⟩
  · rintro rfl
    obtain ⟨raw, hr⟩ := Option.isSome_iff_exists.1 (g3 rfl)
    exact ⟨raw, hr, k1, by rw [k2]; simp [missingText, ParamValue.asStr, hr]⟩

/-- C50: there are as many arguments as the call has. -/
theorem C50_count (E : Env) (c : Call) (s t : RS) (ctx : Ctx) (h : Receives E c s ctx t) :
    ctx.args.length = c.args.length ∧ ∀ i, c.args.length ≤ i → ctx.missingAt i = none := ⟨h.arity, h.noArg⟩

end

/-! ### The hypotheses are met: concrete templates -/

section Witness
attribute [local instance] exHost

/-- Prints its name, its arguments, its parameter `k`, its text and its property. -/
def shows : HelperFn := fun ctx _ =>
  .ret (some (.str (ctx.name ++ c!"(" ++ joinSpace (ctx.args.map stringify) ++ c!")" ++
    ((ctx.paramFallback c!"k").elim [] stringify) ++ (ctx.text.getD []))))

/-- The same for blocks: written, since blocks have no value. -/
def showsBlock : HelperFn := fun ctx _ =>
  .write (ctx.name ++ (ctx.text.getD []) ++ (ctx.property.elim [] fun p => p.1 ++ stringify p.2)) fun _ => .ret none

/-- A registry with a helper `x`, like the variable, and a block helper `raw`. -/
def exReg : Reg := (Reg.new.insertHelper c!"x" shows).insertHelper c!"raw" showsBlock

-- C14, C48, C50: a simple call with plain arguments
example : ∃ c p, Ex.stmt c!"{{x 1 y k=z.a}}" = some c ∧ SimpleCall c p c!"x" ∧ KeysOk c ∧ PlainArgs c ∧
    Resolves (exEnv exReg exData) (RS.init []) c!"x" shows := by
  obtain ⟨c, h1, h2⟩ := Ex.any (o := Ex.stmt c!"{{x 1 y k=z.a}}")
    (p := fun c => !c.isPartial && (Ex.target c).any (fun p => p.isSimple && !p.explicit && p.asStr == some c!"x") &&
      decide (c.params.map (·.1)).Nodup && (c.args ++ c.params.map (·.2)).all (fun p => match p with
        | .subExpr _ => false
        | _ => true)) (by decide +kernel)
  simp only [Bool.and_eq_true, beq_iff_eq, Bool.not_eq_true', decide_eq_true_eq] at h2
  obtain ⟨⟨⟨a1, a2⟩, a3⟩, a4⟩ := h2
  obtain ⟨p, e, a2⟩ := Ex.any a2
  simp only [Bool.and_eq_true, beq_iff_eq, Bool.not_eq_true'] at a2
  refine ⟨c, p, h1, ⟨a1, Ex.target_eq e, a2.1.1, a2.1.2, a2.2⟩, a3, ?_, .inr ⟨rfl, rfl⟩⟩
  intro q hq c' hc
  rw [List.all_eq_true] at a4
  have := a4 q hq
  rw [hc] at this
  cases this
-- the helper shadows the variable; `this.x` does not see it; missing values are kept as text
example : Ex.render exReg c!"{{x 1 y k=z.a}} {{this.x}} {{./x}}" exData = some (.ok, c!"x(1 null)z.a &lt; &lt;") := by
  decide +kernel
-- C33: a raw block with a helper
example : Ex.render exReg c!"{{{{raw}}}} {{x}} {{{{/raw}}}}" exData = some (.ok, c!"raw {{x}} ") := by decide +kernel

-- C15
example : Ex.render (Reg.new.setStrict true) c!"{{x}}{{a.b}}" exData = some (.variableNotFound c!"a.b", c!"&lt;") := by
  decide +kernel
example : Ex.render (Reg.new.setStrict true) c!"{{#a}}z{{/a}}" exData = some (.helperNotFound c!"a", []) := by
  decide +kernel
example : Ex.render Reg.new c!"{{x}}{{a.b}}{{a}}{{#a}}z{{/a}}" exData = some (.ok, c!"&lt;") := by decide +kernel
example : Ex.render (Reg.new.setStrict true) c!"{{this.a}}" exData = some (.ok, []) := by decide +kernel

-- C48
example : Ex.render { Reg.new with helperMissing := some shows, blockHelperMissing := some showsBlock }
    c!"{{a 1}} {{x}} {{a.b}} {{#x}}z{{/x}} {{#a}}z{{/a}}" exData =
    some (.ok, c!"helperMissing(1) &lt;  blockHelperMissingx< ") := by decide +kernel
example : Ex.render Reg.new c!"{{#x}}z{{/x}}" exData = some (.ok, c!"z") := by decide +kernel
end Witness

end Bracket.Props
