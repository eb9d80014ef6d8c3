import Verif.Spec.Nodes
import Verif.Lemmas.Examples
import Verif.Lemmas.Eval
import Verif.Lemmas.Basic
import Verif.Lemmas.ExHost

/-! C06, C32, C33, C34: what text, comments, escaped tags, links, raw blocks and values write. -/

set_option linter.unusedSectionVars false

namespace Bracket.Props
open Spec

/-! ### Trimming -/

theorem applyTrim_spec (t : TrimState) (s : Str) : Trimmed t.start t.stop s (applyTrim t s) := by
  unfold applyTrim
  obtain ⟨st, sp⟩ := t
  dsimp only
  -- the start
  have h1 : ∃ a, s = a ++ (if st then trimStart s else s) ∧ AllSpace a ∧ (st = false → a = []) ∧
      (st = true → ∀ c u, (if st then trimStart s else s) = c :: u → isWs c = false) := by
    cases st with
    | false => exact ⟨[], rfl, fun _ h => (by cases h), fun _ => rfl, fun h => (by cases h)⟩
    | true =>
        obtain ⟨w, h, hw⟩ := trimStart_suffix s
        exact ⟨w, h, hw, fun h => (by cases h), fun _ c u h => trimStart_head h⟩
  obtain ⟨a, ha, hwa, ha0, hhd⟩ := h1
  generalize (if st then trimStart s else s) = v at *
  cases sp with
  | false =>
      exact ⟨a, [], by simpa using ha, hwa, fun _ h => (by cases h), ha0, fun _ => rfl, hhd, fun h => by cases h⟩
  | true =>
      obtain ⟨w, h, hw⟩ := trimEnd_prefix v
      refine ⟨a, w, ?_, hwa, hw, ha0, fun h => (by cases h), ?_, fun _ c u h => trimEnd_last h⟩
      · show s = a ++ trimEnd v ++ w
        rw [List.append_assoc, ← h]; exact ha
      · intro hs c u e
        change trimEnd v = c :: u at e
        rw [e] at h
        exact hhd hs c _ h

theorem trimmed_none {s r : Str} (h : Trimmed false false s r) : r = s := by
  obtain ⟨a, b, e, _, _, h1, h2, _⟩ := h
  rw [h1 rfl, h2 rfl] at e
  simpa using e.symm

/-- The trimmed text is determined: the shortest one. -/
theorem trimmed_unique {st sp : Bool} {s r r' : Str} (h : Trimmed st sp s r) (h' : Trimmed st sp s r') :
    r = r' := by
  obtain ⟨a, b, e, ha, hb, h1, h2, h3, h4⟩ := h
  obtain ⟨a', b', e', ha', hb', h1', h2', h3', h4'⟩ := h'
  -- a purely white text has only one trimming unless nothing is asked
  have key : ∀ {st : Bool} {a a' q q' : Str}, AllSpace a → AllSpace a' → (st = false → a = []) → (st = false → a' = []) →
      (st = true → ∀ c t, q = c :: t → isWs c = false) → (st = true → ∀ c t, q' = c :: t → isWs c = false) →
      q ≠ [] → q' ≠ [] → a ++ q = a' ++ q' → a = a' := by
    intro st a
    cases st with
    | false => intro a' q q' _ _ h h' _ _ _ _ _; rw [h rfl, h' rfl]
    | true =>
        intro a' q q' ha ha' _ _ hq hq' nq nq' e
        induction a generalizing a' with
        | nil =>
            cases a' with
            | nil => rfl
            | cons c a' =>
                have := hq rfl c (a' ++ q') e
                rw [ha' c (List.mem_cons_self ..)] at this
                cases this
        | cons c a ih =>
            cases a' with
            | nil =>
                have := hq' rfl c (a ++ q) e.symm
                rw [ha c (List.mem_cons_self ..)] at this
                cases this
            | cons c' a' =>
                simp only [List.cons_append, List.cons.injEq] at e
                rw [e.1, ih (fun x hx => ha x (List.mem_cons_of_mem _ hx))
                  (fun x hx => ha' x (List.mem_cons_of_mem _ hx)) (fun h => by cases h) (fun h => by cases h) e.2]
  -- if one is empty so is the other
  have empt : ∀ {st sp : Bool} {a b a' b' r' : Str}, AllSpace a → AllSpace b → (st = false → a = []) → (sp = false → b = []) →
      (st = false → a' = []) → (sp = false → b' = []) →
      (st = true → ∀ c t, r' = c :: t → isWs c = false) → (sp = true → ∀ c t, r' = t ++ [c] → isWs c = false) →
      a ++ b = a' ++ r' ++ b' → r' = [] := by
    intro st sp a b a' b' r' ha hb h1 h2 h1' h2' h3 h4 e
    have hw : ∀ c ∈ r', isWs c = true := by
      intro c hc
      have : c ∈ a ++ b := by rw [e]; simp [hc]
      rcases List.mem_append.1 this with h | h
      · exact ha c h
      · exact hb c h
    cases st with
    | true =>
        cases r' with
        | nil => rfl
        | cons c t =>
            have := h3 rfl c t rfl
            rw [hw c (List.mem_cons_self ..)] at this; cases this
    | false =>
        cases sp with
        | true =>
            rcases List.eq_nil_or_concat r' with h | ⟨t, c, h⟩
            · exact h
            · rw [List.concat_eq_append] at h
              have := h4 rfl c t h
              rw [hw c (by rw [h]; simp)] at this; cases this
        | false =>
            rw [h1 rfl, h2 rfl, h1' rfl, h2' rfl] at e
            simpa using e.symm
  by_cases hr : r = []
  · rw [hr] at e
    rw [hr]
    exact (empt ha hb h1 h2 h1' h2' h3' h4' (by simpa using e.symm.trans e')).symm
  · by_cases hr' : r' = []
    · rw [hr'] at e'
      exact absurd (empt ha' hb' h1' h2' h1 h2 h3 h4 (by simpa using e'.symm.trans e)) hr
    · have ea : a = a' := by
        refine key (st := st) (q := r ++ b) (q' := r' ++ b') ha ha' h1 h1' ?_ ?_ (by simp [hr]) (by simp [hr']) ?_
        · intro hs c t h
          cases r with
          | nil => exact absurd rfl hr
          | cons d r => cases h; exact h3 hs _ _ rfl
        · intro hs c t h
          cases r' with
          | nil => exact absurd rfl hr'
          | cons d r => cases h; exact h3' hs _ _ rfl
        · rw [← List.append_assoc, ← List.append_assoc, ← e, ← e']
      subst ea
      have e2 : r ++ b = r' ++ b' := by
        have := e.symm.trans e'
        rw [List.append_assoc, List.append_assoc] at this
        exact List.append_cancel_left this
      have eb : b.reverse = b'.reverse := by
        refine key (st := sp) (q := r.reverse) (q' := r'.reverse) (fun c h => hb c (by simpa using h))
          (fun c h => hb' c (by simpa using h)) (fun h => by simp [h2 h]) (fun h => by simp [h2' h]) ?_ ?_
          (by simp [hr]) (by simp [hr']) ?_
        · intro hs c t h
          exact h4 hs c t.reverse (by have := congrArg List.reverse h; simpa using this)
        · intro hs c t h
          exact h4' hs c t.reverse (by have := congrArg List.reverse h; simpa using this)
        · rw [← List.reverse_append, ← List.reverse_append, e2]
      have eb := List.reverse_inj.1 eb
      subst eb
      exact List.append_cancel_right e2

/-! ### Writing -/

theorem writeStr_quiet (E : Env) (c : Str) (esc : Bool) (s : RS) : Quiet s (writeStr E c esc s).2 := by
  rw [writeStr_eq]
  split <;> exact ⟨rfl, rfl, rfl, rfl, rfl, rfl, rfl⟩

/-- `write_str(..)?` and nothing else. -/
def writeUnit (E : Env) (c : Str) (esc : Bool) : RM Unit := do
  let _ ← writeStr E c esc
  pure ()

/-- What is written for the trimmed text. -/
def escOf (E : Env) (esc : Bool) (w : Str) : Str := if esc then E.reg.escape w else w

theorem writeUnit_spec (E : Env) (c : Str) (esc : Bool) (s : RS) :
    ∃ r t w, writeUnit E c esc s = (r, t) ∧ r ≠ .fuel ∧ Trimmed s.trim.start s.trim.stop c w ∧
      WritesAs E w (escOf E esc w) s r t ∧ Quiet s t ∧ t.endTagHint = s.endTagHint := by
  have hw := applyTrim_spec s.trim c
  have he := writeStr_eq E c esc s
  unfold writeUnit
  rw [RM.bind_def]
  by_cases h : (applyTrim s.trim c).isEmpty = true
  · rw [if_pos h] at he
    rw [he]
    refine ⟨.ok (), s, applyTrim s.trim c, rfl, by simp, hw, ?_, ⟨rfl, rfl, rfl, rfl, rfl, rfl, rfl⟩, rfl⟩
    unfold WritesAs
    rw [if_pos (by simpa using h)]
    exact ⟨rfl, rfl⟩
  · rw [if_neg h] at he
    have hc : chunkOf E s c esc = escOf E esc (applyTrim s.trim c) := rfl
    rw [hc] at he
    rw [he]
    cases hk : E.sink s.out (escOf E esc (applyTrim s.trim c)) with
    | ok n =>
        refine ⟨.ok (), _, applyTrim s.trim c, rfl, by simp, hw, ?_, ⟨rfl, rfl, rfl, rfl, rfl, rfl, rfl⟩, rfl⟩
        unfold WritesAs
        rw [if_neg (by simpa using h), hk]
        exact ⟨rfl, rfl⟩
    | error e =>
        refine ⟨.err (.io e), _, applyTrim s.trim c, rfl, by simp, hw, ?_, ⟨rfl, rfl, rfl, rfl, rfl, rfl, rfl⟩, rfl⟩
        unfold WritesAs
        rw [if_neg (by simpa using h), hk]
        exact ⟨rfl, rfl⟩

section
variable [Host]

/-- The state in which the kind-specific part of a node is rendered. -/
def begin_ (s : RS) (trim : TrimState) (h : TrimHint) : RS :=
  { s with trim := ⟨startAsked s trim, trim.stop⟩, hint := some h, endTagHint := none }

theorem renderNodeF_eq (S : Sem) (E : Env) (node : Node) (trim : TrimState) (s : RS) {h : TrimHint}
    (hh : node.trim = some h) : renderNodeF S E node trim s = renderKind S E node (begin_ s trim h) := by
  unfold renderNodeF
  rw [RM.bind_def]
  simp only [RM.orPanic, hh]
  rw [RM.bind_def]
  simp only [RM.modify]
  congr 1
  unfold begin_ startAsked
  obtain ⟨st, sp⟩ := trim
  cases s.endTagHint with
  | none => simp
  | some e => cases h : e.after <;> cases st <;> simp [h]

theorem renders_kind {E : Env} {node : Node} {trim : TrimState} {s t : RS} {r : Res Unit} {h : TrimHint}
    (hh : node.trim = some h) :
    Renders E node trim s r t ↔ Eval (fun n => renderKind (sem n) E node) (begin_ s trim h) r t := by
  rw [renders_iff]
  unfold Eval
  simp only [fun n => renderNodeF_eq (sem n) E node trim s hh]

/-- A node whose rendering is one plain write. -/
theorem renders_write {E : Env} {node : Node} {trim : TrimState} {s : RS} {h : TrimHint} {c : Str}
    (hh : node.trim = some h)
    (hk : ∀ n s, renderKind (sem n) E node s = writeUnit E c false s) :
    ∃ r t w, Renders E node trim s r t ∧ Trimmed (startAsked s trim) trim.stop c w ∧ Writes E w s r t ∧ Quiet s t ∧
      t.endTagHint = none := by
  obtain ⟨r, t, w, h1, h0, h2, h3, h4, h5⟩ := writeUnit_spec E c false (begin_ s trim h)
  refine ⟨r, t, w, ?_, h2, h3, ⟨h4.1, h4.2, h4.3, h4.4, h4.5, h4.6, h4.7⟩, h5⟩
  rw [renders_kind hh]
  exact ⟨h0, 0, by show renderKind (sem 0) E node _ = _; rw [hk]; exact h1⟩

theorem orPanic_bind {α β : Type} {o : Option α} {a : α} {f : α → RM β} (h : o = some a) :
    (RM.orPanic o >>= f) = f a := by
  funext s; rw [RM.bind_def]; simp [RM.orPanic, h]

/-! ### C34 -/

/-- C34: what counts as whitespace. -/
theorem C34_space (c : Char) : isWs c = true ↔ c.toNat ∈ whiteSpace := by
  unfold isWs whiteSpace
  simp only [Bool.or_eq_true, Bool.and_eq_true, decide_eq_true_eq, beq_iff_eq, List.mem_cons, List.not_mem_nil, or_false]
  omega

/-- C34: a text node writes its text less the leading and trailing whitespace its neighbours ask to
have removed. -/
theorem C34_text (E : Env) (t : Text) (txt : Str) (ht : t.asStr = some txt) (trim : TrimState) (s : RS) :
    ∃ r u w, Renders E (.text t) trim s r u ∧ Trimmed (startAsked s trim) trim.stop txt w ∧
      Writes E w s r u ∧ Quiet s u := by
  obtain ⟨r, u, w, h1, h2, h3, h4, _⟩ := renders_write (E := E) (node := .text t) (trim := trim) (s := s) (h := ⟨false, false⟩)
    (c := txt) rfl (fun n s => by
      show (RM.orPanic t.asStr >>= fun txt => writeUnit E txt false) s = _
      rw [orPanic_bind ht])
  exact ⟨r, u, w, h1, h2, h3, h4⟩

/-- C34: when neither neighbour asks for trimming, the text itself is written. -/
theorem C34_verbatim (E : Env) (t : Text) (txt : Str) (ht : t.asStr = some txt) (s : RS)
    (hs : ∀ h, s.endTagHint = some h → h.after = false) :
    ∃ r u, Renders E (.text t) ⟨false, false⟩ s r u ∧ Writes E txt s r u ∧ Quiet s u := by
  obtain ⟨r, u, w, h1, h2, h3, h4⟩ := C34_text E t txt ht ⟨false, false⟩ s
  have : startAsked s ⟨false, false⟩ = false := by
    unfold startAsked
    cases h : s.endTagHint with
    | none => rfl
    | some e => simp [hs e h]
  rw [this] at h2
  rw [trimmed_none h2] at h3
  exact ⟨r, u, h1, h3, h4⟩

/-- C34: what a helper writes with `write` or `write_escaped` (and what a statement writes for its
value) is the given string less leading and trailing whitespace, escaped after trimming. -/
theorem C34_write (E : Env) (c : Str) (esc : Bool) (s : RS) :
    ∃ w, Trimmed s.trim.start s.trim.stop c w ∧ Quiet s (writeStr E c esc s).2 ∧
      (w = [] → (writeStr E c esc s).2.out = s.out) ∧
      (w ≠ [] → (writeStr E c esc s).2.out =
        s.out ++ [⟨if esc then E.reg.escape w else w, E.sink s.out (if esc then E.reg.escape w else w)⟩]) := by
  refine ⟨applyTrim s.trim c, applyTrim_spec _ _, writeStr_quiet E c esc s, ?_, ?_⟩
  · intro h
    rw [writeStr_eq, if_pos (by simp [h])]
  · intro h
    rw [writeStr_eq, if_neg (by simp [h])]
    rfl

theorem nextBefore_ok (ns : List Node) (s : RS) {b : Bool} {t : RS} (h : nextBefore ns s = (.ok b, t)) :
    b = asksBefore ns ∧ t = s := by
  unfold nextBefore at h
  cases ns with
  | nil => cases h; exact ⟨rfl, rfl⟩
  | cons m ns =>
      simp only at h
      rw [RM.bind_def] at h
      unfold RM.orPanic at h
      unfold Node.trim at h
      unfold asksBefore
      cases hb : m.trimBefore with
      | none => rw [hb] at h; cases h
      | some x =>
          rw [hb] at h
          cases ha : m.trimAfter with
          | none => rw [ha] at h; cases h
          | some y => rw [ha] at h; cases h; dsimp only; rw [hb]; cases x <;> exact ⟨rfl, rfl⟩

theorem renders_trim {E : Env} {node : Node} {trim : TrimState} {s t : RS} {a : Unit}
    (h : Renders E node trim s (.ok a) t) : ∃ h, node.trim = some h := by
  rw [renders_iff] at h
  obtain ⟨_, n, h⟩ := h
  cases hn : node.trim with
  | some h => exact ⟨h, rfl⟩
  | none =>
      exfalso
      change renderNodeF (sem n) E node trim s = _ at h
      unfold renderNodeF at h
      rw [RM.bind_def, hn] at h
      cases h

theorem nextBefore_of_trim {ns : List Node} (h : ∀ m ms, ns = m :: ms → ∃ x, m.trim = some x) (s : RS) :
    nextBefore ns s = (.ok (asksBefore ns), s) := by
  cases ns with
  | nil => rfl
  | cons m ns =>
      obtain ⟨x, hx⟩ := h m ns rfl
      unfold nextBefore
      simp only
      rw [orPanic_bind hx]
      unfold Node.trim at hx
      unfold asksBefore
      cases hb : m.trimBefore with
      | none => rw [hb] at hx; cases hx
      | some b =>
          rw [hb] at hx
          cases ha : m.trimAfter with
          | none => rw [ha] at hx; cases hx
          | some y => rw [ha] at hx; cases hx; dsimp only; rw [hb]; cases b <;> rfl

theorem trimAfterOf_eq {n : Node} {h : TrimHint} (hh : n.trim = some h) :
    (trimAfterOf n h).getD false = asksAfter n := by
  unfold Node.trim at hh
  cases hb : n.trimBefore with
  | none => rw [hb] at hh; cases hh
  | some b =>
      cases ha : n.trimAfter with
      | none => rw [hb, ha] at hh; cases hh
      | some y =>
          rw [hb, ha] at hh
          cases hh
          unfold trimAfterOf asksAfter
          cases n <;> simp_all <;> cases y <;> rfl

theorem rendersList_iff {E : Env} : ∀ (ns : List Node) (prev : Option Bool) (s u : RS),
    Eval (fun n => runEvents (fun ev => (sem n).renderNode E ev.node ev.trim) ns prev none) s (.ok ()) u ↔
      RendersList E (prev.getD false) ns s u := by
  intro ns
  induction ns with
  | nil =>
      intro prev s u
      rw [show (fun n => runEvents (fun ev => (sem n).renderNode E ev.node ev.trim) [] prev none)
        = fun _ => (pure () : RM Unit) from rfl, Spec.Eval.pure]
      constructor
      · rintro ⟨_, rfl⟩; exact .nil _ _
      · intro h; cases h; exact ⟨rfl, rfl⟩
  | cons m ns ih =>
      intro prev s u
      have hst : startTrim prev none = prev.getD false := by cases prev <;> rfl
      constructor
      · intro h
        unfold runEvents at h
        obtain ⟨stop, s1, h1, ha⟩ := Spec.Eval.bind_inv_ok h
        obtain ⟨e1, e1'⟩ := nextBefore_ok ns s (Spec.Eval.const.1 h1).2
        subst e1; subst e1'
        clear h
        obtain ⟨cur, s2, h2, h⟩ := Spec.Eval.bind_inv_ok ha
        have h2 := (Spec.Eval.const.1 h2).2
        cases hm : m.trim with
        | none => rw [hm] at h2; cases h2
        | some hh =>
            rw [hm] at h2
            cases h2
            obtain ⟨_, s3, h3, h⟩ := Spec.Eval.bind_inv_ok h
            have hn : nextHint prev none = none := by cases prev <;> rfl
            rw [hn] at h
            have := (ih _ _ _).1 h
            rw [trimAfterOf_eq hm] at this
            dsimp only at h3
            rw [hst] at h3
            exact .cons h3 this
      · intro h
        cases h with
        | cons h1 h2 =>
            obtain ⟨hh, hm⟩ := renders_trim h1
            have hnx : ∀ m' ms, ns = m' :: ms → ∃ x, m'.trim = some x := by
              rintro m' ms rfl
              cases h2 with
              | cons h _ => exact renders_trim h
            have hn : nextHint prev none = none := by cases prev <;> rfl
            unfold runEvents
            rw [Spec.Eval.step (nextBefore_of_trim hnx s)]
            rw [Spec.Eval.step (t := s) (a := hh) (by simp [RM.orPanic, hm])]
            rw [← trimAfterOf_eq hm] at h2
            rw [hst, hn]
            refine Spec.Eval.bindOk (mono_renderNode _ _ _) (fun _ => ?_) h1 ((ih _ _ _).2 h2)
            exact mono_runEvents (fun ev => mono_renderNode _ _ _) _ _ _

/-- C34: rendering the nodes of a document renders each in turn, telling it exactly what its
neighbours' tags ask for. -/
theorem C34_neighbours (E : Env) (doc : Node) (s u : RS) :
    RendersAll E doc s (.ok ()) u ↔ RendersList E false doc.children s u :=
  rendersList_iff _ none s u

/-! ### C32 -/

/-- C32: comments write nothing. -/
theorem C32_comment (E : Env) (t : TextBlock) (trim : TrimState) (s : RS) :
    (∃ u, Renders E (.comment t) trim s (.ok ()) u ∧ u.out = s.out ∧ Quiet s u) ∧
    (∃ u, Renders E (.rawComment t) trim s (.ok ()) u ∧ u.out = s.out ∧ Quiet s u) := by
  constructor
  all_goals
    refine ⟨begin_ s trim ⟨false, false⟩, ?_, rfl, ⟨rfl, rfl, rfl, rfl, rfl, rfl, rfl⟩⟩
    rw [renders_kind (h := ⟨false, false⟩) rfl]
    exact ⟨by simp, 0, rfl⟩

theorem slice_tail {c : Char} {r : Str} (hc : c.utf8Size = 1) : slice (c :: r) 1 (blen (c :: r)) = some r :=
  slice_eq (a := [c]) (b := r) (c := []) (by simp) (by simp [hc]) (by simp)

/-- C32: an escaped tag writes its text without the backslash. -/
theorem C32_escaped_tag (E : Env) (t : TextBlock) (txt : Str) (ht : t.asStr = some ('\\' :: txt))
    (trim : TrimState) (s : RS) :
    ∃ r u w, Renders E (.rawStatement t) trim s r u ∧ Trimmed (startAsked s trim) trim.stop txt w ∧
      Writes E w s r u ∧ Quiet s u := by
  obtain ⟨r, u, w, h1, h2, h3, h4, _⟩ := renders_write (E := E) (node := .rawStatement t) (trim := trim) (s := s)
    (h := ⟨false, false⟩) (c := txt) rfl (fun n s => by
      show (RM.orPanic t.asStr >>= fun txt => RM.orPanic (slice txt 1 (blen txt)) >>= fun raw => writeUnit E raw false) s = _
      rw [orPanic_bind ht, orPanic_bind (slice_tail (by decide))])
  exact ⟨r, u, w, h1, h2, h3, h4⟩

/-- The source text of a link, given that of its open tag. -/
theorem link_escaped {l : Link} {o txt : Str} (ho : slice l.src l.opn.start l.opn.stop = some o)
    (he : o.head? = some '\\') (ht : l.asStr = some ('\\' :: txt)) :
    l.isEscaped = some true ∧ l.afterEscape = some txt := by
  constructor
  · unfold Link.isEscaped
    rw [ho]
    cases o with
    | nil => cases he
    | cons c o => cases he; simp [startsWith]
  · unfold Link.asStr at ht
    obtain ⟨a, c, h1, h2, h3⟩ := slice_some ht
    unfold Link.afterEscape
    have e1 : Char.utf8Size '\\' = 1 := by decide
    refine slice_eq (a := a ++ ['\\']) (b := txt) (c := c) (by simp [h1]) (by simp [h2]; omega) ?_
    simp [blen_cons] at h3 ⊢
    omega

/-- C32: an escaped link writes its text without the backslash. -/
theorem C32_escaped_link (E : Env) (l : Link) (o txt : Str)
    (ho : slice l.src l.opn.start l.opn.stop = some o) (he : o.head? = some '\\')
    (ht : l.asStr = some ('\\' :: txt)) (trim : TrimState) (s : RS) :
    ∃ r u w, Renders E (.link l) trim s r u ∧ Trimmed (startAsked s trim) trim.stop txt w ∧
      Writes E w s r u ∧ Quiet s u := by
  obtain ⟨h1, h2⟩ := link_escaped ho he ht
  obtain ⟨r, u, w, h1, h2, h3, h4, _⟩ := renders_write (E := E) (node := .link l) (trim := trim) (s := s)
    (h := ⟨false, false⟩) (c := txt) rfl (fun n s => by
      unfold renderKind
      simp only
      rw [orPanic_bind h1, if_pos rfl, orPanic_bind h2]
      rfl)
  exact ⟨r, u, w, h1, h2, h3, h4⟩

/-- C32: without a link handler a link is written as it is. -/
theorem C32_plain_link (E : Env) (hl : E.reg.link = none) (l : Link) (o txt : Str)
    (ho : slice l.src l.opn.start l.opn.stop = some o) (he : o.head? ≠ some '\\')
    (ht : l.asStr = some txt) (trim : TrimState) (s : RS) :
    ∃ r u w, Renders E (.link l) trim s r u ∧ Trimmed (startAsked s trim) trim.stop txt w ∧
      Writes E w s r u ∧ Quiet s u := by
  have h1 : l.isEscaped = some false := by
    unfold Link.isEscaped
    rw [ho]
    cases o with
    | nil => rfl
    | cons c o =>
        have : c ≠ '\\' := fun h => he (by rw [h]; rfl)
        simp [startsWith, this]
  obtain ⟨r, u, w, h1, h2, h3, h4, _⟩ := renders_write (E := E) (node := .link l) (trim := trim) (s := s)
    (h := ⟨false, false⟩) (c := txt) rfl (fun n s => by
      unfold renderKind
      simp only
      rw [orPanic_bind h1, if_neg (by simp), hl]
      simp only
      rw [orPanic_bind ht]
      rfl)
  exact ⟨r, u, w, h1, h2, h3, h4⟩

/-! ### C33 -/

theorem rawText_eq {b : Block} {inner : Str} {h hc : TrimHint}
    (hi : b.nodes.head?.elim (some []) Node.asStr = some inner) (hh : (Node.block b).trim = some h)
    (hc' : b.trimClose = some hc) : rawText b = some (applyTrim ⟨h.after, hc.before⟩ inner, hc) := by
  unfold rawText
  rw [hc', hh]
  cases hb : b.nodes with
  | nil => rw [hb] at hi; cases hi; rfl
  | cons n ns =>
      rw [hb] at hi
      change n.asStr = some inner at hi
      simp only [hi]
      rfl

/-- A block that is not a partial, with the simple name `name`. -/
structure NamedBlock (b : Block) (name : Str) : Prop where
  notPartial : b.call.isPartial = false
  target : ∃ p, b.call.target = .path p ∧ p.isSimple = true ∧ p.asStr = some name

/-- C33: a raw block without a helper writes exactly the text between its tags, less whitespace at
the ends where `~` asks for it. -/
theorem C33_verbatim (E : Env) (b : Block) (name inner : Str) (hb : NamedBlock b name) (hr : b.raw = true)
    (s : RS) (h1 : assoc name s.locals = none) (h2 : assoc name E.reg.helpers = none)
    (hi : b.nodes.head?.elim (some []) Node.asStr = some inner) (h hc : TrimHint)
    (hh : (Node.block b).trim = some h) (hc' : b.trimClose = some hc) (trim : TrimState) :
    ∃ r u v w, Renders E (.block b) trim s r u ∧ Trimmed h.after hc.before inner v ∧
      Trimmed (startAsked s trim) trim.stop v w ∧ Writes E w s r u ∧ Quiet s u := by
  obtain ⟨p, hp1, hp2, hp3⟩ := hb.target
  have hrt := rawText_eq hi hh hc'
  generalize hv : applyTrim ⟨h.after, hc.before⟩ inner = v at hrt
  have hv' : Trimmed h.after hc.before inner v := hv ▸ applyTrim_spec _ _
  obtain ⟨r, u, w, g1, g0, g2, g3, g4, _⟩ := writeUnit_spec E v false { begin_ s trim h with endTagHint := some hc }
  refine ⟨r, u, v, w, ?_, hv', g2, g3, ⟨g4.1, g4.2, g4.3, g4.4, g4.5, g4.6, g4.7⟩⟩
  rw [renders_kind hh]
  refine ⟨g0, 0, ?_⟩
  show blockF (sem 0) E b _ = _
  unfold blockF
  simp only [hb.notPartial, hp1, hp2, if_true]
  rw [if_neg (by simp), RM.bind_def]
  have : blockText b (begin_ s trim h) = (.ok (some v), { begin_ s trim h with endTagHint := some hc }) := by
    unfold blockText
    rw [if_pos hr, orPanic_bind hrt]
    rfl
  rw [this]
  simp only
  rw [orPanic_bind hp3, RM.bind_def]
  simp only [RM.get]
  rw [if_neg (by simp [hasHelper, begin_, h1, h2])]
  unfold blockHelperMissing
  rw [if_pos hr]
  exact g1

/-! ### C06 -/

/-- The statement reads a variable: its target is a path that names no helper. -/
structure ReadsVariable (E : Env) (s : RS) (c : Call) (p : Path) : Prop where
  notPartial : c.isPartial = false
  target : c.target = .path p
  noHelper : p.explicit = false → p.isSimple = true → ∃ name, p.asStr = some name ∧
    assoc name s.locals = none ∧ assoc name E.reg.helpers = none

theorem lookupM_eq {E : Env} {p : Path} {s : RS} {v : Option Value} (h : lookup E.root s.scopes p = some v) :
    lookupM E p s = (.ok v, s) := by
  unfold lookupM
  rw [RM.bind_def]
  simp [RM.get, RM.orPanic, h]

theorem callF_variable {E : Env} {s : RS} {c : Call} {p : Path} (S : Sem) (hc : ReadsVariable E s c p) {v : Value}
    (hv : lookup E.root s.scopes p = some (some v)) : callF S E c s = (.ok (some v), s) := by
  unfold callF
  rw [hc.target]
  simp only
  cases he : p.explicit with
  | true => simp only [if_true]; exact lookupM_eq hv
  | false =>
      rw [if_neg (by simp)]
      cases hs : p.isSimple with
      | true =>
          obtain ⟨name, h1, h2, h3⟩ := hc.noHelper he hs
          rw [if_pos rfl, orPanic_bind h1, RM.bind_def]
          simp only [RM.get]
          rw [if_neg (by simp [hasHelper, h2, h3]), RM.bind_def, lookupM_eq hv]
          rfl
      | false =>
          rw [if_neg (by simp), RM.bind_def, lookupM_eq hv]
          rfl

theorem evaluates_variable {E : Env} {s : RS} {c : Call} {p : Path} (hc : ReadsVariable E s c p) {v : Value}
    (hv : lookup E.root s.scopes p = some (some v)) : Evaluates E c s (.ok (some v)) s := by
  rw [evaluates_iff]
  refine ⟨by simp, 1, ?_⟩
  show statementF (sem 1) E c s = _
  unfold statementF
  rw [if_neg (by simp [hc.notPartial])]
  exact callF_variable (sem 0) hc hv

/-- What a statement does once its value is known. -/
theorem renders_value {E : Env} {c : Call} {trim : TrimState} {s t : RS} {h : TrimHint} {v : Value} {o : Str}
    (hh : (Node.statement c).trim = some h) (ho : c.openStr = some o)
    (he : Evaluates E c (begin_ s trim h) (.ok (some v)) t) :
    ∃ r u w, Renders E (.statement c) trim s r u ∧ Trimmed t.trim.start t.trim.stop (stringify v) w ∧
      WritesAs E w (if startsWith o c!"{{{" then w else E.reg.escape w) t r u ∧ Quiet t u := by
  obtain ⟨r, u, w, h1, h0, h2, h3, h4, _⟩ := writeUnit_spec E (stringify v) (!startsWith o c!"{{{") t
  refine ⟨r, u, w, ?_, h2, ?_, h4⟩
  · rw [renders_kind hh]
    unfold renderKind
    simp only
    refine Spec.Eval.bindOk (mono_statement _ _) (fun _ => MonoF.const _) he ?_
    rw [Spec.Eval.const]
    refine ⟨h0, ?_⟩
    have : c.isEscaped = some (!startsWith o c!"{{{") := by unfold Call.isEscaped; rw [ho]; rfl
    simp only
    rw [orPanic_bind this]
    exact h1
  · unfold escOf at h3
    cases hs : startsWith o c!"{{{" with
    | true => rw [hs] at h3; simpa using h3
    | false => rw [hs] at h3; simpa using h3

/-- C06: a statement naming a variable with value `v` writes its printed form, escaped unless the tag
has three braces. -/
theorem C06_value (E : Env) (c : Call) (p : Path) (v : Value) (o : Str) (trim : TrimState) (s : RS)
    (hc : ReadsVariable E s c p) (hv : lookup E.root s.scopes p = some (some v))
    (ho : c.openStr = some o) (h : TrimHint) (hh : (Node.statement c).trim = some h) :
    ∃ r u w, Renders E (.statement c) trim s r u ∧
      Trimmed (startAsked s trim) trim.stop (stringify v) w ∧
      WritesAs E w (if startsWith o c!"{{{" then w else E.reg.escape w) s r u ∧ Quiet s u := by
  have hc' : ReadsVariable E (begin_ s trim h) c p := ⟨hc.1, hc.2, hc.3⟩
  obtain ⟨r, u, w, h1, h2, h3, h4⟩ := renders_value hh ho (evaluates_variable hc' hv)
  exact ⟨r, u, w, h1, h2, h3, ⟨h4.1, h4.2, h4.3, h4.4, h4.5, h4.6, h4.7⟩⟩

/-- C06 with a `StringOutput` and no trimming: exactly the printed form, or its escape, is appended. -/
theorem C06_string (E : Env) (hE : E.sink = stringSink) (hesc : E.reg.escape [] = []) (c : Call) (p : Path) (v : Value) (o : Str)
    (s : RS) (hs : s.endTagHint = none)
    (hc : ReadsVariable E s c p) (hv : lookup E.root s.scopes p = some (some v))
    (ho : c.openStr = some o) (h : TrimHint) (hh : (Node.statement c).trim = some h) :
    ∃ u, Renders E (.statement c) ⟨false, false⟩ s (.ok ()) u ∧ Quiet s u ∧
      outText u.out = outText s.out ++
        (if startsWith o c!"{{{" then stringify v else E.reg.escape (stringify v)) := by
  obtain ⟨r, u, w, h1, h2, h3, h4⟩ := C06_value E c p v o ⟨false, false⟩ s hc hv ho h hh
  have : startAsked s ⟨false, false⟩ = false := by unfold startAsked; rw [hs]; rfl
  rw [this] at h2
  rw [trimmed_none h2] at h3
  unfold WritesAs at h3
  split at h3
  · rename_i hw
    rw [h3.1] at h1
    refine ⟨u, h1, h4, ?_⟩
    rw [h3.2, hw, hesc]; simp
  · rw [hE] at h3
    have hr : r = .ok () := h3.2
    rw [hr] at h1
    refine ⟨u, h1, h4, ?_⟩
    rw [h3.1]
    simp [outText]

/-- C06: nothing is written when the value is missing (and nothing else is asked for missing values). -/
theorem C06_missing (E : Env) (hm : E.reg.helperMissing = none) (hst : E.reg.strict = false)
    (c : Call) (p : Path) (trim : TrimState) (s : RS)
    (hc : ReadsVariable E s c p) (hv : lookup E.root s.scopes p = some none)
    (h : TrimHint) (hh : (Node.statement c).trim = some h) :
    ∃ u, Renders E (.statement c) trim s (.ok ()) u ∧ u.out = s.out ∧ Quiet s u := by
  refine ⟨begin_ s trim h, ?_, rfl, ⟨rfl, rfl, rfl, rfl, rfl, rfl, rfl⟩⟩
  rw [renders_kind hh]
  have hc' : ReadsVariable E (begin_ s trim h) c p := ⟨hc.1, hc.2, hc.3⟩
  have hv' : lookup E.root (begin_ s trim h).scopes p = some none := hv
  generalize begin_ s trim h = s at *
  refine ⟨by simp, 2, ?_⟩
  show renderKind (sem 2) E (.statement c) s = _
  unfold renderKind
  simp only
  rw [RM.bind_def]
  have : (sem 2).statement E c s = (.ok none, s) := by
    show statementF (sem 1) E c s = _
    unfold statementF
    rw [if_neg (by simp [hc.notPartial])]
    show callF (sem 0) E c s = _
    unfold callF
    rw [hc.target]
    simp only
    cases he : p.explicit with
    | true => simp only [if_true]; exact lookupM_eq hv'
    | false =>
        rw [if_neg (by simp)]
        cases hs : p.isSimple with
        | true =>
            obtain ⟨name, h1, h2, h3⟩ := hc'.noHelper he hs
            rw [if_pos rfl, orPanic_bind h1, RM.bind_def]
            simp only [RM.get]
            rw [if_neg (by simp [hasHelper, h2, h3]), RM.bind_def, lookupM_eq hv']
            simp only
            rw [hm]
            simp only [hst]
            rfl
        | false =>
            rw [if_neg (by simp), RM.bind_def, lookupM_eq hv']
            simp only [hst]
            rfl
  rw [this]
  rfl

end

/-! ### The hypotheses are met: concrete templates -/

section Witness
attribute [local instance] exHost

/-- A renderer for the examples. -/
def exEnv (r : Reg) (data : Value) : Env := ⟨r, c!"m", data, stringSink⟩

/-- The data `{"x": "<"}`. -/
def exData : Value := .obj [(c!"x", .str c!"<")]

-- C34: the text of a compiled template
example : ∃ t, Ex.text c!" a {{~x}}" = some t ∧ t.asStr = some c!" a " := by
  obtain ⟨t, h1, h2⟩ := Ex.any (o := Ex.text c!" a {{~x}}") (p := fun t => t.asStr == some c!" a ") (by decide +kernel)
  exact ⟨t, h1, by simpa using h2⟩
example : Ex.render Reg.new c!" a {{~x~}} b " exData = some (.ok, c!" a&lt;b ") := by decide +kernel

-- C32: an escaped tag, an escaped link, a link
example : ∃ t, Ex.rawStmt c!"\\{{x}}" = some t ∧ t.asStr = some ('\\' :: c!"{{x}}") := by
  obtain ⟨t, h1, h2⟩ := Ex.any (o := Ex.rawStmt c!"\\{{x}}") (p := fun t => t.asStr == some ('\\' :: c!"{{x}}")) (by decide +kernel)
  exact ⟨t, h1, by simpa using h2⟩
example : ∃ l, Ex.link c!"\\[[a|b]]" = some l ∧ slice l.src l.opn.start l.opn.stop = some c!"\\[[" ∧
    l.asStr = some ('\\' :: c!"[[a|b]]") := by
  obtain ⟨t, h1, h2⟩ := Ex.any (o := Ex.link c!"\\[[a|b]]")
    (p := fun l => slice l.src l.opn.start l.opn.stop == some c!"\\[[" && l.asStr == some ('\\' :: c!"[[a|b]]")) (by decide +kernel)
  simp only [Bool.and_eq_true, beq_iff_eq] at h2
  exact ⟨t, h1, h2⟩
example : ∃ l, Ex.link c!"[[a|b]]" = some l ∧ slice l.src l.opn.start l.opn.stop = some c!"[[" ∧
    l.asStr = some c!"[[a|b]]" := by
  obtain ⟨t, h1, h2⟩ := Ex.any (o := Ex.link c!"[[a|b]]")
    (p := fun l => slice l.src l.opn.start l.opn.stop == some c!"[[" && l.asStr == some c!"[[a|b]]") (by decide +kernel)
  simp only [Bool.and_eq_true, beq_iff_eq] at h2
  exact ⟨t, h1, h2⟩

-- C33: a raw block
example : ∃ b, Ex.block c!"{{{{raw}}}} {{x}} {{{{/raw}}}}" = some b ∧ NamedBlock b c!"raw" ∧ b.raw = true ∧
    b.nodes.head?.elim (some []) Node.asStr = some c!" {{x}} " ∧
    (Node.block b).trim = some ⟨false, false⟩ ∧ b.trimClose = some ⟨false, false⟩ := by
  obtain ⟨b, h1, h2⟩ := Ex.any (o := Ex.block c!"{{{{raw}}}} {{x}} {{{{/raw}}}}")
    (p := fun b => !b.call.isPartial && (Ex.target b.call).any (fun p => p.isSimple && p.asStr == some c!"raw") && b.raw &&
      b.nodes.head?.elim (some []) Node.asStr == some c!" {{x}} " && (Node.block b).trim == some ⟨false, false⟩ &&
      b.trimClose == some ⟨false, false⟩) (by decide +kernel)
  simp only [Bool.and_eq_true, beq_iff_eq, Bool.not_eq_true'] at h2
  obtain ⟨⟨⟨⟨⟨a1, a2⟩, a3⟩, a4⟩, a5⟩, a6⟩ := h2
  obtain ⟨p, e, a2⟩ := Ex.any a2
  simp only [Bool.and_eq_true, beq_iff_eq] at a2
  exact ⟨b, h1, ⟨a1, p, Ex.target_eq e, a2.1, a2.2⟩, a3, a4, a5, a6⟩

-- C06, C14, C15: a statement naming a variable
example : ∃ c p, Ex.stmt c!"{{{x}}}" = some c ∧ ReadsVariable (exEnv Reg.new exData) (RS.init []) c p ∧
    lookup exData [] p = some (some (.str c!"<")) ∧ c.openStr = some c!"{{{" ∧
    (Node.statement c).trim = some ⟨false, false⟩ := by
  obtain ⟨c, h1, h2⟩ := Ex.any (o := Ex.stmt c!"{{{x}}}")
    (p := fun c => !c.isPartial && (Ex.target c).any (fun p => p.isSimple && p.asStr == some c!"x" &&
      (match lookup exData [] p with | some (some (.str s)) => s == c!"<" | _ => false)) &&
      c.openStr == some c!"{{{" && (Node.statement c).trim == some ⟨false, false⟩) (by decide +kernel)
  simp only [Bool.and_eq_true, beq_iff_eq, Bool.not_eq_true'] at h2
  obtain ⟨⟨⟨a1, a2⟩, a3⟩, a4⟩ := h2
  obtain ⟨p, e, a2⟩ := Ex.any a2
  simp only [Bool.and_eq_true, beq_iff_eq] at a2
  obtain ⟨⟨b1, b2⟩, b3⟩ := a2
  refine ⟨c, p, h1, ⟨a1, Ex.target_eq e, fun _ _ => ⟨c!"x", b2, rfl, by decide +kernel⟩⟩, ?_, a3, a4⟩
  split at b3
  · rename_i s hs; simp only [beq_iff_eq] at b3; rw [hs, b3]
  · cases b3
example : Ex.render Reg.new c!"{{x}}{{{x}}}{{y}}" exData = some (.ok, c!"&lt;<") := by decide +kernel
end Witness

end Bracket.Props
