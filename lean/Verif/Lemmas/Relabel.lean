import Verif.Spec.Relabel
import Verif.Lemmas.ParserTri

/-! Two runs of the parser that differ only in the labels: a simulation. -/

set_option linter.unusedSectionVars false

namespace Bracket.Relabel
open Bracket.Spec P

variable {α β : Type}

/-- A node list is moved member by member. -/
theorem moveNodes_append (d : Nat) (a b : List Node) : moveNodes d (a ++ b) = moveNodes d a ++ moveNodes d b := by
  induction a with
  | nil => simp [moveNodes]
  | cons x r ih => simp [moveNodes, ih]

theorem moveValues_append (d : Nat) (a b : List ParamValue) :
    moveValues d (a ++ b) = moveValues d a ++ moveValues d b := by
  induction a with
  | nil => simp [moveValues]
  | cons x r ih => simp [moveValues, ih]

theorem moveParams_insert (d : Nat) (k : Str) (v : ParamValue) (l : List (Str × ParamValue)) :
    moveParams d (assocInsert k v l) = assocInsert k (moveValue d v) (moveParams d l) := by
  induction l with
  | nil => simp [assocInsert, moveParams]
  | cons x r ih =>
      obtain ⟨a, b⟩ := x
      simp only [assocInsert, moveParams]
      split <;> simp [moveParams, ih]

/-- The lines of a node that was read from the source. -/
def Live (l : Span) : Prop := l.stop ≠ 0

theorem live_move {d : Nat} {l : Span} (h : Live l) : moveLine d l = ⟨l.start + d, l.stop + d⟩ := by
  unfold moveLine; rw [if_neg h]

/-- The state of the other run. -/
def moveS (d : Nat) (s : PS) : PS :=
  { s with line := s.line + d, stack := s.stack.map fun p => (p.1, moveBlock d p.2) }

def Ok (s : PS) : Prop := ∀ p ∈ s.stack, Live p.2.line

section
variable [Host] (d : Nat) (E : PEnv) (g : Str)

/-- Outcomes that differ only in the labels. -/
def Agree (Q : α → α → Prop) : R α → R α → Prop
  | .ok a, .ok b => Q a b
  | .err e, .err e' => Relabelled d E.fileName g e e'
  | .panic, .panic => True
  | .fuel, .fuel => True
  | _, _ => False

/-- The second program does under the other labels what the first does. -/
def Sim (Q : α → α → Prop) (m m' : P α) : Prop :=
  ∀ s, Ok s → Agree d E g Q (m s).1 (m' (moveS d s)).1 ∧ (m' (moveS d s)).2 = moveS d (m s).2 ∧ Ok (m s).2

variable {d E g}

theorem Sim.bind {Q : α → α → Prop} {Q' : β → β → Prop} {m m' : P α} {k k' : α → P β}
    (h : Sim d E g Q m m') (hk : ∀ a b, Q a b → Sim d E g Q' (k a) (k' b)) :
    Sim d E g Q' (m >>= k) (m' >>= k') := by
  intro s hs
  obtain ⟨h1, h2, h3⟩ := h s hs
  rw [P.bind_def, P.bind_def]
  generalize m s = x at h1 h2 h3 ⊢
  generalize m' (moveS d s) = y at h1 h2 ⊢
  obtain ⟨r, t⟩ := x
  obtain ⟨r', t'⟩ := y
  simp only at h2 h3
  subst h2
  cases r <;> cases r' <;> simp only [Agree] at h1 <;> first
    | exact h1.elim
    | exact hk _ _ h1 t h3
    | exact ⟨h1, rfl, h3⟩
    | exact ⟨trivial, rfl, h3⟩

theorem Sim.pure {Q : α → α → Prop} {a b : α} (h : Q a b) : Sim d E g Q (Pure.pure a) (Pure.pure b) :=
  fun _ hs => ⟨h, rfl, hs⟩

theorem Sim.panic {Q : α → α → Prop} : Sim d E g Q (P.panic : P α) P.panic := fun _ hs => ⟨trivial, rfl, hs⟩
theorem Sim.fuel {Q : α → α → Prop} : Sim d E g Q (P.fuel : P α) P.fuel := fun _ hs => ⟨trivial, rfl, hs⟩

theorem Sim.mono {Q Q' : α → α → Prop} {m m' : P α} (h : Sim d E g Q m m') (hq : ∀ a b, Q a b → Q' a b) :
    Sim d E g Q' m m' := by
  intro s hs
  obtain ⟨h1, h2, h3⟩ := h s hs
  refine ⟨?_, h2, h3⟩
  generalize (m s).1 = x at h1 ⊢
  generalize (m' (moveS d s)).1 = y at h1 ⊢
  cases x <;> cases y <;> simp only [Agree] at h1 ⊢ <;> first | exact hq _ _ h1 | exact h1

/-- Reading the state: only what the two states have in common can be used. -/
theorem Sim.getBind {Q : α → α → Prop} {k k' : PS → P α} (h : ∀ s, Sim d E g Q (k s) (k' (moveS d s))) :
    Sim d E g Q (P.get >>= k) (P.get >>= k') := fun s hs => h s s hs

theorem Sim.get : Sim d E g (fun s s' => s' = moveS d s ∧ Ok s) P.get P.get := fun _ hs => ⟨⟨rfl, hs⟩, rfl, hs⟩

theorem Sim.modify {f f' : PS → PS} (h : ∀ s, Ok s → f' (moveS d s) = moveS d (f s) ∧ Ok (f s)) :
    Sim d E g (fun _ _ => True) (P.modify f) (P.modify f') := fun s hs => ⟨trivial, (h s hs).1, (h s hs).2⟩

theorem Sim.setToks (ts : List Token) :
    Sim d E g (fun _ _ => True) (P.modify fun s => { s with toks := ts }) (P.modify fun s => { s with toks := ts }) :=
  .modify fun _ hs => ⟨rfl, hs⟩

theorem Sim.setByte (n : Nat) : Sim d E g (fun _ _ => True) (P.setByte n) (P.setByte n) :=
  fun _ hs => ⟨trivial, rfl, hs⟩

theorem Sim.incLine : Sim d E g (fun _ _ => True) P.incLine P.incLine := by
  refine fun s hs => ⟨trivial, ?_, hs⟩
  show ({ moveS d s with line := _ } : PS) = moveS d { s with line := _ }
  simp [moveS]; omega

theorem Sim.incLineIf (b : Bool) : Sim d E g (fun _ _ => True) (P.incLineIf b) (P.incLineIf b) := by
  cases b
  · exact fun s hs => ⟨trivial, rfl, hs⟩
  · exact Sim.incLine

theorem Sim.line : Sim d E g (fun l l' => l' = l + d) P.line P.line := fun _ hs => ⟨rfl, rfl, hs⟩

theorem Sim.lineRange : Sim d E g (fun l l' => Live l ∧ l' = moveLine d l) P.lineRange P.lineRange := by
  refine fun s hs => ⟨⟨Nat.succ_ne_zero _, ?_⟩, rfl, hs⟩
  rw [live_move (l := ⟨s.line, s.line + 1⟩) (Nat.succ_ne_zero s.line)]
  show (Span.mk (s.line + d) (s.line + d + 1)) = Span.mk (s.line + d) (s.line + 1 + d)
  congr 1; omega

theorem Sim.orPanic {Q : α → α → Prop} {o o' : Option α}
    (h : ∀ a, o = some a → ∃ b, o' = some b ∧ Q a b) (h' : o = none → o' = none) :
    Sim d E g Q (P.orPanic o) (P.orPanic o') := by
  cases o with
  | none => rw [h' rfl]; exact fun _ hs => ⟨trivial, rfl, hs⟩
  | some a =>
      obtain ⟨b, rfl, hq⟩ := h a rfl
      exact fun _ hs => ⟨hq, rfl, hs⟩

theorem Sim.orPanicEq (o : Option α) : Sim d E g (fun a b => a = b) (P.orPanic o) (P.orPanic o) :=
  .orPanic (fun a h => ⟨a, h, rfl⟩) fun h => h

theorem Sim.lexNext : Sim d E g (fun a b => a = b) P.lexNext P.lexNext := by
  intro s hs
  unfold P.lexNext
  rw [show (moveS d s).toks = s.toks from rfl]
  cases s.toks with
  | nil => exact ⟨rfl, rfl, hs⟩
  | cons t ts => exact ⟨rfl, rfl, hs⟩

theorem notes_eq (pad : Str) (ns : List Str) : showNotes pad ns = ns.flatMap fun n => pad ++ c!" = note: " ++ n := by
  induction ns with
  | nil => rfl
  | cons n r ih => simp [showNotes, ih]

/-- What a snippet shows does not depend on the labels. -/
theorem errorInfo_labels (s f g : Str) (line byte d : Nat) (notes : List Str) :
    (errorInfo s f line byte notes = none ∧ errorInfo s g (line + d) byte notes = none) ∨
    ∃ text cols, errorInfo s f line byte notes = some (snippet f text (line + 1) cols notes) ∧
      errorInfo s g (line + d) byte notes = some (snippet g text (line + 1 + d) cols notes) := by
  unfold errorInfo
  cases findPrev s byte with
  | none => exact .inl ⟨rfl, rfl⟩
  | some p =>
  simp only
  cases findNext s (blen s - byte) byte with
  | none => exact .inl ⟨rfl, rfl⟩
  | some n =>
  simp only
  cases slice s (lineStart p) (lineEnd s n) with
  | none => exact .inl ⟨rfl, rfl⟩
  | some text =>
  simp only
  cases slice s (lineStart p) (lineStart p + (byte - lineStart p + 1)) with
  | none => exact .inl ⟨rfl, rfl⟩
  | some x =>
  refine .inr ⟨text, Host.width x, ?_, ?_⟩
  · simp only [snippet]
    have hp : ∀ n : Nat, (if n > 0 then List.replicate (n - 1) '-' ++ ['^'] else ['^']) = List.replicate (n - 1) '-' ++ ['^'] := by
      intro n; cases n <;> simp
    rw [hp]
    cases notes with
    | nil => simp
    | cons a r => simp [notes_eq]
  · simp only [snippet]
    have hp : ∀ n : Nat, (if n > 0 then List.replicate (n - 1) '-' ++ ['^'] else ['^']) = List.replicate (n - 1) '-' ++ ['^'] := by
      intro n; cases n <;> simp
    rw [hp, show line + d + 1 = line + 1 + d from by omega]
    cases notes with
    | nil => simp
    | cons a r => simp [notes_eq]

theorem Sim.failWith {Q : α → α → Prop} (k : SynKind) (notes : List Str) :
    Sim d E g Q (P.failWith E k notes : P α) (P.failWith ⟨E.src, g⟩ k notes) := by
  intro s hs
  unfold P.failWith
  simp only [show (moveS d s).line = s.line + d from rfl, show (moveS d s).byte = s.byte from rfl]
  rcases errorInfo_labels E.src E.fileName g s.line s.byte d notes with ⟨h1, h2⟩ | ⟨text, cols, h1, h2⟩
  · rw [h1, h2]; exact ⟨trivial, rfl, hs⟩
  · rw [h1, h2]; exact ⟨⟨rfl, text, _, cols, notes, rfl, rfl⟩, rfl, hs⟩

theorem Sim.fail {Q : α → α → Prop} (k : SynKind) : Sim d E g Q (P.fail E k : P α) (P.fail ⟨E.src, g⟩ k) :=
  .failWith k []

/-! ### Results -/

/-- Calls under construction. -/
def CallR (d : Nat) (a b : Call) : Prop := Live a.line ∧ b = moveCall d a
/-- A call under construction and the token in hand. -/
def CallT (d : Nat) (a b : Call × Option Token) : Prop := CallR d a.1 b.1 ∧ b.2 = a.2

theorem path_new (src : Str) (sp l : Span) : movePath d (Path.new src sp l) = Path.new src sp (moveLine d l) := rfl

theorem callR_new {src : Str} {o l l' : Span} (h : Live l ∧ l' = moveLine d l) :
    CallR d (Call.new src o l) (Call.new src o l') := by
  obtain ⟨h1, rfl⟩ := h
  exact ⟨h1, by simp [Call.new, moveCall, moveTarget, moveValues, moveParams, path_new, moveLine]⟩

theorem callR_arg {a b : Call} {v : ParamValue} (h : CallR d a b) :
    CallR d (a.addArg v) (b.addArg (moveValue d v)) := by
  obtain ⟨h1, rfl⟩ := h; cases a
  exact ⟨h1, by simp [Call.addArg, moveCall, moveValues_append, moveValues]⟩
theorem callR_param {a b : Call} {k : Str} {v : ParamValue} (h : CallR d a b) :
    CallR d (a.addParam k v) (b.addParam k (moveValue d v)) := by
  obtain ⟨h1, rfl⟩ := h; cases a
  exact ⟨h1, by simp [Call.addParam, moveCall, moveParams_insert]⟩
theorem callR_target {a b : Call} {t : CallTarget} (h : CallR d a b) :
    CallR d (a.setTarget t) (b.setTarget (moveTarget d t)) := by
  obtain ⟨h1, rfl⟩ := h; cases a
  exact ⟨h1, by simp [Call.setTarget, moveCall]⟩
theorem callR_exit {a b : Call} {sp : Span} (h : CallR d a b) : CallR d (a.exit sp) (b.exit sp) := by
  obtain ⟨h1, rfl⟩ := h; cases a
  exact ⟨h1, by simp [Call.exit, moveCall]⟩
theorem callR_partial {a b : Call} (h : CallR d a b) : CallR d a.setPartial b.setPartial := by
  obtain ⟨h1, rfl⟩ := h; cases a
  exact ⟨h1, by simp [Call.setPartial, moveCall]⟩
theorem callR_conditional {a b : Call} (h : CallR d a b) : CallR d a.setConditional b.setConditional := by
  obtain ⟨h1, rfl⟩ := h; cases a
  exact ⟨h1, by simp [Call.setConditional, moveCall]⟩
theorem callR_lines {a b : Call} {l l' : Nat} (h : CallR d a b) (hl : l' = l + d) :
    CallR d (a.linesEnd l) (b.linesEnd l') := by
  obtain ⟨h1, rfl⟩ := h; cases a; subst hl
  refine ⟨Nat.succ_ne_zero _, ?_⟩
  simp only [Call.linesEnd, moveCall]
  have h1' := live_move (d := d) h1
  simp only [Call.line] at h1'
  rw [h1', live_move (l := ⟨_, l + 1⟩) (Nat.succ_ne_zero l), Nat.add_right_comm l d 1]
theorem call_clo (a : Call) : (moveCall d a).clo = a.clo := by cases a; rfl
theorem call_opn (a : Call) : (moveCall d a).opn = a.opn := by cases a; rfl
theorem call_src (a : Call) : (moveCall d a).src = a.src := by cases a; rfl
theorem call_cond (a : Call) : (moveCall d a).conditional = a.conditional := by cases a; rfl
theorem call_part (a : Call) : (moveCall d a).isPartial = a.isPartial := by cases a; rfl
theorem call_target (a : Call) : (moveCall d a).target = moveTarget d a.target := by cases a; rfl
theorem call_str (a : Call) : (moveCall d a).asStr = a.asStr := by
  unfold Call.asStr; rw [call_clo, call_opn, call_src]
theorem target_str (t : CallTarget) : (moveTarget d t).asStr = t.asStr := by
  cases t with
  | path p => rfl
  | subExpr c => exact call_str c
theorem target_span (t : CallTarget) : (moveTarget d t).span = t.span := by
  cases t with
  | path p => rfl
  | subExpr c => exact call_opn c
theorem call_span (a : Call) : (moveCall d a).span = a.span := by
  unfold Call.span; rw [call_clo, call_opn]

theorem CallR.clo {a b : Call} (h : CallR d a b) : b.clo = a.clo := by rw [h.2, call_clo]
theorem CallR.cond {a b : Call} (h : CallR d a b) : b.conditional = a.conditional := by rw [h.2, call_cond]
theorem CallR.part {a b : Call} (h : CallR d a b) : b.isPartial = a.isPartial := by rw [h.2, call_part]
theorem CallR.str {a b : Call} (h : CallR d a b) : b.target.asStr = a.target.asStr := by
  rw [h.2, call_target, target_str]

/-! ### Strings -/

theorem strLoop_sim (st : Nat) : ∀ (ts : List Token) (en : Nat) (fl : RawLit),
    Sim d E g (fun a b => a = b) (strLoop E st ts en fl) (strLoop ⟨E.src, g⟩ st ts en fl) := by
  intro ts
  induction ts with
  | nil => intro en fl; exact .bind (.setToks []) fun _ _ _ => .fail _
  | cons t ts ih =>
      intro en fl
      unfold strLoop
      refine .bind (.setToks ts) fun _ _ _ => ?_
      cases fl.type.tok t.kind with
      | none => exact .fail _
      | some k =>
          cases k with
          | newline => exact .fail _
          | escapedNewline =>
              cases h : fl.type <;> simp only
              · exact ih _ _
              · exact ih _ _
              · exact .bind (.setByte _) fun _ _ _ => ih _ _
          | escaped => exact ih _ _
          | fin => exact .pure rfl
          | text => exact .bind (.setByte _) fun _ _ _ => ih _ _
          | error => exact .bind (.setByte _) fun _ _ _ => ih _ _

theorem strParse_sim (sp : Span) (ty : LitType) :
    Sim d E g (fun a b => a = b) (strParse E sp ty) (strParse ⟨E.src, g⟩ sp ty) :=
  .getBind fun s => strLoop_sim _ s.toks _ _

theorem strLiteral_sim (sp : Span) (ty : LitType) :
    Sim d E g (fun a b => a = b) (strLiteral E sp ty) (strLiteral ⟨E.src, g⟩ sp ty) := by
  unfold strLiteral
  refine .bind (strParse_sim sp ty) ?_
  rintro ⟨a, fl⟩ _ rfl
  refine .bind (.orPanicEq _) ?_
  rintro v _ rfl
  exact .pure rfl

/-! ### Paths -/

theorem compValue_sim (sp : Span) (raw : Option RawLit) :
    Sim d E g (fun a b => a = b) (compValue E sp raw) (compValue ⟨E.src, g⟩ sp raw) := by
  unfold compValue
  cases raw with
  | none => exact .pure rfl
  | some r =>
      simp only
      split
      · refine .bind (.orPanicEq _) ?_
        rintro v _ rfl
        exact .pure rfl
      · exact .pure rfl

theorem toComponent_sim (lx : ParamTok) (sp : Span) (raw : Option RawLit) :
    Sim d E g (fun a b => a = b) (toComponent E lx sp raw) (toComponent ⟨E.src, g⟩ lx sp raw) := by
  unfold toComponent
  refine .bind (compValue_sim sp raw) ?_
  rintro v _ rfl
  cases compKind lx with
  | none => exact .fail _
  | some k => exact .pure rfl

/-- A path under construction and the token in hand. -/
def PathT (d : Nat) (a b : Path × Option Token) : Prop := b = (movePath d a.1, a.2)
def PathO (d : Nat) (a b : Option Path × Option Token) : Prop := b = (a.1.map (movePath d), a.2)

theorem parentsLoop_sim : ∀ (ts : List Token) (p : Path),
    Sim d E g (PathT d) (parentsLoop ts p) (parentsLoop ts (movePath d p)) := by
  intro ts
  induction ts with
  | nil => intro p; exact .bind (.setToks []) fun _ _ _ => .pure rfl
  | cons t ts ih =>
      intro p
      unfold parentsLoop
      refine .bind (.setToks ts) fun _ _ _ => ?_
      split
      · rw [show (movePath d p).parents = p.parents from rfl]
        split
        · exact .panic
        · exact ih { p with parents := (p.parents + 1) % 256 }
      · exact .pure rfl

theorem compSpan_sim (lx : ParamTok) (sp : Span) :
    Sim d E g (fun a b => a = b) (compSpan E lx sp) (compSpan ⟨E.src, g⟩ lx sp) := by
  unfold compSpan
  cases litOf lx with
  | none => exact .pure rfl
  | some ty =>
      refine .bind (strParse_sim sp ty) ?_
      rintro r _ rfl
      exact .pure rfl

theorem componentsLoop_sim : ∀ (n : Nat) (p : Path) (w : Bool),
    Sim d E g (PathT d) (componentsLoop E n p w) (componentsLoop ⟨E.src, g⟩ n (movePath d p) w) := by
  intro n
  induction n with
  | zero => intro p w; exact .fuel
  | succ n ih =>
      intro p w
      unfold componentsLoop
      refine .bind .lexNext ?_
      rintro o _ rfl
      cases o with
      | none => exact .pure rfl
      | some tok =>
          simp only
          split
          · refine .bind .incLine fun _ _ _ => ?_
            refine .bind .lexNext ?_
            rintro nx _ rfl
            exact .pure rfl
          · cases hk : tok.kind <;> simp only
            case params lx =>
              refine .bind (.setByte _) fun _ _ _ => ?_
              split
              · exact .pure rfl
              · split
                · split
                  · exact .fail _
                  · exact .fail _
                  · exact .fail _
                  · exact .fail _
                  · refine .bind (compSpan_sim _ _) ?_
                    rintro ⟨sp, raw⟩ _ rfl
                    simp only
                    split
                    · split
                      · exact ih (p.extend tok.span.stop) false
                      · exact .bind (.setByte _) fun _ _ _ => .fail _
                    · split
                      · exact .bind (.setByte _) fun _ _ _ => .fail _
                      · refine .bind (toComponent_sim _ _ _) ?_
                        rintro c _ rfl
                        exact ih ((p.extend tok.span.stop).add c) true
                · exact .pure rfl
            all_goals exact .pure rfl

theorem pathRest_sim (p : Path) (c : Component) :
    Sim d E g (PathO d) (pathRest E p c) (pathRest ⟨E.src, g⟩ (movePath d p) c) := by
  unfold pathRest
  rw [show (movePath d p).parents = p.parents from rfl]
  split
  · exact .fail _
  · split
    · exact .fail _
    · refine .getBind fun s => ?_
      refine .bind (componentsLoop_sim (s.toks.length + 1) (p.add c) (!c.isDotSlash)) ?_
      rintro ⟨q, nx⟩ _ rfl
      simp only [show (movePath d q).components = q.components from rfl]
      split
      · exact .fail _
      · exact .pure rfl

theorem pathFirst_sim : ∀ (ts : List Token) (o : Option Token) (p : Path),
    Sim d E g (PathO d) (pathFirst E ts o p) (pathFirst ⟨E.src, g⟩ ts o (movePath d p)) := by
  intro ts
  induction ts with
  | nil =>
      intro o p
      cases o with
      | none => unfold pathFirst; exact .pure rfl
      | some tok =>
          unfold pathFirst
          cases hk : tok.kind <;> simp only
          case params lx =>
            refine .bind (.setByte _) fun _ _ _ => ?_
            split
            · refine .bind (toComponent_sim _ _ _) ?_
              rintro c _ rfl
              refine .bind (.orPanicEq _) ?_
              rintro cs _ rfl
              exact pathRest_sim (markPath (p.extend tok.span.stop) c cs) c
            · exact .pure rfl
          all_goals exact .fail _
  | cons t ts ih =>
      intro o p
      cases o with
      | none => unfold pathFirst; exact .pure rfl
      | some tok =>
          unfold pathFirst
          cases hk : tok.kind <;> simp only
          case params lx =>
            refine .bind (.setByte _) fun _ _ _ => ?_
            split
            · refine .bind (toComponent_sim _ _ _) ?_
              rintro c _ rfl
              refine .bind (.orPanicEq _) ?_
              rintro cs _ rfl
              exact pathRest_sim (markPath (p.extend tok.span.stop) c cs) c
            · exact .bind (.setToks ts) fun _ _ _ => ih _ _
          all_goals exact .fail _

theorem pathParse_sim (lx : ParamTok) (sp : Span) :
    Sim d E g (PathO d) (pathParse E lx sp) (pathParse ⟨E.src, g⟩ lx sp) := by
  unfold pathParse
  refine .bind .lineRange ?_
  rintro lr _ ⟨-, rfl⟩
  simp only
  rw [← path_new]
  refine .bind (.orPanicEq _) ?_
  rintro ini _ rfl
  split
  · split
    · refine .bind .lexNext ?_
      rintro nx _ rfl
      exact .getBind fun s => pathFirst_sim s.toks nx { Path.new E.src sp lr with absolute := true }
    · exact .fail _
  · refine .getBind fun s => ?_
    refine .bind (parentsLoop_sim s.toks { Path.new E.src sp lr with parents := 1 }) ?_
    rintro ⟨q, nx⟩ _ rfl
    exact .getBind fun s => pathFirst_sim s.toks nx q
  · exact .getBind fun s => pathFirst_sim s.toks _ (Path.new E.src sp lr)

/-! ### Calls -/

theorem jsonLiteral_sim (lx : ParamTok) (sp : Span) :
    Sim d E g (fun a b => a = b) (jsonLiteral E lx sp) (jsonLiteral ⟨E.src, g⟩ lx sp) := by
  unfold jsonLiteral
  split
  · exact .pure rfl
  · exact .pure rfl
  · exact .pure rfl
  · refine .bind (.orPanicEq _) ?_
    rintro t _ rfl
    refine .bind (.orPanicEq _) ?_
    rintro n _ rfl
    exact .pure rfl
  · refine .bind (strLiteral_sim sp _) ?_
    rintro ⟨v, q⟩ _ rfl
    exact .pure rfl
  · refine .bind (strLiteral_sim sp _) ?_
    rintro ⟨v, q⟩ _ rfl
    exact .pure rfl
  · refine .bind (strLiteral_sim sp _) ?_
    rintro ⟨v, q⟩ _ rfl
    exact .pure rfl
  · exact .fail _

def ValT (d : Nat) (a b : ParamValue × Option Token) : Prop := b = (moveValue d a.1, a.2)

/-- All five functions of a call at once. -/
structure CallSim (d : Nat) (E : PEnv) (g : Str) (n : Nat) : Prop where
  value : ∀ lx sp, Sim d E g (ValT d) (valueP E n lx sp) (valueP ⟨E.src, g⟩ n lx sp)
  key : ∀ c c' sp ctx, CallR d c c' → Sim d E g (CallT d) (keyValueP E n c sp ctx) (keyValueP ⟨E.src, g⟩ n c' sp ctx)
  rest : ∀ c c' o ctx, CallR d c c' →
    Sim d E g (CallT d) (keyValueRest E n c o ctx) (keyValueRest ⟨E.src, g⟩ n c' o ctx)
  args : ∀ c c' o ctx, CallR d c c' → Sim d E g (CallT d) (argumentsP E n c o ctx) (argumentsP ⟨E.src, g⟩ n c' o ctx)
  target : ∀ c c' o ctx, CallR d c c' → Sim d E g (CallT d) (targetP E n c o ctx) (targetP ⟨E.src, g⟩ n c' o ctx)
  sub : ∀ sp, Sim d E g (CallT d) (subExprP E n sp) (subExprP ⟨E.src, g⟩ n sp)

theorem value_step {n : Nat} (ih : CallSim d E g n) (lx : ParamTok) (sp : Span) :
    Sim d E g (ValT d) (valueP E (n + 1) lx sp) (valueP ⟨E.src, g⟩ (n + 1) lx sp) := by
  have hp : Sim d E g (ValT d)
      (do let (path, tok) ← pathParse E lx sp
          match path with
          | some p => pure (ParamValue.path p, tok)
          | none => fail E .expectedPath)
      (do let (path, tok) ← pathParse ⟨E.src, g⟩ lx sp
          match path with
          | some p => pure (ParamValue.path p, tok)
          | none => fail ⟨E.src, g⟩ .expectedPath) := by
    refine .bind (pathParse_sim lx sp) ?_
    rintro ⟨p, tok⟩ _ rfl
    cases p with
    | none => exact .fail _
    | some p => exact .pure rfl
  have hj : Sim d E g (ValT d)
      (do let lr ← lineRange
          let (v, stop) ← jsonLiteral E lx sp
          let nx ← lexNext
          pure (ParamValue.json E.src v ⟨sp.start, stop⟩ lr, nx))
      (do let lr ← lineRange
          let (v, stop) ← jsonLiteral ⟨E.src, g⟩ lx sp
          let nx ← lexNext
          pure (ParamValue.json E.src v ⟨sp.start, stop⟩ lr, nx)) := by
    refine .bind .lineRange ?_
    rintro lr _ ⟨-, rfl⟩
    refine .bind (jsonLiteral_sim lx sp) ?_
    rintro ⟨v, q⟩ _ rfl
    refine .bind .lexNext ?_
    rintro nx _ rfl
    exact .pure rfl
  cases lx <;> unfold valueP <;> simp only <;> first
    | exact hp
    | exact hj
    | exact .fail _
    | (refine .bind (ih.sub sp) ?_
       rintro ⟨c, tok⟩ ⟨c', tok'⟩ ⟨h, rfl⟩
       have h2 := h.2
       simp only at h2
       exact .pure (by simp only [ValT, moveValue]; rw [h2]))

theorem key_step {n : Nat} (ih : CallSim d E g n) (c c' : Call) (sp : Span) (ctx : CallCtx) (h : CallR d c c') :
    Sim d E g (CallT d) (keyValueP E (n + 1) c sp ctx) (keyValueP ⟨E.src, g⟩ (n + 1) c' sp ctx) := by
  unfold keyValueP
  refine .bind (.orPanicEq _) ?_
  rintro key _ rfl
  refine .bind .lexNext ?_
  rintro o _ rfl
  cases o with
  | none => exact .pure ⟨h, rfl⟩
  | some tok =>
      cases hk : tok.kind <;> simp only [hk]
      case params lx =>
        refine .bind (ih.value lx tok.span) ?_
        rintro ⟨v, nx⟩ _ rfl
        exact ih.rest _ _ nx ctx (callR_param h)
      all_goals exact .fail _

theorem rest_step {n : Nat} (ih : CallSim d E g n) (c c' : Call) (o : Option Token) (ctx : CallCtx) (h : CallR d c c') :
    Sim d E g (CallT d) (keyValueRest E (n + 1) c o ctx) (keyValueRest ⟨E.src, g⟩ (n + 1) c' o ctx) := by
  cases o with
  | none => unfold keyValueRest; exact .pure ⟨h, rfl⟩
  | some tok =>
      obtain ⟨k, sp⟩ := tok
      cases k
      case params lx =>
        cases lx <;> unfold keyValueRest <;> simp only <;> first
          | exact .fail _
          | exact .pure ⟨callR_exit h, rfl⟩
          | exact ih.key _ _ _ _ h
          | (refine .bind .lexNext ?_
             rintro nx _ rfl
             exact ih.rest _ _ _ _ h)
          | (refine .bind .incLine fun _ _ _ => ?_
             refine .bind .lexNext ?_
             rintro nx _ rfl
             exact ih.rest _ _ _ _ h)
          | (split
             · refine .bind .lexNext ?_
               rintro nx _ rfl
               exact .pure ⟨callR_exit h, rfl⟩
             · exact .fail _)
      all_goals (unfold keyValueRest; exact .fail _)

theorem args_step {n : Nat} (ih : CallSim d E g n) (c c' : Call) (o : Option Token) (ctx : CallCtx) (h : CallR d c c') :
    Sim d E g (CallT d) (argumentsP E (n + 1) c o ctx) (argumentsP ⟨E.src, g⟩ (n + 1) c' o ctx) := by
  cases o with
  | none => unfold argumentsP; exact .pure ⟨h, rfl⟩
  | some tok =>
      obtain ⟨k, sp⟩ := tok
      cases k
      case params lx =>
        cases lx <;> unfold argumentsP <;> simp only <;> first
          | exact .fail _
          | exact .pure ⟨h, rfl⟩
          | (refine .pure ⟨?_, rfl⟩
             show CallR d (if _ then _ else _) (if _ then _ else _)
             split
             · exact h
             · exact callR_exit h)
          | exact ih.key _ _ _ _ h
          | (refine .bind .lexNext ?_
             rintro nx _ rfl
             exact ih.args _ _ _ _ h)
          | (refine .bind .incLine fun _ _ _ => ?_
             refine .bind .lexNext ?_
             rintro nx _ rfl
             exact ih.args _ _ _ _ h)
          | (refine .bind (ih.value _ _) ?_
             rintro ⟨v, nx⟩ _ rfl
             exact ih.args _ _ _ _ (callR_arg h))
          | (split
             · refine .bind .lexNext ?_
               rintro nx _ rfl
               exact .pure ⟨callR_exit h, rfl⟩
             · exact .fail _)
      all_goals (unfold argumentsP; exact .fail _)

theorem target_step {n : Nat} (ih : CallSim d E g n) (c c' : Call) (o : Option Token) (ctx : CallCtx) (h : CallR d c c') :
    Sim d E g (CallT d) (targetP E (n + 1) c o ctx) (targetP ⟨E.src, g⟩ (n + 1) c' o ctx) := by
  cases o with
  | none => unfold targetP; exact .pure ⟨h, rfl⟩
  | some tok =>
      obtain ⟨k, sp⟩ := tok
      cases k
      case params lx =>
        cases lx <;> unfold targetP <;> simp only <;> first
          | exact .fail _
          | (refine .bind .lexNext ?_
             rintro nx _ rfl
             exact ih.target _ _ _ _ h)
          | (refine .bind .incLine fun _ _ _ => ?_
             refine .bind .lexNext ?_
             rintro nx _ rfl
             exact ih.target _ _ _ _ h)
          | (refine .bind (pathParse_sim _ _) ?_
             rintro ⟨p, nx⟩ _ rfl
             cases p with
             | none => exact .pure ⟨h, rfl⟩
             | some p => exact .pure ⟨callR_target (t := .path p) h, rfl⟩)
          | (split
             · exact .fail _
             · refine .bind (ih.sub _) ?_
               rintro ⟨x, nx⟩ ⟨x', nx'⟩ ⟨hx, hn⟩
               simp only at hx hn
               obtain ⟨-, rfl⟩ := hx
               subst hn
               exact .pure ⟨callR_target (t := .subExpr x) h, rfl⟩)
          | (rw [h.str]
             refine .bind (.orPanicEq _) ?_
             rintro t _ rfl
             rw [h.cond]
             split
             · exact .fail _
             · refine .pure ⟨?_, rfl⟩
               show CallR d (if _ then _ else _) (if _ then _ else _)
               split
               · exact h
               · exact callR_exit h)
      all_goals (unfold targetP; exact .fail _)

theorem sub_step {n : Nat} (ih : CallSim d E g n) (sp : Span) :
    Sim d E g (CallT d) (subExprP E (n + 1) sp) (subExprP ⟨E.src, g⟩ (n + 1) sp) := by
  unfold subExprP
  refine .bind (.setByte _) fun _ _ _ => ?_
  refine .bind .lineRange fun lr lr' hl => ?_
  refine .bind .lexNext ?_
  rintro nx _ rfl
  refine .bind (ih.target _ _ _ _ (callR_new hl)) ?_
  rintro ⟨c, nx⟩ ⟨c', nx'⟩ ⟨hc, hn⟩
  simp only at hc hn
  subst hn
  refine .bind (ih.args _ _ _ _ hc) ?_
  rintro ⟨c2, nx2⟩ ⟨c2', nx2'⟩ ⟨hc2, hn2⟩
  simp only at hc2 hn2
  subst hn2
  simp only
  rw [hc2.clo]
  cases c2.clo with
  | none => exact .fail _
  | some _ => exact .bind .line fun l l' hl => .pure ⟨callR_lines hc2 hl, rfl⟩

theorem callSim : ∀ n, CallSim d E g n := by
  intro n
  induction n with
  | zero =>
      constructor <;> intros <;> first
        | (unfold valueP; exact .fuel)
        | (unfold keyValueP; exact .fuel)
        | (unfold keyValueRest; exact .fuel)
        | (unfold argumentsP; exact .fuel)
        | (unfold targetP; exact .fuel)
        | (unfold subExprP; exact .fuel)
  | succ n ih =>
      exact ⟨value_step ih, key_step ih, rest_step ih, args_step ih, target_step ih, sub_step ih⟩

theorem flagsLoop_sim : ∀ (ts : List Token) (c c' : Call) (o : Option Token), CallR d c c' →
    Sim d E g (CallT d) (flagsLoop ts c o) (flagsLoop ts c' o) := by
  intro ts
  induction ts with
  | nil =>
      intro c c' o h
      cases o with
      | none => unfold flagsLoop; exact .pure ⟨h, rfl⟩
      | some tok =>
          unfold flagsLoop
          split
          · exact .pure ⟨h, rfl⟩
          · exact .bind .incLine fun _ _ _ => .pure ⟨h, rfl⟩
          · refine .bind .lexNext ?_
            rintro nx _ rfl
            exact .pure ⟨callR_partial h, rfl⟩
          · refine .bind .lexNext ?_
            rintro nx _ rfl
            exact .pure ⟨callR_conditional h, rfl⟩
          · exact .pure ⟨h, rfl⟩
  | cons t ts ih =>
      intro c c' o h
      cases o with
      | none => unfold flagsLoop; exact .pure ⟨h, rfl⟩
      | some tok =>
          unfold flagsLoop
          split
          · exact .bind (.setToks ts) fun _ _ _ => ih _ _ _ h
          · refine .bind (.modify fun s hs => ⟨?_, hs⟩) fun _ _ _ => ih _ _ _ h
            simp [moveS]; omega
          · refine .bind .lexNext ?_
            rintro nx _ rfl
            exact .pure ⟨callR_partial h, rfl⟩
          · refine .bind .lexNext ?_
            rintro nx _ rfl
            exact .pure ⟨callR_conditional h, rfl⟩
          · exact .pure ⟨h, rfl⟩

theorem callParse_sim (sp : Span) : Sim d E g (CallR d) (callParse E sp) (callParse ⟨E.src, g⟩ sp) := by
  unfold callParse
  refine .bind (.setByte _) fun _ _ _ => ?_
  refine .bind .lineRange fun lr lr' hl => ?_
  refine .bind .lexNext ?_
  rintro nx _ rfl
  refine .getBind fun s => ?_
  refine .bind (flagsLoop_sim s.toks _ _ nx (callR_new hl)) ?_
  rintro ⟨c, nx⟩ ⟨c', nx'⟩ ⟨hc, hn⟩
  simp only at hc hn
  subst hn
  simp only
  rw [hc.cond, hc.part]
  split
  · exact .fail _
  · refine .getBind fun s => ?_
    refine .bind ((callSim (callFuel s)).target _ _ _ _ hc) ?_
    rintro ⟨c2, nx2⟩ ⟨c2', nx2'⟩ ⟨hc2, hn2⟩
    simp only at hc2 hn2
    subst hn2
    refine .getBind fun s => ?_
    refine .bind ((callSim (callFuel s)).args _ _ _ _ hc2) ?_
    rintro ⟨c3, nx3⟩ ⟨c3', nx3'⟩ ⟨hc3, -⟩
    exact .bind .line fun l l' hl => .pure (callR_lines hc3 hl)

/-! ### Links -/

def LinkR (d : Nat) (a b : Link) : Prop := Live a.line ∧ b = moveLink d a

theorem assign_sim (l l' : Link) (f : LinkFlags) (sp : Span) (part : LinkPart) (h : LinkR d l l') :
    Sim d E g (LinkR d) (assignIfEscaped E l f sp part) (assignIfEscaped ⟨E.src, g⟩ l' f sp part) := by
  obtain ⟨h, rfl⟩ := h
  unfold assignIfEscaped
  split
  · cases part
    · refine .bind (.orPanicEq _) ?_
      rintro v _ rfl
      exact .pure ⟨h, rfl⟩
    · refine .bind (.orPanicEq _) ?_
      rintro v _ rfl
      exact .pure ⟨h, rfl⟩
  · exact .pure ⟨h, rfl⟩

theorem linkValue_sim : ∀ (ts : List Token) (l l' : Link) (f : LinkFlags) (part : LinkPart), LinkR d l l' →
    Sim d E g (LinkR d) (linkValue E ts l f part) (linkValue ⟨E.src, g⟩ ts l' f part) := by
  intro ts
  induction ts with
  | nil => intro l l' f part h; exact .bind (.setToks []) fun _ _ _ => .pure h
  | cons t ts ih =>
      intro l l' f part h
      unfold linkValue
      refine .bind (.setToks ts) fun _ _ _ => ?_
      split
      · refine .bind (.setByte _) fun _ _ _ => ?_
        obtain ⟨h, rfl⟩ := h
        split
        · exact .bind .incLine fun _ _ _ => ih _ _ _ _ ⟨h, rfl⟩
        · split
          · exact ih _ _ _ _ ⟨h, rfl⟩
          · exact ih _ _ _ _ ⟨h, rfl⟩
        · split
          · refine .bind (assign_sim _ _ _ _ _ ⟨?_, ?_⟩) ?_
            · exact h
            · rfl
            · rintro m _ ⟨hm, rfl⟩
              exact ih _ _ _ _ ⟨hm, rfl⟩
          · exact ih _ _ _ _ ⟨h, rfl⟩
        · exact ih _ _ _ _ ⟨h, rfl⟩
        · exact ih _ _ _ _ ⟨h, rfl⟩
        · exact ih _ _ _ _ ⟨h, rfl⟩
        · refine .bind (assign_sim _ _ _ _ _ ⟨h, rfl⟩) ?_
          rintro m _ ⟨hm, rfl⟩
          exact .pure ⟨hm, rfl⟩
        · exact .fail _
      · exact .fail _

theorem hrefOwned_sim (l l' : Link) (f : LinkFlags) (sp : Span) (h : LinkR d l l') :
    Sim d E g (LinkR d) (hrefOwned E l f sp) (hrefOwned ⟨E.src, g⟩ l' f sp) := by
  obtain ⟨h, rfl⟩ := h
  unfold hrefOwned
  split
  · refine .bind (.orPanicEq _) ?_
    rintro v _ rfl
    exact .pure ⟨h, rfl⟩
  · exact .pure ⟨h, rfl⟩

theorem linkHref_sim : ∀ (ts : List Token) (l l' : Link) (f : LinkFlags), LinkR d l l' →
    Sim d E g (LinkR d) (linkHref E ts l f) (linkHref ⟨E.src, g⟩ ts l' f) := by
  intro ts
  induction ts with
  | nil => intro l l' f h; exact .bind (.setToks []) fun _ _ _ => .pure h
  | cons t ts ih =>
      intro l l' f h
      unfold linkHref
      refine .bind (.setToks ts) fun _ _ _ => ?_
      split
      · refine .bind (.setByte _) fun _ _ _ => ?_
        obtain ⟨h, rfl⟩ := h
        split
        · exact .bind .incLine fun _ _ _ => .pure ⟨h, rfl⟩
        · exact ih _ _ _ ⟨h, rfl⟩
        · refine .bind (hrefOwned_sim _ _ _ _ ⟨h, rfl⟩) ?_
          rintro m _ ⟨hm, rfl⟩
          exact linkValue_sim _ _ _ _ _ ⟨hm, rfl⟩
        · exact ih _ _ _ ⟨h, rfl⟩
        · exact ih _ _ _ ⟨h, rfl⟩
        · exact ih _ _ _ ⟨h, rfl⟩
        · refine .bind (hrefOwned_sim _ _ _ _ ⟨h, rfl⟩) ?_
          rintro m _ ⟨hm, rfl⟩
          exact .pure ⟨hm, rfl⟩
        · exact .fail _
      · exact .fail _

theorem linkParse_sim (sp : Span) : Sim d E g (LinkR d) (linkParse E sp) (linkParse ⟨E.src, g⟩ sp) := by
  unfold linkParse
  refine .bind (.setByte _) fun _ _ _ => ?_
  refine .bind .lineRange fun lr lr' hl => ?_
  refine .getBind fun s => ?_
  refine .bind (linkHref_sim s.toks (Link.new E.src sp lr) (Link.new E.src sp lr') _ ⟨hl.1, ?_⟩) ?_
  · rw [hl.2]; rfl
  · rintro m _ ⟨hm, rfl⟩
    rw [show (moveLink d m).clo = m.clo from rfl]
    split
    · exact .fail _
    · refine .bind .line ?_
      rintro n _ rfl
      refine .pure ⟨Nat.succ_ne_zero _, ?_⟩
      simp only [moveLink]
      rw [live_move hm, live_move (l := ⟨_, n + 1⟩) (Nat.succ_ne_zero n)]
      simp only
      congr 2; omega

/-! ### Blocks -/

theorem untilLoop_sim (stop : Token → Bool) : ∀ (ts : List Token) (sp : Span),
    Sim d E g (fun a b => a = b) (untilLoop stop ts sp) (untilLoop stop ts sp) := by
  intro ts
  induction ts with
  | nil => intro sp; exact .bind (.setToks []) fun _ _ _ => .pure rfl
  | cons t ts ih =>
      intro sp
      unfold untilLoop
      refine .bind (.modify fun s hs => ⟨?_, hs⟩) fun _ _ _ => ?_
      · simp only [moveS]; congr 1; split <;> omega
      · split
        · exact .pure rfl
        · exact .bind (.setByte _) fun _ _ _ => ih _

theorem untilP_sim (stop : Token → Bool) (sp : Span) :
    Sim d E g (fun a b => a = b) (untilP stop sp) (untilP stop sp) := .getBind fun s => untilLoop_sim stop s.toks sp

theorem line_pair {lr lr' : Span} {l l' : Nat} (hl : Live lr ∧ lr' = moveLine d lr) (h : l' = l + d) :
    (⟨lr'.start, l' + 1⟩ : Span) = moveLine d ⟨lr.start, l + 1⟩ := by
  rw [hl.2, live_move hl.1, live_move (l := ⟨_, l + 1⟩) (Nat.succ_ne_zero l), h]
  simp only
  congr 1; omega

theorem textUntil_sim (sp : Span) (stop : Token → Bool) :
    Sim d E g (fun a b => b = a.map fun x => (moveTextBlock d x.1, x.2)) (textUntil E sp stop) (textUntil ⟨E.src, g⟩ sp stop) := by
  unfold textUntil
  refine .bind .lineRange fun lr lr' hl => ?_
  refine .bind (untilP_sim _ _) ?_
  rintro ⟨q, nx⟩ _ rfl
  cases nx with
  | none => exact .pure rfl
  | some c =>
      refine .bind .line fun l l' h => .pure ?_
      rw [line_pair hl h]
      rfl

def BlockR (d : Nat) (a b : Block) : Prop := Live a.line ∧ b = moveBlock d a

theorem block_new (src : Str) (o : Span) (raw : Bool) (l : Span) :
    moveBlock d (Block.new src o raw l) = Block.new src o raw (moveLine d l) := by
  simp [Block.new, moveBlock, moveNodes, Call.default, moveCall, moveTarget, moveValues, moveParams, path_new, moveLine]
theorem block_call (b : Block) (c : Call) : moveBlock d (b.setCall c) = (moveBlock d b).setCall (moveCall d c) := by
  cases b; rfl
theorem block_line (b : Block) : (moveBlock d b).line = moveLine d b.line := by cases b; rfl
theorem mapLast_move (f f' : Block → Block) (hf : ∀ b, moveBlock d (f b) = f' (moveBlock d b)) (ns : List Node) :
    moveNodes d (Block.mapLast f ns) = Block.mapLast f' (moveNodes d ns) := by
  induction ns with
  | nil => rfl
  | cons x r ih =>
      cases r with
      | nil => cases x <;> simp [Block.mapLast, moveNodes, moveNode, hf]
      | cons y r =>
          rw [show Block.mapLast f (x :: y :: r) = x :: Block.mapLast f (y :: r) from by cases x <;> rfl]
          rw [moveNodes, ih]
          simp only [moveNodes]
          cases x <;> rfl
theorem block_pushOwn (x : Node) (b : Block) : moveBlock d (b.pushOwn x) = (moveBlock d b).pushOwn (moveNode d x) := by
  cases b; simp [Block.pushOwn, moveBlock, moveNodes_append, moveNodes]
theorem block_setClose (sp : Span) (b : Block) : moveBlock d (b.setClose sp) = (moveBlock d b).setClose sp := by
  cases b; rfl
theorem block_push (x : Node) (b : Block) : moveBlock d (b.push x) = (moveBlock d b).push (moveNode d x) := by
  obtain ⟨s, n, r, o, cl, c, cs, l⟩ := b
  cases cs with
  | nil => simp [Block.push, moveBlock, moveNodes_append, moveNodes]
  | cons y ys =>
      simp only [Block.push, moveBlock]
      rw [mapLast_move _ _ (block_pushOwn x)]
      simp [moveNodes]
theorem block_exit (sp : Span) (b : Block) : moveBlock d (b.exit sp) = (moveBlock d b).exit sp := by
  cases b
  simp only [Block.exit, moveBlock]
  rw [mapLast_move _ _ (block_setClose sp)]
theorem block_closeCondition (sp : Span) (b : Block) :
    moveBlock d (b.closeCondition sp) = (moveBlock d b).closeCondition sp := by
  cases b
  simp only [Block.closeCondition, moveBlock]
  split
  · simp only [moveBlock]; rw [mapLast_move _ _ (block_setClose _)]
  · rfl
theorem block_getCall (b : Block) : (moveBlock d b).call = moveCall d b.call := by cases b; rfl
theorem block_addCondition (b c : Block) :
    moveBlock d (b.addCondition c) = (moveBlock d b).addCondition (moveBlock d c) := by
  unfold Block.addCondition
  rw [block_getCall, call_opn, ← block_closeCondition]
  obtain ⟨s, n, r, o, cl, k, cs, l⟩ := b.closeCondition c.call.opn
  simp [moveBlock, moveNodes_append, moveNodes, moveNode]
theorem block_name (b : Block) : (moveBlock d b).name = b.name := by
  unfold Block.name
  rw [block_getCall, call_target]
  cases b.call.target with
  | path p => rfl
  | subExpr c => rfl
theorem blockR_lines {a b : Block} {l l' : Nat} (h : BlockR d a b) (hl : l' = l + d) :
    BlockR d (a.linesEnd l) (b.linesEnd l') := by
  obtain ⟨h1, rfl⟩ := h; cases a; subst hl
  refine ⟨Nat.succ_ne_zero _, ?_⟩
  simp only [Block.linesEnd, moveBlock]
  have h1' := live_move (d := d) h1
  simp only [Block.line] at h1'
  rw [h1', live_move (l := ⟨_, l + 1⟩) (Nat.succ_ne_zero l), Nat.add_right_comm l d 1]

theorem live_setCall (b : Block) (c : Call) : (b.setCall c).line = b.line := by cases b; rfl
theorem live_push (b : Block) (x : Node) : (b.push x).line = b.line := by
  obtain ⟨s, n, r, o, cl, c, cs, l⟩ := b
  cases cs <;> rfl
theorem live_exit (b : Block) (sp : Span) : (b.exit sp).line = b.line := by cases b; rfl
theorem live_addCondition (b c : Block) : (b.addCondition c).line = b.line := by
  obtain ⟨s, n, r, o, cl, k, cs, l⟩ := b
  unfold Block.addCondition Block.closeCondition
  split at * <;> simp_all [Block.line]
  split at * <;> simp_all

def NodeR (d : Nat) (a b : Node) : Prop := b = moveNode d a

theorem rawBlock_sim (sp : Span) : Sim d E g (NodeR d) (rawBlock E sp) (rawBlock ⟨E.src, g⟩ sp) := by
  unfold rawBlock
  refine .bind .lineRange fun lr lr' hl => ?_
  refine .bind (callParse_sim sp) fun c c' hc => ?_
  rw [hc.clo]
  cases c.clo with
  | none => exact .fail _
  | some e =>
      simp only
      rw [hc.str]
      refine .bind (.orPanicEq _) ?_
      rintro nm _ rfl
      refine .bind (textUntil_sim _ _) ?_
      rintro o _ rfl
      cases o with
      | none => exact .fail _
      | some x =>
          obtain ⟨tb, close⟩ := x
          simp only [Option.map]
          refine .bind (callParse_sim _) fun k k' hk => ?_
          rw [hk.clo]
          cases k.clo with
          | none => exact .fail _
          | some cs =>
              simp only
              rw [hk.str, show k'.opn = k.opn from by rw [hk.2, call_opn]]
              refine .bind (.orPanicEq _) ?_
              rintro en _ rfl
              split
              · exact .failWith _ _
              · refine .bind .line fun l l' h => .pure ?_
                have hb : BlockR d (((Block.new E.src sp true lr).setCall c).push (.text tb.text))
                    (((Block.new E.src sp true lr').setCall c').push (.text (moveTextBlock d tb).text)) := by
                  refine ⟨by rw [live_push, live_setCall]; exact hl.1, ?_⟩
                  rw [block_push, block_call, block_new, ← hl.2, ← hc.2]; rfl
                have hb2 : BlockR d ((((Block.new E.src sp true lr).setCall c).push (.text tb.text)).exit ⟨k.opn.start, cs.stop⟩)
                    ((((Block.new E.src sp true lr').setCall c').push (.text (moveTextBlock d tb).text)).exit ⟨k.opn.start, cs.stop⟩) :=
                  ⟨by rw [live_exit]; exact hb.1, by rw [block_exit, ← hb.2]⟩
                have := (blockR_lines hb2 h).2
                simp only [NodeR, moveNode]
                rw [← this]

theorem rawComment_sim (sp : Span) : Sim d E g (NodeR d) (rawComment E sp) (rawComment ⟨E.src, g⟩ sp) := by
  unfold rawComment
  refine .bind (textUntil_sim _ _) ?_
  rintro o _ rfl
  cases o with
  | none => exact .fail _
  | some x => exact .pure rfl
theorem rawStatement_sim (sp : Span) : Sim d E g (NodeR d) (rawStatement E sp) (rawStatement ⟨E.src, g⟩ sp) := by
  unfold rawStatement
  refine .bind (textUntil_sim _ _) ?_
  rintro o _ rfl
  cases o with
  | none => exact .fail _
  | some x => exact .pure rfl
theorem commentP_sim (sp : Span) : Sim d E g (NodeR d) (commentP E sp) (commentP ⟨E.src, g⟩ sp) := by
  unfold commentP
  refine .bind (textUntil_sim _ _) ?_
  rintro o _ rfl
  cases o with
  | none => exact .fail _
  | some x => exact .pure rfl

theorem scopeP_sim (sp : Span) : Sim d E g (BlockR d) (scopeP E sp) (scopeP ⟨E.src, g⟩ sp) := by
  unfold scopeP
  refine .bind .lineRange fun lr lr' hl => ?_
  refine .bind (callParse_sim sp) fun c c' hc => ?_
  refine .pure ⟨by rw [live_setCall]; exact hl.1, ?_⟩
  rw [block_call, block_new, ← hl.2, ← hc.2]

/-! ### The whole -/

theorem tokenP_sim : Sim d E g (fun a b => a = b) tokenP tokenP := by
  intro s hs
  unfold tokenP
  rw [show (moveS d s).next = s.next from rfl, show (moveS d s).toks = s.toks from rfl]
  cases s.next with
  | some t => exact ⟨rfl, rfl, hs⟩
  | none =>
      cases s.toks with
      | nil => exact ⟨rfl, rfl, hs⟩
      | cons t ts => exact ⟨rfl, rfl, hs⟩

def OptR (d : Nat) (a b : Option Node) : Prop := b = a.map (moveNode d)

theorem addToBlock_move {lr lr' : Span} (hl : Live lr ∧ lr' = moveLine d lr) (x : Node) (b : Block) :
    moveBlock d (addToBlock E lr x b) = addToBlock ⟨E.src, g⟩ lr' (moveNode d x) (moveBlock d b) := by
  cases x with
  | statement c =>
      simp only [addToBlock, moveNode, call_cond]
      split
      · rw [block_addCondition, block_call, block_new, ← hl.2, call_opn]
      · rw [block_push]; rfl
  | _ => simp only [addToBlock, moveNode]; rw [block_push]; rfl

theorem live_addTo {lr : Span} (x : Node) (b : Block) : (addToBlock E lr x b).line = b.line := by
  cases x with
  | statement c =>
      simp only [addToBlock]
      split
      · rw [live_addCondition]
      · rw [live_push]
  | _ => simp only [addToBlock]; rw [live_push]

theorem endBlock_sim (sp : Span) : Sim d E g (OptR d) (endBlock E sp) (endBlock ⟨E.src, g⟩ sp) := by
  unfold endBlock
  refine .bind (scopeP_sim sp) fun t t' ht => ?_
  rw [show t'.name = t.name from by rw [ht.2, block_name]]
  refine .bind (.orPanicEq _) ?_
  rintro name _ rfl
  refine .bind .get ?_
  rintro s _ ⟨rfl, hok⟩
  rw [show (moveS d s).stack = s.stack.map (fun p => (p.1, moveBlock d p.2)) from rfl]
  cases hst : s.stack with
  | nil => exact .bind (.setByte _) fun _ _ _ => .failWith _ _
  | cons p rest =>
      obtain ⟨on, block⟩ := p
      have hlive : Live block.line := hok (on, block) (by rw [hst]; exact List.mem_cons_self)
      have hrest : ∀ p ∈ rest, Live p.2.line := fun p hp => hok p (by rw [hst]; exact List.mem_cons_of_mem _ hp)
      simp only [List.map_cons]
      refine .bind (.modify fun s _ => ⟨rfl, hrest⟩) fun _ _ _ => ?_
      cases name with
      | none => exact .fail _
      | some cn =>
          simp only
          split
          · exact .failWith _ _
          · rw [show t'.call = moveCall d t.call from by rw [ht.2, block_getCall], call_clo, call_span]
            refine .bind .line fun l l' h => .pure ?_
            have hb : BlockR d (block.exit (match t.call.clo with | some _ => ⟨sp.start, t.call.span.stop⟩ | none => sp))
                ((moveBlock d block).exit (match t.call.clo with | some _ => ⟨sp.start, t.call.span.stop⟩ | none => sp)) :=
              ⟨by rw [live_exit]; exact hlive, by rw [block_exit]⟩
            have := (blockR_lines hb h).2
            exact congrArg (fun b => some (Node.block b)) this

theorem advance_sim : ∀ n, (∀ tok, Sim d E g (OptR d) (advance E n tok) (advance ⟨E.src, g⟩ n tok)) ∧
    Sim d E g (OptR d) (blockLoop E n) (blockLoop ⟨E.src, g⟩ n) := by
  intro n
  induction n with
  | zero => exact ⟨fun tok => by unfold advance; exact .fuel, by unfold blockLoop; exact .fuel⟩
  | succ n ih =>
      constructor
      · intro tok
        unfold advance
        refine .bind (.incLineIf _) fun _ _ _ => ?_
        split
        · refine .bind .lineRange fun lr lr' hl => ?_
          refine .bind (untilP_sim _ _) ?_
          rintro ⟨q, nx⟩ _ rfl
          refine .bind (.modify fun s hs => ⟨rfl, hs⟩) fun _ _ _ => ?_
          refine .bind .line fun l l' h => .pure ?_
          rw [line_pair hl h]
          rfl
        · have lift : ∀ {m m' : P Node}, Sim d E g (NodeR d) m m' →
              Sim d E g (OptR d) (do let x ← m; pure (some x)) (do let x ← m'; pure (some x)) := by
            intro m m' h
            refine .bind h ?_
            rintro x _ rfl
            exact .pure rfl
          split
          · exact lift (rawBlock_sim _)
          · exact lift (rawComment_sim _)
          · exact lift (rawStatement_sim _)
          · exact lift (commentP_sim _)
          · refine .bind (scopeP_sim _) fun b b' hb => ?_
            rw [show b'.name = b.name from by rw [hb.2, block_name]]
            refine .bind (.orPanicEq _) ?_
            rintro name _ rfl
            cases name with
            | none =>
                simp only
                rw [show b'.call.target.span = b.call.target.span from by
                  rw [hb.2, block_getCall, call_target, target_span]]
                exact .bind (.setByte _) fun _ _ _ => .fail _
            | some nm =>
                refine .bind (.modify fun s hs => ⟨?_, ?_⟩) fun _ _ _ => ih.2
                · rw [hb.2]; rfl
                · intro p hp
                  rcases List.mem_cons.1 hp with rfl | hp
                  · exact hb.1
                  · exact hs p hp
          · exact endBlock_sim _
          · refine .bind (callParse_sim _) ?_
            rintro c _ ⟨-, rfl⟩
            exact .pure rfl
          · refine .bind (linkParse_sim _) ?_
            rintro c _ ⟨-, rfl⟩
            exact .pure rfl
          · exact .pure rfl
      · unfold blockLoop
        refine .bind tokenP_sim ?_
        rintro o _ rfl
        cases o with
        | none => exact .pure rfl
        | some t =>
            refine .bind (ih.1 t) ?_
            rintro x _ rfl
            refine .bind .get ?_
            rintro s _ ⟨rfl, hok⟩
            rw [show (moveS d s).stack = s.stack.map (fun p => (p.1, moveBlock d p.2)) from rfl]
            cases x with
            | none => exact .pure rfl
            | some x =>
                cases hst : s.stack with
                | nil => exact .pure rfl
                | cons p rest =>
                    obtain ⟨nm, cur⟩ := p
                    simp only [List.map_cons, Option.map]
                    refine .bind .lineRange fun lr lr' hl => ?_
                    refine .bind (.modify fun s hs => ⟨?_, ?_⟩) fun _ _ _ => ih.2
                    · simp only [moveS, List.map_cons]
                      rw [addToBlock_move (g := g) hl]
                    · intro p hp
                      rcases List.mem_cons.1 hp with rfl | hp
                      · rw [live_addTo]; exact hok (nm, cur) (by rw [hst]; exact List.mem_cons_self)
                      · exact hok p (by rw [hst]; exact List.mem_cons_of_mem _ hp)

theorem parserNext_sim : Sim d E g (OptR d) (parserNext E) (parserNext ⟨E.src, g⟩) := by
  unfold parserNext
  refine .bind tokenP_sim ?_
  rintro o _ rfl
  cases o with
  | none => exact .pure rfl
  | some t => exact .getBind fun s => (advance_sim (advFuel s)).1 t

theorem parseLoop_sim : ∀ (n : Nat) (acc : List Node),
    Sim d E g (fun a b => b = moveNodes d a) (parseLoop E n acc) (parseLoop ⟨E.src, g⟩ n (moveNodes d acc)) := by
  intro n
  induction n with
  | zero => intro acc; exact .fuel
  | succ n ih =>
      intro acc
      unfold parseLoop
      refine .bind parserNext_sim ?_
      rintro o _ rfl
      cases o with
      | none => exact .pure rfl
      | some x =>
          have := ih (acc ++ [x])
          rw [moveNodes_append] at this
          exact this

end
end Bracket.Relabel
