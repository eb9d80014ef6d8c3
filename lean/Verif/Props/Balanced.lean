import Verif.Spec.Balanced
import Verif.Lemmas.Write
import Verif.Lemmas.Basic
import Verif.Lemmas.ExHost
import Verif.Model.Registry

/-! C27: successful renders leave scopes and call stack as they were. -/

namespace Bracket.Props
open Spec

section
set_option linter.unusedSectionVars false
variable [Host]

/-- A program that never returns never yields a value. -/
theorem neverReturns_run (S : Sem) (E : Env) (p : Prog) : NeverReturns p → ∀ s a t, run S E p s ≠ (.ok a, t) := by
  have hb : ∀ {α : Type} {m : RM α} {f : α → RM (Option Value)}, (∀ x s a t, f x s ≠ (.ok a, t)) →
      ∀ s a t, (m >>= f) s ≠ (.ok a, t) := by
    intro α m f hf s a t
    rw [RM.bind_def]
    rcases m s with ⟨r, u⟩
    cases r with
    | ok x => exact hf x u a t
    | _ => simp
  have hc : ∀ {α : Type} {m : RM α} {f : Except RenderErr α → RM (Option Value)},
      (∀ x s a t, f x s ≠ (.ok a, t)) → ∀ s a t, RM.catchErr m f s ≠ (.ok a, t) := by
    intro α m f hf s a t
    unfold RM.catchErr
    rcases m s with ⟨r, u⟩
    cases r with
    | ok x => exact hf _ u a t
    | err x => exact hf _ u a t
    | _ => simp
  induction p with
  | ret v => intro h; exact h.elim
  | fail e => intro _ s a t; simp [run, RM.fail]
  | panic => intro _ s a t; simp [run, RM.panic]
  | write c k ih => intro h; unfold run; exact hc fun r => ih _ (h _)
  | writeEscaped c k ih => intro h; unfold run; exact hc fun r => ih _ (h _)
  | outWrite c k ih => intro h; unfold run; exact hb fun r => ih _ (h _)
  | template n k ih => intro h; unfold run; exact hc fun r => ih _ (h _)
  | render n k ih => intro h; unfold run; exact hc fun r => ih _ (h _)
  | inverse n k ih => intro h; unfold run; exact hc fun r => ih _ (h _)
  | buffer n k ih => intro h; unfold run; exact hc fun r => ih _ (h _)
  | once f c d k ih => intro h; unfold run; exact hb fun r => ih _ (h _)
  | evaluate p k ih => intro h; unfold run; exact hb fun r => ih _ (h _)
  | pushScope sc k ih => intro h; unfold run; exact hb fun r => ih h
  | popScope k ih => intro h; unfold run; exact hb fun r => hb fun _ => ih _ (h _)
  | scopeMut f k ih => intro h; unfold run; exact hb fun r => hb fun _ => ih _ (h _)
  | registerLocal n g k ih1 ih2 => intro h; exact h.elim
  | unregisterLocal n k ih => intro h; unfold run; exact hb fun r => ih h
  | peek k ih => intro h; unfold run; exact hb fun r => ih _ (h _)
  | log l m k ih => intro h; unfold run; exact hb fun r => ih h

/-- Every local helper is balanced. -/
def LocalsBalanced (s : RS) : Prop := ∀ n h, assoc n s.locals = some h → BalancedHelper h

theorem LocalsBalanced.of_eq {s t : RS} (h : LocalsBalanced s) (e : t.locals = s.locals) : LocalsBalanced t := by
  unfold LocalsBalanced at *; rw [e]; exact h

/-- Blocks are the only partials that are not templates. -/
def OnlyBlock (s : RS) : Prop := ∀ k, k ≠ nmPartialBlock → assoc k s.partials = none

/-- Between the two states no `{{> @partial-block}}` was started. -/
def Calm (s t : RS) : Prop := ∀ evs, t.trace = s.trace ++ evs → CallEv.enter (.part nmPartialBlock) ∉ evs

/-- Call stack and current partial are the same after a success. -/
structure Rest (b : Bool) (s t : RS) : Prop where
  grow : ∃ evs, t.trace = s.trace ++ evs
  blocks : OnlyBlock s → OnlyBlock t
  stack : b = true → t.stack = s.stack
  cur : b = true → OnlyBlock s → Calm s t → t.curPartial = s.curPartial

theorem Rest.refl (b : Bool) (s : RS) : Rest b s s :=
  ⟨⟨[], by simp⟩, fun h => h, fun _ => rfl, fun _ _ _ => rfl⟩

theorem Calm.left {s t u : RS} {a b : List CallEv} (h : Calm s u) (h1 : t.trace = s.trace ++ a)
    (h2 : u.trace = t.trace ++ b) : Calm s t ∧ Calm t u := by
  have := h (a ++ b) (by rw [h2, h1, List.append_assoc])
  rw [List.mem_append, not_or] at this
  refine ⟨fun e he => ?_, fun e he => ?_⟩
  · rw [h1, List.append_cancel_left_eq] at he; exact he ▸ this.1
  · rw [h2, List.append_cancel_left_eq] at he; exact he ▸ this.2

theorem Rest.trans {b : Bool} {s t u : RS} (h : Rest true s t) (h' : Rest b t u) : Rest b s u := by
  obtain ⟨x, hx⟩ := h.grow
  obtain ⟨y, hy⟩ := h'.grow
  refine ⟨⟨x ++ y, by rw [hy, hx, List.append_assoc]⟩, fun k => h'.blocks (h.blocks k),
    fun hb => (h'.stack hb).trans (h.stack rfl), fun hb ho hc => ?_⟩
  obtain ⟨c1, c2⟩ := hc.left hx hy
  exact (h'.cur hb (h.blocks ho) c2).trans (h.cur rfl ho c1)

/-- Forget that something succeeded. -/
theorem Rest.weaken {b : Bool} {s t : RS} (h : Rest b s t) : Rest false s t :=
  ⟨h.grow, h.blocks, fun h => by (cases h), fun h => by (cases h)⟩

/-- A change of anything else. -/
theorem Rest.of_eq {s t : RS} (b : Bool) (h1 : t.trace = s.trace) (h2 : t.partials = s.partials)
    (h3 : t.stack = s.stack) (h4 : t.curPartial = s.curPartial) : Rest b s t :=
  ⟨⟨[], by simp [h1]⟩, fun h => by unfold OnlyBlock; rw [h2]; exact h, fun _ => h3, fun _ _ _ => h4⟩

/-- Scopes, call stack and current partial are the same after a success. -/
def balRel : Rel :=
  ⟨LocalsBalanced, fun b s t => Rest b s t ∧ (b = true → t.scopes = s.scopes)⟩

def balBase (reg : Reg) : FrameBase reg where
  toRel := balRel
  refl := fun b s => ⟨.refl b s, fun _ => rfl⟩
  trans := fun h h' => ⟨h.1.trans h'.1, fun hb => (h'.2 hb).trans (h.2 rfl)⟩
  minor := fun hs h => ⟨hs.of_eq h.locals, ⟨⟨[], by simp [h.trace]⟩, fun ho k hk => (h.partials k hk).trans (ho k hk),
    fun _ => h.stack, fun _ _ _ => h.curPartial⟩, fun _ => h.scopes⟩
  enterCall := fun hs _ => hs.of_eq rfl
  enterPartial := fun hs _ h => hs.of_eq h.minor.locals
  leaveOk := by
    intro s t name content hs hr ht
    obtain ⟨r, h1⟩ := hr
    obtain ⟨evs, he⟩ := r.grow
    refine ⟨ht.of_eq rfl, ⟨⟨.enter (siteOf name content) :: evs ++ [.leave], ?_⟩, r.blocks, ?_, ?_⟩, h1⟩
    · show t.trace ++ _ = _
      rw [he]
      simp [RS.enter]
    · intro _
      show t.stack.tail = _
      rw [r.stack rfl]; rfl
    · intro _ ho hc
      refine r.cur rfl ho fun e h => ?_
      have := hc (.enter (siteOf name content) :: e ++ [.leave]) (by
        show t.trace ++ _ = _
        rw [h]; simp [RS.enter])
      intro h; exact this (by simp [h])
  leaveErr := by
    intro s t site hs hr ht
    obtain ⟨evs, he⟩ := hr.1.grow
    exact ⟨ht.of_eq rfl, ⟨⟨.enter site :: evs ++ [.leave], by
      show t.trace ++ _ = _
      rw [he]; simp [RS.enter]⟩, hr.1.blocks, fun h => by (cases h), fun h => by (cases h)⟩, fun h => by cases h⟩
  push := fun hs => hs.of_eq rfl
  pushErr := fun h => ⟨⟨h.1.grow, h.1.blocks, fun h => by (cases h), fun h => by (cases h)⟩, fun h => by cases h⟩
  leavePartial := by
    intro s t0 t u name sc hs hn hst hr ht hr' hu
    obtain ⟨ps, files, rfl, hp, hf⟩ := hst
    obtain ⟨r, h1⟩ := hr
    obtain ⟨r', h2⟩ := hr'
    obtain ⟨x, hx⟩ := r.grow
    obtain ⟨y, hy⟩ := r'.grow
    have htr : u.leavePartial.trace = s.trace ++ (.enter (.part name) :: x ++ y ++ [.leave]) := by
      show u.trace ++ _ = _
      rw [hy]
      show t.trace ++ _ ++ _ = _
      rw [hx]; simp [RS.enter]
    have ho : OnlyBlock s → OnlyBlock { s.enter (.part name) with partials := ps, curPartial := files } :=
      fun ho k hk => (hp k hk).trans (ho k hk)
    refine ⟨hu.of_eq rfl, ⟨⟨_, htr⟩, fun h => r'.blocks (r.blocks (ho h)), ?_, ?_⟩, ?_⟩
    · intro _
      show u.stack.tail = _
      rw [r'.stack rfl]
      show t.stack.tail = _
      rw [r.stack rfl]; rfl
    · intro _ h0 hc
      have hcalm := hc _ htr
      simp only [List.cons_append, List.mem_cons, List.mem_append, not_or, List.not_mem_nil] at hcalm
      have hcur : u.curPartial = files := by
        rw [r'.cur rfl (r.blocks (ho h0)) ?_]
        · show t.curPartial = _
          rw [r.cur rfl (ho h0) ?_]
          intro e he
          rw [hx, List.append_cancel_left_eq] at he
          exact he ▸ hcalm.2.1.1
        · intro e he
          rw [hy, List.append_cancel_left_eq] at he
          exact he ▸ hcalm.2.1.2
      rcases hf rfl with ⟨_, h3⟩ | ⟨f, rfl, _⟩
      · have : name ≠ nmPartialBlock := by
          rintro rfl
          exact hcalm.1 rfl
        rw [hp name this, h0 name this] at h3
        cases h3
      · show u.curPartial.tail = _
        rw [hcur]; rfl
    · intro _
      show u.scopes.tail = _
      rw [h2 rfl]
      exact h1 rfl
  leavePartialErr := by
    intro s t0 t name ok hs hn hst hr ht
    obtain ⟨ps, files, rfl, hp, hf⟩ := hst
    obtain ⟨evs, he⟩ := hr.1.grow
    exact ⟨ht.of_eq rfl, ⟨⟨.enter (.part name) :: evs ++ [.leave], by
      show t.trace ++ _ = _
      rw [he]; simp [RS.enter]⟩, fun ho => hr.1.blocks fun k hk => (hp k hk).trans (ho k hk),
      fun h => by (cases h), fun h => by (cases h)⟩, fun h => by cases h⟩
  inner := fun hs n h e => by simp [RS.inner, RS.init, assoc] at e
  after := by
    intro b s t scs hs hr ht
    exact ⟨hs.of_eq rfl, ⟨hr.1.grow, fun h => h, fun _ => rfl, fun _ _ _ => rfl⟩, fun _ => rfl⟩

theorem writeStr_same (E : Env) (c : Str) (b : Bool) (s : RS) (b' : Bool) :
    (writeStr E c b s).2.scopes = s.scopes ∧ Rest b' s (writeStr E c b s).2 := by
  rw [writeStr_eq]
  split <;> exact ⟨rfl, .of_eq _ rfl rfl rfl rfl⟩

/-- The local helpers stay balanced. -/
def locRel : Rel := ⟨LocalsBalanced, fun _ s t => Rest false s t⟩

theorem Rest.transF {s t u : RS} (h : Rest false s t) (h' : Rest false t u) : Rest false s u := by
  obtain ⟨x, hx⟩ := h.grow
  obtain ⟨y, hy⟩ := h'.grow
  exact ⟨⟨x ++ y, by rw [hy, hx, List.append_assoc]⟩, fun k => h'.blocks (h.blocks k),
    fun h => by (cases h), fun h => by (cases h)⟩

def locBase (reg : Reg) : FrameBase reg where
  toRel := locRel
  refl := fun _ s => .refl _ s
  trans := fun h h' => h.transF h'
  minor := fun hs h => ⟨hs.of_eq h.locals, ((balBase reg).minor hs h).2.1.weaken⟩
  enterCall := fun hs _ => hs.of_eq rfl
  enterPartial := fun hs _ h => hs.of_eq h.minor.locals
  leaveOk := by
    intro s t name content hs hr ht
    have := ((balBase reg).leaveErr (site := siteOf name content) hs ⟨hr, fun h => by cases h⟩ ht).2.1
    exact ⟨ht.of_eq rfl, this.grow, this.blocks, fun h => by (cases h), fun h => by (cases h)⟩
  leaveErr := by
    intro s t site hs hr ht
    exact ⟨ht.of_eq rfl, ((balBase reg).leaveErr (site := site) hs ⟨hr, fun h => by cases h⟩ ht).2.1⟩
  push := fun hs => hs.of_eq rfl
  pushErr := fun h => ⟨h.grow, h.blocks, fun h => by (cases h), fun h => by (cases h)⟩
  leavePartial := by
    intro s t0 t u name sc hs hc hst hr ht hr' hu
    have : Rest false t0 u := hr.transF ⟨hr'.grow, hr'.blocks, fun h => by (cases h), fun h => by (cases h)⟩
    have := ((balBase reg).leavePartialErr hs hc hst ⟨this, fun h => by cases h⟩ hu).2.1
    exact ⟨hu.of_eq rfl, this.grow, this.blocks, fun h => by (cases h), fun h => by (cases h)⟩
  leavePartialErr := by
    intro s t0 t name ok hs hc hst hr ht
    exact ((balBase reg).leavePartialErr hs hc hst ⟨hr, fun h => by cases h⟩ ht).imp id fun h => h.1
  inner := fun hs n h e => by simp [RS.inner, RS.init, assoc] at e
  after := by
    intro b s t scs hs hr ht
    exact ⟨hs.of_eq rfl, hr.grow, fun h => h, fun h => by (cases h), fun h => by (cases h)⟩

/-- The end of a body that has failed. -/
def Failed (s : RS) {α : Type} (x : Res α × RS) : Prop := LocalsBalanced x.2 ∧ Rest false s x.2

theorem Failed.of_rest {s t : RS} {α : Type} {x : Res α × RS} (h : Rest false s t) (h' : Failed t x) : Failed s x :=
  ⟨h'.1, h.transF h'.2⟩

theorem Failed.of_rest' {s t : RS} {α : Type} {x : Res α × RS} (h' : Failed t x) (h : Rest false s t) : Failed s x :=
  ⟨h'.1, h.transF h'.2⟩

theorem runs_push (S : Sem) (E : Env) (sc : Scope) (k : Prog) (s : RS) :
    run S E (.pushScope sc k) s = run S E k { s with scopes := sc :: s.scopes } := by
  conv => lhs; unfold run
  rfl
theorem runs_pop (S : Sem) (E : Env) (k : Option Scope → Prog) (s : RS) :
    run S E (.popScope k) s = run S E (k s.scopes.head?) { s with scopes := s.scopes.tail } := by
  conv => lhs; unfold run
  rfl
theorem runs_register (S : Sem) (E : Env) (n : Str) (g : HelperFn) (k : Prog) (s : RS) :
    run S E (.registerLocal n g k) s = run S E k { s with locals := assocInsert n g s.locals } := by
  conv => lhs; unfold run
  rfl
theorem runs_unregister (S : Sem) (E : Env) (n : Str) (k : Prog) (s : RS) :
    run S E (.unregisterLocal n k) s = run S E k { s with locals := assocErase n s.locals } := by
  conv => lhs; unfold run
  rfl
theorem runs_log (S : Sem) (E : Env) (l m : Str) (k : Prog) (s : RS) :
    run S E (.log l m k) s = run S E k { s with logs := s.logs ++ [(l, m)] } := by
  conv => lhs; unfold run
  rfl
theorem runs_peek (S : Sem) (E : Env) (k : View → Prog) (s : RS) :
    run S E (.peek k) s = run S E (k (view E s)) s := by
  conv => lhs; unfold run
  rfl

theorem neverReturns_locals {reg : Reg} {S : Sem} (H : balRel.SemOk reg S) {E : Env} (hE : E.reg = reg)
    (p : Prog) : NeverReturns p → ∀ s, LocalsBalanced s → Failed s (run S E p s) := by
  have H' : locRel.SemOk reg S :=
    ⟨fun E h n t s hs => ⟨(H.renderNode E h n t s hs).1, (H.renderNode E h n t s hs).2.1.weaken⟩,
     fun E h c s hs => ⟨(H.statement E h c s hs).1, (H.statement E h c s hs).2.1.weaken⟩,
     fun E h c s hs => ⟨(H.call E h c s hs).1, (H.call E h c s hs).2.1.weaken⟩⟩
  have hb : ∀ {α : Type} {m : RM α} {f : α → RM (Option Value)} {s : RS}, locRel.OkAt m s →
      (∀ x t, LocalsBalanced t → Failed t (f x t)) → Failed s ((m >>= f) s) := by
    intro α m f s hm hf
    rw [RM.bind_def]
    unfold Rel.OkAt at hm
    rcases hx : m s with ⟨r, u⟩
    rw [hx] at hm
    cases r with
    | ok x => exact (hf x u hm.1).of_rest hm.2
    | err e => exact hm
    | panic => exact hm
    | fuel => exact hm
  have hc : ∀ {α : Type} {m : RM α} {f : Except RenderErr α → RM (Option Value)} {s : RS}, locRel.OkAt m s →
      (∀ x t, LocalsBalanced t → Failed t (f x t)) → Failed s (RM.catchErr m f s) := by
    intro α m f s hm hf
    unfold RM.catchErr
    unfold Rel.OkAt at hm
    rcases hx : m s with ⟨r, u⟩
    rw [hx] at hm
    cases r with
    | ok x => exact (hf _ u hm.1).of_rest hm.2
    | err e => exact (hf _ u hm.1).of_rest hm.2
    | panic => exact hm
    | fuel => exact hm
  induction p with
  | ret v => intro h; exact h.elim
  | fail e => exact fun _ s hs => ⟨hs, .refl _ _⟩
  | panic => exact fun _ s hs => ⟨hs, .refl _ _⟩
  | write c k ih => intro h s hs; unfold run; exact hc ((locBase reg).writeStr E _ _ s hs) fun r t => ih _ (h _) t
  | writeEscaped c k ih => intro h s hs; unfold run; exact hc ((locBase reg).writeStr E _ _ s hs) fun r t => ih _ (h _) t
  | outWrite c k ih => intro h s hs; unfold run; exact hb ((locBase reg).rawWrite E _ s hs) fun r t => ih _ (h _) t
  | template n k ih => intro h s hs; unfold run; exact hc ((locBase reg).template H' hE n s hs) fun r t => ih _ (h _) t
  | render n k ih => intro h s hs; unfold run; exact hc ((locBase reg).renderAll H' hE n s hs) fun r t => ih _ (h _) t
  | inverse n k ih => intro h s hs; unfold run; exact hc ((locBase reg).inverse H' hE n s hs) fun r t => ih _ (h _) t
  | buffer n k ih => intro h s hs; unfold run; exact hc ((locBase reg).buffer H' hE n s hs) fun r t => ih _ (h _) t
  | once f c v k ih => intro h s hs; unfold run; exact hb ((locBase reg).once H' hE f c v s hs) fun r t => ih _ (h _) t
  | evaluate p k ih => intro h s hs; unfold run; exact hb ((locBase reg).evaluate E p s hs) fun r t => ih _ (h _) t
  | pushScope sc k ih =>
      intro h s hs; rw [runs_push]
      exact Failed.of_rest' (ih h _ (hs.of_eq rfl)) (.of_eq _ rfl rfl rfl rfl)
  | popScope k ih =>
      intro h s hs; rw [runs_pop]
      exact Failed.of_rest' (ih _ (h _) _ (hs.of_eq rfl)) (.of_eq _ rfl rfl rfl rfl)
  | scopeMut f k ih =>
      intro h s hs; unfold run
      refine hb (m := RM.get) ⟨hs, .refl _ _⟩ fun r t ht => ?_
      refine hb (m := RM.modify _) ?_ fun _ u => ih _ (h _) u
      unfold Rel.OkAt
      simp only [RM.modify]
      split
      · exact ⟨ht, .refl _ _⟩
      · exact ⟨ht, .of_eq _ rfl rfl rfl rfl⟩
  | registerLocal n g k ih1 ih2 => exact fun h => h.elim
  | unregisterLocal n k ih =>
      intro h s hs; rw [runs_unregister]
      refine Failed.of_rest' (ih h _ ?_) (.of_eq _ rfl rfl rfl rfl)
      intro m f hf
      by_cases hm : m = n
      · subst hm; rw [assoc_erase_self] at hf; cases hf
      · rw [assoc_erase_ne _ hm] at hf; exact hs m f hf
  | peek k ih => intro h s hs; rw [runs_peek]; exact ih _ (h _) s hs
  | log l m k ih =>
      intro h s hs; rw [runs_log]
      exact Failed.of_rest' (ih h _ (hs.of_eq rfl)) (.of_eq _ rfl rfl rfl rfl)

/-- The end of a body that has pushed scopes on top of `base`. -/
def Done (base : List Scope) (s : RS) {α : Type} (x : Res α × RS) : Prop :=
  LocalsBalanced x.2 ∧ Rest x.1.isOk s x.2 ∧ (x.1.isOk = true → x.2.scopes = base)

theorem Done.of_rest {base : List Scope} {s t : RS} {α : Type} {x : Res α × RS} (h : Rest true s t) (h' : Done base t x) :
    Done base s x := ⟨h'.1, h.trans h'.2.1, h'.2.2⟩

theorem Done.of_rest' {base : List Scope} {s t : RS} {α : Type} {x : Res α × RS} (h' : Done base t x) (h : Rest true s t) :
    Done base s x := ⟨h'.1, h.trans h'.2.1, h'.2.2⟩

/-- Running a body that has pushed `d` scopes on top of `base`. -/
theorem balanced_run {reg : Reg} {S : Sem} (H : balRel.SemOk reg S) {E : Env} (hE : E.reg = reg) (p : Prog) :
    ∀ d, Balanced p d → ∀ s, LocalsBalanced s → ∀ base, s.scopes.drop d = base → d ≤ s.scopes.length →
    Done base s (run S E p s) := by
  -- a step that keeps scopes and stack when it succeeds
  have hb : ∀ {α : Type} {m : RM α} {f : α → RM (Option Value)} {s : RS} {d : Nat} {base : List Scope},
      balRel.OkAt m s → s.scopes.drop d = base → d ≤ s.scopes.length →
      (∀ x t, LocalsBalanced t → t.scopes.drop d = base → d ≤ t.scopes.length → Done base t (f x t)) →
      Done base s ((m >>= f) s) := by
    intro α m f s d base hm h1 h2 hf
    rw [RM.bind_def]
    unfold Rel.OkAt at hm
    rcases hx : m s with ⟨r, u⟩
    rw [hx] at hm
    cases r with
    | ok x =>
        obtain ⟨hm1, r1, e1⟩ := hm
        have e1 := e1 rfl
        exact Done.of_rest r1 (hf x u hm1 (by rw [e1]; exact h1) (by rw [e1]; exact h2))
    | err e => exact ⟨hm.1, hm.2.1, fun h => by cases h⟩
    | panic => exact ⟨hm.1, hm.2.1, fun h => by cases h⟩
    | fuel => exact ⟨hm.1, hm.2.1, fun h => by cases h⟩
  -- a step whose error is either impossible to swallow or harmless
  have hc : ∀ {α : Type} {m : RM α} {f : Except RenderErr α → RM (Option Value)} {s : RS} {d : Nat} {base : List Scope},
      balRel.OkAt m s → s.scopes.drop d = base → d ≤ s.scopes.length →
      (∀ x t, LocalsBalanced t → t.scopes.drop d = base → d ≤ t.scopes.length → Done base t (f (.ok x) t)) →
      (∀ e t, m s = (.err e, t) → LocalsBalanced t → Rest false s t → Done base s (f (.error e) t)) →
      Done base s (RM.catchErr m f s) := by
    intro α m f s d base hm h1 h2 hf he
    unfold RM.catchErr
    unfold Rel.OkAt at hm
    rcases hx : m s with ⟨r, u⟩
    rw [hx] at hm
    cases r with
    | ok x =>
        obtain ⟨hm1, r1, e1⟩ := hm
        have e1 := e1 rfl
        exact Done.of_rest r1 (hf x u hm1 (by rw [e1]; exact h1) (by rw [e1]; exact h2))
    | err e => exact he e u hx hm.1 hm.2.1
    | panic => exact ⟨hm.1, hm.2.1, fun h => by cases h⟩
    | fuel => exact ⟨hm.1, hm.2.1, fun h => by cases h⟩
  have hn : ∀ {p : Prog}, NeverReturns p → ∀ s t, LocalsBalanced t → Rest false s t → ∀ (b : List Scope),
      Done b s (run S E p t) := by
    intro p hp s t ht hr b
    have := (neverReturns_locals H hE p hp t ht).of_rest hr
    rcases hx : run S E p t with ⟨r, u⟩
    rw [hx] at this
    cases r with
    | ok a => exact (neverReturns_run S E p hp t a u hx).elim
    | err e => exact ⟨this.1, this.2, fun h => by cases h⟩
    | panic => exact ⟨this.1, this.2, fun h => by cases h⟩
    | fuel => exact ⟨this.1, this.2, fun h => by cases h⟩
  induction p with
  | ret v =>
      intro d h s hs base h1 h2
      cases (show d = 0 from h)
      exact ⟨hs, .refl _ _, fun _ => h1⟩
  | fail e => exact fun d h s hs base h1 h2 => ⟨hs, .refl _ _, fun h => by cases h⟩
  | panic => exact fun d h s hs base h1 h2 => ⟨hs, .refl _ _, fun h => by cases h⟩
  | write c k ih =>
      intro d h s hs base h1 h2; unfold run
      refine hc ((balBase reg).writeStr E _ _ s hs) h1 h2 (fun x t ht => ih _ d (h _) t ht base) ?_
      intro e t ht hl _
      obtain ⟨e1, e2⟩ := writeStr_same E c false s true; rw [ht] at e1 e2
      exact Done.of_rest e2 (ih (toHelper (.error e)) d (h _) t hl base (by rw [e1]; exact h1) (by rw [e1]; exact h2))
  | writeEscaped c k ih =>
      intro d h s hs base h1 h2; unfold run
      refine hc ((balBase reg).writeStr E _ _ s hs) h1 h2 (fun x t ht => ih _ d (h _) t ht base) ?_
      intro e t ht hl _
      obtain ⟨e1, e2⟩ := writeStr_same E c true s true; rw [ht] at e1 e2
      exact Done.of_rest e2 (ih (toHelper (.error e)) d (h _) t hl base (by rw [e1]; exact h1) (by rw [e1]; exact h2))
  | outWrite c k ih =>
      intro d h s hs base h1 h2; unfold run
      exact hb ((balBase reg).rawWrite E _ s hs) h1 h2 fun x t ht => ih _ d (h _) t ht base
  | template n k ih =>
      intro d h s hs base h1 h2; unfold run
      exact hc ((balBase reg).template H hE n s hs) h1 h2 (fun x t ht => ih _ d h.1 t ht base)
        fun e t _ hl hr => hn (h.2 _) s t hl hr _
  | render n k ih =>
      intro d h s hs base h1 h2; unfold run
      exact hc ((balBase reg).renderAll H hE n s hs) h1 h2 (fun x t ht => ih _ d h.1 t ht base)
        fun e t _ hl hr => hn (h.2 _) s t hl hr _
  | inverse n k ih =>
      intro d h s hs base h1 h2; unfold run
      exact hc ((balBase reg).inverse H hE n s hs) h1 h2 (fun x t ht => ih _ d (h.1 _) t ht base)
        fun e t _ hl hr => hn (h.2 _) s t hl hr _
  | buffer n k ih =>
      intro d h s hs base h1 h2; unfold run
      refine hc ((balBase reg).buffer H hE n s hs) h1 h2 (fun x t ht => ih _ d (h _) t ht base) ?_
      intro e t ht hl hr
      have e0 : (buffer S E n s).2 = t := by rw [ht]
      rw [buffer_eq, nested_state] at e0
      have e1 : t.scopes = s.scopes := by rw [← e0]; rfl
      have e2 : Rest true s t := ⟨hr.grow, hr.blocks, fun _ => by rw [← e0]; rfl, fun _ _ _ => by rw [← e0]; rfl⟩
      exact Done.of_rest e2 (ih (toHelper (.error e)) d (h _) t hl base (by rw [e1]; exact h1) (by rw [e1]; exact h2))
  | once f c v k ih =>
      intro d h s hs base h1 h2; unfold run
      exact hb ((balBase reg).once H hE f c v s hs) h1 h2 fun x t ht => ih _ d (h _) t ht base
  | evaluate p k ih =>
      intro d h s hs base h1 h2; unfold run
      exact hb ((balBase reg).evaluate E p s hs) h1 h2 fun x t ht => ih _ d (h _) t ht base
  | pushScope sc k ih =>
      intro d h s hs base h1 h2
      rw [runs_push]
      exact Done.of_rest' (ih (d + 1) h { s with scopes := sc :: s.scopes } (hs.of_eq rfl) base h1 (Nat.succ_le_succ h2)) (.of_eq _ rfl rfl rfl rfl)
  | popScope k ih =>
      intro d h s hs base h1 h2
      obtain ⟨hd, h⟩ := h
      cases hsc : s.scopes with
      | nil => rw [hsc] at h2; simp at h2; omega
      | cons sc r =>
          have := ih s.scopes.head? (d - 1) (h _) { s with scopes := s.scopes.tail } hs base
            (by rw [← h1, hsc]; obtain ⟨d, rfl⟩ : ∃ k, d = k + 1 := ⟨d - 1, by omega⟩; rfl)
            (by rw [hsc] at h2 ⊢; simp at h2 ⊢; omega)
          rw [runs_pop]
          exact Done.of_rest' this (.of_eq _ rfl rfl rfl rfl)
  | scopeMut f k ih =>
      intro d h s hs base h1 h2
      obtain ⟨hd, h⟩ := h
      cases hsc : s.scopes with
      | nil => rw [hsc] at h2; simp at h2; omega
      | cons sc r =>
          have := ih s.scopes.head? d (h _) { s with scopes := f sc :: r } hs base
            (by rw [← h1, hsc]; obtain ⟨d, rfl⟩ : ∃ k, d = k + 1 := ⟨d - 1, by omega⟩; rfl)
            (by rw [hsc] at h2; exact h2)
          have e : run S E (.scopeMut f k) s = run S E (k s.scopes.head?) { s with scopes := f sc :: r } := by
            conv => lhs; unfold run
            simp only [RM.bind_def, RM.get, RM.modify, hsc]
          rw [e]
          exact Done.of_rest' this (.of_eq _ rfl rfl rfl rfl)
  | registerLocal n g k ih1 ih2 =>
      intro d h s hs base h1 h2
      rw [runs_register]
      refine Done.of_rest' (ih2 d h.2 _ ?_ base h1 h2) (.of_eq _ rfl rfl rfl rfl)
      intro m f hf
      by_cases hm : m = n
      · subst hm; rw [assoc_insert_self] at hf; cases hf; exact h.1
      · rw [assoc_insert_ne _ _ hm] at hf; exact hs m f hf
  | unregisterLocal n k ih =>
      intro d h s hs base h1 h2
      rw [runs_unregister]
      refine Done.of_rest' (ih d h _ ?_ base h1 h2) (.of_eq _ rfl rfl rfl rfl)
      intro m f hf
      by_cases hm : m = n
      · subst hm; rw [assoc_erase_self] at hf; cases hf
      · rw [assoc_erase_ne _ hm] at hf; exact hs m f hf
  | peek k ih => intro d h s hs base h1 h2; rw [runs_peek]; exact ih _ d (h _) s hs base h1 h2
  | log l m k ih =>
      intro d h s hs base h1 h2; rw [runs_log]
      exact Done.of_rest' (ih d h { s with logs := s.logs ++ [(l, m)] } (hs.of_eq rfl) base h1 h2) (.of_eq _ rfl rfl rfl rfl)

/-- The frame of a registry whose helpers are all balanced. -/
def balFrame (reg : Reg) (hr : BalancedReg reg) : Frame reg where
  toFrameBase := balBase reg
  helper := by
    intro S H E hE h hh ctx content s hs
    have hb : BalancedHelper h := by
      rcases hh with ⟨n, e⟩ | e | e | e
      · exact hr.helpers n h e
      · exact hr.link h e
      · exact hr.helperMissing h e
      · exact hr.blockHelperMissing h e
    exact balanced_run H hE _ 0 (hb ctx content) s hs s.scopes rfl (Nat.zero_le _)
  localHelper := by
    intro S H E hE s hs n h e ctx content t ht
    exact balanced_run H hE _ 0 (hs n h e ctx content) t ht t.scopes rfl (Nat.zero_le _)

/-- C27: rendering a node successfully, with balanced helpers, leaves the scopes and the call stack
as they were. -/
theorem C27_node (E : Env) (hr : BalancedReg E.reg) (n : Nat) (node : Node) (trim : TrimState) (s t : RS)
    (hl : LocalsBalanced s) (h : (sem n).renderNode E node trim s = (.ok (), t)) :
    t.scopes = s.scopes ∧ t.stack = s.stack := by
  have := ((balFrame E.reg hr).semOk n).renderNode E rfl node trim s hl
  unfold Rel.OkAt at this
  rw [h] at this
  exact ⟨this.2.2 rfl, this.2.1.stack rfl⟩

/-- C30: rendering a node successfully, with balanced helpers, leaves the current partial as it was,
unless a `{{> @partial-block}}` was rendered. -/
theorem restored_node (E : Env) (hr : BalancedReg E.reg) (n : Nat) (node : Node) (trim : TrimState) (s t : RS)
    (hl : LocalsBalanced s) (ho : OnlyBlock s) (hc : Calm s t)
    (h : (sem n).renderNode E node trim s = (.ok (), t)) : t.curPartial = s.curPartial := by
  have := ((balFrame E.reg hr).semOk n).renderNode E rfl node trim s hl
  unfold Rel.OkAt at this
  rw [h] at this
  exact this.2.1.cur rfl ho hc

theorem restored_statement (E : Env) (hr : BalancedReg E.reg) (n : Nat) (c : Call) (s t : RS) (v : Option Value)
    (hl : LocalsBalanced s) (h : (sem n).statement E c s = (.ok v, t)) :
    LocalsBalanced t ∧ Rest true s t ∧ t.scopes = s.scopes := by
  have := ((balFrame E.reg hr).semOk n).statement E rfl c s hl
  unfold Rel.OkAt at this
  rw [h] at this
  exact ⟨this.1, this.2.1, this.2.2 rfl⟩

theorem restored (E : Env) (hr : BalancedReg E.reg) (n : Nat) (node : Node) (trim : TrimState) (s t : RS)
    (hl : LocalsBalanced s) (h : (sem n).renderNode E node trim s = (.ok (), t)) :
    LocalsBalanced t ∧ Rest true s t ∧ t.scopes = s.scopes := by
  have := ((balFrame E.reg hr).semOk n).renderNode E rfl node trim s hl
  unfold Rel.OkAt at this
  rw [h] at this
  exact ⟨this.1, this.2.1, this.2.2 rfl⟩

/-- C27: a whole template. -/
theorem C27_render (n : Nat) (r : Reg) (hr : BalancedReg r) (sink : Sink) (name : Str) (doc : Node)
    (data : Value) (t : RS) (h : renderTo n r sink name doc data = (.ok (), t)) :
    t.scopes = [] ∧ t.stack = [] := by
  have := (balFrame r hr).renderAll ((balFrame r hr).semOk n) (E := ⟨r, name, data, sink⟩) rfl doc
    (RS.init []) (fun n h e => by simp [RS.init, assoc] at e)
  unfold Rel.OkAt at this
  unfold renderTo at h
  rw [h] at this
  exact ⟨this.2.2 rfl, this.2.1.stack rfl⟩

end

section
set_option linter.unusedSectionVars false
variable [Host]

theorem bal_tmpl (n : Node) (k : Prog) (d : Nat) (h : Balanced k d) : Balanced (.tmpl n k) d :=
  ⟨h, fun _ => trivial⟩

theorem bal_arity (c : Ctx) (lo hi : Nat) (k : Prog) (d : Nat) (h : Balanced k d) :
    Balanced (c.withArity lo hi k) d := by
  unfold Ctx.withArity
  split
  · exact h
  · trivial

theorem bal_tryInverse (n : Node) : Balanced (.tryInverse n) 0 := by
  refine ⟨fun m => ?_, fun _ => trivial⟩
  cases m with
  | none => rfl
  | some m => exact bal_tmpl _ _ _ rfl

theorem bal_eachObj (n : Node) : ∀ l i, Balanced (eachObj n i l) 1 := by
  intro l
  induction l with
  | nil => intro i; exact ⟨Nat.zero_lt_one, fun _ => rfl⟩
  | cons x l ih =>
      obtain ⟨k, v⟩ := x
      intro i; exact ⟨Nat.zero_lt_one, fun _ => bal_tmpl _ _ _ (ih _)⟩

theorem bal_eachArr (n : Node) (len : Nat) : ∀ l i, Balanced (eachArr n len i l) 1 := by
  intro l
  induction l with
  | nil => intro i; exact ⟨Nat.zero_lt_one, fun _ => rfl⟩
  | cons v l ih => intro i; exact ⟨Nat.zero_lt_one, fun _ => bal_tmpl _ _ _ (ih _)⟩

theorem bal_log (lvl : Str) : ∀ l, Balanced (logLines lvl l) 0 := by
  intro l
  induction l with
  | nil => rfl
  | cons x l ih => exact ih

theorem bal_cmp (f : F64 → F64 → Bool) : BalancedHelper (hCmp f) := by
  intro ctx content
  refine bal_arity _ _ _ _ _ ?_
  split
  · trivial
  · split
    · trivial
    · split
      · rfl
      · trivial

/-- C27: the built-in helpers pop what they push and pass errors on. -/
theorem C27_builtins (name : Str) (h : HelperFn) (hh : (name, h) ∈ builtins) : BalancedHelper h := by
  simp only [builtins, List.mem_cons, Prod.mk.injEq, List.not_mem_nil, or_false] at hh
  rcases hh with ⟨_, rfl⟩ | ⟨_, rfl⟩ | ⟨_, rfl⟩ | ⟨_, rfl⟩ | ⟨_, rfl⟩ | ⟨_, rfl⟩ | ⟨_, rfl⟩ | ⟨_, rfl⟩ |
    ⟨_, rfl⟩ | ⟨_, rfl⟩ | ⟨_, rfl⟩ | ⟨_, rfl⟩ | ⟨_, rfl⟩ | ⟨_, rfl⟩ | ⟨_, rfl⟩ | ⟨_, rfl⟩
  · intro ctx content
    refine bal_arity _ _ _ _ _ ?_
    split
    · trivial
    · split
      · split
        · exact bal_tmpl _ _ _ rfl
        · exact bal_tryInverse _
      · rfl
  · intro ctx content
    refine bal_arity _ _ _ _ _ ?_
    split
    · split
      · trivial
      · split
        · exact bal_tmpl _ _ _ rfl
        · exact bal_tryInverse _
    · rfl
  · exact bal_cmp _
  · exact bal_cmp _
  · exact bal_cmp _
  · exact bal_cmp _
  · exact bal_cmp _
  · exact bal_cmp _
  · intro ctx content
    refine bal_arity _ _ _ _ _ ?_
    simp only
    split
    · exact bal_log _ _
    · exact bal_log _ _
    · trivial
  · intro ctx content
    refine bal_arity _ _ _ _ _ ?_
    split
    · trivial
    · split
      · split
        · rfl
        · trivial
      · trivial
      · trivial
  · intro ctx content
    refine bal_arity _ _ _ _ _ ?_
    split
    · rfl
    · trivial
  · intro ctx content
    refine bal_arity _ _ _ _ _ ?_
    split
    · rfl
    · trivial
  · intro ctx content
    refine bal_arity _ _ _ _ _ ?_
    split
    · rfl
    · trivial
  · intro ctx content
    refine bal_arity _ _ _ _ _ ?_
    split
    · rfl
    · rfl
    · split
      · exact ⟨Nat.zero_lt_one, fun _ => bal_tmpl _ _ _ ⟨Nat.zero_lt_one, fun _ => rfl⟩⟩
      · rfl
  · intro ctx content
    refine bal_arity _ _ _ _ _ ?_
    split
    · split
      · trivial
      · show Balanced _ 1
        split
        · exact bal_eachObj _ _ _
        · exact bal_eachArr _ _ _ _
        · exact ⟨Nat.zero_lt_one, fun _ => rfl⟩
    · rfl
  · intro ctx content
    refine bal_arity _ _ _ _ _ ?_
    split
    · trivial
    · rfl

theorem balancedReg_new : BalancedReg Reg.new :=
  ⟨fun n h e => C27_builtins n h (assoc_mem e), fun h e => by simp [Reg.new] at e,
   fun h e => by simp [Reg.new] at e, fun h e => by simp [Reg.new] at e⟩

/-- C27: with the built-in helpers only, no assumption is needed. -/
theorem C27_default (n : Nat) (sink : Sink) (name : Str) (templates : List (Str × Template)) (doc : Node)
    (data : Value) (t : RS)
    (h : renderTo n { Reg.new with templates } sink name doc data = (.ok (), t)) :
    t.scopes = [] ∧ t.stack = [] :=
  C27_render n { Reg.new with templates } ⟨balancedReg_new.helpers, balancedReg_new.link, balancedReg_new.helperMissing,
    balancedReg_new.blockHelperMissing⟩ sink name doc data t h

end
end Bracket.Props

namespace Bracket.Props
section Witness
attribute [local instance] exHost

/-- Render a source with data: success?, number of scopes and of calls left, and the text. -/
def balRun (r : Reg) (src : Str) (data : Value) : Option (Bool × Nat × Nat × Str) :=
  match compile src ⟨c!"m", 0, 0⟩ with
  | .ok doc =>
      let x := renderTo 40 r stringSink c!"m" doc data
      some (x.1.isOk, x.2.scopes.length, x.2.stack.length, outText x.2.out)
  | _ => none

-- nested blocks and a partial, all balanced
example : balRun (Reg.new.insert c!"p" c!"<{{this}}>").2
    c!"{{#each l}}{{#with this}}{{> p this}}{{/with}}{{/each}}"
    (.obj [(c!"l", .arr [.str c!"a", .str c!"b"])]) = some (true, 0, 0, c!"<a><b>") := by decide +kernel

/-- A helper that swallows the error of its block. -/
def swallow : HelperFn := fun _ t =>
  match t with
  | some n => .template n fun _ => .ret none
  | none => .ret none

-- the assumption on helpers is needed: the failed partial stays on the call stack
example : balRun ((Reg.new.insert c!"p" c!"{{> q}}").2.insertHelper c!"swallow" swallow)
    c!"{{#swallow}}{{> p}}{{/swallow}}" .null = some (true, 1, 2, []) := by decide +kernel
end Witness
end Bracket.Props
