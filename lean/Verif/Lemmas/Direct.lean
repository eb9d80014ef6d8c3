import Verif.Spec.Direct
import Verif.Props.Calls
import Verif.Lemmas.Basic

/-! Two renders of the same template to different destinations, or with and without strict mode: the first
does what the second does until it stops. -/

set_option linter.unusedSectionVars false

namespace Bracket.Follow
open Spec

variable {F D : Prop}

/-- The local helpers are prompt and no write has failed. -/
structure Inv (s : RS) : Prop where
  locals : ∀ n h, assoc n s.locals = some h → ∀ c t, Prompt (h c t)
  clean : Clean s.out

theorem clean_snoc {ws : List Wr} (h : Clean ws) (x : Str) (n : Nat) : Clean (ws ++ [⟨x, .ok n⟩]) := by
  intro w hw
  rcases List.mem_append.1 hw with hw | hw
  · exact h w hw
  · cases List.mem_singleton.1 hw; exact ⟨n, rfl⟩

/-- The first render has stopped early: it failed, because a write failed (then `F`) or because of strict
mode (then `D`). -/
def Stop (F D : Prop) {α : Type} (r : Res α) (t : RS) : Prop :=
  (∃ e, r = .err e ∧ ((F ∧ ¬ Clean t.out) ∨ D)) ∨ (D ∧ r = .panic)

/-- How the two renders may end. -/
def Ends (F D : Prop) {α : Type} (x y : Res α × RS) : Prop :=
  (∃ r t vs, x = (r, t) ∧ y = (r, { t with out := vs }) ∧ chunks t.out = chunks vs ∧ Inv t) ∨
  (Stop F D x.1 x.2 ∧ chunks x.2.out <+: chunks y.2.out)

/-- The destination only grows. -/
def Grow {α : Type} (m : RM α) : Prop := ∀ s, chunks s.out <+: chunks (m s).2.out

def At (F D : Prop) {α : Type} (m m' : RM α) (s : RS) (ws : List Wr) : Prop :=
  Inv s → chunks s.out = chunks ws → Ends F D (m s) (m' { s with out := ws })

def Fol (F D : Prop) {α : Type} (m m' : RM α) : Prop := Grow m' ∧ ∀ s ws, At F D m m' s ws

theorem Fol.at {α : Type} {m m' : RM α} {s : RS} {ws : List Wr} (h : Fol F D m m') : At F D m m' s ws := h.2 s ws

theorem self_out (s : RS) : { s with out := s.out } = s := rfl

theorem leaf {α : Type} {r : Res α} : Fol F D (fun s => (r, s)) (fun s => (r, s)) :=
  ⟨fun _ => List.prefix_rfl, fun s ws hs h => .inl ⟨r, s, ws, rfl, rfl, h, hs⟩⟩

theorem pure {α : Type} {a : α} : Fol F D (Pure.pure a : RM α) (Pure.pure a) := leaf
theorem fail {α : Type} {e : RenderErr} : Fol F D (RM.fail e : RM α) (RM.fail e) := leaf
theorem panic {α : Type} : Fol F D (RM.panic : RM α) RM.panic := leaf
theorem outOfFuel {α : Type} : Fol F D (RM.outOfFuel : RM α) RM.outOfFuel := leaf
theorem orPanic {α : Type} {o : Option α} : Fol F D (RM.orPanic o) (RM.orPanic o) := by
  cases o <;> exact leaf

theorem Grow.bind {α β : Type} {m : RM α} {f : α → RM β} (h : Grow m) (hf : ∀ a, Grow (f a)) : Grow (m >>= f) := by
  intro s
  have := h s
  rw [RM.bind_def]
  generalize m s = y at this ⊢
  obtain ⟨r, t⟩ := y
  cases r with
  | ok a => exact this.trans (hf a t)
  | err e => exact this
  | panic => exact this
  | fuel => exact this

theorem Grow.catchErr {α β : Type} {m : RM α} {f : Except RenderErr α → RM β} (h : Grow m) (hf : ∀ a, Grow (f a)) :
    Grow (RM.catchErr m f) := by
  intro s
  have := h s
  unfold RM.catchErr
  generalize m s = y at this ⊢
  obtain ⟨r, t⟩ := y
  cases r with
  | ok a => exact this.trans (hf _ t)
  | err e => exact this.trans (hf _ t)
  | panic => exact this
  | fuel => exact this

theorem bind {α β : Type} {m m' : RM α} {f f' : α → RM β} (h : Fol F D m m') (hf : ∀ a, Fol F D (f a) (f' a)) :
    Fol F D (m >>= f) (m' >>= f') := by
  refine ⟨h.1.bind fun a => (hf a).1, fun s ws hs hw => ?_⟩
  have h1 := h.2 s ws hs hw
  rw [RM.bind_def, RM.bind_def]
  generalize m s = x at h1 ⊢
  generalize m' { s with out := ws } = y at h1 ⊢
  rcases h1 with ⟨r, t, vs, rfl, rfl, h2, h3⟩ | ⟨h2, h3⟩
  · cases r with
    | ok a => exact (hf a).2 t vs h3 h2
    | err e => exact .inl ⟨.err e, t, vs, rfl, rfl, h2, h3⟩
    | panic => exact .inl ⟨.panic, t, vs, rfl, rfl, h2, h3⟩
    | fuel => exact .inl ⟨.fuel, t, vs, rfl, rfl, h2, h3⟩
  · obtain ⟨r, t⟩ := x
    obtain ⟨r', t'⟩ := y
    have hg : chunks t.out <+: chunks (match ((r', t') : Res α × RS) with
        | (.ok a, s') => f' a s' | (.err e, s') => (.err e, s') | (.panic, s') => (.panic, s') | (.fuel, s') => (.fuel, s')).2.out := by
      cases r' with
      | ok a => exact List.IsPrefix.trans h3 ((hf a).1 t')
      | err e => exact h3
      | panic => exact h3
      | fuel => exact h3
    rcases h2 with ⟨e, he, h2⟩ | ⟨h2, he⟩
    · simp only at he; subst he; exact .inr ⟨.inl ⟨e, rfl, h2⟩, hg⟩
    · simp only at he; subst he; exact .inr ⟨.inr ⟨h2, rfl⟩, hg⟩

/-- After an error the first render does nothing more. -/
theorem catchErr {α β : Type} {m m' : RM α} {f f' : Except RenderErr α → RM β} (h : Fol F D m m') (hf : ∀ r, Fol F D (f r) (f' r))
    (he : ∀ e t, ∃ e', f (.error e) t = (.err e', t)) : Fol F D (RM.catchErr m f) (RM.catchErr m' f') := by
  refine ⟨h.1.catchErr fun a => (hf a).1, fun s ws hs hw => ?_⟩
  have h1 := h.2 s ws hs hw
  unfold RM.catchErr
  generalize m s = x at h1 ⊢
  generalize m' { s with out := ws } = y at h1 ⊢
  rcases h1 with ⟨r, t, vs, rfl, rfl, h2, h3⟩ | ⟨h2, h3⟩
  · cases r with
    | ok a => exact (hf _).2 t vs h3 h2
    | err e => exact (hf _).2 t vs h3 h2
    | panic => exact .inl ⟨.panic, t, vs, rfl, rfl, h2, h3⟩
    | fuel => exact .inl ⟨.fuel, t, vs, rfl, rfl, h2, h3⟩
  · obtain ⟨r, t⟩ := x
    obtain ⟨r', t'⟩ := y
    have hg : chunks t.out <+: chunks (match ((r', t') : Res α × RS) with
        | (.ok a, s') => f' (.ok a) s' | (.err e, s') => f' (.error e) s' | (.panic, s') => (.panic, s') | (.fuel, s') => (.fuel, s')).2.out := by
      cases r' with
      | ok a => exact List.IsPrefix.trans h3 ((hf _).1 t')
      | err e => exact List.IsPrefix.trans h3 ((hf _).1 t')
      | panic => exact h3
      | fuel => exact h3
    rcases h2 with ⟨e, hr, h2⟩ | ⟨h2, hr⟩
    · simp only at hr; subst hr
      obtain ⟨e', he'⟩ := he e t
      simp only [he']
      exact .inr ⟨.inl ⟨e', rfl, h2⟩, hg⟩
    · simp only at hr; subst hr; exact .inr ⟨.inr ⟨h2, rfl⟩, hg⟩

theorem getBind' {β : Type} {f f' : RS → RM β} (hg : ∀ s, Grow (f' s))
    (h : ∀ s ws, Inv s → At F D (f s) (f' { s with out := ws }) s ws) : Fol F D (RM.get >>= f) (RM.get >>= f') :=
  ⟨fun s => hg s s, fun s ws hs hw => h s ws hs hs hw⟩

theorem getBind {β : Type} {f f' : RS → RM β} (h : ∀ s ws, Fol F D (f s) (f' { s with out := ws })) :
    Fol F D (RM.get >>= f) (RM.get >>= f') :=
  getBind' (fun s => (h s s.out).1) fun s ws _ => (h s ws).2 s ws

theorem modify' {f : RS → RS} (hf : ∀ s ws, f { s with out := ws } = { f s with out := ws }) (hi : ∀ s, Inv s → Inv (f s))
    (ho : ∀ s, (f s).out = s.out) : Fol F D (RM.modify f) (RM.modify f) := by
  refine ⟨fun s => ?_, fun s ws hs hw => .inl ⟨.ok (), f s, ws, rfl, ?_, ?_, hi s hs⟩⟩
  · show _ <+: chunks (f s).out
    rw [ho]; exact List.prefix_rfl
  · show (Res.ok (), f { s with out := ws }) = _
    rw [hf]
  · rw [ho]; exact hw

theorem modify {f : RS → RS} (hf : ∀ s ws, f { s with out := ws } = { f s with out := ws }) (hi : ∀ s, (f s).locals = s.locals)
    (ho : ∀ s, (f s).out = s.out) : Fol F D (RM.modify f) (RM.modify f) :=
  modify' hf (fun s hs => ⟨by rw [hi]; exact hs.locals, by rw [ho]; exact hs.clean⟩) ho

theorem traced {α : Type} {site : CallSite} {m m' : RM α} (h : Fol F D m m') : Fol F D (traced site m) (traced site m') := by
  refine ⟨fun s => h.1 { s with trace := s.trace ++ [.enter site] }, fun s ws hs hw => ?_⟩
  rcases h.2 { s with trace := s.trace ++ [.enter site] } ws ⟨hs.locals, hs.clean⟩ hw with ⟨r, t, vs, h1, h2, h3, h4⟩ | ⟨h1, h2⟩
  · unfold Bracket.traced
    change m' { s with out := ws, trace := s.trace ++ [.enter site] } = _ at h2
    simp only [h1, h2]
    exact .inl ⟨r, _, vs, rfl, rfl, h3, h4.locals, h4.clean⟩
  · refine .inr ⟨?_, h2⟩
    unfold Bracket.traced
    generalize m { s with trace := s.trace ++ [.enter site] } = x at h1 ⊢
    exact h1

theorem outText_chunks {ws vs : List Wr} (h : chunks ws = chunks vs) : outText ws = outText vs := by
  have : ∀ l : List Wr, outText l = (chunks l).flatten := by
    intro l; unfold outText chunks; rw [List.flatMap_def]
  rw [this, this, h]

theorem nested {init : RS} (hi : init.locals = []) (ho : init.out = []) {m m' : RM Unit} (h : Fol False D m m') :
    Fol F D (nested init m) (nested init m') := by
  have hout : ∀ (m : RM Unit) s, (Bracket.nested init m s).2.out = s.out := by
    intro m s
    unfold Bracket.nested
    generalize m { init with logs := s.logs, trace := s.trace } = x
    obtain ⟨r, t⟩ := x
    cases r <;> rfl
  refine ⟨fun s => ?_, fun s ws hs hw => ?_⟩
  · rw [hout]; exact List.prefix_rfl
  have h1 := h.2 { init with logs := s.logs, trace := s.trace } [] ⟨by intro n g hg; simp [hi, assoc] at hg, by simp only [ho]; intro w hw; cases hw⟩ (by simp [ho])
  change Ends False D _ (m' { init with out := [], logs := s.logs, trace := s.trace }) at h1
  rw [show ({ init with out := [], logs := s.logs, trace := s.trace } : RS) = { init with logs := s.logs, trace := s.trace } from by
    rw [← ho]] at h1
  have hb := hout m' { s with out := ws }
  have ha := hout m s
  unfold Bracket.nested at ha hb ⊢
  simp only at ha hb ⊢
  generalize m { init with logs := s.logs, trace := s.trace } = x at h1 ha ⊢
  generalize m' { init with logs := s.logs, trace := s.trace } = y at h1 hb ⊢
  rcases h1 with ⟨r, t, vs, rfl, rfl, h2, h3⟩ | ⟨h2, h3⟩
  · cases r with
    | ok a =>
        refine .inl ⟨.ok (outText t.out), { s with logs := t.logs, trace := t.trace }, ws, rfl, ?_, hw, hs.locals, hs.clean⟩
        rw [outText_chunks h2]
    | err e => exact .inl ⟨.err e, { s with logs := t.logs, trace := t.trace }, ws, rfl, rfl, hw, hs.locals, hs.clean⟩
    | panic => exact .inl ⟨.panic, { s with logs := t.logs, trace := t.trace }, ws, rfl, rfl, hw, hs.locals, hs.clean⟩
    | fuel => exact .inl ⟨.fuel, { s with logs := t.logs, trace := t.trace }, ws, rfl, rfl, hw, hs.locals, hs.clean⟩
  · refine .inr ⟨?_, ?_⟩
    · obtain ⟨r, t⟩ := x
      rcases h2 with ⟨e, rfl, ⟨h, _⟩ | h⟩ | ⟨h, rfl⟩
      · exact absurd h id
      · exact .inl ⟨e, rfl, .inr h⟩
      · exact .inr ⟨h, rfl⟩
    · rw [ha, hb, hw]; exact List.prefix_rfl

/-- The destination never fails. -/
abbrev Good (c : Sink) : Prop := ∀ ws x, ∃ n, c ws x = .ok n

theorem chunks_snoc (ws : List Wr) (w : Wr) : chunks (ws ++ [w]) = chunks ws ++ [w.chunk] := by simp [chunks]

/-- A write: it succeeds in both, or the first destination failed. -/
theorem rawWrite {E E' : Env} (hc : Good E.sink ∨ F) (hc' : Good E'.sink) (x : Str) (s : RS) (ws : List Wr) (hw : chunks s.out = chunks ws) :
    ∃ m vs, Bracket.rawWrite E' x { s with out := ws } = (.ok (.ok m), { s with out := vs }) ∧ chunks vs = chunks s.out ++ [x] ∧
      ((∃ n t, Bracket.rawWrite E x s = (.ok (.ok n), { s with out := t }) ∧ chunks t = chunks vs ∧ (Clean s.out → Clean t)) ∨
       ∃ e t, Bracket.rawWrite E x s = (.ok (.error e), { s with out := t }) ∧ chunks t = chunks vs ∧ F ∧ ¬ Clean t) := by
  obtain ⟨m, hm⟩ := hc' ws x
  refine ⟨m, ws ++ [⟨x, .ok m⟩], ?_, by rw [chunks_snoc, hw], ?_⟩
  · unfold Bracket.rawWrite; simp only [hm]
  · cases hr : E.sink s.out x with
    | ok n => exact .inl ⟨n, s.out ++ [⟨x, .ok n⟩], by unfold Bracket.rawWrite; simp only [hr], by rw [chunks_snoc, chunks_snoc, hw], fun h => clean_snoc h x n⟩
    | error e =>
        refine .inr ⟨e, s.out ++ [⟨x, .error e⟩], by unfold Bracket.rawWrite; simp only [hr], by rw [chunks_snoc, chunks_snoc, hw], ?_, ?_⟩
        · rcases hc with hc | hc
          · obtain ⟨n, hn⟩ := hc s.out x
            rw [hr] at hn; cases hn
          · exact hc
        · intro h
          obtain ⟨n, hn⟩ := h ⟨x, .error e⟩ (by simp)
          cases hn

theorem grow_rawWrite (E : Env) (x : Str) : Grow (Bracket.rawWrite E x) := by
  intro s
  show _ <+: chunks (s.out ++ [_])
  rw [chunks_snoc]; exact List.prefix_append _ _

theorem grow_writeStr (E : Env) (x : Str) (esc : Bool) : Grow (Bracket.writeStr E x esc) := by
  unfold Bracket.writeStr
  refine Grow.bind (fun s => List.prefix_rfl) fun st => ?_
  simp only
  split
  · exact fun s => List.prefix_rfl
  · refine Grow.bind (grow_rawWrite _ _) fun r => ?_
    cases r <;> exact fun s => List.prefix_rfl

/-- `write_str`: it succeeds in both, or the first destination failed. -/
theorem writeStr {E E' : Env} (he : E.reg.escape = E'.reg.escape) (hc : Good E.sink ∨ F) (hc' : Good E'.sink) (x : Str) (esc : Bool) (s : RS)
    (ws : List Wr) (hw : chunks s.out = chunks ws) :
    ∃ m vs, Bracket.writeStr E' x esc { s with out := ws } = (.ok m, { s with out := vs }) ∧
      ((∃ n t, Bracket.writeStr E x esc s = (.ok n, { s with out := t }) ∧ chunks t = chunks vs ∧ (Clean s.out → Clean t)) ∨
       ∃ e t, Bracket.writeStr E x esc s = (.err e, { s with out := t }) ∧ chunks t = chunks vs ∧ F ∧ ¬ Clean t) := by
  unfold Bracket.writeStr
  rw [RM.bind_def, RM.bind_def]
  simp only [RM.get, he]
  by_cases hv : List.isEmpty (applyTrim s.trim x) = true
  · rw [if_pos hv, if_pos hv]
    exact ⟨0, ws, rfl, .inl ⟨0, s.out, rfl, hw, id⟩⟩
  · rw [if_neg hv, if_neg hv, RM.bind_def, RM.bind_def]
    obtain ⟨m, vs, h1, _, h2⟩ := rawWrite hc hc' (if esc = true then E'.reg.escape (applyTrim s.trim x) else applyTrim s.trim x) s ws hw
    rw [h1]
    refine ⟨m, vs, rfl, ?_⟩
    rcases h2 with ⟨n, t, h2, h3⟩ | ⟨e, t, h2, h3⟩
    · rw [h2]; exact .inl ⟨n, t, rfl, h3⟩
    · rw [h2]; exact .inr ⟨_, t, rfl, h3⟩

theorem writeBind {β : Type} {E E' : Env} (he : E.reg.escape = E'.reg.escape) (hc : Good E.sink ∨ F) (hc' : Good E'.sink) (x : Str) (esc : Bool)
    {g g' : RM β} (h : Fol F D g g') : Fol F D (Bracket.writeStr E x esc >>= fun _ => g) (Bracket.writeStr E' x esc >>= fun _ => g') := by
  refine ⟨(grow_writeStr _ _ _).bind fun _ => h.1, fun s ws hs hw => ?_⟩
  rw [RM.bind_def, RM.bind_def]
  obtain ⟨m, vs, h1, h2⟩ := writeStr he hc hc' x esc s ws hw
  rw [h1]
  rcases h2 with ⟨n, t, h2, h3, h5⟩ | ⟨e, t, h2, h3, h4⟩
  · rw [h2]; exact h.2 { s with out := t } vs ⟨hs.locals, h5 hs.clean⟩ h3
  · rw [h2]
    refine .inr ⟨.inl ⟨e, rfl, .inl h4⟩, ?_⟩
    rw [show chunks _ = chunks vs from h3]
    exact h.1 { s with out := vs }

theorem writeCatch {β : Type} {E E' : Env} (he : E.reg.escape = E'.reg.escape) (hc : Good E.sink ∨ F) (hc' : Good E'.sink) (x : Str) (esc : Bool)
    {f f' : Except RenderErr Nat → RM β} (h : ∀ n m, Fol F D (f (.ok n)) (f' (.ok m))) (hg : ∀ r, Grow (f' r))
    (herr : ∀ e t, ∃ e', f (.error e) t = (.err e', t)) :
    Fol F D (RM.catchErr (Bracket.writeStr E x esc) f) (RM.catchErr (Bracket.writeStr E' x esc) f') := by
  refine ⟨(grow_writeStr _ _ _).catchErr hg, fun s ws hs hw => ?_⟩
  unfold RM.catchErr
  obtain ⟨m, vs, h1, h2⟩ := writeStr he hc hc' x esc s ws hw
  rw [h1]
  rcases h2 with ⟨n, t, h2, h3, h5⟩ | ⟨e, t, h2, h3, h4⟩
  · rw [h2]; exact (h n m).2 { s with out := t } vs ⟨hs.locals, h5 hs.clean⟩ h3
  · rw [h2]
    obtain ⟨e', he'⟩ := herr e { s with out := t }
    simp only [he']
    refine .inr ⟨.inl ⟨e', rfl, .inl h4⟩, ?_⟩
    rw [show chunks _ = chunks vs from h3]
    exact (h 0 m).1 { s with out := vs }

theorem rawBind {β : Type} {E E' : Env} (hc : Good E.sink ∨ F) (hc' : Good E'.sink) (x : Str)
    {f f' : Except IoErr Nat → RM β} (h : ∀ n m, Fol F D (f (.ok n)) (f' (.ok m))) (hg : ∀ r, Grow (f' r))
    (herr : ∀ e t, ∃ e', f (.error e) t = (.err e', t)) :
    Fol F D (Bracket.rawWrite E x >>= f) (Bracket.rawWrite E' x >>= f') := by
  refine ⟨(grow_rawWrite _ _).bind hg, fun s ws hs hw => ?_⟩
  rw [RM.bind_def, RM.bind_def]
  obtain ⟨m, vs, h1, _, h2⟩ := rawWrite hc hc' x s ws hw
  rw [h1]
  rcases h2 with ⟨n, t, h2, h3, h5⟩ | ⟨e, t, h2, h3, h4⟩
  · rw [h2]; exact (h n m).2 { s with out := t } vs ⟨hs.locals, h5 hs.clean⟩ h3
  · rw [h2]
    obtain ⟨e', he'⟩ := herr e { s with out := t }
    simp only [he']
    refine .inr ⟨.inl ⟨e', rfl, .inl h4⟩, ?_⟩
    rw [show chunks _ = chunks vs from h3]
    exact (h 0 m).1 { s with out := vs }

/-! ### The renderer -/

variable [Host]

/-- The same registry, except that the second may be less strict. -/
structure Same (r r' : Reg) : Prop where
  helpers : r'.helpers = r.helpers
  link : r'.link = r.link
  helperMissing : r'.helperMissing = r.helperMissing
  blockHelperMissing : r'.blockHelperMissing = r.blockHelperMissing
  templates : r'.templates = r.templates
  escape : r'.escape = r.escape
  strict : r'.strict = true → r.strict = true

structure SemFol (r r' : Reg) (S : Sem) : Prop where
  node : ∀ F a b c c', (Good c ∨ F) → Good c' → ∀ n t, Fol F (r'.strict ≠ r.strict) (S.renderNode ⟨r, a, b, c⟩ n t) (S.renderNode ⟨r', a, b, c'⟩ n t)
  stmt : ∀ F a b c c', (Good c ∨ F) → Good c' → ∀ x, Fol F (r'.strict ≠ r.strict) (S.statement ⟨r, a, b, c⟩ x) (S.statement ⟨r', a, b, c'⟩ x)
  call : ∀ F a b c c', (Good c ∨ F) → Good c' → ∀ x, Fol F (r'.strict ≠ r.strict) (S.call ⟨r, a, b, c⟩ x) (S.call ⟨r', a, b, c'⟩ x)
  grows : (Props.growsBase r').SemOk r' S

theorem nextBefore (l : List Node) : Fol F D (nextBefore l) (nextBefore l) := by
  cases l with
  | nil => exact pure
  | cons x l => exact bind orPanic fun _ => pure

theorem runEvents {f f' : Ev → RM Unit} (h : ∀ ev : Ev, Fol F D (f ev) (f' ev)) :
    ∀ ns prev hint, Fol F D (runEvents f ns prev hint) (runEvents f' ns prev hint) := by
  intro ns
  induction ns with
  | nil => intro _ _; exact pure
  | cons n rest ih =>
      intro prev hint
      unfold Bracket.runEvents
      exact bind (nextBefore rest) fun _ => bind orPanic fun _ => bind (h _) fun _ => ih _ _

theorem lookupM {r r' : Reg} (a : Str) (b : Value) (c c' : Sink) (p : Path) :
    Fol F D (lookupM ⟨r, a, b, c⟩ p) (lookupM ⟨r', a, b, c'⟩ p) := getBind fun _ _ => orPanic

theorem good_string : Good stringSink := fun _ x => ⟨blen x, rfl⟩

section
variable {r r' : Reg} (hz : Same r r') (hd : PromptReg r) {S : Sem} (H : SemFol r r' S)
  {F : Prop} (a : Str) (b : Value) (c c' : Sink) (hc : Good c ∨ F) (hc' : Good c')
include hz hd H hc hc'

theorem written (x : Str) (esc : Bool) : Fol F (r'.strict ≠ r.strict) (Bracket.writeStr ⟨r, a, b, c⟩ x esc >>= fun _ => Pure.pure ())
    (Bracket.writeStr ⟨r', a, b, c'⟩ x esc >>= fun _ => Pure.pure ()) := writeBind hz.escape.symm hc hc' x esc pure

theorem renderAll (n : Node) : Fol F (r'.strict ≠ r.strict) (renderAll S ⟨r, a, b, c⟩ n) (renderAll S ⟨r', a, b, c'⟩ n) :=
  runEvents (fun ev => H.node F a b c c' hc hc' ev.node ev.trim) _ _ _

theorem templateEvent (n : Node) (ev : Ev) : Fol F (r'.strict ≠ r.strict) (templateEvent S ⟨r, a, b, c⟩ n ev) (templateEvent S ⟨r', a, b, c'⟩ n ev) := by
  unfold Bracket.templateEvent
  refine bind ?_ fun _ => bind ?_ fun _ => H.node F a b c c' hc hc' _ _
  · unfold firstHint; split
    · exact orPanic
    · exact pure
  · unfold lastHint
    cases n with
    | block b =>
        simp only
        split
        · exact orPanic
        · exact pure
    | _ => exact pure

theorem template (n : Node) : Fol F (r'.strict ≠ r.strict) (template S ⟨r, a, b, c⟩ n) (template S ⟨r', a, b, c'⟩ n) := by
  unfold Bracket.template
  exact getBind fun s ws => bind (runEvents (templateEvent hz hd H a b c c' hc hc' n) _ _ _) fun _ =>
    bind orPanic fun _ => modify (fun _ _ => rfl) (fun _ => rfl) fun _ => rfl

theorem inverse (n : Node) : Fol F (r'.strict ≠ r.strict) (inverse S ⟨r, a, b, c⟩ n) (inverse S ⟨r', a, b, c'⟩ n) := by
  unfold Bracket.inverse
  cases n with
  | block bl =>
      simp only
      suffices ∀ l alt, Fol F (r'.strict ≠ r.strict) (inverseLoop S ⟨r, a, b, c⟩ l alt) (inverseLoop S ⟨r', a, b, c'⟩ l alt) from this _ _
      intro l
      induction l with
      | nil => intro alt; exact pure
      | cons x l ih =>
          intro alt
          cases x with
          | block cl =>
              unfold inverseLoop
              split
              · exact ih _
              · refine bind (H.call F a b c c' hc hc' _) fun v => ?_
                cases v with
                | none => exact ih _
                | some v =>
                    simp only
                    split
                    · exact pure
                    · exact ih _
          | _ => unfold inverseLoop; exact ih _
  | _ => exact pure

theorem buffer (n : Node) : Fol F (r'.strict ≠ r.strict) (buffer S ⟨r, a, b, c⟩ n) (buffer S ⟨r', a, b, c'⟩ n) := by
  unfold Bracket.buffer
  exact getBind fun s ws => nested rfl rfl (template hz hd H a b stringSink stringSink (.inl good_string) good_string n)

theorem onceBind {β : Type} (f : Str) (x : Str) (d : Value) {g g' : Except HelperErr Str → RM β} (h : ∀ q, Fol F (r'.strict ≠ r.strict) (g q) (g' q))
    (herr : ∀ e t, ∃ e', g (.error e) t = (.err e', t)) :
    Fol F (r'.strict ≠ r.strict) (once S ⟨r, a, b, c⟩ f x d >>= g) (once S ⟨r', a, b, c'⟩ f x d >>= g') := by
  have hc1 : ∀ (m : RM Str) (w : Except RenderErr Str → Except HelperErr Str) (k : Except HelperErr Str → RM β),
      (RM.catchErr m (fun r => Pure.pure (w r)) >>= k) = RM.catchErr m (fun r => k (w r)) := by
    intro m w k
    funext s
    rw [RM.bind_def]
    unfold RM.catchErr
    generalize m s = y
    obtain ⟨q, t⟩ := y
    cases q <;> rfl
  have hget : ∀ (m : RS → RM (Except HelperErr Str)) (k : Except HelperErr Str → RM β),
      ((RM.get >>= m) >>= k) = (RM.get >>= fun s => m s >>= k) := fun m k => rfl
  unfold Bracket.once
  rw [hget, hget]
  refine getBind fun s ws => ?_
  cases compile x ⟨f, 0, 0⟩ with
  | ok doc =>
      simp only
      rw [hc1, hc1]
      refine catchErr (nested rfl rfl (renderAll hz hd H f d stringSink stringSink (.inl good_string) good_string doc)) (fun q => h _) ?_
      intro e t; exact herr _ t
  | err e => exact bind pure fun q => h q
  | panic => exact bind panic fun q => h q
  | fuel => exact bind outOfFuel fun q => h q

theorem evaluate (p : Str) : Fol F (r'.strict ≠ r.strict) (evaluate ⟨r, a, b, c⟩ p) (evaluate ⟨r', a, b, c'⟩ p) := by
  unfold Bracket.evaluate
  cases pathFromStr p with
  | ok q =>
      cases q with
      | none => exact pure
      | some q => exact bind (lookupM a b c c' q) fun _ => pure
  | err e => exact pure
  | panic => exact panic
  | fuel => exact outOfFuel

theorem grow_run (p : Prog) : Grow (run S ⟨r', a, b, c'⟩ p) := by
  intro s
  have h := (Props.grows_any _ S H.grows ⟨r', a, b, c'⟩ rfl p s trivial).2
  change s.out <+: (run S ⟨r', a, b, c'⟩ p s).2.out at h
  exact h.map _

theorem fails {k : Prog} (h : ∃ e, k = .fail e) (t : RS) : ∃ e', run S ⟨r, a, b, c⟩ k t = (.err e', t) := by
  obtain ⟨e, rfl⟩ := h
  exact ⟨_, rfl⟩

theorem run {p : Prog} (hp : Prompt p) : Fol F (r'.strict ≠ r.strict) (run S ⟨r, a, b, c⟩ p) (run S ⟨r', a, b, c'⟩ p) := by
  induction hp with
  | panic => exact panic
  | ret v => exact pure
  | fail e => exact fail
  | write x k h hs he ih =>
      unfold Bracket.run
      refine writeCatch (E := ⟨r, a, b, c⟩) (E' := ⟨r', a, b, c'⟩) (f := fun q => Bracket.run S ⟨r, a, b, c⟩ (k (toHelper q)))
        (f' := fun q => Bracket.run S ⟨r', a, b, c'⟩ (k (toHelper q))) hz.escape.symm hc hc' x _ (fun n m => ?_) (fun q => grow_run hz hd H a b c c' hc hc' _) fun e t => fails hz hd H a b c c' hc hc' (he _) t
      show Fol F (r'.strict ≠ r.strict) (Bracket.run S ⟨r, a, b, c⟩ (k (.ok n))) (Bracket.run S ⟨r', a, b, c'⟩ (k (.ok m)))
      rw [hs m n]
      exact ih _
  | writeEscaped x k h hs he ih =>
      unfold Bracket.run
      refine writeCatch (E := ⟨r, a, b, c⟩) (E' := ⟨r', a, b, c'⟩) (f := fun q => Bracket.run S ⟨r, a, b, c⟩ (k (toHelper q)))
        (f' := fun q => Bracket.run S ⟨r', a, b, c'⟩ (k (toHelper q))) hz.escape.symm hc hc' x _ (fun n m => ?_) (fun q => grow_run hz hd H a b c c' hc hc' _) fun e t => fails hz hd H a b c c' hc hc' (he _) t
      show Fol F (r'.strict ≠ r.strict) (Bracket.run S ⟨r, a, b, c⟩ (k (.ok n))) (Bracket.run S ⟨r', a, b, c'⟩ (k (.ok m)))
      rw [hs m n]
      exact ih _
  | outWrite x k h hs he ih =>
      unfold Bracket.run
      refine rawBind hc hc' x (fun n m => ?_) (fun q => grow_run hz hd H a b c c' hc hc' _) fun e t => fails hz hd H a b c c' hc hc' (he _) t
      rw [hs m n]
      exact ih _
  | template n k h he ih =>
      unfold Bracket.run
      exact catchErr (template hz hd H a b c c' hc hc' n) (fun q => ih _) fun e t => fails hz hd H a b c c' hc hc' (he _) t
  | render n k h he ih =>
      unfold Bracket.run
      exact catchErr (renderAll hz hd H a b c c' hc hc' n) (fun q => ih _) fun e t => fails hz hd H a b c c' hc hc' (he _) t
  | inverse n k h he ih =>
      unfold Bracket.run
      exact catchErr (inverse hz hd H a b c c' hc hc' n) (fun q => ih _) fun e t => fails hz hd H a b c c' hc hc' (he _) t
  | buffer n k h he ih =>
      unfold Bracket.run
      exact catchErr (buffer hz hd H a b c c' hc hc' n) (fun q => ih _) fun e t => fails hz hd H a b c c' hc hc' (he _) t
  | once f x d k h he ih =>
      unfold Bracket.run
      exact onceBind hz hd H a b c c' hc hc' f x d (fun q => ih _) fun e t => fails hz hd H a b c c' hc hc' (he _) t
  | evaluate p k h ih => unfold Bracket.run; exact bind (evaluate hz hd H a b c c' hc hc' p) fun q => ih _
  | pushScope sc k h ih => unfold Bracket.run; exact bind (modify (fun _ _ => rfl) (fun _ => rfl) fun _ => rfl) fun _ => ih
  | popScope k h ih =>
      unfold Bracket.run
      exact getBind fun s ws => bind (modify (fun _ _ => rfl) (fun _ => rfl) fun _ => rfl) fun _ => ih _
  | scopeMut f k h ih =>
      unfold Bracket.run
      refine getBind fun s ws => bind (modify (fun s ws => ?_) (fun s => ?_) fun s => ?_) fun _ => ih _
      · cases hs : s.scopes <;> simp only [hs]
      · cases hs : s.scopes <;> simp only [hs]
      · cases hs : s.scopes <;> simp only [hs]
  | registerLocal n g k hg h _ ih =>
      unfold Bracket.run
      refine bind (modify' (fun _ _ => rfl) (fun s hs => ⟨fun m f hf => ?_, hs.clean⟩) fun _ => rfl) fun _ => ih
      change assoc m (assocInsert n g s.locals) = _ at hf
      by_cases hm : m = n
      · subst hm; rw [assoc_insert_self] at hf; cases hf; exact hg
      · rw [assoc_insert_ne _ _ hm] at hf; exact hs.locals m f hf
  | unregisterLocal n k h ih =>
      unfold Bracket.run
      refine bind (modify' (fun _ _ => rfl) (fun s hs => ⟨fun m f hf => ?_, hs.clean⟩) fun _ => rfl) fun _ => ih
      change assoc m (assocErase n s.locals) = _ at hf
      by_cases hm : m = n
      · subst hm; rw [assoc_erase_self] at hf; cases hf
      · rw [assoc_erase_ne _ hm] at hf; exact hs.locals m f hf
  | peek k h ih =>
      unfold Bracket.run
      refine getBind fun s ws => ?_
      have e : view ⟨r', a, b, c'⟩ { s with out := ws } = view ⟨r, a, b, c⟩ s := by unfold view; simp only [hz.templates, hz.escape]; rfl
      rw [e]
      exact ih _
  | log l m k h ih => unfold Bracket.run; exact bind (modify (fun _ _ => rfl) (fun _ => rfl) fun _ => rfl) fun _ => ih

theorem paramM (p : ParamValue) : Fol F (r'.strict ≠ r.strict) (paramM S ⟨r, a, b, c⟩ p) (paramM S ⟨r', a, b, c'⟩ p) := by
  unfold Bracket.paramM
  cases p with
  | json => exact pure
  | path p =>
      refine bind (lookupM a b c c' p) fun v => ?_
      cases v with
      | some v => exact pure
      | none => exact bind orPanic fun _ => pure
  | subExpr x =>
      refine bind (H.stmt F a b c c' hc hc' x) fun v => ?_
      cases v with
      | some v => exact pure
      | none => exact bind orPanic fun _ => pure

theorem argumentsLoop : ∀ ps i ms, Fol F (r'.strict ≠ r.strict) (argumentsLoop S ⟨r, a, b, c⟩ i ps ms) (argumentsLoop S ⟨r', a, b, c'⟩ i ps ms) := by
  intro ps
  induction ps with
  | nil => intro i ms; exact pure
  | cons p ps ih =>
      intro i ms
      exact bind (paramM hz hd H a b c c' hc hc' p) fun _ => bind (ih _ _) fun _ => pure

theorem hashLoop : ∀ ps out ms, Fol F (r'.strict ≠ r.strict) (hashLoop S ⟨r, a, b, c⟩ ps out ms) (hashLoop S ⟨r', a, b, c'⟩ ps out ms) := by
  intro ps
  induction ps with
  | nil => intro i ms; exact pure
  | cons p ps ih =>
      obtain ⟨k, p⟩ := p
      intro i ms
      exact bind (paramM hz hd H a b c c' hc hc' p) fun _ => ih _ _

theorem runTarget (name : Str) (t : Target) (ht : ∀ h, t = .handler h → ∀ x y, Prompt (h x y)) (ctx : Ctx) (content : Option Node)
    {l : List (Str × HelperFn)} (hl : ∀ n h, assoc n l = some h → ∀ x y, Prompt (h x y)) :
    Fol F (r'.strict ≠ r.strict) (runTarget S ⟨r, a, b, c⟩ name t ctx content l) (runTarget S ⟨r', a, b, c'⟩ name t ctx content l) := by
  unfold Bracket.runTarget
  cases t with
  | name =>
      simp only
      cases h1 : assoc name l with
      | some h => exact run hz hd H a b c c' hc hc' (hl name h h1 _ _)
      | none =>
          simp only
          rw [hz.helpers]
          cases hh : assoc name r.helpers with
          | some h => exact run hz hd H a b c c' hc hc' (hd.helpers name h hh _ _)
          | none => exact pure
  | handler h => exact run hz hd H a b c c' hc hc' (ht h rfl _ _)

theorem grow_runTarget (name : Str) (t : Target) (ctx : Ctx) (content : Option Node) (l : List (Str × HelperFn)) :
    Grow (Bracket.runTarget S ⟨r', a, b, c'⟩ name t ctx content l) := by
  unfold Bracket.runTarget
  cases t with
  | name =>
      simp only
      cases h1 : assoc name l with
      | some h => exact grow_run hz hd H a b c c' hc hc' _
      | none =>
          simp only
          rw [hz.helpers]
          cases hh : assoc name r.helpers with
          | some h => exact grow_run hz hd H a b c c' hc hc' _
          | none => exact fun s => List.prefix_rfl
  | handler h => exact grow_run hz hd H a b c c' hc hc' _

theorem invoke (name : Str) (t : Target) (ht : ∀ h, t = .handler h → ∀ x y, Prompt (h x y)) (x : Call) (content : Option Node)
    (text : Option Str) (prop : Option (Str × Value)) :
    Fol F (r'.strict ≠ r.strict) (invoke S ⟨r, a, b, c⟩ name t x content text prop) (invoke S ⟨r', a, b, c'⟩ name t x content text prop) := by
  unfold Bracket.invoke
  refine getBind fun s ws => ?_
  simp only
  split
  · exact fail
  · refine traced (bind (modify (fun _ _ => rfl) (fun _ => rfl) fun _ => rfl) fun _ => bind (argumentsLoop hz hd H a b c c' hc hc' _ _ _) fun _ =>
      bind (hashLoop hz hd H a b c c' hc hc' _ _ _) fun _ => getBind' (fun s => ?_) fun s ws hs => ?_)
    · exact Grow.bind (grow_runTarget hz hd H a b c c' hc hc' _ _ _ _ _) fun _ => Grow.bind (fun _ => List.prefix_rfl) fun _ => fun _ => List.prefix_rfl
    · exact Fol.at (bind (runTarget hz hd H a b c c' hc hc' name t ht _ _ hs.locals) fun _ =>
        bind (modify (fun _ _ => rfl) (fun _ => rfl) fun _ => rfl) fun _ => pure)

theorem callF (x : Call) : Fol F (r'.strict ≠ r.strict) (callF S ⟨r, a, b, c⟩ x) (callF S ⟨r', a, b, c'⟩ x) := by
  unfold Bracket.callF
  cases x.target with
  | path p =>
      simp only
      split
      · exact lookupM a b c c' p
      · split
        · refine bind orPanic fun name => getBind fun s ws => ?_
          have e : hasHelper ⟨r', a, b, c'⟩ { s with out := ws } name = hasHelper ⟨r, a, b, c⟩ s name := by unfold hasHelper; simp only [hz.helpers]
          rw [e]
          split
          · exact invoke hz hd H a b c c' hc hc' _ _ (by simp) _ _ _ _
          · refine bind (lookupM a b c c' p) fun v => ?_
            cases v with
            | some v => exact pure
            | none =>
                simp only
                rw [hz.helperMissing]
                cases hh : r.helperMissing with
                | some h =>
                    exact invoke hz hd H a b c c' hc hc' _ (.handler h) (by intro h' e; cases e; exact hd.helperMissing _ hh) _ _ _ _
                | none =>
                    simp only
                    by_cases h1 : r.strict = true
                    · rw [if_pos h1]
                      cases hz' : r'.strict with
                      | true => exact fail
                      | false =>
                          refine ⟨fun s => List.prefix_rfl, fun s ws hs hw => .inr ⟨.inl ⟨_, rfl, .inr (by simp [h1])⟩, ?_⟩⟩
                          show chunks s.out <+: chunks ws
                          rw [hw]; exact List.prefix_rfl
                    · rw [if_neg h1, if_neg (fun h => h1 (hz.strict h))]
                      exact pure
        · refine bind (lookupM a b c c' p) fun v => ?_
          cases v with
          | some v => exact pure
          | none =>
              simp only
              by_cases h1 : r.strict = true
              · rw [if_pos h1]
                cases hz' : r'.strict with
                | true => exact bind orPanic fun _ => fail
                | false =>
                    refine ⟨fun s => List.prefix_rfl, fun s ws hs hw => .inr ?_⟩
                    have hp : chunks s.out <+: chunks ws := by rw [hw]; exact List.prefix_rfl
                    have hdd : false ≠ r.strict := by simp [h1]
                    cases p.asStr with
                    | some v => exact ⟨.inl ⟨_, rfl, .inr hdd⟩, hp⟩
                    | none => exact ⟨.inr ⟨hdd, rfl⟩, hp⟩
              · rw [if_neg h1, if_neg (fun h => h1 (hz.strict h))]
                exact pure
  | subExpr sub => exact H.call F a b c c' hc hc' _

theorem partialName (x : Call) : Fol F (r'.strict ≠ r.strict) (partialName S ⟨r, a, b, c⟩ x) (partialName S ⟨r', a, b, c'⟩ x) := by
  unfold Bracket.partialName
  cases x.target with
  | path p =>
      simp only
      refine bind orPanic fun txt => ?_
      split
      · exact pure
      · split
        · exact pure
        · exact fail
  | subExpr sub => exact bind (H.stmt F a b c c' hc hc' _) fun _ => pure

theorem partialScope (x : Call) : Fol F (r'.strict ≠ r.strict) (partialScope S ⟨r, a, b, c⟩ x) (partialScope S ⟨r', a, b, c'⟩ x) := by
  unfold Bracket.partialScope
  refine bind (hashLoop hz hd H a b c c' hc hc' _ _ _) fun h => ?_
  split
  · exact pure
  · exact bind (argumentsLoop hz hd H a b c c' hc hc' _ _ _) fun _ => pure

theorem findPartial (name : Str) : Fol F (r'.strict ≠ r.strict) (findPartial ⟨r, a, b, c⟩ name) (findPartial ⟨r', a, b, c'⟩ name) := by
  unfold Bracket.findPartial
  refine getBind fun s ws => ?_
  simp only
  cases assoc name s.partials with
  | some n => exact pure
  | none =>
      simp only
      rw [hz.templates]
      cases assoc name r.templates with
      | some t => exact bind (modify (fun _ _ => rfl) (fun _ => rfl) fun _ => rfl) fun _ => pure
      | none => exact fail

theorem renderPartial (x : Call) (pb : Option Node) : Fol F (r'.strict ≠ r.strict) (renderPartial S ⟨r, a, b, c⟩ x pb) (renderPartial S ⟨r', a, b, c'⟩ x pb) := by
  unfold Bracket.renderPartial
  refine bind (partialName hz hd H a b c c' hc hc' x) fun name => getBind fun s ws => ?_
  simp only
  split
  · exact fail
  · exact traced (bind (modify (fun _ _ => rfl) (fun _ => rfl) fun _ => rfl) fun _ => bind (findPartial hz hd H a b c c' hc hc' name) fun node =>
      bind (partialScope hz hd H a b c c' hc hc' x) fun sc => bind (modify (fun _ _ => rfl) (fun _ => rfl) fun _ => rfl) fun _ =>
      getBind fun s ws => bind (runEvents (fun ev => H.node F a b c c' hc hc' ev.node ev.trim) _ _ _) fun _ =>
        modify (fun _ _ => rfl) (fun _ => rfl) fun _ => rfl)

theorem statementF (x : Call) : Fol F (r'.strict ≠ r.strict) (statementF S ⟨r, a, b, c⟩ x) (statementF S ⟨r', a, b, c'⟩ x) := by
  unfold Bracket.statementF
  split
  · exact bind (renderPartial hz hd H a b c c' hc hc' x _) fun _ => pure
  · exact H.call F a b c c' hc hc' x

theorem templateQ (n : Node) : Fol F (r'.strict ≠ r.strict) (templateQ S ⟨r, a, b, c⟩ n) (templateQ S ⟨r', a, b, c'⟩ n) := by
  unfold Bracket.templateQ
  refine catchErr (template hz hd H a b c c' hc hc' n) (fun q => ?_) fun e t => ⟨_, rfl⟩
  cases q with
  | ok a => exact pure
  | error e => exact fail

theorem blockHelperMissing (node : Node) (x : Call) (p : Path) (text : Option Str) (raw : Bool) :
    Fol F (r'.strict ≠ r.strict) (blockHelperMissing S ⟨r, a, b, c⟩ node x p text raw) (blockHelperMissing S ⟨r', a, b, c'⟩ node x p text raw) := by
  unfold Bracket.blockHelperMissing
  split
  · cases text with
    | some t => exact written hz hd H a b c c' hc hc' _ _
    | none => exact pure
  · refine bind (lookupM a b c c' p) fun v => ?_
    cases v with
    | some v =>
        simp only
        rw [hz.blockHelperMissing]
        cases hh : r.blockHelperMissing with
        | some h =>
            simp only
            exact bind orPanic fun _ => bind (invoke hz hd H a b c c' hc hc' _ (.handler h) (by
              intro h' e; cases e; exact hd.blockHelperMissing _ hh) _ _ _ _) fun _ => pure
        | none => simp only; exact templateQ hz hd H a b c c' hc hc' node
    | none =>
        simp only
        rw [hz.helperMissing]
        cases hh : r.helperMissing with
        | some h =>
            simp only
            exact bind (invoke hz hd H a b c c' hc hc' _ (.handler h) (by
              intro h' e; cases e; exact hd.helperMissing _ hh) _ _ _ _) fun _ => pure
        | none =>
            simp only
            by_cases h1 : r.strict = true
            · rw [if_pos h1]
              cases hz' : r'.strict with
              | true => exact bind orPanic fun _ => fail
              | false =>
                  refine ⟨fun s => List.prefix_rfl, fun s ws hs hw => .inr ?_⟩
                  have hp : chunks s.out <+: chunks ws := by rw [hw]; exact List.prefix_rfl
                  have hdd : false ≠ r.strict := by simp [h1]
                  cases p.asStr with
                  | some v => exact ⟨.inl ⟨_, rfl, .inr hdd⟩, hp⟩
                  | none => exact ⟨.inr ⟨hdd, rfl⟩, hp⟩
            · rw [if_neg h1, if_neg (fun h => h1 (hz.strict h))]
              exact pure

theorem blockF (x : Block) : Fol F (r'.strict ≠ r.strict) (blockF S ⟨r, a, b, c⟩ x) (blockF S ⟨r', a, b, c'⟩ x) := by
  unfold Bracket.blockF
  simp only
  split
  · exact renderPartial hz hd H a b c c' hc hc' _ _
  · cases x.call.target with
    | path p =>
        simp only
        split
        · refine bind ?_ fun text => bind orPanic fun name => getBind fun s ws => ?_
          · unfold blockText
            split
            · exact bind orPanic fun _ => bind (modify (fun _ _ => rfl) (fun _ => rfl) fun _ => rfl) fun _ => pure
            · exact pure
          · have e : hasHelper ⟨r', a, b, c'⟩ { s with out := ws } name = hasHelper ⟨r, a, b, c⟩ s name := by unfold hasHelper; simp only [hz.helpers]
            rw [e]
            split
            · exact bind (invoke hz hd H a b c c' hc hc' _ _ (by simp) _ _ _ _) fun _ => pure
            · exact blockHelperMissing hz hd H a b c c' hc hc' _ _ p _ _
        · exact bind orPanic fun _ => fail
    | subExpr _ => exact fail

theorem renderKind (node : Node) : Fol F (r'.strict ≠ r.strict) (renderKind S ⟨r, a, b, c⟩ node) (renderKind S ⟨r', a, b, c'⟩ node) := by
  unfold Bracket.renderKind
  cases node with
  | text t => exact bind orPanic fun _ => written hz hd H a b c c' hc hc' _ _
  | rawStatement t => exact bind orPanic fun _ => bind orPanic fun _ => written hz hd H a b c c' hc hc' _ _
  | link l =>
      simp only
      refine bind orPanic fun esc => ?_
      split
      · exact bind orPanic fun _ => written hz hd H a b c c' hc hc' _ _
      · rw [hz.link]
        cases hlk : r.link with
        | some g =>
            simp only
            exact bind orPanic fun x => bind (invoke hz hd H a b c c' hc hc' _ (.handler g) (by
              intro h' e'; cases e'; exact hd.link _ hlk) _ _ _ _) fun _ => pure
        | none => exact bind orPanic fun _ => written hz hd H a b c c' hc hc' _ _
  | statement x =>
      refine bind (H.stmt F a b c c' hc hc' x) fun v => ?_
      cases v with
      | some v => exact bind orPanic fun _ => written hz hd H a b c c' hc hc' _ _
      | none => exact pure
  | block x => exact blockF hz hd H a b c c' hc hc' x
  | rawComment t => exact pure
  | comment t => exact pure
  | document _ _ => exact pure

theorem renderNodeF (node : Node) (t : TrimState) : Fol F (r'.strict ≠ r.strict) (renderNodeF S ⟨r, a, b, c⟩ node t) (renderNodeF S ⟨r', a, b, c'⟩ node t) := by
  unfold Bracket.renderNodeF
  exact bind orPanic fun h => bind (modify (fun _ _ => rfl) (fun _ => rfl) fun _ => rfl) fun _ => renderKind hz hd H a b c c' hc hc' node

end

theorem sem_fol {r r' : Reg} (hz : Same r r') (hd : PromptReg r) : ∀ n, SemFol r r' (sem n) := by
  intro n
  induction n with
  | zero =>
      exact ⟨fun _ _ _ _ _ _ _ _ _ => outOfFuel, fun _ _ _ _ _ _ _ _ => outOfFuel, fun _ _ _ _ _ _ _ _ => outOfFuel,
        (Props.growsFrame _).semOk 0⟩
  | succ n ih =>
      exact ⟨fun F a b c c' hc hc' x t => renderNodeF hz hd ih a b c c' hc hc' x t, fun F a b c c' hc hc' x => statementF hz hd ih a b c c' hc hc' x,
        fun F a b c c' hc hc' x => callF hz hd ih a b c c' hc hc' x, (Props.growsFrame _).semOk (n + 1)⟩

theorem renderTo_follows {r r' : Reg} (hz : Same r r') (hd : PromptReg r) {F : Prop} {c c' : Sink}
    (hc : Good c ∨ F) (hc' : Good c') (doc : Node) (n : Nat) (name : Str) (data : Value) :
    Ends F (r'.strict ≠ r.strict) (renderTo n r c name doc data) (renderTo n r' c' name doc data) :=
  (renderAll hz hd (sem_fol hz hd n) name data c c' hc hc' doc).2 (RS.init []) [] ⟨fun _ _ h => by simp [RS.init, assoc] at h, fun w hw => (nomatch hw)⟩ rfl

end Bracket.Follow
