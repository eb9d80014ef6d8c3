import Verif.Model.Parser

/-! Hoare triples for the parser: every function consumes tokens only, keeps the block stack and the
pushed-back token unless it says otherwise, and never runs out of fuel when given enough. -/

set_option linter.unusedSectionVars false

namespace Bracket

/-- How the state changes while parsing inside one tag: tokens are consumed, the line number only
grows, the rest stays. -/
structure PRel (s t : PS) : Prop where
  toks : t.toks <:+ s.toks
  stack : t.stack = s.stack
  next : t.next = s.next
  line : s.line ≤ t.line

theorem PRel.refl (s : PS) : PRel s s := ⟨List.suffix_refl _, rfl, rfl, Nat.le_refl _⟩

theorem PRel.trans {s t u : PS} (h : PRel s t) (h' : PRel t u) : PRel s u :=
  ⟨h'.toks.trans h.toks, h'.stack.trans h.stack, h'.next.trans h.next, Nat.le_trans h.line h'.line⟩

/-- `m` from `s` does not run out of fuel, changes the state by `PRel` and, on success, yields a
result and state satisfying `Q`. -/
def Tri {α : Type} (m : P α) (s : PS) (Q : α → PS → Prop) : Prop :=
  match m s with
  | (.ok a, t) => PRel s t ∧ Q a t
  | (.err _, t) => PRel s t
  | (.panic, t) => PRel s t
  | (.fuel, _) => False

namespace P
theorem bind_def {α β : Type} (m : P α) (f : α → P β) (s : PS) : (m >>= f) s = (match m s with
    | (.ok a, s') => f a s'
    | (.err e, s') => (.err e, s')
    | (.panic, s') => (.panic, s')
    | (.fuel, s') => (.fuel, s')) := rfl
end P

namespace Tri
variable {α β : Type} {s : PS} {Q : α → PS → Prop}

theorem bind {m : P α} {f : α → P β} {Q' : β → PS → Prop} (h : Tri m s Q)
    (hf : ∀ a t, PRel s t → Q a t → Tri (f a) t Q') : Tri (m >>= f) s Q' := by
  unfold Tri at h ⊢
  rw [P.bind_def]
  rcases hm : m s with ⟨r, t⟩
  rw [hm] at h
  cases r with
  | ok a =>
      have := hf a t h.1 h.2
      unfold Tri at this
      simp only
      rcases hx : f a t with ⟨r', u⟩
      rw [hx] at this
      cases r' with
      | ok b => exact ⟨h.1.trans this.1, this.2⟩
      | err e => exact h.1.trans this
      | panic => exact h.1.trans this
      | fuel => exact this
  | err e => exact h
  | panic => exact h
  | fuel => exact h

theorem mono {m : P α} {Q' : α → PS → Prop} (h : Tri m s Q) (hq : ∀ a t, PRel s t → Q a t → Q' a t) :
    Tri m s Q' := by
  unfold Tri at h ⊢
  rcases hm : m s with ⟨r, t⟩
  rw [hm] at h
  cases r with
  | ok a => exact ⟨h.1, hq a t h.1 h.2⟩
  | err e => exact h
  | panic => exact h
  | fuel => exact h

theorem bindT {m : P α} {f : α → P β} {Q' : β → PS → Prop} (h : Tri m s fun _ _ => True)
    (hf : ∀ a t, PRel s t → Tri (f a) t Q') : Tri (m >>= f) s Q' := bind h fun a t ht _ => hf a t ht

theorem pure {a : α} (h : Q a s) : Tri (Pure.pure a : P α) s Q := ⟨PRel.refl s, h⟩
theorem panic : Tri (P.panic : P α) s Q := PRel.refl s
theorem get {Q : PS → PS → Prop} (h : Q s s) : Tri P.get s Q := ⟨PRel.refl s, h⟩
theorem getBind {f : PS → P β} {Q : β → PS → Prop} (h : Tri (f s) s Q) : Tri (P.get >>= f) s Q := h
theorem orPanic {o : Option α} (h : ∀ a, o = some a → Q a s) : Tri (P.orPanic o) s Q := by
  cases o with
  | none => exact PRel.refl s
  | some a => exact ⟨PRel.refl s, h a rfl⟩
theorem fail [Host] {E : PEnv} {k : SynKind} : Tri (P.fail E k : P α) s Q := by
  unfold Tri P.fail P.failWith
  cases h : errorInfo E.src E.fileName s.line s.byte [] <;> exact PRel.refl s
theorem failWith [Host] {E : PEnv} {k : SynKind} {ns : List Str} : Tri (P.failWith E k ns : P α) s Q := by
  unfold Tri P.failWith
  cases h : errorInfo E.src E.fileName s.line s.byte ns <;> exact PRel.refl s
theorem modify {f : PS → PS} {Q : Unit → PS → Prop} (h : PRel s (f s)) (hq : Q () (f s)) : Tri (P.modify f) s Q :=
  ⟨h, hq⟩
theorem setByte {n : Nat} {Q : Unit → PS → Prop} (h : Q () { s with byte := n }) : Tri (P.setByte n) s Q :=
  ⟨⟨List.suffix_refl _, rfl, rfl, Nat.le_refl _⟩, h⟩
theorem incLine {Q : Unit → PS → Prop} (h : Q () { s with line := s.line + 1 }) : Tri P.incLine s Q :=
  ⟨⟨List.suffix_refl _, rfl, rfl, Nat.le_succ _⟩, h⟩
theorem line {Q : Nat → PS → Prop} (h : Q s.line s) : Tri P.line s Q := ⟨PRel.refl s, h⟩
theorem lineRange {Q : Span → PS → Prop} (h : Q ⟨s.line, s.line + 1⟩ s) : Tri P.lineRange s Q := ⟨PRel.refl s, h⟩

/-- Tokens not yet parsed, counting one in hand. -/
def wt (o : Option Token) (s : PS) : Nat := s.toks.length + (if o.isSome then 1 else 0)

theorem lexNext {Q : Option Token → PS → Prop}
    (hn : s.toks = [] → Q none s)
    (hs : ∀ t ts, s.toks = t :: ts → Q (some t) { s with toks := ts }) : Tri P.lexNext s Q := by
  unfold Tri P.lexNext
  cases h : s.toks with
  | nil => exact ⟨PRel.refl s, hn h⟩
  | cons t ts => exact ⟨⟨by rw [h]; exact List.suffix_cons _ _, rfl, rfl, Nat.le_refl _⟩, hs t ts h⟩

/-- The tokens in hand and left are no more than those left before. -/
theorem lexNextW {n : Nat} (h : s.toks.length ≤ n) : Tri P.lexNext s fun o t => wt o t ≤ n := by
  refine lexNext ?_ ?_
  · intro _; simpa [wt] using h
  · intro t ts e; rw [e] at h; simpa [wt] using h

end Tri

open P Tri

theorem PRel.len {s t : PS} (h : PRel s t) : t.toks.length ≤ s.toks.length := h.toks.length_le

section
variable [Host] (E : PEnv)

theorem strLoop_tri (st : Nat) : ∀ (ts : List Token) (e : Nat) (fl : RawLit) (s : PS), s.toks = ts →
    Tri (strLoop E st ts e fl) s fun _ _ => True := by
  intro ts
  induction ts with
  | nil =>
      intro e fl s hs
      exact Tri.bindT (Tri.modify ⟨by simp, rfl, rfl, Nat.le_refl _⟩ trivial) fun _ _ _ => Tri.fail
  | cons t ts ih =>
      intro e fl s hs
      unfold strLoop
      refine Tri.bind (Q := fun _ u => u.toks = ts)
        (Tri.modify ⟨by rw [hs]; exact List.suffix_cons _ _, rfl, rfl, Nat.le_refl _⟩ rfl) fun _ u hu hq => ?_
      split
      · exact Tri.fail
      · exact Tri.fail
      · split
        · exact Tri.bind (Tri.setByte (Q := fun _ v => v.toks = ts) hq) fun _ v _ hv => ih _ _ v hv
        · exact ih _ _ u hq
      · exact ih _ _ u hq
      · exact Tri.pure trivial
      · exact Tri.bind (Tri.setByte (Q := fun _ v => v.toks = ts) hq) fun _ v _ hv => ih _ _ v hv
      · exact Tri.bind (Tri.setByte (Q := fun _ v => v.toks = ts) hq) fun _ v _ hv => ih _ _ v hv

theorem strParse_tri (sp : Span) (ty : LitType) (s : PS) : Tri (strParse E sp ty) s fun _ _ => True :=
  Tri.getBind (strLoop_tri E _ _ _ _ s rfl)

theorem strLiteral_tri (sp : Span) (ty : LitType) (s : PS) : Tri (strLiteral E sp ty) s fun _ _ => True := by
  unfold strLiteral
  exact Tri.bind (strParse_tri E sp ty s) fun a t _ _ => Tri.bind (Tri.orPanic (Q := fun _ _ => True) fun _ _ => trivial)
    fun _ u _ _ => Tri.pure trivial

theorem compValue_tri (sp : Span) (raw : Option RawLit) (s : PS) : Tri (compValue E sp raw) s fun _ _ => True := by
  unfold compValue
  split
  · split
    · exact Tri.bind (Tri.orPanic (Q := fun _ _ => True) fun _ _ => trivial) fun _ u _ _ => Tri.pure trivial
    · exact Tri.pure trivial
  · exact Tri.pure trivial

theorem toComponent_tri (lex : ParamTok) (sp : Span) (raw : Option RawLit) (s : PS) :
    Tri (toComponent E lex sp raw) s fun _ _ => True := by
  unfold toComponent
  refine Tri.bind (compValue_tri E sp raw s) fun v t _ _ => ?_
  split
  · exact Tri.pure trivial
  · exact Tri.fail

theorem parentsLoop_tri : ∀ (ts : List Token) (p : Path) (s : PS), s.toks = ts →
    Tri (parentsLoop ts p) s fun r t => wt r.2 t ≤ s.toks.length := by
  intro ts
  induction ts with
  | nil =>
      intro p s hs
      exact Tri.bind (Q := fun _ u => u.toks = []) (Tri.modify ⟨by simp, rfl, rfl, Nat.le_refl _⟩ rfl)
        fun _ _ _ h => Tri.pure (by simp [wt, h])
  | cons t ts ih =>
      intro p s hs
      unfold parentsLoop
      refine Tri.bind (Q := fun _ u => u.toks = ts)
        (Tri.modify ⟨by rw [hs]; exact List.suffix_cons _ _, rfl, rfl, Nat.le_refl _⟩ rfl) fun _ u hu hq => ?_
      split
      · split
        · exact Tri.panic
        · refine (ih _ u hq).mono fun a t _ h => ?_
          rw [hs]; rw [hq] at h; simp; omega
      · exact Tri.pure (by simp [wt, hq, hs])

theorem compSpan_tri (lex : ParamTok) (sp : Span) (s : PS) : Tri (compSpan E lex sp) s fun _ _ => True := by
  unfold compSpan
  split
  · exact Tri.bind (strParse_tri E sp _ s) fun _ _ _ _ => Tri.pure trivial
  · exact Tri.pure trivial

theorem componentsLoop_tri : ∀ (n : Nat) (p : Path) (w : Bool) (s : PS), s.toks.length < n →
    Tri (componentsLoop E n p w) s fun r t => wt r.2 t ≤ s.toks.length := by
  intro n
  induction n with
  | zero => intro p w s h; omega
  | succ n ih =>
      intro p w s hn
      unfold componentsLoop
      refine Tri.bind (Q := fun o t => wt o t ≤ s.toks.length) (lexNextW (Nat.le_refl _)) fun o t ht hw => ?_
      cases o with
      | none => exact Tri.pure hw
      | some tok =>
          have hlt : t.toks.length < s.toks.length := by simp [wt] at hw; omega
          have hrec : ∀ p w (u : PS), PRel t u → Tri (componentsLoop E n p w) u fun r v => wt r.2 v ≤ s.toks.length := by
            intro p w u hu
            refine (ih p w u (by have := hu.len; omega)).mono fun a v _ hv => ?_
            have := hu.len; omega
          simp only
          split
          · refine Tri.bind (Q := fun _ u => u.toks = t.toks) (Tri.incLine rfl) fun _ u hu hq => ?_
            refine Tri.bind (Q := fun o v => wt o v ≤ s.toks.length) (lexNextW (by rw [hq]; omega)) fun o v _ hv => ?_
            exact Tri.pure hv
          · split
            · refine Tri.bind (Q := fun _ _ => True) (Tri.setByte trivial) fun _ u hu _ => ?_
              have hw' : wt (some tok) u ≤ s.toks.length := by have := hu.len; simp [wt] at hw ⊢; omega
              split
              · exact Tri.pure hw'
              · split
                · split
                  · exact Tri.fail
                  · exact Tri.fail
                  · exact Tri.fail
                  · exact Tri.fail
                  · refine Tri.bind (compSpan_tri E _ _ u) fun a v hv _ => ?_
                    have hv := hu.trans hv
                    split
                    · split
                      · exact hrec _ _ v hv
                      · exact Tri.bind (Q := fun _ _ => True) (Tri.setByte trivial) fun _ _ _ _ => Tri.fail
                    · split
                      · exact Tri.bind (Q := fun _ _ => True) (Tri.setByte trivial) fun _ _ _ _ => Tri.fail
                      · exact Tri.bind (toComponent_tri E _ _ _ v) fun c x hx _ => hrec _ _ x (hv.trans hx)
                · exact Tri.pure hw'
            · exact Tri.pure hw

theorem pathRest_tri (p : Path) (c : Component) (s : PS) :
    Tri (pathRest E p c) s fun r t => wt r.2 t ≤ s.toks.length := by
  unfold pathRest
  split
  · exact Tri.fail
  · split
    · exact Tri.fail
    · refine Tri.getBind (Tri.bind (componentsLoop_tri E _ _ _ s (Nat.lt_succ_self _)) fun r x hx hr => ?_)
      simp only
      split
      · exact Tri.fail
      · exact Tri.pure hr

theorem pathFirst_tri : ∀ (ts : List Token) (o : Option Token) (p : Path) (s : PS), s.toks = ts →
    Tri (pathFirst E ts o p) s fun r t => wt r.2 t ≤ s.toks.length := by
  intro ts
  induction ts with
  | nil =>
      intro o p s hs
      cases o with
      | none => unfold pathFirst; exact Tri.pure (by simp [wt])
      | some tok =>
          unfold pathFirst
          split
          · refine Tri.bind (Q := fun _ u => u.toks.length ≤ s.toks.length) (Tri.setByte (Nat.le_refl _)) fun _ u hu hl => ?_
            split
            · refine Tri.bindT (toComponent_tri E _ _ _ u) fun c v hv => ?_
              refine Tri.bindT (Tri.orPanic fun _ _ => trivial) fun cs w hw => ?_
              exact (pathRest_tri E _ _ w).mono fun a x _ hx => by
                have := hv.len; have := hw.len; omega
            · exact Tri.pure (by simpa [wt] using hl)
          · exact Tri.fail
  | cons t ts ih =>
      intro o p s hs
      cases o with
      | none => unfold pathFirst; exact Tri.pure (by simp [wt])
      | some tok =>
          unfold pathFirst
          split
          · refine Tri.bind (Q := fun _ u => u.toks = s.toks) (Tri.setByte rfl) fun _ u hu hl => ?_
            split
            · refine Tri.bindT (toComponent_tri E _ _ _ u) fun c v hv => ?_
              refine Tri.bindT (Tri.orPanic fun _ _ => trivial) fun cs w hw => ?_
              exact (pathRest_tri E _ _ w).mono fun a x _ hx => by
                have := hv.len; have := hw.len; rw [hl] at *; omega
            · refine Tri.bind (Q := fun _ v => v.toks = ts)
                (Tri.modify ⟨by rw [hl, hs]; exact List.suffix_cons _ _, rfl, rfl, Nat.le_refl _⟩ rfl) fun _ v hv hq => ?_
              refine (ih (some t) p v hq).mono fun a x _ hx => ?_
              rw [hs]; rw [hq] at hx; simp; omega
          · exact Tri.fail

theorem pathParse_tri (lex : ParamTok) (sp : Span) (s : PS) :
    Tri (pathParse E lex sp) s fun r t => wt r.2 t ≤ s.toks.length := by
  unfold pathParse
  refine Tri.bind (Q := fun _ u => u = s) (Tri.lineRange rfl) fun _ u _ hu => ?_
  subst hu
  refine Tri.bind (Q := fun _ v => v = u) (Tri.orPanic fun _ _ => rfl) fun _ v _ hv => ?_
  subst hv
  simp only
  split
  · split
    · refine Tri.bind (lexNextW (Nat.le_refl _)) fun o w hw hq => Tri.getBind ?_
      exact (pathFirst_tri E _ _ _ w rfl).mono fun a x _ hx => by have := hw.len; omega
    · exact Tri.fail
  · refine Tri.getBind (Tri.bind (parentsLoop_tri _ _ _ rfl) fun r w hw hr => ?_)
    exact Tri.getBind ((pathFirst_tri E _ _ _ w rfl).mono fun a x _ hx => by have := hw.len; omega)
  · exact Tri.getBind (pathFirst_tri E _ _ _ v rfl)

theorem jsonLiteral_tri (lex : ParamTok) (sp : Span) (s : PS) : Tri (jsonLiteral E lex sp) s fun _ _ => True := by
  unfold jsonLiteral
  split
  · exact Tri.pure trivial
  · exact Tri.pure trivial
  · exact Tri.pure trivial
  · exact Tri.bindT (Tri.orPanic fun _ _ => trivial) fun _ _ _ => Tri.bindT (Tri.orPanic fun _ _ => trivial)
      fun _ _ _ => Tri.pure trivial
  · exact Tri.bindT (strLiteral_tri E _ _ s) fun _ _ _ => Tri.pure trivial
  · exact Tri.bindT (strLiteral_tri E _ _ s) fun _ _ _ => Tri.pure trivial
  · exact Tri.bindT (strLiteral_tri E _ _ s) fun _ _ _ => Tri.pure trivial
  · exact Tri.fail

/-- All six mutually recursive functions of call.rs, by one induction on the fuel. -/
theorem call_tri : ∀ n : Nat,
    (∀ lex sp (s : PS), 4 * s.toks.length + 3 ≤ n → Tri (valueP E n lex sp) s fun r t => wt r.2 t ≤ s.toks.length) ∧
    (∀ c sp ctx (s : PS), 4 * s.toks.length + 1 ≤ n → Tri (keyValueP E n c sp ctx) s fun r t => wt r.2 t ≤ s.toks.length) ∧
    (∀ c o ctx (s : PS), 4 * wt o s + 1 ≤ n → Tri (keyValueRest E n c o ctx) s fun r t => wt r.2 t ≤ s.toks.length) ∧
    (∀ c o ctx (s : PS), 4 * wt o s + 1 ≤ n → Tri (argumentsP E n c o ctx) s fun r t => wt r.2 t ≤ s.toks.length) ∧
    (∀ c o ctx (s : PS), 4 * wt o s + 1 ≤ n → Tri (targetP E n c o ctx) s fun r t => wt r.2 t ≤ s.toks.length) ∧
    (∀ sp (s : PS), 4 * s.toks.length + 2 ≤ n → Tri (subExprP E n sp) s fun r t => wt r.2 t ≤ s.toks.length) := by
  intro n
  induction n with
  | zero => refine ⟨?_, ?_, ?_, ?_, ?_, ?_⟩ <;> intros <;> omega
  | succ n ih =>
      obtain ⟨ihV, ihK, ihR, ihA, ihT, ihS⟩ := ih
      refine ⟨?_, ?_, ?_, ?_, ?_, ?_⟩
      · intro lex sp s hn
        unfold valueP
        split
        all_goals first
          | exact Tri.fail
          | (refine Tri.bind (pathParse_tri E _ sp s) fun r t ht hr => ?_
             try dsimp only
             split
             · exact Tri.pure hr
             · exact Tri.fail)
          | (refine Tri.bind (ihS sp s (by omega)) fun r t ht hr => ?_
             exact Tri.pure hr)
          | (refine Tri.bindT (Tri.lineRange trivial) fun _ t ht => ?_
             refine Tri.bindT (jsonLiteral_tri E _ _ t) fun r u hu => ?_
             try dsimp only
             refine Tri.bind (lexNextW (n := s.toks.length) (ht.trans hu).len) fun o v hv ho => Tri.pure ho)
      · intro c sp ctx s hn
        unfold keyValueP
        refine Tri.bind (Q := fun _ u => u = s) (Tri.orPanic fun _ _ => rfl) fun _ u _ hu => ?_
        subst hu
        refine Tri.bind (lexNextW (Nat.le_refl _)) fun o t ht ho => ?_
        cases o with
        | none => exact Tri.pure ho
        | some tok =>
            try dsimp only
            simp [wt] at ho
            split
            · refine Tri.bind (ihV _ _ t (by omega)) fun r v hv hr => ?_
              try dsimp only
              refine (ihR _ _ _ v (by omega)).mono fun a x _ hx => by have := hv.len; omega
            · exact Tri.fail
      · intro c o ctx s hn
        cases o with
        | none => unfold keyValueRest; exact Tri.pure (by simp [wt])
        | some tok =>
            have hn' : 4 * s.toks.length + 4 ≤ n := by simp [wt] at hn; omega
            unfold keyValueRest
            dsimp only
            split
            · split
              · refine Tri.bind (lexNextW (Nat.le_refl _)) fun o t ht ho => ?_
                exact (ihR _ _ _ t (by omega)).mono fun a x _ hx => by have := ht.len; first | omega | (rw [hu] at this; omega)
              · refine Tri.bind (Q := fun _ u => u.toks = s.toks) (Tri.incLine rfl) fun _ u _ hu => ?_
                refine Tri.bind (lexNextW (Nat.le_of_eq (by rw [hu]))) fun o t ht ho => ?_
                exact (ihR _ _ _ t (by omega)).mono fun a x _ hx => by have := ht.len; first | omega | (rw [hu] at this; omega)
              · exact ihK _ _ _ s (by omega)
              · exact Tri.pure (by simp [wt])
              · split
                · refine Tri.bind (lexNextW (Nat.le_refl _)) fun o t ht ho => Tri.pure ho
                · exact Tri.fail
              · exact Tri.fail
            · exact Tri.fail
      · intro c o ctx s hn
        cases o with
        | none => unfold argumentsP; exact Tri.pure (by simp [wt])
        | some tok =>
            have hn' : 4 * s.toks.length + 4 ≤ n := by simp [wt] at hn; omega
            unfold argumentsP
            dsimp only
            split
            · split
              all_goals first
                | exact Tri.fail
                | exact Tri.pure (by simp [wt])
                | (refine Tri.bind (lexNextW (Nat.le_refl _)) fun o t ht ho => ?_
                   exact (ihA _ _ _ t (by omega)).mono fun a x _ hx => by have := ht.len; first | omega | (rw [hu] at this; omega))
                | (refine Tri.bind (Q := fun _ u => u.toks = s.toks) (Tri.incLine rfl) fun _ u _ hu => ?_
                   refine Tri.bind (lexNextW (Nat.le_of_eq (by rw [hu]))) fun o t ht ho => ?_
                   exact (ihA _ _ _ t (by omega)).mono fun a x _ hx => by have := ht.len; first | omega | (rw [hu] at this; omega))
                | exact ihK _ _ _ s (by omega)
                | (refine Tri.bind (ihV _ _ s (by omega)) fun r t ht hr => ?_
                   exact (ihA _ _ _ t (by omega)).mono fun a x _ hx => by have := ht.len; first | omega | (rw [hu] at this; omega))
                | (split
                   · refine Tri.bind (lexNextW (Nat.le_refl _)) fun o t ht ho => Tri.pure ho
                   · exact Tri.fail)
            · exact Tri.fail
      · intro c o ctx s hn
        cases o with
        | none => unfold targetP; exact Tri.pure (by simp [wt])
        | some tok =>
            have hn' : 4 * s.toks.length + 4 ≤ n := by simp [wt] at hn; omega
            unfold targetP
            dsimp only
            split
            · split
              all_goals first
                | exact Tri.fail
                | (refine Tri.bind (lexNextW (Nat.le_refl _)) fun o t ht ho => ?_
                   exact (ihT _ _ _ t (by omega)).mono fun a x _ hx => by have := ht.len; first | omega | (rw [hu] at this; omega))
                | (refine Tri.bind (Q := fun _ u => u.toks = s.toks) (Tri.incLine rfl) fun _ u _ hu => ?_
                   refine Tri.bind (lexNextW (Nat.le_of_eq (by rw [hu]))) fun o t ht ho => ?_
                   exact (ihT _ _ _ t (by omega)).mono fun a x _ hx => by have := ht.len; first | omega | (rw [hu] at this; omega))
                | (refine Tri.bind (pathParse_tri E _ _ s) fun r t ht hr => ?_
                   try dsimp only
                   split <;> exact Tri.pure hr)
                | (split
                   · exact Tri.fail
                   · refine Tri.bind (ihS _ s (by omega)) fun r t ht hr => ?_
                     exact Tri.pure hr)
                | (refine Tri.bindT (Tri.orPanic fun _ _ => trivial) fun _ u hu => ?_
                   split
                   · exact Tri.fail
                   · exact Tri.pure (by simpa [wt] using hu.len))
            · exact Tri.fail
      · intro sp s hn
        unfold subExprP
        refine Tri.bind (Q := fun _ u => u.toks = s.toks) (Tri.setByte rfl) fun _ u _ hu => ?_
        refine Tri.bind (Q := fun _ v => v = u) (Tri.lineRange rfl) fun _ v _ hv => ?_
        subst hv
        refine Tri.bind (lexNextW (n := s.toks.length) (Nat.le_of_eq (by rw [hu]))) fun o t ht ho => ?_
        have hl : t.toks.length ≤ s.toks.length := by have := ht.len; rw [hu] at this; exact this
        refine Tri.bind (ihT _ _ _ t (by omega)) fun r w hw hr => ?_
        try dsimp only
        refine Tri.bind (ihA _ _ _ w (by omega)) fun r' x hx hr' => ?_
        try dsimp only
        split
        · exact Tri.fail
        · exact Tri.bind (Q := fun _ y => y = x) (Tri.line rfl) fun _ y _ hy => Tri.pure (by subst hy; have := hw.len; dsimp only; omega)

theorem flagsLoop_tri : ∀ (ts : List Token) (c : Call) (o : Option Token) (s : PS), s.toks = ts →
    Tri (flagsLoop ts c o) s fun r t => wt r.2 t ≤ wt o s := by
  intro ts
  induction ts with
  | nil =>
      intro c o s hs
      cases o with
      | none => unfold flagsLoop; exact Tri.pure (Nat.le_refl _)
      | some tok =>
          unfold flagsLoop
          split
          · exact Tri.pure (by simp [wt])
          · exact Tri.bindT (Tri.incLine trivial) fun _ u hu => Tri.pure (by have := hu.len; simp [wt]; omega)
          · exact Tri.bind (lexNextW (Nat.le_refl _)) fun o t _ h => Tri.pure (by simp only [wt] at *; omega)
          · exact Tri.bind (lexNextW (Nat.le_refl _)) fun o t _ h => Tri.pure (by simp only [wt] at *; omega)
          · exact Tri.pure (Nat.le_refl _)
  | cons t ts ih =>
      intro c o s hs
      cases o with
      | none => unfold flagsLoop; exact Tri.pure (Nat.le_refl _)
      | some tok =>
          unfold flagsLoop
          split
          · refine Tri.bind (Q := fun _ u => u.toks = ts)
              (Tri.modify ⟨by rw [hs]; exact List.suffix_cons _ _, rfl, rfl, Nat.le_refl _⟩ rfl) fun _ u _ hu => ?_
            exact (ih _ _ u hu).mono fun a v _ h => by simp [wt, hu, hs] at *; omega
          · refine Tri.bind (Q := fun _ u => u.toks = ts)
              (Tri.modify ⟨by rw [hs]; exact List.suffix_cons _ _, rfl, rfl, Nat.le_succ _⟩ rfl) fun _ u _ hu => ?_
            exact (ih _ _ u hu).mono fun a v _ h => by simp [wt, hu, hs] at *; omega
          · exact Tri.bind (lexNextW (Nat.le_refl _)) fun o t _ h => Tri.pure (by simp only [wt] at *; omega)
          · exact Tri.bind (lexNextW (Nat.le_refl _)) fun o t _ h => Tri.pure (by simp only [wt] at *; omega)
          · exact Tri.pure (Nat.le_refl _)

theorem callParse_tri (sp : Span) (s : PS) : Tri (callParse E sp) s fun _ _ => True := by
  unfold callParse
  refine Tri.bindT (Tri.setByte trivial) fun _ s _ => ?_
  refine Tri.bindT (Tri.lineRange trivial) fun _ s _ => ?_
  refine Tri.bindT (m := P.lexNext) ((lexNextW (Nat.le_refl _)).mono fun _ _ _ _ => trivial) fun o s _ => Tri.getBind ?_
  refine Tri.bindT ((flagsLoop_tri _ _ _ s rfl).mono fun _ _ _ _ => trivial) fun r s _ => ?_
  dsimp only
  split
  · exact Tri.fail
  · refine Tri.getBind (Tri.bindT (((call_tri E _).2.2.2.2.1 _ _ _ s ?_).mono fun _ _ _ _ => trivial) fun r s _ => ?_)
    · unfold callFuel wt; split <;> omega
    · refine Tri.getBind (Tri.bindT (((call_tri E _).2.2.2.1 _ _ _ s ?_).mono fun _ _ _ _ => trivial) fun r s _ => ?_)
      · unfold callFuel wt; split <;> omega
      · exact Tri.bindT (Tri.line trivial) fun _ s _ => Tri.pure trivial

theorem assignIfEscaped_tri (l : Link) (f : LinkFlags) (sp : Span) (p : LinkPart) (s : PS) :
    Tri (assignIfEscaped E l f sp p) s fun _ t => t.toks = s.toks := by
  unfold assignIfEscaped
  split
  · split
    · exact Tri.bind (Q := fun _ t => t = s) (Tri.orPanic fun _ _ => rfl) fun _ t _ h => Tri.pure (by rw [h])
    · exact Tri.bind (Q := fun _ t => t = s) (Tri.orPanic fun _ _ => rfl) fun _ t _ h => Tri.pure (by rw [h])
  · exact Tri.pure rfl

theorem hrefOwned_tri (l : Link) (f : LinkFlags) (sp : Span) (s : PS) :
    Tri (hrefOwned E l f sp) s fun _ t => t.toks = s.toks := by
  unfold hrefOwned
  split
  · exact Tri.bind (Q := fun _ t => t = s) (Tri.orPanic fun _ _ => rfl) fun _ t _ h => Tri.pure (by rw [h])
  · exact Tri.pure rfl

theorem linkValue_tri : ∀ (ts : List Token) (l : Link) (f : LinkFlags) (p : LinkPart) (s : PS), s.toks = ts →
    Tri (linkValue E ts l f p) s fun _ _ => True := by
  intro ts
  induction ts with
  | nil =>
      intro l f p s hs
      exact Tri.bindT (Tri.modify ⟨by simp, rfl, rfl, Nat.le_refl _⟩ trivial) fun _ _ _ => Tri.pure trivial
  | cons t ts ih =>
      intro l f p s hs
      unfold linkValue
      refine Tri.bind (Q := fun _ u => u.toks = ts)
        (Tri.modify ⟨by rw [hs]; exact List.suffix_cons _ _, rfl, rfl, Nat.le_refl _⟩ rfl) fun _ u _ hu => ?_
      split
      · refine Tri.bind (Tri.setByte (Q := fun _ v => v.toks = ts) hu) fun _ v _ hv => ?_
        split
        · exact Tri.bind (Q := fun _ w => w.toks = ts) (Tri.incLine hv) fun _ w _ hw => ih _ _ _ w hw
        · split <;> exact ih _ _ _ v hv
        · split
          · exact Tri.bind (assignIfEscaped_tri E _ _ _ _ v) fun _ w _ hw => ih _ _ _ w (hw.trans hv)
          · exact ih _ _ _ v hv
        · exact ih _ _ _ v hv
        · exact ih _ _ _ v hv
        · exact ih _ _ _ v hv
        · exact Tri.bind (assignIfEscaped_tri E _ _ _ _ v) fun _ w _ hw => Tri.pure trivial
        · exact Tri.fail
      · exact Tri.fail

theorem linkHref_tri : ∀ (ts : List Token) (l : Link) (f : LinkFlags) (s : PS), s.toks = ts →
    Tri (linkHref E ts l f) s fun _ _ => True := by
  intro ts
  induction ts with
  | nil =>
      intro l f s hs
      exact Tri.bindT (Tri.modify ⟨by simp, rfl, rfl, Nat.le_refl _⟩ trivial) fun _ _ _ => Tri.pure trivial
  | cons t ts ih =>
      intro l f s hs
      unfold linkHref
      refine Tri.bind (Q := fun _ u => u.toks = ts)
        (Tri.modify ⟨by rw [hs]; exact List.suffix_cons _ _, rfl, rfl, Nat.le_refl _⟩ rfl) fun _ u _ hu => ?_
      split
      · refine Tri.bind (Tri.setByte (Q := fun _ v => v.toks = ts) hu) fun _ v _ hv => ?_
        split
        · exact Tri.bindT (Tri.incLine trivial) fun _ w _ => Tri.pure trivial
        · exact ih _ _ v hv
        · exact Tri.bind (hrefOwned_tri E _ _ _ v) fun _ w _ hw => linkValue_tri E _ _ _ _ w (hw.trans hv)
        · exact ih _ _ v hv
        · exact ih _ _ v hv
        · exact ih _ _ v hv
        · exact Tri.bind (hrefOwned_tri E _ _ _ v) fun _ w _ hw => Tri.pure trivial
        · exact Tri.fail
      · exact Tri.fail

theorem linkParse_tri (sp : Span) (s : PS) : Tri (linkParse E sp) s fun _ _ => True := by
  unfold linkParse
  refine Tri.bindT (Tri.setByte trivial) fun _ s _ => ?_
  refine Tri.bindT (Tri.lineRange trivial) fun _ s _ => Tri.getBind ?_
  refine Tri.bindT (linkHref_tri E _ _ _ s rfl) fun l s _ => ?_
  split
  · exact Tri.fail
  · exact Tri.bindT (Tri.line trivial) fun _ s _ => Tri.pure trivial

theorem untilLoop_tri (stop : Token → Bool) : ∀ (ts : List Token) (sp : Span) (s : PS), s.toks = ts →
    Tri (untilLoop stop ts sp) s fun r t => wt r.2 t ≤ s.toks.length := by
  intro ts
  induction ts with
  | nil =>
      intro sp s hs
      exact Tri.bind (Q := fun _ u => u.toks = []) (Tri.modify ⟨by simp, rfl, rfl, Nat.le_refl _⟩ rfl)
        fun _ _ _ h => Tri.pure (by simp [wt, h])
  | cons t ts ih =>
      intro sp s hs
      unfold untilLoop
      refine Tri.bind (Q := fun _ u => u.toks = ts)
        (Tri.modify ⟨by rw [hs]; exact List.suffix_cons _ _, rfl, rfl, ?_⟩ rfl) fun _ u _ hu => ?_
      · dsimp only; split <;> omega
      · split
        · exact Tri.pure (by simp [wt, hs, hu])
        · refine Tri.bind (Tri.setByte (Q := fun _ v => v.toks = ts) hu) fun _ v _ hv => ?_
          exact (ih _ v hv).mono fun a w _ h => by rw [hv] at h; rw [hs]; simp; omega

theorem untilP_tri (stop : Token → Bool) (sp : Span) (s : PS) :
    Tri (untilP stop sp) s fun r t => wt r.2 t ≤ s.toks.length := Tri.getBind (untilLoop_tri _ _ _ s rfl)

theorem textUntil_tri (sp : Span) (stop : Token → Bool) (s : PS) :
    Tri (textUntil E sp stop) s fun _ _ => True := by
  unfold textUntil
  refine Tri.bindT (Tri.lineRange trivial) fun _ s _ => ?_
  refine Tri.bindT ((untilP_tri _ _ s).mono fun _ _ _ _ => trivial) fun r s _ => ?_
  dsimp only
  split
  · exact Tri.bindT (Tri.line trivial) fun _ s _ => Tri.pure trivial
  · exact Tri.pure trivial

theorem rawBlock_tri (sp : Span) (s : PS) : Tri (rawBlock E sp) s fun _ _ => True := by
  unfold rawBlock
  refine Tri.bindT (Tri.lineRange trivial) fun _ s _ => ?_
  refine Tri.bindT (callParse_tri E _ s) fun c s _ => ?_
  split
  · exact Tri.fail
  · refine Tri.bindT (Tri.orPanic fun _ _ => trivial) fun nm s _ => ?_
    refine Tri.bindT (textUntil_tri E _ _ s) fun o s _ => ?_
    split
    · exact Tri.fail
    · refine Tri.bindT (callParse_tri E _ s) fun c s _ => ?_
      split
      · exact Tri.fail
      · refine Tri.bindT (Tri.orPanic fun _ _ => trivial) fun nm s _ => ?_
        split
        · exact Tri.failWith
        · exact Tri.bindT (Tri.line trivial) fun _ s _ => Tri.pure trivial

theorem rawComment_tri (sp : Span) (s : PS) : Tri (rawComment E sp) s fun _ _ => True := by
  unfold rawComment
  refine Tri.bindT (textUntil_tri E _ _ s) fun o s _ => ?_
  split
  · exact Tri.pure trivial
  · exact Tri.fail

theorem rawStatement_tri (sp : Span) (s : PS) : Tri (rawStatement E sp) s fun _ _ => True := by
  unfold rawStatement
  refine Tri.bindT (textUntil_tri E _ _ s) fun o s _ => ?_
  split
  · exact Tri.pure trivial
  · exact Tri.fail

theorem commentP_tri (sp : Span) (s : PS) : Tri (commentP E sp) s fun _ _ => True := by
  unfold commentP
  refine Tri.bindT (textUntil_tri E _ _ s) fun o s _ => ?_
  split
  · exact Tri.pure trivial
  · exact Tri.fail

theorem scopeP_tri (sp : Span) (s : PS) : Tri (scopeP E sp) s fun _ _ => True := by
  unfold scopeP
  refine Tri.bindT (Tri.lineRange trivial) fun _ s _ => ?_
  exact Tri.bindT (callParse_tri E _ s) fun c s _ => Tri.pure trivial

end

/-! ### The top level, where blocks are opened and closed and a token may be pushed back -/

/-- Tokens left, counting the one pushed back. -/
def PS.left (s : PS) : Nat := wt s.next s

/-- How the state changes at the top level. -/
structure TRel (s t : PS) : Prop where
  toks : t.toks <:+ s.toks
  left : t.left ≤ s.left
  line : s.line ≤ t.line

theorem TRel.refl (s : PS) : TRel s s := ⟨List.suffix_refl _, Nat.le_refl _, Nat.le_refl _⟩

theorem TRel.trans {s t u : PS} (h : TRel s t) (h' : TRel t u) : TRel s u :=
  ⟨h'.toks.trans h.toks, Nat.le_trans h'.left h.left, Nat.le_trans h.line h'.line⟩

theorem PRel.top {s t : PS} (h : PRel s t) : TRel s t := by
  refine ⟨h.toks, ?_, h.line⟩
  have := h.len
  unfold PS.left wt
  rw [h.next]; omega

/-- `Tri` for `TRel`. -/
def Top {α : Type} (m : P α) (s : PS) (Q : α → PS → Prop) : Prop :=
  match m s with
  | (.ok a, t) => TRel s t ∧ Q a t
  | (.err _, t) => TRel s t
  | (.panic, t) => TRel s t
  | (.fuel, _) => False

theorem Tri.top {α : Type} {m : P α} {s : PS} {Q : α → PS → Prop} (h : Tri m s Q) : Top m s Q := by
  unfold Tri at h; unfold Top
  rcases hm : m s with ⟨r, t⟩
  rw [hm] at h
  cases r with
  | ok a => exact ⟨h.1.top, h.2⟩
  | err e => exact h.top
  | panic => exact h.top
  | fuel => exact h

namespace Top
variable {α β : Type} {s : PS} {Q : α → PS → Prop}

theorem bind {m : P α} {f : α → P β} {Q' : β → PS → Prop} (h : Top m s Q)
    (hf : ∀ a t, TRel s t → Q a t → Top (f a) t Q') : Top (m >>= f) s Q' := by
  unfold Top at h ⊢
  rw [P.bind_def]
  rcases hm : m s with ⟨r, t⟩
  rw [hm] at h
  cases r with
  | ok a =>
      have := hf a t h.1 h.2
      unfold Top at this
      simp only
      rcases hx : f a t with ⟨r', u⟩
      rw [hx] at this
      cases r' with
      | ok b => exact ⟨h.1.trans this.1, this.2⟩
      | err e => exact h.1.trans this
      | panic => exact h.1.trans this
      | fuel => exact this
  | err e => exact h
  | panic => exact h
  | fuel => exact h

theorem bindT {m : P α} {f : α → P β} {Q' : β → PS → Prop} (h : Top m s fun _ _ => True)
    (hf : ∀ a t, TRel s t → Top (f a) t Q') : Top (m >>= f) s Q' := bind h fun a t ht _ => hf a t ht

theorem mono {m : P α} {Q' : α → PS → Prop} (h : Top m s Q) (hq : ∀ a t, TRel s t → Q a t → Q' a t) :
    Top m s Q' := by
  unfold Top at h ⊢
  rcases hm : m s with ⟨r, t⟩
  rw [hm] at h
  cases r with
  | ok a => exact ⟨h.1, hq a t h.1 h.2⟩
  | err e => exact h
  | panic => exact h
  | fuel => exact h

theorem pure {a : α} (h : Q a s) : Top (Pure.pure a : P α) s Q := ⟨TRel.refl s, h⟩
theorem getBind {f : PS → P β} {Q : β → PS → Prop} (h : Top (f s) s Q) : Top (P.get >>= f) s Q := h
theorem modify {f : PS → PS} {Q : Unit → PS → Prop} (h : TRel s (f s)) (hq : Q () (f s)) : Top (P.modify f) s Q :=
  ⟨h, hq⟩
end Top

theorem tokenP_top (s : PS) : Top tokenP s fun o t => (o.isSome → t.left < s.left) ∧ (o = none → s.left = 0) := by
  unfold Top tokenP
  cases hn : s.next with
  | some t => exact ⟨⟨List.suffix_refl _, by simp [PS.left, wt], Nat.le_refl _⟩, by simp [PS.left, wt, hn]⟩
  | none =>
      cases ht : s.toks with
      | nil => exact ⟨TRel.refl s, by simp [PS.left, wt, hn, ht]⟩
      | cons t ts =>
          exact ⟨⟨by rw [ht]; exact List.suffix_cons _ _, by simp [PS.left, wt, hn, ht], Nat.le_refl _⟩,
            by simp [PS.left, wt, hn, ht]⟩

section
variable [Host] (E : PEnv)

theorem endBlock_top (sp : Span) (s : PS) : Top (endBlock E sp) s fun _ _ => True := by
  unfold endBlock
  refine Top.bindT (scopeP_tri E sp s).top fun b s _ => ?_
  refine Top.bindT (Tri.orPanic fun _ _ => trivial).top fun nm s _ => Top.getBind ?_
  split
  · exact Top.bindT (Tri.setByte trivial).top fun _ s _ => Tri.failWith.top
  · refine Top.bindT (Top.modify ⟨List.suffix_refl _, Nat.le_refl _, Nat.le_refl _⟩ trivial) fun _ s _ => ?_
    split
    · split
      · exact Tri.failWith.top
      · exact Top.bindT (Tri.line trivial).top fun _ s _ => Top.pure trivial
    · exact Tri.fail.top

/-- Text is followed by pushing back the token that ended it. -/
theorem until_next_top {α : Type} (stop : Token → Bool) (sp : Span) (g : Span × Option Token → Nat → α) (s : PS) :
    Top (do
      let r ← untilP stop sp
      P.modify (fun s => { s with next := r.2 })
      let l ← P.line
      Pure.pure (g r l)) s fun _ _ => True := by
  have h := untilP_tri stop sp s
  unfold Tri at h
  unfold Top
  simp only [P.bind_def, P.modify, P.line]
  rcases hm : untilP stop sp s with ⟨r, t⟩
  rw [hm] at h
  cases r with
  | ok r =>
      refine ⟨⟨h.1.toks, ?_, h.1.line⟩, trivial⟩
      have := h.2
      unfold PS.left
      show wt r.2 t ≤ wt s.next s
      exact Nat.le_trans this (by simp [wt])
  | err e => exact h.top
  | panic => exact h.top
  | fuel => exact h

theorem advance_top : ∀ n : Nat,
    (∀ tok (s : PS), 2 * s.left + 2 ≤ n → Top (advance E n tok) s fun _ _ => True) ∧
    (∀ (s : PS), 2 * s.left + 1 ≤ n → Top (blockLoop E n) s fun _ _ => True) := by
  intro n
  induction n with
  | zero => exact ⟨by intros; omega, by intros; omega⟩
  | succ n ih =>
      obtain ⟨ihA, ihB⟩ := ih
      constructor
      · intro tok s hn
        unfold advance
        refine Top.bind (Q := fun _ t => t.left = s.left) ?_ fun _ t _ ht => ?_
        · unfold P.incLineIf Top
          dsimp only
          split
          · exact ⟨⟨List.suffix_refl _, Nat.le_refl _, Nat.le_succ _⟩, rfl⟩
          · exact ⟨TRel.refl s, rfl⟩
        · split
          · refine Top.bindT (Tri.lineRange trivial).top fun _ s _ => ?_
            exact until_next_top _ _ _ s
          · split
            · exact Top.bindT (rawBlock_tri E _ t).top fun _ _ _ => Top.pure trivial
            · exact Top.bindT (rawComment_tri E _ t).top fun _ _ _ => Top.pure trivial
            · exact Top.bindT (rawStatement_tri E _ t).top fun _ _ _ => Top.pure trivial
            · exact Top.bindT (commentP_tri E _ t).top fun _ _ _ => Top.pure trivial
            · refine Top.bindT (scopeP_tri E _ t).top fun b u hu => ?_
              refine Top.bindT (Tri.orPanic fun _ _ => trivial).top fun nm v hv => ?_
              split
              · exact Top.bindT (Tri.setByte trivial).top fun _ _ _ => Tri.fail.top
              · refine Top.bindT (Top.modify ⟨List.suffix_refl _, Nat.le_refl _, Nat.le_refl _⟩ trivial) fun _ w hw => ?_
                have := hu.left; have := hv.left; have := hw.left
                exact ihB w (by omega)
            · exact endBlock_top E _ t
            · exact Top.bindT (callParse_tri E _ t).top fun _ _ _ => Top.pure trivial
            · exact Top.bindT (linkParse_tri E _ t).top fun _ _ _ => Top.pure trivial
            · exact Top.pure trivial
      · intro s hn
        unfold blockLoop
        refine Top.bind (tokenP_top s) fun o t ht ho => ?_
        cases o with
        | none => exact Top.pure trivial
        | some tok =>
            have := ho.1 rfl
            refine Top.bindT (ihA tok t (by omega)) fun node u hu => Top.getBind ?_
            split
            · exact Top.pure trivial
            · exact Top.pure trivial
            · refine Top.bindT (Tri.lineRange trivial).top fun _ v hv => ?_
              refine Top.bindT (Top.modify ⟨List.suffix_refl _, Nat.le_refl _, Nat.le_refl _⟩ trivial) fun _ w hw => ?_
              have := hu.left; have := hv.left; have := hw.left
              exact ihB w (by omega)

end
end Bracket
