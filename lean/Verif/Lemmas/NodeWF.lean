import Verif.Lemmas.CallWF

/-! Nodes lie where they should in the source. -/

set_option linter.unusedSectionVars false
set_option linter.unusedSimpArgs false
set_option linter.unusedVariables false

namespace Bracket
open Re Spec Props

/-! ### link.rs -/

/-- What is known of a link while it is read. -/
structure LinkInv (src : Str) (a off : Nat) (l : Link) : Prop where
  source : l.src = src
  opn : In src a off l.opn
  start : l.opn.start = a
  hs : l.hrefSpan.start = l.opn.stop
  href : In src a off l.hrefSpan
  label : Bd src l.labelSpan.start ∧ Bd src l.labelSpan.stop ∧ l.labelSpan.start ≤ off
  title : Bd src l.titleSpan.start ∧ Bd src l.titleSpan.stop ∧ l.titleSpan.start ≤ off

theorem LinkInv.mono {src : Str} {a off off' : Nat} {l : Link} (h : LinkInv src a off l) (hle : off ≤ off') : LinkInv src a off' l :=
  ⟨h.source, h.opn.mono (Nat.le_refl _) hle, h.start, h.hs, h.href.mono (Nat.le_refl _) hle,
    ⟨h.label.1, h.label.2.1, Nat.le_trans h.label.2.2 hle⟩, ⟨h.title.1, h.title.2.1, Nat.le_trans h.title.2.2 hle⟩⟩

def LinkQ (E : PEnv) (base : Nat) (all : List Token) (tag : Nat) (a off : Nat) (l l' : Link) (t : PS) : Prop :=
  ∃ m' off', off ≤ off' ∧ St E base all tag m' off' none t ∧ l'.line = l.line ∧ (l'.clo = l.clo ∨ LinkIn E.src a off' l' ∧ m' = .block)

theorem plain_link {t : Token} {k : LinkTok} (h : t.kind = .link k) (hk : k ≠ .newline) : t.isNewline = false := by
  rcases t with ⟨kd, sp⟩
  simp only at h
  subst h
  simp [Token.isNewline, hk]

section
variable [Host] {E : PEnv} {base : Nat} {all : List Token} {tag : Nat}

theorem St.link {t : Token} {k : LinkTok} {m : Mode} {off : Nat} {s : PS} (h : St E base all tag m off (some t) s) (hk : t.kind = .link k) (hn : k ≠ .newline) :
    St E base all tag (nextMode m t.kind) t.span.stop none s := by
  by_cases ht : t.kind = .link .text
  · exact h.linkText ht
  · exact h.skip (plain_link hk hn) ⟨ht, by rw [hk]; rfl⟩

theorem LinkQ.step {a off off' : Nat} {l l' l'' : Link} {t : PS} (h : LinkQ E base all tag a off' l' l'' t) (h1 : off ≤ off') (h2 : l'.line = l.line)
    (h3 : l'.clo = l.clo) : LinkQ E base all tag a off l l'' t := by
  obtain ⟨m', o', g1, g2, g3, g4⟩ := h
  exact ⟨m', o', by omega, g2, g3.trans h2, by rw [← h3]; exact g4⟩

theorem assignIfEscaped_wf {l : Link} {f : LinkFlags} {sp : Span} {p : LinkPart} {s : PS} {a off : Nat} (hl : LinkInv E.src a off l) (hsp : sp.start = off)
    (hb : Bd E.src off) : Tr E base (assignIfEscaped E l f sp p) s fun l' t => t = s ∧ LinkInv E.src a off l' ∧ l'.line = l.line ∧ l'.clo = l.clo ∧ l'.opn = l.opn := by
  unfold assignIfEscaped
  split
  · split
    · obtain ⟨w, hw⟩ := Spec.Bd.slice hl.label.1 hb hl.label.2.2
      refine Tr.orPanicBind (fun hno => by rw [hsp, hw] at hno; cases hno) fun v _ => Tr.pure ⟨rfl, ?_, rfl, rfl, rfl⟩
      exact ⟨hl.source, hl.opn, hl.start, hl.hs, hl.href, hl.label, hl.title⟩
    · obtain ⟨w, hw⟩ := Spec.Bd.slice hl.title.1 hb hl.title.2.2
      refine Tr.orPanicBind (fun hno => by rw [hsp, hw] at hno; cases hno) fun v _ => Tr.pure ⟨rfl, ?_, rfl, rfl, rfl⟩
      exact ⟨hl.source, hl.opn, hl.start, hl.hs, hl.href, hl.label, hl.title⟩
  · exact Tr.pure ⟨rfl, hl, rfl, rfl, rfl⟩

theorem LinkInv.close {src : Str} {a off e : Nat} {l : Link} {sp : Span} (hl : LinkInv src a off l) (hsp : In src off e sp) (he : sp.stop = e) :
    LinkIn src a e { l with clo := some sp } := by
  have hl' := hl.mono (Nat.le_trans (Nat.le_trans hsp.lo hsp.le) hsp.hi)
  exact ⟨hl.source, hl'.opn, hl.start, ⟨sp, rfl, hsp.mono hl.opn.hi (Nat.le_refl _), he⟩, hl'.href, ⟨hl.label.1, hl.label.2.1⟩, ⟨hl.title.1, hl.title.2.1⟩⟩

theorem linkValue_wf : ∀ (ts : List Token) (l : Link) (f : LinkFlags) (p : LinkPart) (m : Mode) (a off : Nat) (s : PS), s.toks = ts →
    St E base all tag m off none s → LinkInv E.src a off l → Tr E base (linkValue E ts l f p) s fun l' t => LinkQ E base all tag a off l l' t := by
  intro ts
  induction ts with
  | nil =>
      intro l f p m a off s hs h hl
      unfold linkValue
      refine Tr.modifyBind (Tr.pure ⟨m, off, Nat.le_refl _, h.drained hs, rfl, .inl rfl⟩)
  | cons t ts ih =>
      intro l f p m a off s hs h hl
      unfold linkValue
      refine Tr.modifyBind ?_
      have h := h.take hs
      have hlt := h.lt
      have hin := h.inn
      obtain ⟨w, hw⟩ := h.tok
      have hl' : LinkInv E.src a t.span.stop l := hl.mono (by omega)
      split
      · rename_i lex hk
        refine Tr.setByteBind ?_
        have hlk : lex ≠ .newline → St E base all tag (nextMode m t.kind) t.span.stop none { { s with toks := ts } with byte := t.span.stop - 1 } :=
          fun hn => (h.link hk hn).last hw h.byteLe
        have rec' : lex ≠ .newline → ∀ l' f p, LinkInv E.src a t.span.stop l' → l'.line = l.line → l'.clo = l.clo →
            Tr E base (linkValue E ts l' f p) { { s with toks := ts } with byte := t.span.stop - 1 } fun l' t => LinkQ E base all tag a off l l' t := by
          intro hn l' f p h1 h2 h3
          exact (ih l' f p _ a _ _ rfl (hlk hn) h1).mono fun _ _ hq => hq.step (by omega) h2 h3
        split
        · have h' := (h.nl (by simp [Token.isNewline, hk]) (by rw [hk]; rfl)).last hw h.byteLe
          exact Tr.incLineBind ((ih l f p _ a _ _ rfl h' hl').mono fun _ _ hq => hq.step (by omega) rfl rfl)
        · split
          · exact rec' (by simp) _ _ _ ⟨hl'.source, hl'.opn, hl'.start, hl'.hs, hl'.href, ⟨hl'.label.1, hin.be, hl'.label.2.2⟩, hl'.title⟩ rfl rfl
          · exact rec' (by simp) _ _ _ ⟨hl'.source, hl'.opn, hl'.start, hl'.hs, hl'.href, hl'.label, ⟨hl'.title.1, hin.be, hl'.title.2.2⟩⟩ rfl rfl
        · split
          · refine Tr.bind (assignIfEscaped_wf (a := a) (off := off) (l := { l with labelSpan := ⟨l.labelSpan.start, t.span.start⟩ })
              ⟨hl.source, hl.opn, hl.start, hl.hs, hl.href, ⟨hl.label.1, hin.bs, hl.label.2.2⟩, hl.title⟩ h.start h.bd) ?_
            rintro l2 u ⟨rfl, h1, h2, h3, h4⟩
            have h1 := h1.mono (off' := t.span.stop) (by omega)
            exact rec' (by simp) _ _ _ ⟨h1.source, h1.opn, h1.start, h1.hs, h1.href, h1.label, ⟨hin.be, h1.title.2.1, Nat.le_refl _⟩⟩ h2 h3
          · exact rec' (by simp) _ _ _ ⟨hl'.source, hl'.opn, hl'.start, hl'.hs, hl'.href, hl'.label, ⟨hl'.title.1, hin.be, hl'.title.2.2⟩⟩ rfl rfl
        · exact rec' (by simp) _ _ _ hl' rfl rfl
        · exact rec' (by simp) _ _ _ hl' rfl rfl
        · exact rec' (by simp) _ _ _ hl' rfl rfl
        · refine Tr.bind (assignIfEscaped_wf (a := a) (off := off) (l := l) hl h.start h.bd) ?_
          rintro l2 u ⟨rfl, h1, h2, h3, h4⟩
          have hm : m = .link := by have := h.mode; rw [hk] at this; exact this
          subst hm
          exact Tr.pure ⟨_, _, by omega, hlk (by simp), h2, .inr ⟨h1.close hin rfl, by rw [hk]; rfl⟩⟩
        · exact Tr.fail (hlk (by simp))
      · exact Tr.fail h

theorem hrefOwned_wf {l : Link} {f : LinkFlags} {sp : Span} {s : PS} {a off : Nat} (hl : LinkInv E.src a off l) (hsp : sp.start = off)
    (hb : Bd E.src off) : Tr E base (hrefOwned E l f sp) s fun l' t => t = s ∧ LinkInv E.src a off l' ∧ l'.line = l.line ∧ l'.clo = l.clo := by
  unfold hrefOwned
  split
  · obtain ⟨w, hw⟩ := Spec.Bd.slice hl.opn.be hb hl.opn.hi
    refine Tr.orPanicBind (fun hno => by rw [hsp, hw] at hno; cases hno) fun v _ => Tr.pure ⟨rfl, ?_, rfl, rfl⟩
    exact ⟨hl.source, hl.opn, hl.start, hl.hs, hl.href, hl.label, hl.title⟩
  · exact Tr.pure ⟨rfl, hl, rfl, rfl⟩

theorem linkHref_wf : ∀ (ts : List Token) (l : Link) (f : LinkFlags) (m : Mode) (a off : Nat) (s : PS), s.toks = ts →
    St E base all tag m off none s → LinkInv E.src a off l → Tr E base (linkHref E ts l f) s fun l' t => LinkQ E base all tag a off l l' t := by
  intro ts
  induction ts with
  | nil =>
      intro l f m a off s hs h hl
      unfold linkHref
      refine Tr.modifyBind (Tr.pure ⟨m, off, Nat.le_refl _, h.drained hs, rfl, .inl rfl⟩)
  | cons t ts ih =>
      intro l f m a off s hs h hl
      unfold linkHref
      refine Tr.modifyBind ?_
      have h := h.take hs
      have hlt := h.lt
      have hin := h.inn
      obtain ⟨w, hw⟩ := h.tok
      have hl' : LinkInv E.src a t.span.stop l := hl.mono (by omega)
      split
      · rename_i lex hk
        refine Tr.setByteBind ?_
        have hlk : lex ≠ .newline → St E base all tag (nextMode m t.kind) t.span.stop none { { s with toks := ts } with byte := t.span.stop - 1 } :=
          fun hn => (h.link hk hn).last hw h.byteLe
        have rec' : lex ≠ .newline → ∀ l' f, LinkInv E.src a t.span.stop l' → l'.line = l.line → l'.clo = l.clo →
            Tr E base (linkHref E ts l' f) { { s with toks := ts } with byte := t.span.stop - 1 } fun l' t => LinkQ E base all tag a off l l' t := by
          intro hn l' f h1 h2 h3
          exact (ih l' f _ a _ _ rfl (hlk hn) h1).mono fun _ _ hq => hq.step (by omega) h2 h3
        split
        · exact Tr.incLineBind (Tr.pure ⟨_, _, by omega, (h.nl (by simp [Token.isNewline, hk]) (by rw [hk]; rfl)).last hw h.byteLe, rfl, .inl rfl⟩)
        · refine rec' (by simp) _ _ ⟨hl'.source, hl'.opn, hl'.start, hl'.hs, ⟨hl'.href.bs, hin.be, hl'.href.lo, ?_, Nat.le_refl _⟩, hl'.label, hl'.title⟩ rfl rfl
          have := hl'.href.le; have := hl'.href.hi; simp; omega
        · refine Tr.bind (hrefOwned_wf (a := a) (off := off) (l := l) hl h.start h.bd) ?_
          rintro l2 u ⟨rfl, h1, h2, h3⟩
          have h1 := h1.mono (off' := t.span.stop) (by omega)
          have h4 : LinkInv E.src a t.span.stop { l2 with labelSpan := ⟨t.span.stop, l2.labelSpan.stop⟩ } :=
            ⟨h1.source, h1.opn, h1.start, h1.hs, h1.href, ⟨hin.be, h1.label.2.1, Nat.le_refl _⟩, h1.title⟩
          refine (linkValue_wf _ _ _ _ _ a _ _ rfl (hlk (by simp)) h4).mono ?_
          intro _ _ hq
          exact hq.step (Nat.le_of_lt hlt) h2 h3
        · exact rec' (by simp) _ _ hl' rfl rfl
        · exact rec' (by simp) _ _ hl' rfl rfl
        · exact rec' (by simp) _ _ hl' rfl rfl
        · refine Tr.bind (hrefOwned_wf (a := a) (off := off) (l := l) hl h.start h.bd) ?_
          rintro l2 u ⟨rfl, h1, h2, h3⟩
          have hm : m = .link := by have := h.mode; rw [hk] at this; exact this
          subst hm
          exact Tr.pure ⟨_, _, by omega, hlk (by simp), h2, .inr ⟨h1.close hin rfl, by rw [hk]; rfl⟩⟩
        · exact Tr.fail (hlk (by simp))
      · exact Tr.fail h

theorem linkParse_wf {k : Kind} {sp : Span} {m : Mode} {off : Nat} {s : PS} (hk : isOpener k = true) (hn : Token.isNewline ⟨k, sp⟩ = false)
    (hl : k ≠ .link .text) (ht : isTag k = true) (h : St0 E base all m off (some ⟨k, sp⟩) s) :
    Tr E base (linkParse E sp) s fun l t => ∃ off', sp.stop ≤ off' ∧ St E base all off .block off' none t ∧ LinkIn E.src off off' l ∧ l.line.start = s.line := by
  have hlt : off < sp.stop := h.lt
  have hin : In E.src off sp.stop sp := h.inn
  obtain ⟨w, hw⟩ := h.tok
  have h' : St E base all off _ sp.stop none { s with byte := sp.stop } := h.enter ht hn hl
  unfold linkParse
  refine Tr.setByteBind (Tr.lineRangeBind (Tr.getBind ?_))
  have hb := hin.be
  refine Tr.bind (linkHref_wf _ _ _ _ off _ _ rfl h' ⟨rfl, hin, h.start, rfl, ⟨hb, hb, ?_, Nat.le_refl _, Nat.le_refl _⟩,
    ⟨hb, hb, Nat.le_refl _⟩, ⟨hb, hb, Nat.le_refl _⟩⟩) ?_
  · simp [Link.new]; omega
  rintro l t ⟨m', off', h1, h2, h3, h4⟩
  split
  · exact Tr.fail h2
  · rename_i sp' hsp
    rcases h4 with h4 | ⟨h4, rfl⟩
    · rw [h4] at hsp; cases hsp
    · refine Tr.lineBind (Tr.pure ⟨off', by omega, h2, ⟨h4.source, h4.opn, h4.start, h4.clo, h4.href, h4.label, h4.title⟩, ?_⟩)
      simp only [h3]; rfl

/-! ### block.rs -/

theorem untilLoop_wf (I : Mode → Prop) (stop : Token → Bool) (hstop : ∀ t, I (modeOf t.kind) → stop t = true → t.isNewline = false)
    (hI : ∀ t, I (modeOf t.kind) → stop t = false → I (nextMode (modeOf t.kind) t.kind)) :
    ∀ (ts : List Token) (sp : Span) (m : Mode) (off : Nat) (s : PS), s.toks = ts → St0 E base all m off none s → I m → sp.stop = off →
    Tr E base (untilLoop stop ts sp) s fun r t => ∃ m' off', off ≤ off' ∧ St0 E base all m' off' r.2 t ∧ r.1 = ⟨sp.start, off'⟩ ∧ I m' ∧
      (∀ c, r.2 = some c → stop c = true) ∧ (r.2 = none → t.toks = []) ∧ (r.2 = none → ts ≠ [] → t.byte + 1 = off') ∧
      (r.2 = none → ts = [] → t.byte = s.byte ∧ off' = off) := by
  intro ts
  induction ts with
  | nil =>
      intro sp m off s hs h hi hsp
      unfold untilLoop
      refine Tr.modifyBind (Tr.pure ⟨m, off, Nat.le_refl _, ⟨?_, by simp, h.byte, h.line, h.tight, h.hall⟩, by rw [← hsp], hi, by simp, by simp, by simp, by simp⟩)
      have := h.rest; rw [hs] at this; exact this
  | cons t ts ih =>
      intro sp m off s hs h hi hsp
      unfold untilLoop
      refine Tr.modifyBind ?_
      have h := h.take hs
      have hlt := h.lt
      have hm := h.mode
      obtain ⟨w, hw⟩ := h.tok
      split
      · rename_i hst
        have hn := hstop t (by rw [← hm]; exact hi) hst
        rw [hn]
        exact Tr.pure ⟨m, off, Nat.le_refl _, h, by rw [← hsp], hi, by rintro _ ⟨⟩; exact hst, by simp, by simp, by simp⟩
      · rename_i hst
        refine Tr.setByteBind ?_
        have hi' := hI t (by rw [← hm]; exact hi) (by simpa using hst)
        rw [← hm] at hi'
        have h' : St0 E base all (nextMode m t.kind) t.span.stop none { s with toks := ts, line := if t.isNewline then s.line + 1 else s.line } := by
          rcases hn : t.isNewline with _ | _
          · by_cases hl : t.kind = .link .text
            · exact h.linkText hl
            · exact h.skip hn hl
          · exact h.nl hn
        refine (ih ⟨sp.start, t.span.stop⟩ _ _ _ rfl (h'.setByte hw.byteLast) hi' rfl).mono ?_
        rintro r u ⟨m', off', g1, g2, g3, g4, g5, g6, g7, g8⟩
        refine ⟨m', off', by omega, g2, g3, g4, g5, g6, ?_, by simp⟩
        rintro hr -
        by_cases hts : ts = []
        · obtain ⟨k1, k3⟩ := g8 hr hts
          rw [k1, k3]
          show t.span.stop - 1 + 1 = _
          omega
        · exact g7 hr hts

theorem textUntil_wf (I : Mode → Prop) {stop : Token → Bool} (hstop : ∀ t, I (modeOf t.kind) → stop t = true → t.isNewline = false)
    (hI : ∀ t, I (modeOf t.kind) → stop t = false → I (nextMode (modeOf t.kind) t.kind)) {sp : Span} {m : Mode} {off : Nat} {s : PS}
    (h : St0 E base all m off none s) (hi : I m) (hsp : sp.stop = off) :
    Tr E base (textUntil E sp stop) s fun r t => (r = none → ∃ m' off', St0 E base all m' off' none t ∧ t.toks = [] ∧ (s.toks ≠ [] → t.byte + 1 = off') ∧
      (s.toks = [] → t.byte = s.byte ∧ off' = off)) ∧ ∀ tb c, r = some (tb, c) → ∃ m' off' l, off ≤ off' ∧
      St0 E base all m' off' (some c) t ∧ stop c = true ∧ tb = ⟨E.src, ⟨E.src, ⟨off, off'⟩, ⟨s.line, l⟩⟩, sp, c.span⟩ := by
  unfold textUntil
  refine Tr.lineRangeBind ?_
  unfold untilP
  refine Tr.bind (Tr.getBind (untilLoop_wf I stop hstop hI _ ⟨sp.stop, sp.stop⟩ m off s rfl h hi hsp)) ?_
  rintro ⟨sp', o⟩ t ⟨m', off', h1, h2, h3, h4, h5, h6, h7, h8⟩
  dsimp only at h2 h3 h5 h6 h7 h8 ⊢
  split
  · rename_i c
    refine Tr.lineBind (Tr.pure ⟨by simp, ?_⟩)
    rintro tb c' e
    simp only [Option.some.injEq, Prod.mk.injEq] at e
    obtain ⟨rfl, rfl⟩ := e
    exact ⟨m', off', t.line + 1, h1, h2, h5 _ rfl, by rw [h3, hsp]⟩
  · exact Tr.pure ⟨fun _ => ⟨m', off', h2, h6 rfl, h7 rfl, h8 rfl⟩, by simp⟩
end
end Bracket
