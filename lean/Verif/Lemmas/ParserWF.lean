import Verif.Lemmas.Source
import Verif.Spec.Where
import Verif.Props.Snippet

/-! What the parser builds lies where it should in the source, and when it panics. -/

set_option linter.unusedSectionVars false
set_option linter.unusedSimpArgs false
set_option linter.unusedVariables false

namespace Bracket
open Re Spec Props

/-! ### Triples -/

/-- On success `Q`; a panic has a cause and an error is about a place. -/
def Tr [Host] {α : Type} (E : PEnv) (base : Nat) (m : P α) (s : PS) (Q : α → PS → Prop) : Prop :=
  match m s with
  | (.ok a, t) => Q a t
  | (.panic, _) => Cause E.src E.fileName
  | (.err e, _) => Located E.src E.fileName base e
  | (.fuel, _) => True

namespace Tr
variable [Host] {E : PEnv} {base : Nat} {α β : Type} {s : PS} {Q : α → PS → Prop}

theorem bind {m : P α} {f : α → P β} {Q' : β → PS → Prop} (h : Tr E base m s Q)
    (hf : ∀ a t, Q a t → Tr E base (f a) t Q') : Tr E base (m >>= f) s Q' := by
  unfold Tr at h ⊢
  rw [P.bind_def]
  rcases hm : m s with ⟨r, t⟩
  rw [hm] at h
  cases r with
  | ok a => exact hf a t h
  | err e => exact h
  | panic => exact h
  | fuel => trivial

theorem mono {m : P α} {Q' : α → PS → Prop} (h : Tr E base m s Q) (hq : ∀ a t, Q a t → Q' a t) : Tr E base m s Q' := by
  unfold Tr at h ⊢
  rcases hm : m s with ⟨r, t⟩
  rw [hm] at h
  cases r with
  | ok a => exact hq a t h
  | err e => exact h
  | panic => exact h
  | fuel => trivial

/-- Together with what is known from `Tri`. -/
theorem withRel {m : P α} {Q' : α → PS → Prop} (h : Tr E base m s Q) (h' : Tri m s Q') :
    Tr E base m s fun a t => Q a t ∧ PRel s t := by
  unfold Tr at h ⊢
  unfold Tri at h'
  rcases hm : m s with ⟨r, t⟩
  rw [hm] at h h'
  cases r with
  | ok a => exact ⟨h, h'.1⟩
  | err e => exact h
  | panic => exact h
  | fuel => trivial

theorem pure {a : α} (h : Q a s) : Tr E base (Pure.pure a : P α) s Q := h
theorem fuel : Tr E base (P.fuel : P α) s Q := trivial
theorem panic (h : Cause E.src E.fileName) : Tr E base (P.panic : P α) s Q := h
theorem getBind {f : PS → P β} {Q : β → PS → Prop} (h : Tr E base (f s) s Q) : Tr E base (P.get >>= f) s Q := h
theorem lineBind {f : Nat → P β} {Q : β → PS → Prop} (h : Tr E base (f s.line) s Q) : Tr E base (P.line >>= f) s Q := h
theorem lineRangeBind {f : Span → P β} {Q : β → PS → Prop} (h : Tr E base (f ⟨s.line, s.line + 1⟩) s Q) :
    Tr E base (P.lineRange >>= f) s Q := h
theorem setByteBind {n : Nat} {f : Unit → P β} {Q : β → PS → Prop} (h : Tr E base (f ()) { s with byte := n } Q) :
    Tr E base (P.setByte n >>= f) s Q := h
theorem incLineBind {f : Unit → P β} {Q : β → PS → Prop} (h : Tr E base (f ()) { s with line := s.line + 1 } Q) :
    Tr E base (P.incLine >>= f) s Q := h
theorem modifyBind {g : PS → PS} {f : Unit → P β} {Q : β → PS → Prop} (h : Tr E base (f ()) (g s) Q) :
    Tr E base (P.modify g >>= f) s Q := h
theorem orPanicBind {o : Option α} {f : α → P β} {Q : β → PS → Prop} (hn : o = none → Cause E.src E.fileName)
    (h : ∀ a, o = some a → Tr E base (f a) s Q) : Tr E base (P.orPanic o >>= f) s Q := by
  cases o with
  | none => exact hn rfl
  | some a => exact h a rfl
end Tr

/-! ### Places -/

/-- The parser is at byte `off`, in lexer mode `m` there, with the token `o` in hand; its line is in order. -/
structure St0 (E : PEnv) (base : Nat) (all : List Token) (m : Mode) (off : Nat) (o : Option Token) (s : PS) : Prop where
  rest : Rest E.src m off (o.toList ++ s.toks)
  suf : o.toList ++ s.toks <:+ all
  byte : ByteOk E.src s.byte
  line : s.line ≤ base + newlines E.src off
  tight : Tight E.src all → s.line = base + newlines E.src off
  hall : all = lex E.src

/-- The same inside a tag: its position is in the tag. -/
structure St (E : PEnv) (base : Nat) (all : List Token) (tag : Nat) (m : Mode) (off : Nat) (o : Option Token) (s : PS) : Prop extends St0 E base all m off o s where
  near : Anchor all tag (o.toList ++ s.toks) ∧ tag ≤ s.byte ∧ s.byte ≤ off

section
variable {E : PEnv} {base : Nat} {all : List Token} {tag : Nat} {m : Mode} {off : Nat} {s : PS} {t : Token}

theorem ByteOk.lt {src : Str} {n : Nat} (h : n < blen src) : ByteOk src n := ⟨Nat.le_of_lt h, fun e => by omega⟩

theorem TokAt.le {src : Str} {w : Str} (h : TokAt src m off t w) : t.span.stop ≤ blen src := h.inn.be.le

theorem TokAt.byteStart {src : Str} {w : Str} (h : TokAt src m off t w) : ByteOk src t.span.start :=
  ByteOk.lt (by have := h.le; have := h.lt; rw [h.start]; omega)
theorem TokAt.byteLast {src : Str} {w : Str} (h : TokAt src m off t w) : ByteOk src (t.span.stop - 1) :=
  ByteOk.lt (by have := h.le; have := h.lt; omega)
theorem TokAt.byteStop {src : Str} {w : Str} (h : TokAt src m off t w) (hk : isOpener t.kind = true) : ByteOk src t.span.stop := by
  refine ⟨h.le, fun e => .inr ?_⟩
  obtain ⟨pre, r, e', hp, _⟩ := h.place
  have hr : r = [] := by
    rw [h.stop, e', blen_append, blen_append] at e
    exact blen_eq_zero.1 (by omega)
  subst hr
  have hne := h.ne
  refine ⟨pre ++ w.dropLast, w.getLast hne, ?_, h.opener hk _ (List.getLast_mem hne)⟩
  rw [e', List.append_nil, List.append_assoc, List.dropLast_concat_getLast]

theorem TokAt.newlines {src : Str} {w : Str} (h : TokAt src m off t w) :
    newlines src t.span.stop = Spec.newlines src off + w.count '\n' := by
  obtain ⟨pre, r, e, hp, _⟩ := h.place
  rw [h.stop, ← hp, newlines_pre e, ← blen_append, newlines_pre (show src = (pre ++ w) ++ r by rw [e, List.append_assoc]),
    List.count_append]

namespace St0

theorem tok (h : St0 E base all m off (some t) s) : ∃ w, TokAt E.src m off t w := by
  obtain ⟨w, hw, _⟩ := h.rest.cons
  exact ⟨w, hw⟩

theorem start (h : St0 E base all m off (some t) s) : t.span.start = off := by
  obtain ⟨w, hw⟩ := h.tok
  exact hw.start

theorem inn (h : St0 E base all m off (some t) s) : In E.src off t.span.stop t.span := by
  obtain ⟨w, hw⟩ := h.tok
  exact hw.inn

theorem lt (h : St0 E base all m off (some t) s) : off < t.span.stop := by
  obtain ⟨w, hw⟩ := h.tok
  exact hw.lt

theorem mode (h : St0 E base all m off (some t) s) : m = modeOf t.kind := by
  obtain ⟨w, hw⟩ := h.tok
  exact hw.mode

/-- Past a token without newlines. -/
theorem skip (h : St0 E base all m off (some t) s) (hn : t.isNewline = false) (hl : t.kind ≠ .link .text) :
    St0 E base all (nextMode m t.kind) t.span.stop none s := by
  obtain ⟨w, hw, hr⟩ := h.rest.cons
  have : newlines E.src t.span.stop = newlines E.src off := by
    rw [hw.newlines, List.count_eq_zero.2 (hw.noNewline hn hl)]; rfl
  exact ⟨hr, (List.suffix_cons _ _).trans h.suf, h.byte, by rw [this]; exact h.line, by rw [this]; exact h.tight, h.hall⟩

/-- Past a newline. -/
theorem nl (h : St0 E base all m off (some t) s) (hn : t.isNewline = true) :
    St0 E base all (nextMode m t.kind) t.span.stop none { s with line := s.line + 1 } := by
  obtain ⟨w, hw, hr⟩ := h.rest.cons
  have : newlines E.src t.span.stop = newlines E.src off + 1 := by
    rw [hw.newlines, hw.newline hn]; rfl
  refine ⟨hr, (List.suffix_cons _ _).trans h.suf, h.byte, ?_, ?_, h.hall⟩
  · rw [this]; have := h.line; simp; omega
  · intro hT; rw [this, h.tight hT]; simp; omega

/-- Past a token without counting. -/
theorem drop (h : St0 E base all m off (some t) s) (hT : Tight E.src all → ∀ w, TokAt E.src m off t w → '\n' ∉ w) :
    St0 E base all (nextMode m t.kind) t.span.stop none s := by
  obtain ⟨w, hw, hr⟩ := h.rest.cons
  refine ⟨hr, (List.suffix_cons _ _).trans h.suf, h.byte, ?_, ?_, h.hall⟩
  · rw [hw.newlines]; have := h.line; omega
  · intro hT'
    rw [hw.newlines, List.count_eq_zero.2 (hT hT' w hw)]
    exact h.tight hT'

/-- Past a token of a link. -/
theorem linkText (h : St0 E base all m off (some t) s) (hn : t.kind = .link .text) :
    St0 E base all (nextMode m t.kind) t.span.stop none s := by
  refine h.drop fun hT w hw => hT.1 t (h.suf.subset (by simp)) hn w hw.slice

theorem setByte {o : Option Token} {n : Nat} (h : St0 E base all m off o s) (hb : ByteOk E.src n) : St0 E base all m off o { s with byte := n } :=
  ⟨h.rest, h.suf, hb, h.line, h.tight, h.hall⟩

/-- The next token. -/
theorem take (h : St0 E base all m off none s) {ts : List Token} (e : s.toks = t :: ts) :
    St0 E base all m off (some t) { s with toks := ts } := by
  refine ⟨?_, ?_, h.byte, h.line, h.tight, h.hall⟩
  · have := h.rest; rw [e] at this; exact this
  · have := h.suf; rw [e] at this; exact this

theorem bd {o : Option Token} (h : St0 E base all m off o s) : Bd E.src off := h.rest.bd

end St0

omit m off s t in
theorem Spec.Anchor.skip {a : Nat} {t : Token} {rest : List Token} (h : Anchor all a (t :: rest)) (ht : inCall t.kind = true) : Anchor all a rest := by
  obtain ⟨l, op, mid, e, h1, h2, h3⟩ := h
  refine ⟨l, op, mid ++ [t], by rw [e]; simp, h1, ?_, h3⟩
  intro x hx
  rcases List.mem_append.1 hx with hx | hx
  · exact h2 x hx
  · simp at hx; subst hx; exact ht

/-- Lexer modes inside a tag. -/
def callMode : Mode → Bool
  | .params | .dquote | .squote | .array | .link => true
  | _ => false

omit m off s t in
theorem callMode_in {k : Kind} (h : callMode (modeOf k) = true) : inCall k = true := by
  cases k <;> first | rfl | cases h

omit m off s t in
theorem after_params {k : ParamTok} (h : k ≠ .fin) : callMode (nextMode (modeOf (.params k)) (.params k)) = true := by
  cases k <;> first | rfl | exact absurd rfl h

namespace St

/-- Past a token without newlines. -/
theorem skip (h : St E base all tag m off (some t) s) (hn : t.isNewline = false) (hl : t.kind ≠ .link .text ∧ inCall t.kind = true) :
    St E base all tag (nextMode m t.kind) t.span.stop none s := ⟨h.toSt0.skip hn hl.1, h.near.1.skip hl.2, h.near.2.1, Nat.le_trans h.near.2.2 (Nat.le_of_lt h.lt)⟩

/-- Past a newline. -/
theorem nl (h : St E base all tag m off (some t) s) (hn : t.isNewline = true) (ht : inCall t.kind = true) :
    St E base all tag (nextMode m t.kind) t.span.stop none { s with line := s.line + 1 } := ⟨h.toSt0.nl hn, h.near.1.skip ht, h.near.2.1, Nat.le_trans h.near.2.2 (Nat.le_of_lt h.lt)⟩

/-- Past a token without counting. -/
theorem drop (h : St E base all tag m off (some t) s) (ht : inCall t.kind = true) (hT : Tight E.src all → ∀ w, TokAt E.src m off t w → '\n' ∉ w) :
    St E base all tag (nextMode m t.kind) t.span.stop none s := ⟨h.toSt0.drop hT, h.near.1.skip ht, h.near.2.1, Nat.le_trans h.near.2.2 (Nat.le_of_lt h.lt)⟩

/-- Past a token of a link. -/
theorem linkText (h : St E base all tag m off (some t) s) (hn : t.kind = .link .text) :
    St E base all tag (nextMode m t.kind) t.span.stop none s := ⟨h.toSt0.linkText hn, h.near.1.skip (by rw [hn]; rfl), h.near.2.1, Nat.le_trans h.near.2.2 (Nat.le_of_lt h.lt)⟩

theorem setByte {o : Option Token} {n : Nat} (h : St E base all tag m off o s) (hb : ByteOk E.src n) (h1 : s.byte ≤ n) (h2 : n ≤ off) :
    St E base all tag m off o { s with byte := n } := by
  obtain ⟨k1, k2, k3⟩ := h.near
  exact ⟨h.toSt0.setByte hb, k1, Nat.le_trans k2 h1, h2⟩

theorem byteLe {o : Option Token} (h : St E base all tag m off o s) : s.byte ≤ off := by
  exact h.near.2.2

/-- At the token in hand. -/
theorem here (h : St E base all tag m off (some t) s) : St E base all tag m off (some t) { s with byte := t.span.start } := by
  obtain ⟨w, hw⟩ := h.tok
  exact h.setByte hw.byteStart (by rw [h.start]; exact h.byteLe) (by rw [h.start]; exact Nat.le_refl _)

/-- At the end of the token that was just read, from a state before it. -/
theorem last {o : Option Token} {n : Nat} {t : Token} {m' : Mode} {w : Str} (h : St E base all tag m t.span.stop o s) (hw : TokAt E.src m' n t w) (hb : s.byte ≤ n) :
    St E base all tag m t.span.stop o { s with byte := t.span.stop - 1 } := by
  have := hw.lt
  exact h.setByte hw.byteLast (by omega) (by omega)

/-- The next token. -/
theorem take (h : St E base all tag m off none s) {ts : List Token} (e : s.toks = t :: ts) :
    St E base all tag m off (some t) { s with toks := ts } := by
  refine ⟨h.toSt0.take e, ?_⟩
  have := h.near
  rw [e] at this
  exact this

/-- Nothing is left. -/
theorem drained (h : St E base all tag m off none s) (e : s.toks = []) : St E base all tag m off none { s with toks := [] } := by
  have h1 := h.rest
  have h2 := h.near
  rw [e] at h1 h2
  exact ⟨⟨h1, by simp, h.byte, h.line, h.tight, h.hall⟩, h2⟩

end St

theorem Rest.startsAt {src : Str} {m : Mode} {off : Nat} {ts : List Token} (h : Rest src m off ts) : StartsAt src ts off := by
  cases ts with
  | nil => exact h.done
  | cons t ts =>
      obtain ⟨w, hw, _⟩ := h.cons
      exact hw.start


variable [Host]

theorem Tr.failWith {α : Type} {Q : α → PS → Prop} {o : Option Token} {k : SynKind} {ns : List Str} (h : St E base all tag m off o s) :
    Tr E base (P.failWith E k ns : P α) s Q := by
  unfold Tr P.failWith
  cases hi : errorInfo E.src E.fileName s.line s.byte ns with
  | none => exact .snippet _ _ _ hi h.byte
  | some i =>
      have hall := h.hall
      subst hall
      exact ⟨s.line, s.byte, off, ns, _, hi, h.suf, h.rest.startsAt, ⟨h.line, h.tight⟩, .inl ⟨tag, h.near⟩⟩
theorem Tr.fail {α : Type} {Q : α → PS → Prop} {o : Option Token} {k : SynKind} (h : St E base all tag m off o s) :
    Tr E base (P.fail E k : P α) s Q := Tr.failWith h

theorem Tr.lexNext {β : Type} {f : Option Token → P β} {Q : β → PS → Prop} (h : St E base all tag m off none s)
    (hf : ∀ o t, St E base all tag m off o t → Tr E base (f o) t Q) : Tr E base (P.lexNext >>= f) s Q := by
  unfold Tr
  rw [P.bind_def]
  unfold P.lexNext
  cases e : s.toks with
  | nil => exact hf none s h
  | cons t ts => exact hf (some t) _ (h.take e)

theorem Tr.lexNext' {β : Type} {f : Option Token → P β} {Q : β → PS → Prop} (h : St E base all tag m off none s)
    (hf : ∀ o t, St E base all tag m off o t → o.toList ++ t.toks = s.toks → Tr E base (f o) t Q) : Tr E base (P.lexNext >>= f) s Q := by
  unfold Tr
  rw [P.bind_def]
  unfold P.lexNext
  cases e : s.toks with
  | nil => exact hf none s h rfl
  | cons t ts => exact hf (some t) _ (h.take e) e.symm
end

/-! ### string.rs -/

/-- A one-byte character stands at byte `e`. -/
def Small (src : Str) (e : Nat) : Prop := ∃ a c r, src = a ++ c :: r ∧ blen a = e ∧ c.utf8Size = 1

theorem Small.next {src : Str} {e : Nat} (h : Small src e) : Bd src (e + 1) := by
  obtain ⟨a, c, r, rfl, rfl, hc⟩ := h
  exact ⟨a ++ [c], r, by simp, by simp [blen, hc]⟩

theorem Small.le {src : Str} {e n : Nat} (h : Small src e) (hn : Bd src n) (hlt : e < n) : e + 1 ≤ n := hlt

theorem TokAt.small {src : Str} {m : Mode} {off : Nat} {t : Token} {w : Str} (h : TokAt src m off t w)
    (hw : ∃ c u, w = c :: u ∧ c.utf8Size = 1) : Small src off := by
  obtain ⟨c, u, rfl, hc⟩ := hw
  obtain ⟨pre, r, e, hp, _⟩ := h.place
  exact ⟨pre, c, u ++ r, by rw [e]; simp, hp, hc⟩

theorem litTok_plain {ty : LitType} {t : Token} {k : StrTok} (h : ty.tok t.kind = some k) (hk : k ≠ .newline) :
    t.isNewline = false ∧ t.kind ≠ .link .text ∧ inCall t.kind = true := by
  rcases t with ⟨kd, sp⟩
  cases ty <;> cases kd <;> simp [LitType.tok] at h <;> subst h <;> simp [Token.isNewline, hk, inCall]

section
variable [Host] {E : PEnv} {base : Nat} {all : List Token} {tag : Nat}

theorem St.litEnd {m : Mode} {off : Nat} {t : Token} {s : PS} {ty : LitType} (h : St E base all tag m off (some t) s) (hk : ty.tok t.kind = some .fin) :
    callMode (nextMode m t.kind) = true := by
  rw [h.mode]
  revert hk
  generalize t.kind = k
  intro hk
  cases ty <;> cases k <;> simp [LitType.tok] at hk <;> subst hk <;> rfl

theorem strLoop_wf (st : Nat) (hst : Bd E.src st) : ∀ (ts : List Token) (e : Nat) (fl : RawLit) (m : Mode) (off : Nat) (s : PS), s.toks = ts →
    St E base all tag m off none s → Bd E.src e → st ≤ e → e ≤ off → (e = off ∨ Small E.src e) →
    Tr E base (strLoop E st ts e fl) s fun r t => ∃ m' off', off ≤ off' ∧ St E base all tag m' off' none t ∧ r.1.start = st ∧
      Bd E.src r.1.stop ∧ st ≤ r.1.stop ∧ r.1.stop + 1 ≤ off' ∧ Bd E.src (r.1.stop + 1) ∧ r.2.type = fl.type ∧ callMode m' = true := by
  intro ts
  induction ts with
  | nil =>
      intro e fl m off s hs h he hle hlo hsm
      exact Tr.modifyBind (Tr.fail (h.drained hs))
  | cons t ts ih =>
      intro e fl m off s hs h he hle hlo hsm
      unfold strLoop
      refine Tr.modifyBind ?_
      have h := h.take hs
      obtain ⟨w, hw⟩ := h.tok
      cases hk : fl.type.tok t.kind with
      | none => exact Tr.fail h
      | some k =>
          have esc : k = .escapedNewline ∨ k = .escaped ∨ k = .fin → Small E.src e := by
            intro hx
            rcases hsm with rfl | hsm
            · exact hw.small (hw.strHead hk hx)
            · exact hsm
          have hlt := h.lt
          have hbe := h.inn.be
          have text : k ≠ .newline → ∀ fl', fl'.type = fl.type → Tr E base (strLoop E st ts t.span.stop fl') { { s with toks := ts } with byte := t.span.stop - 1 } fun r u =>
              ∃ m' off', off ≤ off' ∧ St E base all tag m' off' none u ∧ r.1.start = st ∧
              Bd E.src r.1.stop ∧ st ≤ r.1.stop ∧ r.1.stop + 1 ≤ off' ∧ Bd E.src (r.1.stop + 1) ∧ r.2.type = fl.type ∧ callMode m' = true := by
            intro hk' fl' hfl
            have h' := (h.skip (litTok_plain hk hk').1 (litTok_plain hk hk').2).last hw h.byteLe
            refine (ih t.span.stop fl' _ _ _ rfl h' hbe (by omega) (Nat.le_refl _) (.inl rfl)).mono ?_
            rintro r u ⟨m', off', h1, h2, h3, h4, h5, h6, h7, h8⟩
            exact ⟨m', off', by omega, h2, h3, h4, h5, h6, h7, by rw [← hfl]; exact h8.1, h8.2⟩
          have other : k ≠ .newline → Small E.src e → ∀ fl', fl'.type = fl.type → Tr E base (strLoop E st ts e fl') { s with toks := ts } fun r u =>
              ∃ m' off', off ≤ off' ∧ St E base all tag m' off' none u ∧ r.1.start = st ∧
              Bd E.src r.1.stop ∧ st ≤ r.1.stop ∧ r.1.stop + 1 ≤ off' ∧ Bd E.src (r.1.stop + 1) ∧ r.2.type = fl.type ∧ callMode m' = true := by
            intro hk' hsm' fl' hfl
            have h' := h.skip (litTok_plain hk hk').1 (litTok_plain hk hk').2
            refine (ih e fl' _ _ _ rfl h' he hle (by omega) (.inr hsm')).mono ?_
            rintro r u ⟨m', off', h1, h2, h3, h4, h5, h6, h7, h8⟩
            exact ⟨m', off', by omega, h2, h3, h4, h5, h6, h7, by rw [← hfl]; exact h8.1, h8.2⟩
          cases k with
          | newline => exact Tr.fail h
          | escapedNewline =>
              dsimp only
              split
              · exact Tr.setByteBind (text (by simp) fl rfl)
              · exact other (by simp) (esc (by simp)) _ rfl
          | escaped => exact other (by simp) (esc (by simp)) _ rfl
          | fin =>
              have h' := h.skip (litTok_plain hk (by simp)).1 (litTok_plain hk (by simp)).2
              exact Tr.pure ⟨_, t.span.stop, by omega, h', rfl, he, hle, show e + 1 ≤ _ by omega, (esc (by simp)).next, rfl, h.litEnd hk⟩
          | text => exact Tr.setByteBind (text (by simp) fl rfl)
          | error => exact Tr.setByteBind (text (by simp) fl rfl)

/-- What `strParse` yields: a range starting right after the opening quote. -/
theorem strParse_wf {m : Mode} {off : Nat} {s : PS} (h : St E base all tag m off none s) {sp : Span} (hsp : sp.stop = off) (ty : LitType) :
    Tr E base (strParse E sp ty) s fun r t => ∃ m' off', off ≤ off' ∧ St E base all tag m' off' none t ∧ In E.src off off' r.1 ∧
      r.1.stop + 1 ≤ off' ∧ Bd E.src (r.1.stop + 1) ∧ r.1.start = off ∧ callMode m' = true := by
  unfold strParse
  refine Tr.getBind ?_
  refine (strLoop_wf sp.stop (by rw [hsp]; exact h.bd) _ _ _ m off s rfl h (by rw [hsp]; exact h.bd) (Nat.le_refl _) (by omega)
    (.inl hsp)).mono ?_
  rintro r t ⟨m', off', h1, h2, h3, h4, h5, h6, h7, _, h8⟩
  rw [hsp] at h3 h5
  exact ⟨m', off', h1, h2, ⟨by rw [h3]; exact h.bd, h4, by omega, by omega, by omega⟩, h6, h7, h3, h8⟩

theorem strLiteral_wf {m : Mode} {off : Nat} {s : PS} (h : St E base all tag m off none s) {sp : Span} (hsp : sp.stop = off) (ty : LitType) :
    Tr E base (strLiteral E sp ty) s fun r t => ∃ m' off', off ≤ off' ∧ St E base all tag m' off' none t ∧ In E.src off off' r.2 ∧
      r.2.stop + 1 ≤ off' ∧ Bd E.src (r.2.stop + 1) := by
  unfold strLiteral
  refine Tr.bind (strParse_wf h hsp ty) ?_
  rintro ⟨sp', fl⟩ t ⟨m', off', h1, h2, h3, h4, h5, _⟩
  obtain ⟨w, hw⟩ := h3.slice
  refine Tr.orPanicBind (fun hn => ?_) fun a _ => Tr.pure ⟨m', off', h1, h2, h3, h4, h5⟩
  rw [hw] at hn; cases hn

/-! ### path.rs -/

theorem compValue_wf {sp : Span} {raw : Option RawLit} {s : PS} {Q : Option Str → PS → Prop} (hsp : ∃ w, slice E.src sp.start sp.stop = some w)
    (hq : ∀ v, Q v s) : Tr E base (compValue E sp raw) s Q := by
  obtain ⟨w, hw⟩ := hsp
  unfold compValue
  split
  · split
    · exact Tr.orPanicBind (fun hn => by rw [hw] at hn; cases hn) fun a _ => Tr.pure (hq _)
    · exact Tr.pure (hq _)
  · exact Tr.pure (hq _)

theorem toComponent_wf {lex : ParamTok} {sp : Span} {raw : Option RawLit} {s : PS} {lo hi : Nat} {m : Mode} {off : Nat} {o : Option Token} (hb : St E base all tag m off o s)
    (hsp : In E.src lo hi sp) (hw : lex = .identifier → Word E.src sp) :
    Tr E base (toComponent E lex sp raw) s fun c t => t = s ∧ CompIn E.src lo hi c := by
  unfold toComponent
  refine Tr.bind (Q := fun _ t => t = s) (compValue_wf hsp.slice fun _ => rfl) ?_
  rintro v t rfl
  split
  · rename_i k hk
    refine Tr.pure ⟨rfl, rfl, hsp, ?_⟩
    intro he
    refine hw ?_
    simp only at he
    subst he
    cases lex <;> simp [compKind] at hk
    rfl
  · exact Tr.fail hb

omit [Host] in
theorem CompIn.mono {src : Str} {lo hi lo' hi' : Nat} {c : Component} (h : CompIn src lo hi c) (h1 : lo' ≤ lo) (h2 : hi ≤ hi') :
    CompIn src lo' hi' c := ⟨h.source, h.span.mono h1 h2, h.word⟩

omit [Host] in
theorem PathIn.mono {src : Str} {lo hi lo' hi' : Nat} {p : Path} (h : PathIn src lo hi p) (h1 : lo' ≤ lo) (h2 : hi ≤ hi') :
    PathIn src lo' hi' p := ⟨h.source, h.span.mono h1 h2, h.ne, fun c hc => CompIn.mono (h.comps c hc) h1 h2⟩

omit [Host] in
theorem PathIn.ext {src : Str} {lo hi n : Nat} {p : Path} (h : PathIn src lo hi p) (hb : Bd src n) (hle : hi ≤ n) :
    PathIn src lo n (p.extend n) :=
  ⟨h.source, ⟨h.span.bs, hb, h.span.lo, Nat.le_trans h.span.le (Nat.le_trans h.span.hi hle), Nat.le_refl _⟩,
    Nat.lt_of_lt_of_le h.ne (Nat.le_trans h.span.hi hle), fun c hc => CompIn.mono (h.comps c hc) (Nat.le_refl _) hle⟩

omit [Host] in
theorem PathIn.add {src : Str} {lo hi : Nat} {p : Path} {c : Component} (h : PathIn src lo hi p) (hc : CompIn src lo hi c) :
    PathIn src lo hi (p.add c) := by
  refine ⟨h.source, h.span, h.ne, ?_⟩
  intro d hd
  simp only [Path.add, List.mem_append, List.mem_singleton] at hd
  rcases hd with hd | rfl
  · exact h.comps d hd
  · exact hc

/-- Where a path parser leaves off. -/
def PathQ (E : PEnv) (base : Nat) (all : List Token) (tag : Nat) (lo off : Nat) (r : Option Path × Option Token) (t : PS) : Prop :=
  ∃ m' off', off ≤ off' ∧ St E base all tag m' off' r.2 t ∧ ∀ p, r.1 = some p → PathIn E.src lo off' p

theorem plain_params {t : Token} {k : ParamTok} (h : t.kind = .params k) (hk : k ≠ .newline) : t.isNewline = false ∧ t.kind ≠ .link .text ∧ inCall t.kind = true := by
  rcases t with ⟨kd, sp⟩
  simp only at h
  subst h
  simp [Token.isNewline, hk, inCall]

theorem St.word {tok : Token} {m : Mode} {off : Nat} {s : PS} (h : St E base all tag m off (some tok) s) (hk : tok.kind = .params .identifier) :
    Word E.src tok.span := by
  obtain ⟨w, hw⟩ := h.tok
  refine ⟨hw.ident hk, ?_⟩
  have e : (⟨.params .identifier, tok.span⟩ : Token) = tok := by rw [← hk]
  rw [e, ← h.hall]
  exact h.suf.subset (by simp)

theorem compSpan_wf {tok : Token} {lex : ParamTok} {m : Mode} {off : Nat} {s : PS} (hk : tok.kind = .params lex) (hn : lex ≠ .newline) (hfin : lex ≠ .fin)
    (h : St E base all tag m off (some tok) s) :
    Tr E base (compSpan E lex tok.span) s fun r t => ∃ m' off', tok.span.stop ≤ off' ∧ St E base all tag m' off' none t ∧ In E.src off off' r.1 ∧
      r.1.start < off' ∧ (lex = .identifier → Word E.src r.1) ∧ tag ≤ r.1.start ∧ callMode m' = true := by
  have h' := h.skip (plain_params hk hn).1 (plain_params hk hn).2
  have hlt := h.lt
  obtain ⟨w, hw⟩ := h.tok
  unfold compSpan
  split
  · rename_i ty hty
    refine Tr.bind (strParse_wf h' rfl ty) ?_
    rintro ⟨sp, fl⟩ t ⟨m', off', h1, h2, h3, h4, _, _, h9⟩
    have hlt' : sp.start < off' := by have := h3.le; simp at this h4; omega
    refine Tr.pure ⟨m', off', h1, h2, h3.mono (by omega) (Nat.le_refl _), hlt', ?_, ?_⟩
    · rintro rfl
      simp [litOf] at hty
    · have := h'.near.2.1
      have := h3.lo
      have := h.byteLe
      exact ⟨by simp at *; omega, h9⟩
  · have hst := h.start
    refine Tr.pure ⟨_, _, Nat.le_refl _, h', h.inn, show tok.span.start < _ by rw [h.start]; exact hlt, ?_, ?_⟩
    · rintro rfl
      exact h.word hk
    · have := h'.near.2.1
      have := h.byteLe
      refine ⟨by show tag ≤ tok.span.start; omega, ?_⟩
      have := h.mode
      rw [hk] at this
      rw [this, hk]
      exact after_params hfin

theorem componentsLoop_wf : ∀ (n : Nat) (p : Path) (w : Bool) (m : Mode) (lo off : Nat) (s : PS), St E base all tag m off none s → callMode m = true →
    lo ≤ off → PathIn E.src lo off p → Tr E base (componentsLoop E n p w) s fun r t => PathQ E base all tag lo off (some r.1, r.2) t := by
  intro n
  induction n with
  | zero => intro p w m lo off s _ _ _ _; exact Tr.fuel
  | succ n ih =>
      intro p w m lo off s h hm hlo hp
      unfold componentsLoop
      refine Tr.lexNext h fun o t h => ?_
      cases o with
      | none => exact Tr.pure ⟨m, off, Nat.le_refl _, h, by rintro _ ⟨⟩; exact hp⟩
      | some tok =>
          have hlt := h.lt
          have hbe := h.inn.be
          obtain ⟨wd, hw⟩ := h.tok
          dsimp only
          split
          · rename_i hn
            refine Tr.incLineBind (Tr.lexNext (h.nl hn (callMode_in (by rw [← h.mode]; exact hm))) fun o u h' => Tr.pure ⟨_, _, by omega, h', ?_⟩)
            rintro _ ⟨⟩
            exact PathIn.mono hp (Nat.le_refl _) (by omega)
          · rename_i hnn
            split
            · rename_i lex hk
              have hn : lex ≠ .newline := by rintro rfl; simp [Token.isNewline, hk] at hnn
              refine Tr.setByteBind ?_
              have h := h.here
              have ret : PathQ E base all tag lo off (some p, some tok) { t with byte := tok.span.start } :=
                ⟨m, off, Nat.le_refl _, h, by rintro _ ⟨⟩; exact hp⟩
              split
              · exact Tr.pure ret
              · split
                · rename_i hpc
                  split
                  · exact Tr.fail h
                  · exact Tr.fail h
                  · exact Tr.fail h
                  · exact Tr.fail h
                  · refine Tr.bind (compSpan_wf hk hn (by rintro rfl; simp [isPathComponent] at hpc) h) ?_
                    rintro ⟨sp, raw⟩ u ⟨m', off', h1, h2, h3, h5, h4, h6, h7⟩
                    have hbs : St E base all tag m' off' none { u with byte := sp.start } := ⟨h2.toSt0.setByte (ByteOk.lt (Nat.lt_of_lt_of_le h5 h2.bd.le)), h2.near.1, h6, Nat.le_of_lt h5⟩
                    have hp' : PathIn E.src lo off' (p.extend tok.span.stop) := PathIn.mono (PathIn.ext hp hbe (by omega)) (Nat.le_refl _) h1
                    have rc : ∀ q w, PathIn E.src lo off' q → Tr E base (componentsLoop E n q w) u fun r t => PathQ E base all tag lo off (some r.1, r.2) t := by
                      intro q w hq
                      refine (ih q w m' lo off' u h2 h7 (by omega) hq).mono ?_
                      rintro r v ⟨m'', off'', g1, g2⟩
                      exact ⟨m'', off'', by omega, g2⟩
                    dsimp only
                    split
                    · split
                      · exact rc _ _ hp'
                      · exact Tr.setByteBind (Tr.fail hbs)
                    · split
                      · exact Tr.setByteBind (Tr.fail hbs)
                      · refine Tr.bind (toComponent_wf h2 (h3.mono hlo (Nat.le_refl _)) h4) ?_
                        rintro c v ⟨rfl, hc⟩
                        exact rc _ _ (PathIn.add hp' hc)
                · exact Tr.pure ret
            · exact Tr.pure ⟨m, off, Nat.le_refl _, h, by rintro _ ⟨⟩; exact hp⟩

theorem pathRest_wf {p : Path} {c : Component} {m : Mode} {lo off : Nat} {s : PS} (h : St E base all tag m off none s) (hm : callMode m = true) (hlo : lo ≤ off)
    (hp : PathIn E.src lo off p) (hc : CompIn E.src lo off c) : Tr E base (pathRest E p c) s fun r t => PathQ E base all tag lo off r t := by
  unfold pathRest
  split
  · exact Tr.fail h
  · split
    · exact Tr.fail h
    · refine Tr.getBind (Tr.bind (componentsLoop_wf _ _ _ m lo off s h hm hlo (PathIn.add hp hc)) ?_)
      rintro ⟨q, nx⟩ t ⟨m', off', h1, h2, h3⟩
      dsimp only
      split
      · exact Tr.fail h2
      · exact Tr.pure ⟨m', off', h1, h2, h3⟩

/-- Tokens read since `/` or `../`. -/
def Run (all : List Token) (rest : List Token) : Prop :=
  ∃ l a run, all = l ++ a :: (run ++ rest) ∧ (a.kind = .params .parentRef ∨ a.kind = .params .pathDelimiter) ∧
    ∀ x ∈ run, ∃ k, x.kind = .params k ∧ isPathComponent k = false

theorem Run.start {a : Token} {rest : List Token} (h : a :: rest <:+ all)
    (hk : a.kind = .params .parentRef ∨ a.kind = .params .pathDelimiter) : Run all rest := by
  obtain ⟨l, rfl⟩ := h
  exact ⟨l, a, [], rfl, hk, by simp⟩

theorem Run.next {t : Token} {rest : List Token} (h : Run all (t :: rest)) {k : ParamTok} (hk : t.kind = .params k)
    (hc : isPathComponent k = false) : Run all rest := by
  obtain ⟨l, a, run, e, h1, h2⟩ := h
  refine ⟨l, a, run ++ [t], by rw [e]; simp, h1, ?_⟩
  intro x hx
  rcases List.mem_append.1 hx with hx | hx
  · exact h2 x hx
  · simp at hx; subst hx; exact ⟨k, hk, hc⟩

theorem St.skipRun {tok : Token} {m : Mode} {off : Nat} {s : PS} (h : St E base all tag m off (some tok) s) {k : ParamTok}
    (hk : tok.kind = .params k) (hr : Run all (tok :: s.toks)) : St E base all tag (nextMode m tok.kind) tok.span.stop none s := by
  refine h.drop (by rw [hk]; rfl) fun hT w hw => ?_
  refine hw.noNewline ?_ (by rw [hk]; simp)
  obtain ⟨l, a, run, e, h1, h2⟩ := hr
  have := hT.2 l a run tok s.toks e h1 h2
  rw [hk] at this
  simp only [ne_eq, Kind.params.injEq] at this
  exact (plain_params hk this).1

theorem pathComp_wf {lex : ParamTok} {tok : Token} {p : Path} {m : Mode} {lo off : Nat} {s : PS} (hk : tok.kind = .params lex)
    (hc : isPathComponent lex = true) (h : St E base all tag m off (some tok) s) (hlo : lo ≤ off) (hp : PathIn E.src lo off p ∨ (p.src = E.src ∧ p.span = tok.span ∧ p.components = [])) :
    Tr E base (do
      let c ← toComponent E lex tok.span none
      let cs ← P.orPanic c.asStr
      pathRest E (markPath (p.extend tok.span.stop) c cs) c) s fun r t => PathQ E base all tag lo off r t := by
  have hn : lex ≠ .newline := by rintro rfl; simp [isPathComponent] at hc
  have h' := h.skip (plain_params hk hn).1 (plain_params hk hn).2
  have hlt := h.lt
  obtain ⟨w, hw⟩ := h.tok
  refine Tr.bind (toComponent_wf h (h.inn.mono hlo (Nat.le_refl _)) (fun e => by subst e; exact h.word hk)) ?_
  rintro c t ⟨rfl, hcomp⟩
  obtain ⟨cw, hcw⟩ := hcomp.span.slice
  refine Tr.orPanicBind (fun hno => ?_) fun cs _ => ?_
  · unfold Component.asStr at hno; rw [hcomp.source, hcw] at hno; cases hno
  · have hp1 : PathIn E.src lo tok.span.stop (p.extend tok.span.stop) := by
      rcases hp with hp | ⟨h1, h2, h3⟩
      · exact PathIn.ext hp h.inn.be (by omega)
      · refine ⟨h1, ?_, ?_, ?_⟩
        · unfold Path.extend; dsimp only; rw [h2]; exact h.inn.mono hlo (Nat.le_refl _)
        · unfold Path.extend; dsimp only; rw [h2, h.start]; exact hlt
        · intro d hd; simp [Path.extend, h3] at hd
    have hp2 : PathIn E.src lo tok.span.stop (markPath (p.extend tok.span.stop) c cs) := ⟨hp1.source, hp1.span, hp1.ne, hp1.comps⟩
    refine (pathRest_wf h' (by rw [h.mode, hk]; exact after_params (by rintro rfl; simp [isPathComponent] at hc)) (by omega) hp2 hcomp).mono ?_
    rintro r u ⟨m', off', g1, g2, g3⟩
    exact ⟨m', off', by omega, g2, g3⟩

theorem pathFirst_wf : ∀ (ts : List Token) (o : Option Token) (p : Path) (m : Mode) (lo off : Nat) (s : PS), s.toks = ts →
    St E base all tag m off o s → lo ≤ off → PathIn E.src lo off p → Run all (o.toList ++ s.toks) →
    Tr E base (pathFirst E ts o p) s fun r t => PathQ E base all tag lo off r t := by
  intro ts
  induction ts with
  | nil =>
      intro o p m lo off s hs h hlo hp hr
      cases o with
      | none => unfold pathFirst; exact Tr.pure ⟨m, off, Nat.le_refl _, h, by rintro _ ⟨⟩⟩
      | some tok =>
          have hlt := h.lt
          obtain ⟨w, hw⟩ := h.tok
          unfold pathFirst
          split
          · rename_i lex hk
            refine Tr.setByteBind ?_
            have h := h.here
            split
            · rename_i hc
              exact pathComp_wf hk hc h hlo (.inl hp)
            · exact Tr.pure ⟨_, _, by omega, h.skipRun hk hr, by rintro _ ⟨⟩⟩
          · exact Tr.fail h
  | cons t ts ih =>
      intro o p m lo off s hs h hlo hp hr
      cases o with
      | none => unfold pathFirst; exact Tr.pure ⟨m, off, Nat.le_refl _, h, by rintro _ ⟨⟩⟩
      | some tok =>
          have hlt := h.lt
          obtain ⟨w, hw⟩ := h.tok
          unfold pathFirst
          split
          · rename_i lex hk
            refine Tr.setByteBind ?_
            have h := h.here
            split
            · rename_i hc
              exact pathComp_wf hk hc h hlo (.inl hp)
            · rename_i hc
              refine Tr.modifyBind ?_
              have h' := (h.skipRun hk hr).take (t := t) (ts := ts) hs
              refine (ih (some t) p _ lo _ _ rfl h' (by omega) (PathIn.mono hp (Nat.le_refl _) (by omega)) ?_).mono ?_
              · have := Run.next hr hk (by simpa using hc)
                rw [hs] at this
                exact this
              · rintro r u ⟨m', off', g1, g2, g3⟩
                exact ⟨m', off', by omega, g2, g3⟩
          · exact Tr.fail h

theorem flatten_snoc (k : Nat) (w : Str) : (List.replicate (k + 1) w).flatten = (List.replicate k w).flatten ++ w := by
  rw [List.replicate_succ', List.flatten_append]; simp

theorem parentsLoop_wf : ∀ (ts : List Token) (p : Path) (m : Mode) (lo off k : Nat) (s : PS), s.toks = ts →
    St E base all tag m off none s → lo ≤ off → PathIn E.src lo off p → (∃ l a, all = l ++ a :: s.toks ∧ a.kind = .params .parentRef) →
    p.parents ≤ k → (∃ a r, E.src = a ++ ((List.replicate k c!"../").flatten ++ r) ∧ blen a + blen (List.replicate k c!"../").flatten = off) →
    Tr E base (parentsLoop ts p) s fun r t => ∃ m' off', off ≤ off' ∧ St E base all tag m' off' r.2 t ∧ PathIn E.src lo off' r.1 ∧
      Run all (r.2.toList ++ t.toks) := by
  intro ts
  induction ts with
  | nil =>
      intro p m lo off k s hs h hlo hp ⟨l, a, e, ha⟩ _ _
      unfold parentsLoop
      refine Tr.modifyBind (Tr.pure ⟨m, off, Nat.le_refl _, h.drained hs, hp, ?_⟩)
      · rw [hs] at e; exact ⟨l, a, [], e, .inl ha, by simp⟩
  | cons t ts ih =>
      intro p m lo off k s hs h hlo hp ⟨l, a, e, ha⟩ hk ⟨x, y, hx, hxl⟩
      unfold parentsLoop
      refine Tr.modifyBind ?_
      have h := h.take hs
      have hlt := h.lt
      obtain ⟨w, hw⟩ := h.tok
      rw [hs] at e
      split
      · rename_i hkind
        have hww := hw.parent hkind
        subst hww
        obtain ⟨pre, r, e1, e2, _⟩ := hw.place
        have hsrc : E.src = x ++ ((List.replicate (k + 1) c!"../").flatten ++ r) := by
          have h1 : E.src = (x ++ (List.replicate k c!"../").flatten) ++ y := by rw [hx, List.append_assoc]
          have h2 := append_blen_inj (h1.symm.trans e1) (by rw [blen_append, hxl, e2])
          rw [e1, ← h2.1, flatten_snoc]
          simp [List.append_assoc]
        split
        · rename_i hov
          refine Tr.panic (.parents (x ++ (List.replicate (k - 255) c!"../").flatten) r hov.2 ?_)
          rw [hsrc, List.append_assoc, ← List.append_assoc (List.flatten _), ← List.flatten_append, List.replicate_append_replicate,
            show k - 255 + 256 = k + 1 by omega]
        · have h' := h.skip (plain_params hkind (by simp)).1 (plain_params hkind (by simp)).2
          refine (ih _ _ lo _ (k + 1) _ rfl h' (by omega) (PathIn.mono (p := { p with parents := (p.parents + 1) % 256 }) ⟨hp.source, hp.span, hp.ne, hp.comps⟩ (Nat.le_refl _) (by omega : off ≤ _)) ?_ ?_ ⟨x, r, hsrc, ?_⟩).mono ?_
          · exact ⟨l ++ [a], t, by rw [e]; simp, hkind⟩
          · have := Nat.mod_le (p.parents + 1) 256
            simp only; omega
          · rw [flatten_snoc, blen_append, hw.stop]; omega
          · rintro q u ⟨m', off', g1, g2, g3⟩
            exact ⟨m', off', by omega, g2, g3⟩
      · exact Tr.pure ⟨m, off, Nat.le_refl _, h, hp, l, a, [], e, .inl ha, by simp⟩

theorem pathParse_wf {lex : ParamTok} {sp : Span} {m : Mode} {off : Nat} {s : PS} (hc : isPathComponent lex = true)
    (h : St E base all tag m off (some ⟨.params lex, sp⟩) s) : Tr E base (pathParse E lex sp) s fun r t => PathQ E base all tag off off r t := by
  have hn : lex ≠ .newline := by rintro rfl; simp [isPathComponent] at hc
  have h' : St E base all tag _ sp.stop none s := h.skip (plain_params rfl hn).1 (plain_params rfl hn).2
  have hlt : off < sp.stop := h.lt
  obtain ⟨w, hw⟩ := h.tok
  have hin : In E.src off sp.stop sp := h.inn
  have hne : sp.start < sp.stop := by have := h.start; simp at this; omega
  have hnew : ∀ lr, PathIn E.src off sp.stop (Path.new E.src sp lr) := fun lr => ⟨rfl, hin, hne, by simp [Path.new]⟩
  have fin : ∀ {r : Option Path × Option Token} {t : PS}, PathQ E base all tag off sp.stop r t → PathQ E base all tag off off r t := by
    rintro r t ⟨m', off', g1, g2, g3⟩
    exact ⟨m', off', by omega, g2, g3⟩
  unfold pathParse
  refine Tr.lineRangeBind ?_
  dsimp only
  obtain ⟨iw, hiw⟩ := hin.slice
  refine Tr.orPanicBind (fun hno => by rw [hiw] at hno; cases hno) fun initial _ => ?_
  split
  · split
    · refine Tr.lexNext' h' fun o t ht e => Tr.getBind ?_
      refine (pathFirst_wf _ _ _ _ off _ t rfl ht (by omega) ⟨rfl, hin, hne, by simp [Path.new]⟩ ?_).mono fun _ _ => fin
      rw [e]
      exact Run.start h.suf (.inr rfl)
    · exact Tr.fail h
  · refine Tr.getBind (Tr.bind (parentsLoop_wf _ _ _ off _ 1 s rfl h' (by omega) ⟨rfl, hin, hne, by simp [Path.new]⟩ ?_ (Nat.le_refl _) ?_) ?_)
    · obtain ⟨l, e⟩ := h.suf
      exact ⟨l, _, e.symm, rfl⟩
    · have hww : w = c!"../" := hw.parent rfl
      subst hww
      obtain ⟨pre, r, e1, e2, _⟩ := hw.place
      exact ⟨pre, r, by simpa using e1, by have := hw.stop; simp at this ⊢; rw [this]; omega⟩
    · rintro ⟨q, nx⟩ t ⟨m', off', g1, g2, g3, g4⟩
      refine Tr.getBind ((pathFirst_wf _ _ _ _ off _ t rfl g2 (by omega) g3 g4).mono fun _ _ g => ?_)
      obtain ⟨m'', off'', k1, k2, k3⟩ := g
      exact ⟨m'', off'', by omega, k2, k3⟩
  · refine Tr.getBind ?_
    unfold pathFirst
    dsimp only
    have h := h.here
    refine Tr.setByteBind ?_
    rw [if_pos hc]
    exact pathComp_wf (tok := ⟨.params lex, sp⟩) rfl hc h (Nat.le_refl _) (.inr ⟨rfl, rfl, rfl⟩)
end
