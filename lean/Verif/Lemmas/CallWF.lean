import Verif.Lemmas.ParserWF
import Verif.Props.Hash

/-! Calls lie where they should in the source. -/

set_option linter.unusedSectionVars false
set_option linter.unusedSimpArgs false
set_option linter.unusedVariables false

namespace Bracket
open Re Spec Props

mutual
theorem Spec.CallIn.mono' {src : Str} {hi hi' : Nat} (h2 : hi ≤ hi') : ∀ {lo : Nat} {c : Call}, CallIn src lo hi c → ∀ {lo'}, lo' ≤ lo → CallIn src lo' hi' c
  | _, _, .mk hs ho hc ht ha hp hk, _, h1 =>
      .mk hs ⟨ho.1.mono h1 h2, ho.2⟩ (fun sp e => (hc sp e).mono (Nat.le_refl _) h2) (TargetIn.mono' h2 ht (Nat.le_refl _))
        (fun v hv => ParamIn.mono' h2 (ha v hv) (Nat.le_refl _)) (fun kv hv => ParamIn.mono' h2 (hp kv hv) (Nat.le_refl _)) hk
theorem Spec.TargetIn.mono' {src : Str} {hi hi' : Nat} (h2 : hi ≤ hi') : ∀ {lo : Nat} {c : CallTarget}, TargetIn src lo hi c → ∀ {lo'}, lo' ≤ lo → TargetIn src lo' hi' c
  | _, _, .none, _, _ => .none
  | _, _, .path h, _, h1 => .path (PathIn.mono h h1 h2)
  | _, _, .sub h h', _, h1 => .sub (CallIn.mono' h2 h h1) h'
theorem Spec.ParamIn.mono' {src : Str} {hi hi' : Nat} (h2 : hi ≤ hi') : ∀ {lo : Nat} {c : ParamValue}, ParamIn src lo hi c → ∀ {lo'}, lo' ≤ lo → ParamIn src lo' hi' c
  | _, _, .path h, _, h1 => .path (PathIn.mono h h1 h2)
  | _, _, .json h, _, h1 => .json (h.mono h1 h2)
  | _, _, .sub h h', _, h1 => .sub (CallIn.mono' h2 h h1) h'
end

theorem Spec.CallIn.mono {src : Str} {lo hi lo' hi' : Nat} {c : Call} (h : CallIn src lo hi c) (h1 : lo' ≤ lo) (h2 : hi ≤ hi') :
    CallIn src lo' hi' c := CallIn.mono' h2 h h1
theorem Spec.TargetIn.mono {src : Str} {lo hi lo' hi' : Nat} {c : CallTarget} (h : TargetIn src lo hi c) (h1 : lo' ≤ lo) (h2 : hi ≤ hi') :
    TargetIn src lo' hi' c := TargetIn.mono' h2 h h1
theorem Spec.ParamIn.mono {src : Str} {lo hi lo' hi' : Nat} {c : ParamValue} (h : ParamIn src lo hi c) (h1 : lo' ≤ lo) (h2 : hi ≤ hi') :
    ParamIn src lo' hi' c := ParamIn.mono' h2 h h1

section
variable {src : Str} {lo hi : Nat} {c : Call}

theorem Spec.CallIn.opn (h : CallIn src lo hi c) : In src lo hi c.opn := by cases h with | mk hs ho hc ht ha hp hk => exact ho.1
theorem Spec.CallIn.ne (h : CallIn src lo hi c) : c.opn.start < c.opn.stop := by cases h with | mk hs ho hc ht ha hp hk => exact ho.2.1
theorem Spec.CallIn.opens (h : CallIn src lo hi c) : OpenerAt src c.opn := by cases h with | mk hs ho hc ht ha hp hk => exact ho.2.2
theorem Spec.CallIn.source (h : CallIn src lo hi c) : c.src = src := by cases h; assumption
theorem Spec.CallIn.close (h : CallIn src lo hi c) {sp : Span} (e : c.clo = some sp) : In src c.opn.stop hi sp := by
  cases h with | mk hs ho hc ht ha hp hk => exact hc sp e
theorem Spec.CallIn.target (h : CallIn src lo hi c) : TargetIn src c.opn.stop hi c.target := by cases h; assumption

theorem Spec.CallIn.setTarget {t : CallTarget} (h : CallIn src lo hi c) (ht : TargetIn src c.opn.stop hi t) : CallIn src lo hi (c.setTarget t) := by
  cases c; cases h with | mk hs ho hc _ ha hp hk => exact .mk hs ho hc ht ha hp hk
theorem Spec.CallIn.addArg {v : ParamValue} (h : CallIn src lo hi c) (hv : ParamIn src c.opn.stop hi v) : CallIn src lo hi (c.addArg v) := by
  cases c; cases h with
  | mk hs ho hc ht ha hp hk =>
      refine .mk hs ho hc ht ?_ hp hk
      intro x hx
      rcases List.mem_append.1 hx with hx | hx
      · exact ha x hx
      · simp at hx; subst hx; exact hv

theorem mem_assocInsert_val {β : Type} {k : Str} {v : β} {l : List (Str × β)} {x : Str × β} (h : x ∈ assocInsert k v l) : x.2 = v ∨ x ∈ l := by
  induction l with
  | nil => simp [assocInsert] at h; subst h; exact .inl rfl
  | cons a l ih =>
      obtain ⟨k', v'⟩ := a
      unfold assocInsert at h
      split at h
      · rcases List.mem_cons.1 h with h | h
        · subst h; exact .inl rfl
        · exact .inr (List.mem_cons_of_mem _ h)
      · rcases List.mem_cons.1 h with h | h
        · subst h; exact .inr (by simp)
        · rcases ih h with h | h
          · exact .inl h
          · exact .inr (List.mem_cons_of_mem _ h)

theorem Spec.CallIn.addParam {k : Str} {v : ParamValue} (h : CallIn src lo hi c) (hv : ParamIn src c.opn.stop hi v) : CallIn src lo hi (c.addParam k v) := by
  cases c; cases h with
  | mk hs ho hc ht ha hp hk =>
      refine .mk hs ho hc ht ha ?_ (nodup_assocInsert _ _ _ hk)
      intro x hx
      rcases mem_assocInsert_val hx with hx | hx
      · rw [hx]; exact hv
      · exact hp x hx
theorem Spec.CallIn.exit {sp : Span} (h : CallIn src lo hi c) (hs : In src c.opn.stop hi sp) : CallIn src lo hi (c.exit sp) := by
  cases c; cases h with
  | mk hs' ho hc ht ha hp hk =>
      exact .mk hs' ho (fun sp' e => by cases e; exact hs) ht ha hp hk
theorem Spec.CallIn.linesEnd {n : Nat} (h : CallIn src lo hi c) : CallIn src lo hi (c.linesEnd n) := by
  cases c; cases h with
  | mk hs ho hc ht ha hp hk => exact .mk hs ho hc ht ha hp hk
theorem Spec.CallIn.setPartial (h : CallIn src lo hi c) : CallIn src lo hi c.setPartial := by
  cases c; cases h with
  | mk hs ho hc ht ha hp hk => exact .mk hs ho hc ht ha hp hk
theorem Spec.CallIn.setConditional (h : CallIn src lo hi c) : CallIn src lo hi c.setConditional := by
  cases c; cases h with
  | mk hs ho hc ht ha hp hk => exact .mk hs ho hc ht ha hp hk
theorem Spec.CallIn.new {sp lr : Span} (h : In src lo hi sp) (h' : sp.start < sp.stop) (ho : OpenerAt src sp) : CallIn src lo hi (Call.new src sp lr) :=
  .mk rfl ⟨h, h', ho⟩ (fun _ e => by cases e) .none (fun _ h => by cases h) (fun _ h => by cases h) List.nodup_nil

theorem Spec.CallIn.asStr (h : CallIn src lo hi c) : ∃ sp, In src lo hi sp ∧ c.asStr = slice src sp.start sp.stop := by
  cases c with
  | mk s p cd o cl t a ps l =>
  have hs := h.source
  have ho := h.opn
  simp only [Call.src, Call.opn] at hs ho
  subst hs
  unfold Call.asStr
  simp only [Call.clo, Call.src, Call.opn]
  cases cl with
  | none => exact ⟨o, ho, rfl⟩
  | some sp =>
      have hc := h.close rfl
      simp only [Call.opn] at hc
      exact ⟨⟨o.start, sp.stop⟩, ⟨ho.bs, hc.be, ho.lo, Nat.le_trans ho.le (Nat.le_trans hc.lo hc.le), hc.hi⟩, rfl⟩

theorem Spec.TargetIn.asStr {t : CallTarget} (h : TargetIn src lo hi t) :
    t.asStr = some [] ∨ ∃ sp, In src lo hi sp ∧ t.asStr = slice src sp.start sp.stop := by
  cases h with
  | none => left; simp [CallTarget.asStr, Path.asStr, Path.new, slice, takeB, dropB]
  | path h => exact .inr ⟨_, h.span, by simp only [CallTarget.asStr, Path.asStr, h.source]⟩
  | sub h h' => exact .inr (CallIn.asStr h)

/-- What no step of a call parser changes. -/
structure Same (c c' : Call) : Prop where
  opn : c'.opn = c.opn
  cond : c'.conditional = c.conditional
  line : c'.line = c.line

theorem Same.refl (c : Call) : Same c c := ⟨rfl, rfl, rfl⟩
theorem Same.trans {a b c : Call} (h : Same a b) (h' : Same b c) : Same a c :=
  ⟨h'.opn.trans h.opn, h'.cond.trans h.cond, h'.line.trans h.line⟩
theorem Same.setTarget {t : CallTarget} : Same c (c.setTarget t) := by cases c; exact ⟨rfl, rfl, rfl⟩
theorem Same.addArg {t : ParamValue} : Same c (c.addArg t) := by cases c; exact ⟨rfl, rfl, rfl⟩
theorem Same.addParam {k : Str} {t : ParamValue} : Same c (c.addParam k t) := by cases c; exact ⟨rfl, rfl, rfl⟩
theorem Same.exit {sp : Span} : Same c (c.exit sp) := by cases c; exact ⟨rfl, rfl, rfl⟩
theorem clo_setTarget {t : CallTarget} : (c.setTarget t).clo = c.clo := by cases c; rfl
theorem clo_addArg {t : ParamValue} : (c.addArg t).clo = c.clo := by cases c; rfl
theorem clo_addParam {k : Str} {t : ParamValue} : (c.addParam k t).clo = c.clo := by cases c; rfl
theorem clo_exit {sp : Span} : (c.exit sp).clo = some sp := by cases c; rfl
end

/-- The call was closed, with `}}` unless it is a sub-expression, or not touched. -/
def Closing (src : Str) (ctx : CallCtx) (c c' : Call) (o : Option Token) (m : Mode) (off : Nat) : Prop :=
  c'.clo = c.clo ∨ ∃ sp, c'.clo = some sp ∧ (ctx = .call → o = none ∧ m = .block ∧ sp.stop = off ∧ Braces src sp)

def CallQ (E : PEnv) (base : Nat) (all : List Token) (tag : Nat) (lo off : Nat) (ctx : CallCtx) (c : Call) (r : Call × Option Token) (t : PS) : Prop :=
  ∃ m' off', off ≤ off' ∧ St E base all tag m' off' r.2 t ∧ CallIn E.src lo off' r.1 ∧ Same c r.1 ∧ Closing E.src ctx c r.1 r.2 m' off'

/-- The same after the arguments: outside a sub-expression no token is left in hand. -/
def ArgQ (E : PEnv) (base : Nat) (all : List Token) (tag : Nat) (lo off : Nat) (ctx : CallCtx) (c : Call) (r : Call × Option Token) (t : PS) : Prop :=
  ∃ m' off', off ≤ off' ∧ St E base all tag m' off' r.2 t ∧ CallIn E.src lo off' r.1 ∧ Same c r.1 ∧ Closing E.src ctx c r.1 r.2 m' off' ∧ (ctx = .call → r.2 = none)

def ValueQ (E : PEnv) (base : Nat) (all : List Token) (tag : Nat) (off : Nat) (r : ParamValue × Option Token) (t : PS) : Prop :=
  ∃ m' off', off ≤ off' ∧ St E base all tag m' off' r.2 t ∧ ParamIn E.src off off' r.1

def SubQ (E : PEnv) (base : Nat) (all : List Token) (tag : Nat) (off : Nat) (r : Call × Option Token) (t : PS) : Prop :=
  ∃ m' off', off ≤ off' ∧ St E base all tag m' off' r.2 t ∧ CallIn E.src off off' r.1 ∧ r.1.clo.isSome

section
variable [Host] {E : PEnv} {base : Nat} {all : List Token} {tag : Nat}

theorem CallQ.step {lo off off' : Nat} {ctx : CallCtx} {c c' : Call} {r : Call × Option Token} {t : PS} (h : CallQ E base all tag lo off' ctx c' r t)
    (h1 : off ≤ off') (h2 : Same c c') (h3 : c'.clo = c.clo) : CallQ E base all tag lo off ctx c r t := by
  obtain ⟨m', o', g1, g2, g3, g4, g5⟩ := h
  refine ⟨m', o', by omega, g2, g3, h2.trans g4, ?_⟩
  rw [Closing, h3] at g5
  exact g5

theorem ArgQ.step {lo off off' : Nat} {ctx : CallCtx} {c c' : Call} {r : Call × Option Token} {t : PS} (h : ArgQ E base all tag lo off' ctx c' r t)
    (h1 : off ≤ off') (h2 : Same c c') (h3 : c'.clo = c.clo) : ArgQ E base all tag lo off ctx c r t := by
  obtain ⟨m', o', g1, g2, g3, g4, g5, g6⟩ := h
  refine ⟨m', o', by omega, g2, g3, h2.trans g4, ?_, g6⟩
  rw [Closing, h3] at g5
  exact g5

theorem jsonLiteral_wf {lex : ParamTok} {sp : Span} {m : Mode} {off : Nat} {s : PS} (h : St E base all tag m off (some ⟨.params lex, sp⟩) s) :
    Tr E base (jsonLiteral E lex sp) s fun r t => ∃ m' off', off ≤ off' ∧ St E base all tag m' off' none t ∧ In E.src off off' ⟨sp.start, r.2⟩ := by
  have hlt : off < sp.stop := h.lt
  have hin : In E.src off sp.stop sp := h.inn
  have hs : sp.start = off := h.start
  obtain ⟨w, hw⟩ := h.tok
  have sk : lex ≠ .newline → St E base all tag _ sp.stop none s := fun hn => h.skip (plain_params rfl hn).1 (plain_params rfl hn).2
  have str : ∀ ty, lex ≠ .newline → Tr E base (do let (v, sp) ← strLiteral E sp ty; pure (v, sp.stop + 1) : P (Value × Nat)) s fun r t =>
      ∃ m' off', off ≤ off' ∧ St E base all tag m' off' none t ∧ In E.src off off' ⟨sp.start, r.2⟩ := by
    intro ty hn
    refine Tr.bind (strLiteral_wf (sk hn) rfl ty) ?_
    rintro ⟨v, sp'⟩ t ⟨m', off', h1, h2, h3, h4, h5⟩
    have := h3.lo
    have := h3.le
    exact Tr.pure ⟨m', off', by omega, h2, hin.bs, h5, by simp; omega, by simp at *; omega, h4⟩
  unfold jsonLiteral
  split
  · exact Tr.pure ⟨_, _, by omega, sk (by simp), hin⟩
  · exact Tr.pure ⟨_, _, by omega, sk (by simp), hin⟩
  · exact Tr.pure ⟨_, _, by omega, sk (by simp), hin⟩
  · have hsl := hw.slice
    refine Tr.orPanicBind (fun hno => by rw [hsl] at hno; cases hno) fun txt htxt => ?_
    rw [hsl] at htxt
    cases htxt
    refine Tr.orPanicBind (fun hno => ?_) fun n _ => Tr.pure ⟨_, _, by omega, sk (by simp), hin⟩
    exact .number ⟨.params .number, sp⟩ w (h.hall ▸ h.suf.subset (by simp)) rfl hsl hno
  · exact str _ (by simp)
  · exact str _ (by simp)
  · exact str _ (by simp)
  · exact Tr.fail h

/-- All six mutually recursive functions of call.rs. -/
theorem call_wf : ∀ n : Nat,
    (∀ lex sp m off (s : PS), St E base all tag m off (some ⟨.params lex, sp⟩) s → Tr E base (valueP E n lex sp) s fun r t => ValueQ E base all tag off r t) ∧
    (∀ c sp ctx m lo off (s : PS), St E base all tag m off (some ⟨.params .hashKey, sp⟩) s → CallIn E.src lo off c →
      Tr E base (keyValueP E n c sp ctx) s fun r t => ArgQ E base all tag lo off ctx c r t) ∧
    (∀ c o ctx m lo off (s : PS), St E base all tag m off o s → CallIn E.src lo off c →
      Tr E base (keyValueRest E n c o ctx) s fun r t => ArgQ E base all tag lo off ctx c r t) ∧
    (∀ c o ctx m lo off (s : PS), St E base all tag m off o s → CallIn E.src lo off c →
      Tr E base (argumentsP E n c o ctx) s fun r t => ArgQ E base all tag lo off ctx c r t) ∧
    (∀ c o ctx m lo off (s : PS), St E base all tag m off o s → CallIn E.src lo off c →
      Tr E base (targetP E n c o ctx) s fun r t => CallQ E base all tag lo off ctx c r t ∧ (ctx = .subExpr → r.1.clo = c.clo)) ∧
    (∀ sp m off (s : PS), St E base all tag m off (some ⟨.params .startSubExpression, sp⟩) s →
      Tr E base (subExprP E n sp) s fun r t => SubQ E base all tag off r t) := by
  intro n
  induction n with
  | zero => refine ⟨?_, ?_, ?_, ?_, ?_, ?_⟩ <;> (intros; exact Tr.fuel)
  | succ n ih =>
      obtain ⟨ihV, ihK, ihR, ihA, ihT, ihS⟩ := ih
      refine ⟨?_, ?_, ?_, ?_, ?_, ?_⟩
      · intro lex sp m off s h
        unfold valueP
        split
        all_goals first
          | exact Tr.fail h
          | (refine Tr.bind (pathParse_wf rfl h) ?_
             rintro ⟨p, nx⟩ t ⟨m', off', h1, h2, h3⟩
             dsimp only
             split
             · exact Tr.pure ⟨m', off', h1, h2, .path (h3 _ rfl)⟩
             · exact Tr.fail h2)
          | (refine Tr.bind (ihS _ _ _ _ h) ?_
             rintro ⟨c, nx⟩ t ⟨m', off', h1, h2, h3, h4⟩
             exact Tr.pure ⟨m', off', h1, h2, .sub h3 h4⟩)
          | (refine Tr.lineRangeBind (Tr.bind (jsonLiteral_wf h) ?_)
             rintro ⟨v, stop⟩ t ⟨m', off', h1, h2, h3⟩
             exact Tr.lexNext h2 fun o u hu => Tr.pure ⟨m', off', h1, hu, .json h3⟩)
      · intro c sp ctx m lo off s h hc
        have h' : St E base all tag _ sp.stop none s := h.skip rfl ⟨by simp, rfl⟩
        have hlt : off < sp.stop := h.lt
        obtain ⟨w, hw⟩ := h.tok
        unfold keyValueP
        refine Tr.orPanicBind (fun hno => ?_) fun key _ => ?_
        · exfalso
          obtain ⟨u, rfl⟩ := hw.hashKey rfl
          obtain ⟨pre, r, e, hp, _⟩ := hw.place
          have hb : Bd E.src (sp.stop - 1) := ⟨pre ++ u, ['='] ++ r, by rw [e]; simp, by
            have := hw.stop; simp [blen_append] at this; rw [this, blen_append]; simp [blen, show '='.utf8Size = 1 by decide]; omega⟩
          have hin := h.inn
          obtain ⟨v, hv⟩ := Spec.Bd.slice hin.bs hb (by have := h.start; simp at *; omega)
          simp only at hv
          rw [hv] at hno; cases hno
        · refine Tr.lexNext h' fun o t ht => ?_
          cases o with
          | none => exact Tr.pure ⟨_, _, by omega, ht, CallIn.mono hc (Nat.le_refl _) (by omega), Same.refl _, .inl rfl, fun _ => rfl⟩
          | some tok =>
              dsimp only
              split
              · rename_i lex hk
                have ht' : St E base all tag (nextMode m (.params .hashKey)) sp.stop (some ⟨.params lex, tok.span⟩) t := by rw [← hk]; exact ht
                refine Tr.bind (ihV _ _ _ _ _ ht') ?_
                rintro ⟨v, nx⟩ u ⟨m', off', g1, g2, g3⟩
                have hopn := (CallIn.opn hc).hi
                have hc' : CallIn E.src lo off' (c.addParam key v) :=
                  CallIn.addParam (CallIn.mono hc (Nat.le_refl _) (by omega)) (ParamIn.mono g3 (by omega) (Nat.le_refl _))
                exact (ihR _ _ ctx _ _ _ _ g2 hc').mono fun _ _ hq => ArgQ.step hq (by omega) Same.addParam clo_addParam
              · exact Tr.fail ht
      · intro c o ctx m lo off s h hc
        cases o with
        | none => unfold keyValueRest; exact Tr.pure ⟨_, _, Nat.le_refl _, h, hc, Same.refl _, .inl rfl, fun _ => rfl⟩
        | some tok =>
            have hlt := h.lt
            have hopn := (CallIn.opn hc).hi
            have hcm : CallIn E.src lo tok.span.stop c := CallIn.mono hc (Nat.le_refl _) (by omega)
            obtain ⟨w, hw⟩ := h.tok
            unfold keyValueRest
            dsimp only
            split
            · rename_i lex hk
              split
              · have h' := h.skip (plain_params hk (by simp)).1 (plain_params hk (by simp)).2
                exact Tr.lexNext h' fun o t ht => (ihR _ _ ctx _ _ _ _ ht hcm).mono fun _ _ hq => ArgQ.step hq (by omega) (Same.refl _) rfl
              · have h' := h.nl (by simp [Token.isNewline, hk]) (by rw [hk]; rfl)
                exact Tr.incLineBind (Tr.lexNext h' fun o t ht => (ihR _ _ ctx _ _ _ _ ht hcm).mono fun _ _ hq => ArgQ.step hq (by omega) (Same.refl _) rfl)
              · have h' : St E base all tag m off (some ⟨.params .hashKey, tok.span⟩) s := by rw [← hk]; exact h
                exact ihK _ _ ctx _ _ _ _ h' hc
              · have h' := h.skip (plain_params hk (by simp)).1 (plain_params hk (by simp)).2
                have hm : m = .params := by have := h.mode; rw [hk] at this; exact this
                subst hm
                refine Tr.pure ⟨_, _, by omega, h', CallIn.exit hcm (h.inn.mono hopn (Nat.le_refl _)), Same.exit, .inr ⟨_, clo_exit, fun _ => ⟨rfl, by rw [hk]; rfl, rfl, ?_⟩⟩, fun _ => rfl⟩
                obtain ⟨u, rfl⟩ := hw.fin hk
                exact ⟨u, hw.slice⟩
              · split
                · rename_i hctx
                  have h' := h.skip (plain_params hk (by simp)).1 (plain_params hk (by simp)).2
                  exact Tr.lexNext h' fun o t ht => Tr.pure ⟨_, _, by omega, ht, CallIn.exit hcm (h.inn.mono hopn (Nat.le_refl _)), Same.exit,
                    .inr ⟨_, clo_exit, fun e => by rw [hctx] at e; cases e⟩, fun e => by rw [hctx] at e; cases e⟩
                · exact Tr.fail h
              · exact Tr.fail h
            · exact Tr.fail h
      · intro c o ctx m lo off s h hc
        cases o with
        | none => unfold argumentsP; exact Tr.pure ⟨_, _, Nat.le_refl _, h, hc, Same.refl _, .inl rfl, fun _ => rfl⟩
        | some tok =>
            have hlt := h.lt
            have hopn := (CallIn.opn hc).hi
            have hcm : CallIn E.src lo tok.span.stop c := CallIn.mono hc (Nat.le_refl _) (by omega)
            obtain ⟨w, hw⟩ := h.tok
            unfold argumentsP
            dsimp only
            split
            · rename_i lex hk
              have hV : ∀ lex', lex = lex' → Tr E base (do let (v, nx) ← valueP E n lex' tok.span; argumentsP E n (c.addArg v) nx ctx : P (Call × Option Token)) s
                  fun r t => ArgQ E base all tag lo off ctx c r t := by
                rintro _ rfl
                have h' : St E base all tag m off (some ⟨.params lex, tok.span⟩) s := by rw [← hk]; exact h
                refine Tr.bind (ihV _ _ _ _ _ h') ?_
                rintro ⟨v, nx⟩ u ⟨m', off', g1, g2, g3⟩
                have hc' : CallIn E.src lo off' (c.addArg v) :=
                  CallIn.addArg (CallIn.mono hc (Nat.le_refl _) (by omega)) (ParamIn.mono g3 (by omega) (Nat.le_refl _))
                exact (ihA _ _ ctx _ _ _ _ g2 hc').mono fun _ _ hq => ArgQ.step hq (by omega) Same.addArg clo_addArg
              split
              case h_1 =>
                have h' := h.skip (plain_params hk (by simp)).1 (plain_params hk (by simp)).2
                exact Tr.lexNext h' fun o t ht => (ihA _ _ ctx _ _ _ _ ht hcm).mono fun _ _ hq => ArgQ.step hq (by omega) (Same.refl _) rfl
              case h_2 =>
                have h' := h.nl (by simp [Token.isNewline, hk]) (by rw [hk]; rfl)
                exact Tr.incLineBind (Tr.lexNext h' fun o t ht => (ihA _ _ ctx _ _ _ _ ht hcm).mono fun _ _ hq => ArgQ.step hq (by omega) (Same.refl _) rfl)
              case h_3 => exact Tr.fail h
              case h_4 =>
                have h' := h.skip (plain_params hk (by simp)).1 (plain_params hk (by simp)).2
                exact Tr.pure ⟨_, _, by omega, h', hcm, Same.refl _, .inl rfl, fun _ => rfl⟩
              case h_5 =>
                have h' : St E base all tag m off (some ⟨.params .hashKey, tok.span⟩) s := by rw [← hk]; exact h
                exact ihK _ _ ctx _ _ _ _ h' hc
              all_goals first
                | exact hV _ rfl
                | exact Tr.fail h
                | skip
              · split
                · rename_i hctx
                  have h' := h.skip (plain_params hk (by simp)).1 (plain_params hk (by simp)).2
                  exact Tr.lexNext h' fun o t ht => Tr.pure ⟨_, _, by omega, ht, CallIn.exit hcm (h.inn.mono hopn (Nat.le_refl _)), Same.exit,
                    .inr ⟨_, clo_exit, fun e => by rw [hctx] at e; cases e⟩, fun e => by rw [hctx] at e; cases e⟩
                · exact Tr.fail h
              · have h' := h.skip (plain_params hk (by simp)).1 (plain_params hk (by simp)).2
                have hm : m = .params := by have := h.mode; rw [hk] at this; exact this
                subst hm
                by_cases hctx : ctx = .subExpr
                · rw [if_pos hctx]
                  exact Tr.pure ⟨_, _, by omega, h', hcm, Same.refl _, .inl rfl, fun _ => rfl⟩
                · rw [if_neg hctx]
                  refine Tr.pure ⟨_, _, by omega, h', CallIn.exit hcm (h.inn.mono hopn (Nat.le_refl _)), Same.exit, .inr ⟨_, clo_exit, fun _ => ⟨rfl, by rw [hk]; rfl, rfl, ?_⟩⟩, fun _ => rfl⟩
                  obtain ⟨u, rfl⟩ := hw.fin hk
                  exact ⟨u, hw.slice⟩
            · exact Tr.fail h
      · intro c o ctx m lo off s h hc
        cases o with
        | none => unfold targetP; exact Tr.pure ⟨⟨_, _, Nat.le_refl _, h, hc, Same.refl _, .inl rfl⟩, fun _ => rfl⟩
        | some tok =>
            have hlt := h.lt
            have hopn := (CallIn.opn hc).hi
            have hcm : CallIn E.src lo tok.span.stop c := CallIn.mono hc (Nat.le_refl _) (by omega)
            obtain ⟨w, hw⟩ := h.tok
            unfold targetP
            dsimp only
            split
            · rename_i lex hk
              have hP : ∀ lex', lex = lex' → isPathComponent lex' = true → Tr E base (do
                  let (path, tok) ← pathParse E lex' tok.span
                  match path with
                  | some p => pure (c.setTarget (.path p), tok)
                  | none => pure (c, tok) : P (Call × Option Token)) s
                  fun r t => CallQ E base all tag lo off ctx c r t ∧ (ctx = .subExpr → r.1.clo = c.clo) := by
                rintro _ rfl hc'
                have h' : St E base all tag m off (some ⟨.params lex, tok.span⟩) s := by rw [← hk]; exact h
                refine Tr.bind (pathParse_wf hc' h') ?_
                rintro ⟨p, nx⟩ t ⟨m', off', h1, h2, h3⟩
                have hc1 : CallIn E.src lo off' c := CallIn.mono hc (Nat.le_refl _) h1
                dsimp only
                split
                · exact Tr.pure ⟨⟨m', off', h1, h2, CallIn.setTarget hc1 (.path (PathIn.mono (h3 _ rfl) (by omega) (Nat.le_refl _))), Same.setTarget, .inl clo_setTarget⟩,
                    fun _ => clo_setTarget⟩
                · exact Tr.pure ⟨⟨m', off', h1, h2, hc1, Same.refl _, .inl rfl⟩, fun _ => rfl⟩
              split
              case h_1 =>
                have h' := h.skip (plain_params hk (by simp)).1 (plain_params hk (by simp)).2
                exact Tr.lexNext h' fun o t ht => (ihT _ _ ctx _ _ _ _ ht hcm).mono fun _ _ hq => ⟨CallQ.step hq.1 (by omega) (Same.refl _) rfl, hq.2⟩
              case h_2 =>
                have h' := h.nl (by simp [Token.isNewline, hk]) (by rw [hk]; rfl)
                exact Tr.incLineBind (Tr.lexNext h' fun o t ht => (ihT _ _ ctx _ _ _ _ ht hcm).mono fun _ _ hq => ⟨CallQ.step hq.1 (by omega) (Same.refl _) rfl, hq.2⟩)
              all_goals first
                | exact hP _ rfl rfl
                | exact Tr.fail h
                | skip
              · split
                · exact Tr.fail h
                · rename_i hctx
                  have h' : St E base all tag m off (some ⟨.params .startSubExpression, tok.span⟩) s := by rw [← hk]; exact h
                  refine Tr.bind (ihS _ _ _ _ h') ?_
                  rintro ⟨d, nx⟩ t ⟨m', off', g1, g2, g3, g4⟩
                  exact Tr.pure ⟨⟨m', off', g1, g2, CallIn.setTarget (CallIn.mono hc (Nat.le_refl _) g1) (.sub (CallIn.mono g3 (by omega) (Nat.le_refl _)) g4),
                    Same.setTarget, .inl clo_setTarget⟩, fun e => absurd e hctx⟩
              · have h' := h.skip (plain_params hk (by simp)).1 (plain_params hk (by simp)).2
                have hm : m = .params := by have := h.mode; rw [hk] at this; exact this
                subst hm
                refine Tr.orPanicBind (fun hno => ?_) fun v _ => ?_
                · exfalso
                  rcases TargetIn.asStr (CallIn.target hc) with e | ⟨sp, hi, e⟩
                  · rw [e] at hno; cases hno
                  · obtain ⟨v, hv⟩ := hi.slice
                    rw [e, hv] at hno; cases hno
                · split
                  · exact Tr.fail h
                  · by_cases hctx : ctx = .subExpr
                    · rw [if_pos hctx]
                      exact Tr.pure ⟨⟨_, _, by omega, h', hcm, Same.refl _, .inl rfl⟩, fun _ => rfl⟩
                    · rw [if_neg hctx]
                      refine Tr.pure ⟨⟨_, _, by omega, h', CallIn.exit hcm (h.inn.mono hopn (Nat.le_refl _)), Same.exit, .inr ⟨_, clo_exit, fun _ => ⟨rfl, by rw [hk]; rfl, rfl, ?_⟩⟩⟩,
                        fun e => absurd e hctx⟩
                      obtain ⟨u, rfl⟩ := hw.fin hk
                      exact ⟨u, hw.slice⟩
            · exact Tr.fail h
      · intro sp m off s h
        have hlt : off < sp.stop := h.lt
        have hin : In E.src off sp.stop sp := h.inn
        obtain ⟨w, hw⟩ := h.tok
        have h' : St E base all tag _ sp.stop none s := h.skip rfl ⟨by simp, rfl⟩
        unfold subExprP
        refine Tr.setByteBind (Tr.lineRangeBind (Tr.lexNext (h'.setByte (hw.byteStop rfl) (Nat.le_trans h.byteLe (Nat.le_of_lt hlt)) (Nat.le_refl _)) fun o t ht => ?_))
        refine Tr.bind (ihT _ _ .subExpr _ off _ _ ht (CallIn.new hin (by have := h.start; simp at this; omega) (hw.openerAt rfl))) ?_
        rintro ⟨c1, o1⟩ t1 ⟨⟨m1, off1, g1, g2, g3, g4, g5⟩, g6⟩
        refine Tr.bind (ihA _ _ .subExpr _ _ _ _ g2 g3) ?_
        rintro ⟨c2, o2⟩ t2 ⟨m2, off2, k1, k2, k3, k4, k5, k6⟩
        dsimp only
        split
        · exact Tr.fail k2
        · rename_i sp' hsp
          refine Tr.lineBind (Tr.pure ⟨m2, off2, by omega, k2, CallIn.linesEnd k3, ?_⟩)
          have hsp : c2.clo = some sp' := hsp
          cases c2; simp only [Call.clo] at hsp; subst hsp; rfl

theorem flagsLoop_wf : ∀ (ts : List Token) (c : Call) (o : Option Token) (m : Mode) (lo off : Nat) (s : PS), s.toks = ts →
    St E base all tag m off o s → CallIn E.src lo off c → Tr E base (flagsLoop ts c o) s fun r t => ∃ m' off', off ≤ off' ∧ St E base all tag m' off' r.2 t ∧
      CallIn E.src lo off' r.1 ∧ r.1.opn = c.opn ∧ r.1.line = c.line ∧ r.1.clo = c.clo := by
  intro ts
  induction ts with
  | nil =>
      intro c o m lo off s hs h hc
      cases o with
      | none => unfold flagsLoop; exact Tr.pure ⟨m, off, Nat.le_refl _, h, hc, rfl, rfl, rfl⟩
      | some tok =>
          have hlt := h.lt
          have hcm : CallIn E.src lo tok.span.stop c := CallIn.mono hc (Nat.le_refl _) (by omega)
          unfold flagsLoop
          split
          · rename_i hk
            exact Tr.pure ⟨_, _, by omega, h.skip (plain_params hk (by simp)).1 (plain_params hk (by simp)).2, hcm, rfl, rfl, rfl⟩
          · rename_i hk
            exact Tr.incLineBind (Tr.pure ⟨_, _, by omega, h.nl (by simp [Token.isNewline, hk]) (by rw [hk]; rfl), hcm, rfl, rfl, rfl⟩)
          · rename_i hk
            refine Tr.lexNext (h.skip (plain_params hk (by simp)).1 (plain_params hk (by simp)).2) fun o t ht =>
              Tr.pure ⟨_, _, by omega, ht, CallIn.setPartial hcm, ?_⟩
            cases c; exact ⟨rfl, rfl, rfl⟩
          · rename_i hk
            refine Tr.lexNext (h.skip (plain_params hk (by simp)).1 (plain_params hk (by simp)).2) fun o t ht =>
              Tr.pure ⟨_, _, by omega, ht, CallIn.setConditional hcm, ?_⟩
            cases c; exact ⟨rfl, rfl, rfl⟩
          · exact Tr.pure ⟨m, off, Nat.le_refl _, h, hc, rfl, rfl, rfl⟩
  | cons t ts ih =>
      intro c o m lo off s hs h hc
      cases o with
      | none => unfold flagsLoop; exact Tr.pure ⟨m, off, Nat.le_refl _, h, hc, rfl, rfl, rfl⟩
      | some tok =>
          have hlt := h.lt
          have hcm : CallIn E.src lo tok.span.stop c := CallIn.mono hc (Nat.le_refl _) (by omega)
          unfold flagsLoop
          split
          · rename_i hk
            have h' := (h.skip (plain_params hk (by simp)).1 (plain_params hk (by simp)).2).take hs
            refine Tr.modifyBind ((ih c (some t) _ lo _ _ rfl h' hcm).mono ?_)
            rintro r u ⟨m', off', g1, g2⟩
            exact ⟨m', off', by omega, g2⟩
          · rename_i hk
            have h' := (h.nl (by simp [Token.isNewline, hk]) (by rw [hk]; rfl)).take (t := t) (ts := ts) hs
            refine Tr.modifyBind ((ih c (some t) _ lo _ _ rfl h' hcm).mono ?_)
            rintro r u ⟨m', off', g1, g2⟩
            exact ⟨m', off', by omega, g2⟩
          · rename_i hk
            refine Tr.lexNext (h.skip (plain_params hk (by simp)).1 (plain_params hk (by simp)).2) fun o t ht =>
              Tr.pure ⟨_, _, by omega, ht, CallIn.setPartial hcm, ?_⟩
            cases c; exact ⟨rfl, rfl, rfl⟩
          · rename_i hk
            refine Tr.lexNext (h.skip (plain_params hk (by simp)).1 (plain_params hk (by simp)).2) fun o t ht =>
              Tr.pure ⟨_, _, by omega, ht, CallIn.setConditional hcm, ?_⟩
            cases c; exact ⟨rfl, rfl, rfl⟩
          · exact Tr.pure ⟨m, off, Nat.le_refl _, h, hc, rfl, rfl, rfl⟩

/-- What a parsed tag is: it lies between its opening token and where the parser is now. -/
structure TagQ (E : PEnv) (base : Nat) (all : List Token) (off line : Nat) (opn : Span) (c : Call) (t : PS) (m' : Mode) (off' : Nat) : Prop where
  st : St E base all off m' off' none t
  mode : c.clo ≠ none → m' = .block
  le : opn.stop ≤ off'
  inn : CallIn E.src off off' c
  opn : c.opn = opn
  line : c.line.start = line
  ends : TagEnds E.src c off'

/-- Into a tag. -/
theorem St0.enter {t : Token} {m : Mode} {off : Nat} {s : PS} (h : St0 E base all m off (some t) s) (ht : isTag t.kind = true)
    (hn : t.isNewline = false) (hl : t.kind ≠ .link .text) : St E base all off (nextMode m t.kind) t.span.stop none { s with byte := t.span.stop } := by
  obtain ⟨w, hw⟩ := h.tok
  have hlt := h.lt
  have hop : isOpener t.kind = true := by
    revert ht
    generalize t.kind = k
    cases k with
    | block k => cases k <;> simp [isTag, isOpener]
    | _ => simp [isTag]
  refine ⟨(h.skip hn hl).setByte (hw.byteStop hop), ?_, Nat.le_of_lt hlt, Nat.le_refl _⟩
  obtain ⟨l, e⟩ := h.suf
  exact ⟨l, t, [], e.symm, ht, by simp, h.start⟩

theorem callParse_wf {k : Kind} {sp : Span} {m : Mode} {off : Nat} {s : PS} (hk : isOpener k = true) (hn : Token.isNewline ⟨k, sp⟩ = false)
    (hl : k ≠ .link .text) (ht : isTag k = true) (h : St0 E base all m off (some ⟨k, sp⟩) s) :
    Tr E base (callParse E sp) s fun c t => ∃ m' off', TagQ E base all off s.line sp c t m' off' := by
  have hlt : off < sp.stop := h.lt
  have hin : In E.src off sp.stop sp := h.inn
  obtain ⟨w, hw⟩ := h.tok
  have h' : St E base all off _ sp.stop none { s with byte := sp.stop } := h.enter ht hn hl
  unfold callParse
  refine Tr.setByteBind (Tr.lineRangeBind (Tr.lexNext (h') fun o t ht => Tr.getBind ?_))
  refine Tr.bind (flagsLoop_wf _ _ _ _ off _ t rfl ht (CallIn.new hin (by have := h.start; simp at this; omega) (hw.openerAt hk))) ?_
  rintro ⟨c0, o0⟩ t0 ⟨m0, off0, f1, f2, f3, f4, f5, f6⟩
  dsimp only at f2 f3 f4 f5 f6 ⊢
  split
  · exact Tr.fail f2
  refine Tr.getBind (Tr.bind ((call_wf _).2.2.2.2.1 _ _ .call _ off _ _ f2 f3) ?_)
  rintro ⟨c1, o1⟩ t1 ⟨⟨m1, off1, g1, g2, g3, g4, g5⟩, -⟩
  dsimp only at g2 g3 g4 g5 ⊢
  refine Tr.getBind ?_
  have fin : ∀ (c2 : Call) (t2 : PS) (m2 : Mode) (off2 : Nat), St E base all off m2 off2 none t2 → off1 ≤ off2 → CallIn E.src off off2 c2 → Same c1 c2 →
      (c2.clo = none ∨ ∃ sp, c2.clo = some sp ∧ m2 = .block ∧ sp.stop = off2 ∧ Braces E.src sp) →
      ∃ m' off', TagQ E base all off s.line sp (c2.linesEnd t2.line) t2 m' off' := by
    intro c2 t2 m2 off2 h1 h2 h3 h4 h5
    have e1 : c2.opn = sp := by rw [h4.opn, g4.opn, f4]; rfl
    have e2 : c2.line.start = s.line := by rw [h4.line, g4.line, f5]; rfl
    refine ⟨m2, off2, h1, ?_, by omega, CallIn.linesEnd h3, ?_, ?_, ?_⟩
    · intro hne
      rcases h5 with h5 | ⟨sp', _, h6, _⟩
      · exact absurd (by cases c2; exact h5) hne
      · exact h6
    · cases c2; exact e1
    · cases c2; exact e2
    · rcases h5 with h5 | ⟨sp', h6, h7, h8, h9⟩
      · right; refine ⟨by cases c2; exact h5, ?_⟩
        have : (c2.linesEnd t2.line).opn = sp := by cases c2; exact e1
        rw [this]; omega
      · left; exact ⟨sp', by cases c2; exact h6, h8, h9⟩
  rcases g5 with g5 | ⟨sp', h6, h7⟩
  · refine Tr.bind ((call_wf _).2.2.2.1 _ _ .call _ _ _ _ g2 g3) ?_
    rintro ⟨c2, o2⟩ t2 ⟨m2, off2, k1, k2, k3, k4, k5, k6⟩
    have := k6 rfl
    dsimp only at k2 k3 k4 k5 this ⊢
    subst this
    refine Tr.lineBind (Tr.pure (fin c2 t2 m2 off2 k2 k1 k3 k4 ?_))
    rcases k5 with k5 | ⟨sp', h6, h7⟩
    · left; rw [k5, g5, f6]; rfl
    · right; exact ⟨sp', h6, (h7 rfl).2⟩
  · obtain ⟨rfl, h8, h9, h10⟩ := h7 rfl
    have : argumentsP E (callFuel t1) c1 none .call = pure (c1, none) := by
      unfold callFuel argumentsP; rfl
    rw [this]
    refine Tr.bind (Tr.pure (Q := fun r t => r = (c1, none) ∧ t = t1) ⟨rfl, rfl⟩) ?_
    rintro _ _ ⟨rfl, rfl⟩
    exact Tr.lineBind (Tr.pure (fin c1 _ m1 off1 g2 (Nat.le_refl _) g3 (Same.refl _) (.inr ⟨sp', h6, h8, h9, h10⟩)))
end
end Bracket
