import Verif.Lemmas.Robust
import Verif.Props.Tree

/-! What is read of a compiled template while rendering can be read. -/

namespace Bracket.Robust
open Spec

theorem ascii_size {c : Char} (h : Ascii [c]) : c.utf8Size = 1 := h c (by simp)

theorem ascii_bd {w : Str} (h : Ascii w) : ∀ {n : Nat}, n ≤ blen w → Bd w n := by
  induction w with
  | nil => intro n hn; simp [blen] at hn; exact ⟨[], [], rfl, by simp [blen, hn]⟩
  | cons c w ih =>
      intro n hn
      have hc : c.utf8Size = 1 := ascii_size fun x hx => by simp at hx; subst hx; exact h x (by simp)
      cases n with
      | zero => exact ⟨[], c :: w, rfl, rfl⟩
      | succ n =>
          obtain ⟨a, b, e, hb⟩ := ih (fun x hx => h x (by simp [hx])) (n := n) (by simp [blen, hc] at hn; omega)
          exact ⟨c :: a, b, by simp [e], by simp [blen, hc, hb]; omega⟩

theorem ascii_slice {w : Str} (h : Ascii w) {a b : Nat} (hab : a ≤ b) (hb : b ≤ blen w) : ∃ v, slice w a b = some v :=
  Bd.slice (ascii_bd h (Nat.le_trans hab hb)) (ascii_bd h hb) hab

theorem ascii_tilde {w : Str} (h : Ascii w) (n : Nat) : ∃ b, Block.tildeAt w n = some b := by
  unfold Block.tildeAt
  split
  · obtain ⟨v, hv⟩ := ascii_slice h (a := n) (b := n + 1) (by omega) (by omega)
    exact ⟨_, by rw [hv]; rfl⟩
  · exact ⟨_, rfl⟩

theorem opener_ascii {w : Str} (h : ∀ c ∈ w, c ∈ openerChars) : Ascii w := by
  intro c hc
  have := h c hc
  simp only [openerChars, List.mem_cons, List.not_mem_nil, or_false] at this
  rcases this with rfl | rfl | rfl | rfl | rfl | rfl | rfl | rfl | rfl | rfl | rfl <;> decide

section
variable {src : Str}

theorem pathGood {lo hi : Nat} {p : Path} (h : PathIn src lo hi p) : PathGood p := by
  refine ⟨?_, fun c hc => ?_⟩
  · unfold Path.asStr; rw [h.source]; exact In.slice h.span
  · have g := h.comps c hc
    unfold Component.asValue
    cases c.value with
    | some v => exact ⟨_, rfl⟩
    | none => simp only; unfold Component.asStr; rw [g.source]; exact In.slice g.span

mutual
theorem callGood : ∀ {lo hi : Nat} {c : Call}, CallIn src lo hi c → CallGood c
  | lo, hi, c, .mk hs ho hc ht ha hp hk => by
      refine .mk ?_ ?_ ?_ ?_ ?_ ?_ ?_ ?_ ?_
      · obtain ⟨sp, h1, h2⟩ := CallIn.asStr (.mk hs ho hc ht ha hp hk : CallIn src lo hi c)
        rw [h2]; exact In.slice h1
      · unfold Call.isEscaped Call.openStr
        rw [hs]
        obtain ⟨w, hw⟩ := In.slice ho.1
        exact ⟨_, by rw [hw]; rfl⟩
      · intro p e; exact (targetGood ht).1 p e
      · intro d e; exact (targetGood ht).2 d e
      · intro p e; exact (paramGood (ha _ e)).1 p rfl
      · intro d e; exact (paramGood (ha _ e)).2.1 d rfl
      · intro v hv; exact (paramGood (ha _ hv)).2.2
      · intro k p e; exact (paramGood (hp _ e)).1 p rfl
      · intro k d e; exact (paramGood (hp _ e)).2.1 d rfl
theorem targetGood : ∀ {lo hi : Nat} {t : CallTarget}, TargetIn src lo hi t → (∀ p, t = .path p → PathGood p) ∧ (∀ d, t = .subExpr d → CallGood d)
  | _, _, _, .none => ⟨fun p e => by cases e; exact ⟨⟨[], by simp [Path.asStr, Path.new, slice, takeB, dropB]⟩, by simp [Path.new]⟩, fun d e => (by cases e)⟩
  | _, _, _, .path h => ⟨fun p e => by cases e; exact pathGood h, fun d e => (by cases e)⟩
  | _, _, _, .sub h _ => ⟨fun p e => (by cases e), fun d e => (by cases e; exact callGood h)⟩
theorem paramGood : ∀ {lo hi : Nat} {v : ParamValue}, ParamIn src lo hi v →
    (∀ p, v = .path p → PathGood p) ∧ (∀ d, v = .subExpr d → CallGood d) ∧ ∃ w, v.asStr = some w
  | _, _, _, .path h => ⟨fun p e => by cases e; exact pathGood h, fun d e => (by cases e), (pathGood h).text⟩
  | _, _, _, .json h => ⟨fun p e => (by cases e), fun d e => (by cases e), In.slice h⟩
  | _, _, _, .sub h _ => ⟨fun p e => (by cases e), fun d e => (by cases e; exact callGood h), by
      obtain ⟨sp, h1, h2⟩ := CallIn.asStr h
      simp only [ParamValue.asStr]
      rw [h2]; exact In.slice h1⟩
end

/-- What is known about a node inside of a template. -/
inductive Known (src : Str) (ln lt : Nat → Nat → Prop) : Node → Prop
  | doc (ns) (a b : Nat) (h : CoversL src ln lt ns a b) : Known src ln lt (.document src ns)
  | covers {x : Node} (a b : Nat) (h : Covers src ln lt x a b) : Known src ln lt x
  | branch {b : Block} (a z : Nat) (cl : Span) (hb : cl.start ≤ cl.stop ∧ Bd src cl.stop) (h : Branch src ln lt b a z (some cl)) : Known src ln lt (.block b)
  | rawText (t : Text) (lo hi : Nat) (hs : t.src = src) (h : In src lo hi t.span) : Known src ln lt (.text t)

theorem coversL_mem {ln lt : Nat → Nat → Prop} {x : Node} : ∀ {ns : List Node} {a b : Nat}, CoversL src ln lt ns a b → x ∈ ns →
    ∃ a b, Covers src ln lt x a b
  | _, _, _, .cons h h', hx => by
      rcases List.mem_cons.1 hx with rfl | hx
      · exact ⟨_, _, h⟩
      · exact coversL_mem h' hx

theorem branch_bd {ln lt : Nat → Nat → Prop} {b : Block} {a z : Nat} {cl : Option Span} (h : Branch src ln lt b a z cl) : Bd src a := by
  cases h with
  | mk _ _ _ ha hc => rw [← ha]; exact (CallIn.opn hc).bs

theorem branches_bd {ln lt : Nat → Nat → Prop} {ns : List Node} {a b : Nat} (h : Branches src ln lt ns a b) (hb : Bd src b) : Bd src a := by
  cases h with
  | nil => exact hb
  | cons h _ => exact branch_bd h

theorem branches_mem {ln lt : Nat → Nat → Prop} {x : Node} : ∀ {ns : List Node} {a b : Nat}, Branches src ln lt ns a b → Bd src b → x ∈ ns →
    Known src ln lt x
  | _, _, _, .cons h h', hb, hx => by
      rcases List.mem_cons.1 hx with rfl | hx
      · exact .branch _ _ _ ⟨Nat.sub_le _ _, branches_bd h' hb⟩ h
      · exact branches_mem h' hb hx

theorem known {ln lt : Nat → Nat → Prop} {ns : List Node} {a b : Nat} (hc : CoversL src ln lt ns a b) {x n : Node} (hw : Inhabits x n)
    (hn : n = .document src ns) : Known src ln lt x := by
  induction hw with
  | self => rw [hn]; exact .doc _ _ _ hc
  | child _ hy ih =>
      cases ih hn with
      | doc ns a b h => obtain ⟨_, _, g⟩ := coversL_mem h hy; exact .covers _ _ g
      | covers a b h =>
          cases h with
          | raw _ _ _ _ _ _ hn ht hi =>
              simp only [Node.children] at hy
              rw [hn] at hy
              simp at hy
              subst hy
              exact .rawText _ _ _ ht hi
          | block h =>
              cases h with
              | plain _ _ _ _ _ _ hn => obtain ⟨_, _, g⟩ := coversL_mem hn hy; exact .covers _ _ g
              | clauses _ _ _ _ _ _ hn => obtain ⟨_, _, g⟩ := coversL_mem hn hy; exact .covers _ _ g
          | _ => simp [Node.children] at hy
      | branch a z cl _ h =>
          cases h with
          | mk _ _ _ _ _ _ _ hn => obtain ⟨_, _, g⟩ := coversL_mem hn hy; exact .covers _ _ g
      | rawText => simp [Node.children] at hy
  | clause _ hy ih =>
      cases ih hn with
      | covers a b h =>
          cases h with
          | raw _ _ _ _ _ _ _ _ _ _ _ hcs => rw [hcs] at hy; cases hy
          | block h _ hz =>
              cases h with
              | plain _ _ _ _ _ _ _ hcs => rw [hcs] at hy; cases hy
              | clauses _ _ _ _ _ _ _ hcs hi hl =>
                  rw [hcs] at hy
                  rcases List.mem_append.1 hy with hy | hy
                  · exact branches_mem hi (branch_bd hl) hy
                  · simp at hy; subst hy; exact .branch _ _ _ ⟨hz.le, hz.be⟩ hl
      | branch a z cl _ h =>
          cases h with
          | mk _ _ _ _ _ _ _ _ hcs => rw [hcs] at hy; cases hy

/-- Blocks and clauses: the opening tag. -/
theorem known_block {ln lt : Nat → Nat → Prop} {b : Block} (h : Known src ln lt (.block b)) :
    ∃ lo hi, b.src = src ∧ b.opn = b.call.opn ∧ CallIn src lo hi b.call := by
  cases h with
  | covers _ _ h =>
      cases h with
      | raw hs _ hc ho => exact ⟨_, _, hs, ho, hc⟩
      | block h =>
          cases h with
          | plain hs _ ho _ hc => exact ⟨_, _, hs, ho, hc⟩
          | clauses hs _ ho _ hc => exact ⟨_, _, hs, ho, hc⟩
  | branch _ _ _ _ h =>
      cases h with
      | mk hs _ ho _ hc => exact ⟨_, _, hs, ho, hc⟩

theorem known_raw {ln lt : Nat → Nat → Prop} {b : Block} (h : Known src ln lt (.block b)) (hr : b.raw = true) :
    ∃ t w, b.nodes = [.text t] ∧ t.asStr = some w := by
  cases h with
  | covers _ _ h =>
      cases h with
      | raw _ _ _ _ _ _ hn ht hi =>
          obtain ⟨w, hw⟩ := In.slice hi
          exact ⟨_, w, hn, by unfold Text.asStr; rw [ht, hw]⟩
      | block h =>
          cases h with
          | plain _ h => rw [h] at hr; cases hr
          | clauses _ h => rw [h] at hr; cases hr
  | branch _ _ _ _ h =>
      cases h with
      | mk _ h => rw [h] at hr; cases hr

theorem call_after {lo hi : Nat} {c : Call} (h : CallIn src lo hi c) : ∃ b, c.trimAfter = some b := by
  unfold Call.trimAfter Call.closeStr
  cases hc : c.clo with
  | none => exact ⟨_, rfl⟩
  | some sp =>
      simp only
      rw [CallIn.source h]
      obtain ⟨w, hw⟩ := In.slice (CallIn.close h hc)
      exact ⟨_, by rw [hw]; rfl⟩

theorem known_trim {ln lt : Nat → Nat → Prop} {x : Node} (h : Known src ln lt x) : ∃ t, x.trim = some t := by
  suffices (∃ b, x.trimBefore = some b) ∧ ∃ b, x.trimAfter = some b by
    obtain ⟨⟨a, ha⟩, b, hb⟩ := this
    exact ⟨⟨a, b⟩, by simp [Node.trim, ha, hb]⟩
  cases x with
  | statement c =>
      cases h with
      | covers _ _ h =>
          cases h with
          | statement hc =>
              refine ⟨?_, call_after hc⟩
              simp only [Node.trimBefore, Call.trimBefore, Call.openStr]
              rw [CallIn.source hc]
              obtain ⟨w, hw⟩ := In.slice (CallIn.opn hc)
              exact ⟨_, by rw [hw]; rfl⟩
  | block b =>
      obtain ⟨lo, hi, hs, ho, hc⟩ := known_block h
      refine ⟨?_, call_after hc⟩
      obtain ⟨w, hw, hch⟩ := CallIn.opens hc
      simp only [Node.trimBefore, Block.trimBefore, Block.openStr]
      rw [hs, ho, hw]
      exact ascii_tilde (opener_ascii hch) _
  | _ => exact ⟨⟨_, rfl⟩, _, rfl⟩

end

theorem ascii_close {b : Block} (h : ∃ w, b.closeStr = some w ∧ Ascii w) : ∃ t, b.trimClose = some t := by
  obtain ⟨w, hw, ha⟩ := h
  obtain ⟨x, hx⟩ := ascii_tilde ha (if b.raw then 4 else 2)
  have hy : ∃ y, b.trimAfterClose = some y := by
    unfold Block.trimAfterClose
    rw [hw]
    simp only [Option.bind_some]
    generalize (if b.raw = true then 5 else 3) = k
    by_cases hk : blen w > k
    · rw [if_pos hk]; exact ascii_tilde ha _
    · rw [if_neg hk]; exact ⟨_, rfl⟩
  obtain ⟨y, hy⟩ := hy
  exact ⟨⟨x, y⟩, by simp [Block.trimClose, Block.trimBeforeClose, hw, hx, hy]⟩

variable [Host] {L : Bool}

theorem known_of {x : Node} (h : OfTemplate L x) : ∃ src ln lt, Known src ln lt x ∧ (∀ b, x = .block b → ∃ t, b.trimClose = some t) ∧
    (L = true → ∀ l, x = .link l → l.labelSpan.start ≤ l.labelSpan.stop ∧ l.titleSpan.start ≤ l.titleSpan.stop) := by
  obtain ⟨src, file, line, n, h1, h2, h3⟩ := h
  have hb : ByteOk src 0 := by
    refine ⟨Nat.zero_le _, fun e => .inl (blen_eq_zero.1 e.symm)⟩
  obtain ⟨ns, k, e, hc, -⟩ := (compile_wf src ⟨file, line, 0⟩ hb).1 _ h1
  exact ⟨src, _, _, known hc h3 e, fun b hx => ascii_close (h2.1 b (hx ▸ h3)), fun hL l hx => h2.2 hL l (hx ▸ h3)⟩

theorem nodesGood : NodesGood L where
  trim n h := by obtain ⟨_, _, _, h, -⟩ := known_of h; exact known_trim h
  close b h := by obtain ⟨_, _, _, -, h, -⟩ := known_of h; exact h b rfl
  raw b h hr := by
    obtain ⟨_, _, _, h, hc, -⟩ := known_of h
    obtain ⟨t, w, hn, hw⟩ := known_raw h hr
    obtain ⟨c, hc⟩ := hc b rfl
    obtain ⟨tr, ht⟩ := known_trim h
    unfold rawText
    rw [hn]
    simp [Node.asStr, hw, hc, ht]
  block b h := by obtain ⟨_, _, _, h, -⟩ := known_of h; obtain ⟨_, _, _, _, hc⟩ := known_block h; exact callGood hc
  statement c h := by
    obtain ⟨_, _, _, h, -⟩ := known_of h
    cases h with
    | covers _ _ h => cases h with | statement hc => exact callGood hc
  text t h := by
    obtain ⟨_, _, _, h, -⟩ := known_of h
    cases h with
    | covers _ _ h => cases h with | text hs hi => unfold Text.asStr; rw [hs]; exact In.slice hi
    | rawText _ _ _ hs hi => unfold Text.asStr; rw [hs]; exact In.slice hi
  rawStatement t h := by
    obtain ⟨src, _, _, h, -⟩ := known_of h
    cases h with
    | covers a b h =>
      cases h with
      | rawStatement h =>
        obtain ⟨hlt, w, hw, hch⟩ := h.opens
        have hle : t.opn.start ≤ t.clo.stop := by have := h.le; have := h.clo.le; omega
        obtain ⟨v, hv⟩ := Bd.slice h.opn.bs h.clo.be hle
        have hall : t.asStr = some v := by unfold TextBlock.asStr; rw [h.source, hv]
        refine ⟨v, ?_⟩
        obtain ⟨p, r, e, hp, hr⟩ := slice_some hw
        obtain ⟨p', r', e', hp', hr'⟩ := slice_some hv
        have hpp : w ++ r = v ++ r' := by
          have h1 := dropB_append p (w ++ r)
          have h2 := dropB_append p' (v ++ r')
          rw [← e, ← hp] at h1
          rw [← e', ← hp', h1] at h2
          exact Option.some.inj h2
        have hle2 := h.le
        have hle3 := h.clo.le
        cases w with
        | nil => simp [blen] at hr; omega
        | cons c w =>
            cases v with
            | nil => simp [blen] at hr'; omega
            | cons d v =>
                simp at hpp
                obtain ⟨rfl, -⟩ := hpp
                have hone : Ascii [c] := fun x hx => by simp at hx; subst hx; exact opener_ascii hch x (by simp)
                have hc1 := ascii_size hone
                obtain ⟨u, hu⟩ := Bd.slice (src := c :: v) (i := 1) (j := blen (c :: v)) ⟨[c], v, rfl, by simp [blen, hc1]⟩
                  ⟨c :: v, [], by simp, rfl⟩ (by simp [blen, hc1])
                exact ⟨u, hall, hu⟩
  link l h := by
    obtain ⟨_, _, _, h, -⟩ := known_of h
    cases h with
    | covers a b h =>
      cases h with
      | link h =>
        obtain ⟨w, hw⟩ := In.slice h.opn
        obtain ⟨sp, hsp, hin, he⟩ := h.clo
        obtain ⟨z, hz⟩ := Bd.slice h.opn.bs hin.be (Nat.le_trans h.opn.le (Nat.le_trans hin.lo hin.le))
        have he : l.endPos = sp.stop := by unfold Link.endPos; rw [hsp]
        refine ⟨startsWith w ['\\'], z, ?_, ?_, ?_⟩
        · unfold Link.isEscaped; rw [h.source, hw]; rfl
        · unfold Link.asStr; rw [h.source, he, hz]
        · intro hst
          unfold Link.afterEscape
          rw [h.source, he]
          obtain ⟨p, r, e, hp, hr⟩ := slice_some hw
          cases w with
          | nil => simp [startsWith] at hst
          | cons c w =>
              have : c = '\\' := by simpa [startsWith] using hst
              subst this
              have hlen : l.opn.start + 1 ≤ l.opn.stop := by
                have : '\\'.utf8Size = 1 := by decide
                simp [blen, this] at hr; omega
              refine Bd.slice ⟨p ++ ['\\'], w ++ r, by rw [e]; simp, ?_⟩ hin.be (Nat.le_trans hlen (Nat.le_trans hin.lo hin.le))
              have : '\\'.utf8Size = 1 := by decide
              simp [blen_append, blen, this, hp]
  handled hL l h := by
    obtain ⟨src, _, _, h, -, hl⟩ := known_of h
    obtain ⟨h1, h2⟩ := hl hL l rfl
    cases h with
    | covers a b h =>
      cases h with
      | link h =>
        have hs := h.source
        have s1 := In.slice h.href
        have s2 := Bd.slice h.label.1 h.label.2 h1
        have s3 := Bd.slice h.title.1 h.title.2 h2
        have fld : ∀ (o : Option Str) (sp : Span), (∃ w, slice src sp.start sp.stop = some w) → ∃ w, Link.field src o sp = some w := by
          intro o sp g
          unfold Link.field
          cases o with
          | some v => exact ⟨_, rfl⟩
          | none => exact g
        obtain ⟨x, hx⟩ := fld l.href l.hrefSpan s1
        obtain ⟨y, hy⟩ := fld l.label l.labelSpan s2
        obtain ⟨z, hz⟩ := fld l.title l.titleSpan s3
        refine ⟨_, by unfold linkCall Link.hrefStr Link.labelStr Link.titleStr; rw [hs, hx, hy, hz]; rfl, ?_⟩
        refine .mk ?_ ?_ ?_ ?_ ?_ ?_ ?_ ?_ ?_
        · exact ⟨[], by simp [Call.asStr, Call.new, Call.addArg, Call.clo, Call.src, Call.opn, slice, takeB, dropB]⟩
        · exact ⟨true, by simp [Call.isEscaped, Call.openStr, Call.new, Call.addArg, Call.src, Call.opn, slice, takeB, dropB, startsWith]⟩
        · intro p e
          simp only [Call.addArg, Call.new, Call.target] at e
          cases e
          exact ⟨⟨[], by simp [Path.asStr, Path.new, slice, takeB, dropB]⟩, by simp [Path.new]⟩
        · intro d e; simp [Call.addArg, Call.new, Call.target] at e
        · intro p e; simp [Call.addArg, Call.new, Call.args] at e
        · intro p e; simp [Call.addArg, Call.new, Call.args] at e
        · intro v e
          simp only [Call.addArg, Call.new, Call.args, List.nil_append, List.cons_append, List.mem_cons, List.not_mem_nil, or_false] at e
          rcases e with rfl | rfl | rfl
          · exact s1
          · exact s2
          · exact s3
        · intro k p e; simp [Call.addArg, Call.new, Call.params] at e
        · intro k p e; simp [Call.addArg, Call.new, Call.params] at e

end Bracket.Robust
