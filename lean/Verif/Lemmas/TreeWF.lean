import Verif.Lemmas.NodeWF

/-! Trees lie where they should in the source. -/

set_option linter.unusedSectionVars false
set_option linter.unusedSimpArgs false
set_option linter.unusedVariables false

namespace Bracket
open Re Spec Props

section
variable {src : Str} {ln lt : Nat → Nat → Prop}

theorem mapLast_snoc_block (f : Block → Block) (l : Block) : ∀ init : List Node, Block.mapLast f (init ++ [.block l]) = init ++ [.block (f l)]
  | [] => rfl
  | x :: [] => by cases x <;> rfl
  | x :: y :: r => by
      have := mapLast_snoc_block f l (y :: r)
      simp only [List.cons_append] at this ⊢
      rw [Block.mapLast, this]

theorem Spec.CoversL.snoc {xs : List Node} {x : Node} {a b c : Nat} (h : CoversL src ln lt xs a b) (hx : Covers src ln lt x b c) :
    CoversL src ln lt (xs ++ [x]) a c := by
  induction xs generalizing a with
  | nil => cases h; exact .cons hx .nil
  | cons y ys ih => cases h with | cons h1 h2 => exact .cons h1 (ih h2)

theorem Spec.Branches.snoc {xs : List Node} {l : Block} {a b c : Nat} (h : Branches src ln lt xs a b) (hx : Branch src ln lt l b c (some ⟨c - 1, c⟩)) :
    Branches src ln lt (xs ++ [.block l]) a c := by
  induction xs generalizing a with
  | nil => cases h; exact .cons hx .nil
  | cons y ys ih => cases h with | cons h1 h2 => exact .cons h1 (ih h2)

theorem Spec.Inside.push {b : Block} {a m e : Nat} {x : Node} (h : Inside src ln lt b a m none) (hx : Covers src ln lt x m e) :
    Inside src ln lt (b.push x) a e none := by
  cases b with
  | mk s n r o cl c cs l =>
  cases h with
  | plain hs hr ho ha hc hb hn hcs =>
      simp only [Block.conditionals] at hcs
      subst hcs
      exact .plain hs hr ho ha hc hb (CoversL.snoc hn hx) rfl
  | @clauses _ k init _ e' f g _ _ hs hr ho ha hc hb hn hcs hi hl =>
      simp only [Block.conditionals] at hcs
      subst hcs
      have : Block.push x (.mk s n r o cl c (init ++ [.block k]) l) = .mk s n r o cl c (init ++ [.block (k.pushOwn x)]) l := by
        unfold Block.push
        cases hci : init ++ [Node.block k] with
        | nil => simp at hci
        | cons y ys => dsimp only; rw [← hci, mapLast_snoc_block]
      rw [this]
      refine .clauses (l := k.pushOwn x) hs hr ho ha hc hb hn rfl hi ?_
      cases k with
      | mk s' n' r' o' cl' c' cs' l' =>
      cases hl with
      | mk hs hr ho ha hc hb hcond hn hcs hcl => exact .mk hs hr ho ha hc hb hcond (CoversL.snoc hn hx) hcs hcl

theorem Spec.Inside.addCond {b k : Block} {a m e : Nat} (h : Inside src ln lt b a m none) (hm : 0 < m)
    (hk : Branch src ln lt k m e none) : Inside src ln lt (b.addCondition k) a e none := by
  have hkm : k.call.opn.start = m := by cases hk; assumption
  cases b with
  | mk s n r o cl c cs l =>
  cases h with
  | plain hs hr ho ha hc hb hn hcs =>
      simp only [Block.conditionals] at hcs
      subst hcs
      have : Block.addCondition (.mk s n r o cl c [] l) k = .mk s n r o cl c ([] ++ [.block k]) l := by
        unfold Block.addCondition Block.closeCondition
        rw [hkm]; simp only [gt_iff_lt, hm, if_true]; rfl
      rw [this]
      exact .clauses (l := k) (init := []) hs hr ho ha hc hb hn rfl .nil hk
  | @clauses _ d init _ e' f g _ _ hs hr ho ha hc hb hn hcs hi hl =>
      simp only [Block.conditionals] at hcs
      subst hcs
      have : Block.addCondition (.mk s n r o cl c (init ++ [.block d]) l) k =
          .mk s n r o cl c ((init ++ [.block (d.setClose ⟨m - 1, m⟩)]) ++ [.block k]) l := by
        unfold Block.addCondition Block.closeCondition
        rw [hkm]; simp only [gt_iff_lt, hm, if_true]; rw [mapLast_snoc_block]
      rw [this]
      refine .clauses (l := k) hs hr ho ha hc hb hn rfl (Branches.snoc hi ?_) hk
      cases d with
      | mk s' n' r' o' cl' c' cs' l' =>
      cases hl with
      | mk hs hr ho ha hc hb hcond hn hcs hcl => exact .mk hs hr ho ha hc hb hcond hn hcs rfl

theorem Spec.Inside.exit {b : Block} {a z k : Nat} {sp : Span} (h : Inside src ln lt b a z none) :
    Inside src ln lt ((b.exit sp).linesEnd k) a z (some sp) := by
  cases b with
  | mk s n r o cl c cs l =>
  cases h with
  | plain hs hr ho ha hc hb hn hcs =>
      simp only [Block.conditionals] at hcs
      subst hcs
      exact .plain hs hr ho ha hc hb hn rfl
  | @clauses _ d init _ e' f g _ _ hs hr ho ha hc hb hn hcs hi hl =>
      simp only [Block.conditionals] at hcs
      subst hcs
      refine .clauses (l := d.setClose sp) hs hr ho ha hc hb hn (by simp only [Block.exit, Block.linesEnd, Block.conditionals]; rw [mapLast_snoc_block]) hi ?_
      cases d with
      | mk s' n' r' o' cl' c' cs' l' =>
      cases hl with
      | mk hs hr ho ha hc hb hcond hn hcs hcl => exact .mk hs hr ho ha hc hb hcond hn hcs rfl

theorem push_keep (b : Block) (x : Node) : (b.push x).call = b.call ∧ (b.push x).line = b.line ∧ (b.push x).clo = b.clo := by
  cases b with
  | mk s n r o cl c cs l => cases cs <;> exact ⟨rfl, rfl, rfl⟩

theorem addCond_keep (b k : Block) : (b.addCondition k).call = b.call ∧ (b.addCondition k).line = b.line ∧ (b.addCondition k).clo = b.clo := by
  cases b with
  | mk s n r o cl c cs l =>
  unfold Block.addCondition Block.closeCondition
  by_cases h : k.call.opn.start > 0
  · simp only [h, if_true]; exact ⟨rfl, rfl, rfl⟩
  · simp only [h, if_false]; exact ⟨rfl, rfl, rfl⟩

theorem addToBlock_keep (E : PEnv) (lr : Span) (x : Node) (b : Block) :
    (addToBlock E lr x b).call = b.call ∧ (addToBlock E lr x b).line = b.line ∧ (addToBlock E lr x b).clo = b.clo := by
  unfold addToBlock
  split
  · split
    · exact addCond_keep _ _
    · exact push_keep _ _
  · exact push_keep _ _

/-- The open blocks, innermost first: the outermost starts at `z`, the innermost reaches up to `off`. -/
inductive StackOk (src : Str) (ln lt : Nat → Nat → Prop) (z : Nat) : List (Str × Block) → Nat → Prop
  | nil : StackOk src ln lt z [] z
  | cons {nm : Str} {b : Block} {rest : List (Str × Block)} {a off : Nat} (h : Inside src ln lt b a off none) (hlt : a < off) (hc : b.clo = none)
      (hn : b.name = some (some nm)) (hl : ln a b.line.start) (hr : StackOk src ln lt z rest a) : StackOk src ln lt z ((nm, b) :: rest) off

theorem addToBlock_inside {E : PEnv} (hE : E.src = src) {lr : Span} {x : Node} {b : Block} {a m e : Nat} (h : Inside src ln lt b a m none) (hm : 0 < m)
    (hx : Covers src ln lt x m e) : Inside src ln lt (addToBlock E lr x b) a e none := by
  unfold addToBlock
  split
  · rename_i call
    split
    · rename_i hcond
      cases hx with
      | statement hc ha hb hl =>
          exact Inside.addCond h hm (.mk hE rfl rfl ha hc hb hcond .nil rfl rfl)
    · exact Inside.push h hx
  · exact Inside.push h hx
end

section
variable [Host] {E : PEnv} {base : Nat} {all : List Token}

theorem St0.ln {m : Mode} {off : Nat} {o : Option Token} {s : PS} (h : St0 E base all m off o s) : LnOk E.src base all off s.line := ⟨h.line, h.tight⟩

abbrev Cov (E : PEnv) (base : Nat) (all : List Token) : Node → Nat → Nat → Prop := Covers E.src (LnOk E.src base all) (LtOk E.src base all)

def NodeQ (E : PEnv) (base : Nat) (all : List Token) (off : Nat) (x : Node) (t : PS) : Prop :=
  ∃ m' off', off < off' ∧ St0 E base all m' off' none t ∧ Cov E base all x off off' ∧ (m' = .block ∨ Unfinished E.src x)

/-- At the end of the source. -/
theorem Tr.failEnd {α : Type} {Q : α → PS → Prop} {k : SynKind} {m : Mode} {off : Nat} {s : PS} (h : St0 E base all m off none s) (h1 : s.toks = [])
    (h2 : s.byte + 1 = off) (hk : k = .commentNotTerminated ∨ k = .rawCommentNotTerminated ∨ k = .rawStatementNotTerminated ∨ k = .rawBlockNotTerminated) :
    Tr E base (P.fail E k : P α) s Q := by
  unfold Tr P.fail P.failWith
  cases hi : errorInfo E.src E.fileName s.line s.byte [] with
  | none => exact .snippet _ _ _ hi h.byte
  | some i =>
      have hall := h.hall
      subst hall
      have hr := h.rest
      simp only [Option.toList, List.nil_append] at hr
      have hs := hr.startsAt
      refine ⟨s.line, s.byte, off, [], s.toks, hi, by simpa using h.suf, hs, ⟨h.line, h.tight⟩, .inr (.inl ⟨hk, h1, ?_⟩)⟩
      rw [h1] at hs
      rw [h2]; exact hs

theorem textBlock_wf {k fin : Kind} {sp : Span} {m : Mode} {off : Nat} {s : PS} (hk : isOpener k = true) (hn : Token.isNewline ⟨k, sp⟩ = false)
    (hl : k ≠ .link .text) (htag : isTag k = true) (h : St0 E base all m off (some ⟨k, sp⟩) s) (hm : nextMode m k = modeOf fin)
    (hfin : (fin = .rawComment .fin ∨ fin = .rawStatement .fin ∨ fin = .comment .fin)) {e : SynKind}
    (he : e = .commentNotTerminated ∨ e = .rawCommentNotTerminated ∨ e = .rawStatementNotTerminated) {f : TextBlock → Node}
    (hf : ∀ tb b, TextBlockIn E.src off b tb → LnOk E.src base all off tb.text.line.start → Cov E base all (f tb) off b) :
    Tr E base (do
      match (← textUntil E sp (fun t => t.kind == fin)) with
      | some (tb, _) => pure (f tb)
      | none => P.fail E e : P Node) s fun x t => NodeQ E base all off x t := by
  have hlt : off < sp.stop := h.lt
  have hin : In E.src off sp.stop sp := h.inn
  have hop : OpenerAt E.src sp := by obtain ⟨w, hw⟩ := h.tok; exact hw.openerAt hk
  have h' : St0 E base all _ sp.stop none s := h.skip hn hl
  refine Tr.bind (textUntil_wf (fun m => m = modeOf fin) ?_ ?_ h' hm rfl) ?_
  · intro t _ ht
    have : t.kind = fin := by simpa using ht
    rcases t with ⟨kd, sp⟩
    simp only at this; subst this
    rcases hfin with rfl | rfl | rfl <;> rfl
  · intro t hm' ht
    have : t.kind ≠ fin := by simpa using ht
    rcases t with ⟨kd, sp⟩
    simp only at this hm' ⊢
    rcases hfin with rfl | rfl | rfl <;> cases kd <;> simp [modeOf] at hm' <;> (rename_i tk; cases tk <;> simp [nextMode, modeOf] at this ⊢)
  · rintro r t ⟨h1, h2⟩
    split
    · rename_i tb c
      obtain ⟨m', off', l, g1, g2, g3, g4⟩ := h2 _ _ rfl
      have hkc : c.kind = fin := by simpa using g3
      have hcl := g2.lt
      have hci := g2.inn
      have hmo := g2.mode
      refine Tr.pure ⟨nextMode m' c.kind, c.span.stop, by omega, ?_, ?_, .inl ?_⟩
      · refine g2.skip ?_ ?_
        · rcases c with ⟨kd, csp⟩; simp only at hkc; subst hkc
          rcases hfin with rfl | rfl | rfl <;> rfl
        · rw [hkc]; rcases hfin with rfl | rfl | rfl <;> simp
      · subst g4
        refine hf _ _ ⟨rfl, rfl, hin.mono (Nat.le_refl _) (by omega), ⟨by have := h.start; simp at this; simp; omega, hop⟩, hci.mono (by omega) (Nat.le_refl _), h.start, ?_, ?_, rfl⟩ h.ln
        · rw [g2.start]
        · rw [g2.start]; exact g1
      · rw [hmo, hkc]; rcases hfin with rfl | rfl | rfl <;> rfl
    · obtain ⟨l, hsuf⟩ := h.suf
      obtain ⟨m', off', g1, g2, g3, g4⟩ := h1 rfl
      by_cases hts : s.toks = []
      · unfold Tr P.fail P.failWith
        cases hi : errorInfo E.src E.fileName t.line t.byte [] with
        | none => exact .snippet _ _ _ hi g1.byte
        | some i =>
            have hall := g1.hall
            subst hall
            have hr := g1.rest
            simp only [Option.toList, List.nil_append] at hr
            refine ⟨t.line, t.byte, off', [], t.toks, hi, by simpa using g1.suf, hr.startsAt, ⟨g1.line, g1.tight⟩, .inr (.inr (.inl ⟨he, g2, l, ⟨k, sp⟩, ?_, htag⟩))⟩
            rw [← hsuf, hts]; rfl
      · exact Tr.failEnd g1 g2 (g3 hts) (by rcases he with h | h | h <;> simp [h])

omit [Host] in
theorem bd_ext {src a r : Str} {j : Nat} (e : src = a ++ r) (hj : Bd src j) (h : blen a ≤ j) : ∃ w r', r = w ++ r' ∧ blen a + blen w = j := by
  obtain ⟨a', b, c, e', ha, hb⟩ := Spec.Bd.split ⟨a, r, e, rfl⟩ hj h
  obtain ⟨rfl, rfl⟩ := append_blen_inj (e.symm.trans e') ha.symm
  exact ⟨b, c, rfl, hb⟩

/-- The text of `sp` occurs in the text from `a` to `b`. -/
theorem slice_sub {src : Str} {a b : Nat} {sp : Span} {name : Str} (ha : Bd src a) (hb : Bd src b) (h : In src a b sp) (hn : slice src sp.start sp.stop = some name) :
    ∃ u v, slice src a b = some (u ++ (name ++ v)) ∧ ∃ pre post, src = pre ++ ((u ++ (name ++ v)) ++ post) ∧ blen pre = a ∧ blen pre + blen u = sp.start := by
  obtain ⟨p, r, e, hp⟩ := ha
  obtain ⟨u, r1, rfl, l1⟩ := bd_ext e h.bs (by rw [hp]; exact h.lo)
  have e1 : src = (p ++ u) ++ r1 := by rw [e, List.append_assoc]
  obtain ⟨w, r2, rfl, l2⟩ := bd_ext e1 h.be (by rw [blen_append, l1]; exact h.le)
  have e2 : src = (p ++ u ++ w) ++ r2 := by rw [e1, List.append_assoc (p ++ u)]
  obtain ⟨v, r3, rfl, l3⟩ := bd_ext e2 hb (by rw [blen_append, l2]; exact h.hi)
  have hw : slice src sp.start sp.stop = some w := by
    refine slice_eq e1 ?_ ?_
    · rw [blen_append, l1]
    · exact l2.symm
  rw [hn] at hw
  cases hw
  have e3 : src = p ++ ((u ++ (name ++ v)) ++ r3) := by rw [e2]; simp
  refine ⟨u, v, slice_eq e3 hp.symm ?_, p, r3, e3, hp, l1⟩
  simp only [blen_append] at l1 l2 l3 ⊢
  omega

theorem braces_ext {src : Str} {a b : Nat} {sp : Span} (ha : Bd src a) (hb : Bd src b) (h : In src a b sp) (he : sp.stop = b) (hbr : Braces src sp) : Braces src ⟨a, b⟩ := by
  obtain ⟨w, hw⟩ := hbr
  obtain ⟨u, v, h1, pre, post, e, h2, h3⟩ := slice_sub ha hb h hw
  have hv : v = [] := by
    obtain ⟨p, c, e', l1, l2⟩ := slice_some h1
    obtain ⟨p', c', e'', l3, l4⟩ := slice_some hw
    refine blen_eq_zero.1 ?_
    simp only [blen_append] at l2 l4
    omega
  subst hv
  exact ⟨u ++ w, by rw [h1]; simp⟩

theorem name_wf {src : Str} {lo hi : Nat} {b : Block} (h : TargetIn src lo hi b.call.target) :
    b.name ≠ none ∧ ∀ nm, b.name = some (some nm) → ∃ c, CompIn src lo hi c ∧ Word src c.span ∧ slice src c.span.start c.span.stop = some nm := by
  have key : ∀ p : Path, PathIn src lo hi p ∨ p.components = [] → b.call.target = .path p →
      b.name ≠ none ∧ ∀ nm, b.name = some (some nm) → ∃ c, CompIn src lo hi c ∧ Word src c.span ∧ slice src c.span.start c.span.stop = some nm := by
    intro p hp ht
    unfold Block.name
    rw [ht]
    dsimp only
    split
    · rename_i c hc
      rcases hp with hp | hp
      · have hci := hp.comps c (by rw [hc]; simp)
        obtain ⟨w, hw⟩ := hci.span.slice
        have hcs : c.asStr = some w := by unfold Component.asStr; rw [hci.source, hw]
        split
        · rename_i hk
          rw [hcs]
          refine ⟨by simp, ?_⟩
          intro nm hnm
          simp at hnm
          subst hnm
          exact ⟨c, hci, hci.word hk, hw⟩
        · simp
      · rw [hp] at hc; cases hc
    · simp
  generalize hT : b.call.target = T at h
  cases h with
  | none => exact key _ (.inr rfl) hT
  | path h => exact key _ (.inl h) hT
  | sub h h' => unfold Block.name; rw [hT]; simp

theorem slice_empty {src : Str} {n : Nat} (h : Bd src n) : slice src n n = some [] := by
  obtain ⟨a, b, e, hn⟩ := h
  exact slice_eq (a := a) (b := []) (c := b) (by simpa using e) hn.symm (by simp [hn])

theorem rawBlock_wf {sp : Span} {m : Mode} {off : Nat} {s : PS} (h : St0 E base all m off (some ⟨.block .startRawBlock, sp⟩) s) :
    Tr E base (rawBlock E sp) s fun x t => NodeQ E base all off x t := by
  have hln := h.ln
  unfold rawBlock
  refine Tr.lineRangeBind (Tr.bind (callParse_wf rfl rfl (by simp) rfl h) ?_)
  rintro call t ⟨m1, off1, q⟩
  have hlt : off < sp.stop := h.lt
  split
  · exact Tr.fail q.st
  · rename_i endSpan hclo
    rcases q.ends with ⟨sp1, g1, g2, g3⟩ | ⟨g1, _⟩
    case inr => rw [g1] at hclo; cases hclo
    rw [hclo] at g1
    cases g1
    have ha1 := TargetIn.asStr (CallIn.target q.inn)
    refine Tr.orPanicBind (fun hno => ?_) fun openName hopen => ?_
    · exfalso
      rcases ha1 with e | ⟨sp', hi, e⟩
      · rw [e] at hno; cases hno
      · obtain ⟨v, hv⟩ := hi.slice
        rw [e, hv] at hno; cases hno
    refine Tr.bind (textUntil_wf (fun _ => True) ?_ (fun _ _ _ => trivial) q.st.toSt0 trivial g2) ?_
    · intro t _ ht
      have : t.kind = .block .endRawBlock := by simpa using ht
      simp [Token.isNewline, this]
    rintro r u ⟨k1, k2⟩
    split
    · obtain ⟨n1, n2, n3⟩ := q.st.near
      obtain ⟨m', off', g1, g2, g3, g4⟩ := k1 rfl
      by_cases hts : t.toks = []
      · obtain ⟨k1, k3⟩ := g4 hts
        refine Tr.fail (tag := off) ⟨g1, ?_, ?_, ?_⟩
        · simp only [Option.toList, List.nil_append] at n1 ⊢
          rw [g2]; rw [hts] at n1; exact n1
        · rw [k1]; exact n2
        · rw [k1, k3]; exact n3
      · exact Tr.failEnd g1 g2 (g3 hts) (by simp)
    · rename_i tb close
      obtain ⟨m2, off2, l, i1, i2, i3, i4⟩ := k2 _ _ rfl
      have hck : close.kind = .block .endRawBlock := by simpa using i3
      subst i4
      have i2' : St0 E base all m2 off2 (some ⟨.block .endRawBlock, close.span⟩) u := by rw [← hck]; exact i2
      refine Tr.bind (callParse_wf rfl rfl (by simp) rfl i2') ?_
      rintro endTag v ⟨m3, off3, q3⟩
      have hlt2 := i2.lt
      split
      · exact Tr.fail q3.st
      · rename_i cs hcs
        rcases q3.ends with ⟨sp3, j1, j2, j3⟩ | ⟨j1, _⟩
        case inr => rw [j1] at hcs; cases hcs
        rw [hcs] at j1
        cases j1
        have ha3 := TargetIn.asStr (CallIn.target q3.inn)
        refine Tr.orPanicBind (fun hno => ?_) fun endName hend => ?_
        · exfalso
          rcases ha3 with e | ⟨sp', hi, e⟩
          · rw [e] at hno; cases hno
          · obtain ⟨v, hv⟩ := hi.slice
            rw [e, hv] at hno; cases hno
        split
        · exact Tr.failWith q3.st
        · rename_i hne
          have hne : openName = endName := by simpa using hne
          subst hne
          have hmode : m3 = .block := q3.mode (by rw [hcs]; simp)
          subst hmode
          have hos : endTag.opn.start = off2 := by rw [q3.opn]; exact i2.start
          have hos1 : endTag.opn.stop = close.span.stop := by rw [q3.opn]
          have hle3 := q3.le
          have hle1 := q.le
          have hb1 := q.st.bd
          have hb2 := i2.bd
          have hb3 := q3.st.bd
          have hIn : In E.src off1 off3 ⟨off2, off3⟩ := ⟨hb2, hb3, i1, by simp; omega, Nat.le_refl _⟩
          refine Tr.lineBind (Tr.pure ⟨.block, off3, by omega, q3.st.toSt0, ?_, .inl rfl⟩)
          have hbr : Braces E.src ⟨off2, off3⟩ := by
            have := CallIn.close q3.inn hcs
            exact braces_ext hb2 hb3 (this.mono (by omega) (Nat.le_refl _)) j2 j3
          refine .raw (e := off1) (z := off2) (y := off3) (name := openName) (t := ⟨E.src, ⟨off1, off2⟩, ⟨t.line, l⟩⟩) rfl rfl
            (CallIn.mono q.inn (Nat.le_refl _) (by omega)) ?_ ?_ ⟨endSpan, hclo, g2, g3⟩ rfl rfl ⟨hb1, hb2, Nat.le_refl _, i1, Nat.le_refl _⟩ rfl q.st.toSt0.ln rfl ?_ hIn rfl hopen ?_ hln
          · exact q.opn.symm
          · show call.opn.start = off
            rw [q.opn]; exact h.start
          · simp only [Block.linesEnd, Block.exit, Block.push, Block.setCall, Block.new, Block.clo, hos, j2]
          · left
            refine ⟨rfl, hbr, ?_⟩
            rcases ha3 with e | ⟨sp', hi, e⟩
            · rw [e] at hend
              cases hend
              exact ⟨⟨off2, off2⟩, ⟨hb2, hb2, Nat.le_refl _, Nat.le_refl _, by simp; omega⟩, slice_empty hb2, trivial⟩
            · rw [e] at hend
              exact ⟨sp', hi.mono (by show off2 ≤ _; omega) (Nat.le_refl _), hend, trivial⟩

theorem endBlock_wf {sp : Span} {m : Mode} {z off : Nat} {s : PS} (h : St0 E base all m off (some ⟨.block .endBlockScope, sp⟩) s)
    (hst : StackOk E.src (LnOk E.src base all) (LtOk E.src base all) z s.stack off) :
    Tr E base (endBlock E sp) s fun r t => ∃ x a m' off', r = some x ∧ off < off' ∧ a < off ∧ t.next = s.next ∧ St0 E base all m' off' none t ∧ Cov E base all x a off' ∧
      StackOk E.src (LnOk E.src base all) (LtOk E.src base all) z t.stack a ∧ (m' = .block ∨ Unfinished E.src x) ∧ s.stack ≠ [] := by
  have hlt : off < sp.stop := h.lt
  have hin : In E.src off sp.stop sp := h.inn
  obtain ⟨w0, hw0⟩ := h.tok
  unfold endBlock scopeP
  refine Tr.bind (Q := fun b t => (∃ m' off', TagQ E base all off s.line sp b.call t m' off') ∧ PRel s t) ?_ ?_
  · refine Tr.lineRangeBind (Tr.bind ((callParse_wf rfl rfl (by simp) rfl h).withRel (callParse_tri E sp s)) ?_)
    rintro call t ⟨q, hrel⟩
    exact Tr.pure ⟨q, hrel⟩
  rintro temp t ⟨⟨m1, off1, q⟩, hrel⟩
  have hn := name_wf (CallIn.target q.inn)
  have hle := q.le
  have hb := h.bd
  have hb1 := q.st.bd
  refine Tr.orPanicBind (fun hno => absurd hno hn.1) fun name hname => ?_
  refine Tr.getBind ?_
  rw [hrel.stack]
  split
  · refine Tr.setByteBind (Tr.failWith (tag := off) ⟨q.st.toSt0.setByte hw0.byteStart, ?_⟩)
    exact ⟨q.st.near.1, by show off ≤ sp.start; have := h.start; simp at this; omega, by show sp.start ≤ off1; have := h.start; simp at this; omega⟩
  · rename_i openName block rest hstack
    rw [hstack] at hst
    refine Tr.modifyBind ?_
    split
    · rename_i closeName
      split
      · exact Tr.failWith ⟨⟨q.st.rest, q.st.suf, q.st.byte, q.st.line, q.st.tight, q.st.hall⟩, q.st.near⟩
      · rename_i hne
        have hne : openName = closeName := by simpa using hne
        subst hne
        cases hst with
        | @cons _ _ _ a _ hI hlt' hc hnm hl hr =>
        have hsp : ∃ y, (match temp.call.clo with
            | some _ => ⟨sp.start, temp.call.span.stop⟩
            | none => sp : Span) = ⟨off, y⟩ ∧ In E.src off off1 ⟨off, y⟩ ∧ EndTag E.src openName (Word E.src) ⟨off, y⟩ off1 ∧
            (m1 = .block ∨ ∃ w c, slice E.src off y = some (w ++ [c]) ∧ c ≠ '}') := by
          rcases hclo : temp.call.clo with _ | cs
          · have e : (⟨off, sp.stop⟩ : Span) = sp := by have := h.start; simp at this; rw [← this]
            have hlast : ∃ w c, slice E.src off sp.stop = some (w ++ [c]) ∧ c ≠ '}' := by
              have hsl := hw0.slice
              have hsp0 : sp.start = off := h.start
              simp only [hsp0] at hsl
              refine ⟨w0.dropLast, w0.getLast hw0.ne, ?_, ?_⟩
              · rw [List.dropLast_concat_getLast]; exact hsl
              · have := hw0.opener rfl _ (List.getLast_mem hw0.ne)
                intro e; rw [e] at this; revert this; decide
            refine ⟨sp.stop, e.symm, ?_, .inr ⟨hle, hlast⟩, .inr hlast⟩
            rw [e]; exact hin.mono (Nat.le_refl _) hle
          · rcases q.ends with ⟨sp3, j1, j2, j3⟩ | ⟨j1, _⟩
            case inr => rw [j1] at hclo; cases hclo
            rw [hclo] at j1
            cases j1
            have hspan : temp.call.span.stop = off1 := by
              unfold Call.span; rw [hclo]; exact j2
            refine ⟨off1, ?_, ⟨hb, hb1, Nat.le_refl _, by simp; omega, Nat.le_refl _⟩, .inl ⟨rfl, ?_, ?_⟩, .inl (q.mode (by rw [hclo]; simp))⟩
            · dsimp only
              rw [hspan]; have := h.start; simp at this; rw [this]
            · have := CallIn.close q.inn hclo
              rw [q.opn] at this
              exact braces_ext hb hb1 (this.mono (by omega) (Nat.le_refl _)) j2 j3
            · obtain ⟨c, hci, hwd, hsl⟩ := hn.2 _ hname
              have hcs := hci.span
              rw [q.opn] at hcs
              exact ⟨c.span, hcs.mono (by show off ≤ _; omega) (Nat.le_refl _), hsl, hwd⟩
        obtain ⟨y, s1, s2, s3, s4⟩ := hsp
        rcases hclo : temp.call.clo with _ | cs <;> rw [hclo] at s1 <;> dsimp only at s1 ⊢ <;> rw [s1]
        all_goals
          refine Tr.lineBind (Tr.pure ⟨_, a, m1, off1, rfl, by omega, hlt', hrel.next, ⟨q.st.rest, q.st.suf, q.st.byte, q.st.line, q.st.tight, q.st.hall⟩, ?_, hr, ?_, by simp [hstack]⟩)
          · refine .block (name := openName) (Inside.exit hI) ?_ s2 ?_ s3 ?_
            · cases block; rfl
            · unfold Block.name at hnm ⊢; cases block; exact hnm
            · cases block; exact hl
          · rcases s4 with s4 | ⟨w, c, s5, s6⟩
            · exact .inl s4
            · right
              refine ⟨⟨off, y⟩, w, c, ?_, s5, s6⟩
              cases block; rfl
    · exact Tr.fail (tag := off) ⟨⟨q.st.rest, q.st.suf, q.st.byte, q.st.line, q.st.tight, q.st.hall⟩, q.st.near⟩

/-! ### mod.rs -/

theorem tokenP_wf {β : Type} {f : Option Token → P β} {Q : β → PS → Prop} {m : Mode} {off : Nat} {s : PS} (h : St0 E base all m off s.next s)
    (h1 : s.next = none → s.toks = [] → Tr E base (f none) s Q)
    (h2 : ∀ tok t, St0 E base all m off (some tok) t → t.next = none → t.stack = s.stack → Tr E base (f (some tok)) t Q) : Tr E base (tokenP >>= f) s Q := by
  unfold Tr
  rw [P.bind_def]
  unfold tokenP
  rcases hn : s.next with _ | tok
  · rw [hn] at h
    dsimp only
    cases e : s.toks with
    | nil => exact h1 hn e
    | cons t ts =>
        have h' := h.take e
        exact h2 t { s with toks := ts, next := none } ⟨h'.rest, h'.suf, h'.byte, h'.line, h'.tight, h'.hall⟩ rfl rfl
  · rw [hn] at h
    exact h2 tok { s with next := none } ⟨h.rest, h.suf, h.byte, h.line, h.tight, h.hall⟩ rfl rfl

def AdvQ (E : PEnv) (base : Nat) (all : List Token) (z off : Nat) (m : Mode) (s : PS) (tok : Token) : Option Node → PS → Prop
  | none, _ => m = .block → tok.kind = .block .startBlockScope ∨ tok.kind = .block .endRawBlock
  | some x, t => ∃ a m' off', off < off' ∧ a < off' ∧ St0 E base all m' off' t.next t ∧ Cov E base all x a off' ∧
      StackOk E.src (LnOk E.src base all) (LtOk E.src base all) z t.stack a ∧
      (m' = .block ∨ Unfinished E.src x ∨ (m' = m ∧ t.stack = s.stack)) ∧ (s.stack = [] → t.stack = [])

def LoopQ (E : PEnv) (base : Nat) (all : List Token) (z off : Nat) : Option Node → PS → Prop
  | none, _ => True
  | some x, t => ∃ m' off', off ≤ off' ∧ z < off' ∧ t.stack = [] ∧ St0 E base all m' off' t.next t ∧ Cov E base all x z off' ∧ (m' = .block ∨ Unfinished E.src x)

/-- Lexer modes in which text tokens occur. -/
def textMode : Mode → Prop
  | .block | .rawComment | .rawStatement | .comment => True
  | _ => False

theorem advance_text_wf {n : Nat} {tok : Token} {m : Mode} {z off : Nat} {s : PS} (h : St0 E base all m off (some tok) s)
    (hst : StackOk E.src (LnOk E.src base all) (LtOk E.src base all) z s.stack off) (ht : tok.isText = true) :
    Tr E base (advance E (n + 1) tok) s fun r t => AdvQ E base all z off m s tok r t := by
  have hlt := h.lt
  have hm := h.mode
  obtain ⟨w, hw⟩ := h.tok
  unfold advance
  rw [if_pos ht]
  have htm : textMode m ∧ nextMode m tok.kind = m := by
    rw [hm]
    rcases tok with ⟨k, sp⟩
    cases k <;> simp [Token.isText] at ht <;> rcases ht with rfl | rfl <;> simp [modeOf, textMode, nextMode]
  -- the state after the newline was counted
  have hs : ∃ s1, P.incLineIf tok.isNewline s = (.ok (), s1) ∧ St0 E base all m tok.span.stop none s1 ∧ s1.stack = s.stack ∧ LtOk E.src base all off s1.line := by
    obtain ⟨pre, r, e, hp, _⟩ := hw.place
    rcases hn : tok.isNewline with _ | _
    · have hl : tok.kind ≠ .link .text := by intro e; simp [Token.isText, e] at ht
      have h' := h.skip hn hl
      rw [htm.2] at h'
      refine ⟨s, rfl, h', rfl, Nat.le_succ_of_le h.line, fun hT => ⟨fun hnl => ?_, fun _ => h.tight hT⟩⟩
      exfalso
      obtain ⟨p', r', e', hp'⟩ := hnl
      have := (append_blen_inj (e.symm.trans e') (by rw [hp, hp'])).2
      have hnn := hw.noNewline hn hl
      cases w with
      | nil => exact hw.ne rfl
      | cons c w =>
          simp at this
          exact hnn (by rw [this.1]; simp)
    · have h' := h.nl hn
      rw [htm.2] at h'
      refine ⟨{ s with line := s.line + 1 }, rfl, h', rfl, ?_, fun hT => ⟨fun _ => ?_, fun hnl => ?_⟩⟩
      · have := h.line; simp; omega
      · rw [← h.tight hT]
      · exfalso
        have hww := hw.newline hn
        subst hww
        exact hnl ⟨pre, r, e, hp⟩
  obtain ⟨s1, e1, h1, h2, h3⟩ := hs
  unfold Tr
  rw [P.bind_def, e1]
  refine Tr.lineRangeBind ?_
  unfold untilP
  refine Tr.bind (Q := fun r t => (∃ m' off', tok.span.stop ≤ off' ∧ St0 E base all m' off' r.2 t ∧ r.1 = ⟨tok.span.start, off'⟩ ∧ (m' = m) ∧
      ∀ c, r.2 = some c → (!c.isText) = true) ∧ PRel s1 t)
    (((Tr.getBind (untilLoop_wf (fun m' => m' = m) (fun t => !t.isText) ?_ ?_ _ _ _ _ s1 rfl h1 rfl rfl)).mono fun _ _ ⟨m', off', g1, g2, g3, g4, g5, _⟩ => ⟨m', off', g1, g2, g3, g4, g5⟩).withRel (untilP_tri _ _ s1)) ?_
  · intro t hmt hst
    rw [← hmt] at htm
    rcases t with ⟨k, sp⟩
    cases k <;> simp [Token.isText, Token.isNewline, modeOf, textMode] at hst htm ⊢ <;> exact hst.2
  · intro t hmt hst
    rw [hmt]
    rw [← hmt] at htm ⊢
    rcases t with ⟨k, sp⟩
    cases k <;> simp only [modeOf, textMode] at htm ⊢ <;> rename_i kd <;> cases kd <;> simp [Token.isText] at hst <;> rfl
  rintro ⟨sp, o⟩ t ⟨⟨m', off', g1, g2, g3, g4, g5⟩, hrel⟩
  dsimp only at g2 g3 ⊢
  subst g3
  refine Tr.modifyBind (Tr.lineBind (Tr.pure ⟨off, m', off', by omega, by omega, ⟨g2.rest, g2.suf, g2.byte, g2.line, g2.tight, g2.hall⟩, ?_, ?_, .inr (.inr ⟨g4, ?_⟩), ?_⟩))
  · have := h.start
    refine .text rfl ⟨h.inn.bs, g2.bd, by simp; omega, by simp; omega, Nat.le_refl _⟩ (by rw [h.start]) h3
  · show StackOk _ _ _ z t.stack off
    rw [hrel.stack, h2]; exact hst
  · show t.stack = s.stack
    rw [hrel.stack, h2]
  · intro e
    show t.stack = []
    rw [hrel.stack, h2, e]

theorem advance_wf : ∀ n : Nat,
    (∀ tok m z off (s : PS), St0 E base all m off (some tok) s → s.next = none → StackOk E.src (LnOk E.src base all) (LtOk E.src base all) z s.stack off →
      Tr E base (advance E n tok) s fun r t => AdvQ E base all z off m s tok r t) ∧
    (∀ m z off (s : PS), St0 E base all m off s.next s → s.stack ≠ [] → StackOk E.src (LnOk E.src base all) (LtOk E.src base all) z s.stack off →
      Tr E base (blockLoop E n) s fun r t => LoopQ E base all z off r t) := by
  intro n
  induction n with
  | zero => exact ⟨fun _ _ _ _ _ _ _ _ => Tr.fuel, fun _ _ _ _ _ _ _ => Tr.fuel⟩
  | succ n ih =>
      obtain ⟨ihA, ihL⟩ := ih
      refine ⟨?_, ?_⟩
      · intro tok m z off s h hnx hst
        rcases ht : tok.isText with _ | _
        case true => exact advance_text_wf h hst ht
        have hlt := h.lt
        -- a node that leaves the open blocks alone
        have simple : ∀ {α : Type} {p : P α} (f : α → Node), Tr E base p s (fun x t => NodeQ E base all off (f x) t) → Tri p s (fun _ _ => True) →
            Tr E base (do let x ← p; pure (some (f x)) : P (Option Node)) s fun r t => AdvQ E base all z off m s tok r t := by
          intro α p f h1 h2
          refine Tr.bind (h1.withRel h2) ?_
          rintro x t ⟨⟨m', off', g1, g2, g3, g4⟩, hrel⟩
          refine Tr.pure ⟨off, m', off', g1, g1, ?_, g3, ?_, ?_, ?_⟩
          · rw [hrel.next, hnx]; exact g2
          · rw [hrel.stack]; exact hst
          · rcases g4 with g4 | g4
            · exact .inl g4
            · exact .inr (.inl g4)
          · intro e; rw [hrel.stack, e]
        unfold advance
        rw [ht]
        have e0 : ∀ {β : Type} (f : Unit → P β) (Q : β → PS → Prop), Tr E base (f ()) s Q → Tr E base (P.incLineIf false >>= f) s Q :=
          fun f Q hf => hf
        rcases hnl : tok.isNewline with _ | _
        case true =>
          -- a newline outside text: nothing is parsed
          unfold Tr
          rw [P.bind_def]
          show Tr E base _ { s with line := s.line + 1 } _
          rcases tok with ⟨k, sp⟩
          cases k <;> simp [Token.isNewline, Token.isText] at hnl ht <;> first | (exfalso; exact ht.2 hnl) | skip
          all_goals
            subst hnl
            refine Tr.pure ?_
            intro hb
            have := h.mode
            rw [hb] at this
            simp [modeOf] at this
        refine e0 _ _ ?_
        rw [if_neg (by simp)]
        rcases tok with ⟨k, sp⟩
        have hin : In E.src off sp.stop sp := h.inn
        dsimp only
        split
        · exact simple id (rawBlock_wf h) (rawBlock_tri E sp s)
        · have hmm : m = .block := h.mode
          subst hmm
          exact simple id (textBlock_wf rfl rfl (by simp) rfl h rfl (.inl rfl) (.inr (.inl rfl)) (f := .rawComment) fun tb b h1 h2 => .rawComment h1 h2) (rawComment_tri E sp s)
        · have hmm : m = .block := h.mode
          subst hmm
          exact simple id (textBlock_wf rfl rfl (by simp) rfl h rfl (.inr (.inl rfl)) (.inr (.inr rfl)) (f := .rawStatement) fun tb b h1 h2 => .rawStatement h1 h2) (rawStatement_tri E sp s)
        · have hmm : m = .block := h.mode
          subst hmm
          exact simple id (textBlock_wf rfl rfl (by simp) rfl h rfl (.inr (.inr rfl)) (.inl rfl) (f := .comment) fun tb b h1 h2 => .comment h1 h2) (commentP_tri E sp s)
        · -- a block opens
          have hln := h.ln
          unfold scopeP
          refine Tr.bind (Q := fun b t => (∃ call, b = (Block.new E.src sp false ⟨s.line, s.line + 1⟩).setCall call ∧
            ∃ m' off', TagQ E base all off s.line sp call t m' off') ∧ PRel s t) ?_ ?_
          · refine Tr.lineRangeBind (Tr.bind ((callParse_wf rfl rfl (by simp) rfl h).withRel (callParse_tri E sp s)) ?_)
            rintro call t ⟨q, hrel⟩
            exact Tr.pure ⟨⟨call, rfl, q⟩, hrel⟩
          rintro block t ⟨⟨call, rfl, m1, off1, q⟩, hrel⟩
          have hn := name_wf (b := (Block.new E.src sp false ⟨s.line, s.line + 1⟩).setCall call) (CallIn.target q.inn)
          have hle := q.le
          refine Tr.orPanicBind (fun hno => absurd hno hn.1) fun name hname => ?_
          split
          · refine Tr.setByteBind ?_
            show Tr E base _ { t with byte := call.target.span.start } _
            have hbo : ByteOk E.src call.target.span.start := ?_
            have hst0 := q.st.toSt0.setByte hbo
            have hanc : Anchor all off t.toks := q.st.near.1
            by_cases hz : call.target.span.start = 0
            · unfold Tr P.fail P.failWith
              cases hi : errorInfo E.src E.fileName t.line call.target.span.start [] with
              | none => exact .snippet _ _ _ hi hbo
              | some i =>
                  have hall := q.st.hall
                  subst hall
                  have hr := q.st.rest
                  simp only [Option.toList, List.nil_append] at hr
                  exact ⟨t.line, _, off1, [], t.toks, hi, by simpa using q.st.suf, hr.startsAt, ⟨q.st.line, q.st.tight⟩, .inr (.inr (.inr ⟨rfl, hz, off, hanc⟩))⟩
            · refine Tr.fail (tag := off) ⟨hst0, hanc, ?_, ?_⟩
              · have ht := CallIn.target q.inn
                have hco : call.opn.stop = sp.stop := by rw [q.opn]
                simp only at hlt ⊢
                generalize call.target = T at ht hz
                cases ht with
                | none => simp [CallTarget.span, Path.new] at hz
                | path hp => have := hp.span.lo; simp only [CallTarget.span]; omega
                | sub hc _ => have := (CallIn.opn hc).lo; simp only [CallTarget.span, Call.span]; omega
              · have ht := CallIn.target q.inn
                simp only at ⊢
                generalize call.target = T at ht hz
                cases ht with
                | none => simp [CallTarget.span, Path.new] at hz
                | path hp => have := hp.span.hi; have := hp.span.le; simp only [CallTarget.span]; omega
                | sub hc _ => have := (CallIn.opn hc).hi; have := (CallIn.opn hc).le; simp only [CallTarget.span, Call.span]; omega
            refine ByteOk.lt ?_
            have hb := hin.be.le
            have hb1 := q.st.bd.le
            simp only at hlt
            have ht := CallIn.target q.inn
            show call.target.span.start < _
            generalize call.target = T at ht
            cases ht with
            | none => simp [CallTarget.span, Path.new]; omega
            | path hp => exact Nat.lt_of_lt_of_le hp.ne (Nat.le_trans hp.span.hi hb1)
            | sub hc _ => exact Nat.lt_of_lt_of_le (CallIn.ne hc) (Nat.le_trans (CallIn.opn hc).hi hb1)
          · rename_i nm
            refine Tr.modifyBind ?_
            refine (ihL m1 z off1 _ ?_ (by simp) ?_).mono ?_
            · show St0 E base all m1 off1 t.next _
              rw [hrel.next, hnx]
              exact ⟨q.st.rest, q.st.suf, q.st.byte, q.st.line, q.st.tight, q.st.hall⟩
            · refine .cons (a := off) ?_ (by simp at hlt; omega) rfl hname hln ?_
              · exact .plain rfl rfl q.opn.symm (by show call.opn.start = off; rw [q.opn]; exact h.start) q.inn q.ends .nil rfl
              · show StackOk _ _ _ z t.stack off
                rw [hrel.stack]; exact hst
            · rintro r u hq
              cases r with
              | none => exact fun _ => .inl rfl
              | some x =>
                  obtain ⟨m', off', g1, g2, g3, g4, g5, g6⟩ := hq
                  simp only at hlt
                  refine ⟨z, m', off', by omega, g2, g4, g5, ?_, ?_, fun _ => g3⟩
                  · rw [g3]; exact .nil
                  · rcases g6 with g6 | g6
                    · exact .inl g6
                    · exact .inr (.inl g6)
        · refine (endBlock_wf h hst).mono ?_
          rintro r t ⟨x, a, m', off', rfl, g1, g2, g3, g4, g5, g6, g7, g8⟩
          refine ⟨a, m', off', g1, by omega, ?_, g5, g6, ?_, fun e => absurd e g8⟩
          · rw [g3, hnx]; exact g4
          · rcases g7 with g7 | g7
            · exact .inl g7
            · exact .inr (.inl g7)
        · refine simple Node.statement ?_ (callParse_tri E sp s)
          · refine (callParse_wf rfl rfl (by simp) rfl h).mono ?_
            rintro call t ⟨m1, off1, q⟩
            have hle := q.le
            simp only at hlt
            refine ⟨m1, off1, by omega, q.st.toSt0, .statement q.inn ?_ q.ends ?_, ?_⟩
            · rw [q.opn]; exact h.start
            · rw [q.line]; exact h.ln
            · rcases hclo : call.clo with _ | cs
              · exact .inr hclo
              · exact .inl (q.mode (by rw [hclo]; simp))
        · refine simple Node.link ?_ (linkParse_tri E sp s)
          · refine (linkParse_wf rfl rfl (by simp) rfl h).mono ?_
            rintro l t ⟨off', g1, g2, g3, g4⟩
            obtain ⟨spc, c1, c2, c3⟩ := g3.clo
            simp only at hlt
            exact ⟨_, off', by omega, g2.toSt0, .link g3 (by rw [g4]; exact h.ln), .inl rfl⟩
        · refine Tr.pure ?_
          intro hb
          subst hb
          obtain ⟨w, hw⟩ := h.tok
          right
          rcases hw.rule with ⟨re, p, hr, _⟩ | ⟨he, c, hc, hno⟩
          · simp only [rules, blockRules, List.mem_cons, Prod.mk.injEq, List.not_mem_nil, or_false] at hr
            repeat' (first
              | (have hk := hr.2.2; first | exact hk | (exfalso; revert hk; assumption) | (exfalso; rw [hk] at ht; simp [Token.isText] at ht; done))
              | rcases hr with hr | hr)
          · exfalso
            by_cases hcn : c = '\n'
            · subst hcn
              exact hno (ch '\n') 2 (.block .newline) (by simp [rules, blockRules]) (by rw [m_ch])
            · refine hno anyNoNl 1 (.block .text) (by simp [rules, blockRules]) ?_
              unfold anyNoNl
              rw [m_cls]
              exact ⟨c, by simp [hcn], rfl⟩
      · intro m z off s h hne hst
        unfold blockLoop
        refine tokenP_wf h (fun _ _ => Tr.pure trivial) fun tok t ht hnx hstk => ?_
        dsimp only
        refine Tr.bind (ihA tok m z off t ht hnx (by rw [hstk]; exact hst)) ?_
        rintro r u hq
        refine Tr.getBind ?_
        cases r with
        | none => exact Tr.pure trivial
        | some x =>
            obtain ⟨a, m', off', g1, g2, g3, g4, g5, g6, g7⟩ := hq
            split
            · rename_i heq; cases heq
            · rename_i x' heq hs
              cases heq
              rw [hs] at g5
              cases g5
              refine Tr.pure ⟨m', off', by omega, g2, hs, g3, g4, ?_⟩
              rcases g6 with g6 | g6 | ⟨_, g6⟩
              · exact .inl g6
              · exact .inr g6
              · rw [hs, hstk] at g6; exact absurd g6.symm hne
            · rename_i x' nm cur rest heq hs
              cases heq
              rw [hs] at g5
              cases g5 with
              | @cons _ _ _ a' _ hI hlt' hc hnm hl hr =>
              refine Tr.lineRangeBind (Tr.modifyBind ?_)
              refine (ihL m' z off' _ ?_ (by simp) ?_).mono ?_
              · exact ⟨g3.rest, g3.suf, g3.byte, g3.line, g3.tight, g3.hall⟩
              · have hk := addToBlock_keep E ⟨u.line, u.line + 1⟩ x cur
                refine .cons (a := a') (addToBlock_inside rfl hI (by omega) g4) (by omega) (by rw [hk.2.2]; exact hc) ?_ (by rw [hk.2.1]; exact hl) hr
                unfold Block.name at hnm ⊢
                rw [hk.1]; exact hnm
              · rintro r v hq
                cases r with
                | none => trivial
                | some y =>
                    obtain ⟨m'', off'', k1, k2⟩ := hq
                    exact ⟨m'', off'', by omega, k2⟩

/-! ### The whole template -/

theorem TokAt.blockTag {src : Str} {off : Nat} {t : Token} {w : Str} (h : TokAt src .block off t w) (hk : t.kind = .block .startBlockScope) : BlockTagAt src off := by
  obtain ⟨pre, r, e, hp, _⟩ := h.place
  rcases h.rule with ⟨re, p, hr, hm⟩ | ⟨he, _⟩
  · rw [hk] at hr
    simp [rules, blockRules] at hr
    rw [hr.1] at hm
    simp only [m_seq, m_lit, Re.opt, m_alt, m_eps, m_ch, tabSp, m_star] at hm
    obtain ⟨_, _, rfl, rfl, ti, _, rfl, h1, bl, _, rfl, h2, _, y, rfl, rfl, _⟩ := hm
    refine ⟨pre, ti, bl, y ++ r, by rw [e]; simp, hp, ?_, ?_⟩
    · exact h1.symm
    · intro c hc; simpa [or_comm] using h2 c hc
  · rw [hk] at he; simp [errorKind] at he

theorem TokAt.rawEnd {src : Str} {off : Nat} {t : Token} {w : Str} (h : TokAt src .block off t w) (hk : t.kind = .block .endRawBlock) : RawEndAt src off := by
  obtain ⟨pre, r, e, hp, _⟩ := h.place
  rcases h.rule with ⟨re, p, hr, hm⟩ | ⟨he, _⟩
  · rw [hk] at hr
    simp [rules, blockRules] at hr
    rw [hr.1] at hm
    simp only [m_seq, m_lit, Re.opt, m_alt, m_eps, m_ch, tabSp, m_star] at hm
    obtain ⟨_, _, rfl, rfl, ti, _, rfl, h1, bl, y, rfl, h2, rfl⟩ := hm
    refine ⟨pre, ti, bl, r, by rw [e]; simp, hp, ?_, ?_⟩
    · exact h1.symm
    · intro c hc; simpa [or_comm] using h2 c hc
  · rw [hk] at he; simp [errorKind] at he

theorem parseLoop_wf : ∀ (n : Nat) (acc : List Node) (m : Mode) (off : Nat) (s : PS), St0 E base all m off s.next s → s.stack = [] →
    CoversL E.src (LnOk E.src base all) (LtOk E.src base all) acc 0 off → (m = .block ∨ ∃ x ∈ acc, Unfinished E.src x) →
    Tr E base (parseLoop E n acc) s fun ns _ => ∃ k, CoversL E.src (LnOk E.src base all) (LtOk E.src base all) ns 0 k ∧
      (k = blen E.src ∨ BlockTagAt E.src k ∨ RawEndAt E.src k ∨ ∃ x ∈ ns, Unfinished E.src x) := by
  intro n
  induction n with
  | zero => intros; exact Tr.fuel
  | succ n ih =>
      intro acc m off s h hs hc hm
      unfold parseLoop parserNext
      refine Tr.bind (Q := fun r t => match r with
        | none => off = blen E.src ∨ (m = .block → BlockTagAt E.src off ∨ RawEndAt E.src off)
        | some x => ∃ m' off', St0 E base all m' off' t.next t ∧ Cov E base all x off off' ∧ t.stack = [] ∧ (m' = .block ∨ Unfinished E.src x ∨ m' = m)) ?_ ?_
      · refine tokenP_wf h (fun h1 h2 => Tr.pure (.inl ?_)) fun tok t ht hnx hstk => Tr.getBind ?_
        · have := h.rest
          rw [h1, h2] at this
          exact this.done
        · refine ((advance_wf _).1 tok m off off t ht hnx (by rw [hstk, hs]; exact .nil)).mono ?_
          rintro r u hq
          cases r with
          | none =>
              refine .inr fun hb => ?_
              subst hb
              obtain ⟨w, hw⟩ := ht.tok
              rcases hq rfl with hk | hk
              · exact .inl (hw.blockTag hk)
              · exact .inr (hw.rawEnd hk)
          | some x =>
              obtain ⟨a, m', off', g1, g2, g3, g4, g5, g6, g7⟩ := hq
              have hu := g7 (by rw [hstk, hs])
              rw [hu] at g5
              cases g5
              refine ⟨m', off', g3, g4, hu, ?_⟩
              rcases g6 with g6 | g6 | g6
              · exact .inl g6
              · exact .inr (.inl g6)
              · exact .inr (.inr g6.1)
      · rintro r t hq
        cases r with
        | none =>
            refine Tr.pure ⟨off, hc, ?_⟩
            rcases hq with hq | hq
            · exact .inl hq
            · rcases hm with hm | hm
              · rcases hq hm with hq | hq
                · exact .inr (.inl hq)
                · exact .inr (.inr (.inl hq))
              · exact .inr (.inr (.inr hm))
        | some x =>
            obtain ⟨m', off', g1, g2, g3, g4⟩ := hq
            refine ih (acc ++ [x]) m' off' t g1 g3 (CoversL.snoc hc g2) ?_
            rcases g4 with g4 | g4 | g4
            · exact .inl g4
            · exact .inr ⟨x, by simp, g4⟩
            · rcases hm with hm | ⟨y, hy, hm⟩
              · exact .inl (g4.trans hm)
              · exact .inr ⟨y, by simp [hy], hm⟩

/-- The parser at the beginning. -/
theorem init_st (src : Str) (o : ParserOptions) (hb : ByteOk src o.byteOffset) :
    St0 ⟨src, o.fileName⟩ o.lineOffset (lex src) .block 0 none (initPS src o) := by
  refine ⟨⟨[], src, rfl, rfl, rfl⟩, List.suffix_refl _, hb, Nat.le_add_right _ _, fun _ => ?_, rfl⟩
  simp [newlines, takeB, initPS]

theorem compile_wf (src : Str) (o : ParserOptions) (hb : ByteOk src o.byteOffset) :
    (∀ r, compile src o = .ok r → ∃ ns k, r = .document src ns ∧
      CoversL src (LnOk src o.lineOffset (lex src)) (LtOk src o.lineOffset (lex src)) ns 0 k ∧
      (k = blen src ∨ BlockTagAt src k ∨ RawEndAt src k ∨ ∃ x ∈ ns, Unfinished src x)) ∧
    (compile src o = .panic → Cause src o.fileName) ∧ (∀ e, compile src o = .err e → Located src o.fileName o.lineOffset e) := by
  have h := parseLoop_wf (E := ⟨src, o.fileName⟩) (base := o.lineOffset) (all := lex src) (2 * (initPS src o).toks.length + 2) [] .block 0 (initPS src o)
    (init_st src o hb) rfl .nil (.inl rfl)
  unfold compile
  unfold Tr at h
  rcases hm : parseLoop ⟨src, o.fileName⟩ (2 * (initPS src o).toks.length + 2) [] (initPS src o) with ⟨r, t⟩
  rw [hm] at h
  cases r with
  | ok ns =>
      obtain ⟨k, h1, h2⟩ := h
      refine ⟨?_, by simp [hm], by simp [hm]⟩
      intro r hr
      simp only [hm] at hr
      cases hr
      exact ⟨ns, k, rfl, h1, h2⟩
  | err e => simp only [hm]; exact ⟨by simp, by simp, fun e' he => by cases he; exact h⟩
  | panic => simp only [hm]; exact ⟨by simp, fun _ => h, by simp⟩
  | fuel => simp [hm]
end
end Bracket
