import Verif.Lemmas.ParseNode

/-! Parsing the text of a well-formed template gives that template. -/

set_option linter.unusedSectionVars false
set_option linter.unusedSimpArgs false

namespace Bracket
open Re Spec Props P

/-! ### What follows -/

theorem Opens.of_prefix {p rest : Str} (hp : p ∈ openers) : Opens (p ++ rest) :=
  .inr (List.any_eq_true.2 ⟨p, hp, startsWith_iff.2 ⟨rest, rfl⟩⟩)

theorem opens_close (name : Str) (cl : Tilde) (k : Str) : Opens (closeText name cl ++ k) := by
  have : closeText name cl ++ k = c!"{{" ++ (cl.mark ++ ('/' :: (name ++ (cl.tail ++ (tilde cl.after ++ (c!"}}" ++ k)))))) := by simp [closeText]
  rw [this]; exact .of_prefix (by decide)

theorem opens_cls {cs : SCls} {k : Str} (hk : Opens k) : Opens (cs.src ++ k) := by
  cases cs with
  | nil => exact hk
  | cons tl cond body r =>
      have : (SCls.cons tl cond body r).src ++ k = c!"{{" ++ (tl.mark ++ (c!"else" ++ (condText tl cond ++ (tilde tl.after ++ (c!"}}" ++ (body.src ++ (r.src ++ k))))))) := by
        simp [SCls.src, elseText]
      rw [this]; exact .of_prefix (by decide)

theorem opens_tm {t : STm} {k : Str} (hk : Opens k) (ht : t.startsText = false) : Opens (t.src ++ k) := by
  cases t with
  | nil => exact hk
  | text w r => simp [STm.startsText] at ht
  | comment w r =>
      rw [STm.src, commentText]; simp only [List.append_assoc]
      exact .of_prefix (p := c!"{{") (rest := '!' :: _) (by decide)
  | longComment w r =>
      rw [STm.src, longCommentText]; simp only [List.append_assoc]
      exact .of_prefix (p := c!"{{") (rest := '!' :: '-' :: '-' :: _) (by decide)
  | escaped w r =>
      rw [STm.src, escapedText]; simp only [List.append_assoc]
      exact .of_prefix (p := c!"\\{{") (by decide)
  | link e h l t r =>
      rw [STm.src, linkText]; simp only [List.append_assoc]
      cases e with
      | true => exact .of_prefix (p := c!"\\[[") (by decide)
      | false => exact .of_prefix (p := c!"[[") (by decide)
  | stmt raw part tl p a r =>
      rw [STm.src, stmtText]; simp only [List.append_assoc]
      exact .of_prefix (p := c!"{{") (by decide)
  | dyn raw part tl q b a r =>
      rw [STm.src, dynText]; simp only [List.append_assoc]
      exact .of_prefix (p := c!"{{") (by decide)
  | rawBlock tl name a w cl r =>
      rw [STm.src, rawOpenText]; simp only [List.append_assoc]
      exact .of_prefix (p := c!"{{") (rest := '{' :: '{' :: _) (by decide)
  | block part tl name a body cs cl r =>
      rw [STm.src, openText]; simp only [List.append_assoc]
      exact .of_prefix (p := c!"{{") (by decide)

theorem noBrace_tm [Host] {t : STm} {k : Str} (hk : Opens k) (ho : t.ok k = true) (hb : t.noBrace = true) : NotNext ['}'] (t.src ++ k) := by
  cases t with
  | text w r =>
      rw [STm.ok] at ho
      simp only [Bool.and_eq_true, Bool.not_eq_true', List.isEmpty_eq_false_iff] at ho
      obtain ⟨⟨⟨hne, _⟩, _⟩, _⟩ := ho
      rw [STm.src]
      cases w with
      | nil => exact absurd rfl hne
      | cons c w =>
          rintro d r' e
          simp only [List.cons_append, List.cons.injEq] at e
          rw [← e.1]
          simpa [STm.noBrace] using hb
  | nil => exact (opens_tm (t := .nil) hk rfl).noBrace
  | comment w r => exact (opens_tm (t := .comment w r) hk rfl).noBrace
  | longComment w r => exact (opens_tm (t := .longComment w r) hk rfl).noBrace
  | escaped w r => exact (opens_tm (t := .escaped w r) hk rfl).noBrace
  | link e h l t r => exact (opens_tm (t := .link e h l t r) hk rfl).noBrace
  | stmt raw part tl p a r => exact (opens_tm (t := .stmt raw part tl p a r) hk rfl).noBrace
  | dyn raw part tl q b a r => exact (opens_tm (t := .dyn raw part tl q b a r) hk rfl).noBrace
  | rawBlock tl name a w cl r => exact (opens_tm (t := .rawBlock tl name a w cl r) hk rfl).noBrace
  | block part tl name a body cs cl r => exact (opens_tm (t := .block part tl name a body cs cl r) hk rfl).noBrace

/-! ### Adding nodes to a block -/

def Block.setNodes (ns : List Node) : Block → Block | mk s _ r o cl c cs l => mk s ns r o cl c cs l
def Block.setConds (cs : List Node) : Block → Block | mk s n r o cl c _ l => mk s n r o cl c cs l

def pushAll (ns : List Node) (b : Block) : Block := ns.foldl (fun b x => b.push x) b

theorem mapLast_snoc (f : Block → Block) (b : Block) : ∀ ys : List Node, Block.mapLast f (ys ++ [.block b]) = ys ++ [.block (f b)]
  | [] => rfl
  | [y] => by simp only [List.cons_append, List.nil_append]; rw [Block.mapLast]; rfl
  | y :: z :: ys => by
      have := mapLast_snoc f b (z :: ys)
      simp only [List.cons_append] at this ⊢
      rw [Block.mapLast, this]

theorem mapLast_append {f : Block → Block} : ∀ {ys zs : List Node}, zs ≠ [] → Block.mapLast f (ys ++ zs) = ys ++ Block.mapLast f zs
  | [], zs, _ => rfl
  | [y], z :: zs, _ => by simp only [List.cons_append, List.nil_append]; rw [Block.mapLast]
  | y :: y' :: ys, zs, h => by
      have := mapLast_append (f := f) (ys := y' :: ys) h
      simp only [List.cons_append] at this ⊢
      rw [Block.mapLast, this]
  | [_], [], h => absurd rfl h

theorem push_noConds {b : Block} (h : b.conditionals = []) (x : Node) : b.push x = b.setNodes (b.nodes ++ [x]) := by
  obtain ⟨s, n, r, o, cl, c, cs, l⟩ := b
  simp only [Block.conditionals] at h
  subst h; rfl

theorem push_conds {b nb : Block} {ys : List Node} (h : b.conditionals = ys ++ [.block nb]) (x : Node) :
    b.push x = b.setConds (ys ++ [.block (nb.setNodes (nb.nodes ++ [x]))]) := by
  obtain ⟨s, n, r, o, cl, c, cs, l⟩ := b
  simp only [Block.conditionals] at h
  subst h
  have hp : nb.pushOwn x = nb.setNodes (nb.nodes ++ [x]) := by cases nb; rfl
  cases ys with
  | nil => rw [← hp]; rfl
  | cons y ys =>
      have := mapLast_snoc (Block.pushOwn x) nb (y :: ys)
      simp only [List.cons_append] at this
      simp only [Block.push, List.cons_append, this, ← hp]
      rfl

theorem pushAll_noConds : ∀ (ns : List Node) {b : Block}, b.conditionals = [] → pushAll ns b = b.setNodes (b.nodes ++ ns)
  | [], b, _ => by cases b; simp [pushAll, Block.setNodes, Block.nodes]
  | x :: ns, b, h => by
      have : pushAll (x :: ns) b = pushAll ns (b.push x) := rfl
      rw [this, push_noConds h, pushAll_noConds ns (by cases b; exact h)]
      cases b; simp [Block.setNodes, Block.nodes]

theorem pushAll_conds : ∀ (ns : List Node) {b nb : Block} {ys : List Node}, b.conditionals = ys ++ [.block nb] →
    pushAll ns b = b.setConds (ys ++ [.block (nb.setNodes (nb.nodes ++ ns))])
  | [], b, nb, ys, h => by
      cases b; cases nb
      simp only [Block.conditionals] at h
      simp [pushAll, Block.setConds, Block.setNodes, Block.nodes, h]
  | x :: ns, b, nb, ys, h => by
      have : pushAll (x :: ns) b = pushAll ns (b.push x) := rfl
      rw [this, push_conds h, pushAll_conds ns (nb := nb.setNodes (nb.nodes ++ [x])) (ys := ys) (by cases b; rfl)]
      cases b; cases nb; simp [Block.setNodes, Block.nodes, Block.setConds]

/-- A node that is not an `{{else}}`. -/
def Node.plain : Node → Bool
  | .statement c => !c.conditional
  | _ => true

theorem addToBlock_plain {E : PEnv} {lr : Span} {x : Node} (h : x.plain = true) (b : Block) : addToBlock E lr x b = b.push x := by
  cases x with
  | statement c =>
      have : c.conditional = false := by simpa [Node.plain] using h
      simp [addToBlock, this]
  | _ => rfl

section
variable [Host] (E : PEnv)

/-- Everything before is settled. -/
def Via (s s' : PS) : Prop := ∀ res u, ((∃ X, res = .ok (some X)) → u.stack = []) → Ends (blockLoop E) s' res u → Ends (blockLoop E) s res u

theorem Via.refl (s : PS) : Via E s s := fun _ _ _ h => h
theorem Via.trans {a b c : PS} (h : Via E a b) (h' : Via E b c) : Via E a c := fun X u hu he => h X u hu (h' X u hu he)

theorem blockLoop_step (n : Nat) {s t : PS} {tok : Token} (h : tokenP s = (.ok (some tok), t)) :
    blockLoop E (n + 1) s = (do
          let node ← advance E n tok
          let s ← get
          match node, s.stack with
          | none, _ => pure none
          | some x, [] => pure (some x)
          | some x, (nm, cur) :: rest => do
              let lr ← lineRange
              modify (fun s => { s with stack := (nm, addToBlock E lr x cur) :: rest })
              blockLoop E n) t := by
  rw [blockLoop, P.bind_def, h]
  rfl

/-- A node is added to the innermost block. -/
theorem via_step {s u t : PS} {tok : Token} {x : Node} (h1 : tokenP s = (.ok (some tok), u))
    (h2 : ∀ n, advance E (n + 1) tok u = (.ok (some x), t)) {nm : Str} {cur : Block} {st : List (Str × Block)}
    (hs : t.stack = (nm, cur) :: st) : Via E s { t with stack := (nm, addToBlock E ⟨t.line, t.line + 1⟩ x cur) :: st } := by
  intro res v hv he
  obtain ⟨N, hN⟩ := he.ge (grows_blockLoop E)
  refine ⟨he.1, N + 2, ?_⟩
  rw [blockLoop_step E (N + 1) h1, P.bind_def, h2 N]
  simp only
  rw [P.bind_def]
  simp only [P.get, hs]
  rw [P.bind_def]
  simp only [lineRange]
  rw [P.bind_def]
  simp only [P.modify]
  exact hN _ (by omega)

/-- A nested block ends the loop it was opened in. -/
theorem via_open {s u s0 : PS} {tok : Token} (h1 : tokenP s = (.ok (some tok), u))
    (h2 : ∀ n, advance E (n + 1) tok u = blockLoop E n s0) : Via E s s0 := by
  intro res v hv he
  obtain ⟨N, hN⟩ := he.ge (grows_blockLoop E)
  refine ⟨he.1, N + 2, ?_⟩
  rw [blockLoop_step E (N + 1) h1, P.bind_def, h2 N, hN N (Nat.le_refl _)]
  cases res with
  | ok o =>
      simp only
      rw [P.bind_def]
      cases o with
      | none => rfl
      | some X =>
          simp only [P.get, hv ⟨X, rfl⟩]
          rfl
  | _ => rfl

/-- The end of the outermost block. -/
theorem ends_close {s u t : PS} {tok : Token} {x : Node} (h1 : tokenP s = (.ok (some tok), u))
    (h2 : ∀ n, advance E (n + 1) tok u = (.ok (some x), t)) (hs : t.stack = []) : Ends (blockLoop E) s (.ok (some x)) t := by
  refine ⟨by simp, 2, ?_⟩
  rw [blockLoop_step E 1 h1, P.bind_def, h2 0]
  simp only
  rw [P.bind_def]
  simp only [P.get, hs]
  rfl

/-- A piece inside a block. -/
theorem Piece.via {pre w k : Str} {Q : Node → Prop} (h : Piece E pre w k Q) (hq : ∀ x, Q x → x.plain = true) {s : PS}
    (hs : AtB (blen pre) (w ++ k) s) {nm : Str} {cur : Block} {st : List (Str × Block)} (hst : s.stack = (nm, cur) :: st) :
    ∃ x s', Q x ∧ Via E s s' ∧ s'.stack = (nm, cur.push x) :: st ∧ AtB (blen (pre ++ w)) k s' := by
  obtain ⟨tok, L, x, t, h1, h2, h3, h4, h5⟩ := h s hs
  have := via_step E h1 h2 (h4.trans hst)
  rw [addToBlock_plain (hq x h3)] at this
  exact ⟨x, _, h3, this, rfl, h5⟩

/-! ### Opening and closing a block -/

/-- A block just opened. -/
structure Opened (part : Bool) (tl : Tilde) (name : Str) (a : SArgs) (pre : Str) (b : Block) : Prop where
  src : b.src = E.src
  opn : b.opn.start = blen pre
  raw : b.raw = false
  nodes : b.nodes = []
  conds : b.conditionals = []
  rep : TagRep part false (some ⟨0, .name name, []⟩) a b.call
  before : b.trimBefore = some tl.before
  after : b.call.trimAfter = some tl.after

theorem comp_name {name : Str} {q : Path} (h : PathRep ⟨0, .name name, []⟩ q) (hv : ∀ x ∈ q.components, x.value = none) :
    ∃ c, q.components = [c] ∧ c.kind = .identifier ∧ c.asStr = some name := by
  have h1 := h.kinds
  have h2 := h.texts
  cases hc : q.components with
  | nil => rw [hc] at h1; simp at h1
  | cons c cs =>
      rw [hc] at h1 h2 hv
      cases cs with
      | cons d ds => simp at h1
      | nil =>
          have := hv c (by simp)
          simp [Component.asValue, this, Head.text, Option.bind_eq_some_iff] at h2
          simp [Head.kind] at h1
          exact ⟨c, rfl, h1, h2.1⟩

theorem block_name {name : Str} {c : Call} {q : Path} (hq : c.target = .path q) (h : PathRep ⟨0, .name name, []⟩ q)
    (hv : ∀ x ∈ q.components, x.value = none) {b : Block} (hb : b.call = c) : b.name = some (some name) := by
  obtain ⟨x, h1, h2, h3⟩ := comp_name h hv
  unfold Block.name
  simp only [hb, hq, h1, h2, h3, if_true, Option.map_some]

theorem block_open {pre k : Str} {part : Bool} {tl : Tilde} {name : Str} {a : SArgs} (htl : tl.ok = true) (hg : gapOk part tl.gap = true) (hn : nameOk name = true) (ha : a.ok = true)
    (hk : NotNext ['}'] k) (hsrc : E.src = pre ++ (openText part tl name a ++ k)) {s : PS} (hs : AtB (blen pre) (openText part tl name a ++ k) s) :
    ∃ tok L b s0, tokenP s = (.ok (some tok), { s with next := none, toks := L }) ∧
      (∀ n, advance E (n + 1) tok { s with next := none, toks := L } = blockLoop E n s0) ∧
      Opened E part tl name a pre b ∧ s0.stack = (name, b) :: s.stack ∧ AtB (blen (pre ++ openText part tl name a)) k s0 := by
  have hcl : Closer .call (tilde tl.after ++ c!"}}") k := by
    have := Closer.fin tl.after 0 (r := k) (by omega) (fun _ => hk)
    simpa using this
  have eo : openText part tl name a = (c!"{{" ++ tl.mark ++ ['#']) ++ (gt part tl.gap ++ (name ++ (a.text ++ (tilde tl.after ++ c!"}}")))) := rfl
  have hopen : Block.tildeAt (c!"{{" ++ tl.mark ++ ['#']) 2 = some tl.before := by
    rw [List.append_assoc]; exact mark_tilde htl c!"{{" rfl (by decide) (by decide)
  have hafter : startsWith (tilde tl.after ++ c!"}}") ['~'] = tl.after := by cases tl.after <;> rfl
  have ht1 := tok_open (rest := gt part tl.gap ++ (name ++ (a.text ++ ((tilde tl.after ++ c!"}}") ++ k)))) htl (by
    have := notAfterOpen_gt (name_ok hn) hg (a.text ++ ((tilde tl.after ++ c!"}}") ++ k))
    rwa [name_text] at this)
  have hne1 : c!"{{" ++ tl.mark ++ ['#'] ≠ [] := by simp
  generalize c!"{{" ++ tl.mark ++ ['#'] = O1 at *
  generalize tilde tl.after ++ c!"}}" = C1 at *
  have e : openText part tl name a ++ k = O1 ++ (gt part tl.gap ++ (name ++ (a.text ++ (C1 ++ k)))) := by rw [eo]; simp
  rw [e] at hs hsrc
  have e1 := lexFrom_tok (blen pre) hne1 ht1
  rw [show nextMode .block (.block .startBlockScope) = .params from rfl, ← blen_append] at e1
  obtain ⟨c, t, h1, h2⟩ := call_run E part (Tilde.gapBlank htl) (name_ok hn) ha hcl (pre := pre ++ O1) ⟨blen pre, blen (pre ++ O1)⟩
    (s := { s with next := none, toks := lexFrom .params (blen (pre ++ O1)) (gt part tl.gap ++ (name ++ (a.text ++ (C1 ++ k)))) })
    (by rw [hsrc, name_text]; simp) (by rw [name_text])
  rw [name_text] at h2
  obtain ⟨q, hq, hqr⟩ := h2.rep.target
  have hname := block_name hq hqr (h2.plain _ rfl rfl q hq) (b := (Block.new E.src ⟨blen pre, blen (pre ++ O1)⟩ false ⟨s.line, s.line + 1⟩).setCall c) rfl
  refine ⟨_, _, (Block.new E.src ⟨blen pre, blen (pre ++ O1)⟩ false ⟨s.line, s.line + 1⟩).setCall c,
    { t with stack := (name, (Block.new E.src ⟨blen pre, blen (pre ++ O1)⟩ false ⟨s.line, s.line + 1⟩).setCall c) :: t.stack },
    hs.token e1, ?_, ⟨rfl, rfl, rfl, rfl, rfl, h2.rep, ?_, ?_⟩, ?_, ?_⟩
  · intro n
    have : ∀ s', advance E (n + 1) ⟨.block .startBlockScope, ⟨blen pre, blen (pre ++ O1)⟩⟩ s' = (do
            let block ← scopeP E ⟨blen pre, blen (pre ++ O1)⟩
            let name ← orPanic block.name
            match name with
            | none => do
                setByte block.call.target.span.start
                fail E .blockName
            | some name => do
                modify (fun s => { s with stack := (name, block) :: s.stack })
                blockLoop E n) s' := by intro s'; rw [advance]; rfl
    rw [this, P.bind_def]
    unfold scopeP
    rw [P.bind_def]
    simp only [lineRange]
    rw [P.bind_def, h1]
    simp only [Pure.pure]
    rw [P.bind_def]
    simp only [hname, orPanic]
    rw [P.bind_def]
    rfl
  · show (slice E.src (blen pre) (blen (pre ++ O1))).bind (fun o => Block.tildeAt o 2) = _
    rw [slice_mid hsrc]; exact hopen
  · show (c.closeStr).map _ = _
    unfold Call.closeStr
    rw [h2.src, h2.clo]
    simp only
    rw [slice_eq (a := pre ++ O1 ++ (gt part tl.gap ++ (name ++ a.text))) (b := C1) (c := k) (by rw [hsrc]; simp) rfl (by simp [Nat.add_assoc])]
    simp [hafter]
  · simp only [h2.rel.stack]
  · unfold AtB PS.rem
    simp only
    rw [h2.rel.next, h2.toks, eo]
    simp [Nat.add_assoc]

theorem block_close {pre k : Str} {name : Str} {cl : Tilde} (hctl : cl.ok = true) (hn : nameOk name = true) (hk : NotNext ['}'] k)
    (hsrc : E.src = pre ++ (closeText name cl ++ k)) {s : PS} (hs : AtB (blen pre) (closeText name cl ++ k) s)
    {b : Block} {st : List (Str × Block)} (hst : s.stack = (name, b) :: st) :
    ∃ tok L l t, tokenP s = (.ok (some tok), { s with next := none, toks := L }) ∧
      (∀ n, advance E (n + 1) tok { s with next := none, toks := L } =
        (.ok (some (.block ((b.exit ⟨blen pre, blen (pre ++ closeText name cl)⟩).linesEnd l))), t)) ∧
      t.stack = st ∧ AtB (blen (pre ++ closeText name cl)) k t := by
  have hcl : CloserT (cl.tail ++ (tilde cl.after ++ c!"}}")) k := by
    refine ⟨_, _, rfl, Tilde.tailBlank hctl, ?_⟩
    have := Closer.fin cl.after 0 (r := k) (by omega) (fun _ => hk)
    simpa using this
  have eo : closeText name cl = (c!"{{" ++ cl.mark ++ ['/']) ++ (name ++ (cl.tail ++ (tilde cl.after ++ c!"}}"))) := rfl
  have ht1 := tok_close (name ++ ((cl.tail ++ (tilde cl.after ++ c!"}}")) ++ k)) hctl
  have hne1 : c!"{{" ++ cl.mark ++ ['/'] ≠ [] := by simp
  generalize c!"{{" ++ cl.mark ++ ['/'] = O1 at *
  generalize cl.tail ++ (tilde cl.after ++ c!"}}") = C1 at *
  have e : closeText name cl ++ k = O1 ++ (name ++ (C1 ++ k)) := by rw [eo]; simp
  rw [e] at hs hsrc
  have e1 := lexFrom_tok (blen pre) hne1 ht1
  rw [show nextMode .block (.block .endBlockScope) = .params from rfl, ← blen_append] at e1
  obtain ⟨_, _, c, t, h1, h2⟩ := close_call E hn hcl (pre := pre ++ O1) ⟨blen pre, blen (pre ++ O1)⟩
    (s := { s with next := none, toks := lexFrom .params (blen (pre ++ O1)) (name ++ (C1 ++ k)) })
    (by rw [hsrc]; simp) rfl
  obtain ⟨q, hq, hqr⟩ := h2.rep.target
  have hname := block_name hq hqr (h2.plain _ rfl rfl q hq) (b := (Block.new E.src ⟨blen pre, blen (pre ++ O1)⟩ false ⟨s.line, s.line + 1⟩).setCall c) rfl
  refine ⟨_, _, t.line, { t with stack := st }, hs.token e1, ?_, rfl, ?_⟩
  · intro n
    have : ∀ s', advance E (n + 1) ⟨.block .endBlockScope, ⟨blen pre, blen (pre ++ O1)⟩⟩ s' = endBlock E ⟨blen pre, blen (pre ++ O1)⟩ s' := by
      intro s'; rw [advance]; rfl
    rw [this]
    unfold endBlock
    rw [P.bind_def]
    unfold scopeP
    rw [P.bind_def]
    simp only [lineRange]
    rw [P.bind_def, h1]
    simp only [Pure.pure]
    rw [P.bind_def]
    simp only [hname, orPanic]
    rw [P.bind_def]
    simp only [P.get, h2.rel.stack, hst]
    rw [P.bind_def]
    simp only [P.modify, ne_eq, not_true_eq_false, if_false]
    have hsp : c.span = ⟨blen pre, blen (pre ++ closeText name cl)⟩ := by
      unfold Call.span
      rw [h2.clo, h2.opn, eo]
      simp only
      rw [List.append_assoc]
    have hcc : Block.call ((Block.new E.src ⟨blen pre, blen (pre ++ O1)⟩ false ⟨s.line, s.line + 1⟩).setCall c) = c := rfl
    rw [hcc, h2.clo, hsp]
    rfl
  · unfold AtB PS.rem
    simp only
    rw [h2.rel.next, h2.toks, eo]
    simp [Nat.add_assoc]

/-! ### Templates -/

/-- The close span `sp` carries these `~`s. -/
def Closes (cl : Tilde) (sp : Span) : Prop := ∃ c, slice E.src sp.start sp.stop = some c ∧ Block.tildeAt c 2 = some cl.before ∧
  (if blen c > 3 then Block.tildeAt c (blen c - 3) else some false) = some cl.after

theorem Closes.trim {cl : Tilde} {sp : Span} (h : Closes E cl sp) {b : Block} (h1 : b.src = E.src) (h2 : b.clo = some sp) (h3 : b.raw = false) :
    b.trimClose = some ⟨cl.before, cl.after⟩ := by
  obtain ⟨c, e1, e2, e3⟩ := h
  have hc : b.closeStr = some c := by
    unfold Block.closeStr
    rw [h2, h1]; exact e1
  unfold Block.trimClose Block.trimBeforeClose Block.trimAfterClose
  rw [hc]
  simp only [Option.bind_some, h3, Bool.false_eq_true, if_false, e2, e3, Option.map_some]

theorem closes_close {name : Str} {cl : Tilde} (hctl : cl.ok = true) (hn : nameOk name = true) (hcl : (cl.after || asciiEnd (name ++ cl.tail)) = true) {pre k : Str}
    (hsrc : E.src = pre ++ (closeText name cl ++ k)) : Closes E cl ⟨blen pre, blen (pre ++ closeText name cl)⟩ := by
  have ec : closeText name cl = (c!"{{" ++ cl.mark ++ ['/']) ++ (name ++ (cl.tail ++ (tilde cl.after ++ c!"}}"))) := rfl
  refine ⟨closeText name cl, slice_mid hsrc, ?_, ?_⟩
  · rw [ec]
    rw [List.append_assoc, List.append_assoc]
    exact mark_tilde hctl c!"{{" rfl (by decide) (by decide)
  · have hlen : blen (closeText name cl) > 3 := by
      rw [ec]; simp only [blen_append]
      have : blen c!"}}" = 2 := by decide
      have : blen c!"{{" = 2 := by decide
      omega
    rw [if_pos hlen]
    exact tilde_end hn (Tilde.tailBlank hctl) hcl (O := c!"{{" ++ cl.mark ++ ['/']) (C := c!"}}") ec (by decide)

/-- One ASCII character carries no `~`. -/
theorem closes_char {P rest : Str} {x : Char} (hx : x.utf8Size = 1) (hsrc : E.src = (P ++ [x]) ++ rest) :
    Closes E ⟨false, false, [], [], []⟩ ⟨blen (P ++ [x]) - 1, blen (P ++ [x])⟩ := by
  have hb : blen [x] = 1 := by simp [hx]
  refine ⟨[x], slice_eq (a := P) (c := rest) (by rw [hsrc]; simp) (by simp [hx]) (by simp), ?_, ?_⟩
  · unfold Block.tildeAt
    rw [if_neg (by omega)]
  · rw [if_neg (by omega)]

def TmRuns (t : STm) : Prop := ∀ (k pre : Str) (s : PS) (nm : Str) (cur : Block) (st : List (Str × Block)), t.ok k = true → Opens k →
  E.src = pre ++ (t.src ++ k) → AtB (blen pre) (t.src ++ k) s → s.stack = (nm, cur) :: st →
  ∃ ns s', TmRep t ns ∧ Via E s s' ∧ s'.stack = (nm, pushAll ns cur) :: st ∧ AtB (blen (pre ++ t.src)) k s'

/-- The previous clause is closed just before the next one. -/
def closePrev (cs : SCls) (i : Nat) (ys : List Node) : List Node :=
  match cs with
  | .nil => ys
  | .cons .. => Block.mapLast (Block.setClose ⟨i - 1, i⟩) ys

def ClsRuns (cs : SCls) : Prop := ∀ (k pre : Str) (s : PS) (nm : Str) (b : Block) (st : List (Str × Block)), cs.ok k = true → Opens k →
  0 < blen pre → E.src = pre ++ (cs.src ++ k) → AtB (blen pre) (cs.src ++ k) s → s.stack = (nm, b) :: st →
  ∃ zs s', Via E s s' ∧ s'.stack = (nm, b.setConds (closePrev cs (blen pre) b.conditionals ++ zs)) :: st ∧
    AtB (blen (pre ++ cs.src)) k s' ∧ (∀ cl sp, Closes E cl sp → ClsRep cl cs (Block.mapLast (Block.setClose sp) zs))

theorem block_run {body : STm} {cs : SCls} (hbody : TmRuns E body) (hcls : ClsRuns E cs) {part : Bool} {tl cl : Tilde} {name : Str} {a : SArgs}
    {pre k : Str} (htl : tl.ok = true) (hg : gapOk part tl.gap = true) (hctl : cl.ok = true) (hn : nameOk name = true) (ha : a.ok = true) (hnb : body.noBrace = true)
    (hok : body.ok (cs.src ++ (closeText name cl ++ k)) = true) (hcok : cs.ok (closeText name cl ++ k) = true)
    (hcl : (cl.after || asciiEnd (name ++ cl.tail)) = true) (hk : NotNext ['}'] k)
    (hsrc : E.src = pre ++ ((openText part tl name a ++ (body.src ++ (cs.src ++ closeText name cl))) ++ k)) {s : PS}
    (hs : AtB (blen pre) ((openText part tl name a ++ (body.src ++ (cs.src ++ closeText name cl))) ++ k) s) :
    ∃ tok L s0 s2 tok2 L2 b t, tokenP s = (.ok (some tok), { s with next := none, toks := L }) ∧
      (∀ n, advance E (n + 1) tok { s with next := none, toks := L } = blockLoop E n s0) ∧ Via E s0 s2 ∧
      tokenP s2 = (.ok (some tok2), { s2 with next := none, toks := L2 }) ∧
      (∀ n, advance E (n + 1) tok2 { s2 with next := none, toks := L2 } = (.ok (some (.block b)), t)) ∧ t.stack = s.stack ∧
      AtB (blen (pre ++ (openText part tl name a ++ (body.src ++ (cs.src ++ closeText name cl))))) k t ∧
      (∀ r ns, TmRep r ns → TmRep (.block part tl name a body cs cl r) (.block b :: ns)) := by
  have hkc : Opens (closeText name cl ++ k) := opens_close name cl k
  have hkb : Opens (cs.src ++ (closeText name cl ++ k)) := opens_cls hkc
  have e : (openText part tl name a ++ (body.src ++ (cs.src ++ closeText name cl))) ++ k =
    openText part tl name a ++ (body.src ++ (cs.src ++ (closeText name cl ++ k))) := by simp
  have hsrc' := hsrc
  rw [e] at hs hsrc
  obtain ⟨tok, L, b0, s0, h1, h2, h3, h4, h5⟩ := block_open E htl hg hn ha (noBrace_tm hkb hok hnb) hsrc hs
  obtain ⟨ns, s1, g1, g2, g3, g4⟩ := hbody (cs.src ++ (closeText name cl ++ k)) (pre ++ openText part tl name a) s0 name b0 s.stack hok hkb
    (by rw [hsrc]; simp) h5 h4
  rw [pushAll_noConds ns h3.conds, h3.nodes, List.nil_append] at g3
  have hpos : 0 < blen (pre ++ openText part tl name a ++ body.src) := by
    simp only [blen_append, openText]
    have : blen c!"{{" = 2 := by decide
    omega
  obtain ⟨zs, s2, k1, k2, k3, k4⟩ := hcls (closeText name cl ++ k) (pre ++ openText part tl name a ++ body.src) s1 name _ s.stack hcok hkc hpos
    (by rw [hsrc]; simp) g4 g3
  have hcp : closePrev cs (blen (pre ++ openText part tl name a ++ body.src)) (Block.setNodes ns b0).conditionals = [] := by
    have : (Block.setNodes ns b0).conditionals = [] := by have := h3.conds; cases b0; exact this
    rw [this]; cases cs <;> rfl
  rw [hcp, List.nil_append] at k2
  obtain ⟨tok2, L2, l, t, m1, m2, m3, m4⟩ := block_close E hctl hn hk (pre := pre ++ openText part tl name a ++ body.src ++ cs.src)
    (by rw [hsrc]; simp) k3 k2
  have hclo := closes_close E hctl hn hcl (pre := pre ++ openText part tl name a ++ body.src ++ cs.src) (k := k) (by rw [hsrc]; simp)
  refine ⟨tok, L, s0, s2, tok2, L2, _, t, h1, h2, Via.trans E g2 k1, m1, m2, m3, ?_, ?_⟩
  · have : pre ++ openText part tl name a ++ body.src ++ cs.src ++ closeText name cl =
      pre ++ (openText part tl name a ++ (body.src ++ (cs.src ++ closeText name cl))) := by simp
    rw [← this]; exact m4
  · intro r ns' hr
    obtain ⟨bs, bn, br, bo, bc, bcall, bcs, bl⟩ := b0
    obtain ⟨o1, o2, o3, o4, o5, o6, o7, o8⟩ := h3
    simp only [Block.src, Block.opn, Block.raw, Block.nodes, Block.conditionals, Block.call] at o1 o2 o3 o4 o5 o6 o8
    subst o1 o3 o4 o5
    refine .block ?_ rfl o6 ⟨o7, o8⟩ ?_ g1 ?_ hr
    · refine slice_eq (a := pre) (c := k) hsrc' o2 ?_
      simp [Nat.add_assoc]
    · exact hclo.trim E rfl rfl rfl
    · exact k4 cl _ hclo

theorem cls_cons {body : STm} {r : SCls} (hbody : TmRuns E body) (hr : ClsRuns E r) (tl : Tilde) (cond : Option (SPath × SArgs)) :
    ClsRuns E (.cons tl cond body r) := by
  intro k pre s nm b st hok hk hpos hsrc hs hst
  unfold SCls.ok at hok
  simp only [Bool.and_eq_true] at hok
  obtain ⟨⟨⟨⟨⟨htl, hcond⟩, hnb⟩, hbok⟩, hasc⟩, hrok⟩ := hok
  have hcond' : condOk tl.gap cond = true := by
    cases cond with
    | none => rfl
    | some x => simpa [condOk, and_assoc] using hcond
  have hkr : Opens (r.src ++ k) := opens_cls hk
  have e : (SCls.cons tl cond body r).src ++ k = elseText tl cond ++ (body.src ++ (r.src ++ k)) := by simp [SCls.src]
  rw [e] at hs hsrc
  obtain ⟨tok, L, x, t, h1, h2, ⟨c, rfl, hrep, hopn, hafter⟩, h4, h5⟩ := piece_else E htl hcond' (noBrace_tm hkr hbok hnb) hsrc s hs
  have hvia := via_step E h1 h2 (h4.trans hst)
  have hadd : addToBlock E ⟨t.line, t.line + 1⟩ (.statement c) b =
      b.setConds (Block.mapLast (Block.setClose ⟨blen pre - 1, blen pre⟩) b.conditionals ++
        [.block ((Block.new E.src c.opn false ⟨t.line, t.line + 1⟩).setCall c)]) := by
    have hcc : c.conditional = true := hrep.conditional
    obtain ⟨s, n, r, o, cl, c', cs, l⟩ := b
    simp only [addToBlock, hcc, if_true, Block.addCondition, Block.call, Block.setCall, Block.new, Block.closeCondition, hopn]
    rw [if_pos hpos]
    rfl
  rw [hadd] at hvia
  obtain ⟨ns, s1, g1, g2, g3, g4⟩ := hbody (r.src ++ k) (pre ++ elseText tl cond)
    { t with stack := (nm, b.setConds (Block.mapLast (Block.setClose ⟨blen pre - 1, blen pre⟩) b.conditionals ++
        [.block ((Block.new E.src c.opn false ⟨t.line, t.line + 1⟩).setCall c)])) :: st } nm _ st hbok hkr (by rw [hsrc]; simp) h5 rfl
  rw [pushAll_conds ns (b := Block.setConds _ b) (ys := Block.mapLast (Block.setClose ⟨blen pre - 1, blen pre⟩) b.conditionals)
    (nb := (Block.new E.src c.opn false ⟨t.line, t.line + 1⟩).setCall c) (by cases b; rfl)] at g3
  obtain ⟨zs, s2, k1, k2, k3, k4⟩ := hr k (pre ++ elseText tl cond ++ body.src) s1 nm _ st hrok hk (by simp only [blen_append]; omega)
    (by rw [hsrc]; simp) g4 g3
  have hsetc : ∀ (cs1 cs2 : List Node), (Block.setConds cs1 (Block.setConds cs2 b)) = Block.setConds cs1 b := by intro _ _; cases b; rfl
  have hcc : ∀ cs1 : List Node, (Block.setConds cs1 b).conditionals = cs1 := by intro _; cases b; rfl
  have hbefore : ∀ (nodes : List Node) (sp : Option Span), Block.trimBefore (.mk E.src nodes false c.opn sp c [] ⟨t.line, t.line + 1⟩) = some tl.before := by
    intro nodes sp
    show (slice E.src c.opn.start c.opn.stop).bind (fun o => Block.tildeAt o 2) = _
    rw [hopn]
    simp only
    rw [slice_mid (k := c!"else" ++ (condText tl cond ++ (tilde tl.after ++ (c!"}}" ++ (body.src ++ (r.src ++ k)))))) (by rw [hsrc, elseText]; simp)]
    exact mark_tilde_end htl c!"{{"
  refine ⟨closePrev r (blen (pre ++ elseText tl cond ++ body.src)) [.block (Block.setNodes ns ((Block.new E.src c.opn false ⟨t.line, t.line + 1⟩).setCall c))] ++ zs,
    s2, (hvia.trans E g2).trans E k1, ?_, ?_, ?_⟩
  · rw [k2, hsetc, hsetc, hcc]
    cases r with
    | nil => simp [closePrev]; rfl
    | cons tl' cond' body' r' =>
        simp only [closePrev, mapLast_snoc]
        simp only [Block.mapLast, List.append_assoc]
        rfl
  · rw [show pre ++ (SCls.cons tl cond body r).src = pre ++ elseText tl cond ++ body.src ++ r.src by simp [SCls.src]]
    exact k3
  · intro cl sp hcl
    have hfin := k4 cl sp hcl
    cases r with
    | nil =>
        cases hz : zs with
        | nil =>
            refine .cons rfl (by cases cond <;> exact hrep) ⟨hbefore _ _, hafter⟩ ?_ g1 rfl .nil
            exact hcl.trim E rfl rfl rfl
        | cons z zs' =>
            exfalso
            subst hz
            cases zs' with
            | nil => cases z <;> (simp only [Block.mapLast] at hfin; cases hfin)
            | cons z' zs'' => simp only [Block.mapLast] at hfin; cases hfin
    | cons tl' cond' body' r' =>
        have hz : zs ≠ [] := by
          rintro rfl
          simp only [Block.mapLast] at hfin
          cases hfin
        simp only [closePrev, Block.mapLast]
        rw [List.singleton_append]
        have hml : Block.mapLast (Block.setClose sp) (Node.block (Block.setClose ⟨blen (pre ++ elseText tl cond ++ body.src) - 1, blen (pre ++ elseText tl cond ++ body.src)⟩
            (Block.setNodes ns ((Block.new E.src c.opn false ⟨t.line, t.line + 1⟩).setCall c))) :: zs) =
            Node.block (Block.setClose ⟨blen (pre ++ elseText tl cond ++ body.src) - 1, blen (pre ++ elseText tl cond ++ body.src)⟩
            (Block.setNodes ns ((Block.new E.src c.opn false ⟨t.line, t.line + 1⟩).setCall c))) :: Block.mapLast (Block.setClose sp) zs :=
          mapLast_append (ys := [_]) hz
        rw [hml]
        refine .cons rfl (by cases cond <;> exact hrep) ⟨hbefore _ _, hafter⟩ ?_ g1 rfl hfin
        obtain ⟨P, x, hP, hx⟩ : ∃ P x, pre ++ elseText tl cond ++ body.src = P ++ [x] ∧ x.utf8Size = 1 := by
          cases hbs : body.src with
          | nil =>
              exact ⟨pre ++ ((c!"{{" ++ tl.mark) ++ (c!"else" ++ (condText tl cond ++ (tilde tl.after ++ ['}'])))), '}', by simp [elseText], by decide⟩
          | cons d ds =>
              have hne : body.src ≠ [] := by simp [hbs]
              have hasc' : asciiEnd body.src = true := hasc
              have hdl := List.dropLast_concat_getLast hne
              refine ⟨pre ++ elseText tl cond ++ body.src.dropLast, body.src.getLast hne, ?_, ?_⟩
              · rw [← hbs]
                conv => lhs; rw [← hdl]
                simp
              · rw [← hdl] at hasc'
                simpa [asciiEnd] using hasc'
        refine (closes_char E (P := P) (rest := (SCls.cons tl' cond' body' r').src ++ k) hx (by rw [← hP, hsrc]; simp)).trim E rfl ?_ rfl
        rw [hP]; rfl

mutual
theorem tm_runs : ∀ t : STm, TmRuns E t
  | .nil => by
      intro k pre s nm cur st hok hk hsrc hs hst
      exact ⟨[], s, .nil, .refl E s, hst, by simpa [STm.src] using hs⟩
  | .text w r => by
      intro k pre s nm cur st hok hk hsrc hs hst
      rw [STm.ok] at hok
      simp only [Bool.and_eq_true, Bool.not_eq_true', List.isEmpty_eq_false_iff] at hok
      obtain ⟨⟨⟨hne, hw⟩, hnt⟩, hr⟩ := hok
      have e : (STm.text w r).src ++ k = w ++ (r.src ++ k) := by simp [STm.src]
      rw [e] at hs hsrc
      obtain ⟨x, s', ⟨t, rfl, h2⟩, h3, h4, h5⟩ := (piece_text E hne hw (opens_tm hk hnt) hsrc).via E (by rintro _ ⟨t, rfl, _⟩; rfl) hs hst
      obtain ⟨ns, s2, g1, g2, g3, g4⟩ := tm_runs r k (pre ++ w) s' nm _ st hr hk (by rw [hsrc]; simp) h5 h4
      exact ⟨_, s2, .text h2 g1, h3.trans E g2, g3, by simpa [STm.src] using g4⟩
  | .comment w r => by
      intro k pre s nm cur st hok hk hsrc hs hst
      rw [STm.ok] at hok
      simp only [Bool.and_eq_true, Bool.not_eq_true'] at hok
      obtain ⟨⟨hw, hd⟩, hr⟩ := hok
      have e : (STm.comment w r).src ++ k = commentText w ++ (r.src ++ k) := by simp [STm.src]
      rw [e] at hs hsrc
      obtain ⟨x, s', ⟨t, rfl, h2, h2'⟩, h3, h4, h5⟩ := (piece_comment E hw hd hsrc).via E (by rintro _ ⟨t, rfl, _⟩; rfl) hs hst
      obtain ⟨ns, s2, g1, g2, g3, g4⟩ := tm_runs r k (pre ++ commentText w) s' nm _ st hr hk (by rw [hsrc]; simp) h5 h4
      exact ⟨_, s2, .comment h2 h2' g1, h3.trans E g2, g3, by simpa [STm.src] using g4⟩
  | .longComment w r => by
      intro k pre s nm cur st hok hk hsrc hs hst
      rw [STm.ok] at hok
      simp only [Bool.and_eq_true, Bool.not_eq_true'] at hok
      obtain ⟨hw, hr⟩ := hok
      have e : (STm.longComment w r).src ++ k = longCommentText w ++ (r.src ++ k) := by simp [STm.src]
      rw [e] at hs hsrc
      obtain ⟨x, s', ⟨t, rfl, h2, h2'⟩, h3, h4, h5⟩ := (piece_long E hw hsrc).via E (by rintro _ ⟨t, rfl, _⟩; rfl) hs hst
      obtain ⟨ns, s2, g1, g2, g3, g4⟩ := tm_runs r k (pre ++ longCommentText w) s' nm _ st hr hk (by rw [hsrc]; simp) h5 h4
      exact ⟨_, s2, .longComment h2 h2' g1, h3.trans E g2, g3, by simpa [STm.src] using g4⟩
  | .escaped w r => by
      intro k pre s nm cur st hok hk hsrc hs hst
      rw [STm.ok] at hok
      simp only [Bool.and_eq_true, bne_iff_ne] at hok
      obtain ⟨⟨hw, hnb⟩, hr⟩ := hok
      have e : (STm.escaped w r).src ++ k = escapedText w ++ (r.src ++ k) := by simp [STm.src]
      rw [e] at hs hsrc
      obtain ⟨x, s', ⟨t, rfl, h2, h2'⟩, h3, h4, h5⟩ := (piece_escaped E hw (fun hc => noBrace_tm hk hr (by simpa [hc] using hnb)) hsrc).via E (by rintro _ ⟨t, rfl, _⟩; rfl) hs hst
      obtain ⟨ns, s2, g1, g2, g3, g4⟩ := tm_runs r k (pre ++ escapedText w) s' nm _ st hr hk (by rw [hsrc]; simp) h5 h4
      exact ⟨_, s2, .escaped h2 h2' g1, h3.trans E g2, g3, by simpa [STm.src] using g4⟩
  | .link esc h lb tt r => by
      intro k pre s nm cur st hok hk hsrc hs hst
      rw [STm.ok] at hok
      simp only [Bool.and_eq_true] at hok
      obtain ⟨⟨⟨⟨hh, hlb⟩, htt⟩, hlt⟩, hr⟩ := hok
      have e : (STm.link esc h lb tt r).src ++ k = linkText esc h lb tt ++ (r.src ++ k) := by simp [STm.src]
      rw [e] at hs hsrc
      obtain ⟨x, s', ⟨t, rfl, a1, a2, a3, a4, a5⟩, h3, h4, h5⟩ := (piece_link E hh hlb htt hlt hsrc).via E (by rintro _ ⟨t, rfl, _⟩; rfl) hs hst
      obtain ⟨ns, s2, g1, g2, g3, g4⟩ := tm_runs r k (pre ++ linkText esc h lb tt) s' nm _ st hr hk (by rw [hsrc]; simp) h5 h4
      exact ⟨_, s2, .link a1 a2 a3 a4 a5 g1, h3.trans E g2, g3, by simpa [STm.src] using g4⟩
  | .stmt raw part tl p a r => by
      intro k pre s nm cur st hok hk hsrc hs hst
      rw [STm.ok] at hok
      simp only [Bool.and_eq_true] at hok
      obtain ⟨⟨⟨⟨⟨htl, hg⟩, hp⟩, ha⟩, hnb⟩, hr⟩ := hok
      have e : (STm.stmt raw part tl p a r).src ++ k = stmtText raw part tl p a ++ (r.src ++ k) := by simp [STm.src]
      rw [e] at hs hsrc
      obtain ⟨x, s', ⟨t, rfl, a1, a2, a3, a4⟩, h3, h4, h5⟩ := (piece_stmt E htl hg hp ha (noBrace_tm hk hr hnb) hsrc).via E
        (by rintro _ ⟨t, rfl, _, h, _⟩; simp [Node.plain, h.conditional]) hs hst
      obtain ⟨ns, s2, g1, g2, g3, g4⟩ := tm_runs r k (pre ++ stmtText raw part tl p a) s' nm _ st hr hk (by rw [hsrc]; simp) h5 h4
      exact ⟨_, s2, .stmt a1 a2 a3 a4 g1, h3.trans E g2, g3, by simpa [STm.src] using g4⟩
  | .dyn raw part tl q b a r => by
      intro k pre s nm cur st hok hk hsrc hs hst
      rw [STm.ok] at hok
      simp only [Bool.and_eq_true] at hok
      obtain ⟨⟨⟨⟨⟨⟨htl, hg⟩, hq⟩, hb⟩, ha⟩, hnb⟩, hr⟩ := hok
      have e : (STm.dyn raw part tl q b a r).src ++ k = dynText raw part tl q b a ++ (r.src ++ k) := by simp [STm.src]
      rw [e] at hs hsrc
      obtain ⟨x, s', ⟨t, rfl, a1, a2, a3, ⟨d, a4, a5⟩, a6, a7, a8⟩, h3, h4, h5⟩ := (piece_dyn E htl hg (by rw [SExpr.ok, hq, hb]; rfl) ha (noBrace_tm hk hr hnb) hsrc).via E
        (by rintro _ ⟨t, rfl, _, _, h, _⟩; simp [Node.plain, h]) hs hst
      obtain ⟨ns, s2, g1, g2, g3, g4⟩ := tm_runs r k (pre ++ dynText raw part tl q b a) s' nm _ st hr hk (by rw [hsrc]; simp) h5 h4
      exact ⟨_, s2, .dyn a1 a2 a3 a4 a5 a6 a7 a8 g1, h3.trans E g2, g3, by simpa [STm.src] using g4⟩
  | .rawBlock tl name a w cl r => by
      intro k pre s nm cur st hok hk hsrc hs hst
      rw [STm.ok] at hok
      simp only [Bool.and_eq_true] at hok
      obtain ⟨⟨⟨⟨⟨⟨htl, hctl⟩, hn⟩, ha⟩, hw⟩, hcl⟩, hr⟩ := hok
      have e : (STm.rawBlock tl name a w cl r).src ++ k = (rawOpenText tl name a ++ (w ++ rawCloseText name cl)) ++ (r.src ++ k) := by simp [STm.src]
      rw [e] at hs hsrc
      obtain ⟨x, s', ⟨b, t, rfl, a1, a2, a3, a4, a5, a6, a7, a8⟩, h3, h4, h5⟩ := (piece_raw E htl hctl hn ha hw hcl hsrc).via E
        (by rintro _ ⟨b, t, rfl, _⟩; rfl) hs hst
      obtain ⟨ns, s2, g1, g2, g3, g4⟩ := tm_runs r k (pre ++ (rawOpenText tl name a ++ (w ++ rawCloseText name cl))) s' nm _ st hr hk (by rw [hsrc]; simp) h5 h4
      exact ⟨_, s2, .rawBlock a1 a2 a3 a4 a5 a6 a7 a8 g1, h3.trans E g2, g3, by simpa [STm.src] using g4⟩
  | .block part tl name a body cs cl r => by
      intro k pre s nm cur st hok hk hsrc hs hst
      rw [STm.ok] at hok
      simp only [Bool.and_eq_true] at hok
      obtain ⟨⟨⟨⟨⟨⟨⟨⟨⟨⟨htl, hg⟩, hctl⟩, hn⟩, ha⟩, hnb⟩, hbok⟩, hcok⟩, hcl⟩, hnr⟩, hr⟩ := hok
      have e : (STm.block part tl name a body cs cl r).src ++ k =
        (openText part tl name a ++ (body.src ++ (cs.src ++ closeText name cl))) ++ (r.src ++ k) := by simp [STm.src]
      rw [e] at hs hsrc
      obtain ⟨tok, L, s0, s2, tok2, L2, b, t, a1, a2, a3, a4, a5, a6, a7, a8⟩ := block_run E (tm_runs body) (cls_runs cs) htl hg hctl hn ha hnb hbok hcok hcl
        (noBrace_tm hk hr hnr) hsrc hs
      have hv := via_step E a4 a5 (a6.trans hst)
      rw [addToBlock_plain rfl] at hv
      obtain ⟨ns, s3, g1, g2, g3, g4⟩ := tm_runs r k (pre ++ (openText part tl name a ++ (body.src ++ (cs.src ++ closeText name cl))))
        { t with stack := (nm, cur.push (.block b)) :: st } nm _ st hr hk (by rw [hsrc]; simp) a7 rfl
      exact ⟨_, s3, a8 r ns g1, (((via_open E a1 a2).trans E a3).trans E hv).trans E g2, g3, by simpa [STm.src] using g4⟩
theorem cls_runs : ∀ cs : SCls, ClsRuns E cs
  | .nil => by
      intro k pre s nm b st hok hk hpos hsrc hs hst
      refine ⟨[], s, .refl E s, ?_, by simpa [SCls.src] using hs, fun cl sp _ => .nil⟩
      rw [hst]; cases b; simp [closePrev, Block.setConds, Block.conditionals]
  | .cons tl cond body r => cls_cons E (tm_runs body) (cls_runs r) tl cond
end

end

end Bracket
