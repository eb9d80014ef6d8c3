import Verif.Lemmas.TreeWF
import Verif.Lemmas.Examples
import Verif.Props.Snippet

/-! C40, C43, C44, C45, C52: what compiling any source at all gives. -/

namespace Bracket.Props
open Spec

section
set_option linter.unusedSectionVars false
variable {src : Str} {ln lt : Nat → Nat → Prop}

/-! ### Every node of the tree -/

theorem mem_covers : ∀ {ns : List Node} {a b : Nat}, CoversL src ln lt ns a b → ∀ {x}, x ∈ ns → ∃ a' b', Covers src ln lt x a' b'
  | _, _, _, .nil, _, h => by cases h
  | _, _, _, .cons h h', x, hx => by
      rcases List.mem_cons.1 hx with rfl | hx
      · exact ⟨_, _, h⟩
      · exact mem_covers h' hx

theorem mem_branches : ∀ {ns : List Node} {a b : Nat}, Branches src ln lt ns a b → ∀ {k}, Node.block k ∈ ns → ∃ a' b' cl, Branch src ln lt k a' b' cl
  | _, _, _, .nil, _, h => by cases h
  | _, _, _, .cons h h', k, hx => by
      rcases List.mem_cons.1 hx with e | hx
      · cases e; exact ⟨_, _, _, h⟩
      · exact mem_branches h' hx

theorem covers_body {b : Block} {a z : Nat} (h : Covers src ln lt (.block b) a z) :
    (∃ a' z', CoversL src ln lt b.nodes a' z') ∨ ∃ t, b.nodes = [.text t] := by
  cases h with
  | raw _ _ _ _ _ _ hn => exact .inr ⟨_, hn⟩
  | block h =>
      cases h with
      | plain _ _ _ _ _ _ hn => exact .inl ⟨_, _, hn⟩
      | clauses _ _ _ _ _ _ hn => exact .inl ⟨_, _, hn⟩

theorem covers_clause {b k : Block} {a z : Nat} (h : Covers src ln lt (.block b) a z) (hk : Node.block k ∈ b.conditionals) :
    ∃ a' z' cl, Branch src ln lt k a' z' cl := by
  cases h with
  | raw _ _ _ _ _ _ _ _ _ _ _ hcs => rw [hcs] at hk; cases hk
  | block h =>
      cases h with
      | plain _ _ _ _ _ _ _ hcs => rw [hcs] at hk; cases hk
      | clauses _ _ _ _ _ _ _ hcs hi hl =>
          rw [hcs] at hk
          rcases List.mem_append.1 hk with hk | hk
          · exact mem_branches hi hk
          · simp only [List.mem_singleton, Node.block.injEq] at hk
            subst hk
            exact ⟨_, _, _, hl⟩

/-- A node of the tree stands for some stretch of the source, except the text of a raw block. -/
theorem occurs_covers {x : Node} {ns : List Node} (ho : Occurs x ns) : ∀ {a b : Nat}, CoversL src ln lt ns a b →
    (∃ a' b', Covers src ln lt x a' b') ∨ ∃ b a' b', Covers src ln lt (.block b) a' b' ∧ b.raw = true ∧ b.nodes = [x] ∧ isTextNode x = true := by
  induction ho with
  | here h => intro a b hc; exact .inl (mem_covers hc h)
  | body h h' ih =>
      rename_i ns b
      intro a z hc
      obtain ⟨a', z', hb⟩ := mem_covers hc h
      rcases covers_body hb with ⟨_, _, hl⟩ | ⟨t, ht⟩
      · exact ih hl
      · have hx : x = .text t := by
          rw [ht] at h'
          cases h' with
          | here h => simpa using h
          | body h => simp at h
          | clause h => simp at h
        subst hx
        have hraw := hb
        cases hb with
        | raw hs hr => exact .inr ⟨b, _, _, hraw, hr, ht, rfl⟩
        | block h =>
            have : ∃ a z, CoversL src ln lt b.nodes a z := by
              cases h with
              | plain _ _ _ _ _ _ hn => exact ⟨_, _, hn⟩
              | clauses _ _ _ _ _ _ hn => exact ⟨_, _, hn⟩
            obtain ⟨_, _, hl⟩ := this
            exact .inl (mem_covers hl (x := .text t) (by rw [ht]; simp))
  | clause h hk h' ih =>
      intro a z hc
      obtain ⟨a', z', hb⟩ := mem_covers hc h
      obtain ⟨_, _, _, hbr⟩ := covers_clause hb hk
      cases hbr with
      | mk _ _ _ _ _ _ _ hn => exact ih hn

theorem part_in {c d : Call} (h : Part c d) : ∀ {lo hi : Nat}, CallIn src lo hi d → ∃ lo' hi', CallIn src lo' hi' c := by
  induction h with
  | self => intro lo hi h; exact ⟨_, _, h⟩
  | target h h' ih =>
      intro lo hi hd
      cases hd with
      | mk hs ho hc ht ha hp hk =>
          rw [h] at ht
          cases ht with
          | sub g _ => exact ih g
  | arg h h' ih =>
      intro lo hi hd
      cases hd with
      | mk hs ho hc ht ha hp hk =>
          have := ha _ h
          cases this with
          | sub g _ => exact ih g
  | param h h' ih =>
      intro lo hi hd
      cases hd with
      | mk hs ho hc ht ha hp hk =>
          have := hp _ h
          cases this with
          | sub g _ => exact ih g

theorem covers_call {b : Block} {a z : Nat} (h : Covers src ln lt (.block b) a z) : ∃ lo hi, CallIn src lo hi b.call := by
  cases h with
  | raw _ _ hc => exact ⟨_, _, hc⟩
  | block h =>
      cases h with
      | plain _ _ _ _ hc => exact ⟨_, _, hc⟩
      | clauses _ _ _ _ hc => exact ⟨_, _, hc⟩

theorem occurs_call {c : Call} {ns : List Node} {a b : Nat} (h : CallOccurs c ns) (hc : CoversL src ln lt ns a b) :
    ∃ lo hi, CallIn src lo hi c := by
  obtain ⟨d, hp, h⟩ := h
  have : ∃ lo hi, CallIn src lo hi d := by
    rcases h with h | ⟨b, h, h'⟩
    · rcases occurs_covers h hc with ⟨_, _, g⟩ | ⟨_, _, _, _, _, _, g⟩
      · cases g with
        | statement hc => exact ⟨_, _, hc⟩
      · simp [isTextNode] at g
    · rcases occurs_covers h hc with ⟨_, _, g⟩ | ⟨_, _, _, _, _, _, g⟩
      · rcases h' with rfl | ⟨k, hk, rfl⟩
        · exact covers_call g
        · obtain ⟨_, _, _, hbr⟩ := covers_clause g hk
          cases hbr with
          | mk _ _ _ _ hc => exact ⟨_, _, hc⟩
      · simp [isTextNode] at g
  obtain ⟨_, _, hd⟩ := this
  exact part_in hp hd

end

section
variable [Host] {src : Str} {o : ParserOptions}

/-- Reading `compile_wf` off a compiled document. -/
theorem covers_of {ns : List Node} (hb : ByteOk src o.byteOffset) (h : compile src o = .ok (.document src ns)) :
    ∃ k, CoversL src (LnOk src o.lineOffset (lex src)) (LtOk src o.lineOffset (lex src)) ns 0 k ∧
      (k = blen src ∨ BlockTagAt src k ∨ RawEndAt src k ∨ ∃ x ∈ ns, Unfinished src x) := by
  obtain ⟨ns', k, e, h1, h2⟩ := (compile_wf src o hb).1 _ h
  cases e
  exact ⟨k, h1, h2⟩

/-- C43: in every call of a compiled template each key occurs once. -/
theorem C43_keys {ns : List Node} {c : Call} (hb : ByteOk src o.byteOffset) (h : compile src o = .ok (.document src ns)) (hc : CallOccurs c ns) :
    (c.params.map (·.1)).Nodup := by
  obtain ⟨k, h1, -⟩ := covers_of hb h
  obtain ⟨_, _, h2⟩ := occurs_call hc h1
  cases h2 with
  | mk _ _ _ _ _ _ hk => exact hk

/-! ### C44 -/

section
variable {ln lt : Nat → Nat → Prop}
omit [Host]
theorem tag_le {c : Call} {a b e : Nat} (h : CallIn src a b c) (ha : c.opn.start = a) (ht : TagEnds src c e) : a ≤ e := by
  cases h with
  | mk _ ho hc =>
      have := ho.1.le
      rcases ht with ⟨sp, h1, h2, -⟩ | ⟨-, h2⟩
      · have h3 := hc sp h1
        have := h3.lo; have := h3.le; omega
      · omega

mutual
theorem covers_le : ∀ {x : Node} {a b : Nat}, Covers src ln lt x a b → a ≤ b
  | _, _, _, .text _ hi _ _ => Nat.le_trans (Nat.le_trans hi.lo hi.le) hi.hi
  | _, _, _, .statement hc ha hb _ => tag_le hc ha hb
  | _, _, _, .rawStatement h _ => Nat.le_trans (Nat.le_trans h.clo.lo h.clo.le) h.clo.hi
  | _, _, _, .rawComment h _ => Nat.le_trans (Nat.le_trans h.clo.lo h.clo.le) h.clo.hi
  | _, _, _, .comment h _ => Nat.le_trans (Nat.le_trans h.clo.lo h.clo.le) h.clo.hi
  | _, _, _, .link h _ => Nat.le_trans (Nat.le_trans h.opn.lo h.opn.le) h.opn.hi
  | _, _, _, .raw _ _ hc _ _ _ _ _ _ _ _ _ _ _ _ _ _ _ => by
      cases hc with
      | mk _ ho => exact Nat.le_trans (Nat.le_trans ho.1.lo ho.1.le) ho.1.hi
  | _, _, _, .block h _ hz _ _ _ => Nat.le_trans (inside_le h) (Nat.le_trans (Nat.le_trans hz.lo hz.le) hz.hi)
theorem coversL_le : ∀ {x : List Node} {a b : Nat}, CoversL src ln lt x a b → a ≤ b
  | _, _, _, .nil => Nat.le_refl _
  | _, _, _, .cons h h' => Nat.le_trans (covers_le h) (coversL_le h')
theorem branch_le : ∀ {x : Block} {a b : Nat} {cl : Option Span}, Branch src ln lt x a b cl → a ≤ b
  | _, _, _, _, .mk _ _ _ ha hc hb _ hn _ _ => Nat.le_trans (tag_le hc ha hb) (coversL_le hn)
theorem branches_le : ∀ {x : List Node} {a b : Nat}, Branches src ln lt x a b → a ≤ b
  | _, _, _, .nil => Nat.le_refl _
  | _, _, _, .cons h h' => Nat.le_trans (branch_le h) (branches_le h')
theorem inside_le : ∀ {x : Block} {a b : Nat} {cl : Option Span}, Inside src ln lt x a b cl → a ≤ b
  | _, _, _, _, .plain _ _ _ ha hc hb hn _ => Nat.le_trans (tag_le hc ha hb) (coversL_le hn)
  | _, _, _, _, .clauses _ _ _ ha hc hb hn _ hi hl =>
      Nat.le_trans (tag_le hc ha hb) (Nat.le_trans (coversL_le hn) (Nat.le_trans (branches_le hi) (branch_le hl)))
end
end

omit [Host] in
/-- A finished node's text is the stretch of the source it stands for. -/
theorem covers_text {ln lt : Nat → Nat → Prop} {x : Node} {a b : Nat} (h : Covers src ln lt x a b) (hu : ¬ Unfinished src x) :
    ∃ p w r, src = p ++ (w ++ r) ∧ blen p = a ∧ blen p + blen w = b ∧ x.asStr = some w := by
  have key : ∀ y : Option Str, Bd src a → Bd src b → a ≤ b → y = slice src a b → ∃ p w r, src = p ++ (w ++ r) ∧ blen p = a ∧ blen p + blen w = b ∧ y = some w := by
    rintro y ha hb hle rfl
    obtain ⟨w, hw⟩ := Spec.Bd.slice ha hb hle
    obtain ⟨p, r, e, h1, h2⟩ := slice_some hw
    exact ⟨p, w, r, e, h1.symm, h2.symm, hw⟩
  cases h with
  | text hs hi hsp =>
      have h1 := hi.bs; have h2 := hi.be; have h3 := hi.le
      rw [hsp] at h1 h2 h3
      exact key _ h1 h2 h3 (by simp only [Node.asStr, Text.asStr]; rw [hs, hsp])
  | statement hc ha hb =>
      rcases hb with ⟨sp, h1, h2, -⟩ | ⟨h1, -⟩
      · have h3 := Spec.CallIn.close hc h1
        cases hc with
        | mk hs ho =>
          have := h3.lo; have := h3.le; have := ho.1.le
          refine key _ (ha ▸ ho.1.bs) (h2 ▸ h3.be) (by omega) ?_
          simp only [Node.asStr, Call.asStr, h1]
          rw [hs, ha, h2]
      · exact absurd h1 hu
  | rawStatement h => exact key _ (h.start ▸ h.opn.bs) (h.stop ▸ h.clo.be) (Nat.le_trans (Nat.le_trans h.clo.lo h.clo.le) h.clo.hi) (by simp only [Node.asStr, TextBlock.asStr]; rw [h.source, h.start, h.stop])
  | rawComment h => exact key _ (h.start ▸ h.opn.bs) (h.stop ▸ h.clo.be) (Nat.le_trans (Nat.le_trans h.clo.lo h.clo.le) h.clo.hi) (by simp only [Node.asStr, TextBlock.asStr]; rw [h.source, h.start, h.stop])
  | comment h => exact key _ (h.start ▸ h.opn.bs) (h.stop ▸ h.clo.be) (Nat.le_trans (Nat.le_trans h.clo.lo h.clo.le) h.clo.hi) (by simp only [Node.asStr, TextBlock.asStr]; rw [h.source, h.start, h.stop])
  | link h =>
      obtain ⟨sp, h1, h2, h3⟩ := h.clo
      have := h2.lo; have := h2.le; have := h.opn.le; have := h.start
      refine key _ (h.start ▸ h.opn.bs) (h3 ▸ h2.be) (by omega) ?_
      simp only [Node.asStr, Link.asStr, Link.endPos, h1]
      rw [h.source, h.start, h3]
  | raw hs hr hc ho ha hb hn ht hi hsp htl hcs hcl hz hy =>
      cases hc with
      | mk _ hop =>
        subst hy
        have := hz.lo; have := hz.le; have := hi.lo; have := hi.le; have := hop.1.le; have := hop.1.hi
        refine key _ (ha ▸ hop.1.bs) hz.be (by omega) ?_
        simp only [Node.asStr, Block.asStr, hcl]
        rw [hs, ho, ha]
  | block h hcl hz hnm he =>
      rcases he with ⟨h1, -⟩ | ⟨h1, w, c, h2, h3⟩
      · have hi : ∃ lo hi', In src lo hi' ‹Block›.opn ∧ ‹Block›.opn.start = a ∧ ‹Block›.src = src := by
          cases h with
          | plain hs hr ho ha hc => cases hc with | mk _ hop => exact ⟨_, _, ho ▸ hop.1, by rw [ho, ha], hs⟩
          | clauses hs hr ho ha hc => cases hc with | mk _ hop => exact ⟨_, _, ho ▸ hop.1, by rw [ho, ha], hs⟩
        obtain ⟨_, _, hi, hia, hs⟩ := hi
        have := inside_le h
        have := hz.le; have := hz.lo
        simp only at *
        subst h1
        refine key _ (hia ▸ hi.bs) hz.be (by omega) ?_
        simp only [Node.asStr, Block.asStr, hcl]
        rw [hs, hia]
      · exact absurd ⟨_, w, c, hcl, h2, h3⟩ hu

omit [Host] in
/-- Finished nodes, one after another: their texts make up the source. -/
theorem coversL_text {ln lt : Nat → Nat → Prop} : ∀ {ns : List Node} {a b : Nat}, CoversL src ln lt ns a b → Bd src a → (∀ x ∈ ns, ¬ Unfinished src x) →
    ∃ p ws r, src = p ++ (ws.flatten ++ r) ∧ blen p = a ∧ blen p + blen ws.flatten = b ∧ ns.mapM Node.asStr = some ws
  | _, _, _, .nil, ⟨p, r, e, hp⟩, _ => ⟨p, [], r, by simpa using e, hp, by simp [hp], rfl⟩
  | _, _, _, .cons h h', hb, hu => by
      obtain ⟨p, w, r, e, h1, h2, h3⟩ := covers_text h (hu _ (by simp))
      obtain ⟨p', ws, r', e', h1', h2', h3'⟩ := coversL_text h' ⟨p ++ w, r, by simp [e], by simp [h2]⟩ (fun x hx => hu x (by simp [hx]))
      have : p' = p ++ w := by
        have e2 : p' ++ (ws.flatten ++ r') = (p ++ w) ++ r := by rw [← e', e]; simp
        exact (append_blen_inj e2 (by simp; omega)).1
      subst this
      refine ⟨p, w :: ws, r', by rw [e']; simp, h1, by simp at *; omega, ?_⟩
      rw [List.mapM_cons, h3, h3']
      rfl

/-- C44 (the code violates the full claim: see `C44_violated`).  The texts of the top-level nodes, one
after another, make up the source, up to its end or up to a block opened there that is never closed, or
a stray end tag of a raw block; provided every tag is closed. -/
theorem C44_partial {ns : List Node} (hb : ByteOk src o.byteOffset) (h : compile src o = .ok (.document src ns))
    (hu : ∀ x ∈ ns, ¬ Unfinished src x) :
    ∃ ws rest, ns.mapM Node.asStr = some ws ∧ src = ws.flatten ++ rest ∧
      (rest = [] ∨ BlockTagAt src (blen ws.flatten) ∨ RawEndAt src (blen ws.flatten)) := by
  obtain ⟨k, h1, h2⟩ := covers_of hb h
  obtain ⟨p, ws, r, e, g1, g2, g3⟩ := coversL_text h1 ⟨[], src, rfl, rfl⟩ hu
  have hp : p = [] := blen_eq_zero.1 g1
  subst hp
  simp only [List.nil_append, blen_nil, Nat.zero_add] at e g2
  refine ⟨ws, r, g3, e, ?_⟩
  rw [g2]
  rcases h2 with rfl | h2 | h2 | ⟨x, hx, h2⟩
  · left
    have : blen src = blen ws.flatten + blen r := by conv => lhs; rw [e]
                                                     simp
    exact blen_eq_zero.1 (by omega)
  · exact .inr (.inl h2)
  · exact .inr (.inr h2)
  · exact absurd h2 (hu x hx)

/-! ### C45 -/

/-- C45: every block of a compiled template has an end tag, ending with `}}`, with the name of the block
in it; for a block that is not raw the name is a whole word there.  (Or the source ended inside the end
tag.) -/
theorem C45_closed {ns : List Node} {b : Block} (hb : ByteOk src o.byteOffset) (h : compile src o = .ok (.document src ns))
    (ho : Occurs (.block b) ns) :
    ∃ sp, b.clo = some sp ∧ (Unfinished src (.block b) ∨ ∃ name nm, Braces src sp ∧ In src sp.start sp.stop nm ∧
      slice src nm.start nm.stop = some name ∧
      (b.raw = false ∧ b.name = some (some name) ∧ Word src nm ∨ b.raw = true ∧ b.call.target.asStr = some name)) := by
  obtain ⟨k, h1, -⟩ := covers_of hb h
  rcases occurs_covers ho h1 with ⟨_, _, g⟩ | ⟨_, _, _, _, _, _, g⟩
  · cases g with
    | raw _ hr _ _ _ _ _ _ _ _ _ _ hcl _ _ hnm he =>
        refine ⟨_, hcl, ?_⟩
        rcases he with ⟨-, e2, nm, e3, e4, -⟩ | ⟨-, w, c, e1, e2⟩
        · exact .inr ⟨_, nm, e2, e3, e4, .inr ⟨hr, hnm⟩⟩
        · exact .inl ⟨_, w, c, hcl, e1, e2⟩
    | block hi hcl _ hnm he =>
        have hr : b.raw = false := by
          cases hi with
          | plain _ hr => exact hr
          | clauses _ hr => exact hr
        refine ⟨_, hcl, ?_⟩
        rcases he with ⟨-, e2, nm, e3, e4, e5⟩ | ⟨-, w, c, e1, e2⟩
        · exact .inr ⟨_, nm, e2, e3, e4, .inl ⟨hr, hnm, e5⟩⟩
        · exact .inl ⟨_, w, c, hcl, e1, e2⟩
  · simp [isTextNode] at g

/-! ### C52 -/

omit [Host] in
theorem covers_line {x : Node} {a b base : Nat} {all : List Token} (h : Covers src (LnOk src base all) (LtOk src base all) x a b) :
    nodeStart x = a ∧ (isTextNode x = true ∧ LtOk src base all a (nodeLine x) ∨ isTextNode x = false ∧ LnOk src base all a (nodeLine x)) := by
  cases h with
  | text hs hi hsp hl => exact ⟨by simp [nodeStart, hsp], .inl ⟨rfl, hl⟩⟩
  | statement hc ha hb hl => exact ⟨ha, .inr ⟨rfl, hl⟩⟩
  | rawStatement h hl => exact ⟨h.start, .inr ⟨rfl, hl⟩⟩
  | rawComment h hl => exact ⟨h.start, .inr ⟨rfl, hl⟩⟩
  | comment h hl => exact ⟨h.start, .inr ⟨rfl, hl⟩⟩
  | link h hl => exact ⟨h.start, .inr ⟨rfl, hl⟩⟩
  | raw hs hr hc ho ha hb hn ht hi hsp htl hcs hcl hz hy hnm he hl => exact ⟨by simp [nodeStart, ho, ha], .inr ⟨rfl, hl⟩⟩
  | block h hcl hz hnm he hl =>
      refine ⟨?_, .inr ⟨rfl, hl⟩⟩
      cases h with
      | plain hs hr ho ha => simp [nodeStart, ho, ha]
      | clauses hs hr ho ha => simp [nodeStart, ho, ha]

/-- C52 (the code violates the full claim: see `C52_violated`).  The line recorded for a node is the number
of newlines before it, plus the configured offset, if the source is `Tight`: no link holds a newline and none
is skipped after `/` or `../` in a path.  The exception is a text that begins with a newline, which is given
the line after.  In any case the recorded line is at most one too large. -/
theorem C52_partial {ns : List Node} {x : Node} (hb : ByteOk src o.byteOffset) (h : compile src o = .ok (.document src ns))
    (ho : Occurs x ns) :
    nodeLine x ≤ o.lineOffset + newlines src (nodeStart x) + 1 ∧
    (Tight src (lex src) → isTextNode x = false ∨ ¬ NlAt src (nodeStart x) → nodeLine x = o.lineOffset + newlines src (nodeStart x)) := by
  obtain ⟨k, h1, -⟩ := covers_of hb h
  rcases occurs_covers ho h1 with ⟨_, _, g⟩ | ⟨b, _, _, g, hr, hn, hx⟩
  · obtain ⟨rfl, ⟨e, h1, h2⟩ | ⟨e, h1, h2⟩⟩ := covers_line g
    · refine ⟨h1, fun ht hc => ?_⟩
      rcases hc with hc | hc
      · rw [e] at hc; cases hc
      · exact (h2 ht).2 hc
    · exact ⟨by omega, fun ht _ => h2 ht⟩
  · cases g with
    | raw _ _ _ _ _ _ hn' _ _ hsp htl =>
        rw [hn] at hn'
        cases hn'
        simp only [nodeLine, nodeStart, hsp]
        exact ⟨by have := htl.1; omega, fun ht _ => htl.2 ht⟩
    | block hi =>
        cases hi with
        | plain _ hr' => rw [hr] at hr'; cases hr'
        | clauses _ hr' => rw [hr] at hr'; cases hr'

/-! ### C40 -/

/-- C40 (the code violates the full claim: see `C40_violated`).  When compiling panics, one of these is
the reason: the place of a syntax error cannot be shown, because its line is not ASCII, or it is at a
newline or at the end of the source after an opening tag; a number literal is not a JSON number; or there
are 256 `../` in a row and the build checks overflow. -/
theorem C40_partial (hb : ByteOk src o.byteOffset) (h : compile src o = .panic) :
    (∃ byte, byte ≤ blen src ∧ (byte = blen src → src = [] ∨ ∃ p c, src = p ++ [c] ∧ c ∈ openerChars) ∧
      ¬ ∃ before line after, LineOf src byte before line after ∧ Ascii line) ∨
    (∃ t w, t ∈ lex src ∧ t.kind = .params .number ∧ slice src t.span.start t.span.stop = some w ∧ parseNumber w = none) ∨
    (Host.overflowChecks = true ∧ ∃ a b, src = a ++ ((List.replicate 256 c!"../").flatten ++ b)) := by
  cases (compile_wf src o hb).2.1 h with
  | snippet line byte notes h hb =>
      left
      refine ⟨byte, hb.1, hb.2, fun hc => ?_⟩
      have : (errorInfo src o.fileName line byte notes).isSome := C39_exact.2 (.inr hc)
      rw [h] at this
      cases this
  | number t w h1 h2 h3 h4 => exact .inr (.inl ⟨t, w, h1, h2, h3, h4⟩)
  | parents a b ho h => exact .inr (.inr ⟨ho, a, b, h⟩)

/-- C40 for one-line ASCII sources: no panic, if the source does not end inside an opening tag, its numbers
are JSON numbers, and there are no 256 `../` in a row. -/
theorem C40_line_partial (hb : o.byteOffset = 0) (ha : Ascii src) (hn : '\n' ∉ src) (he : ∀ p c, src = p ++ [c] → c ∉ openerChars)
    (hnum : ∀ t w, t ∈ lex src → t.kind = .params .number → slice src t.span.start t.span.stop = some w → parseNumber w ≠ none)
    (hp : ∀ a b, src ≠ a ++ ((List.replicate 256 c!"../").flatten ++ b)) : compile src o ≠ .panic := by
  intro h
  by_cases h0 : src = []
  · subst h0
    have : compile [] o = .ok (.document [] []) := rfl
    rw [this] at h
    cases h
  have hpos : 0 < blen src := by
    rcases Nat.eq_zero_or_pos (blen src) with h | h
    · exact absurd (blen_eq_zero.1 h) h0
    · exact h
  rcases C40_partial (by rw [hb]; exact ByteOk.lt hpos) h with ⟨byte, h1, h2, h3⟩ | ⟨t, w, h1, h2, h3, h4⟩ | ⟨-, a, b, h1⟩
  · have : byte < blen src := by
      rcases Nat.lt_or_eq_of_le h1 with h | h
      · exact h
      · rcases h2 h with h | ⟨p, c, h, h'⟩
        · exact absurd h h0
        · exact absurd h' (he p c h)
    exact h3 ⟨[], src, [], ⟨by simp, hn, .inl rfl, .inl rfl, by simp, by simpa using this⟩, ha⟩
  · exact hnum t w h1 h2 h3 h4
  · exact hp a b h1

end

/-! ### Examples and violations -/

section Examples
attribute [local instance] exHost
open Ex

/-- A template with everything in it. -/
def exTree : Str := c!"a {{foo x=1 x=2}}\n{{#if b}}c{{else}}{{#each l}}d{{/each}}{{/if}} {{! e }}[[f|g]]"

theorem byteOk_zero (src : Str) : ByteOk src 0 := by
  refine ⟨Nat.zero_le _, fun e => .inl (blen_eq_zero.1 e.symm)⟩

theorem compile_nodes {src : Str} {k : Nat} (h : (nodes src).length = k + 1) :
    compile src ⟨c!"m", 0, 0⟩ = .ok (.document src (nodes src)) := by
  unfold nodes at h ⊢
  rcases hc : compile src ⟨c!"m", 0, 0⟩ with d | _ | _ | _
  · obtain ⟨ns, k, e, -⟩ := (compile_wf src _ (byteOk_zero src)).1 d hc
    subst e
    rfl
  all_goals rw [hc] at h; cases h

theorem exTree_ok : compile exTree ⟨c!"m", 0, 0⟩ = .ok (.document exTree (nodes exTree)) := compile_nodes (k := 6) (by decide +kernel)
theorem exTree_bytes : ByteOk exTree 0 := byteOk_zero _

/-- `C43_keys` at work: a key given twice. -/
example : ∃ c, CallOccurs c (nodes exTree) ∧ c.params.length = 1 := by
  obtain ⟨c, h1, h2⟩ := any (o := stmt exTree 1) (p := fun c => c.params.length == 1) (by decide +kernel)
  refine ⟨c, ⟨c, .self, .inl (.here ?_)⟩, by simpa using h2⟩
  unfold stmt at h1
  split at h1
  · rename_i h; cases h1; exact List.mem_of_getElem? h
  · cases h1

/-- `C44_partial` at work: nothing is left over. -/
example : ∀ x ∈ nodes exTree, ¬ Unfinished exTree x := by
  have key : (nodes exTree).all (fun x => match x with
      | .statement c => c.clo.isSome
      | .block b => (b.clo.bind fun sp => slice exTree sp.start sp.stop).bind List.getLast? == some '}'
      | _ => true) = true := by decide +kernel
  intro x hx hu
  have := List.all_eq_true.1 key x hx
  cases x with
  | statement c => simp [Unfinished] at hu; simp [hu] at this
  | block b =>
      obtain ⟨sp, w, c, h1, h2, h3⟩ := hu
      simp [h1, h2] at this
      exact h3 this
  | _ => exact hu

/-- The texts of the top-level nodes, when compiling succeeds. -/
def kept (src : Str) : Option (List Str) :=
  match compile src ⟨c!"m", 0, 0⟩ with
  | .ok d => d.children.mapM Node.asStr
  | _ => none

/-- C44 is violated: an unclosed block is dropped, and so is everything after a stray end tag of a raw block
or after `else` in a tag. -/
theorem C44_violated :
    kept c!"a {{#if x}}abc" = some [c!"a "] ∧ kept c!"{{#if x}}abc" = some [] ∧
    kept c!"a{{{{/raw}}}}b" = some [c!"a"] ∧ kept c!"{{foo else}} bar" = some [c!"{{"] := by
  refine ⟨by decide +kernel, by decide +kernel, by decide +kernel, by decide +kernel⟩

/-- `C45_closed` at work: a block, and one inside its `else`. -/
example : (∃ b, Occurs (.block b) (nodes exTree) ∧ b.name = some (some c!"if")) ∧ ∃ b, Occurs (.block b) (nodes exTree) ∧ b.name = some (some c!"each") := by
  have hb : ∀ {i b}, block exTree i = some b → Node.block b ∈ nodes exTree := by
    intro i b h
    unfold block at h
    split at h
    · rename_i h'; cases h; exact List.mem_of_getElem? h'
    · cases h
  let inner : Block → Option Block := fun b => match b.conditionals with
    | [.block k] => match k.nodes with
      | [.block c] => some c
      | _ => none
    | _ => none
  obtain ⟨b, h1, h2⟩ := any (o := block exTree 3) (p := fun b => b.name == some (some c!"if") && (inner b).any fun c => c.name == some (some c!"each")) (by decide +kernel)
  simp only [Bool.and_eq_true, beq_iff_eq] at h2
  refine ⟨⟨b, .here (hb h1), h2.1⟩, ?_⟩
  obtain ⟨c, h3, h4⟩ := any h2.2
  simp only [inner] at h3
  split at h3
  · rename_i k hk
    split at h3
    · rename_i c' hc
      cases h3
      exact ⟨c, .clause (hb h1) (k := k) (by rw [hk]; simp) (.here (by rw [hc]; simp)), by simpa using h4⟩
    · cases h3
  · cases h3

/-- An end tag the source ends in. -/
example : (nodes c!"{{#if x}}y{{/if").length = 1 := by decide +kernel

/-- `C52_partial` at work: a source without links and without `/` or `../` is `Tight`. -/
theorem tight_of {src : Str} (h : (lex src).all (fun t => decide (t.kind ≠ .link .text) && decide (t.kind ≠ .params .parentRef) && decide (t.kind ≠ .params .pathDelimiter)) = true) :
    Tight src (lex src) := by
  have h' := fun t ht => List.all_eq_true.1 h t ht
  simp only [Bool.and_eq_true, decide_eq_true_eq] at h'
  refine ⟨fun t ht hk => absurd hk (h' t ht).1.1, ?_⟩
  intro l a run b r e hk
  have := h' a (by rw [e]; simp)
  rcases hk with hk | hk
  · exact absurd hk this.1.2
  · exact absurd hk this.2

example : Tight c!"a\nb {{#if x}}\n{{foo x=1}}\n{{/if}}" (lex c!"a\nb {{#if x}}\n{{foo x=1}}\n{{/if}}") := tight_of (by decide +kernel)

/-- C52 is violated: a text that begins with a newline is given the next line, and a newline skipped in a
path is not counted at all. -/
theorem C52_violated :
    ((text c!"{{a}}\nb" 1).map fun t => (t.line.start, newlines c!"{{a}}\nb" t.span.start)) = some (1, 0) ∧
    ((stmt c!"{{../\na}}{{b}}" 1).map fun c => (c.line.start, newlines c!"{{../\na}}{{b}}" c.opn.start)) = some (0, 1) := by
  refine ⟨by decide +kernel, by decide +kernel⟩

/-- `C40_line_partial` at work. -/
example : compile c!"{{foo x=10 y='a' ../b}} and {{#if 105}}c{{/each}}" ⟨c!"m", 0, 0⟩ ≠ .panic := by
  refine C40_line_partial rfl (by unfold Ascii; decide) (by decide) ?_ ?_ ?_
  · intro p c h
    have := congrArg List.getLast? h
    simp only [List.getLast?_append, List.getLast?_singleton, Option.some_or] at this
    have hl : (List.getLast? c!"{{foo x=10 y='a' ../b}} and {{#if 105}}c{{/each}}") = some '}' := by decide
    rw [hl] at this
    cases this
    decide
  · have key : (lex c!"{{foo x=10 y='a' ../b}} and {{#if 105}}c{{/each}}").all (fun t => t.kind != .params .number ||
        ((slice c!"{{foo x=10 y='a' ../b}} and {{#if 105}}c{{/each}}" t.span.start t.span.stop).bind parseNumber).isSome) = true := by decide +kernel
    intro t w ht hk hs hn
    have := List.all_eq_true.1 key t ht
    simp [hk, hs, hn] at this
  · intro a b h
    have := congrArg List.length h
    have h1 : (List.replicate 256 c!"../").flatten.length = 768 := by decide +kernel
    have h2 : (c!"{{foo x=10 y='a' ../b}} and {{#if 105}}c{{/each}}").length = 49 := by decide +kernel
    rw [List.length_append, List.length_append, h1, h2] at this
    omega

/-- C40 is violated: a number with a leading zero, an opening tag at the end of the source, an error at a
newline, an error in a line that is not ASCII. -/
theorem C40_violated :
    compile c!"{{log 01}}" ⟨c!"m", 0, 0⟩ = .panic ∧ compile c!"{{(" ⟨c!"m", 0, 0⟩ = .panic ∧
    compile c!"{{\n)}}" ⟨c!"m", 0, 0⟩ = .panic ∧ compile c!"é{{)}}" ⟨c!"m", 0, 0⟩ = .panic := by
  refine ⟨rfl, rfl, rfl, rfl⟩

end Examples

end Bracket.Props
