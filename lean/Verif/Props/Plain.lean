import Verif.Props.Partials
import Verif.Props.Invoke
import Verif.Props.Lint
import Verif.Props.Tree

/-! C84: only plain names can name blocks and partials. -/

set_option linter.unusedSectionVars false

namespace Bracket.Spec
open Bracket

/-- A path that is just a name (`foo`, and `../foo` too): one component, an identifier. -/
def OneName (p : Path) : Prop := ∃ c, p.components = [c] ∧ c.kind = .identifier

/-- The block is one of the nodes, or is inside one: in its content or in that of an `else` clause. -/
inductive BlockOf : List Node → Block → Prop
  | here {ns : List Node} {b : Block} (h : .block b ∈ ns) : BlockOf ns b
  | content {ns : List Node} {b d : Block} (h : .block d ∈ ns) (h' : BlockOf d.nodes b) : BlockOf ns b
  | clause {ns : List Node} {b d k : Block} (h : .block d ∈ ns) (hk : .block k ∈ d.conditionals) (h' : BlockOf k.nodes b) : BlockOf ns b

end Bracket.Spec

namespace Bracket.Props
open Bracket Re Spec P

theorem oneName_iff (p : Path) : OneName p ↔ p.isSimple = true := by
  unfold OneName Path.isSimple
  constructor
  · rintro ⟨c, h1, h2⟩; rw [h1]; simp [h2]
  · intro h
    match hc : p.components, h with
    | [c], h => exact ⟨c, rfl, by simpa using h⟩

section
variable [Host]

/-! ### What compiles -/

/-- **C84**: the opening tag of a block whose name is not a plain one is a syntax error, after any template and
inside any open blocks, whatever comes after it. -/
theorem C84_named (T : STm) (fs : List OpenBlock) (part : Bool) (tl : Tilde) (p : SPath) (a : SArgs) (k : Str) (o : ParserOptions)
    (hT : T.ok (framesSrc fs ++ (openText part tl p.text a ++ k)) = true) (hf : framesOk fs (openText part tl p.text a ++ k) = true)
    (htl : tl.ok = true) (hg : gapOk part tl.gap = true) (hp : p.ok = true) (ha : a.ok = true) (hj : justName p = false) (hk : ∀ r, k ≠ '}' :: r) :
    FailsWith (T.src ++ (framesSrc fs ++ (openText part tl p.text a ++ k))) o .blockName := by
  have hk' : NotNext ['}'] k := by rintro c r rfl; simp only [List.mem_singleton]; rintro rfl; exact hk r rfl
  refine fails_at (ok := fun _ => True) hT hf (opens_open part tl _ a k) trivial ?_
  intro s hs _
  obtain ⟨tok, L, res, t, g1, g2, g3, -, -⟩ := named_fault ⟨T.src ++ (framesSrc fs ++ (openText part tl p.text a ++ k)), o.fileName⟩ htl hg hp ha hj hk' (pre := T.src ++ framesSrc fs) (by simp) hs
  refine ⟨tok, L, res, t, g1, g2, ?_⟩
  obtain ⟨notes, ⟨-, h⟩ | ⟨i, -, h⟩⟩ := g3
  · exact .inl h
  · exact .inr ⟨_, h, rfl⟩

/-- **C84**: so is that of a block whose name is computed, even of a partial with content. -/
theorem C84_computed (T : STm) (fs : List OpenBlock) (part : Bool) (tl : Tilde) (q : SPath) (b a : SArgs) (k : Str) (o : ParserOptions)
    (hT : T.ok (framesSrc fs ++ (openText part tl (SExpr.sub q b).text a ++ k)) = true)
    (hf : framesOk fs (openText part tl (SExpr.sub q b).text a ++ k) = true)
    (htl : tl.ok = true) (hg : gapOk part tl.gap = true) (hq : (SExpr.sub q b).ok = true) (ha : a.ok = true) (hk : ∀ r, k ≠ '}' :: r) :
    FailsWith (T.src ++ (framesSrc fs ++ (openText part tl (SExpr.sub q b).text a ++ k))) o .blockName := by
  have hk' : NotNext ['}'] k := by rintro c r rfl; simp only [List.mem_singleton]; rintro rfl; exact hk r rfl
  refine fails_at (ok := fun _ => True) hT hf (opens_open part tl _ a k) trivial ?_
  intro s hs _
  obtain ⟨tok, L, res, t, g1, g2, g3, -, -⟩ := computed_fault ⟨T.src ++ (framesSrc fs ++ (openText part tl (SExpr.sub q b).text a ++ k)), o.fileName⟩ htl hg hq ha hk' (pre := T.src ++ framesSrc fs) (by simp) hs
  refine ⟨tok, L, res, t, g1, g2, ?_⟩
  obtain ⟨notes, ⟨-, h⟩ | ⟨i, -, h⟩⟩ := g3
  · exact .inl h
  · exact .inr ⟨_, h, rfl⟩

theorem named_of {b : Block} {name : Str} (h : b.name = some (some name)) : ∃ p, b.call.target = .path p ∧ OneName p := by
  unfold Block.name at h
  split at h
  · rename_i p hp
    split at h
    · rename_i c hc
      split at h
      · rename_i hk; exact ⟨p, hp, c, hc, hk⟩
      · cases h
    · cases h
  · cases h

theorem covers_mem {src : Str} {ln lt : Nat → Nat → Prop} : ∀ {ns : List Node} {a z : Nat}, CoversL src ln lt ns a z → ∀ x ∈ ns, ∃ a z, Covers src ln lt x a z
  | _, _, _, .nil, x, h => by cases h
  | _, _, _, .cons h h', x, hx => by
      rcases List.mem_cons.1 hx with rfl | hx
      · exact ⟨_, _, h⟩
      · exact covers_mem h' x hx

theorem branches_mem {src : Str} {ln lt : Nat → Nat → Prop} : ∀ {ns : List Node} {a z : Nat}, Branches src ln lt ns a z → ∀ b : Block, .block b ∈ ns →
    ∃ a z cl, Branch src ln lt b a z cl
  | _, _, _, .nil, x, h => by cases h
  | _, _, _, .cons h h', x, hx => by
      rcases List.mem_cons.1 hx with hx | hx
      · cases hx; exact ⟨_, _, _, h⟩
      · exact branches_mem h' x hx

theorem block_covers {src : Str} {ln lt : Nat → Nat → Prop} {ns : List Node} {b : Block} (h : BlockOf ns b) :
    (∀ d : Block, .block d ∈ ns → ∃ a z, Covers src ln lt (.block d) a z) → b.raw = true ∨ ∃ p, b.call.target = .path p ∧ OneName p := by
  have inside : ∀ {d : Block}, (∃ a z, Covers src ln lt (.block d) a z) → (∀ x : Block, .block x ∈ d.nodes → ∃ a z, Covers src ln lt (.block x) a z) ∧
      (∀ k : Block, .block k ∈ d.conditionals → ∀ x : Block, .block x ∈ k.nodes → ∃ a z, Covers src ln lt (.block x) a z) := by
    rintro d ⟨a, z, h⟩
    cases h with
    | raw hs hr hc ho ha hb hn ht hi hsp htl hcs hcl hz hy hnm he hl =>
        rw [hn, hcs]
        exact ⟨fun x hx => by simp at hx, fun k hk => by cases hk⟩
    | block h hcl hz hnm he hl =>
        cases h with
        | plain hs hr ho ha hc hb hn hcs => rw [hcs]; exact ⟨fun x hx => covers_mem hn _ hx, fun k hk => by cases hk⟩
        | clauses hs hr ho ha hc hb hn hcs hi hl =>
            refine ⟨fun x hx => covers_mem hn _ hx, fun k hk => ?_⟩
            rw [hcs, List.mem_append] at hk
            have : ∃ a z cl, Branch src ln lt k a z cl := by
              rcases hk with hk | hk
              · exact branches_mem hi k hk
              · rw [List.mem_singleton] at hk; cases hk; exact ⟨_, _, _, hl⟩
            obtain ⟨_, _, _, h⟩ := this
            cases h with
            | mk hs hr ho ha hc hb hcond hn hcs hcl => exact fun x hx => covers_mem hn _ hx
  induction h with
  | here h =>
      intro hc
      obtain ⟨a, z, h⟩ := hc _ h
      cases h with
      | raw hs hr => exact .inl hr
      | block h hcl hz hnm he hl => exact .inr (named_of hnm)
  | content h h' ih => exact fun hc => ih (inside (hc _ h)).1
  | clause h hk h' ih => exact fun hc => ih ((inside (hc _ h)).2 _ hk)

/-- **C84**: in a compiled template every block, however deep, that is not a raw block has a plain name. -/
theorem C84_compiled (src : Str) (o : ParserOptions) (hb : ByteOk src o.byteOffset) (ns : List Node) (h : compile src o = .ok (.document src ns))
    (b : Block) (hm : BlockOf ns b) : b.raw = true ∨ ∃ p, b.call.target = .path p ∧ OneName p := by
  obtain ⟨ns', k, e, h1, -⟩ := (compile_wf src o hb).1 _ h
  cases e
  exact block_covers hm fun d hd => covers_mem h1 _ hd

/-! ### What is rendered -/

theorem kind_of {E : Env} {node : Node} {trim : TrimState} {s t : RS} {r : Res Unit}
    (h : Renders E node trim s r t) (hr : r ≠ .panic) :
    ∃ hint, node.trim = some hint ∧ Eval (fun n => renderKind (sem n) E node) (begin_ s trim hint) r t := by
  cases hh : node.trim with
  | some hint => exact ⟨hint, rfl, (renders_kind hh).1 h⟩
  | none =>
      exfalso
      rw [renders_iff] at h
      obtain ⟨_, n, h⟩ := h
      change renderNodeF (sem n) E node trim s = _ at h
      unfold renderNodeF at h
      rw [RM.bind_def] at h
      simp only [RM.orPanic, hh] at h
      cases h
      exact hr rfl

theorem begin_quiet (s : RS) (trim : TrimState) (h : TrimHint) : Quiet s (begin_ s trim h) := ⟨rfl, rfl, rfl, rfl, rfl, rfl, rfl⟩

/-- C84: a block whose name is a path of several components, or is not an identifier (of those the compiler
accepts: a raw block), is an error that shows what was written; neither its content nor its alternatives are rendered, whatever helpers,
handlers and data there are, and nothing is written. -/
theorem C84_block (E : Env) (b : Block) (p : Path) (txt : Str) (hn : b.call.isPartial = false)
    (hp : b.call.target = .path p) (ho : ¬ OneName p) (ht : p.asStr = some txt) (trim : TrimState) (s t : RS) (r : Res Unit)
    (h : Renders E (.block b) trim s r t) (hr : r ≠ .panic) :
    r = .err (.blockIdentifier txt) ∧ t.out = s.out ∧ Quiet s t := by
  obtain ⟨hint, _, h⟩ := kind_of h hr
  have hs : p.isSimple = false := by
    cases h0 : p.isSimple with
    | false => rfl
    | true => exact absurd ((oneName_iff p).2 h0) ho
  have e : ∀ n, renderKind (sem n) E (.block b) (begin_ s trim hint) = (.err (.blockIdentifier txt), begin_ s trim hint) := by
    intro n
    unfold renderKind blockF
    simp only [hn, Bool.false_eq_true, if_false, hp, hs]
    rw [orPanic_bind ht]
    rfl
  obtain ⟨_, n, h⟩ := h
  change renderKind (sem n) E (.block b) (begin_ s trim hint) = _ at h
  rw [e] at h
  cases h
  exact ⟨rfl, rfl, begin_quiet s trim hint⟩

/-- C84: so is a block whose name is computed; the sub-expression is not even evaluated. -/
theorem C84_block_computed (E : Env) (b : Block) (c : Call) (hn : b.call.isPartial = false)
    (hp : b.call.target = .subExpr c) (trim : TrimState) (s t : RS) (r : Res Unit)
    (h : Renders E (.block b) trim s r t) (hr : r ≠ .panic) :
    r = .err .blockTargetSubExpr ∧ t.out = s.out ∧ Quiet s t := by
  obtain ⟨hint, _, h⟩ := kind_of h hr
  have e : ∀ n, renderKind (sem n) E (.block b) (begin_ s trim hint) = (.err .blockTargetSubExpr, begin_ s trim hint) := by
    intro n
    unfold renderKind blockF
    simp only [hn, Bool.false_eq_true, if_false, hp]
    rfl
  obtain ⟨_, n, h⟩ := h
  change renderKind (sem n) E (.block b) (begin_ s trim hint) = _ at h
  rw [e] at h
  cases h
  exact ⟨rfl, rfl, begin_quiet s trim hint⟩

theorem partial_refused {E : Env} {c : Call} {p : Path} {txt : Str} (hp : c.target = .path p) (ho : ¬ OneName p)
    (ht : p.asStr = some txt) (hb : txt ≠ c!"@partial-block") (content : Option Node) (n : Nat) (s : RS) :
    renderPartial (sem n) E c content s = (.err (.partialIdentifier txt), s) := by
  have hs : p.isSimple = false := by
    cases h0 : p.isSimple with
    | false => rfl
    | true => exact absurd ((oneName_iff p).2 h0) ho
  have e : partialName (sem n) E c s = (.err (.partialIdentifier txt), s) := by
    unfold partialName
    rw [hp]
    simp only
    rw [orPanic_bind ht, if_neg (show txt ≠ nmPartialBlock from hb), hs]
    rfl
  unfold renderPartial
  rw [RM.bind_def, e]

/-- C84: a partial called by such a path is an error too, whether or not a template of that name is
registered — except for `@partial-block`. -/
theorem C84_partial (E : Env) (c : Call) (p : Path) (txt : Str) (hn : c.isPartial = true)
    (hp : c.target = .path p) (ho : ¬ OneName p) (ht : p.asStr = some txt) (hb : txt ≠ c!"@partial-block") (s t : RS)
    (r : Res (Option Value)) (h : Evaluates E c s r t) : r = .err (.partialIdentifier txt) ∧ t = s := by
  rw [evaluates_iff] at h
  obtain ⟨_, n, h⟩ := h
  change statementF (sem n) E c s = _ at h
  unfold statementF at h
  rw [if_pos hn, RM.bind_def, partial_refused hp ho ht hb] at h
  cases h
  exact ⟨rfl, rfl⟩

/-- C84: and so is a partial called with content. -/
theorem C84_partial_block (E : Env) (b : Block) (p : Path) (txt : Str) (hn : b.call.isPartial = true)
    (hp : b.call.target = .path p) (ho : ¬ OneName p) (ht : p.asStr = some txt) (hb : txt ≠ c!"@partial-block")
    (trim : TrimState) (s t : RS) (r : Res Unit) (h : Renders E (.block b) trim s r t) (hr : r ≠ .panic) :
    r = .err (.partialIdentifier txt) ∧ t.out = s.out ∧ Quiet s t := by
  obtain ⟨hint, _, h⟩ := kind_of h hr
  obtain ⟨_, n, h⟩ := h
  change renderKind (sem n) E (.block b) (begin_ s trim hint) = _ at h
  unfold renderKind blockF at h
  simp only [hn, if_true] at h
  rw [partial_refused hp ho ht hb] at h
  cases h
  exact ⟨rfl, rfl, begin_quiet s trim hint⟩

end

section
attribute [local instance] exHost


/-- How rendering a source ends: with this error, after writing this. -/
def refused (r : Reg) (src : Str) (data : Value) : Option (Option (Sum Str Unit) × Str) :=
  match compile src ⟨c!"m", 0, 0⟩ with
  | .ok d =>
      let x := renderTo 60 r stringSink c!"m" d data
      some (match x.1 with
        | .err (.blockIdentifier w) => some (.inl w)
        | .err (.partialIdentifier w) => some (.inl w)
        | .err .blockTargetSubExpr => some (.inr ())
        | _ => none, outText x.2.out)
  | _ => none

/-- Ordinary blocks are refused by the compiler. -/
example : compileKind c!"a{{#if x}}b{{#a.b}}c{{/a.b}}{{/if}}" = some .blockName := by decide +kernel
example : compileKind c!"{{#(lookup x \"y\")}}c{{/y}}" = some .blockName := by decide +kernel
example : compileKind c!"{{#> (lookup x \"y\")}}c{{/y}}" = some .blockName := by decide +kernel
example : (STm.text c!"a" .nil).ok (framesSrc [] ++ (openText false ⟨false, false, [], [], []⟩ (⟨0, .this, []⟩ : SPath).text (.done (.tail [])) ++ c!"c")) = true ∧
    framesOk [] (openText false ⟨false, false, [], [], []⟩ (⟨0, .this, []⟩ : SPath).text (.done (.tail [])) ++ c!"c") = true ∧
    (⟨0, .this, []⟩ : SPath).ok = true ∧ justName ⟨0, .this, []⟩ = false ∧ justName ⟨1, .name c!"x", []⟩ = true := by decide +kernel

/-- Raw blocks and partials by the renderer: the hypotheses of the theorems about rendering are met. -/
example : refused Reg.new c!"a{{{{x.y}}}} b {{{{/x.y}}}}c" (.obj [(c!"x", .obj [(c!"y", .null)])]) = some (some (.inl c!"x.y"), c!"a") := by decide +kernel
example : refused Reg.new c!"a{{{{(x)}}}} b {{{{/(x)}}}}c" .null = some (some (.inr ()), c!"a") := by decide +kernel
example : refused Reg.new c!"a{{> x.y}}c" .null = some (some (.inl c!"x.y"), c!"a") := by decide +kernel
example : refused Reg.new c!"a{{{{> this}}}} b {{{{/this}}}}c" .null = some (some (.inl c!"this"), c!"a") := by decide +kernel

/-- A name after `../` is a plain name. -/
example : refused Reg.new c!"a{{#with x}}{{#../y}}b{{/y}}{{/with}}" (.obj [(c!"x", .obj [(c!"z", .null)]), (c!"y", .null)]) = some (none, c!"ab") := by decide +kernel

end

end Bracket.Props
