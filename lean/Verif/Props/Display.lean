import Verif.Model.Display
import Verif.Props.Tree

/-! C71: a template prints as its source, and so do its parts.  C72: comparing errors. -/

namespace Bracket.Props
open Bracket.Spec

section
set_option linter.unusedSectionVars false
variable [Host] {src : Str} {o : ParserOptions}

/-- C71: a compiled template, written as a string, is the text it was compiled from. -/
theorem C71_template {n : Node} (h : compile src o = .ok n) : n.display = some src := by
  unfold compile at h
  simp only at h
  split at h <;> cases h
  rfl

/-- `w` is in the source at byte `a`. -/
def FoundAt (src : Str) (a : Nat) (w : Str) : Prop := ∃ p r, src = p ++ (w ++ r) ∧ blen p = a

theorem slice_at {w : Str} {i j : Nat} (h : slice src i j = some w) : FoundAt src i w := by
  obtain ⟨p, r, h1, h2, -⟩ := slice_some h
  exact ⟨p, r, h1, h2.symm⟩

theorem textBlock_at {t : TextBlock} {a b : Nat} (h : TextBlockIn src a b t) : ∃ w, t.asStr = some w ∧ FoundAt src t.opn.start w := by
  have hle : t.opn.start ≤ t.clo.stop := by have := h.opn.le; have := h.le; have := h.clo.le; omega
  obtain ⟨w, hw⟩ := Bd.slice h.opn.bs h.clo.be hle
  exact ⟨w, by unfold TextBlock.asStr; rw [h.source, hw], slice_at hw⟩

theorem call_at {c : Call} {lo hi : Nat} (h : CallIn src lo hi c) : ∃ w, c.asStr = some w ∧ FoundAt src c.opn.start w := by
  cases h with
  | mk hs ho hc ht ha hp hk =>
    unfold Call.asStr
    cases hcl : c.clo with
    | none =>
        obtain ⟨w, hw⟩ := ho.1.slice
        exact ⟨w, by simp only; rw [hs, hw], slice_at hw⟩
    | some sp =>
        have h2 := hc sp hcl
        have hle : c.opn.start ≤ sp.stop := by have := ho.1.le; have := h2.lo; have := h2.le; omega
        obtain ⟨w, hw⟩ := Bd.slice ho.1.bs h2.be hle
        exact ⟨w, by simp only; rw [hs, hw], slice_at hw⟩

theorem covers_at {ln lt : Nat → Nat → Prop} {x : Node} {a b : Nat} (h : Covers src ln lt x a b) (hx : ∀ k, x ≠ .block k) :
    ∃ w, x.display = some w ∧ FoundAt src (nodeStart x) w := by
  cases h with
  | text hs hi =>
      obtain ⟨w, hw⟩ := hi.slice
      exact ⟨w, by unfold Node.display Text.asStr; rw [hs, hw], slice_at hw⟩
  | statement hc => exact call_at hc
  | rawStatement h => exact textBlock_at h
  | rawComment h => exact textBlock_at h
  | comment h => exact textBlock_at h
  | @link l _ _ h _ =>
      obtain ⟨sp, hsp, hin, -⟩ := h.clo
      have hle : l.opn.start ≤ sp.stop := by have := h.opn.le; have := hin.lo; have := hin.le; omega
      obtain ⟨w, hw⟩ := Bd.slice h.opn.bs hin.be hle
      refine ⟨w, ?_, slice_at hw⟩
      unfold Node.display Link.asStr Link.endPos
      rw [hsp, h.source]
      exact hw
  | raw => exact (hx _ rfl).elim
  | block => exact (hx _ rfl).elim

theorem rawText_at {ln lt : Nat → Nat → Prop} {x : Node} {b : Block} {a z : Nat} (h : Covers src ln lt (.block b) a z) (hr : b.raw = true)
    (hn : b.nodes = [x]) : ∃ w, x.display = some w ∧ FoundAt src (nodeStart x) w := by
  cases h with
  | raw hs _ _ _ _ _ hn' ht hi =>
      rw [hn] at hn'
      cases hn'
      obtain ⟨w, hw⟩ := hi.slice
      exact ⟨w, by unfold Node.display Text.asStr; rw [ht, hw], slice_at hw⟩
  | block h =>
      cases h with
      | plain hs hr' => rw [hr] at hr'; cases hr'
      | clauses hs hr' => rw [hr] at hr'; cases hr'

/-- C71: every part of a compiled template that is not a block prints as the text it stands for: a stretch
of the source that begins where the part begins. -/
theorem C71_nodes {ns : List Node} {x : Node} (hb : ByteOk src o.byteOffset)
    (h : compile src o = .ok (.document src ns)) (hx : Occurs x ns) (hk : ∀ k, x ≠ .block k) :
    ∃ before shown after, src = before ++ (shown ++ after) ∧ blen before = nodeStart x ∧ x.display = some shown := by
  obtain ⟨k, h1, -⟩ := covers_of hb h
  have : ∃ w, x.display = some w ∧ FoundAt src (nodeStart x) w := by
    rcases occurs_covers hx h1 with ⟨_, _, g⟩ | ⟨b, _, _, g, hr, hn, -⟩
    · exact covers_at g hk
    · exact rawText_at g hr hn
  obtain ⟨w, hw, p, r, e, hp⟩ := this
  exact ⟨p, w, r, e, hp, hw⟩

/-- The texts of the nodes, one after the other, all of them written. -/
inductive Joined : List Node → Str → Prop where
  | nil : Joined [] []
  | cons {n : Node} {ns : List Node} {a b : Str} (h : n.display = some a) (h' : Joined ns b) : Joined (n :: ns) (a ++ b)

theorem joined_all : ∀ {ns : List Node} {w : Str}, Joined ns w → displayAll ns = some w
  | _, _, .nil => rfl
  | _, _, .cons h h' => by rw [displayAll, h, joined_all h']; rfl

theorem joined_exists : ∀ {ns : List Node}, (∀ n ∈ ns, ∃ w, n.display = some w) → ∃ w, Joined ns w
  | [], _ => ⟨[], .nil⟩
  | n :: ns, h => by
      obtain ⟨a, ha⟩ := h n List.mem_cons_self
      obtain ⟨b, hb⟩ := joined_exists (ns := ns) fun m hm => h m (List.mem_cons_of_mem _ hm)
      exact ⟨a ++ b, .cons ha hb⟩

theorem occurs_in {x : Node} {b : Block} {ns : List Node} (hx : x ∈ b.nodes) (hb : Occurs (.block b) ns) : Occurs x ns := by
  generalize hy : Node.block b = y at hb
  induction hb with
  | here h => subst hy; exact .body h (.here hx)
  | body h h' ih => exact .body h ih
  | clause h hk h' ih => exact .clause h hk ih

theorem display_occurs {ns : List Node} (hb : ByteOk src o.byteOffset) (h : compile src o = .ok (.document src ns)) :
    ∀ (m : Nat) (x : Node), sizeOf x < m → Occurs x ns → ∃ w, x.display = some w := by
  intro m
  induction m with
  | zero => intro x hm; omega
  | succ m ih =>
      intro x hm hx
      by_cases hk : ∀ k, x ≠ .block k
      · obtain ⟨_, w, _, _, _, hw⟩ := C71_nodes hb h hx hk
        exact ⟨w, hw⟩
      · have : ∃ k, x = .block k := by
          cases x with
          | block k => exact ⟨k, rfl⟩
          | _ => exact (hk (fun k hk => by cases hk)).elim
        obtain ⟨b, rfl⟩ := this
        have hs : ∀ n ∈ b.nodes, ∃ w, n.display = some w := by
          intro n hn
          refine ih n ?_ (occurs_in hn hx)
          have := List.sizeOf_lt_of_mem hn
          cases b
          simp only [Block.nodes] at this
          simp at hm
          omega
        obtain ⟨w, hw⟩ := joined_exists hs
        refine ⟨w, ?_⟩
        cases b
        exact joined_all hw

/-- C71: a block prints as its content, one node after the other, without its tags and `else` clauses;
printing a part of a compiled template never panics. -/
theorem C71_blocks {ns : List Node} {b : Block} (hb : ByteOk src o.byteOffset)
    (h : compile src o = .ok (.document src ns)) (hx : Occurs (.block b) ns) :
    ∃ w, Joined b.nodes w ∧ (Node.block b).display = some w := by
  have hs : ∀ n ∈ b.nodes, ∃ w, n.display = some w := fun n hn =>
    display_occurs hb h (sizeOf n + 1) n (Nat.lt_succ_self _) (occurs_in hn hx)
  obtain ⟨w, hw⟩ := joined_exists hs
  refine ⟨w, hw, ?_⟩
  cases b
  exact joined_all hw
end

/-! ### C72 -/

/-- C72: two errors that compare equal are the same error (I/O errors: of the same kind). -/
theorem C72_sound {a b : ApiErr} (h : apiEq a b = true) : a = b := by
  cases a <;> cases b <;> simp only [apiEq, Bool.false_eq_true] at h
  · exact congrArg _ (by simpa using h)
  · rename_i x y
    cases x <;> cases y <;> simp only [renderEq, Bool.false_eq_true] at h
    simpa using h
  · exact congrArg _ (by simpa using h)
  · exact congrArg _ (by simpa [ioEq] using h)

/-- An error met while rendering other than a partial that was not found. -/
def Incomparable : ApiErr → Prop
  | .render (.partialNotFound _) => False
  | .render _ => True
  | _ => False

/-- C72 (the code violates the full claim, that an error is equal to itself: `C72_violated`): exactly the
errors met while rendering, other than a partial that was not found, are not equal to themselves. -/
theorem C72_partial (e : ApiErr) : apiEq e e = true ↔ ¬ Incomparable e := by
  cases e with
  | render x => cases x <;> simp [apiEq, renderEq, Incomparable]
  | _ => simp [apiEq, Incomparable, ioEq]

/-- C72: errors can be compared in either order. -/
theorem C72_symmetric (a b : ApiErr) : apiEq a b = apiEq b a := by
  cases a <;> cases b <;> simp only [apiEq]
  · exact BEq.comm
  · rename_i x y
    cases x <;> cases y <;> simp only [renderEq]
    exact BEq.comm
  · exact BEq.comm
  · exact BEq.comm

section Examples
attribute [local instance] exHost

/-- How an error compares with itself. -/
def selfEq {α : Type} : Out α → Option Bool
  | .err e => some (apiEq e e)
  | _ => none

theorem selfEq_false {α : Type} {o : Out α} (h : selfEq o = some false) : ∃ e, o = .err e ∧ apiEq e e = false := by
  cases o with
  | err e => exact ⟨e, rfl, by simpa [selfEq] using h⟩
  | _ => cases h

/-- C72 is violated: the error of a missing variable in strict mode is not equal to itself. -/
theorem C72_violated : ∃ e : ApiErr, Reg.once 40 (Reg.new.setStrict true) c!"t" c!"{{x}}" (.obj []) = .err e ∧ apiEq e e = false :=
  selfEq_false (by decide +kernel)

/-- Those that can be compared: a partial or a template that does not exist, and a syntax error. -/
example : selfEq (Reg.once 40 Reg.new c!"t" c!"{{> x}}" (.obj [])) = some true ∧
    selfEq (Reg.render 40 Reg.new c!"t" (.obj [])) = some true ∧
    selfEq (Reg.once 40 Reg.new c!"t" c!"{{#a}}{{/b }}" (.obj [])) = some true := by
  refine ⟨by decide +kernel, by decide +kernel, by decide +kernel⟩

/-- What the `i`th node of a source prints as. -/
def printed (src : Str) (i : Nat) : Option Str := (Ex.nodes src)[i]?.bind Node.display

/-- Concrete nodes: a text, a tag, an escaped tag, a comment and a block, which loses its tags and its
`else` clause. -/
example : let src := c!"é{{~ f 'a' (g 1) }}\\{{x}}{{! n }}{{#if a}}b{{c}}{{else}}d{{/if}}"
    printed src 0 = some c!"é" ∧ printed src 1 = some c!"{{~ f 'a' (g 1) }}" ∧ printed src 2 = some c!"\\{{x}}" ∧
    printed src 3 = some c!"{{! n }}" ∧ printed src 4 = some c!"b{{c}}" := by
  refine ⟨by decide +kernel, by decide +kernel, by decide +kernel, by decide +kernel, by decide +kernel⟩
end Examples
end Bracket.Props
