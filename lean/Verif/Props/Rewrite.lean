import Verif.Lemmas.Rewrite
import Verif.Props.Whole

/-! C85: conditionals can be rewritten. -/

set_option linter.unusedSectionVars false

namespace Bracket.Props
open Bracket Spec Bracket.Props.Rewrite
open Bracket.Spec.Full hiding block blockHelper contents rounds builtinBlock depth

section
variable [H : Host] [C : Custom]

/-- **C85**: two templates without `~` that differ only in how their conditions are written (`Recast`; and whose partials do)
give the same text or the same error (but for the helpers it is reported through), unless one of the two reaches the
recursion limit of a helper. -/
theorem C85_once (hC : Conditionals) (T U : STm) (hT : T.ok [] = true) (hU : U.ok [] = true) (h : Recast T U)
    (lib lib' : List (Str × STm)) (hlib : ∀ x, Option.Rel Recast (lib.lookup x) (lib'.lookup x)) (reg reg' : Reg) (hb : Equipped reg) (hb' : Equipped reg')
    (hl : Full.Holds reg lib) (hl' : Full.Holds reg' lib') (hs : reg'.strict = reg.strict) (he : reg'.escape = reg.escape) (name : Str) (data : Value) :
    ∃ N, ∀ n, N ≤ n → SameResult (Reg.once n reg name T.src data) (Reg.once n reg' name U.src data) := by
  obtain ⟨N1, h1⟩ := whole_once T hT lib reg hb hl (max (lib.length + 1) (lib'.length + 1)) (Nat.le_max_left ..) name data
  obtain ⟨N2, h2⟩ := whole_once U hU lib' reg' hb' hl' (max (lib.length + 1) (lib'.length + 1)) (Nat.le_max_right ..) name data
  refine ⟨max N1 N2, fun n hn => ?_⟩
  rw [h1 n (by omega), h2 n (by omega), show Scene.start reg' name data = Scene.start reg name data by unfold Scene.start; rw [hs, he]]
  exact like_result (recast_means hC h _ _ (like_depth hC hlib _) (Near.rfl' _) ⟨⟨rfl, rfl, rfl⟩, ⟨rfl, rfl, rfl⟩, .none⟩)

/-- **C85**: in particular, what a template writes it writes after being rewritten, unless the recursion limit of a helper is reached. -/
theorem C85_text (hC : Conditionals) (T U : STm) (hT : T.ok [] = true) (hU : U.ok [] = true) (h : Recast T U)
    (lib lib' : List (Str × STm)) (hlib : ∀ x, Option.Rel Recast (lib.lookup x) (lib'.lookup x)) (reg reg' : Reg) (hb : Equipped reg) (hb' : Equipped reg')
    (hl : Full.Holds reg lib) (hl' : Full.Holds reg' lib') (hs : reg'.strict = reg.strict) (he : reg'.escape = reg.escape) (name : Str) (data : Value) (w : Str)
    (hw : ∃ N, ∀ n, N ≤ n → Reg.once n reg name T.src data = .ok w) :
    ∃ N, ∀ n, N ≤ n → Reg.once n reg' name U.src data = .ok w ∨ ∃ e, Reg.once n reg' name U.src data = .err (.render e) ∧ RenderErr.isLimit e := by
  obtain ⟨N, h⟩ := C85_once hC T U hT hU h lib lib' hlib reg reg' hb hb' hl hl' hs he name data
  obtain ⟨M, hw⟩ := hw
  refine ⟨max N M, fun n hn => ?_⟩
  have h := h n (by omega)
  rw [hw n (by omega)] at h
  rcases h with ⟨e, h | h, hl⟩ | ⟨w', h, h'⟩ | ⟨e, e', h, _⟩ | ⟨h, _⟩
  · cases h
  · exact .inr ⟨e, h, hl⟩
  · injection h with h; exact .inl (h ▸ h')
  · cases h
  · cases h

end

/-! ### Examples -/

attribute [local instance] exHost noCustom

private def t0 : Tilde := ⟨false, false, [], [], []⟩
private def tE : Tilde := ⟨false, false, [], [' '], []⟩
private def v (w : Str) : SExpr := .path ⟨0, .name w, []⟩
private def one (x : SExpr) : SArgs := .only [' '] [] x

/-- `{{#if a}}A{{else if b}}B{{else}}C{{/if}}{{#unless c}}D{{/unless}}`. -/
private def chainTm : STm :=
  .block false t0 c!"if" (one (v c!"a")) (.text c!"A" .nil)
    (.cons tE (some (.word c!"if", one (v c!"b"))) (.text c!"B" .nil) (.cons t0 none (.text c!"C" .nil) .nil)) t0 <|
  .block false t0 c!"unless" (one (v c!"c")) (.text c!"D" .nil) .nil t0 .nil
/-- `{{#if a}}A{{else}}{{#if b}}B{{else}}C{{/if}}{{/if}}{{#if (not c)}}D{{/if}}`. -/
private def nestTm : STm :=
  .block false t0 c!"if" (one (v c!"a")) (.text c!"A" .nil)
    (.cons t0 none (.block false t0 c!"if" (one (v c!"b")) (.text c!"B" .nil) (.cons t0 none (.text c!"C" .nil) .nil) t0 .nil) .nil) t0 <|
  .block false t0 c!"if" (one (.sub (.word c!"not") (one (v c!"c")))) (.text c!"D" .nil) .nil t0 .nil
example : String.ofList chainTm.src = "{{#if a}}A{{else if b}}B{{else}}C{{/if}}{{#unless c}}D{{/unless}}" ∧
    String.ofList nestTm.src = "{{#if a}}A{{else}}{{#if b}}B{{else}}C{{/if}}{{/if}}{{#if (not c)}}D{{/if}}" := by decide +kernel
example : chainTm.ok [] = true ∧ nestTm.ok [] = true := by decide +kernel
example : Conditionals := ⟨rfl, rfl, rfl, rfl⟩
private theorem chain_nest : Recast chainTm nestTm :=
  .block false _ _ rfl rfl rfl rfl (.text _ .nil)
    (.elseIf _ _ _ _ _ rfl rfl rfl rfl (.text _ .nil) (.plain _ rfl rfl (.text _ .nil) (.nil _)))
    (.unlessNot _ _ _ _ _ _ _ rfl rfl rfl rfl (.text _ .nil) (.nil _) .nil)
example (data : Value) : ∃ N, ∀ n, N ≤ n → SameResult (Reg.once n Reg.new c!"t" chainTm.src data) (Reg.once n Reg.new c!"t" nestTm.src data) :=
  C85_once ⟨rfl, rfl, rfl, rfl⟩ _ _ (by decide +kernel) (by decide +kernel) chain_nest [] [] (fun _ => .none) Reg.new Reg.new ⟨fun _ => rfl, rfl, rfl, rfl⟩ ⟨fun _ => rfl, rfl, rfl, rfl⟩
    (fun _ => rfl) (fun _ => rfl) rfl rfl _ _

/-- `{{#if false}}{{else unless false}}A{{/if}}`. -/
private def lostTm : STm :=
  .block false t0 c!"if" (one (.lit (.bool false))) .nil (.cons tE (some (.word c!"unless", one (.lit (.bool false)))) (.text c!"A" .nil) .nil) t0 .nil

/-- **C85**: an `{{else unless ..}}` is never rendered, even when `{{#unless ..}}` would be. -/
theorem C85_elseUnless : lostTm.ok [] = true ∧ lostTm.src = c!"{{#if false}}{{else unless false}}A{{/if}}" ∧
    ∃ N, ∀ n, N ≤ n → Reg.once n Reg.new c!"t" lostTm.src .null = .ok [] := by
  obtain ⟨N, h⟩ := C61_once lostTm (by decide +kernel) [] Reg.new ⟨fun _ => rfl, rfl, rfl, rfl⟩ (fun _ => rfl) c!"t" .null
  exact ⟨by decide +kernel, by decide +kernel, N, fun n hn => (h n hn).trans rfl⟩

/-- `n` times `{{else if false}}`, then `{{else}}A`. -/
private def chainCls : Nat → SCls
  | 0 => .cons t0 none (.text c!"A" .nil) .nil
  | n + 1 => .cons tE (some (.word c!"if", one (.lit (.bool false)))) .nil (chainCls n)
private def longChain : STm := .block false t0 c!"if" (one (.lit (.bool false))) .nil (chainCls 32) t0 .nil
/-- The same with `n` nested blocks. -/
private def nestCls : Nat → SCls
  | 0 => .cons t0 none (.text c!"A" .nil) .nil
  | n + 1 => .cons t0 none (.block false t0 c!"if" (one (.lit (.bool false))) .nil (nestCls n) t0 .nil) .nil
private def deepNest : STm := .block false t0 c!"if" (one (.lit (.bool false))) .nil (nestCls 32) t0 .nil

private theorem chain_nestCls : ∀ n, RecastCls true (chainCls n) (nestCls n)
  | 0 => .plain _ rfl rfl (.text _ .nil) (.nil _)
  | n + 1 => .elseIf _ _ _ _ _ rfl rfl rfl rfl .nil (chain_nestCls n)

private def limitOf : Out Str → Option Str
  | .err (.render e) => match RenderErr.core e with
      | .helperCycle w => some w
      | _ => none
  | _ => none
private theorem limit_of : ∀ {o : Out Str} {w : Str}, limitOf o = some w → ∃ e, o = .err (.render e) ∧ RenderErr.core e = .helperCycle w
  | .err (.render e), w, h => by
      refine ⟨e, rfl, ?_⟩
      unfold limitOf at h
      simp only at h
      split at h
      · rename_i h'; injection h with h; exact h ▸ h'
      · cases h
  | .ok _, _, h | .panic, _, h | .fuel, _, h | .err (.syntax _), _, h => by cases h
private theorem deep_result : limitOf (Full.meaning [] deepNest (Scene.start Reg.new c!"t" .null)).result = some c!"if" := by decide +kernel
private theorem chain_result : (Full.meaning [] longChain (Scene.start Reg.new c!"t" .null)).result = .ok c!"A" := by
  with_unfolding_all rfl

/-- **C85**: the limit is real: a chain of thirty-two `{{else if}}` renders, the same as nested blocks does not. -/
theorem C85_limit : longChain.ok [] = true ∧ deepNest.ok [] = true ∧ Recast longChain deepNest ∧
    ∃ N, ∀ n, N ≤ n → Reg.once n Reg.new c!"t" longChain.src .null = .ok c!"A" ∧
      ∃ e, Reg.once n Reg.new c!"t" deepNest.src .null = .err (.render e) ∧ RenderErr.core e = .helperCycle c!"if" := by
  obtain ⟨N, h⟩ := C61_once longChain (by decide +kernel) [] Reg.new ⟨fun _ => rfl, rfl, rfl, rfl⟩ (fun _ => rfl) c!"t" .null
  obtain ⟨M, h'⟩ := C61_once deepNest (by decide +kernel) [] Reg.new ⟨fun _ => rfl, rfl, rfl, rfl⟩ (fun _ => rfl) c!"t" .null
  exact ⟨by decide +kernel, by decide +kernel, .block false _ _ rfl rfl rfl rfl .nil (chain_nestCls 32) .nil, max N M,
    fun n hn => ⟨(h n (by omega)).trans chain_result, limit_of (by rw [h' n (by omega)]; exact deep_result)⟩⟩

end Bracket.Props
