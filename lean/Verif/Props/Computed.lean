import Verif.Props.Whole

/-! C75: calls whose target is computed, `{{> (q b) a}}` and `{{(q b) a}}`. -/

namespace Bracket.Props
open Bracket Spec Props.Whole
open Bracket.Spec.Full (Mood Outcome wrote failed opens isNil stops Library)

section
variable [Host] [Custom]

theorem stops_tail {X Y : STm} (ho : opens X = opens Y) (hn : isNil X = isNil Y) (T : STm) (c : Bool) : stops (T.append X) c = stops (T.append Y) c := by
  cases T with
  | nil => rw [STm.append, STm.append]; unfold stops; rw [ho, hn]
  | _ => simp only [STm.append, stops, opens, isNil]

/-- What comes before does not matter. -/
theorem tm_tail (L : Library) {X Y : STm} {Γ : Scene} (ho : opens X = opens Y) (hn : isNil X = isNil Y)
    (h : ∀ o c s μ, Full.tm L X Γ o c s μ = Full.tm L Y Γ o c s μ) :
    ∀ (T : STm) (o c s : Bool) (μ : Mood), Full.tm L (T.append X) Γ o c s μ = Full.tm L (T.append Y) Γ o c s μ
  | .nil, o, c, s, μ => by rw [STm.append, STm.append]; exact h o c s μ
  | .text w r, o, c, s, μ | .comment w r, o, c, s, μ | .longComment w r, o, c, s, μ | .escaped w r, o, c, s, μ | .link _ _ _ _ r, o, c, s, μ
  | .stmt _ _ _ _ _ r, o, c, s, μ | .dyn _ _ _ _ _ _ r, o, c, s, μ | .rawBlock _ _ _ _ _ r, o, c, s, μ | .block _ _ _ _ _ _ _ r, o, c, s, μ => by
      simp only [STm.append]
      rw [Full.tm, Full.tm]
      try rw [stops_tail ho hn r]
      exact congrArg _ (funext fun ν => tm_tail L ho hn h r _ _ _ ν)

theorem named_shown (w : Str) : (⟨0, .name w, []⟩ : SPath).shown = w := plain_shown rfl rfl

/-- **C75**: a partial whose name is computed is the partial of that name: if `(q b)` has a value (and writes nothing)
that prints as `w`, then `{{> (q b) a}}`, after anything and before anything, does what `{{> w a}}` does there. -/
theorem C75_named (T r : STm) (tl : Tilde) (q : SPath) (b a : SArgs) (w : Str)
    (hok : (T.append (.dyn false true tl q b a r)).ok [] = true) (hok' : (T.append (.stmt false true tl ⟨0, .name w, []⟩ a r)).ok [] = true)
    (lib : List (Str × STm)) (reg : Reg) (hb : Equipped reg) (hl : Full.Holds reg lib) (name : Str) (data : Value) (v : Option Value)
    (hv : ∀ k, (SExpr.sub q b).eval (Scene.start reg name data) k = said v) (hw : stringify (v.getD .null) = w) :
    ∃ N, ∀ n, N ≤ n → Reg.once n reg name (T.append (.dyn false true tl q b a r)).src data =
      Reg.once n reg name (T.append (.stmt false true tl ⟨0, .name w, []⟩ a r)).src data := by
  obtain ⟨N, h⟩ := C61_once _ hok lib reg hb hl name data
  obtain ⟨M, h'⟩ := C61_once _ hok' lib reg hb hl name data
  refine ⟨max N M, fun n hn => ?_⟩
  rw [h n (by omega), h' n (by omega)]
  unfold Full.meaning
  refine congrArg _ (tm_tail _ (X := (.dyn false true tl q b a r)) (Y := (.stmt false true tl ⟨0, .name w, []⟩ a r)) rfl rfl (fun o c s μ => ?_) T false false false _)
  rw [Full.tm, Full.tm]
  simp only [if_true]
  congr 1
  unfold Full.computedCall Full.partialCall
  rw [hv, named_shown]
  rw [if_neg (by rintro ⟨_, h⟩; cases h), ← hw]
  rfl

/-- **C75**: so, for a member `k` of the data that is the string `w`, `{{> (k) a}}` is `{{> w a}}`. -/
theorem C75_field (T r : STm) (tl : Tilde) (k w : Str) (hk : isHelper k = false) (a : SArgs)
    (hok : (T.append (.dyn false true tl ⟨0, .name k, []⟩ (.done .nil) a r)).ok [] = true) (hok' : (T.append (.stmt false true tl ⟨0, .name w, []⟩ a r)).ok [] = true)
    (lib : List (Str × STm)) (reg : Reg) (hb : Equipped reg) (hl : Full.Holds reg lib) (name : Str) (m : List (Str × Value)) (hm : m.lookup k = some (.str w)) :
    ∃ N, ∀ n, N ≤ n → Reg.once n reg name (T.append (.dyn false true tl ⟨0, .name k, []⟩ (.done .nil) a r)).src (.obj m) =
      Reg.once n reg name (T.append (.stmt false true tl ⟨0, .name w, []⟩ a r)).src (.obj m) := by
  refine C75_named T r tl _ _ a w hok hok' lib reg hb hl name (.obj m) (some (.str w)) (fun c => ?_) rfl
  rw [SExpr.eval]
  have : (⟨0, .name k, []⟩ : SPath).helper = none := by unfold SPath.helper; simp only; rw [hk]; rfl
  rw [this]
  simp only
  have hf : (Scene.start reg name (.obj m)).find ⟨0, .name k, []⟩ = some (.str w) := by
    unfold Scene.find Scene.start
    simp [frames, SPath.names, walk, member, hm]
  rw [hf]

/-- **C75**: the arguments of `{{(q b) a}}` are not looked at: they can be any others. -/
theorem C75_ignored (T r : STm) (raw : Bool) (tl : Tilde) (q : SPath) (b a a' : SArgs)
    (hok : (T.append (.dyn raw false tl q b a r)).ok [] = true) (hok' : (T.append (.dyn raw false tl q b a' r)).ok [] = true)
    (lib : List (Str × STm)) (reg : Reg) (hb : Equipped reg) (hl : Full.Holds reg lib) (name : Str) (data : Value) :
    ∃ N, ∀ n, N ≤ n → Reg.once n reg name (T.append (.dyn raw false tl q b a r)).src data =
      Reg.once n reg name (T.append (.dyn raw false tl q b a' r)).src data := by
  obtain ⟨N, h⟩ := C61_once _ hok lib reg hb hl name data
  obtain ⟨M, h'⟩ := C61_once _ hok' lib reg hb hl name data
  refine ⟨max N M, fun n hn => ?_⟩
  rw [h n (by omega), h' n (by omega)]
  unfold Full.meaning
  refine congrArg _ (tm_tail _ (X := (.dyn raw false tl q b a r)) (Y := (.dyn raw false tl q b a' r)) rfl rfl (fun o c s μ => ?_) T false false false _)
  rw [Full.tm, Full.tm]
  rfl

/-- **C75**: and `{{(q b) a}}` is `{{q b}}`. -/
theorem C75_target (T r : STm) (raw : Bool) (tl : Tilde) (q : SPath) (b a : SArgs)
    (hok : (T.append (.dyn raw false tl q b a r)).ok [] = true) (hok' : (T.append (.stmt raw false tl q b r)).ok [] = true)
    (lib : List (Str × STm)) (reg : Reg) (hb : Equipped reg) (hl : Full.Holds reg lib) (name : Str) (data : Value) :
    ∃ N, ∀ n, N ≤ n → Reg.once n reg name (T.append (.dyn raw false tl q b a r)).src data =
      Reg.once n reg name (T.append (.stmt raw false tl q b r)).src data := by
  obtain ⟨N, h⟩ := C61_once _ hok lib reg hb hl name data
  obtain ⟨M, h'⟩ := C61_once _ hok' lib reg hb hl name data
  refine ⟨max N M, fun n hn => ?_⟩
  rw [h n (by omega), h' n (by omega)]
  unfold Full.meaning
  refine congrArg _ (tm_tail _ (X := (.dyn raw false tl q b a r)) (Y := (.stmt raw false tl q b r)) rfl rfl (fun o c s μ => ?_) T false false false _)
  rw [Full.tm, Full.tm]
  rfl

end

/-! ### Examples -/

attribute [local instance] exHost noCustom

private def t0 : Tilde := ⟨false, false, [], [], []⟩
private def t1 : Tilde := ⟨false, false, [], c!" ", []⟩
private def pickT : STm := .text c!"<" .nil
private def pickR : STm := .text c!">" .nil
private def pickA : SArgs := .done (.pair c!"k" (.lit (.str false [.ch 'z'])) .nil)
private def pickTm : STm := pickT.append (.dyn false true t1 ⟨0, .name c!"kind", []⟩ (.done .nil) pickA pickR)
private def pickData : List (Str × Value) := [(c!"kind", .str c!"frame"), (c!"x", .bool true)]
private def pickLib : List (Str × STm) := [(c!"frame", .stmt false false t0 ⟨0, .name c!"k", []⟩ (.done .nil) .nil)]

example : String.ofList pickTm.src = "<{{> (kind) k=\"z\"}}>" := by decide +kernel
example : pickTm.ok [] = true ∧ (pickT.append (.stmt false true t1 ⟨0, .name c!"frame", []⟩ pickA pickR)).ok [] = true ∧
    isHelper c!"kind" = false := by decide +kernel
example : pickData.lookup c!"kind" = some (.str c!"frame") := rfl
example : (Full.meaning pickLib pickTm (Scene.start Reg.new c!"t" (.obj pickData))).1 = c!"<z>" := by decide +kernel
example : (STm.dyn true false t0 ⟨0, .name c!"kind", []⟩ (.done .nil) pickA pickR).ok [] = true ∧
    String.ofList (STm.dyn true false t0 ⟨0, .name c!"kind", []⟩ (.done .nil) pickA pickR).src = "{{{(kind) k=\"z\"}}}>" ∧
    (Full.meaning pickLib (STm.dyn true false t0 ⟨0, .name c!"kind", []⟩ (.done .nil) pickA pickR) (Scene.start Reg.new c!"t" (.obj pickData))).1 = c!"frame>" := by
  decide +kernel
example : (SExpr.sub ⟨0, .name c!"kind", []⟩ (.done .nil)).eval (Scene.start Reg.new c!"t" (.obj pickData)) = fun _ => said (some (.str c!"frame")) := by
  rfl

end Bracket.Props
