import Verif.Lemmas.Handlers
import Verif.Props.Whole

/-! C80: the handlers of the application act where they apply, and nowhere else. -/

set_option linter.unusedSectionVars false

namespace Bracket.Props
open Bracket Re Spec Bracket.Props.Handlers

mutual
theorem tm_unhandled [Custom] : ∀ T : STm, T.unhandled false false = true
  | .nil => rfl
  | .text _ r | .comment _ r | .longComment _ r | .escaped _ r | .link _ _ _ _ r | .stmt _ _ _ _ _ r | .dyn _ _ _ _ _ _ r | .rawBlock _ _ _ _ _ r => by
      unfold STm.unhandled; simp [tm_unhandled r]
  | .block _ _ _ _ body cs _ r => by
      unfold STm.unhandled; simp [tm_unhandled body, cls_unhandled cs, tm_unhandled r]
theorem cls_unhandled [Custom] : ∀ T : SCls, T.unhandled false false = true
  | .nil => rfl
  | .cons _ _ body r => by unfold SCls.unhandled; simp [tm_unhandled body, cls_unhandled r]
end

section
variable [H : Host]

/-- The meaning of a template does not depend on the handlers it does not need. -/
theorem handler_meaning {C C' : Custom} {l b : Bool} (hC : Custom.SameBut l false b C C') {T : STm} (hT : @STm.unhandled C l b T = true)
    {lib : List (Str × STm)} (hl : ∀ x ∈ lib, @STm.unhandled C l b x.2 = true) (Γ : Scene) : @Full.meaning H C' lib T Γ = @Full.meaning H C lib T Γ :=
  (kept_tm hC (kept_depth hC (fun x T hx => hl _ (mem_lookup hx)) _) T hT (Γ := Γ) ⟨nofun, nofun⟩ false false false ⟨false, false, none, .none⟩ nofun).same.resolve_right
    fun h => by cases h.1

/-- **C80**: setting (or removing) the handler for links does not matter to a template without links (nor to
escaped ones). -/
theorem C80_link (C : Custom) (reg : Reg) (hb : @Equipped H C reg) (lib : List (Str × STm)) (hl : Full.Holds reg lib) (f : Option CustomFn)
    (T : STm) (hok : T.ok [] = true) (hT : @STm.linkless C T = true) (hlib : ∀ x ∈ lib, @STm.linkless C x.2 = true) (file : Str) (data : Value) :
    ∃ N, ∀ n, N ≤ n → Reg.once n { reg with link := f.map CustomFn.prog } file T.src data = Reg.once n reg file T.src data := by
  have hb' : @Equipped H { C with link := f } { reg with link := f.map CustomFn.prog } := @Equipped.mk _ { C with link := f } _ hb.1 rfl hb.3 hb.4
  obtain ⟨N, h⟩ := @C61_once H { C with link := f } T hok lib _ hb' hl file data
  obtain ⟨M, h'⟩ := @C61_once H C T hok lib _ hb hl file data
  refine ⟨max N M, fun n hn => ?_⟩
  rw [h n (by omega), h' n (by omega)]
  have hC : Custom.SameBut true false false C { C with link := f } := ⟨rfl, .inl rfl, .inr rfl, .inr rfl⟩
  rw [show Scene.start { reg with link := f.map CustomFn.prog } file data = Scene.start reg file data from rfl, handler_meaning hC hT hlib]

/-- **C80**: setting (or removing) the handler for blocks does not matter to a template whose blocks all call helpers. -/
theorem C80_block (C : Custom) (reg : Reg) (hb : @Equipped H C reg) (lib : List (Str × STm)) (hl : Full.Holds reg lib) (f : Option (Str → Value → CustomFn))
    (T : STm) (hok : T.ok [] = true) (hT : @STm.helperBlocks C T = true) (hlib : ∀ x ∈ lib, @STm.helperBlocks C x.2 = true) (file : Str) (data : Value) :
    ∃ N, ∀ n, N ≤ n → Reg.once n { reg with blockHelperMissing := f.map blockMissingProg } file T.src data = Reg.once n reg file T.src data := by
  have hb' : @Equipped H { C with blockMissing := f } { reg with blockHelperMissing := f.map blockMissingProg } :=
    @Equipped.mk _ { C with blockMissing := f } _ hb.1 hb.2 hb.3 rfl
  obtain ⟨N, h⟩ := @C61_once H { C with blockMissing := f } T hok lib _ hb' hl file data
  obtain ⟨M, h'⟩ := @C61_once H C T hok lib _ hb hl file data
  refine ⟨max N M, fun n hn => ?_⟩
  rw [h n (by omega), h' n (by omega)]
  have hC : Custom.SameBut false false true C { C with blockMissing := f } := ⟨rfl, .inr rfl, .inr rfl, .inl rfl⟩
  rw [show Scene.start { reg with blockHelperMissing := f.map blockMissingProg } file data = Scene.start reg file data from rfl, handler_meaning hC hT hlib]

/-- **C80**: a handler for unknown names changes nothing where, without it, rendering in strict mode succeeds. -/
theorem C80_missing (C : Custom) (reg : Reg) (hb : @Equipped H C reg) (hs : reg.strict = true) (hm : reg.helperMissing = none)
    (lib : List (Str × STm)) (hl : Full.Holds reg lib) (f : Option (Str → CustomFn))
    (T : STm) (hok : T.ok [] = true) (file : Str) (data : Value) :
    ∃ N, ∀ n, N ≤ n → ∀ w, Reg.once n reg file T.src data = .ok w →
      Reg.once n { reg with helperMissing := f.map missingProg } file T.src data = .ok w := by
  have hn : C.missing = none := by
    have := hb.3
    rw [hm] at this
    cases hc : C.missing with
    | none => rfl
    | some g => rw [show @Custom.missing C = some g from hc] at this; cases this
  have hb' : @Equipped H { C with missing := f } { reg with helperMissing := f.map missingProg } := @Equipped.mk _ { C with missing := f } _ hb.1 hb.2 rfl hb.4
  obtain ⟨N, h⟩ := @C61_once H { C with missing := f } T hok lib _ hb' hl file data
  obtain ⟨M, h'⟩ := @C61_once H C T hok lib _ hb hl file data
  refine ⟨max N M, fun n hn' w hw => ?_⟩
  rw [h n (by omega)]
  rw [h' n (by omega)] at hw
  have hC : Custom.SameBut false true false C { C with missing := f } := ⟨rfl, .inr rfl, .inl rfl, .inr rfl⟩
  have hk := kept_tm hC (kept_depth hC (get := (lib.lookup ·)) (fun x T hx => @tm_unhandled C T) (lib.length + 1)) T (@tm_unhandled C T) (Γ := Scene.start reg file data)
    ⟨fun _ => hs, fun _ => hn⟩ false false false ⟨false, false, none, .none⟩ nofun
  rcases hk.same with h | ⟨_, e, he⟩
  · rw [← hw]
    exact congrArg Full.Outcome.result h
  · exfalso
    revert hw he
    show Full.Outcome.result (@Full.meaning H C lib T (Scene.start reg file data)) = _ → (@Full.meaning H C lib T (Scene.start reg file data)).2 = _ → False
    obtain ⟨w', r⟩ := @Full.meaning H C lib T (Scene.start reg file data)
    intro hw he
    simp only at he
    subst he
    cases e <;> cases hw

/-- The texts written, by this escape function. -/
def textsOf (esc : Str → Str) (l : List Print) : Str := l.flatMap fun x => if x.text = [] then [] else if x.escaped then esc x.text else x.text

/-- **C80**: with a handler for unknown names, `{{name a}}`, where `name` is neither a helper nor in the data, calls the
handler for `name` with the values of the arguments (the text they write, `u`, comes first). -/
theorem C80_unknown (C : Custom) (reg : Reg) (hb : @Equipped H C reg) (lib : List (Str × STm)) (hl : Full.Holds reg lib) (f : Str → CustomFn)
    (name : Str) (hn : @isHelper C name = false) (file : Str) (raw : Bool) (tl : Tilde) (a : SArgs)
    (hok : (STm.stmt raw false tl ⟨0, .name name, []⟩ a .nil).ok [] = true) (data : Value) (hd : member data name = none) (vs : List Value)
    (hs : List (Str × Value)) (u : Str)
    (ha : @SArgs.eval H { C with missing := some f } a ((Scene.start reg file data).enter (.helper c!"helperMissing")) .none = (u, .ok (vs, hs))) :
    ∃ N, ∀ n, N ≤ n → Reg.once n { reg with helperMissing := some (missingProg f) } file (STm.stmt raw false tl ⟨0, .name name, []⟩ a .nil).src data =
      let said := u ++ textsOf reg.escape ((f name).value vs (hs.lookup ·)).1
      match ((f name).value vs (hs.lookup ·)).2 with
      | .error e => .err (.render (.helper e))
      | .ok none => .ok said
      | .ok (some v) => .ok (said ++ if stringify v = [] then [] else if raw then stringify v else reg.escape (stringify v)) := by
  have hb' : @Equipped H { C with missing := some f } { reg with helperMissing := some (missingProg f) } := @Equipped.mk _ { C with missing := some f } _ hb.1 hb.2 rfl hb.4
  obtain ⟨N, h⟩ := @C61_once H { C with missing := some f } _ hok lib _ hb' hl file data
  refine ⟨N, fun n hn' => ?_⟩
  rw [h n hn']
  have hp : @SPath.helper { C with missing := some f } ⟨0, .name name, []⟩ = none := by
    unfold SPath.helper
    simp only
    rw [show @isHelper { C with missing := some f } name = @isHelper C name from rfl, hn]
    rfl
  have hfind : (Scene.start reg file data).find ⟨0, .name name, []⟩ = none := by
    show ([[data]] : List (List Value)).flatten.findSome? (walk · [name]) = none
    simp [walk, hd]
  have hfull : (Scene.start reg file data).full (.helper missingName) = false := rfl
  have hsh : (⟨0, .name name, []⟩ : SPath).shown = name := by simp [SPath.shown, Head.text, dots, followingShown, dottedShown]
  have hev : @SExpr.eval H { C with missing := some f } (.sub ⟨0, .name name, []⟩ a) (Scene.start reg file data) .none =
      (u ++ ((f name).said (Scene.start reg file data) .none vs hs).1, ((f name).said (Scene.start reg file data) .none vs hs).2) := by
    unfold SExpr.eval
    rw [hp]
    simp only
    rw [hfind, show @SPath.handler { C with missing := some f } ⟨0, .name name, []⟩ = some (f name) from by
      unfold SPath.handler; rw [hsh]; rfl]
    simp only
    rw [hfull, show missingName = c!"helperMissing" from rfl, ha]
    rfl
  have hst : Scene.start { reg with helperMissing := some (missingProg f) } file data = Scene.start reg file data := rfl
  have hnil : ∀ (L : Full.Library) (Γ : Scene) (o c s : Bool), @Full.tm H { C with missing := some f } L .nil Γ o c s = Full.wrote [] := by
    intro L Γ o c s; funext μ; unfold Full.tm; rfl
  unfold Full.meaning
  unfold Full.tm
  have hk : (⟨false || (⟨false, false, none, .none⟩ : Full.Mood).close, Full.stops .nil false⟩ : Cut) = .none := rfl
  rw [hst, hk, hev, hnil]
  have hpr : ∀ l, (Scene.start reg file data).printAll .none l = textsOf reg.escape l := fun l => rfl
  unfold CustomFn.said
  rw [hpr]
  simp only
  generalize textsOf _ _ = z
  cases ((f name).value vs (fun k => hs.lookup k)).2 with
  | error e => rfl
  | ok v =>
      cases v with
      | none =>
          simp [Full.prints, Full.wrote, Full.Outcome.after, Full.Outcome.andThen, Full.Outcome.result]
      | some v =>
          cases raw <;> simp [Full.prints, Scene.print, Full.cut, Full.Mood.next, Cut.none, Full.wrote, Full.Outcome.after, Full.Outcome.andThen, Full.Outcome.result, Scene.start]

/-- **C80**: with a handler for links, `[[h|l|t]]` writes what the handler does for the three texts (its value is not
used), or ends with its error. -/
theorem C80_linked (C : Custom) (reg : Reg) (hb : @Equipped H C reg) (lib : List (Str × STm)) (hl : Full.Holds reg lib) (f : CustomFn)
    (h : Str) (l t : Option Str) (hok : (STm.link false h l t .nil).ok [] = true) (file : Str) (data : Value) :
    ∃ N, ∀ n, N ≤ n → Reg.once n { reg with link := some f.prog } file (STm.link false h l t .nil).src data =
      let r := f.value [.str (fieldValue h), .str (fieldValue (l.getD [])), .str (fieldValue (t.getD []))] (fun _ => none)
      match r.2 with
      | .error e => .err (.render (.helper e))
      | .ok _ => .ok (textsOf reg.escape r.1) := by
  have hb' : @Equipped H { C with link := some f } { reg with link := some f.prog } := @Equipped.mk _ { C with link := some f } _ hb.1 rfl hb.3 hb.4
  obtain ⟨N, hN⟩ := @C61_once H { C with link := some f } _ hok lib _ hb' hl file data
  refine ⟨N, fun n hn' => ?_⟩
  rw [hN n hn']
  have hnil : ∀ (L : Full.Library) (Γ : Scene) (o c s : Bool), @Full.tm H { C with link := some f } L .nil Γ o c s = Full.wrote [] := by
    intro L Γ o c s; funext μ; unfold Full.tm; rfl
  have hfull : (Scene.start reg file data).full (.helper linkName) = false := rfl
  have hpr : ∀ l, (Scene.start reg file data).printAll .none l = textsOf reg.escape l := fun l => rfl
  unfold Full.meaning
  unfold Full.tm
  rw [show Scene.start { reg with link := some f.prog } file data = Scene.start reg file data from rfl, hnil]
  unfold Full.link
  rw [show (if false = true then none else @Custom.link { C with link := some f }) = some f from rfl]
  simp only
  rw [hfull]
  simp only [Bool.false_eq_true, if_false]
  rw [show (Full.Mood.next ⟨false, false, none, .none⟩ false ⟨false || false, Full.stops .nil false⟩).trim = Cut.none from rfl]
  unfold CustomFn.said
  rw [hpr]
  show Full.Outcome.result _ = _
  unfold linkValues
  simp only [List.lookup_nil]
  generalize f.value _ _ = r
  obtain ⟨ps, r⟩ := r
  cases r with
  | error e => rfl
  | ok v => simp [Full.wrote, Full.Outcome.after, Full.Outcome.andThen, Full.Outcome.result]

/-- **C80**: with a handler for blocks, `{{#name a}}…{{/name}}`, where `name` is not a helper but is in the data, calls the
handler with the name and the value.  Here it only writes. -/
theorem C80_blocked (C : Custom) (reg : Reg) (hb : @Equipped H C reg) (lib : List (Str × STm)) (hl : Full.Holds reg lib) (f : Str → Value → CustomFn)
    (name : Str) (hn : @isHelper C name = false) (file : Str) (tl cl : Tilde) (a : SArgs) (body : STm) (cs : SCls)
    (hok : (STm.block false tl name a body cs cl .nil).ok [] = true) (data v : Value) (hd : member data name = some v) (vs : List Value)
    (hs : List (Str × Value)) (u : Str)
    (ha : @SArgs.eval H { C with blockMissing := some f } a ((Scene.start reg file data).enter (.block c!"blockHelperMissing")) .none = (u, .ok (vs, hs)))
    (l : List Print) (e : Option HelperErr) (hf : (f name v).block none vs (hs.lookup ·) = .contents (l.map .print) e) :
    ∃ N, ∀ n, N ≤ n → Reg.once n { reg with blockHelperMissing := some (blockMissingProg f) } file (STm.block false tl name a body cs cl .nil).src data =
      match e with
      | some e => .err (.render (.helper e))
      | none => .ok (u ++ textsOf reg.escape l) := by
  have hb' : @Equipped H { C with blockMissing := some f } { reg with blockHelperMissing := some (blockMissingProg f) } :=
    @Equipped.mk _ { C with blockMissing := some f } _ hb.1 hb.2 hb.3 rfl
  obtain ⟨N, hN⟩ := @C61_once H { C with blockMissing := some f } _ hok lib _ hb' hl file data
  refine ⟨N, fun n hn' => ?_⟩
  rw [hN n hn']
  have hnil : ∀ (L : Full.Library) (Γ : Scene) (o c s : Bool), @Full.tm H { C with blockMissing := some f } L .nil Γ o c s = Full.wrote [] := by
    intro L Γ o c s; funext μ; unfold Full.tm; rfl
  have hfind : (Scene.start reg file data).find ⟨0, .name name, []⟩ = some v := by
    show ([[data]] : List (List Value)).flatten.findSome? (walk · [name]) = some v
    simp [walk, hd]
  have hfull : (Scene.start reg file data).full (.block blockMissingName) = false := rfl
  have hpr : ∀ (D : Scene → Full.Mood → Full.Outcome) (l : List Print) (μ : Full.Mood), μ.trim = .none →
      Full.contents D ((Scene.start reg file data).enter (.block blockMissingName)) e (l.map .print) μ =
        (textsOf reg.escape l, match e with | none => .ok μ | some e => .error (.err (.helper e))) := by
    intro D l
    induction l with
    | nil => intro μ _; cases e <;> rfl
    | cons x l ih =>
        intro μ hμ
        show (Full.wrote _ μ).andThen _ = _
        unfold Full.Outcome.andThen Full.wrote
        simp only
        rw [ih μ hμ, hμ]
        rfl
  unfold Full.meaning
  unfold Full.tm
  rw [show Scene.start { reg with blockHelperMissing := some (blockMissingProg f) } file data = Scene.start reg file data from rfl, hnil]
  unfold Full.block
  rw [show @isHelper { C with blockMissing := some f } name = @isHelper C name from rfl, hn, hfind]
  simp only [Bool.false_eq_true, if_false]
  unfold Full.handled
  rw [hfull]
  rw [show (Full.Mood.next ⟨false, false, none, .none⟩ tl.after ⟨false || false, Full.stops .nil false⟩).trim = Cut.none from rfl,
    show blockMissingName = c!"blockHelperMissing" from rfl, ha]
  simp only [Bool.false_eq_true, if_false, Full.Outcome.after]
  have hcb : ∀ (D A : Scene → Full.Mood → Full.Outcome) (Γ : Scene) (μ : Full.Mood), Full.customBlock (f name v) none vs hs D A Γ μ = Full.contents D Γ e (l.map .print) μ := by
    intro D A Γ μ
    unfold Full.customBlock
    rw [hf]
  rw [hcb, show c!"blockHelperMissing" = blockMissingName from rfl, hpr _ l _ rfl]
  cases e <;> simp [Full.wrote, Full.Outcome.andThen, Full.Outcome.result]

end

/-! ### Examples -/

attribute [local instance] exHost

/-- Writes its arguments between `<` and `>`. -/
def showFn (w : Str) : CustomFn where
  value vs _ := ([⟨true, c!"<"⟩, ⟨false, vs.flatMap stringify⟩], .ok (some (.str w)))
  block _ vs _ := .contents [.print ⟨false, w⟩, .print ⟨true, vs.flatMap stringify⟩] none

private def t0 : Tilde := ⟨false, false, [], [], []⟩
private def nArgs : SArgs := .arg (.path ⟨0, .name c!"x", []⟩) (.done .nil)
private def nTm : STm := .stmt false false t0 ⟨0, .name c!"what", []⟩ nArgs .nil
private def lTm : STm := .link false c!"a" (some c!"b") none .nil
private def bTm : STm := .block false t0 c!"x" (.arg (.lit (.str false [.ch '&'])) (.done .nil)) (.text c!"content" .nil) .nil t0 .nil
private def hData : Value := .obj [(c!"x", .str c!"&y")]
private def out (reg : Reg) (T : STm) : String := match Reg.once 40 reg c!"t" T.src hData with
  | .ok w => String.ofList w
  | _ => "failed"

example : String.ofList nTm.src = "{{what x}}" ∧ nTm.ok [] = true ∧ @isHelper noCustom c!"what" = false ∧ (member hData c!"what").isNone = true := by decide +kernel
example : String.ofList lTm.src = "[[a|b]]" ∧ lTm.ok [] = true := by decide +kernel
example : String.ofList bTm.src = "{{#x \"&\"}}content{{/x}}" ∧ bTm.ok [] = true ∧ (member hData c!"x").isSome = true := by decide +kernel
example : @SArgs.eval _ { noCustom with missing := some showFn } nArgs ((Scene.start Reg.new c!"t" hData).enter (.helper c!"helperMissing")) .none = ([], .ok ([.str c!"&y"], [])) := rfl
example : out { Reg.new with helperMissing := some (missingProg showFn) } nTm = "&lt;&ywhat" ∧ out Reg.new nTm = "" := by decide +kernel
example : out { Reg.new with link := some (showFn c!"l").prog } lTm = "&lt;ab" ∧ out Reg.new lTm = "[[a|b]]" := by decide +kernel
example : out { Reg.new with blockHelperMissing := some (blockMissingProg fun w _ => showFn w) } bTm = "x&amp;" ∧ out Reg.new bTm = "content" := by decide +kernel
example : @STm.linkless noCustom coreTm = true ∧ @STm.linkless noCustom lTm = false ∧ @STm.helperBlocks noCustom bTm = false := by decide +kernel
example : @STm.helperBlocks noCustom wholeTm = true ∧ (∀ x ∈ wholeLib, @STm.helperBlocks noCustom x.2 = true) := by decide +kernel

/-- A non-trivial case of the conditions of C54 and C62 on the helpers and handlers of the application. -/
def politeFn : CustomFn where
  value vs _ := ([⟨true, vs.flatMap stringify⟩], .ok none)
  block _ vs _ := .contents [.print ⟨true, vs.flatMap stringify⟩, .content none] none
def politeCustom : Custom := { noCustom.with c!"polite" politeFn (by decide) with link := some politeFn, missing := some fun _ => politeFn, blockMissing := some fun _ _ => politeFn }

theorem polite_careful : politeFn.careful where
  value vs hs x hx := by
    simp only [politeFn, List.mem_singleton] at hx
    rw [hx]
  block t vs hs l e h x hx := by
    simp only [politeFn] at h
    injection h with h
    subst h
    simp only [List.mem_cons, List.not_mem_nil, or_false, Act.print.injEq, reduceCtorEq] at hx
    rw [hx]

theorem polite_fn {w : Str} {f : CustomFn} (h : (if w = c!"polite" then some politeFn else none) = some f) : f = politeFn := by
  split at h
  · injection h with h; exact h.symm
  · cases h

example : @Careful politeCustom := @Careful.mk politeCustom (fun _ f h => polite_fn (f := f) h ▸ polite_careful)
  (fun f h => by injection h with h; exact h ▸ polite_careful)
  (fun f w h => by injection h with h; exact h ▸ polite_careful)
  (fun f w v h => by injection h with h; exact h ▸ polite_careful)
example : @Full.TextBlind politeCustom := fun _ f h u w vs hs => by rw [polite_fn (f := f) h]; rfl

end Bracket.Props
