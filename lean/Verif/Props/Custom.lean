import Verif.Lemmas.CustomFrame
import Verif.Props.Whole

/-! C77: the application's own helpers. -/

set_option linter.unusedSectionVars false

namespace Bracket.Props
open Bracket Re Spec Bracket.Props.Unaware

section
variable [H : Host]

/-- The meaning of a template does not depend on a helper it does not mention. -/
theorem unaware_meaning {C C' : Custom} {name : Str} (hC : Custom.Except name C C') {T : STm} (hT : T.unaware name = true) {lib : List (Str × STm)}
    (hl : ∀ x ∈ lib, x.2.unaware name = true) (Γ : Scene) : @Full.meaning H C' lib T Γ = @Full.meaning H C lib T Γ :=
  (unmoved_tm hC (unmoved_depth hC (fun x T hx => hl _ (mem_lookup hx)) _) T hT Γ false false false ⟨false, false, none, .none⟩ nofun).eq

/-- **C77**: registering a helper of the application gives a registry with one more (or one replaced), with the
same templates. -/
theorem C77_insert (C : Custom) (reg : Reg) (hb : @Equipped H C reg) (lib : List (Str × STm)) (hl : Full.Holds reg lib) (name : Str) (f : CustomFn)
    (hd : name.head? ≠ some '.') : @Equipped H (C.with name f hd) (reg.insertHelper name f.prog) ∧ Full.Holds (reg.insertHelper name f.prog) lib := by
  refine ⟨@Equipped.mk _ (C.with name f hd) _ (fun w => ?_) hb.2 hb.3 hb.4, hl⟩
  show assoc w (assocInsert name f.prog reg.helpers) = _
  unfold helperFn
  show _ = match (if w = name then some f else C.fn w) with
    | some f => some f.prog
    | none => assoc w builtins
  by_cases hw : w = name
  · subst hw
    rw [assoc_insert_self, if_pos rfl]
  · rw [assoc_insert_ne _ _ hw, if_neg hw, hb.1 w]
    rfl

/-- **C77**: after that, `{{name a}}` writes what the arguments write, what the helper writes (escaped when it says so)
and the value the helper computes from the values of the arguments, escaped; if the helper returns an error, that is
the error of the rendering.  (The arguments may call helpers,
this one included.) -/
theorem C77_call (C : Custom) (reg : Reg) (hb : @Equipped H C reg) (lib : List (Str × STm)) (hl : Full.Holds reg lib) (name : Str) (f : CustomFn)
    (hd : name.head? ≠ some '.') (file : Str) (raw : Bool) (tl : Tilde) (a : SArgs)
    (hok : (STm.stmt raw false tl ⟨0, .name name, []⟩ a .nil).ok [] = true) (data : Value) (vs : List Value) (hs : List (Str × Value))
    (u : Str)
    (ha : @SArgs.eval H (C.with name f hd) a ((Scene.start reg file data).enter (.helper name)) .none = (u, .ok (vs, hs))) :
    ∃ N, ∀ n, N ≤ n → Reg.once n (reg.insertHelper name f.prog) file (STm.stmt raw false tl ⟨0, .name name, []⟩ a .nil).src data =
      let said := u ++ (f.value vs (hs.lookup ·)).1.flatMap fun x => if x.text = [] then [] else if x.escaped then reg.escape x.text else x.text
      match (f.value vs (hs.lookup ·)).2 with
      | .error e => .err (.render (.helper e))
      | .ok none => .ok said
      | .ok (some v) => .ok (said ++ if stringify v = [] then [] else if raw then stringify v else reg.escape (stringify v)) := by
  obtain ⟨hb', hl'⟩ := C77_insert C reg hb lib hl name f hd
  obtain ⟨N, h⟩ := @C61_once H (C.with name f hd) _ hok lib _ hb' hl' file data
  refine ⟨N, fun n hn => ?_⟩
  rw [h n hn]
  have hfn : @Custom.fn (C.with name f hd) name = some f := if_pos rfl
  have hp : @SPath.helper (C.with name f hd) ⟨0, .name name, []⟩ = some name := by
    unfold SPath.helper isHelper
    simp only
    rw [hfn]
    rfl
  have hfull : (Scene.start reg file data).full (.helper name) = false := rfl
  have hev : @SExpr.eval H (C.with name f hd) (.sub ⟨0, .name name, []⟩ a) (Scene.start reg file data) .none =
      (u ++ (f.said (Scene.start reg file data) .none vs hs).1, (f.said (Scene.start reg file data) .none vs hs).2) := by
    unfold SExpr.eval
    rw [hp]
    simp only
    rw [hfull, ha]
    unfold helperValue
    rw [hfn]
    rfl
  have hst : Scene.start (reg.insertHelper name f.prog) file data = Scene.start reg file data := rfl
  have hnil : ∀ (L : Full.Library) (Γ : Scene) (o c s : Bool), @Full.tm H (C.with name f hd) L .nil Γ o c s = Full.wrote [] := by
    intro L Γ o c s; funext μ; unfold Full.tm; rfl
  unfold Full.meaning
  unfold Full.tm
  have hk : (⟨false || (⟨false, false, none, .none⟩ : Full.Mood).close, Full.stops .nil false⟩ : Cut) = .none := rfl
  rw [hst, hk, hev, hnil]
  have hpr : ∀ l, (Scene.start reg file data).printAll .none l = l.flatMap fun x => if x.text = [] then [] else if x.escaped then reg.escape x.text else x.text :=
    fun l => rfl
  unfold CustomFn.said
  rw [hpr]
  simp only
  generalize (f.value vs (fun k => hs.lookup k)).1.flatMap _ = z
  cases (f.value vs (fun k => hs.lookup k)).2 with
  | error e => rfl
  | ok v =>
      cases v with
      | none =>
          simp [Full.prints, Full.wrote, Full.Outcome.after, Full.Outcome.andThen, Full.Outcome.result]
      | some v =>
          cases raw <;> simp [Full.prints, Scene.print, Full.cut, Full.Mood.next, Cut.none, Full.wrote, Full.Outcome.after, Full.Outcome.andThen, Full.Outcome.result, Scene.start]

/-- **C77**: a template that does not mention the name, and whose partials do not, renders as before. -/
theorem C77_others (C : Custom) (reg : Reg) (hb : @Equipped H C reg) (lib : List (Str × STm)) (hl : Full.Holds reg lib) (name : Str) (f : CustomFn)
    (hd : name.head? ≠ some '.') (T : STm) (hok : T.ok [] = true) (hT : T.unaware name = true) (hlib : ∀ x ∈ lib, x.2.unaware name = true)
    (file : Str) (data : Value) :
    ∃ N, ∀ n, N ≤ n → Reg.once n (reg.insertHelper name f.prog) file T.src data = Reg.once n reg file T.src data := by
  obtain ⟨hb', hl'⟩ := C77_insert C reg hb lib hl name f hd
  obtain ⟨N, h⟩ := @C61_once H (C.with name f hd) T hok lib _ hb' hl' file data
  obtain ⟨M, h'⟩ := @C61_once H C T hok lib _ hb hl file data
  refine ⟨max N M, fun n hn => ?_⟩
  rw [h n (by omega), h' n (by omega)]
  have hC : Custom.Except name C (C.with name f hd) := ⟨fun w hw => if_neg hw, rfl, rfl, rfl⟩
  rw [show Scene.start (reg.insertHelper name f.prog) file data = Scene.start reg file data from rfl, unaware_meaning hC hT hlib]

/-- **C77**: removing it again gives a registry with the helpers there were before, unless it had replaced one. -/
theorem C77_remove (C : Custom) (reg : Reg) (hb : @Equipped H C reg) (lib : List (Str × STm)) (hl : Full.Holds reg lib) (name : Str) (f : CustomFn)
    (hn : @isHelper C name = false) :
    @Equipped H C ((reg.insertHelper name f.prog).removeHelper name) ∧ Full.Holds ((reg.insertHelper name f.prog).removeHelper name) lib := by
  refine ⟨@Equipped.mk _ C _ (fun w => ?_) hb.2 hb.3 hb.4, hl⟩
  show assoc w (assocErase name (assocInsert name f.prog reg.helpers)) = _
  by_cases hw : w = name
  · subst hw
    rw [assoc_erase_self, @helperFn_none H C _ hn]
  · rw [assoc_erase_ne _ hw, assoc_insert_ne _ _ hw, hb.1 w]

/-- **C77**: so every template renders as it did before. -/
theorem C77_restored (C : Custom) (reg : Reg) (hb : @Equipped H C reg) (lib : List (Str × STm)) (hl : Full.Holds reg lib) (name : Str) (f : CustomFn)
    (hn : @isHelper C name = false) (T : STm) (hok : T.ok [] = true) (file : Str) (data : Value) :
    ∃ N, ∀ n, N ≤ n → Reg.once n ((reg.insertHelper name f.prog).removeHelper name) file T.src data = Reg.once n reg file T.src data := by
  obtain ⟨hb', hl'⟩ := C77_remove C reg hb lib hl name f hn
  obtain ⟨N, h⟩ := @C61_once H C T hok lib _ hb' hl' file data
  obtain ⟨M, h'⟩ := @C61_once H C T hok lib _ hb hl file data
  exact ⟨max N M, fun n hn => by rw [h n (by omega), h' n (by omega)]; rfl⟩

end

/-! ### Examples -/

attribute [local instance] exHost

/-- `{{shout x}}` writes `>` and yields a string; `{{#shout n}}` renders its content twice (the second time, after an
escaped `&`, with `this` = "again"), or the
`else` clauses if there is no argument. -/
def shoutFn : CustomFn where
  value vs hash := match vs with
    | [.str w] => ([⟨false, c!">"⟩], .ok (some (.str (w ++ match hash c!"end" with | some (.str e) => e | _ => c!"!"))))
    | _ => ([], .error (.arityExact c!"shout" 1))
  block _ vs _ := match vs with
    | [] => .otherwise
    | _ => .contents [.content none, .print ⟨true, c!"&"⟩, .content (some ⟨some (.str c!"again"), []⟩)] none

def shoutCustom : Custom := noCustom.with c!"shout" shoutFn (by decide)

private def t0 : Tilde := ⟨false, false, [], [], []⟩
private def shoutArgs : SArgs := .arg (.path ⟨0, .name c!"x", []⟩) (.done (.pair c!"end" (.lit (.str false [.ch '?'])) .nil))
private def shoutTm : STm := .stmt false false t0 ⟨0, .name c!"shout", []⟩ shoutArgs .nil
private def shoutBlock : STm :=
  .block false t0 c!"shout" (.arg (.path ⟨0, .name c!"x", []⟩) (.done .nil)) (.text c!"[" <| .stmt true false t0 ⟨0, .this, []⟩ (.done .nil) <| .text c!"]" .nil) .nil t0 <|
  .block false t0 c!"shout" (.done .nil) (.text c!"no" .nil) (.cons t0 none (.text c!"else" .nil) .nil) t0 .nil
private def shoutData : Value := .obj [(c!"x", .str c!"<a>")]

example : String.ofList shoutTm.src = "{{shout x end=\"?\"}}" ∧ shoutTm.ok [] = true := by decide +kernel
example : String.ofList shoutBlock.src = "{{#shout x}}[{{{this}}}]{{/shout}}{{#shout}}no{{else}}else{{/shout}}" ∧ shoutBlock.ok [] = true := by decide +kernel
example : @Equipped _ noCustom Reg.new := @Equipped.mk _ noCustom _ (fun _ => rfl) rfl rfl rfl
example : @SArgs.eval _ shoutCustom shoutArgs ((Scene.start Reg.new c!"t" shoutData).enter (.helper c!"shout")) .none =
    said ([.str c!"<a>"], [(c!"end", .str c!"?")]) := rfl
example : (@Full.meaning _ shoutCustom [] shoutTm (Scene.start Reg.new c!"t" shoutData)).1 = c!">&lt;a&gt;?" := by decide +kernel
example : (@Full.meaning _ shoutCustom [] shoutBlock (Scene.start Reg.new c!"t" (.str c!"d"))).1 = c!"[d]&amp;[again]else" := by decide +kernel
example : ((coreTm.unaware c!"shout") && !(shoutTm.unaware c!"shout") && !(shoutBlock.unaware c!"shout")) = true ∧ @isHelper noCustom c!"shout" = false := by decide +kernel
example : (match Reg.once 40 (Reg.new.insertHelper c!"shout" shoutFn.prog) c!"t" shoutBlock.src (.str c!"d") with
    | .ok w => w
    | _ => []) = c!"[d]&amp;[again]else" := by decide +kernel

end Bracket.Props
