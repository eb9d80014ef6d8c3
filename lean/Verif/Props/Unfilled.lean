import Verif.Lemmas.Unfilled
import Verif.Props.Whole

/-! C91: a content that is not asked for does not matter. -/

set_option linter.unusedSectionVars false

namespace Bracket.Props
open Bracket Spec
open Bracket.Spec.Full hiding block blockHelper contents rounds builtinBlock depth

mutual
theorem unfilled_twice : ∀ T : STm, T.unfilled.unfilled = T.unfilled
  | .nil => rfl
  | .text _ r | .comment _ r | .longComment _ r | .escaped _ r | .link _ _ _ _ r | .stmt _ _ _ _ _ r | .dyn _ _ _ _ _ _ r | .rawBlock _ _ _ _ _ r => by
      rw [STm.unfilled, STm.unfilled, unfilled_twice r]
  | .block true _ _ _ body cs _ r => by rw [STm.unfilled, STm.unfilled, unfilled_twice r]
  | .block false _ _ _ body cs _ r => by rw [STm.unfilled, STm.unfilled, unfilled_twice r, unfilled_twice body, cls_unfilled_twice cs]
theorem cls_unfilled_twice : ∀ T : SCls, T.unfilled.unfilled = T.unfilled
  | .nil => rfl
  | .cons _ _ body r => by rw [SCls.unfilled, SCls.unfilled, unfilled_twice body, cls_unfilled_twice r]
end

theorem unfilled_append (U : STm) : ∀ T : STm, (T.append U).unfilled = T.unfilled.append U.unfilled
  | .nil => rfl
  | .text _ r | .comment _ r | .longComment _ r | .escaped _ r | .link _ _ _ _ r | .stmt _ _ _ _ _ r | .dyn _ _ _ _ _ _ r | .rawBlock _ _ _ _ _ r
  | .block true _ _ _ _ _ _ r | .block false _ _ _ _ _ _ r => by
      rw [STm.append, STm.unfilled, STm.unfilled, STm.append, unfilled_append U r]

mutual
theorem unfilled_calm {names : List Str} : ∀ T : STm, T.unfilled.tildeless = true → T.unfilled.includes names = true → T.unfilled.calm names = true
  | .nil, _, _ => by rw [STm.unfilled, STm.calm]
  | .text _ r, h, h' | .comment _ r, h, h' | .longComment _ r, h, h' | .escaped _ r, h, h' | .link _ _ _ _ r, h, h' => by
      simp only [STm.unfilled, STm.tildeless, STm.includes, STm.every, STm.calm] at *
      exact unfilled_calm r h h'
  | .stmt _ part tl p a r, h, h' => by
      simp only [STm.unfilled, STm.tildeless, STm.includes, STm.every, STm.calm, Bool.and_eq_true] at *
      refine ⟨⟨?_, h.1⟩, unfilled_calm r h.2 h'.2⟩
      cases part with
      | true => simpa using h'.1.1
      | false => rfl
  | .dyn _ part _ _ _ _ r, h, h' => by
      simp only [STm.unfilled, STm.tildeless, STm.includes, STm.every, STm.calm, Bool.and_eq_true] at *
      exact ⟨⟨by simpa using h'.1.1.1, h.1⟩, unfilled_calm r h.2 h'.2⟩
  | .rawBlock _ _ _ _ _ r, h, h' => by
      simp only [STm.unfilled, STm.tildeless, STm.includes, STm.every, STm.calm, Bool.and_eq_true] at *
      exact ⟨h.1, unfilled_calm r h.2 h'.2⟩
  | .block true _ w _ _ _ _ r, h, h' => by
      simp only [STm.unfilled, STm.tildeless, STm.includes, STm.every, STm.calm, Bool.and_eq_true, if_true] at *
      exact ⟨⟨by simpa using h'.1.1, h.1⟩, unfilled_calm r h.2 h'.2⟩
  | .block false _ _ _ body cs _ r, h, h' => by
      simp only [STm.unfilled, STm.tildeless, STm.includes, STm.every, STm.calm, Bool.and_eq_true] at *
      obtain ⟨⟨⟨⟨h1, h2⟩, h3⟩, h4⟩, h5⟩ := h
      obtain ⟨⟨⟨_, g3⟩, g4⟩, g5⟩ := h'
      exact ⟨⟨⟨⟨⟨rfl, h1⟩, h2⟩, unfilled_calm body h3 g3⟩, unfilled_calm_cls cs h4 g4⟩, unfilled_calm r h5 g5⟩
theorem unfilled_calm_cls {names : List Str} : ∀ T : SCls, T.unfilled.tildeless = true →
    T.unfilled.every (fun _ => true) (fun _ _ => true) (fun x => x.any names.contains) = true → T.unfilled.calm names = true
  | .nil, _, _ => by rw [SCls.unfilled, SCls.calm]
  | .cons _ none body r, h, h' => by
      simp only [SCls.unfilled, SCls.tildeless, SCls.every, SCls.calm, Bool.and_eq_true] at *
      exact ⟨⟨h.1.1, unfilled_calm body h.1.2 h'.1⟩, unfilled_calm_cls r h.2 h'.2⟩
  | .cons _ (some (p, a)) body r, h, h' => by
      simp only [SCls.unfilled, SCls.tildeless, SCls.every, SCls.calm, Bool.and_eq_true] at *
      exact ⟨⟨h.1.1, unfilled_calm body h.1.2 h'.1.2⟩, unfilled_calm_cls r h.2 h'.2⟩
end

theorem append_tildeless (U : STm) (hU : U.tildeless = true) : ∀ T : STm, T.tildeless = true → (T.append U).tildeless = true
  | .nil, _ => hU
  | .text _ r, h | .comment _ r, h | .longComment _ r, h | .escaped _ r, h | .link _ _ _ _ r, h => by
      rw [STm.append, STm.tildeless]; rw [STm.tildeless] at h; exact append_tildeless U hU r h
  | .stmt _ _ _ _ _ r, h | .dyn _ _ _ _ _ _ r, h | .rawBlock _ _ _ _ _ r, h | .block _ _ _ _ _ _ _ r, h => by
      rw [STm.append, STm.tildeless]; rw [STm.tildeless] at h
      simp only [Bool.and_eq_true] at h ⊢
      exact ⟨h.1, append_tildeless U hU r h.2⟩
theorem append_includes {names : List Str} (U : STm) (hU : U.includes names = true) : ∀ T : STm, T.includes names = true → (T.append U).includes names = true
  | .nil, _ => hU
  | .text _ r, h | .comment _ r, h | .longComment _ r, h | .escaped _ r, h | .link _ _ _ _ r, h => by
      unfold STm.includes at *
      rw [STm.append, STm.every]; rw [STm.every] at h; exact append_includes U hU r h
  | .stmt _ _ _ _ _ r, h | .dyn _ _ _ _ _ _ r, h | .rawBlock _ _ _ _ _ r, h | .block _ _ _ _ _ _ _ r, h => by
      unfold STm.includes at *
      rw [STm.append, STm.every]; rw [STm.every] at h
      simp only [Bool.and_eq_true] at h ⊢
      exact ⟨h.1, append_includes U hU r h.2⟩

section
variable [H : Host] [C : Custom]

theorem unfilled_opens (T : STm) (h : T.unfilled.tildeless = true) : opens T.unfilled = false := Comments.opens_still _ h

/-- The library without the contents given to partials. -/
def unfilledLib (lib : List (Str × STm)) : List (Str × STm) := lib.map fun x => (x.1, x.2.unfilled)

theorem unfilled_lookup (x : Str) : ∀ lib : List (Str × STm), (unfilledLib lib).lookup x = (lib.lookup x).map STm.unfilled
  | [] => rfl
  | (k, T) :: lib => by
      show List.lookup x ((k, T.unfilled) :: unfilledLib lib) = _
      rw [List.lookup_cons, List.lookup_cons]
      cases x == k with
      | true => rfl
      | false => exact unfilled_lookup x lib

theorem unfilled_meaning (names : List Str) (hn : c!"@partial-block" ∉ names) (lib : List (Str × STm))
    (hg : ∀ q ∈ names, ∀ V, lib.lookup q = some V → V.unfilled.tildeless = true ∧ V.unfilled.includes names = true) (k : Nat)
    (T : STm) (h1 : T.unfilled.tildeless = true) (h2 : T.unfilled.includes names = true) (Γ : Scene) :
    (tm (Full.depth (lib.lookup ·) k) T Γ false false false fresh).result =
      (tm (Full.depth ((unfilledLib lib).lookup ·) k) T.unfilled Γ false false false fresh).result :=
  (Unfilled.bared_tm hn (Unfilled.bared_depth hn (get := (lib.lookup ·)) (get' := ((unfilledLib lib).lookup ·)) (fun x _ => unfilled_lookup x lib) hg k) T ⟨h1, h2⟩ Γ fresh
    ⟨rfl, rfl, rfl⟩).result.symm

/-- **C91**: a content that is not asked for does not matter: two templates without `~` that are the same but for the
contents given to partials, `{{#> p a}}…{{/p}}` or just `{{> p a}}` (and whose partials are), give the same text, error or
panic, if neither they nor the partials `names`, which they may include, include `@partial-block`. -/
theorem C91_once (names : List Str) (hn : c!"@partial-block" ∉ names) (T U : STm) (hT : T.ok [] = true) (hU : U.ok [] = true) (h : T.unfilled = U.unfilled)
    (ht : T.unfilled.tildeless = true) (hi : T.unfilled.includes names = true) (lib lib' : List (Str × STm))
    (hlib : ∀ q ∈ names, (lib.lookup q).map STm.unfilled = (lib'.lookup q).map STm.unfilled)
    (hg : ∀ q ∈ names, ∀ V, lib.lookup q = some V → V.unfilled.tildeless = true ∧ V.unfilled.includes names = true)
    (reg reg' : Reg) (hb : Equipped reg) (hb' : Equipped reg')
    (hl : Full.Holds reg lib) (hl' : Full.Holds reg' lib') (hs : reg'.strict = reg.strict) (he : reg'.escape = reg.escape) (name : Str) (data : Value) :
    ∃ N, ∀ n, N ≤ n → Reg.once n reg name T.src data = Reg.once n reg' name U.src data := by
  obtain ⟨N1, h1⟩ := whole_once T hT lib reg hb hl (max (lib.length + 1) (lib'.length + 1)) (Nat.le_max_left ..) name data
  obtain ⟨N2, h2⟩ := whole_once U hU lib' reg' hb' hl' (max (lib.length + 1) (lib'.length + 1)) (Nat.le_max_right ..) name data
  refine ⟨max N1 N2, fun n hn' => ?_⟩
  rw [h1 n (by omega), h2 n (by omega), show Scene.start reg' name data = Scene.start reg name data by unfold Scene.start; rw [hs, he]]
  generalize max (lib.length + 1) (lib'.length + 1) = k
  have a := Unfilled.bared_tm hn (Unfilled.bared_depth hn (get := (lib.lookup ·)) (get' := fun x => (lib.lookup x).map STm.unfilled) (fun _ _ => rfl) hg k) T ⟨ht, hi⟩
    (Scene.start reg name data) fresh ⟨rfl, rfl, rfl⟩
  have b := Unfilled.bared_tm hn (Unfilled.bared_depth hn (get := (lib'.lookup ·)) (get' := fun x => (lib.lookup x).map STm.unfilled) hlib (fun x hx V hV => by
      have e := hlib x hx
      rw [hV] at e
      cases hW : lib.lookup x with
      | none => rw [hW] at e; cases e
      | some W =>
          rw [hW] at e
          injection e with e
          rw [← e]
          exact hg x hx W hW) k) U ⟨h ▸ ht, h ▸ hi⟩ (Scene.start reg name data) fresh ⟨rfl, rfl, rfl⟩
  exact a.result.symm.trans ((congrArg (fun V => (tm _ V _ false false false _).result) h).trans b.result)

/-- **C91**: in particular a template renders as the same without such contents. -/
theorem C91_removed (names : List Str) (hn : c!"@partial-block" ∉ names) (T : STm) (hT : T.ok [] = true) (hU : T.unfilled.ok [] = true)
    (ht : T.unfilled.tildeless = true) (hi : T.unfilled.includes names = true) (lib : List (Str × STm))
    (hg : ∀ q ∈ names, ∀ V, lib.lookup q = some V → V.unfilled.tildeless = true ∧ V.unfilled.includes names = true)
    (reg : Reg) (hb : Equipped reg) (hl : Full.Holds reg lib) (name : Str) (data : Value) :
    ∃ N, ∀ n, N ≤ n → Reg.once n reg name T.src data = Reg.once n reg name T.unfilled.src data :=
  C91_once names hn T T.unfilled hT hU (unfilled_twice T).symm ht hi lib lib (fun _ _ => rfl) hg reg reg hb hb hl hl rfl rfl name data

/-- **C91**: and, as in C65, two such templates one after the other write what the first writes and then what the second does. -/
theorem C91_sequence (names : List Str) (hn : c!"@partial-block" ∉ names) (T U : STm) (hT : T.ok [] = true) (hU : U.ok [] = true) (hTU : (T.append U).ok [] = true)
    (ht : T.unfilled.tildeless = true) (hi : T.unfilled.includes names = true) (hu : U.unfilled.tildeless = true) (hj : U.unfilled.includes names = true)
    (lib : List (Str × STm)) (hg : ∀ q ∈ names, ∀ V, lib.lookup q = some V → V.unfilled.tildeless = true ∧ V.unfilled.includes names = true)
    (reg : Reg) (hb : Equipped reg) (hl : Full.Holds reg lib) (name : Str) (data : Value) :
    ∃ N, ∀ n, N ≤ n → Reg.once n reg name (T.src ++ U.src) data = both (Reg.once n reg name T.src data) (Reg.once n reg name U.src data) := by
  obtain ⟨N1, h1⟩ := C61_once T hT lib reg hb hl name data
  obtain ⟨N2, h2⟩ := C61_once U hU lib reg hb hl name data
  obtain ⟨N3, h3⟩ := C61_once _ hTU lib reg hb hl name data
  refine ⟨max N1 (max N2 N3), fun n hn' => ?_⟩
  have hc := unfilled_calm T ht hi
  have len : (unfilledLib lib).length = lib.length := List.length_map ..
  have key : ∀ V : STm, V.unfilled.tildeless = true → V.unfilled.includes names = true →
      (Full.meaning lib V (Scene.start reg name data)).result = (Full.meaning (unfilledLib lib) V.unfilled (Scene.start reg name data)).result := by
    intro V v1 v2
    have := unfilled_meaning names hn lib hg (lib.length + 1) V v1 v2 (Scene.start reg name data)
    unfold Full.meaning
    rw [len]
    exact this
  rw [← append_src, h1 n (by omega), h2 n (by omega), h3 n (by omega), key T ht hi, key U hu hj]
  have both_ok : (T.append U).unfilled.tildeless = true ∧ (T.append U).unfilled.includes names = true := by
    rw [unfilled_append]
    exact ⟨append_tildeless _ hu _ ht, append_includes _ hj _ hi⟩
  rw [key _ both_ok.1 both_ok.2, unfilled_append, meaning_append hc (unfilled_opens U hu) (unfilledLib lib) (fun q hq V hV => by
    rw [unfilled_lookup, Option.map_eq_some_iff] at hV
    obtain ⟨W, hW, rfl⟩ := hV
    exact unfilled_calm W (hg q hq W hW).1 (hg q hq W hW).2)]
  generalize Full.meaning (unfilledLib lib) T.unfilled (Scene.start reg name data) = o
  generalize Full.meaning (unfilledLib lib) U.unfilled (Scene.start reg name data) = o'
  obtain ⟨w, x⟩ := o
  obtain ⟨w', y⟩ := o'
  cases x with
  | error f => cases f <;> rfl
  | ok μ =>
      cases y with
      | error f => cases f <;> rfl
      | ok ν => rfl

end

/-! ### Examples -/

attribute [local instance] exHost noCustom

private def t0 : Tilde := ⟨false, false, [], [], []⟩
private def g0 : Tilde := ⟨false, false, [], c!" ", []⟩
/-- `<{{#> box}}in {{> @partial-block}}{{/box}}>`: the content is itself ill-behaved, and never rendered. -/
private def filled : STm :=
  .text c!"<" <| .block true g0 c!"box" (.done .nil)
    (.text c!"in " <| .stmt false true g0 ⟨0, .loc c!"partial-block", []⟩ (.done .nil) .nil) .nil t0 <| .text c!">" .nil
private def again : STm := .stmt false true g0 ⟨0, .name c!"box", []⟩ (.done .nil) .nil
private def boxTm : STm := .text c!"box " <| .stmt false false t0 ⟨0, .name c!"x", []⟩ (.done .nil) .nil
private def boxLib : List (Str × STm) := [(c!"box", boxTm)]
example : String.ofList filled.src = "<{{#> box}}in {{> @partial-block}}{{/box}}>" ∧ String.ofList filled.unfilled.src = "<{{> box}}>" := by decide +kernel
example : filled.ok [] = true ∧ filled.unfilled.ok [] = true ∧ filled.unfilled.tildeless = true ∧ filled.unfilled.includes [c!"box"] = true ∧
    boxTm.unfilled.tildeless = true ∧ boxTm.unfilled.includes [c!"box"] = true ∧ again.ok [] = true ∧ (filled.append again).ok [] = true := by decide +kernel
example : (Full.meaning boxLib filled (Scene.start Reg.new c!"t" (.obj [(c!"x", .bool true)]))).1 = c!"<box true>" ∧
    (Full.meaning boxLib filled.unfilled (Scene.start Reg.new c!"t" (.obj [(c!"x", .bool true)]))).1 = c!"<box true>" := by decide +kernel

end Bracket.Props
