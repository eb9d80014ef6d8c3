import Verif.Props.Alone

/-! C89: a list renders as its items do, one after the other. -/

set_option linter.unusedSectionVars false

namespace Bracket.Props
open Bracket Spec
open Bracket.Spec.Full hiding block blockHelper contents rounds builtinBlock depth

section
variable [H : Host] [C : Custom]
open Alone Alike

theorem unheard_round (r : Round) {d : Value} {us : List Value} {p : SPath} (hp : p.aloneInEach d us = true) : Unheard r.scope.locals p := by
  unfold SPath.aloneInEach at hp
  simp only [Bool.and_eq_true] at hp
  obtain ⟨_, hp⟩ := hp
  have key : ∀ w : Str, w ≠ c!"@first" → w ≠ c!"@last" → w ≠ c!"@index" → w ≠ c!"@key" → r.scope.locals.lookup w = none := by
    intro w h1 h2 h3 h4
    unfold Round.scope
    cases r.key <;> simp [List.lookup, beq_eq_false_iff_ne.2 h1, beq_eq_false_iff_ne.2 h2, beq_eq_false_iff_ne.2 h3, beq_eq_false_iff_ne.2 h4]
  constructor
  · intro w hw
    rw [hw] at hp
    simp only [Bool.not_eq_true', Bool.or_eq_false_iff, beq_eq_false_iff_ne] at hp
    exact key w hp.1.1.1 hp.1.1.2 hp.1.2 hp.2
  · intro w hw
    rw [hw] at hp
    simp only [Bool.not_eq_true', Bool.or_eq_false_iff, beq_eq_false_iff_ne] at hp
    exact key _ (fun h => hp.1.1.1 (by injection h)) (fun h => hp.1.1.2 (by injection h)) (fun h => hp.1.2 (by injection h)) (fun h => hp.2 (by injection h))

section
variable {N N' : SPath → Bool} {K K' : SPath → SArgs → Bool} {Q Q' : Option Str → Bool}
mutual
theorem both_expr : ∀ {x : SExpr}, x.every N K = true → x.every N' K' = true → x.every (fun p => N p && N' p) K = true
  | .path p, h, h' => by rw [SExpr.every] at *; rw [h, h']; rfl
  | .lit l, h, h' => by rw [SExpr.every]
  | .sub p a, h, h' => by
      rw [SExpr.every] at *
      simp only [Bool.and_eq_true] at *
      exact ⟨⟨⟨h.1.1, h'.1.1⟩, h.1.2⟩, both_args h.2 h'.2⟩
theorem both_args : ∀ {x : SArgs}, x.every N K = true → x.every N' K' = true → x.every (fun p => N p && N' p) K = true
  | .done x, h, h' => by rw [SArgs.every] at *; exact both_hash h h'
  | .argW w x r, h, h' => by
      rw [SArgs.every] at *
      simp only [Bool.and_eq_true] at *
      exact ⟨both_expr h.1 h'.1, both_args h.2 h'.2⟩
theorem both_hash : ∀ {x : SHash}, x.every N K = true → x.every N' K' = true → x.every (fun p => N p && N' p) K = true
  | .tail w, h, h' => by rw [SHash.every]
  | .pairW w n x r, h, h' => by
      rw [SHash.every] at *
      simp only [Bool.and_eq_true] at *
      exact ⟨both_expr h.1 h'.1, both_hash h.2 h'.2⟩
end
mutual
theorem both_tm : ∀ {x : STm}, x.every N K Q = true → x.every N' K' Q' = true → x.every (fun p => N p && N' p) K Q = true
  | .nil, h, h' => by rw [STm.every]
  | .text _ r, h, h' | .comment _ r, h, h' | .longComment _ r, h, h' | .escaped _ r, h, h' | .link _ _ _ _ r, h, h' => by
      rw [STm.every] at *; exact both_tm h h'
  | .stmt _ part _ p a r, h, h' => by
      rw [STm.every] at *
      simp only [Bool.and_eq_true] at *
      refine ⟨⟨?_, both_args h.1.2 h'.1.2⟩, both_tm h.2 h'.2⟩
      cases part with
      | true => exact h.1.1
      | false =>
          simp only [Bool.false_eq_true, if_false, Bool.and_eq_true] at *
          exact ⟨⟨h.1.1.1, h'.1.1.1⟩, h.1.1.2⟩
  | .dyn _ part _ q b a r, h, h' => by
      rw [STm.every] at *
      simp only [Bool.and_eq_true] at *
      exact ⟨⟨⟨h.1.1.1, ⟨⟨h.1.1.2.1.1, h'.1.1.2.1.1⟩, h.1.1.2.1.2⟩, both_args h.1.1.2.2 h'.1.1.2.2⟩, both_args h.1.2 h'.1.2⟩, both_tm h.2 h'.2⟩
  | .rawBlock _ name a _ _ r, h, h' => by
      rw [STm.every] at *
      simp only [Bool.and_eq_true] at *
      exact ⟨⟨⟨⟨h.1.1.1, h'.1.1.1⟩, h.1.1.2⟩, both_args h.1.2 h'.1.2⟩, both_tm h.2 h'.2⟩
  | .block part _ name a body cs _ r, h, h' => by
      rw [STm.every] at *
      simp only [Bool.and_eq_true] at *
      obtain ⟨⟨⟨⟨h1, h2⟩, h3⟩, h4⟩, h5⟩ := h
      obtain ⟨⟨⟨⟨g1, g2⟩, g3⟩, g4⟩, g5⟩ := h'
      refine ⟨⟨⟨⟨?_, both_args h2 g2⟩, both_tm h3 g3⟩, both_cls h4 g4⟩, both_tm h5 g5⟩
      cases part with
      | true => exact h1
      | false =>
          simp only [Bool.false_eq_true, if_false, Bool.and_eq_true] at *
          exact ⟨⟨h1.1, g1.1⟩, h1.2⟩
theorem both_cls : ∀ {x : SCls}, x.every N K Q = true → x.every N' K' Q' = true → x.every (fun p => N p && N' p) K Q = true
  | .nil, h, h' => by rw [SCls.every]
  | .cons _ none body r, h, h' => by
      rw [SCls.every] at *
      simp only [Bool.and_eq_true] at *
      exact ⟨both_tm h.1 h'.1, both_cls h.2 h'.2⟩
  | .cons _ (some (p, a)) body r, h, h' => by
      rw [SCls.every] at *
      simp only [Bool.and_eq_true] at *
      obtain ⟨⟨⟨⟨h1, h2⟩, h3⟩, h4⟩, h5⟩ := h
      obtain ⟨⟨⟨⟨g1, g2⟩, g3⟩, g4⟩, g5⟩ := h'
      exact ⟨⟨⟨⟨⟨h1, g1⟩, h2⟩, both_args h3 g3⟩, both_tm h4 g4⟩, both_cls h5 g5⟩
end
end

/-- The rounds write what the item does on its own. -/
theorem rounds_alone {X : Str → Prop} {D E : Scene → Mood → Outcome} {Γ : Scene} {Δ : Value → Scene}
    (hE : ∀ v, Rests (E (Δ v) fresh)) : ∀ rs : List Round, (∀ r ∈ rs, D (Γ.push r.scope) fresh = E (Δ r.value) fresh ∨ Over X (D (Γ.push r.scope) fresh)) →
    (Full.rounds D Γ rs fresh).result = reported (inTurn (rs.map fun r => (E (Δ r.value) fresh).result)) ∨ Over X (Full.rounds D Γ rs fresh)
  | [], _ => .inl rfl
  | r :: rs, hD => by
      have h2 := rounds_alone hE rs fun r hr => hD r (List.mem_cons_of_mem _ hr)
      rw [Full.rounds]
      rcases hD r List.mem_cons_self with hr' | ho
      case inr => exact .inr (over_andThen (over_within ho))
      rw [hr', List.map_cons]
      have hr := hE r.value
      revert hr
      generalize E (Δ r.value) fresh = o
      intro hr
      obtain ⟨w, x⟩ := o
      cases x with
      | error f => left; cases f <;> rfl
      | ok μ =>
          obtain rfl := hr μ rfl
          rcases h2 with h2 | ⟨u, e, g1, g2, g3⟩
          case inr => exact .inr ⟨u, e, g1, g2, g3⟩
          left
          show Outcome.result (w ++ (Full.rounds D Γ rs fresh).1, (Full.rounds D Γ rs fresh).2) = reported (inTurn (.ok w :: _))
          rw [inTurn]
          revert h2
          generalize inTurn (rs.map _) = q
          generalize Full.rounds D Γ rs fresh = o
          obtain ⟨w', y⟩ := o
          intro h2
          cases y with
          | error f =>
              cases f <;> cases q <;> simp only [Outcome.result, reported] at h2 ⊢ <;> first | exact h2 | cases h2
              all_goals first | exact h2 | (rename_i e; cases e <;> simp only [reported] at h2 ⊢ <;> first | exact h2 | cases h2)
          | ok ν =>
              cases q <;> simp only [Outcome.result, reported] at h2 ⊢
              · injection h2 with h2; rw [h2]
              · rename_i e; cases e <;> simp only [reported] at h2 <;> cases h2
              · cases h2
              · cases h2

theorem each_alone (hV : Valued) (he : Custom.fn c!"each" = none) (x : SPath) (T : STm) (names : List Str) (d v : Value) (lib : List (Str × STm)) (reg : Reg)
    (hb : Equipped reg) (hl : Full.Holds reg lib) (K : SPath → Bool) (hK : ∀ p, K p = true → p.aloneInEach d (items v) = true) (X : Str → Prop)
    (hX : ∀ w, (w = blockMissingName ∨ K ⟨0, .name w, []⟩ = true) → w ≠ c!"each" ∨ X w)
    (hT : T.every K anyCall (fun x => x.any names.contains) = true) (hc : T.calm names = true)
    (hlib : ∀ q ∈ names, ∀ U, lib.lookup q = some U → U.every K anyCall (fun x => x.any names.contains) = true ∧ U.calm names = true)
    (name : Str) (hx : (Scene.start reg name d).find x = some v) (hTok : T.ok [] = true) (hok : (eachOn x T).ok [] = true) :
    ∃ N, ∀ n, N ≤ n → Reg.once n reg name (eachOn x T).src d = reported (inTurn ((items v).map (Reg.once n reg name T.src ·))) ∨
      ∃ w e, X w ∧ TooDeep w e ∧ Reg.once n reg name (eachOn x T).src d = .err (.render e) := by
  obtain ⟨N, h⟩ := whole_once _ hok lib reg hb hl (lib.length + 1) (Nat.le_refl _) name d
  let E : Scene → Mood → Outcome := fun Δ μ => tm (Full.depth (lib.lookup ·) (lib.length + 1)) T Δ false false false μ
  have hM : ∃ M, ∀ n, M ≤ n → ∀ u ∈ items v, Reg.once n reg name T.src u = (E (Scene.start reg name u) fresh).result := by
    generalize items v = l
    induction l with
    | nil => exact ⟨0, fun _ _ _ h => by cases h⟩
    | cons u l ih =>
        obtain ⟨M, ih⟩ := ih
        obtain ⟨M', h'⟩ := whole_once T hTok lib reg hb hl (lib.length + 1) (Nat.le_refl _) name u
        refine ⟨max M M', fun n hn w hw => ?_⟩
        rcases List.mem_cons.1 hw with rfl | hw
        · exact h' n (Nat.le_trans (Nat.le_max_right ..) hn)
        · exact ih n (Nat.le_trans (Nat.le_max_left ..) hn) w hw
  obtain ⟨M, hM⟩ := hM
  refine ⟨max N M, fun n hn' => ?_⟩
  rw [h n (Nat.le_trans (Nat.le_max_left ..) hn'), List.map_congr_left (fun u hu => hM n (Nat.le_trans (Nat.le_max_right ..) hn') u hu)]
  let Γ : Scene := (Scene.start reg name d).enter (.block c!"each")
  let D : Scene → Mood → Outcome := fun Δ μ =>
    (tm (Full.depth (lib.lookup ·) (lib.length + 1)) T Δ false false (μ.hint || false) μ).andThen fun μ => wrote [] { μ with close := !isNil T && false }
  have rest : ∀ Δ, Rests (E Δ fresh) := fun Δ => rests_tm _ (rests_depth (fun q hq t ht => (hlib q hq t ht).2) _) T hc Δ
  have hD : ∀ r : Round, r.value ∈ items v → D (Γ.push r.scope) fresh = E (Scene.start reg name r.value) fresh ∨ Over X (D (Γ.push r.scope) fresh) := by
    intro r hi
    have t : Alike True X K (fun x => x.any names.contains) (Inside r.value r.scope.locals d (.block c!"each")) :=
      Inside.alike (fun p hp => ⟨by have := hK p hp; unfold SPath.aloneInEach at this; simp only [Bool.and_eq_true, List.all_eq_true] at this; exact this.1.2 _ hi, unheard_round r (hK p hp)⟩) (fun w h => by cases h)
        (fun w hw => (hX w hw).imp_left fun h e => h (by injection e with e; exact e.symm)) (fun w _ h => by cases h)
    have key := (agree_tm t (fun _ => hV) (agree_depth t (fun _ => hV) (get := (lib.lookup ·)) (fun h => by cases h) (fun q U hq hU => (hlib q (List.contains_iff_mem.1 hq) U hU).1) (lib.length + 1)) T hT
      (Γ := Γ.push r.scope) (Δ := Scene.start reg name r.value)
      ⟨rfl, rfl, rfl, rfl, rfl, rfl, fun _ h => (by cases h), rfl⟩ false false false fresh (fun _ h => by cases h)).same
    rcases key with key | key
    case inr => exact .inr (over_andThen key)
    left
    have hr := rest (Γ.push r.scope)
    show Outcome.andThen (E (Γ.push r.scope) fresh) _ = _
    rw [show E (Scene.start reg name r.value) fresh = E (Γ.push r.scope) fresh from key]
    revert hr
    generalize E (Γ.push r.scope) fresh = o
    intro hr
    obtain ⟨w, y⟩ := o
    cases y with
    | error f => rfl
    | ok μ =>
        obtain rfl := hr μ rfl
        simp [Outcome.andThen, wrote, fresh]
  have key := rounds_alone (X := X) (D := D) (E := E) (Γ := Γ) (Δ := Scene.start reg name) (fun v => rest _)
  have hh : isHelper c!"each" = true := by
    unfold isHelper
    rw [show helperNames.contains c!"each" = true from by decide, Bool.or_true]
  have hev : (SArgs.arg (.path x) (.done .nil)).eval Γ .none = said ([v], []) := by
    rw [SArgs.arg, SArgs.eval, SExpr.eval, show Γ.find x = some v from hx]
    rfl
  unfold eachOn
  rw [Full.tm, if_neg (by simp), result_nil]
  unfold Full.block
  rw [if_pos hh]
  unfold helped
  rw [if_neg (by simp [Scene.full, Scene.start])]
  rw [show (Mood.next ⟨false, false, none, .none⟩ false ⟨false || false, stops .nil false⟩) = fresh from rfl, show fresh.trim = .none from rfl, hev]
  unfold Full.blockHelper
  rw [he]
  unfold Full.builtinBlock
  simp only [said, Outcome.after]
  rw [if_neg (by decide), if_neg (by decide), if_pos trivial]
  simp only [List.nil_append]
  cases v with
  | arr l =>
      refine (key (arrayRounds l) fun r hr => hD r ?_).imp (fun h => h.trans (congrArg (fun q => reported (inTurn q)) ?_)) fun h => over_result h
      · exact (by obtain ⟨i, h, rfl⟩ := List.getElem_of_mem hr; simp [arrayRounds, items])
      · exact List.ext_getElem (by simp [arrayRounds, items]) fun i _ _ => by simp [arrayRounds, items]
  | obj m =>
      refine (key (objectRounds m) fun r hr => hD r ?_).imp (fun h => h.trans (congrArg (fun q => reported (inTurn q)) ?_)) fun h => over_result h
      · exact (by obtain ⟨i, h, rfl⟩ := List.getElem_of_mem hr; simp [objectRounds, items]; exact ⟨_, List.getElem_mem _⟩)
      · exact List.ext_getElem (by simp [objectRounds, items]) fun i _ _ => by simp [objectRounds, items]
  | _ => exact .inl rfl

/-- **C89**: `{{#each x}}T{{/each}}` writes what `T` writes on its own with the first item for its data, then with the
second, and so on, up to the first that fails; its error is reported through the helper.  For this `T`, and the partials it
may include, must look at nothing but the item: no `../`, no `@root`, no name that is found in the data and not in the
item, none of `@first`, `@last`, `@index` and `@key`; and they must have no `~` and no partials with a content.  With more blocks `each`
inside, this holds unless there are too many inside one another. -/
theorem C89 (hV : Valued) (he : Custom.fn c!"each" = none) (x : SPath) (T : STm) (names : List Str) (d v : Value) (lib : List (Str × STm)) (reg : Reg)
    (hb : Equipped reg) (hl : Full.Holds reg lib)
    (hT : T.aloneInEach names d (items v) = true) (hc : T.calm names = true)
    (hlib : ∀ q ∈ names, ∀ U, lib.lookup q = some U → U.aloneInEach names d (items v) = true ∧ U.calm names = true)
    (name : Str) (hx : (Scene.start reg name d).find x = some v) (hTok : T.ok [] = true) (hok : (eachOn x T).ok [] = true) :
    ∃ N, ∀ n, N ≤ n → UnlessDeep c!"each" (Reg.once n reg name (eachOn x T).src d) (reported (inTurn ((items v).map (Reg.once n reg name T.src ·)))) := by
  obtain ⟨N, h⟩ := each_alone hV he x T names d v lib reg hb hl (SPath.aloneInEach d (items v)) (fun p hp => hp) (· = c!"each") (fun w hw => by
    by_cases h : w = c!"each"
    · exact .inr h
    · exact .inl h) hT hc hlib name hx hTok hok
  refine ⟨N, fun n hn => (h n hn).imp_right ?_⟩
  rintro ⟨w, e, rfl, h⟩
  exact ⟨e, h⟩

/-- **C89**: without more of them it always holds. -/
theorem C89_single (hV : Valued) (he : Custom.fn c!"each" = none) (x : SPath) (T : STm) (names : List Str) (d v : Value) (lib : List (Str × STm)) (reg : Reg)
    (hb : Equipped reg) (hl : Full.Holds reg lib)
    (hT : T.aloneInEach names d (items v) = true) (hw : T.without c!"each" = true) (hc : T.calm names = true)
    (hlib : ∀ q ∈ names, ∀ U, lib.lookup q = some U → U.aloneInEach names d (items v) = true ∧ U.without c!"each" = true ∧ U.calm names = true)
    (name : Str) (hx : (Scene.start reg name d).find x = some v) (hTok : T.ok [] = true) (hok : (eachOn x T).ok [] = true) :
    ∃ N, ∀ n, N ≤ n → Reg.once n reg name (eachOn x T).src d = reported (inTurn ((items v).map (Reg.once n reg name T.src ·))) := by
  obtain ⟨N, h⟩ := each_alone hV he x T names d v lib reg hb hl (fun p => p.aloneInEach d (items v) && p != ⟨0, .name c!"each", []⟩)
    (fun p hp => by simp only [Bool.and_eq_true] at hp; exact hp.1) (fun _ => False) (fun w hw => .inl fun h => by
      subst h
      rcases hw with hw | hw
      · exact absurd hw (by decide)
      · simp at hw) (both_tm hT hw) hc (fun q hq U hU => ⟨both_tm (hlib q hq U hU).1 (hlib q hq U hU).2.1, (hlib q hq U hU).2.2⟩) name hx hTok hok
  refine ⟨N, fun n hn => ?_⟩
  rcases h n hn with h | ⟨_, _, h, _⟩
  · exact h
  · cases h

theorem inTurn_ok : ∀ ws : List Str, inTurn (ws.map .ok) = .ok ws.flatten
  | [] => rfl
  | w :: ws => by rw [List.map_cons, inTurn, inTurn_ok ws]; rfl

/-- **C89**: when every item `u` renders, as `f u`, the list is all these texts. -/
theorem C89_texts (hV : Valued) (he : Custom.fn c!"each" = none) (x : SPath) (T : STm) (names : List Str) (d v : Value) (lib : List (Str × STm)) (reg : Reg)
    (hb : Equipped reg) (hl : Full.Holds reg lib)
    (hT : T.aloneInEach names d (items v) = true) (hw : T.without c!"each" = true) (hc : T.calm names = true)
    (hlib : ∀ q ∈ names, ∀ U, lib.lookup q = some U → U.aloneInEach names d (items v) = true ∧ U.without c!"each" = true ∧ U.calm names = true)
    (name : Str) (hx : (Scene.start reg name d).find x = some v) (hTok : T.ok [] = true) (hok : (eachOn x T).ok [] = true)
    (f : Value → Str) (hf : ∃ N, ∀ n, N ≤ n → ∀ u ∈ items v, Reg.once n reg name T.src u = .ok (f u)) :
    ∃ N, ∀ n, N ≤ n → Reg.once n reg name (eachOn x T).src d = .ok ((items v).map f).flatten := by
  obtain ⟨N, h⟩ := C89_single hV he x T names d v lib reg hb hl hT hw hc hlib name hx hTok hok
  obtain ⟨M, h'⟩ := hf
  refine ⟨max N M, fun n hn => ?_⟩
  rw [h n (Nat.le_trans (Nat.le_max_left ..) hn), List.map_congr_left (fun u hu => h' n (Nat.le_trans (Nat.le_max_right ..) hn) u hu),
    show (items v).map (fun u => (Out.ok (f u) : Out Str)) = ((items v).map f).map .ok from (List.map_map ..).symm, inTurn_ok]
  rfl

end

/-! ### Examples -/

attribute [local instance] exHost noCustom

private def t0 : Tilde := ⟨false, false, [], [], []⟩
private def g0 : Tilde := ⟨false, false, [], c!" ", []⟩

/-- `<li>{{name}}{{> sep}}</li>` -/
private def liTm : STm :=
  .text c!"<li>" <| .stmt false false t0 ⟨0, .name c!"name", []⟩ (.done .nil) <| .stmt false true g0 ⟨0, .name c!"sep", []⟩ (.done .nil) <| .text c!"</li>" .nil
private def sepTm : STm := .text c!";" .nil
private def liLib : List (Str × STm) := [(c!"sep", sepTm)]
private def people : Value := .arr [.obj [(c!"name", .str c!"a")], .obj [(c!"name", .str c!"b")], .obj []]
private def page : Value := .obj [(c!"people", people), (c!"title", .str c!"T")]

example : String.ofList (eachOn ⟨0, .name c!"people", []⟩ liTm).src = "{{#each people}}<li>{{name}}{{> sep}}</li>{{/each}}" ∧
    (eachOn ⟨0, .name c!"people", []⟩ liTm).ok [] = true ∧ liTm.ok [] = true ∧ liTm.calm [c!"sep"] = true ∧ sepTm.calm [c!"sep"] = true ∧
    liTm.aloneInEach [c!"sep"] page (items people) = true ∧ sepTm.aloneInEach [c!"sep"] page (items people) = true := by decide +kernel
example : (Scene.start Reg.new c!"t" page).find ⟨0, .name c!"people", []⟩ = some people := rfl
example : (Full.meaning liLib (eachOn ⟨0, .name c!"people", []⟩ liTm) (Scene.start Reg.new c!"t" page)).1 = c!"<li>a;</li><li>b;</li><li>;</li>" := by decide +kernel
/-- In strict mode the third item fails, after the first two have been written. -/
example : (Full.meaning liLib (eachOn ⟨0, .name c!"people", []⟩ liTm) (Scene.start { Reg.new with strict := true } c!"t" page)).1 = c!"<li>a;</li><li>b;</li><li>" ∧
    (Full.meaning liLib (eachOn ⟨0, .name c!"people", []⟩ liTm) (Scene.start { Reg.new with strict := true } c!"t" page)).result =
      .err (.render (.helper (.render (.variableNotFound c!"name" c!"t")))) := ⟨by decide +kernel, rfl⟩
example : reported (inTurn [.ok c!"x", .err (.render (.partialNotFound c!"p")), .panic]) = .err (.render (.helper (.render (.partialNotFound c!"p")))) := rfl
example : liTm.without c!"each" = true ∧ sepTm.without c!"each" = true ∧ (eachOn ⟨0, .this, []⟩ liTm).without c!"each" = false ∧
    (eachOn ⟨0, .this, []⟩ liTm).aloneInEach [c!"sep"] page (items people) = true := by decide +kernel
/-- `@index`, or a name of the page's: not covered. -/
example :
    (STm.stmt false false t0 ⟨0, .loc c!"index", []⟩ (.done .nil) .nil).aloneInEach [] page (items people) = false ∧
    (STm.stmt false false t0 ⟨0, .name c!"title", []⟩ (.done .nil) .nil).aloneInEach [] page (items people) = false := by decide +kernel

end Bracket.Props
