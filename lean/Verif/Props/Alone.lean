import Verif.Lemmas.Alike
import Verif.Props.Whole

/-! C87: a partial tried on its own. -/

set_option linter.unusedSectionVars false

namespace Bracket.Props
open Bracket Spec
open Bracket.Spec.Full hiding block blockHelper contents rounds builtinBlock depth

namespace Alone
open Bracket.Props.Alike

/-- `Γ` is inside `x`, with the value `v` and the variables `ls`, where the data is `d`; `Δ` has `v` for its data. -/
structure Inside (v : Value) (ls : List (Str × Value)) (d : Value) (x : CallSite) (Γ Δ : Scene) : Prop where
  strict : Δ.strict = Γ.strict
  escape : Δ.escape = Γ.escape
  file : Δ.file = Γ.file
  outer : Γ.root = d
  inner : Δ.root = v
  scopes : Γ.scopes = Δ.scopes ++ [⟨some v, ls⟩]
  valued : ∀ sc ∈ Δ.scopes, sc.value.isSome = true
  calls : Γ.calls = Δ.calls ++ [x]

/-- The path is not one of the variables `ls`. -/
def Unheard (ls : List (Str × Value)) (p : SPath) : Prop :=
  (∀ w, p.head = .name w → ls.lookup w = none) ∧ (∀ w, p.head = .loc w → ls.lookup ('@' :: w) = none)

theorem unheard_nil (p : SPath) : Unheard [] p := ⟨fun _ _ => rfl, fun _ _ => rfl⟩

theorem walk_none {ls : List (Str × Value)} {w : Str} (h : ls.lookup w = none) (ks : List Str) : walk (.obj ls) (w :: ks) = none := by
  simp only [walk, member, h, Option.bind_none]

theorem Inside.find {v : Value} {ls : List (Str × Value)} {d : Value} {x : CallSite} {Γ Δ : Scene} (h : Inside v ls d x Γ Δ) {p : SPath} (hp : p.alone d v = true)
    (hu : Unheard ls p) : Δ.find p = Γ.find p := by
  unfold SPath.alone at hp
  simp only [Bool.and_eq_true, beq_iff_eq] at hp
  obtain ⟨h0, hp⟩ := hp
  have hv := h.valued
  unfold Scene.find
  rw [h0, h.outer, h.inner, h.scopes]
  have this : thisValue v Δ.scopes = thisValue d (Δ.scopes ++ [⟨some v, ls⟩]) := by
    revert hv
    cases Δ.scopes with
    | nil => intro _; rfl
    | cons sc r =>
        intro hv
        have := hv sc List.mem_cons_self
        show sc.value.getD v = sc.value.getD d
        cases hs : sc.value with
        | none => rw [hs] at this; cases this
        | some u => rfl
  cases hh : p.head with
  | abs w => rfl
  | this => simp only; rw [this]
  | dot => simp only; rw [this]
  | loc w =>
      rw [hh] at hp
      simp only [bne_iff_ne] at hp
      simp only
      rw [if_neg hp, if_neg hp]
      cases Δ.scopes with
      | nil => exact (walk_none (hu.2 w hh) _).symm
      | cons sc r => rfl
  | name w =>
      rw [hh] at hp
      simp only at hp
      have hd : walk v (w :: p.names) = none → walk d (w :: p.names) = none := fun h => by
        rw [h, Option.isSome_none, Bool.or_false, Option.isNone_iff_eq_none] at hp
        exact hp
      simp only
      unfold frames
      rw [List.map_append, List.map_cons, List.map_nil, show frame ⟨some v, ls⟩ = [.obj ls, v] from rfl]
      simp only [List.flatten_append, List.flatten_cons, List.flatten_nil, List.append_nil, List.findSome?_append, List.findSome?_cons, List.findSome?_nil]
      rw [walk_none (hu.1 w hh)]
      simp only
      cases hw : walk v (w :: p.names) with
      | none => simp [hd hw]
      | some u => simp

theorem full_block {Γ Δ : Scene} {x : CallSite} (h : Γ.calls = Δ.calls ++ [x]) {w : Str} {X : Prop} (hb : x ≠ .block w ∨ X) :
    Δ.full (.block w) = Γ.full (.block w) ∨ (X ∧ Γ.full (.block w) = true) := by
  unfold Scene.full
  rw [h, List.count_append]
  rcases hb with hb | hb
  · left
    rw [List.count_eq_zero.2 (by simpa using hb.symm : CallSite.block w ∉ [x]), Nat.add_zero]
  · by_cases hf : 32 ≤ List.count (CallSite.block w) Δ.calls + List.count (CallSite.block w) [x]
    · exact .inr ⟨hb, by simpa using hf⟩
    · left
      rw [decide_eq_false hf, decide_eq_false (by omega)]

theorem Inside.alike {v : Value} {ls : List (Str × Value)} {d : Value} {x : CallSite} {N : SPath → Bool} {Q : Option Str → Bool} (hN : ∀ p, N p = true → p.alone d v = true ∧ Unheard ls p)
    (hx : ∀ w, x ≠ .helper w) {X : Str → Prop} (hb : ∀ w, (w = blockMissingName ∨ N ⟨0, .name w, []⟩ = true) → x ≠ .block w ∨ X w) (hq : ∀ w, Q (some w) = true → x ≠ .part w) :
    Alike True X N Q (Inside v ls d x) where
  enter h y := ⟨h.strict, h.escape, h.file, h.outer, h.inner, h.scopes, h.valued, by simp [Scene.enter, h.calls]⟩
  push h sc hs := ⟨h.strict, h.escape, h.file, h.outer, h.inner, by simp [Scene.push, h.scopes], (by
    intro c hc
    rcases List.mem_cons.1 hc with rfl | hc
    · exact hs trivial
    · exact h.valued c hc), h.calls⟩
  helper h w := by
    unfold Scene.full
    rw [h.calls, List.count_append, List.count_eq_zero.2 (by simpa using (hx w).symm : CallSite.helper w ∉ [x]), Nat.add_zero]
  block h w hw := full_block h.calls (hb w hw)
  part {Γ Δ} h w hw := by
    rw [h.calls, Bool.eq_iff_iff, List.contains_iff_mem, List.contains_iff_mem, List.mem_append]
    constructor
    · exact .inl
    · rintro (h | h)
      · exact h
      · exact absurd (List.mem_singleton.1 h).symm (hq w hw)
  find h p hp := h.find (hN p hp).1 (hN p hp).2
  escape h := h.escape
  strict h := h.strict
  file h := h.file

end Alone

section
variable [H : Host] [C : Custom]
open Alone Alike

theorem included_alone (hV : Valued) (p : Str) (T : STm) (names : List Str) (d v : Value) (lib : List (Str × STm)) (hp : lib.lookup p = some T) (hn : p ∉ names)
    (hT : T.alone names d v = true) (hlib : ∀ q ∈ names, ∀ U, lib.lookup q = some U → U.alone names d v = true) (reg : Reg) (name : Str) (a : SArgs)
    (hs : List (Str × Value)) (vs : List Value) (k : Cut) (n : Nat) (μ : Mood) (hμ : μ.block = none) (hh : μ.hint = false)
    (h1 : (named a).eval ((Scene.start reg name d).enter (.part p)) μ.trim = said hs)
    (h2 : positional a ((Scene.start reg name d).enter (.part p)) μ.trim = said vs) (hsc : Full.partialScope vs hs = ⟨some v, []⟩) :
    included (Full.depth (lib.lookup ·) (n + 1)) none p a (Scene.start reg name d) μ =
      tm (Full.depth (lib.lookup ·) n) T (Scene.start reg name v) false false false μ := by
  unfold included
  rw [if_neg (by intro h; cases h)]
  have hf : (Full.depth (lib.lookup ·) (n + 1)).find (μ.given none) p = some T := by
    unfold Library.find
    rw [show μ.given none = μ from rfl, hμ]
    simp only [Full.depth, hp, ite_self]
  rw [hf]
  simp only
  rw [h1]
  unfold Outcome.after said
  simp only
  rw [h2]
  unfold said
  simp only [List.nil_append, hsc, Full.depth]
  have t : Alike True (fun _ => False) (SPath.alone d v) (fun x => x.any names.contains) (Inside v [] d (.part p)) :=
    Inside.alike (fun p hp => ⟨hp, unheard_nil p⟩) (fun w h => by cases h) (fun w _ => .inl fun h => by cases h) (fun w hw h => by
      injection h with h
      subst h
      exact hn (List.contains_iff_mem.1 hw))
  have key := (agree_tm t (fun _ => hV) (agree_depth t (fun _ => hV) (get := (lib.lookup ·)) (fun h => by cases h) (fun q U hq hU => hlib q (List.contains_iff_mem.1 hq) U hU) n) T hT
    (Γ := ((Scene.start reg name d).enter (.part p)).push ⟨some v, []⟩) (Δ := Scene.start reg name v)
    ⟨rfl, rfl, rfl, rfl, rfl, rfl, fun _ h => (by cases h), rfl⟩ false false false μ (fun _ h => by rw [hμ] at h; cases h)).exact
  rw [key, show (μ.given none).hint = false from hh]
  rfl

theorem partial_alone (hV : Valued) (p : Str) (a : SArgs) (T : STm) (names : List Str) (d v : Value) (lib : List (Str × STm)) (reg : Reg)
    (hb : Equipped reg) (hl : Full.Holds reg lib) (hp : lib.lookup p = some T) (hn : p ∉ names)
    (hT : T.alone names d v = true) (hlib : ∀ q ∈ names, ∀ U, lib.lookup q = some U → U.alone names d v = true) (name : Str)
    (hs : List (Str × Value)) (vs : List Value)
    (h1 : (named a).eval ((Scene.start reg name d).enter (.part p)) .none = said hs)
    (h2 : positional a ((Scene.start reg name d).enter (.part p)) .none = said vs) (hsc : Full.partialScope vs hs = ⟨some v, []⟩)
    (hok : (STm.stmt false true ⟨false, false, [], c!" ", []⟩ ⟨0, .name p, []⟩ a .nil).ok [] = true) :
    ∃ N, ∀ n, N ≤ n → Reg.once n reg name (STm.stmt false true ⟨false, false, [], c!" ", []⟩ ⟨0, .name p, []⟩ a .nil).src d = Reg.once n reg name T.src v := by
  have hTok : T.ok [] = true := by
    have := hl p
    rw [hp] at this
    exact this.1
  obtain ⟨N, h⟩ := whole_once _ hok lib reg hb hl (lib.length + 1 + 1) (Nat.le_succ _) name d
  obtain ⟨M, h'⟩ := whole_once T hTok lib reg hb hl (lib.length + 1) (Nat.le_refl _) name v
  refine ⟨max N M, fun n hn' => ?_⟩
  rw [h n (Nat.le_trans (Nat.le_max_left ..) hn'), h' n (Nat.le_trans (Nat.le_max_right ..) hn')]
  rw [Full.tm, if_pos rfl]
  unfold partialCall
  have hsh : (⟨0, .name p, []⟩ : SPath).shown = p := plain_shown rfl rfl
  rw [if_neg (by rintro ⟨_, h⟩; cases h), hsh,
    included_alone hV p T names d v lib hp hn hT hlib reg name a hs vs .none (lib.length + 1) _ rfl rfl h1 h2 hsc]
  have : (Mood.next ⟨false, false, none, .none⟩ false ⟨false || false, stops .nil false⟩) = ⟨false, false, none, .none⟩ := rfl
  rw [this]
  generalize tm (Full.depth (lib.lookup ·) (lib.length + 1)) T (Scene.start reg name v) false false false ⟨false, false, none, .none⟩ = o
  obtain ⟨w, o⟩ := o
  cases o with
  | error e => rfl
  | ok μ =>
      show Outcome.result (w ++ (tm _ .nil _ _ _ _ μ).1, (tm _ .nil _ _ _ _ μ).2) = _
      rw [tm]
      simp [wrote, Outcome.result]

/-- **C87**: `{{> p x}}` renders as the template `p` does on its own when its data is the value of `x`: the same text,
error or panic.  For this `p`, and the partials it may include, must look at nothing else: no `../`, no `@root`, no name
that is found in the data and not in the value (and `p` must not include itself). -/
theorem C87_partial (hV : Valued) (p : Str) (x : SPath) (T : STm) (names : List Str) (d v : Value) (lib : List (Str × STm)) (reg : Reg)
    (hb : Equipped reg) (hl : Full.Holds reg lib) (hp : lib.lookup p = some T) (hn : p ∉ names)
    (hT : T.alone names d v = true) (hlib : ∀ q ∈ names, ∀ U, lib.lookup q = some U → U.alone names d v = true)
    (name : Str) (hx : ((Scene.start reg name d).find x).getD .null = v) (hok : (callOn p x).ok [] = true) :
    ∃ N, ∀ n, N ≤ n → Reg.once n reg name (callOn p x).src d = Reg.once n reg name T.src v := by
  subst hx
  refine partial_alone hV p _ T names d _ lib reg hb hl hp hn hT hlib name [] [((Scene.start reg name d).find x).getD .null] ?_ ?_ rfl hok
  · rfl
  · rfl

/-- **C87**: `{{> p k=x …}}` renders as the template `p` does on its own when its data is the object of these arguments. -/
theorem C87_hash (hV : Valued) (p : Str) (h : SHash) (hs : List (Str × Value)) (T : STm) (names : List Str) (d : Value) (lib : List (Str × STm)) (reg : Reg)
    (hb : Equipped reg) (hl : Full.Holds reg lib) (hp : lib.lookup p = some T) (hn : p ∉ names)
    (hT : T.alone names d (.obj (object hs)) = true) (hlib : ∀ q ∈ names, ∀ U, lib.lookup q = some U → U.alone names d (.obj (object hs)) = true)
    (name : Str) (hh : h.eval ((Scene.start reg name d).enter (.part p)) .none = said hs) (hok : (callWith p h).ok [] = true) :
    ∃ N, ∀ n, N ≤ n → Reg.once n reg name (callWith p h).src d = Reg.once n reg name T.src (.obj (object hs)) :=
  partial_alone hV p (.done h) T names d _ lib reg hb hl hp hn hT hlib name hs [] hh rfl rfl hok

theorem over_result {X : Str → Prop} {o : Outcome} (h : Over X o) : ∃ w e, X w ∧ TooDeep w e ∧ o.result = .err (.render e) := by
  obtain ⟨w, e, h1, h2, h3⟩ := h
  obtain ⟨u, x⟩ := o
  cases h2
  exact ⟨w, e, h1, h3, rfl⟩

theorem result_nil (L : Library) (Γ : Scene) (o : Outcome) : (o.andThen (tm L .nil Γ false false false)).result = o.result := by
  obtain ⟨w, y⟩ := o
  cases y with
  | error f => rfl
  | ok μ => simp [Outcome.andThen, tm, wrote, Outcome.result]

theorem with_alone (hV : Valued) (hw : Custom.fn c!"with" = none) (x : SPath) (T : STm) (names : List Str) (d v : Value) (lib : List (Str × STm)) (reg : Reg)
    (hb : Equipped reg) (hl : Full.Holds reg lib) (K : SPath → Bool) (hK : ∀ p, K p = true → p.alone d v = true) (X : Str → Prop)
    (hX : ∀ w, (w = blockMissingName ∨ K ⟨0, .name w, []⟩ = true) → w ≠ c!"with" ∨ X w)
    (hT : T.every K anyCall (fun x => x.any names.contains) = true)
    (hlib : ∀ q ∈ names, ∀ U, lib.lookup q = some U → U.every K anyCall (fun x => x.any names.contains) = true)
    (name : Str) (hx : (Scene.start reg name d).find x = some v) (hv : v ≠ .null) (hTok : T.ok [] = true) (hok : (withOn x T).ok [] = true) :
    ∃ N, ∀ n, N ≤ n → Reg.once n reg name (withOn x T).src d = reported (Reg.once n reg name T.src v) ∨
      ∃ w e, X w ∧ TooDeep w e ∧ Reg.once n reg name (withOn x T).src d = .err (.render e) := by
  obtain ⟨N, h⟩ := whole_once _ hok lib reg hb hl (lib.length + 1) (Nat.le_refl _) name d
  obtain ⟨M, h'⟩ := whole_once T hTok lib reg hb hl (lib.length + 1) (Nat.le_refl _) name v
  refine ⟨max N M, fun n hn' => ?_⟩
  rw [h n (Nat.le_trans (Nat.le_max_left ..) hn'), h' n (Nat.le_trans (Nat.le_max_right ..) hn')]
  have t : Alike True X K (fun x => x.any names.contains) (Inside v [] d (.block c!"with")) :=
    Inside.alike (fun p hp => ⟨hK p hp, unheard_nil p⟩) (fun w h => by cases h)
      (fun w hw => (hX w hw).imp_left fun h e => h (by injection e with e; exact e.symm)) (fun w _ h => by cases h)
  have key := (agree_tm t (fun _ => hV) (agree_depth t (fun _ => hV) (get := (lib.lookup ·)) (fun h => by cases h) (fun q U hq hU => hlib q (List.contains_iff_mem.1 hq) U hU) (lib.length + 1)) T hT
    (Γ := ((Scene.start reg name d).enter (.block c!"with")).push ⟨some v, []⟩) (Δ := Scene.start reg name v)
    ⟨rfl, rfl, rfl, rfl, rfl, rfl, fun _ h => (by cases h), rfl⟩ false false false ⟨false, false, none, .none⟩ (fun _ h => by cases h)).same
  have hh : isHelper c!"with" = true := by
    unfold isHelper
    rw [show helperNames.contains c!"with" = true from by decide, Bool.or_true]
  have hev : (SArgs.arg (.path x) (.done .nil)).eval ((Scene.start reg name d).enter (.block c!"with")) .none = said ([v], []) := by
    rw [SArgs.arg, SArgs.eval, SExpr.eval, show ((Scene.start reg name d).enter (.block c!"with")).find x = some v from hx]
    rfl
  unfold withOn
  rw [Full.tm, if_neg (by simp), result_nil]
  unfold Full.block
  rw [if_pos hh]
  unfold helped
  rw [if_neg (by simp [Scene.full, Scene.start])]
  rw [show (Mood.next ⟨false, false, none, .none⟩ false ⟨false || false, stops .nil false⟩) = ⟨false, false, none, .none⟩ from rfl, hev]
  unfold Full.blockHelper
  rw [hw]
  unfold Full.builtinBlock
  simp only [said, Outcome.after]
  rw [if_neg (by decide), if_neg (by decide), if_neg (by decide), if_pos trivial]
  simp only [Bool.or_false, List.nil_append, Bool.and_false]
  rcases key with key | key
  · left
    rw [key]
    generalize tm (Full.depth (lib.lookup ·) (lib.length + 1)) T (((Scene.start reg name d).enter (.block c!"with")).push ⟨some v, []⟩) false false false ⟨false, false, none, .none⟩ = o
    obtain ⟨w, o⟩ := o
    cases o with
    | error e => cases e <;> rfl
    | ok μ => simp [Outcome.andThen, Outcome.within, wrote, Outcome.result, reported]
  · right
    exact over_result (over_within (over_andThen key))

/-- **C87**: `{{#with x}}T{{/with}}` renders as `T` does on its own when its data is the value of `x` (not null): the same
text, the same error reported through the helper, or a panic. -/
theorem C87_with (hV : Valued) (hw : Custom.fn c!"with" = none) (x : SPath) (T : STm) (names : List Str) (d v : Value) (lib : List (Str × STm)) (reg : Reg)
    (hb : Equipped reg) (hl : Full.Holds reg lib)
    (hT : T.aloneInWith names d v = true) (hlib : ∀ q ∈ names, ∀ U, lib.lookup q = some U → U.aloneInWith names d v = true)
    (name : Str) (hx : (Scene.start reg name d).find x = some v) (hv : v ≠ .null) (hTok : T.ok [] = true) (hok : (withOn x T).ok [] = true) :
    ∃ N, ∀ n, N ≤ n → Reg.once n reg name (withOn x T).src d = reported (Reg.once n reg name T.src v) := by
  obtain ⟨N, h⟩ := with_alone hV hw x T names d v lib reg hb hl (fun p => p.alone d v && p != ⟨0, .name c!"with", []⟩)
    (fun p hp => by simp only [Bool.and_eq_true] at hp; exact hp.1) (fun _ => False) (fun w hw => .inl fun h => by
      subst h
      rcases hw with hw | hw
      · exact absurd hw (by decide)
      · simp at hw) hT hlib name hx hv hTok hok
  refine ⟨N, fun n hn => ?_⟩
  rcases h n hn with h | ⟨_, _, h, _⟩
  · exact h
  · cases h

/-- **C87**: when there are other blocks `with` inside, the same unless there are too many of them. -/
theorem C87_with_nested (hV : Valued) (hw : Custom.fn c!"with" = none) (x : SPath) (T : STm) (names : List Str) (d v : Value) (lib : List (Str × STm)) (reg : Reg)
    (hb : Equipped reg) (hl : Full.Holds reg lib)
    (hT : T.alone names d v = true) (hlib : ∀ q ∈ names, ∀ U, lib.lookup q = some U → U.alone names d v = true)
    (name : Str) (hx : (Scene.start reg name d).find x = some v) (hv : v ≠ .null) (hTok : T.ok [] = true) (hok : (withOn x T).ok [] = true) :
    ∃ N, ∀ n, N ≤ n → UnlessDeep c!"with" (Reg.once n reg name (withOn x T).src d) (reported (Reg.once n reg name T.src v)) := by
  obtain ⟨N, h⟩ := with_alone hV hw x T names d v lib reg hb hl (SPath.alone d v) (fun p hp => hp) (· = c!"with") (fun w hw => by
    by_cases h : w = c!"with"
    · exact .inr h
    · exact .inl h) hT hlib name hx hv hTok hok
  refine ⟨N, fun n hn => (h n hn).imp_right ?_⟩
  rintro ⟨w, e, rfl, h⟩
  exact ⟨e, h⟩

end

/-! ### Examples -/

attribute [local instance] exHost noCustom

private def t0 : Tilde := ⟨false, false, [], [], []⟩
private def g0 : Tilde := ⟨false, false, [], c!" ", []⟩

/-- `<b>{{title}}</b>{{#each tags}}{{@index}}{{this}}{{> sep}}{{/each}}` -/
private def cardTm : STm :=
  .text c!"<b>" <| .stmt false false t0 ⟨0, .name c!"title", []⟩ (.done .nil) <| .text c!"</b>" <|
  .block false t0 c!"each" (.arg (.path ⟨0, .name c!"tags", []⟩) (.done .nil))
    (.stmt false false t0 ⟨0, .loc c!"index", []⟩ (.done .nil) <| .stmt false false t0 ⟨0, .this, []⟩ (.done .nil) <|
      .stmt false true g0 ⟨0, .name c!"sep", []⟩ (.done .nil) .nil) .nil t0 .nil
private def sepTm : STm := .text c!";" .nil
private def post : Value := .obj [(c!"tags", .arr [.str c!"x", .str c!"y"]), (c!"title", .str c!"T")]
/-- The site has a title too: the card sees its own. -/
private def site : Value := .obj [(c!"name", .str c!"S"), (c!"post", post), (c!"title", .str c!"Site")]
private def cardLib : List (Str × STm) := [(c!"card", cardTm), (c!"sep", sepTm)]

example : String.ofList cardTm.src = "<b>{{title}}</b>{{#each tags}}{{@index}}{{this}}{{> sep}}{{/each}}" ∧ String.ofList (callOn c!"card" ⟨0, .name c!"post", []⟩).src = "{{> card post}}" ∧
    String.ofList (withOn ⟨0, .name c!"post", []⟩ cardTm).src = "{{#with post}}<b>{{title}}</b>{{#each tags}}{{@index}}{{this}}{{> sep}}{{/each}}{{/with}}" := by decide +kernel
example : cardTm.ok [] = true ∧ sepTm.ok [] = true ∧ (callOn c!"card" ⟨0, .name c!"post", []⟩).ok [] = true ∧ cardTm.alone [c!"sep"] site post = true ∧ sepTm.alone [c!"sep"] site post = true ∧
    cardTm.aloneInWith [c!"sep"] site post = true ∧ (withOn ⟨0, .name c!"post", []⟩ cardTm).ok [] = true ∧
    (callWith c!"card" (.pair c!"title" (.path ⟨0, .name c!"name", []⟩) .nil)).ok [] = true := by decide +kernel
example : c!"card" ∉ [c!"sep"] ∧ cardLib.lookup c!"card" = some cardTm ∧ (Scene.start Reg.new c!"t" site).find ⟨0, .name c!"post", []⟩ = some post := ⟨by decide, rfl, rfl⟩
example : (Full.meaning cardLib (callOn c!"card" ⟨0, .name c!"post", []⟩) (Scene.start Reg.new c!"t" site)).1 = c!"<b>T</b>0x;1y;" ∧
    (Full.meaning cardLib cardTm (Scene.start Reg.new c!"t" post)).1 = c!"<b>T</b>0x;1y;" := by decide +kernel
example : Valued := ⟨fun _ _ h => (nomatch h), fun _ h => (nomatch h)⟩
example : (SHash.pair c!"title" (.path ⟨0, .name c!"name", []⟩) .nil).eval ((Scene.start Reg.new c!"t" site).enter (.part c!"card")) .none = said [(c!"title", .str c!"S")] := rfl

private def titleTm : STm := .stmt false false t0 ⟨0, .name c!"title", []⟩ (.done .nil) .nil

/-- **C87**, why the partial may not mention a member of the data that its value lacks: where its own value has none of that name, it sees
those of the data. -/
theorem C87_inherits : ∃ reg : Reg, titleTm.src = c!"{{title}}" ∧ (callOn c!"me" ⟨0, .name c!"who", []⟩).src = c!"{{> me who}}" ∧
    ∃ N, ∀ n, N ≤ n → Reg.once n reg c!"t" (callOn c!"me" ⟨0, .name c!"who", []⟩).src (.obj [(c!"title", .str c!"T"), (c!"who", .obj [])]) = .ok c!"T" ∧
      Reg.once n reg c!"t" titleTm.src (.obj []) = .ok [] := by
  obtain ⟨_, h1, h2⟩ := C61_insert [] Reg.new ⟨fun _ => rfl, rfl, rfl, rfl⟩ (fun _ => rfl) c!"me" titleTm (by decide +kernel)
  obtain ⟨N, h⟩ := C61_once (callOn c!"me" ⟨0, .name c!"who", []⟩) (by decide +kernel) _ _ h1 h2 c!"t" (.obj [(c!"title", .str c!"T"), (c!"who", .obj [])])
  obtain ⟨M, h'⟩ := C61_once titleTm (by decide +kernel) _ _ h1 h2 c!"t" (.obj [])
  exact ⟨_, rfl, rfl, max N M, fun n hn => ⟨(h n (by omega)).trans rfl, (h' n (by omega)).trans rfl⟩⟩

end Bracket.Props
