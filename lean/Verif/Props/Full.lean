import Verif.Lemmas.FullMain
import Verif.Props.Core

/-! C61, C62, C54: what templates write, with `~` and partials, from source to output. -/

set_option linter.unusedSectionVars false
set_option linter.unusedSimpArgs false

namespace Bracket.Props
open Bracket Re Spec
open Bracket.Spec.Full (Mood Outcome wrote failed cut opens isNil stops Library)

section
variable [Host] [Custom]

theorem whole_lib {reg : Reg} {lib : List (Str × STm)} (h : Full.Holds reg lib) {name : Str} {data : Value} {sink : Sink} :
    Whole.LibRep { reg, name, root := data, sink } (lib.lookup ·) := by
  intro x
  have hx := h x
  simp only at hx ⊢
  cases hl : lib.lookup x with
  | none => rw [hl] at hx; exact hx
  | some T =>
      rw [hl] at hx
      obtain ⟨hok, o, t, h1, h2⟩ := hx
      obtain ⟨ns, g1, g2⟩ := C56_roundtrip T o hok
      unfold compileTemplate at h1
      rw [g1] at h1
      simp only at h1
      injection h1 with h1
      subst h1
      exact ⟨_, ns, [], h2, rfl, g2, hok⟩

theorem mem_of_lookup {x : Str} : ∀ {l : List (Str × STm)}, (l.lookup x).isSome = true → x ∈ l.map (·.1)
  | [], h => by cases h
  | (y, T) :: l, h => by
      rw [List.lookup_cons] at h
      by_cases hxy : (x == y) = true
      · simp only [beq_iff_eq] at hxy; simp [hxy]
      · have : (x == y) = false := by simpa using hxy
        rw [this] at h
        simp [mem_of_lookup h]

/-- Rendering the compiled nodes of a template, partials nested as deep as you like. -/
theorem whole_renders {T : STm} {ns : List Node} {k src : Str} (hT : TmRep T ns) (hok : T.ok k = true) {reg : Reg}
    (hb : Equipped reg) {lib : List (Str × STm)} (hl : Full.Holds reg lib) (d : Nat) (hd : lib.length + 1 ≤ d) (name : Str) (data : Value)
    {sink : Sink} (hs : ∀ ws w, ∃ n, sink ws w = .ok n) :
    Whole.Does (fun n => renderAll (sem n) { reg, name, root := data, sink } (.document src ns)) (RS.init []) (Scene.start reg name data)
      { reg, name, root := data, sink }
      (Full.tm (Full.depth (lib.lookup ·) d) T (Scene.start reg name data) false false false ⟨false, false, none, .none⟩) := by
  have hnames : ∀ x, (x = c!"@partial-block" ∨ (lib.lookup x).isSome) → x ∈ c!"@partial-block" :: lib.map (·.1) := by
    rintro x (rfl | h)
    · exact List.mem_cons_self
    · exact List.mem_cons_of_mem _ (mem_of_lookup h)
  have hro : Whole.Room (c!"@partial-block" :: lib.map (·.1)) d (Scene.start reg name data) := by
    refine Nat.le_trans (List.length_filter_le _ _) ?_
    simpa using hd
  have hp := (Whole.inner (names := c!"@partial-block" :: lib.map (·.1)) (whole_lib hl (name := name) (data := data) (sink := sink)) hnames d).2
  exact Whole.does_tm _ hp T ns k hT hok _ false false false (Whole.loop_top _) _ _ ⟨false, false, none, .none⟩ none none hro (at_start hb name data hs)
    ⟨rfl, rfl, rfl, rfl⟩ ⟨rfl, by simp⟩

/-- What `once` returns. -/
theorem whole_once (T : STm) (hok : T.ok [] = true) (lib : List (Str × STm)) (reg : Reg) (hb : Equipped reg) (hl : Full.Holds reg lib)
    (d : Nat) (hd : lib.length + 1 ≤ d) (name : Str) (data : Value) :
    ∃ N, ∀ n, N ≤ n → Reg.once n reg name T.src data =
      (Full.tm (Full.depth (lib.lookup ·) d) T (Scene.start reg name data) false false false ⟨false, false, none, .none⟩).result := by
  obtain ⟨ns, h1, h2⟩ := C56_roundtrip T ⟨name, 0, 0⟩ hok
  have hd := whole_renders (src := T.src) h2 hok hb hl d hd name data (sink := stringSink) fun _ _ => ⟨_, rfl⟩
  revert hd
  generalize Full.tm (Full.depth (lib.lookup ·) d) T (Scene.start reg name data) false false false ⟨false, false, none, .none⟩ = o
  intro hd
  have key : ∀ n, Reg.once n reg name T.src data = match renderAll (sem n) { reg, name, root := data, sink := stringSink } (.document T.src ns) (RS.init []) with
      | (.ok _, s) => .ok (outText s.out)
      | (.err e, _) => .err (.render e)
      | (.panic, _) => .panic
      | (.fuel, _) => .fuel := by
    intro n
    unfold Reg.once compileTemplate
    rw [h1]
    rfl
  obtain ⟨w, e⟩ := o
  cases e with
  | ok μ =>
      obtain ⟨a, t, g1, g2, g3, g4⟩ := hd
      obtain ⟨N, hN⟩ := g1.ge (mono_renderAll _ _)
      refine ⟨N, fun n hn => ?_⟩
      rw [key, hN n hn]
      simp only [Full.Outcome.result]
      rw [g4]
      rfl
  | error e =>
      obtain ⟨t, g1, g2⟩ := hd
      obtain ⟨N, hN⟩ := g1.ge (mono_renderAll _ _)
      refine ⟨N, fun n hn => ?_⟩
      rw [key, hN n hn]
      cases e <;> rfl

/-- **C61**: for every well-formed template, with `~` and partials anywhere, compiling its source and
rendering it with the built-in helpers and any well-formed registered templates gives exactly what the
reference interpreter says: the text, or the error, or the panic (for every recursion bound from some
point on). -/
theorem C61_once (T : STm) (hok : T.ok [] = true) (lib : List (Str × STm)) (reg : Reg) (hb : Equipped reg) (hl : Full.Holds reg lib)
    (name : Str) (data : Value) :
    ∃ N, ∀ n, N ≤ n → Reg.once n reg name T.src data = (Full.meaning lib T (Scene.start reg name data)).result :=
  whole_once T hok lib reg hb hl _ (Nat.le_refl _) name data

/-- **C61**: the limit the interpreter puts on the nesting of partials is never felt: with any larger one
it says the same. -/
theorem C61_depth (T : STm) (hok : T.ok [] = true) (lib : List (Str × STm)) (reg : Reg) (hb : Equipped reg) (hl : Full.Holds reg lib)
    (name : Str) (data : Value) (d : Nat) (hd : lib.length + 1 ≤ d) :
    (Full.tm (Full.depth (lib.lookup ·) d) T (Scene.start reg name data) false false false ⟨false, false, none, .none⟩).result =
      (Full.meaning lib T (Scene.start reg name data)).result := by
  obtain ⟨N, h⟩ := whole_once T hok lib reg hb hl d hd name data
  obtain ⟨M, h'⟩ := C61_once T hok lib reg hb hl name data
  rw [← h (max N M) (Nat.le_max_left ..), h' (max N M) (Nat.le_max_right ..)]

/-- **C61**: without `~` and partials this is the interpreter of C53. -/
theorem C61_core (T : STm) (hok : T.ok [] = true) (hc : T.core = true) (lib : List (Str × STm)) (reg : Reg) (hb : Equipped reg) (hl : Full.Holds reg lib)
    (name : Str) (data : Value) :
    (Full.meaning lib T (Scene.start reg name data)).result = (T.den (Scene.start reg name data)).result := by
  obtain ⟨N, h⟩ := C53_once T hok hc reg hb name data
  obtain ⟨M, h'⟩ := C61_once T hok lib reg hb hl name data
  rw [← h (max N M) (Nat.le_max_left ..), h' (max N M) (Nat.le_max_right ..)]

/-- **C61**: the same for a registered template, rendered by name to any destination that accepts every
write; what reached the destination is the interpreter's text even when rendering fails. -/
theorem C61_registered (lib : List (Str × STm)) (reg : Reg) (hb : Equipped reg) (hl : Full.Holds reg lib) (name : Str) (T : STm)
    (hT : lib.lookup name = some T) (data : Value) (sink : Sink) (hs : ∀ ws w, ∃ n, sink ws w = .ok n) :
    ∃ N, ∀ n, N ≤ n → ∃ ws, outText ws = (Full.meaning lib T (Scene.start reg name data)).1 ∧
      reg.renderToWrite n sink name data =
        ((match (Full.meaning lib T (Scene.start reg name data)).2 with
          | .ok _ => .ok ()
          | .error (.err e) => .err (.render e)
          | .error .panic => .panic), ws) := by
  have hx := hl name
  rw [hT] at hx
  obtain ⟨hok, o, t, h1, hget⟩ := hx
  obtain ⟨ns, g1, h2⟩ := C56_roundtrip T o hok
  unfold compileTemplate at h1
  rw [g1] at h1
  simp only at h1
  injection h1 with h1
  subst h1
  have hd := whole_renders (src := T.src) h2 hok hb hl _ (Nat.le_refl _) name data hs
  unfold Full.meaning
  revert hd
  generalize Full.tm (Full.depth (lib.lookup ·) (lib.length + 1)) T (Scene.start reg name data) false false false ⟨false, false, none, .none⟩ = o'
  intro hd
  have key : ∀ n, reg.renderToWrite n sink name data = match renderAll (sem n) { reg, name, root := data, sink } (.document T.src ns) (RS.init []) with
      | (.ok _, s) => (.ok (), s.out)
      | (.err e, s) => (.err (.render e), s.out)
      | (.panic, s) => (.panic, s.out)
      | (.fuel, s) => (.fuel, s.out) := by
    intro n
    unfold Reg.renderToWrite
    rw [show assoc name reg.templates = _ from hget]
    rfl
  obtain ⟨w, e⟩ := o'
  cases e with
  | ok μ =>
      obtain ⟨a, t, g1, g2, g3, g4⟩ := hd
      obtain ⟨N, hN⟩ := g1.ge (mono_renderAll _ _)
      exact ⟨N, fun n hn => ⟨t.out, by rw [g4]; rfl, by rw [key, hN n hn]⟩⟩
  | error e =>
      obtain ⟨t, g1, g2⟩ := hd
      obtain ⟨N, hN⟩ := g1.ge (mono_renderAll _ _)
      refine ⟨N, fun n hn => ⟨t.out, by rw [g2]; rfl, ?_⟩⟩
      rw [key, hN n hn]
      cases e <;> rfl

/-- **C61**: registering well-formed templates one after the other gives a registry the above is about. -/
theorem C61_insert (lib : List (Str × STm)) (reg : Reg) (hb : Equipped reg) (hl : Full.Holds reg lib) (name : Str) (T : STm) (hok : T.ok [] = true) :
    (reg.insert name T.src).1 = .ok () ∧ Equipped (reg.insert name T.src).2 ∧ Full.Holds (reg.insert name T.src).2 ((name, T) :: lib) := by
  obtain ⟨ns, h1, h2⟩ := C56_roundtrip T ⟨name, 0, 0⟩ hok
  have hins : reg.insert name T.src = (.ok (), { reg with
      templates := assocInsert name ⟨if name ≠ unknownName then some name else none, .document T.src ns⟩ reg.templates }) := by
    unfold Reg.insert compileTemplate
    rw [h1]
  rw [hins]
  refine ⟨rfl, ⟨hb.1, hb.2, hb.3, hb.4⟩, fun x => ?_⟩
  rw [List.lookup_cons]
  by_cases hx : x = name
  · subst hx
    simp only [beq_self_eq_true]
    exact ⟨hok, ⟨x, 0, 0⟩, ⟨if x ≠ unknownName then some x else none, .document T.src ns⟩, by unfold compileTemplate; rw [h1], assoc_insert_self x _ _⟩
  · have : (x == name) = false := by simpa using hx
    rw [this]
    have hxl := hl x
    have hg : ∀ t : Template, Reg.get { reg with templates := assocInsert name t reg.templates } x = reg.get x :=
      fun t => assoc_insert_ne _ _ hx
    simp only [hg]
    exact hxl

/-! ### C62 -/

theorem thinner_refl (w : Str) : Full.Thinner w w := ⟨List.Sublist.refl w, rfl⟩
theorem ink_append (a b : Str) : Full.ink (a ++ b) = Full.ink a ++ Full.ink b := List.filter_append ..
theorem thinner_append {a b a' b' : Str} (h : Full.Thinner a a') (h' : Full.Thinner b b') : Full.Thinner (a ++ b) (a' ++ b') :=
  ⟨h.1.append h'.1, by rw [ink_append, ink_append, h.2, h'.2]⟩
theorem thinner_trans {a b c : Str} (h : Full.Thinner a b) (h' : Full.Thinner b c) : Full.Thinner a c := ⟨h.1.trans h'.1, h.2.trans h'.2⟩

theorem thinner_trimStart : ∀ w : Str, Full.Thinner (trimStart w) w
  | [] => thinner_refl _
  | c :: w => by
      rw [trimStart]
      split
      · rename_i h
        have ih := thinner_trimStart w
        exact ⟨ih.1.trans (List.sublist_cons_self c w), by rw [ih.2]; simp [Full.ink, h]⟩
      · exact thinner_refl _

theorem thinner_reverse {a b : Str} (h : Full.Thinner a b) : Full.Thinner a.reverse b.reverse :=
  ⟨h.1.reverse, by unfold Full.ink; rw [List.filter_reverse, List.filter_reverse]; exact congrArg _ h.2⟩

theorem thinner_trimEnd (w : Str) : Full.Thinner (trimEnd w) w := by
  have := thinner_reverse (thinner_trimStart w.reverse)
  rwa [List.reverse_reverse] at this

theorem thinner_cut (a b : Bool) (w : Str) : Full.Thinner (cut a b w) w := by
  unfold cut
  cases a <;> cases b <;> simp only [if_true, Bool.false_eq_true, if_false]
  · exact thinner_refl _
  · exact thinner_trimEnd _
  · exact thinner_trimStart _
  · exact thinner_trans (thinner_trimEnd _) (thinner_trimStart _)

/-- What is dropped is white space. -/
theorem thinner_cons {c : Char} {u w : Str} (hs : u.Sublist w) (h : Full.ink u = Full.ink (c :: w)) : isWs c = true ∧ Full.ink u = Full.ink w := by
  have hl := (hs.filter fun c => !isWs c).length_le
  cases hc : isWs c with
  | true => exact ⟨rfl, by rw [h]; simp [Full.ink, hc]⟩
  | false =>
      exfalso
      have := congrArg List.length h
      simp only [Full.ink, List.filter_cons, hc, Bool.not_false, if_true, List.length_cons] at this hl
      omega

theorem airy_flatMap {f : Char → Str} (hf : ∀ c, isWs c = true → f c = [c]) : Full.Airy fun w => w.flatMap f := by
  refine ⟨rfl, ?_⟩
  rintro u w ⟨hs, hi⟩
  induction hs with
  | slnil => exact thinner_refl _
  | @cons u w c hs ih =>
      obtain ⟨hc, hi'⟩ := thinner_cons hs hi
      have ih := ih hi'
      simp only [List.flatMap_cons, hf c hc]
      exact ⟨ih.1.trans (List.sublist_cons_self c _), by rw [ih.2]; simp [Full.ink, hc]⟩
  | @cons_cons u w c hs ih =>
      simp only [List.flatMap_cons]
      refine thinner_append (thinner_refl _) (ih ?_)
      unfold Full.ink at hi ⊢
      simp only [List.filter_cons] at hi
      split at hi
      · injection hi
      · exact hi

/-- The default escape function leaves white space alone, and so does the one that does nothing. -/
theorem C62_escapes : Full.Airy escapeHtml ∧ Full.Airy escapeNoop := by
  refine ⟨airy_flatMap fun c hc => ?_, rfl, fun _ _ h => h⟩
  unfold htmlChar
  split <;> first | rfl | (exfalso; revert hc; decide)

/-- The mood without `~`s. -/
def calm (μ : Mood) : Mood := ⟨false, false, μ.block.map Full.bare, .none⟩

/-- The same but for white space. -/
def Lighter (a b : Outcome) : Prop :=
  Full.Thinner a.1 b.1 ∧ match a.2, b.2 with
    | .ok μ, .ok ν => ν = calm μ
    | .error f, .error g => f = g
    | _, _ => False

theorem lighter_wrote {u w : Str} (h : Full.Thinner u w) {μ ν : Mood} (hm : ν = calm μ) : Lighter (wrote u μ) (wrote w ν) := ⟨h, hm⟩
theorem lighter_failed (f : Fault) : Lighter (failed f) (failed f) := ⟨thinner_refl _, rfl⟩

theorem Lighter.andThen {a b : Outcome} {k l : Mood → Outcome} (h : Lighter a b) (hk : ∀ μ, Lighter (k μ) (l (calm μ))) :
    Lighter (a.andThen k) (b.andThen l) := by
  obtain ⟨u, x⟩ := a
  obtain ⟨w, y⟩ := b
  obtain ⟨h1, h2⟩ := h
  cases x with
  | error f => cases y with
    | error g => exact ⟨h1, h2⟩
    | ok ν => exact h2.elim
  | ok μ => cases y with
    | error g => exact h2.elim
    | ok ν =>
        simp only at h2
        subst h2
        exact ⟨thinner_append h1 (hk μ).1, (hk μ).2⟩

theorem Lighter.within {a b : Outcome} (h : Lighter a b) : Lighter a.within b.within := by
  obtain ⟨u, x⟩ := a
  obtain ⟨w, y⟩ := b
  obtain ⟨h1, h2⟩ := h
  cases x with
  | error f => cases y with
    | error g => exact ⟨h1, congrArg _ h2⟩
    | ok ν => exact h2.elim
  | ok μ => cases y with
    | error g => exact h2.elim
    | ok ν => exact ⟨h1, h2⟩

theorem thinner_print {Γ : Scene} (hΓ : Full.Airy Γ.escape) (k : Cut) (x : Print) : Full.Thinner (Γ.print k x) (Γ.print .none x) := by
  have key : ∀ w, (if w = [] then [] else if x.escaped then Γ.escape w else w) = if x.escaped then Γ.escape w else w := by
    intro w
    split
    · rename_i h; subst h; cases x.escaped <;> simp [hΓ.1]
    · rfl
  unfold Scene.print
  simp only [key]
  cases x.escaped with
  | false => exact thinner_cut _ _ _
  | true => exact hΓ.2 _ _ (thinner_cut _ _ _)

theorem thinner_printAll {Γ : Scene} (hΓ : Full.Airy Γ.escape) (k : Cut) : ∀ l : List Print, Full.Thinner (Γ.printAll k l) (Γ.printAll .none l)
  | [] => thinner_refl _
  | x :: l => thinner_append (thinner_print hΓ k x) (thinner_printAll hΓ k l)

/-- The same but for white space. -/
def LighterSaid {α : Type} (x y : Said α) : Prop := Full.Thinner x.1 y.1 ∧ x.2 = y.2

theorem LighterSaid.refl {α : Type} (x : Said α) : LighterSaid x x := ⟨thinner_refl _, rfl⟩

theorem LighterSaid.bind {α β : Type} {x y : Said α} {f g : α → Said β} (h : LighterSaid x y) (hf : ∀ a, LighterSaid (f a) (g a)) :
    LighterSaid (x.bind f) (y.bind g) := by
  obtain ⟨u, x⟩ := x
  obtain ⟨w, y⟩ := y
  obtain ⟨h1, h2⟩ := h
  simp only at h1 h2
  subst h2
  cases x with
  | error e => exact ⟨h1, rfl⟩
  | ok a => exact ⟨thinner_append h1 (hf a).1, (hf a).2⟩

theorem Lighter.after {α : Type} {x y : Said α} {f g : α → Outcome} (h : LighterSaid x y) (hf : ∀ a, Lighter (f a) (g a)) :
    Lighter (.after x f) (.after y g) := by
  obtain ⟨u, x⟩ := x
  obtain ⟨w, y⟩ := y
  obtain ⟨h1, h2⟩ := h
  simp only at h1 h2
  subst h2
  cases x with
  | error e => exact ⟨h1, rfl⟩
  | ok a => exact ⟨thinner_append h1 (hf a).1, (hf a).2⟩

theorem lighter_said {Γ : Scene} (hΓ : Full.Airy Γ.escape) (k : Cut) (f : CustomFn) (vs : List Value) (hs : List (Str × Value)) :
    LighterSaid (f.said Γ k vs hs) (f.said Γ .none vs hs) := ⟨thinner_printAll hΓ k _, rfl⟩

theorem lighter_value {Γ : Scene} (hΓ : Full.Airy Γ.escape) (k : Cut) (name : Str) (vs : List Value) (hs : List (Str × Value)) :
    LighterSaid (helperValue name Γ k vs hs) (helperValue name Γ .none vs hs) := by
  unfold helperValue
  cases Custom.fn name with
  | none => exact .refl _
  | some f => exact lighter_said hΓ k f vs hs

mutual
theorem lighter_expr : ∀ (x : SExpr) (Γ : Scene) (k : Cut), Full.Airy Γ.escape → LighterSaid (x.eval Γ k) (x.eval Γ .none)
  | .path p, Γ, k, hΓ => by rw [SExpr.eval, SExpr.eval]; exact .refl _
  | .lit l, Γ, k, hΓ => by rw [SExpr.eval, SExpr.eval]; exact .refl _
  | .sub p a, Γ, k, hΓ => by
      rw [SExpr.eval, SExpr.eval]
      cases p.helper with
      | some h =>
          simp only
          split
          · exact .refl _
          · exact (lighter_args a (Γ.enter (.helper h)) k hΓ).bind fun x => lighter_value hΓ k h x.1 x.2
      | none =>
          simp only
          cases Γ.find p with
          | some v => exact .refl _
          | none =>
              simp only
              cases p.handler with
              | none => exact .refl _
              | some f =>
                  simp only
                  split
                  · exact .refl _
                  · exact (lighter_args a (Γ.enter (.helper missingName)) k hΓ).bind fun x => lighter_said hΓ k f x.1 x.2
theorem lighter_args : ∀ (a : SArgs) (Γ : Scene) (k : Cut), Full.Airy Γ.escape → LighterSaid (a.eval Γ k) (a.eval Γ .none)
  | .done h, Γ, k, hΓ => by rw [SArgs.eval, SArgs.eval]; exact (lighter_hash h Γ k hΓ).bind fun _ => .refl _
  | .argW _ x r, Γ, k, hΓ => by
      rw [SArgs.eval, SArgs.eval]
      exact (lighter_expr x Γ k hΓ).bind fun _ => (lighter_args r Γ k hΓ).bind fun _ => .refl _
theorem lighter_hash : ∀ (h : SHash) (Γ : Scene) (k : Cut), Full.Airy Γ.escape → LighterSaid (h.eval Γ k) (h.eval Γ .none)
  | .tail _, Γ, k, hΓ => by rw [SHash.eval, SHash.eval]; exact .refl _
  | .pairW _ w x r, Γ, k, hΓ => by
      rw [SHash.eval, SHash.eval]
      exact (lighter_expr x Γ k hΓ).bind fun _ => (lighter_hash r Γ k hΓ).bind fun _ => .refl _
end

theorem lighter_positional : ∀ (a : SArgs) (Γ : Scene) (k : Cut), Full.Airy Γ.escape → LighterSaid (Full.positional a Γ k) (Full.positional a Γ .none)
  | .done h, Γ, k, hΓ => by rw [Full.positional, Full.positional]; exact .refl _
  | .argW _ x r, Γ, k, hΓ => by
      rw [Full.positional, Full.positional]
      exact (lighter_expr x Γ k hΓ).bind fun _ => (lighter_positional r Γ k hΓ).bind fun _ => .refl _

theorem lighter_prints {Γ : Scene} (hΓ : Full.Airy Γ.escape) (raw : Bool) {x y : Said (Option Value)} (h : LighterSaid x y) (μ : Mood) :
    Lighter (Full.prints Γ raw x μ) (Full.prints Γ raw y (calm μ)) := by
  unfold Full.prints
  refine Lighter.after h fun v => ?_
  cases v with
  | none => exact lighter_wrote (thinner_refl _) rfl
  | some v => exact lighter_wrote (thinner_print hΓ _ _) rfl

/-- The contents of a block, the second without `~`s. -/
def LighterIn (D D' : Scene → Mood → Outcome) : Prop :=
  ∀ Γ, Full.Airy Γ.escape → ∀ μ, Lighter (D Γ μ) (D' Γ (calm μ))

theorem lighter_rounds {D D' : Scene → Mood → Outcome} (h : LighterIn D D') {Γ : Scene} (hΓ : Full.Airy Γ.escape) :
    ∀ rs μ, Lighter (Full.rounds D Γ rs μ) (Full.rounds D' Γ rs (calm μ))
  | [], μ => lighter_wrote (thinner_refl _) rfl
  | r :: rs, μ => by
      rw [Full.rounds, Full.rounds]
      exact ((h (Γ.push r.scope) hΓ μ).within).andThen fun ν => lighter_rounds h hΓ rs ν

theorem lighter_builtin {D D' A A' : Scene → Mood → Outcome} (hD : LighterIn D D') (hA : LighterIn A A') {Γ : Scene} (hΓ : Full.Airy Γ.escape)
    (name : Str) (vs : List Value) (hs : List (Str × Value)) (μ : Mood) :
    Lighter (Full.builtinBlock name vs hs D A Γ μ) (Full.builtinBlock name vs hs D' A' Γ (calm μ)) := by
  have none : Lighter (wrote [] μ) (wrote [] (calm μ)) := lighter_wrote (thinner_refl _) rfl
  have val : Lighter (match builtinValue name vs hs with
      | .error f => failed f
      | .ok _ => wrote [] μ) (match builtinValue name vs hs with
      | .error f => failed f
      | .ok _ => wrote [] (calm μ)) := by
    cases builtinValue name vs hs with
    | error f => exact lighter_failed f
    | ok _ => exact none
  unfold Full.builtinBlock
  match vs, val with
  | [v], val =>
      simp only
      split
      · split
        · exact (hD Γ hΓ μ).within
        · exact (hA Γ hΓ μ).within
      split
      · split
        · exact (hA Γ hΓ μ).within
        · exact (hD Γ hΓ μ).within
      split
      · cases v with
        | arr l => exact lighter_rounds hD hΓ _ μ
        | obj l => exact lighter_rounds hD hΓ _ μ
        | _ => exact none
      split
      · cases v with
        | null => exact none
        | _ => exact (hD (Γ.push ⟨some _, []⟩) hΓ μ).within
      · exact val
  | [], val => exact val
  | _ :: _ :: _, val => exact val

theorem lighter_contents {D D' : Scene → Mood → Outcome} (h : LighterIn D D') {Γ : Scene} (hΓ : Full.Airy Γ.escape) (e : Option HelperErr) :
    ∀ l μ, Lighter (Full.contents D Γ e l μ) (Full.contents D' Γ e l (calm μ))
  | [], μ => by
      cases e with
      | none => exact lighter_wrote (thinner_refl _) rfl
      | some e => exact lighter_failed _
  | .print x :: l, μ => (lighter_wrote (thinner_print hΓ _ x) rfl).andThen fun ν => lighter_contents h hΓ e l ν
  | .content none :: l, μ => ((h Γ hΓ μ).within).andThen fun ν => lighter_contents h hΓ e l ν
  | .content (some sc) :: l, μ => ((h (Γ.push sc) hΓ μ).within).andThen fun ν => lighter_contents h hΓ e l ν

theorem lighter_custom {D D' A A' : Scene → Mood → Outcome} (hD : LighterIn D D') (hA : LighterIn A A') {Γ : Scene} (hΓ : Full.Airy Γ.escape)
    (f : CustomFn) {t t' : Option Str} (vs : List Value) (hs : List (Str × Value)) (ht : f.block t' vs (hs.lookup ·) = f.block t vs (hs.lookup ·)) (μ : Mood) :
    Lighter (Full.customBlock f t vs hs D A Γ μ) (Full.customBlock f t' vs hs D' A' Γ (calm μ)) := by
  unfold Full.customBlock
  rw [ht]
  cases f.block t vs (fun k => hs.lookup k) with
  | contents l e => exact lighter_contents hD hΓ e l μ
  | otherwise => exact (hA Γ hΓ μ).within

/-- The texts of a raw block with and without `~`s. -/
def SameText : Option Str → Option Str → Prop
  | none, none => True
  | some _, some _ => True
  | _, _ => False

theorem lighter_helper (hB : Full.TextBlind) {D D' A A' : Scene → Mood → Outcome} (hD : LighterIn D D') (hA : LighterIn A A') {Γ : Scene} (hΓ : Full.Airy Γ.escape)
    (name : Str) {t t' : Option Str} (ht : SameText t t') (vs : List Value) (hs : List (Str × Value)) (μ : Mood) :
    Lighter (Full.blockHelper name t vs hs D A Γ μ) (Full.blockHelper name t' vs hs D' A' Γ (calm μ)) := by
  unfold Full.blockHelper
  cases hc : Custom.fn name with
  | none => exact lighter_builtin hD hA hΓ name vs hs μ
  | some f =>
      refine lighter_custom hD hA hΓ f vs hs ?_ μ
      match t, t', ht with
      | none, none, _ => rfl
      | some u, some w, _ => exact hB name f hc _ _ _ _

theorem lighter_helped (hB : Full.TextBlind) {D D' A A' : Scene → Mood → Outcome} (hD : LighterIn D D') (hA : LighterIn A A') {Γ : Scene} (hΓ : Full.Airy Γ.escape)
    (name : Str) {t t' : Option Str} (ht : SameText t t') (a : SArgs) (μ : Mood) :
    Lighter (Full.helped name t a D A Γ μ) (Full.helped name t' a D' A' Γ (calm μ)) := by
  unfold Full.helped
  split
  · exact lighter_failed _
  · exact Lighter.after (lighter_args a (Γ.enter (.block name)) _ hΓ) fun x =>
      lighter_helper hB hD hA (Γ := Γ.enter (.block name)) hΓ name ht x.1 x.2 μ

theorem lighter_block (hB : Full.TextBlind) {D D' A A' : Scene → Mood → Outcome} (hD : LighterIn D D') (hA : LighterIn A A') {Γ : Scene} (hΓ : Full.Airy Γ.escape)
    (name : Str) (a : SArgs) (μ : Mood) : Lighter (Full.block name a D A Γ μ) (Full.block name a D' A' Γ (calm μ)) := by
  unfold Full.block
  split
  · exact lighter_helped hB hD hA hΓ name (t := none) (t' := none) trivial a μ
  · cases Γ.find ⟨0, .name name, []⟩ with
    | some v =>
        simp only
        cases (Custom.blockMissing : Option (Str → Value → CustomFn)) with
        | none => exact (hD Γ hΓ μ).within
        | some f =>
            simp only [Full.handled]
            split
            · exact lighter_failed _
            · exact Lighter.after (lighter_args a (Γ.enter (.block blockMissingName)) _ hΓ) fun x =>
                lighter_custom hD hA (Γ := Γ.enter (.block blockMissingName)) hΓ (f name v) x.1 x.2 rfl μ
    | none =>
        simp only
        cases (Custom.missing : Option (Str → CustomFn)) with
        | none =>
            simp only
            split
            · exact lighter_failed _
            · exact lighter_wrote (thinner_refl _) rfl
        | some f => exact Lighter.after (lighter_expr _ Γ _ hΓ) fun _ => lighter_wrote (thinner_refl _) rfl

theorem lighter_link {Γ : Scene} (hΓ : Full.Airy Γ.escape) (e : Bool) (h : Str) (l t : Option Str) (μ : Mood) :
    Lighter (Full.link Γ e h l t μ) (Full.link Γ e h l t (calm μ)) := by
  unfold Full.link
  generalize (if e then none else (Custom.link : Option CustomFn)) = o
  cases o with
  | none => exact lighter_wrote (thinner_cut _ _ _) rfl
  | some f =>
      simp only
      split
      · exact lighter_failed _
      · exact Lighter.after (lighter_said hΓ _ f _ _) fun _ => lighter_wrote (thinner_refl _) rfl

/-- Two libraries, the second without `~`s. -/
def LighterLib (L L' : Library) : Prop :=
  (∀ x, L'.get x = (L.get x).map Full.bare) ∧
  ∀ T Γ, Full.Airy Γ.escape → ∀ μ, Lighter (L.render T Γ μ) (L'.render (Full.bare T) Γ (calm μ))

theorem lighter_included {L L' : Library} (hL : LighterLib L L') (content : Option STm) (name : Str) (a : SArgs) {Γ : Scene}
    (hΓ : Full.Airy Γ.escape) {μ ν : Mood} (hm : ν = calm μ) :
    Lighter (Full.included L content name a Γ μ) (Full.included L' (content.map Full.bare) name a Γ ν) := by
  subst hm
  unfold Full.included
  split
  · exact lighter_failed _
  have hg : (calm μ).given (content.map Full.bare) = calm (μ.given content) := by
    cases content <;> rfl
  rw [hg]
  generalize μ.given content = ν
  have hf : L'.find (calm ν) name = (L.find ν name).map Full.bare := by
    unfold Full.Library.find
    rw [hL.1]
    simp only [calm]
    split
    · cases ν.block <;> rfl
    · rfl
  rw [hf]
  cases L.find ν name with
  | none => exact lighter_failed _
  | some T =>
      simp only [Option.map_some]
      exact Lighter.after (lighter_hash _ (Γ.enter (.part name)) _ hΓ) fun hs =>
        Lighter.after (lighter_positional a (Γ.enter (.part name)) _ hΓ) fun vs =>
          hL.2 T ((Γ.enter (.part name)).push (Full.partialScope vs hs)) hΓ ν

theorem lighter_partial {L L' : Library} (hL : LighterLib L L') (content : Option STm) (p : SPath) (a : SArgs) {Γ : Scene}
    (hΓ : Full.Airy Γ.escape) {μ ν : Mood} (hm : ν = calm μ) :
    Lighter (Full.partialCall L content p a Γ μ) (Full.partialCall L' (content.map Full.bare) p a Γ ν) := by
  subst hm
  unfold Full.partialCall
  split
  · exact lighter_failed _
  · exact lighter_included hL content _ a hΓ rfl

theorem lighter_computed {L L' : Library} (hL : LighterLib L L') (q : SPath) (b a : SArgs) {Γ : Scene}
    (hΓ : Full.Airy Γ.escape) {μ ν : Mood} (hm : ν = calm μ) : Lighter (Full.computedCall L q b a Γ μ) (Full.computedCall L' q b a Γ ν) := by
  subst hm
  unfold Full.computedCall
  exact Lighter.after (lighter_expr _ Γ _ hΓ) fun v => lighter_included hL none _ a hΓ rfl

theorem isNil_bare (T : STm) : isNil (Full.bare T) = isNil T := by cases T <;> simp [Full.bare, isNil]

theorem opens_bare (T : STm) : opens (Full.bare T) = false := by cases T <;> simp [Full.bare, opens, Full.bareTag]

theorem stops_bare (T : STm) : stops (Full.bare T) false = false := by simp [stops, opens_bare]

theorem clauseEnd_bare (r : SCls) (cl : Tilde) : Full.clauseEnd (Full.bareCls r) (Full.bareTag cl) = (false, false) := by
  cases r <;> simp [Full.bareCls, Full.clauseEnd, Full.bareTag]

/-- The end of the content of a block. -/
theorem lighter_closed {a b : Outcome} (h : Lighter a b) (x : Bool) :
    Lighter (a.andThen fun μ => wrote [] { μ with close := x }) (b.andThen fun μ => wrote [] { μ with close := false }) :=
  h.andThen fun μ => lighter_wrote (thinner_refl _) rfl

mutual
theorem lighter_tm (hB : Full.TextBlind) {L L' : Library} (hL : LighterLib L L') : ∀ (T : STm) (Γ : Scene), Full.Airy Γ.escape → ∀ (o c s : Bool) (μ : Mood),
    Lighter (Full.tm L T Γ o c s μ) (Full.tm L' (Full.bare T) Γ false false false (calm μ))
  | .nil, Γ, hΓ, o, c, s, μ => by
      rw [Full.bare, Full.tm, Full.tm]
      exact lighter_wrote (thinner_refl _) rfl
  | .text w r, Γ, hΓ, o, c, s, μ => by
      rw [Full.bare, Full.tm, Full.tm]
      rw [stops_bare]
      exact Lighter.andThen (lighter_wrote (thinner_cut _ _ _) rfl) fun ν => lighter_tm hB hL r Γ hΓ o c false ν
  | .comment w r, Γ, hΓ, o, c, s, μ => by
      rw [Full.bare, Full.tm, Full.tm]
      rw [stops_bare]
      exact Lighter.andThen (lighter_wrote (thinner_refl _) rfl) fun ν => lighter_tm hB hL r Γ hΓ o c false ν
  | .longComment w r, Γ, hΓ, o, c, s, μ => by
      rw [Full.bare, Full.tm, Full.tm]
      rw [stops_bare]
      exact Lighter.andThen (lighter_wrote (thinner_refl _) rfl) fun ν => lighter_tm hB hL r Γ hΓ o c false ν
  | .escaped w r, Γ, hΓ, o, c, s, μ => by
      rw [Full.bare, Full.tm, Full.tm]
      rw [stops_bare]
      exact Lighter.andThen (lighter_wrote (thinner_cut _ _ _) rfl) fun ν => lighter_tm hB hL r Γ hΓ o c false ν
  | .link e h l t r, Γ, hΓ, o, c, s, μ => by
      rw [Full.bare, Full.tm, Full.tm]
      rw [stops_bare]
      exact Lighter.andThen (lighter_link hΓ e h l t _) fun ν => lighter_tm hB hL r Γ hΓ o c false ν
  | .stmt raw part tl p a r, Γ, hΓ, o, c, s, μ => by
      rw [Full.bare, Full.tm, Full.tm]
      refine Lighter.andThen ?_ fun ν => lighter_tm hB hL r Γ hΓ o c tl.after ν
      rw [stops_bare]
      cases part with
      | true => exact lighter_partial hL none p a hΓ rfl
      | false => exact lighter_prints hΓ raw (lighter_expr _ Γ _ hΓ) _
  | .dyn raw part tl q b a r, Γ, hΓ, o, c, s, μ => by
      rw [Full.bare, Full.tm, Full.tm]
      refine Lighter.andThen ?_ fun ν => lighter_tm hB hL r Γ hΓ o c tl.after ν
      rw [stops_bare]
      cases part with
      | true => exact lighter_computed hL q b a hΓ rfl
      | false => exact lighter_prints hΓ raw (lighter_expr _ Γ _ hΓ) _
  | .rawBlock tl name a w cl r, Γ, hΓ, o, c, s, μ => by
      rw [Full.bare, Full.tm, Full.tm]
      refine Lighter.andThen ?_ fun ν => lighter_tm hB hL r Γ hΓ o c o ν
      rw [stops_bare]
      split
      · have hD : LighterIn (fun _ μ => wrote (cut (μ.hint || tl.after || μ.close) cl.before w)
              ⟨false, cl.after, μ.block, ⟨μ.hint || tl.after || μ.close, cl.before⟩⟩)
            (fun _ μ => wrote (cut (μ.hint || (Full.bareTag tl).after || μ.close) (Full.bareTag cl).before w)
              ⟨false, (Full.bareTag cl).after, μ.block, ⟨μ.hint || (Full.bareTag tl).after || μ.close, (Full.bareTag cl).before⟩⟩) :=
          fun Δ _ ν => lighter_wrote (thinner_cut _ _ _) rfl
        have hA : LighterIn (fun _ μ => wrote [] μ) (fun _ μ => wrote [] μ) := fun Δ _ ν => lighter_wrote (thinner_refl _) rfl
        exact lighter_helped hB hD hA hΓ name (t := some _) (t' := some _) trivial a { μ.next tl.after ⟨s || μ.close, stops r c⟩ with close := cl.after }
      · exact lighter_wrote (thinner_trans (thinner_cut _ _ _) (thinner_cut _ _ _)) rfl
  | .block part tl name a body cs cl r, Γ, hΓ, o, c, s, μ => by
      rw [Full.bare, Full.tm, Full.tm]
      refine Lighter.andThen ?_ fun ν => lighter_tm hB hL r Γ hΓ o c o ν
      rw [stops_bare]
      cases part with
      | true => exact lighter_partial hL (some body) _ a hΓ rfl
      | false =>
          have hD : LighterIn (fun Δ μ => (Full.tm L body Δ tl.after cl.before (μ.hint || tl.after) μ).andThen fun μ => wrote [] { μ with close := !isNil body && cl.after })
              (fun Δ μ => (Full.tm L' (Full.bare body) Δ (Full.bareTag tl).after (Full.bareTag cl).before (μ.hint || (Full.bareTag tl).after) μ).andThen fun μ =>
                wrote [] { μ with close := !isNil (Full.bare body) && (Full.bareTag cl).after }) := by
            intro Δ hΔ ν
            have := lighter_closed (lighter_tm hB hL body Δ hΔ tl.after cl.before (ν.hint || tl.after) ν) (!isNil body && cl.after)
            simpa [Full.bareTag, calm] using this
          have hA : LighterIn (fun Δ μ => Full.clauses L cs cl Δ (fun μ => wrote [] μ) μ)
              (fun Δ μ => Full.clauses L' (Full.bareCls cs) (Full.bareTag cl) Δ (fun μ => wrote [] μ) μ) :=
            fun Δ hΔ ν => lighter_cls hB hL cs cl Δ hΔ (fun μ => lighter_wrote (thinner_refl _) rfl) ν
          exact lighter_block hB hD hA hΓ name a (μ.next tl.after ⟨s || μ.close, stops r c⟩)
theorem lighter_cls (hB : Full.TextBlind) {L L' : Library} (hL : LighterLib L L') : ∀ (cs : SCls) (cl : Tilde) (Γ : Scene), Full.Airy Γ.escape →
    ∀ {f g : Mood → Outcome}, (∀ μ, Lighter (f μ) (g (calm μ))) → ∀ μ,
    Lighter (Full.clauses L cs cl Γ f μ) (Full.clauses L' (Full.bareCls cs) (Full.bareTag cl) Γ g (calm μ))
  | .nil, cl, Γ, hΓ, f, g, hf, μ => by rw [Full.bareCls, Full.clauses, Full.clauses]; exact hf μ
  | .cons tl none body r, cl, Γ, hΓ, f, g, hf, μ => by
      rw [Full.bareCls, Full.clauses, Full.clauses]
      refine lighter_cls hB hL r cl Γ hΓ (fun ν => ?_) μ
      have := lighter_closed (lighter_tm hB hL body Γ hΓ tl.after (Full.clauseEnd r cl).1 (ν.hint || tl.after) ν) (!isNil body && (Full.clauseEnd r cl).2)
      rw [clauseEnd_bare]
      simpa [Full.bareTag, calm] using this
  | .cons tl (some (p, a)) body r, cl, Γ, hΓ, f, g, hf, μ => by
      rw [Full.bareCls, Full.clauses, Full.clauses]
      refine Lighter.after (lighter_expr _ Γ _ hΓ) fun v => ?_
      split
      · have := lighter_closed (lighter_tm hB hL body Γ hΓ tl.after (Full.clauseEnd r cl).1 (μ.hint || tl.after) μ) (!isNil body && (Full.clauseEnd r cl).2)
        rw [clauseEnd_bare]
        simpa [Full.bareTag, calm] using this
      · exact lighter_cls hB hL r cl Γ hΓ hf μ
end

theorem lookup_bare (x : Str) : ∀ lib : List (Str × STm), (Full.bareLib lib).lookup x = (lib.lookup x).map Full.bare
  | [] => rfl
  | (y, T) :: l => by
      show ((y, Full.bare T) :: Full.bareLib l).lookup x = _
      rw [List.lookup_cons, List.lookup_cons]
      cases x == y with
      | true => rfl
      | false => exact lookup_bare x l

theorem lighter_depth (hB : Full.TextBlind) (lib : List (Str × STm)) : ∀ d, LighterLib (Full.depth (lib.lookup ·) d) (Full.depth ((Full.bareLib lib).lookup ·) d)
  | 0 => ⟨fun x => lookup_bare x lib, fun T Γ hΓ μ => lighter_failed _⟩
  | d + 1 => ⟨fun x => lookup_bare x lib, fun T Γ hΓ μ => lighter_tm hB (lighter_depth hB lib d) T Γ hΓ false false μ.hint μ⟩

theorem lighter_meaning (hB : Full.TextBlind) (lib : List (Str × STm)) (T : STm) (Γ : Scene) (hΓ : Full.Airy Γ.escape) :
    Lighter (Full.meaning lib T Γ) (Full.meaning (Full.bareLib lib) (Full.bare T) Γ) := by
  unfold Full.meaning
  rw [show (Full.bareLib lib).length = lib.length by simp [Full.bareLib]]
  exact lighter_tm hB (lighter_depth hB lib _) T Γ hΓ false false false ⟨false, false, none, .none⟩

/-- **C62**: removing the `~`s from a template and from the partials it uses changes only white space:
what is written with them is what is written without them less some white space, and an error is the same
error. -/
theorem C62_removes (hB : Full.TextBlind) (T : STm) (hok : T.ok [] = true) (hok' : (Full.bare T).ok [] = true) (lib : List (Str × STm)) (reg reg' : Reg)
    (hb : Equipped reg) (hb' : Equipped reg') (hl : Full.Holds reg lib) (hl' : Full.Holds reg' (Full.bareLib lib))
    (hs : reg'.strict = reg.strict) (he : reg'.escape = reg.escape) (ha : Full.Airy reg.escape) (name : Str) (data : Value) :
    ∃ N, ∀ n, N ≤ n →
      match Reg.once n reg name T.src data, Reg.once n reg' name (Full.bare T).src data with
      | .ok u, .ok w => Full.Thinner u w
      | .err e, .err e' => e = e'
      | .panic, .panic => True
      | _, _ => False := by
  obtain ⟨N, h⟩ := C61_once T hok lib reg hb hl name data
  obtain ⟨M, h'⟩ := C61_once (Full.bare T) hok' (Full.bareLib lib) reg' hb' hl' name data
  refine ⟨max N M, fun n hn => ?_⟩
  rw [h n (Nat.le_trans (Nat.le_max_left ..) hn), h' n (Nat.le_trans (Nat.le_max_right ..) hn)]
  have hsc : Scene.start reg' name data = Scene.start reg name data := by unfold Scene.start; rw [hs, he]
  rw [hsc]
  have := lighter_meaning hB lib T (Scene.start reg name data) ha
  revert this
  generalize Full.meaning lib T (Scene.start reg name data) = a
  generalize Full.meaning (Full.bareLib lib) (Full.bare T) (Scene.start reg name data) = b
  obtain ⟨u, x⟩ := a
  obtain ⟨w, y⟩ := b
  rintro ⟨h1, h2⟩
  cases x with
  | error f => cases y with
    | error g => cases h2; cases f <;> first | rfl | trivial
    | ok ν => exact h2.elim
  | ok μ => cases y with
    | error g => exact h2.elim
    | ok ν => exact h1

/-- **C62**: two well-formed templates that differ only in their `~`s, rendered with registries that do,
write the same characters other than white space, or fail with the same error. -/
theorem C62_same (hB : Full.TextBlind) (T U : STm) (hok : T.ok [] = true) (hok' : U.ok [] = true) (lib lib' : List (Str × STm)) (reg reg' : Reg)
    (hb : Equipped reg) (hb' : Equipped reg') (hl : Full.Holds reg lib) (hl' : Full.Holds reg' lib')
    (hT : Full.bare T = Full.bare U) (hlib : Full.bareLib lib = Full.bareLib lib')
    (hs : reg'.strict = reg.strict) (he : reg'.escape = reg.escape) (ha : Full.Airy reg.escape) (name : Str) (data : Value) :
    ∃ N, ∀ n, N ≤ n →
      match Reg.once n reg name T.src data, Reg.once n reg' name U.src data with
      | .ok u, .ok w => Full.ink u = Full.ink w
      | .err e, .err e' => e = e'
      | .panic, .panic => True
      | _, _ => False := by
  obtain ⟨N, h⟩ := C61_once T hok lib reg hb hl name data
  obtain ⟨M, h'⟩ := C61_once U hok' lib' reg' hb' hl' name data
  refine ⟨max N M, fun n hn => ?_⟩
  rw [h n (Nat.le_trans (Nat.le_max_left ..) hn), h' n (Nat.le_trans (Nat.le_max_right ..) hn)]
  have hsc : Scene.start reg' name data = Scene.start reg name data := by unfold Scene.start; rw [hs, he]
  rw [hsc]
  have g1 := lighter_meaning hB lib T (Scene.start reg name data) ha
  have g2 := lighter_meaning hB lib' U (Scene.start reg name data) ha
  rw [← hT, ← hlib] at g2
  revert g1 g2
  generalize Full.meaning lib T (Scene.start reg name data) = a
  generalize Full.meaning lib' U (Scene.start reg name data) = c
  generalize Full.meaning (Full.bareLib lib) (Full.bare T) (Scene.start reg name data) = b
  obtain ⟨u, x⟩ := a
  obtain ⟨v, z⟩ := c
  obtain ⟨w, y⟩ := b
  rintro ⟨h1, h2⟩ ⟨h3, h4⟩
  cases x with
  | error f => cases y with
    | error g => cases z with
      | error k => cases h2; cases h4; cases f <;> first | rfl | trivial
      | ok _ => exact h4.elim
    | ok ν => exact h2.elim
  | ok μ => cases y with
    | error g => exact h2.elim
    | ok ν => cases z with
      | error _ => exact h4.elim
      | ok _ => exact h1.2.trans h3.2.symm

/-! ### C54 -/

/-- The text is made of pieces the author wrote, perhaps without white space at their ends, and of escaped
values. -/
def Bland (own : List Str) (w : Str) : Prop :=
  ∃ cs : List Str, w = cs.flatten ∧ ∀ c ∈ cs, (∃ x ∈ own, Full.Thinner c x) ∨ ∃ v, c = escapeHtml v

theorem Bland.nil (own : List Str) : Bland own [] := ⟨[], rfl, by simp⟩
theorem Bland.append {own : List Str} {a b : Str} (h : Bland own a) (h' : Bland own b) : Bland own (a ++ b) := by
  obtain ⟨cs, rfl, h⟩ := h
  obtain ⟨ds, rfl, h'⟩ := h'
  refine ⟨cs ++ ds, by simp, fun c hc => ?_⟩
  rcases List.mem_append.1 hc with hc | hc
  · exact h c hc
  · exact h' c hc
theorem Bland.own {own : List Str} {u w : Str} (h : w ∈ own) (hu : Full.Thinner u w) : Bland own u := ⟨[u], by simp, by simpa using .inl ⟨w, h, hu⟩⟩

/-- The template does not write markup of values, and its text is in `own`. -/
def Meek (own : List Str) (T : STm) : Prop := T.tame = true ∧ ∀ c ∈ T.own, c ∈ own

def MeekMood (own : List Str) (μ : Mood) : Prop := ∀ T, μ.block = some T → Meek own T

/-- What is written is bland, and so is what comes. -/
def Quiet (own : List Str) (o : Outcome) : Prop := Bland own o.1 ∧ ∀ μ, o.2 = .ok μ → MeekMood own μ

theorem quiet_wrote {own : List Str} {w : Str} (h : Bland own w) {μ : Mood} (hm : MeekMood own μ) : Quiet own (wrote w μ) :=
  ⟨h, fun _ e => by injection e with e; exact e ▸ hm⟩
theorem quiet_none {own : List Str} {μ : Mood} (hm : MeekMood own μ) : Quiet own (wrote [] μ) := quiet_wrote (.nil _) hm
theorem quiet_failed {own : List Str} (f : Fault) : Quiet own (failed f) := ⟨.nil _, nofun⟩

theorem Quiet.andThen {own : List Str} {a : Outcome} {k : Mood → Outcome} (h : Quiet own a) (hk : ∀ μ, MeekMood own μ → Quiet own (k μ)) :
    Quiet own (a.andThen k) := by
  obtain ⟨w, x⟩ := a
  cases x with
  | error f => exact ⟨h.1, nofun⟩
  | ok μ =>
      have h2 := hk μ (h.2 μ rfl)
      exact ⟨h.1.append h2.1, h2.2⟩

theorem Quiet.within {own : List Str} {a : Outcome} (h : Quiet own a) : Quiet own a.within := by
  obtain ⟨w, x⟩ := a
  cases x with
  | error f => exact ⟨h.1, nofun⟩
  | ok μ => exact h

/-- The content of a block. -/
def QuietIn (own : List Str) (D : Scene → Mood → Outcome) : Prop :=
  ∀ Γ, Γ.escape = escapeHtml → ∀ μ, MeekMood own μ → Quiet own (D Γ μ)

theorem quiet_rounds {own : List Str} {D : Scene → Mood → Outcome} (h : QuietIn own D) {Γ : Scene} (hΓ : Γ.escape = escapeHtml) :
    ∀ rs μ, MeekMood own μ → Quiet own (Full.rounds D Γ rs μ)
  | [], μ, hm => quiet_none hm
  | r :: rs, μ, hm => by
      rw [Full.rounds]
      exact ((h (Γ.push r.scope) hΓ μ hm).within).andThen fun ν hν => quiet_rounds h hΓ rs ν hν

theorem quiet_builtin {own : List Str} {D A : Scene → Mood → Outcome} (hD : QuietIn own D) (hA : QuietIn own A) {Γ : Scene} (hΓ : Γ.escape = escapeHtml)
    (name : Str) (vs : List Value) (hs : List (Str × Value)) {μ : Mood} (hm : MeekMood own μ) : Quiet own (Full.builtinBlock name vs hs D A Γ μ) := by
  have val : Quiet own (match builtinValue name vs hs with
      | .error f => failed f
      | .ok _ => wrote [] μ) := by
    cases builtinValue name vs hs with
    | error f => exact quiet_failed f
    | ok _ => exact quiet_none hm
  unfold Full.builtinBlock
  match vs, val with
  | [v], val =>
      simp only
      split
      · split
        · exact (hD Γ hΓ μ hm).within
        · exact (hA Γ hΓ μ hm).within
      split
      · split
        · exact (hA Γ hΓ μ hm).within
        · exact (hD Γ hΓ μ hm).within
      split
      · cases v with
        | arr l => exact quiet_rounds hD hΓ _ μ hm
        | obj l => exact quiet_rounds hD hΓ _ μ hm
        | _ => exact quiet_none hm
      split
      · cases v with
        | null => exact quiet_none hm
        | _ => exact (hD (Γ.push ⟨some _, []⟩) hΓ μ hm).within
      · exact val
  | [], val => exact val
  | _ :: _ :: _, val => exact val

theorem _root_.Bracket.Props.Inert.bland {own : List Str} {w : Str} (h : Inert own w) : Bland own w := by
  obtain ⟨cs, h1, h2⟩ := h
  exact ⟨cs, h1, fun c hc => (h2 c hc).imp (fun hm => ⟨c, hm, thinner_refl c⟩) id⟩

theorem Quiet.after {own : List Str} {α : Type} {x : Said α} {f : α → Outcome} (h : Inert own x.1) (hf : ∀ a, Quiet own (f a)) :
    Quiet own (.after x f) := by
  obtain ⟨w, x⟩ := x
  cases x with
  | error e => exact ⟨h.bland, nofun⟩
  | ok a => exact ⟨h.bland.append (hf a).1, (hf a).2⟩

theorem quiet_contents {own : List Str} {D : Scene → Mood → Outcome} (h : QuietIn own D) {Γ : Scene} (hΓ : Γ.escape = escapeHtml) (e : Option HelperErr) :
    ∀ l, (∀ x, Act.print x ∈ l → x.escaped = true) → ∀ μ, MeekMood own μ → Quiet own (Full.contents D Γ e l μ)
  | [], hl, μ, hm => by
      cases e with
      | none => exact quiet_none hm
      | some e => exact quiet_failed _
  | .print x :: l, hl, μ, hm => (quiet_wrote (inert_print hΓ _ (hl x List.mem_cons_self)).bland hm).andThen fun ν hν =>
      quiet_contents h hΓ e l (fun y hy => hl y (List.mem_cons_of_mem _ hy)) ν hν
  | .content none :: l, hl, μ, hm => ((h Γ hΓ μ hm).within).andThen fun ν hν =>
      quiet_contents h hΓ e l (fun y hy => hl y (List.mem_cons_of_mem _ hy)) ν hν
  | .content (some sc) :: l, hl, μ, hm => ((h (Γ.push sc) hΓ μ hm).within).andThen fun ν hν =>
      quiet_contents h hΓ e l (fun y hy => hl y (List.mem_cons_of_mem _ hy)) ν hν

theorem quiet_custom {own : List Str} {D A : Scene → Mood → Outcome} (hD : QuietIn own D) (hA : QuietIn own A) {Γ : Scene} (hΓ : Γ.escape = escapeHtml)
    {f : CustomFn} (hf : f.careful) (t : Option Str) (vs : List Value) (hs : List (Str × Value)) {μ : Mood} (hm : MeekMood own μ) :
    Quiet own (Full.customBlock f t vs hs D A Γ μ) := by
  unfold Full.customBlock
  cases h : f.block t vs (fun k => hs.lookup k) with
  | contents l e => exact quiet_contents hD hΓ e l (hf.block _ _ _ _ _ h) μ hm
  | otherwise => exact (hA Γ hΓ μ hm).within

theorem quiet_helper (hC : Careful) {own : List Str} {D A : Scene → Mood → Outcome} (hD : QuietIn own D) (hA : QuietIn own A) {Γ : Scene} (hΓ : Γ.escape = escapeHtml)
    (name : Str) (t : Option Str) (vs : List Value) (hs : List (Str × Value)) {μ : Mood} (hm : MeekMood own μ) :
    Quiet own (Full.blockHelper name t vs hs D A Γ μ) := by
  unfold Full.blockHelper
  cases h : Custom.fn name with
  | none => exact quiet_builtin hD hA hΓ name vs hs hm
  | some f => exact quiet_custom hD hA hΓ (hC.fn name f h) t vs hs hm

theorem quiet_helped (hC : Careful) {own : List Str} {D A : Scene → Mood → Outcome} (hD : QuietIn own D) (hA : QuietIn own A) {Γ : Scene} (hΓ : Γ.escape = escapeHtml)
    (name : Str) (t : Option Str) (a : SArgs) {μ : Mood} (hm : MeekMood own μ) : Quiet own (Full.helped name t a D A Γ μ) := by
  unfold Full.helped
  split
  · exact quiet_failed _
  · exact Quiet.after (inert_args hC a (Γ.enter (.block name)) _ hΓ) fun x =>
      quiet_helper hC hD hA (Γ := Γ.enter (.block name)) hΓ name t x.1 x.2 hm

theorem quiet_block (hC : Careful) {own : List Str} {D A : Scene → Mood → Outcome} (hD : QuietIn own D) (hA : QuietIn own A) {Γ : Scene} (hΓ : Γ.escape = escapeHtml)
    (name : Str) (a : SArgs) {μ : Mood} (hm : MeekMood own μ) : Quiet own (Full.block name a D A Γ μ) := by
  unfold Full.block
  split
  · exact quiet_helped hC hD hA hΓ name none a hm
  · cases Γ.find ⟨0, .name name, []⟩ with
    | some v =>
        simp only
        cases h : (Custom.blockMissing : Option (Str → Value → CustomFn)) with
        | none => exact (hD Γ hΓ μ hm).within
        | some f =>
            simp only [Full.handled]
            split
            · exact quiet_failed _
            · exact Quiet.after (inert_args hC a (Γ.enter (.block blockMissingName)) _ hΓ) fun x =>
                quiet_custom hD hA (Γ := Γ.enter (.block blockMissingName)) hΓ (hC.blockMissing f name v h) none x.1 x.2 hm
    | none =>
        simp only
        cases (Custom.missing : Option (Str → CustomFn)) with
        | none =>
            simp only
            split
            · exact quiet_failed _
            · exact quiet_none hm
        | some f => exact Quiet.after (inert_expr hC _ Γ _ hΓ) fun _ => quiet_none hm

theorem quiet_link (hC : Careful) {own : List Str} {Γ : Scene} (hΓ : Γ.escape = escapeHtml) (e : Bool) (h : Str) (l t : Option Str)
    (ho : linkText false h l t ∈ own) {μ : Mood} (hm : MeekMood own μ) : Quiet own (Full.link Γ e h l t μ) := by
  have hf : ∀ f, (if e then none else (Custom.link : Option CustomFn)) = some f → f.careful := by
    intro f hf
    split at hf
    · cases hf
    · exact hC.link f hf
  unfold Full.link
  revert hf
  generalize (if e then none else (Custom.link : Option CustomFn)) = o
  intro hf
  cases o with
  | none => exact quiet_wrote (Bland.own ho (thinner_cut _ _ _)) hm
  | some f =>
      simp only
      split
      · exact quiet_failed _
      · exact Quiet.after (inert_said hΓ _ (hf f rfl) _ _) fun _ => quiet_none hm

theorem quiet_prints {own : List Str} {Γ : Scene} (hΓ : Γ.escape = escapeHtml) {x : Said (Option Value)} (h : Inert own x.1) {μ : Mood}
    (hm : MeekMood own μ) : Quiet own (Full.prints Γ false x μ) := by
  refine Quiet.after h fun v => ?_
  cases v with
  | none => exact quiet_none hm
  | some v => exact quiet_wrote (inert_print hΓ _ rfl).bland hm

theorem inert_positional (hC : Careful) {own : List Str} : ∀ (a : SArgs) (Γ : Scene) (k : Cut), Γ.escape = escapeHtml → Inert own (Full.positional a Γ k).1
  | .done h, Γ, k, hΓ => by rw [Full.positional]; exact .nil _
  | .argW _ x r, Γ, k, hΓ => by
      rw [Full.positional]
      exact (inert_expr hC x Γ k hΓ).bind fun _ => (inert_positional hC r Γ k hΓ).bind fun _ => .nil _

/-- Partials without markup. -/
def QuietLib (own : List Str) (L : Library) : Prop :=
  (∀ x T, L.get x = some T → Meek own T) ∧
  ∀ T, Meek own T → ∀ Γ, Γ.escape = escapeHtml → ∀ μ, MeekMood own μ → Quiet own (L.render T Γ μ)

theorem quiet_included (hC : Careful) {own : List Str} {L : Library} (hL : QuietLib own L) {content : Option STm} (hc : ∀ T, content = some T → Meek own T)
    (name : Str) (a : SArgs) {Γ : Scene} (hΓ : Γ.escape = escapeHtml) {μ : Mood} (hm : MeekMood own μ) :
    Quiet own (Full.included L content name a Γ μ) := by
  unfold Full.included
  split
  · exact quiet_failed _
  have hg : MeekMood own (μ.given content) := by
    cases content with
    | none => exact hm
    | some T => intro U hU; injection hU with hU; exact hU ▸ hc T rfl
  revert hg
  generalize μ.given content = ν
  intro hg
  have hf : ∀ T, L.find ν name = some T → Meek own T := by
    intro T
    unfold Full.Library.find
    split
    · cases hb : ν.block with
      | none => exact hL.1 _ T
      | some U => intro e; injection e with e; exact e ▸ hg U hb
    · exact hL.1 _ T
  cases hfe : L.find ν name with
  | none => exact quiet_failed _
  | some T =>
      simp only
      exact Quiet.after (inert_hash hC _ (Γ.enter (.part name)) _ hΓ) fun hs =>
        Quiet.after (inert_positional hC a (Γ.enter (.part name)) _ hΓ) fun vs =>
          hL.2 T (hf T hfe) ((Γ.enter (.part name)).push (Full.partialScope vs hs)) hΓ ν hg

theorem quiet_partial (hC : Careful) {own : List Str} {L : Library} (hL : QuietLib own L) {content : Option STm} (hc : ∀ T, content = some T → Meek own T)
    (p : SPath) (a : SArgs) {Γ : Scene} (hΓ : Γ.escape = escapeHtml) {μ : Mood} (hm : MeekMood own μ) :
    Quiet own (Full.partialCall L content p a Γ μ) := by
  unfold Full.partialCall
  split
  · exact quiet_failed _
  · exact quiet_included hC hL hc _ a hΓ hm

theorem quiet_computed (hC : Careful) {own : List Str} {L : Library} (hL : QuietLib own L) (q : SPath) (b a : SArgs) {Γ : Scene} (hΓ : Γ.escape = escapeHtml)
    {μ : Mood} (hm : MeekMood own μ) : Quiet own (Full.computedCall L q b a Γ μ) := by
  unfold Full.computedCall
  exact Quiet.after (inert_expr hC _ Γ _ hΓ) fun v => quiet_included hC hL (content := none) (fun _ h => by cases h) _ a hΓ hm

mutual
theorem quiet_tm (hC : Careful) {own : List Str} {L : Library} (hL : QuietLib own L) : ∀ (T : STm), Meek own T → ∀ (Γ : Scene), Γ.escape = escapeHtml →
    ∀ (o c s : Bool) (μ : Mood), MeekMood own μ → Quiet own (Full.tm L T Γ o c s μ)
  | .nil, hT, Γ, hΓ, o, c, s, μ, hm => by rw [Full.tm]; exact quiet_none hm
  | .text w r, hT, Γ, hΓ, o, c, s, μ, hm => by
      obtain ⟨h1, h2⟩ := hT
      rw [STm.tame] at h1
      rw [STm.own] at h2
      rw [Full.tm]
      exact Quiet.andThen (quiet_wrote (Bland.own (h2 _ List.mem_cons_self) (thinner_cut _ _ _)) hm)
        fun ν hν => quiet_tm hC hL r ⟨h1, fun c hc => h2 c (by simp [hc])⟩ Γ hΓ o c false ν hν
  | .comment w r, hT, Γ, hΓ, o, c, s, μ, hm => by
      obtain ⟨h1, h2⟩ := hT
      rw [STm.tame] at h1
      rw [STm.own] at h2
      rw [Full.tm]
      exact Quiet.andThen (quiet_none hm) fun ν hν => quiet_tm hC hL r ⟨h1, h2⟩ Γ hΓ o c false ν hν
  | .longComment w r, hT, Γ, hΓ, o, c, s, μ, hm => by
      obtain ⟨h1, h2⟩ := hT
      rw [STm.tame] at h1
      rw [STm.own] at h2
      rw [Full.tm]
      exact Quiet.andThen (quiet_none hm) fun ν hν => quiet_tm hC hL r ⟨h1, h2⟩ Γ hΓ o c false ν hν
  | .escaped w r, hT, Γ, hΓ, o, c, s, μ, hm => by
      obtain ⟨h1, h2⟩ := hT
      rw [STm.tame] at h1
      rw [STm.own] at h2
      rw [Full.tm]
      exact Quiet.andThen (quiet_wrote (Bland.own (h2 _ List.mem_cons_self) (thinner_cut _ _ _)) hm)
        fun ν hν => quiet_tm hC hL r ⟨h1, fun c hc => h2 c (by simp [hc])⟩ Γ hΓ o c false ν hν
  | .link e h l t r, hT, Γ, hΓ, o, c, s, μ, hm => by
      obtain ⟨h1, h2⟩ := hT
      rw [STm.tame] at h1
      rw [STm.own] at h2
      rw [Full.tm]
      exact Quiet.andThen (quiet_link hC hΓ e h l t (h2 _ List.mem_cons_self) hm)
        fun ν hν => quiet_tm hC hL r ⟨h1, fun c hc => h2 c (by simp [hc])⟩ Γ hΓ o c false ν hν
  | .stmt raw part tl p a r, hT, Γ, hΓ, o, c, s, μ, hm => by
      obtain ⟨h1, h2⟩ := hT
      rw [STm.tame] at h1
      simp only [Bool.and_eq_true, Bool.not_eq_true'] at h1
      obtain ⟨rfl, h1⟩ := h1
      rw [STm.own] at h2
      rw [Full.tm]
      refine Quiet.andThen ?_ fun ν hν => quiet_tm hC hL r ⟨h1, h2⟩ Γ hΓ o c tl.after ν hν
      cases part with
      | true => exact quiet_partial hC hL (content := none) (fun _ h => by cases h) p a hΓ hm
      | false =>
          simp only [Bool.false_eq_true, if_false]
          exact quiet_prints hΓ (inert_expr hC _ Γ _ hΓ) hm
  | .dyn raw part tl q b a r, hT, Γ, hΓ, o, c, s, μ, hm => by
      obtain ⟨h1, h2⟩ := hT
      rw [STm.tame] at h1
      simp only [Bool.and_eq_true, Bool.not_eq_true'] at h1
      obtain ⟨rfl, h1⟩ := h1
      rw [STm.own] at h2
      rw [Full.tm]
      refine Quiet.andThen ?_ fun ν hν => quiet_tm hC hL r ⟨h1, h2⟩ Γ hΓ o c tl.after ν hν
      cases part with
      | true => exact quiet_computed hC hL q b a hΓ hm
      | false =>
          simp only [Bool.false_eq_true, if_false]
          exact quiet_prints hΓ (inert_expr hC _ Γ _ hΓ) hm
  | .rawBlock tl name a w cl r, hT, Γ, hΓ, o, c, s, μ, hm => by
      obtain ⟨h1, h2⟩ := hT
      rw [STm.tame] at h1
      rw [STm.own] at h2
      rw [Full.tm]
      refine Quiet.andThen ?_ fun ν hν => quiet_tm hC hL r ⟨h1, fun c hc => h2 c (by simp [hc])⟩ Γ hΓ o c o ν hν
      split
      · have hD : QuietIn own (fun _ μ => wrote (cut (μ.hint || tl.after || μ.close) cl.before w) ⟨false, cl.after, μ.block, ⟨μ.hint || tl.after || μ.close, cl.before⟩⟩) :=
          fun Δ _ ν hν => quiet_wrote (Bland.own (h2 _ List.mem_cons_self) (thinner_cut _ _ _)) hν
        have hA : QuietIn own (fun _ μ => wrote [] μ) := fun Δ _ ν hν => quiet_none hν
        exact quiet_helped hC hD hA hΓ name (some _) a (μ := { μ.next tl.after ⟨s || μ.close, stops r c⟩ with close := cl.after }) hm
      · exact quiet_wrote (Bland.own (h2 _ List.mem_cons_self) (thinner_trans (thinner_cut _ _ _) (thinner_cut _ _ _))) hm
  | .block part tl name a body cs cl r, hT, Γ, hΓ, o, c, s, μ, hm => by
      obtain ⟨h1, h2⟩ := hT
      rw [STm.tame] at h1
      simp only [Bool.and_eq_true] at h1
      rw [STm.own] at h2
      rw [Full.tm]
      have hb : Meek own body := ⟨h1.1.1, fun c hc => h2 c (by simp [hc])⟩
      refine Quiet.andThen ?_ fun ν hν => quiet_tm hC hL r ⟨h1.2, fun c hc => h2 c (by simp [hc])⟩ Γ hΓ o c o ν hν
      cases part with
      | true => exact quiet_partial hC hL (content := some body) (by intro T hT; injection hT with hT; exact hT ▸ hb) _ a hΓ hm
      | false =>
          have hD : QuietIn own (fun Δ μ => (Full.tm L body Δ tl.after cl.before (μ.hint || tl.after) μ).andThen fun μ => wrote [] { μ with close := !isNil body && cl.after }) :=
            fun Δ hΔ ν hν => (quiet_tm hC hL body hb Δ hΔ _ _ _ ν hν).andThen fun κ hκ => quiet_none hκ
          have hA : QuietIn own (fun Δ μ => Full.clauses L cs cl Δ (fun μ => wrote [] μ) μ) :=
            fun Δ hΔ ν hν => quiet_cls hC hL cs h1.1.2 (fun c hc => h2 c (by simp [hc])) cl Δ hΔ (fun μ hμ => quiet_none hμ) ν hν
          exact quiet_block hC hD hA hΓ name a (μ := μ.next tl.after ⟨s || μ.close, stops r c⟩) hm
theorem quiet_cls (hC : Careful) {own : List Str} {L : Library} (hL : QuietLib own L) : ∀ (cs : SCls), cs.tame = true → (∀ c ∈ cs.own, c ∈ own) → ∀ (cl : Tilde) (Γ : Scene),
    Γ.escape = escapeHtml → ∀ {f : Mood → Outcome}, (∀ μ, MeekMood own μ → Quiet own (f μ)) → ∀ μ, MeekMood own μ → Quiet own (Full.clauses L cs cl Γ f μ)
  | .nil, h1, h2, cl, Γ, hΓ, f, hf, μ, hm => by rw [Full.clauses]; exact hf μ hm
  | .cons tl none body r, h1, h2, cl, Γ, hΓ, f, hf, μ, hm => by
      rw [SCls.tame] at h1
      simp only [Bool.and_eq_true] at h1
      rw [SCls.own] at h2
      rw [Full.clauses]
      have hb : Meek own body := ⟨h1.1, fun c hc => h2 c (by simp [hc])⟩
      exact quiet_cls hC hL r h1.2 (fun c hc => h2 c (by simp [hc])) cl Γ hΓ
        (f := fun μ => (Full.tm L body Γ tl.after (Full.clauseEnd r cl).1 (μ.hint || tl.after) μ).andThen fun μ =>
          wrote [] { μ with close := !isNil body && (Full.clauseEnd r cl).2 })
        (fun ν hν => (quiet_tm hC hL body hb Γ hΓ _ _ _ ν hν).andThen fun κ hκ => quiet_none hκ) μ hm
  | .cons tl (some (p, a)) body r, h1, h2, cl, Γ, hΓ, f, hf, μ, hm => by
      rw [SCls.tame] at h1
      simp only [Bool.and_eq_true] at h1
      rw [SCls.own] at h2
      rw [Full.clauses]
      have hb : Meek own body := ⟨h1.1, fun c hc => h2 c (by simp [hc])⟩
      refine Quiet.after (inert_expr hC _ Γ _ hΓ) fun v => ?_
      split
      · exact (quiet_tm hC hL body hb Γ hΓ _ _ _ μ hm).andThen fun κ hκ => quiet_none hκ
      · exact quiet_cls hC hL r h1.2 (fun c hc => h2 c (by simp [hc])) cl Γ hΓ hf μ hm
end

/-- The text of all the templates. -/
def ownAll (T : STm) (lib : List (Str × STm)) : List Str := T.own ++ lib.flatMap fun x => x.2.own

theorem mem_lookup {x : Str} {T : STm} : ∀ {l : List (Str × STm)}, l.lookup x = some T → (x, T) ∈ l
  | [], h => by cases h
  | (y, U) :: l, h => by
      rw [List.lookup_cons] at h
      by_cases hxy : x = y
      · subst hxy; simp at h; simp [h]
      · have : (x == y) = false := by simpa using hxy
        rw [this] at h
        simp [mem_lookup h]

theorem quiet_depth (hC : Careful) {own : List Str} {lib : List (Str × STm)} (h : ∀ x ∈ lib, Meek own x.2) : ∀ d, QuietLib own (Full.depth (lib.lookup ·) d)
  | 0 => ⟨fun x T hx => h _ (mem_lookup hx), fun _ _ _ _ _ _ => quiet_failed _⟩
  | d + 1 => ⟨fun x T hx => h _ (mem_lookup hx), fun T hT Γ hΓ μ hm => quiet_tm hC (quiet_depth hC h d) T hT Γ hΓ false false μ.hint μ hm⟩

theorem quiet_meaning (hC : Careful) (T : STm) (lib : List (Str × STm)) (hT : T.tame = true) (hl : ∀ x ∈ lib, x.2.tame = true) (Γ : Scene) (hΓ : Γ.escape = escapeHtml) :
    Bland (ownAll T lib) (Full.meaning lib T Γ).1 := by
  refine (quiet_tm hC (own := ownAll T lib) (quiet_depth hC (fun x hx => ⟨hl x hx, fun c hc => ?_⟩) _) T ⟨hT, fun c hc => ?_⟩ Γ hΓ false false false ⟨false, false, none, .none⟩ nofun).1
  · unfold ownAll
    exact List.mem_append_right _ (List.mem_flatMap.2 ⟨x, hx, hc⟩)
  · exact List.mem_append_left _ hc

theorem Bland.safe {own : List Str} {w : Str} (h : Bland own w) :
    ∃ cs : List Str, w = cs.flatten ∧ ∀ c ∈ cs, (∃ x ∈ own, Full.Thinner c x) ∨ HtmlSafe c := by
  obtain ⟨cs, h1, h2⟩ := h
  exact ⟨cs, h1, fun c hc => (h2 c hc).imp id (by rintro ⟨v, rfl⟩; exact C05_html_safe v)⟩

/-- **C54**, with `~` and partials: with the default escape function, a well-formed template without `{{{`
whose partials have none either writes, whatever the data and even when rendering fails, a sequence of pieces
each of which is text of one of the templates (perhaps less white space) or free of markup. -/
theorem C54_whole (hC : Careful) (lib : List (Str × STm)) (reg : Reg) (hb : Equipped reg) (hl : Full.Holds reg lib) (ht : ∀ x ∈ lib, x.2.tame = true)
    (he : reg.escape = escapeHtml) (T : STm) (hT : T.tame = true) (name : Str) (data : Value) :
    (T.ok [] = true → ∃ N, ∀ n, N ≤ n → ∀ w, Reg.once n reg name T.src data = .ok w →
      ∃ cs : List Str, w = cs.flatten ∧ ∀ c ∈ cs, (∃ x ∈ ownAll T lib, Full.Thinner c x) ∨ HtmlSafe c) ∧
    (lib.lookup name = some T → ∀ (sink : Sink), (∀ ws w, ∃ n, sink ws w = .ok n) →
      ∃ N, ∀ n, N ≤ n → ∃ cs : List Str, outText (reg.renderToWrite n sink name data).2 = cs.flatten ∧
        ∀ c ∈ cs, (∃ x ∈ ownAll T lib, Full.Thinner c x) ∨ HtmlSafe c) := by
  have key := (quiet_meaning hC T lib hT ht (Scene.start reg name data) he).safe
  constructor
  · intro hok
    obtain ⟨N, h⟩ := C61_once T hok lib reg hb hl name data
    refine ⟨N, fun n hn w hw => ?_⟩
    rw [h n hn] at hw
    revert key hw
    generalize Full.meaning lib T (Scene.start reg name data) = o
    obtain ⟨w', e⟩ := o
    intro key hw
    match e, hw with
    | .ok _, hw =>
        have : w' = w := by injection hw
        rw [← this]
        exact key
    | .error (.err _), hw => cases hw
    | .error .panic, hw => cases hw
  · intro hlk sink hs
    obtain ⟨N, h⟩ := C61_registered lib reg hb hl name T hlk data sink hs
    refine ⟨N, fun n hn => ?_⟩
    obtain ⟨ws, h1, h2⟩ := h n hn
    rw [h2]
    show ∃ cs : List Str, outText ws = _ ∧ _
    rw [h1]
    exact key

end

/-! ### Examples -/

attribute [local instance] exHost noCustom

private def t0 : Tilde := ⟨false, false, [], [], []⟩
private def t1 : Tilde := ⟨true, true, [], [], []⟩

/-- `<{{~#each list~}} {{> row this k=@index}} {{~/each~}} >` -/
def wholeTm : STm :=
  .text c!"< " <| .block false t1 c!"each" (.arg (.path ⟨0, .name c!"list", []⟩) (.done .nil))
    (.text c!" " <| .stmt false true ⟨false, false, [], c!" ", []⟩ ⟨0, .name c!"row", []⟩
      (.arg (.path ⟨0, .this, []⟩) (.done (.pair c!"k" (.path ⟨0, .loc c!"index", []⟩) .nil))) <| .text c!" " .nil) .nil t1 <|
  .text c!" >" .nil

/-- `{{k}}={{this}}; {{#> frame}} in {{~/frame}}` -/
def rowTm : STm :=
  .stmt false false t0 ⟨0, .name c!"k", []⟩ (.done .nil) <| .text c!"=" <| .stmt false false t0 ⟨0, .this, []⟩ (.done .nil) <| .text c!"; " <|
  .block true ⟨false, false, [], c!" ", []⟩ c!"frame" (.done .nil) (.text c!" in " .nil) .nil ⟨true, false, [], [], []⟩ .nil

/-- `({{> @partial-block}})` -/
def frameTm : STm :=
  .text c!"(" <| .stmt false true ⟨false, false, [], c!" ", []⟩ ⟨0, .loc c!"partial-block", []⟩ (.done .nil) <| .text c!")" .nil

def wholeLib : List (Str × STm) := [(c!"frame", frameTm), (c!"row", rowTm)]

def wholeReg : Reg := ((Reg.new.insert c!"row" rowTm.src).2.insert c!"frame" frameTm.src).2

def wholeData : Value := .obj [(c!"list", .arr [.str c!"<b>", .num (.posInt 2)])]

example : String.ofList wholeTm.src = "< {{~#each list~}} {{> row this k=@index}} {{~/each~}} >" := by decide +kernel
example : String.ofList rowTm.src = "{{k}}={{this}}; {{#> frame}} in {{~/frame}}" := by decide +kernel
example : String.ofList frameTm.src = "({{> @partial-block}})" := by decide +kernel
example : wholeTm.ok [] = true ∧ rowTm.ok [] = true ∧ frameTm.ok [] = true := by decide +kernel
example : Equipped wholeReg ∧ Full.Holds wholeReg wholeLib := by
  obtain ⟨_, h1, h2⟩ := C61_insert [] Reg.new ⟨fun _ => rfl, rfl, rfl, rfl⟩ (fun _ => rfl) c!"row" rowTm (by decide +kernel)
  exact (C61_insert _ _ h1 h2 c!"frame" frameTm (by decide +kernel)).2
example : (Full.meaning wholeLib wholeTm (Scene.start Reg.new c!"t" wholeData)).1 = c!"<0=&lt;b&gt;; ( in )1=2; ( in )>" := by decide +kernel
example : (Full.bare wholeTm).ok [] = true ∧ ∀ x ∈ Full.bareLib wholeLib, x.2.ok [] = true := by decide +kernel
example : (Full.meaning (Full.bareLib wholeLib) (Full.bare wholeTm) (Scene.start Reg.new c!"t" wholeData)).1 =
    c!"<  0=&lt;b&gt;; ( in )  1=2; ( in )  >" := by decide +kernel
example : wholeTm.tame = true ∧ (∀ x ∈ wholeLib, x.2.tame = true) ∧ ownAll wholeTm wholeLib = [c!"< ", c!" ", c!" ", c!" >", c!"(", c!")", c!"=", c!"; ", c!" in "] := by
  decide +kernel

end Bracket.Props
