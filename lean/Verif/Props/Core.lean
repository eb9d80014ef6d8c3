import Verif.Lemmas.CoreTm
import Verif.Props.Escape
import Verif.Spec.Html

/-! C53, C54, C04: what templates write, from source to output. -/

set_option linter.unusedSectionVars false
set_option linter.unusedSimpArgs false

namespace Bracket.Props
open Bracket Re Spec

section
variable [Host] [Custom]

theorem at_start {reg : Reg} (hb : Equipped reg) (name : Str) (data : Value) {sink : Sink} (hs : ∀ ws w, ∃ n, sink ws w = .ok n) :
    At (Scene.start reg name data) { reg, name, root := data, sink } (RS.init []) :=
  ⟨hb.1, hb.2, hb.3, hb.4, rfl, rfl, rfl, rfl, hs, rfl, rfl, rfl⟩

/-- Rendering the compiled nodes of a core template. -/
theorem core_renders {T : STm} {ns : List Node} {k src : Str} (hT : TmRep T ns) (hok : T.ok k = true) (hc : T.core = true) {reg : Reg}
    (hb : Equipped reg) (name : Str) (data : Value) {sink : Sink} (hs : ∀ ws w, ∃ n, sink ws w = .ok n) :
    Does (fun n => renderAll (sem n) { reg, name, root := data, sink } (.document src ns)) (RS.init []) (Scene.start reg name data)
      { reg, name, root := data, sink } (T.den (Scene.start reg name data)) :=
  does_tm _ T ns k hT hok hc _ (plain_top _) _ _ none none (at_start hb name data hs) ⟨by rintro _ ⟨⟩, by rintro _ ⟨⟩, rfl⟩ rfl (by rintro _ ⟨⟩)

/-- **C53**: for every well-formed template without `~` and partials, compiling its source and rendering
it with the built-in helpers gives exactly what the reference interpreter says: the text, or the error, or
the panic (for every recursion bound from some point on). -/
theorem C53_once (T : STm) (hok : T.ok [] = true) (hc : T.core = true) (reg : Reg) (hb : Equipped reg) (name : Str) (data : Value) :
    ∃ N, ∀ n, N ≤ n → Reg.once n reg name T.src data = (T.den (Scene.start reg name data)).result := by
  obtain ⟨ns, h1, h2⟩ := C56_roundtrip T ⟨name, 0, 0⟩ hok
  have hd := core_renders (src := T.src) h2 hok hc hb name data (sink := stringSink) fun _ _ => ⟨_, rfl⟩
  revert hd
  generalize T.den (Scene.start reg name data) = o
  intro hd
  have key : ∀ n, Reg.once n reg name T.src data = match renderAll (sem n) { reg, name, root := data, sink := stringSink } (.document T.src ns) (RS.init []) with
      | (.ok _, s) => .ok (outText s.out)
      | (.err e, _) => .err (.render e)
      | (.panic, _) => .panic
      | (.fuel, _) => .fuel := by
    intro n
    unfold Reg.once compileTemplate
    rw [h1]
    rfl
  obtain ⟨w, e⟩ := o
  cases e with
  | none =>
      obtain ⟨a, t, g1, g2, g3, g4⟩ := hd
      obtain ⟨N, hN⟩ := g1.ge (mono_renderAll _ _)
      refine ⟨N, fun n hn => ?_⟩
      rw [key, hN n hn]
      simp only [Written.result]
      rw [g4]
      rfl
  | some e =>
      obtain ⟨t, g1, g2⟩ := hd
      obtain ⟨N, hN⟩ := g1.ge (mono_renderAll _ _)
      refine ⟨N, fun n hn => ?_⟩
      rw [key, hN n hn]
      cases e <;> rfl

/-- **C53**: the same when the template is registered and then rendered by name to any destination that
accepts every write; what reached the destination is the interpreter's text even when rendering fails. -/
theorem C53_registered (T : STm) (hok : T.ok [] = true) (hc : T.core = true) (reg : Reg) (hb : Equipped reg) (name : Str) (data : Value)
    (sink : Sink) (hs : ∀ ws w, ∃ n, sink ws w = .ok n) :
    (reg.insert name T.src).1 = .ok () ∧
    ∃ N, ∀ n, N ≤ n → ∃ ws, outText ws = (T.den (Scene.start reg name data)).1 ∧
      (reg.insert name T.src).2.renderToWrite n sink name data =
        ((match (T.den (Scene.start reg name data)).2 with
          | none => .ok ()
          | some (.err e) => .err (.render e)
          | some .panic => .panic), ws) := by
  obtain ⟨ns, h1, h2⟩ := C56_roundtrip T ⟨name, 0, 0⟩ hok
  have hins : reg.insert name T.src = (.ok (), { reg with
      templates := assocInsert name ⟨if name ≠ unknownName then some name else none, .document T.src ns⟩ reg.templates }) := by
    unfold Reg.insert compileTemplate
    rw [h1]
  rw [hins]
  refine ⟨rfl, ?_⟩
  generalize hreg : ({ reg with templates := assocInsert name ⟨if name ≠ unknownName then some name else none, .document T.src ns⟩ reg.templates } : Reg) = reg'
  have hb' : Equipped reg' := by subst hreg; exact ⟨hb.1, hb.2, hb.3, hb.4⟩
  have hsc : Scene.start reg' name data = Scene.start reg name data := by subst hreg; rfl
  have hget : ∃ f, assoc name reg'.templates = some ⟨f, .document T.src ns⟩ := by
    subst hreg
    exact ⟨_, assoc_insert_self name _ _⟩
  obtain ⟨f, hget⟩ := hget
  have hd := core_renders (src := T.src) h2 hok hc hb' name data hs
  rw [hsc] at hd
  revert hd
  generalize T.den (Scene.start reg name data) = o
  intro hd
  have key : ∀ n, reg'.renderToWrite n sink name data = match renderAll (sem n) { reg := reg', name, root := data, sink } (.document T.src ns) (RS.init []) with
      | (.ok _, s) => (.ok (), s.out)
      | (.err e, s) => (.err (.render e), s.out)
      | (.panic, s) => (.panic, s.out)
      | (.fuel, s) => (.fuel, s.out) := by
    intro n
    unfold Reg.renderToWrite
    rw [hget]
    rfl
  obtain ⟨w, e⟩ := o
  cases e with
  | none =>
      obtain ⟨a, t, g1, g2, g3, g4⟩ := hd
      obtain ⟨N, hN⟩ := g1.ge (mono_renderAll _ _)
      exact ⟨N, fun n hn => ⟨t.out, by rw [g4]; rfl, by rw [key, hN n hn]⟩⟩
  | some e =>
      obtain ⟨t, g1, g2⟩ := hd
      obtain ⟨N, hN⟩ := g1.ge (mono_renderAll _ _)
      refine ⟨N, fun n hn => ⟨t.out, by rw [g2]; rfl, ?_⟩⟩
      rw [key, hN n hn]
      cases e <;> rfl

/-! ### C54 -/

/-- The text is made of pieces the author wrote and of escaped values. -/
def Inert (own : List Str) (w : Str) : Prop :=
  ∃ cs : List Str, w = cs.flatten ∧ ∀ c ∈ cs, c ∈ own ∨ ∃ v, c = escapeHtml v

theorem Inert.nil (own : List Str) : Inert own [] := ⟨[], rfl, by simp⟩
theorem Inert.append {own : List Str} {a b : Str} (h : Inert own a) (h' : Inert own b) : Inert own (a ++ b) := by
  obtain ⟨cs, rfl, h⟩ := h
  obtain ⟨ds, rfl, h'⟩ := h'
  refine ⟨cs ++ ds, by simp, fun c hc => ?_⟩
  rcases List.mem_append.1 hc with hc | hc
  · exact h c hc
  · exact h' c hc
theorem Inert.mono {own own' : List Str} {a : Str} (h : Inert own a) (hs : ∀ c ∈ own, c ∈ own') : Inert own' a := by
  obtain ⟨cs, rfl, h⟩ := h
  exact ⟨cs, rfl, fun c hc => (h c hc).imp (hs c) id⟩
theorem Inert.own {own : List Str} {w : Str} (h : w ∈ own) : Inert own w := ⟨[w], by simp, by simpa using .inl h⟩

theorem Inert.andThen {own : List Str} {a b : Written} (h : Inert own a.1) (h' : Inert own b.1) : Inert own (Spec.andThen a b).1 := by
  unfold Spec.andThen
  cases a.2 with
  | none => exact h.append h'
  | some f => exact h

theorem inert_rounds {own : List Str} {D : Scene → Written} (h : ∀ Δ, Δ.escape = escapeHtml → Inert own (D Δ).1) {Γ : Scene}
    (hΓ : Γ.escape = escapeHtml) : ∀ rs, Inert own (rounds D Γ rs).1
  | [] => .nil _
  | r :: rs => by
      rw [rounds]
      exact Inert.andThen (h _ hΓ) (inert_rounds h hΓ rs)

theorem inert_builtin {own : List Str} {D A : Scene → Written} (hD : ∀ Δ, Δ.escape = escapeHtml → Inert own (D Δ).1)
    (hA : ∀ Δ, Δ.escape = escapeHtml → Inert own (A Δ).1) {Γ : Scene} (hΓ : Γ.escape = escapeHtml) (name : Str) (vs : List Value)
    (hs : List (Str × Value)) : Inert own (builtinBlock name vs hs D A Γ).1 := by
  have val : Inert own ((match builtinValue name vs hs with
      | .error f => ([], some f)
      | .ok _ => ([], none) : Written)).1 := by
    cases builtinValue name vs hs <;> exact .nil _
  unfold builtinBlock
  match vs, val with
  | [v], val =>
      simp only
      split
      · split
        · exact hD Γ hΓ
        · exact hA Γ hΓ
      split
      · split
        · exact hA Γ hΓ
        · exact hD Γ hΓ
      split
      · cases v with
        | arr l => exact inert_rounds hD hΓ _
        | obj l => exact inert_rounds hD hΓ _
        | _ => exact .nil _
      split
      · cases v with
        | null => exact .nil _
        | _ => exact hD _ hΓ
      · exact val
  | [], val => exact val
  | _ :: _ :: _, val => exact val

theorem inert_print {own : List Str} {Γ : Scene} (hΓ : Γ.escape = escapeHtml) (k : Cut) {x : Print} (hx : x.escaped = true) : Inert own (Γ.print k x) := by
  unfold Scene.print
  rw [hΓ, hx]
  split
  · exact .nil _
  · rw [if_pos rfl]
    exact ⟨[escapeHtml (Full.cut k.start k.stop x.text)], by simp, by simp⟩

theorem inert_printAll {own : List Str} {Γ : Scene} (hΓ : Γ.escape = escapeHtml) (k : Cut) : ∀ l : List Print, (∀ x ∈ l, x.escaped = true) →
    Inert own (Γ.printAll k l)
  | [], _ => .nil _
  | x :: l, h => by
      show Inert own (Γ.print k x ++ Γ.printAll k l)
      exact (inert_print hΓ k (h x List.mem_cons_self)).append (inert_printAll hΓ k l fun y hy => h y (List.mem_cons_of_mem _ hy))

theorem Inert.bind {own : List Str} {α β : Type} {x : Said α} {f : α → Said β} (h : Inert own x.1) (h' : ∀ a, Inert own (f a).1) :
    Inert own (x.bind f).1 := by
  unfold Said.bind
  cases x.2 with
  | error e => exact h
  | ok a => exact h.append (h' a)

theorem Inert.after {own : List Str} {α : Type} {x : Said α} {f : α → Written} (h : Inert own x.1) (h' : ∀ a, Inert own (f a).1) :
    Inert own (x.andThen f).1 := by
  unfold Said.andThen
  cases x.2 with
  | error e => exact h
  | ok a => exact h.append (h' a)

theorem inert_said {own : List Str} {Γ : Scene} (hΓ : Γ.escape = escapeHtml) (k : Cut) {f : CustomFn} (hf : f.careful) (vs : List Value)
    (hs : List (Str × Value)) : Inert own (f.said Γ k vs hs).1 := inert_printAll hΓ k _ (hf.value vs _)

theorem inert_value (hC : Careful) {own : List Str} {Γ : Scene} (hΓ : Γ.escape = escapeHtml) (k : Cut) (name : Str) (vs : List Value)
    (hs : List (Str × Value)) : Inert own (helperValue name Γ k vs hs).1 := by
  unfold helperValue
  cases h : Custom.fn name with
  | none => exact .nil _
  | some f => exact inert_said hΓ k (hC.fn name f h) vs hs

theorem handler_careful (hC : Careful) {p : SPath} {f : CustomFn} (h : p.handler = some f) : f.careful := by
  unfold SPath.handler at h
  split at h
  · cases hm : (Custom.missing : Option (Str → CustomFn)) with
    | none => rw [hm] at h; cases h
    | some g =>
        rw [hm] at h
        cases h
        exact hC.missing g _ hm
  · cases h

mutual
/-- What evaluating an expression writes is escaped. -/
theorem inert_expr (hC : Careful) {own : List Str} : ∀ (x : SExpr) (Γ : Scene) (k : Cut), Γ.escape = escapeHtml → Inert own (x.eval Γ k).1
  | .path p, Γ, k, hΓ => by rw [SExpr.eval]; exact .nil _
  | .lit l, Γ, k, hΓ => by rw [SExpr.eval]; exact .nil _
  | .sub p a, Γ, k, hΓ => by
      rw [SExpr.eval]
      cases p.helper with
      | some h =>
          simp only
          split
          · exact .nil _
          · exact (inert_args hC a (Γ.enter (.helper h)) k hΓ).bind fun x => inert_value hC hΓ k h x.1 x.2
      | none =>
          simp only
          cases Γ.find p with
          | some v => exact .nil _
          | none =>
              simp only
              cases hh : p.handler with
              | none =>
                  simp only [Scene.absent]
                  split <;> exact .nil _
              | some f =>
                  simp only
                  split
                  · exact .nil _
                  · exact (inert_args hC a (Γ.enter (.helper missingName)) k hΓ).bind fun x =>
                      inert_said hΓ k (handler_careful hC hh) x.1 x.2
theorem inert_args (hC : Careful) {own : List Str} : ∀ (a : SArgs) (Γ : Scene) (k : Cut), Γ.escape = escapeHtml → Inert own (a.eval Γ k).1
  | .done h, Γ, k, hΓ => by rw [SArgs.eval]; exact (inert_hash hC h Γ k hΓ).bind fun _ => .nil _
  | .argW _ x r, Γ, k, hΓ => by
      rw [SArgs.eval]
      exact (inert_expr hC x Γ k hΓ).bind fun _ => (inert_args hC r Γ k hΓ).bind fun _ => .nil _
theorem inert_hash (hC : Careful) {own : List Str} : ∀ (h : SHash) (Γ : Scene) (k : Cut), Γ.escape = escapeHtml → Inert own (h.eval Γ k).1
  | .tail _, Γ, k, hΓ => by rw [SHash.eval]; exact .nil _
  | .pairW _ w x r, Γ, k, hΓ => by
      rw [SHash.eval]
      exact (inert_expr hC x Γ k hΓ).bind fun _ => (inert_hash hC r Γ k hΓ).bind fun _ => .nil _
end

theorem inert_contents {own : List Str} {D : Scene → Written} (h : ∀ Δ, Δ.escape = escapeHtml → Inert own (D Δ).1) {Γ : Scene}
    (hΓ : Γ.escape = escapeHtml) (e : Option HelperErr) : ∀ l, (∀ x, Act.print x ∈ l → x.escaped = true) → Inert own (contents D Γ e l).1
  | [], _ => .nil _
  | .print x :: l, hl => (inert_print hΓ .none (hl x List.mem_cons_self)).append
      (inert_contents h hΓ e l fun y hy => hl y (List.mem_cons_of_mem _ hy))
  | .content none :: l, hl => Inert.andThen (h _ hΓ) (inert_contents h hΓ e l fun y hy => hl y (List.mem_cons_of_mem _ hy))
  | .content (some _) :: l, hl => Inert.andThen (h _ hΓ) (inert_contents h hΓ e l fun y hy => hl y (List.mem_cons_of_mem _ hy))

theorem inert_custom {own : List Str} {D A : Scene → Written} (hD : ∀ Δ, Δ.escape = escapeHtml → Inert own (D Δ).1)
    (hA : ∀ Δ, Δ.escape = escapeHtml → Inert own (A Δ).1) {Γ : Scene} (hΓ : Γ.escape = escapeHtml) {f : CustomFn} (hf : f.careful)
    (text : Option Str) (vs : List Value) (hs : List (Str × Value)) : Inert own (f.blocks text vs hs D A Γ).1 := by
  unfold CustomFn.blocks
  cases h : f.block text vs (fun k => hs.lookup k) with
  | contents l e => exact inert_contents hD hΓ e l (hf.block _ _ _ _ _ h)
  | otherwise => exact hA Γ hΓ

theorem inert_helper (hC : Careful) {own : List Str} {D A : Scene → Written} (hD : ∀ Δ, Δ.escape = escapeHtml → Inert own (D Δ).1)
    (hA : ∀ Δ, Δ.escape = escapeHtml → Inert own (A Δ).1) {Γ : Scene} (hΓ : Γ.escape = escapeHtml) (name : Str) (text : Option Str)
    (vs : List Value) (hs : List (Str × Value)) : Inert own (blockHelper name text vs hs D A Γ).1 := by
  unfold blockHelper
  cases h : Custom.fn name with
  | none => exact inert_builtin hD hA hΓ name vs hs
  | some f => exact inert_custom hD hA hΓ (hC.fn name f h) text vs hs

theorem inert_block (hC : Careful) {own : List Str} {D A : Scene → Written} (hD : ∀ Δ, Δ.escape = escapeHtml → Inert own (D Δ).1)
    (hA : ∀ Δ, Δ.escape = escapeHtml → Inert own (A Δ).1) {Γ : Scene} (hΓ : Γ.escape = escapeHtml) (name : Str) (text : Option Str) (a : SArgs) :
    Inert own (block name text a D A Γ).1 := by
  unfold block
  split
  · split
    · exact .nil _
    · exact (inert_args hC a _ _ (show (Γ.enter (.block name)).escape = _ from hΓ)).after fun x =>
        inert_helper hC hD hA (show (Γ.enter (.block name)).escape = _ from hΓ) name text x.1 x.2
  · cases Γ.find ⟨0, .name name, []⟩ with
    | none =>
        simp only
        cases (Custom.missing : Option (Str → CustomFn)) with
        | none => exact .nil _
        | some f => exact (inert_expr hC _ Γ _ hΓ).after fun _ => .nil _
    | some v =>
        simp only
        cases h : (Custom.blockMissing : Option (Str → Value → CustomFn)) with
        | none => exact hD Γ hΓ
        | some f =>
            simp only
            split
            · exact .nil _
            · exact (inert_args hC a _ _ (show (Γ.enter (.block blockMissingName)).escape = _ from hΓ)).after fun x =>
                inert_custom hD hA (show (Γ.enter (.block blockMissingName)).escape = _ from hΓ) (hC.blockMissing f name v h) none x.1 x.2

theorem inert_link (hC : Careful) {own : List Str} {Γ : Scene} (hΓ : Γ.escape = escapeHtml) (e : Bool) (h : Str) (l t : Option Str)
    (ho : linkText false h l t ∈ own) : Inert own (Γ.link e h l t).1 := by
  have key : ∀ o : Option CustomFn, (∀ f, o = some f → f.careful) → Inert own ((match o with
      | none => (linkText false h l t, none)
      | some f =>
          if Γ.full (.helper linkName) then ([], some (.err (.helperCycle linkName)))
          else (f.said Γ .none (linkValues h l t) []).andThen fun _ => ([], none) : Written)).1 := by
    intro o hf
    cases o with
    | none => exact .own ho
    | some f =>
        simp only
        split
        · exact .nil _
        · exact (inert_said hΓ _ (hf f rfl) _ _).after fun _ => .nil _
  refine key _ fun f hf => ?_
  split at hf
  · cases hf
  · exact hC.link f hf

theorem inert_says {own : List Str} {Γ : Scene} (hΓ : Γ.escape = escapeHtml) {x : Said (Option Value)} (h : Inert own x.1) :
    Inert own (Γ.says false x).1 := by
  refine h.after fun v => ?_
  cases v with
  | none => exact .nil _
  | some v =>
      show Inert _ (Γ.printed false v)
      unfold Scene.printed
      rw [hΓ]
      split
      · exact .nil _
      · exact ⟨[escapeHtml (stringify v)], by simp, by simp⟩

mutual
theorem inert_tm (hC : Careful) : ∀ (T : STm), T.tame = true → ∀ (Γ : Scene), Γ.escape = escapeHtml → Inert T.own (T.den Γ).1
  | .nil, h, Γ, hΓ => by rw [STm.den]; exact .nil _
  | .text w r, h, Γ, hΓ => by
      rw [STm.tame] at h
      rw [STm.den, STm.own]
      exact (Inert.own List.mem_cons_self).append ((inert_tm hC r h Γ hΓ).mono fun c hc => List.mem_cons_of_mem _ hc)
  | .comment w r, h, Γ, hΓ => by rw [STm.tame] at h; rw [STm.den, STm.own]; exact inert_tm hC r h Γ hΓ
  | .longComment w r, h, Γ, hΓ => by rw [STm.tame] at h; rw [STm.den, STm.own]; exact inert_tm hC r h Γ hΓ
  | .escaped w r, h, Γ, hΓ => by
      rw [STm.tame] at h
      rw [STm.den, STm.own]
      exact (Inert.own List.mem_cons_self).append ((inert_tm hC r h Γ hΓ).mono fun c hc => List.mem_cons_of_mem _ hc)
  | .link e hr l t r, h, Γ, hΓ => by
      rw [STm.tame] at h
      rw [STm.den, STm.own]
      exact (inert_link hC hΓ e hr l t List.mem_cons_self).andThen ((inert_tm hC r h Γ hΓ).mono fun c hc => List.mem_cons_of_mem _ hc)
  | .stmt raw part tl p a r, h, Γ, hΓ => by
      rw [STm.tame] at h
      simp only [Bool.and_eq_true, Bool.not_eq_true'] at h
      obtain ⟨rfl, h⟩ := h
      rw [STm.den, STm.own]
      exact Inert.andThen (inert_says hΓ (inert_expr hC _ Γ _ hΓ)) (inert_tm hC r h Γ hΓ)
  | .dyn raw part tl q b a r, h, Γ, hΓ => by
      rw [STm.tame] at h
      simp only [Bool.and_eq_true, Bool.not_eq_true'] at h
      obtain ⟨rfl, h⟩ := h
      rw [STm.den, STm.own]
      exact Inert.andThen (inert_says hΓ (inert_expr hC _ Γ _ hΓ)) (inert_tm hC r h Γ hΓ)
  | .rawBlock tl name a w cl r, h, Γ, hΓ => by
      rw [STm.tame] at h
      rw [STm.den, STm.own]
      refine Inert.andThen ?_ ((inert_tm hC r h Γ hΓ).mono fun c hc => List.mem_cons_of_mem _ hc)
      split
      · exact inert_block hC (fun _ _ => Inert.own List.mem_cons_self) (fun _ _ => .nil _) hΓ name (some w) a
      · exact Inert.own List.mem_cons_self
  | .block part tl name a body cs cl r, h, Γ, hΓ => by
      rw [STm.tame] at h
      simp only [Bool.and_eq_true] at h
      rw [STm.den, STm.own]
      refine Inert.andThen ?_ ((inert_tm hC r h.2 Γ hΓ).mono fun c hc => by simp [hc])
      exact inert_block hC (fun Δ hΔ => (inert_tm hC body h.1.1 Δ hΔ).mono fun c hc => by simp [hc])
        (fun Δ hΔ => inert_cls hC cs h.1.2 Δ hΔ _ (fun c hc => by simp [hc]) ([], none) (.nil _)) hΓ name none a
theorem inert_cls (hC : Careful) : ∀ (cs : SCls), cs.tame = true → ∀ (Γ : Scene), Γ.escape = escapeHtml → ∀ (own : List Str), (∀ c ∈ cs.own, c ∈ own) →
    ∀ o : Written, Inert own o.1 → Inert own (cs.den Γ o).1
  | .nil, h, Γ, hΓ, own, hown, o, ho => by rw [SCls.den]; exact ho
  | .cons tl none body r, h, Γ, hΓ, own, hown, o, ho => by
      rw [SCls.tame] at h
      simp only [Bool.and_eq_true] at h
      rw [SCls.own] at hown
      rw [SCls.den]
      exact inert_cls hC r h.2 Γ hΓ own (fun c hc => hown c (by simp [hc])) _ ((inert_tm hC body h.1 Γ hΓ).mono fun c hc => hown c (by simp [hc]))
  | .cons tl (some (p, a)) body r, h, Γ, hΓ, own, hown, o, ho => by
      rw [SCls.tame] at h
      simp only [Bool.and_eq_true] at h
      rw [SCls.own] at hown
      rw [SCls.den]
      refine (inert_expr hC _ Γ _ hΓ).after fun v => ?_
      split
      · exact (inert_tm hC body h.1 Γ hΓ).mono fun c hc => hown c (by simp [hc])
      · exact inert_cls hC r h.2 Γ hΓ own (fun c hc => hown c (by simp [hc])) o ho
end

/-- What escapes a value can be read off: safe HTML. -/
theorem Inert.safe {own : List Str} {w : Str} (h : Inert own w) :
    ∃ cs : List Str, w = cs.flatten ∧ ∀ c ∈ cs, c ∈ own ∨ HtmlSafe c := by
  obtain ⟨cs, h1, h2⟩ := h
  exact ⟨cs, h1, fun c hc => (h2 c hc).imp id (by rintro ⟨v, rfl⟩; exact C05_html_safe v)⟩

/-- **C54**: with the default escape function, a well-formed template without `{{{` (and without `~` and
partials) writes, whatever the data and even when rendering fails, a sequence of pieces each of which is
text of the template itself or free of markup. -/
theorem C54_inert (hC : Careful) (T : STm) (hok : T.ok [] = true) (hc : T.core = true) (ht : T.tame = true) (reg : Reg) (hb : Equipped reg)
    (he : reg.escape = escapeHtml) (name : Str) (data : Value) (sink : Sink) (hs : ∀ ws w, ∃ n, sink ws w = .ok n) :
    (∃ N, ∀ n, N ≤ n → ∀ w, Reg.once n reg name T.src data = .ok w →
      ∃ cs : List Str, w = cs.flatten ∧ ∀ c ∈ cs, c ∈ T.own ∨ HtmlSafe c) ∧
    (∃ N, ∀ n, N ≤ n → ∃ cs : List Str, outText ((reg.insert name T.src).2.renderToWrite n sink name data).2 = cs.flatten ∧
      ∀ c ∈ cs, c ∈ T.own ∨ HtmlSafe c) := by
  have key := (inert_tm hC T ht (Scene.start reg name data) he).safe
  constructor
  · obtain ⟨N, h⟩ := C53_once T hok hc reg hb name data
    refine ⟨N, fun n hn w hw => ?_⟩
    rw [h n hn] at hw
    revert key hw
    generalize T.den (Scene.start reg name data) = o
    obtain ⟨w', e⟩ := o
    intro key hw
    match e, hw with
    | none, hw =>
        have : w' = w := by injection hw
        rw [← this]
        exact key
  · obtain ⟨_, N, h⟩ := C53_registered T hok hc reg hb name data sink hs
    refine ⟨N, fun n hn => ?_⟩
    obtain ⟨ws, h1, h2⟩ := h n hn
    rw [h2]
    show ∃ cs : List Str, outText ws = _ ∧ _
    rw [h1]
    exact key

end

section
variable [Host]

/-! ### C04 -/


theorem clear_plain {k : Str} : ∀ {w : Str}, (∀ a b, w ++ k ≠ a ++ (c!"{{" ++ b)) → (∀ a b, w ++ k ≠ a ++ (c!"[[" ++ b)) → clearOf openers w k = true
  | [], _, _ => rfl
  | c :: w, h1, h2 => by
      rw [clearOf]
      simp only [Bool.and_eq_true, Bool.not_eq_true']
      refine ⟨?_, clear_plain (fun a b e => h1 (c :: a) b (by simp [e])) (fun a b e => h2 (c :: a) b (by simp [e]))⟩
      rw [Bool.eq_false_iff]
      intro h
      simp only [List.any_eq_true, openers, List.mem_cons, List.not_mem_nil, or_false] at h
      obtain ⟨p, hp, h⟩ := h
      obtain ⟨t, ht⟩ := startsWith_iff.1 h
      rcases hp with rfl | rfl | rfl | rfl
      · exact h1 [] t (by simpa using ht)
      · exact h2 [] t (by simpa using ht)
      · exact h1 ['\\'] t (by simpa using ht)
      · exact h2 ['\\'] t (by simpa using ht)

/-- A source without tags and links compiles, to one text node at most. -/
theorem C04_compiles (src : Str) (h1 : ∀ a b, src ≠ a ++ (c!"{{" ++ b)) (h2 : ∀ a b, src ≠ a ++ (c!"[[" ++ b)) (o : ParserOptions) :
    ∃ ns, compile src o = .ok (.document src ns) ∧ ((src = [] ∧ ns = []) ∨ src ≠ [] ∧ ∃ t, ns = [.text t] ∧ t.asStr = some src) := by
  by_cases he : src = []
  · subst he
    obtain ⟨ns, g1, g2⟩ := C56_roundtrip .nil o rfl
    cases g2
    exact ⟨[], g1, .inl ⟨rfl, rfl⟩⟩
  · have hok : (STm.text src .nil).ok [] = true := by
      simp [STm.ok, STm.src, STm.startsText, he, clear_plain (w := src) (k := []) (by simpa using h1) (by simpa using h2)]
    have hsrc : (STm.text src .nil).src = src := by simp [STm.src]
    obtain ⟨ns, g1, g2⟩ := C56_roundtrip _ o hok
    rw [hsrc] at g1
    cases g2 with
    | text ht hr => cases hr; exact ⟨_, g1, .inr ⟨he, _, rfl, ht⟩⟩

theorem text_document (n : Nat) (E : Env) (src : Str) (t : Text) (w : Str) (ht : t.asStr = some w) (hw : w ≠ []) :
    ∃ s, renderAll (sem (n + 1)) E (.document src [.text t]) (RS.init []) =
      ((match E.sink [] w with | .ok _ => .ok () | .error e => .err (.io e)), s) ∧ s.out = [⟨w, E.sink [] w⟩] := by
  have h1 : renderAll (sem (n + 1)) E (.document src [.text t]) (RS.init []) =
      (writeUnit E w false >>= fun _ => (Pure.pure () : RM Unit)) (begin_ (RS.init []) ⟨false, false⟩ ⟨false, false⟩) := by
    show (renderNodeF (sem n) E (.text t) ⟨false, false⟩ >>= fun _ => (Pure.pure () : RM Unit)) (RS.init []) = _
    rw [RM.bind_def, RM.bind_def, renderNodeF_eq (h := ⟨false, false⟩) _ _ _ _ _ rfl]
    have : renderKind (sem n) E (.text t) = writeUnit E w false := by
      show (RM.orPanic t.asStr >>= fun txt => writeUnit E txt false) = _
      rw [orPanic_bind ht]
    rw [this]
  rw [h1]
  have h2 := writeStr_eq E w false (begin_ (RS.init []) ⟨false, false⟩ ⟨false, false⟩)
  have h3 : (begin_ (RS.init []) ⟨false, false⟩ ⟨false, false⟩).trim = ⟨false, false⟩ := rfl
  have h4 : chunkOf E (begin_ (RS.init []) ⟨false, false⟩ ⟨false, false⟩) w false = w := rfl
  rw [h3, h4, applyTrim_none, if_neg (by simpa using hw)] at h2
  refine ⟨RS.wrote (begin_ (RS.init []) ⟨false, false⟩ ⟨false, false⟩) w (E.sink [] w), ?_, rfl⟩
  unfold writeUnit
  rw [RM.bind_def, RM.bind_def, h2]
  have h5 : (begin_ (RS.init []) ⟨false, false⟩ ⟨false, false⟩).out = [] := rfl
  rw [h5]
  cases E.sink [] w <;> rfl

/-- **C04**: rendering such a source with any registry and data gives back the source. -/
theorem C04_once (src : Str) (h1 : ∀ a b, src ≠ a ++ (c!"{{" ++ b)) (h2 : ∀ a b, src ≠ a ++ (c!"[[" ++ b)) (reg : Reg)
    (name : Str) (data : Value) (n : Nat) : Reg.once (n + 1) reg name src data = .ok src := by
  obtain ⟨ns, g1, g2⟩ := C04_compiles src h1 h2 ⟨name, 0, 0⟩
  unfold Reg.once compileTemplate
  rw [g1]
  rcases g2 with ⟨rfl, rfl⟩ | ⟨hne, t, rfl, ht⟩
  · rfl
  · obtain ⟨s, h3, h4⟩ := text_document n { reg, name, root := data, sink := stringSink } src t src ht hne
    show (match renderAll (sem (n + 1)) { reg, name, root := data, sink := stringSink } (.document src [.text t]) (RS.init []) with
      | (.ok _, s) => Out.ok (outText s.out)
      | (.err e, _) => .err (.render e)
      | (.panic, _) => .panic
      | (.fuel, _) => .fuel) = _
    rw [h3]
    show Out.ok (outText s.out) = _
    rw [h4]
    simp [outText, stringSink]

/-- **C04**: registered and rendered to a destination, it is handed over in one piece (in none, if empty),
and only the destination's refusal can make the rendering fail. -/
theorem C04_registered (src : Str) (h1 : ∀ a b, src ≠ a ++ (c!"{{" ++ b)) (h2 : ∀ a b, src ≠ a ++ (c!"[[" ++ b)) (reg : Reg)
    (name : Str) (data : Value) (sink : Sink) (n : Nat) :
    (reg.insert name src).1 = .ok () ∧
    (reg.insert name src).2.renderToWrite (n + 1) sink name data =
      if src = [] then (.ok (), [])
      else ((match sink [] src with | .ok _ => .ok () | .error e => .err (.render (.io e))), [⟨src, sink [] src⟩]) := by
  obtain ⟨ns, g1, g2⟩ := C04_compiles src h1 h2 ⟨name, 0, 0⟩
  have hins : reg.insert name src = (.ok (), { reg with
      templates := assocInsert name ⟨if name ≠ unknownName then some name else none, .document src ns⟩ reg.templates }) := by
    unfold Reg.insert compileTemplate
    rw [g1]
  rw [hins]
  refine ⟨rfl, ?_⟩
  generalize hreg : ({ reg with templates := assocInsert name ⟨if name ≠ unknownName then some name else none, .document src ns⟩ reg.templates } : Reg) = reg'
  obtain ⟨f, hget⟩ : ∃ f, assoc name reg'.templates = some ⟨f, .document src ns⟩ := by
    subst hreg
    exact ⟨_, assoc_insert_self name _ _⟩
  have key : reg'.renderToWrite (n + 1) sink name data = match renderAll (sem (n + 1)) { reg := reg', name, root := data, sink } (.document src ns) (RS.init []) with
      | (.ok _, s) => (.ok (), s.out)
      | (.err e, s) => (.err (.render e), s.out)
      | (.panic, s) => (.panic, s.out)
      | (.fuel, s) => (.fuel, s.out) := by
    unfold Reg.renderToWrite
    rw [hget]
    rfl
  rw [key]
  rcases g2 with ⟨rfl, rfl⟩ | ⟨hne, t, rfl, ht⟩
  · rfl
  · obtain ⟨s, h3, h4⟩ := text_document n { reg := reg', name, root := data, sink } src t src ht hne
    rw [h3, if_neg hne]
    simp only at h4 ⊢
    cases hk : sink [] src <;> rw [hk] at h4 <;> simp [h4]

end

/-! ### Examples -/

attribute [local instance] exHost noCustom

/-- A template with most of what the fragment has. -/
def coreTm : STm :=
  .text c!"<ul>" <| .block false ⟨false, false, [], [], []⟩ c!"each" (.arg (.path ⟨0, .name c!"list", []⟩) (.done .nil))
    (.text c!"<li>" <| .stmt false false ⟨false, false, [], [], []⟩ ⟨0, .loc c!"index", []⟩ (.done .nil) <| .text c!":" <|
      .block false ⟨false, false, [], [], []⟩ c!"if" (.arg (.sub ⟨0, .name c!"and", []⟩ (.arg (.path ⟨0, .this, []⟩) (.arg (.path ⟨1, .name c!"on", []⟩) (.done .nil)))) (.done .nil))
        (.stmt false false ⟨false, false, [], [], []⟩ ⟨0, .this, []⟩ (.done .nil) .nil)
        (.cons ⟨false, false, [], c!" ", []⟩ (some (⟨0, .name c!"z", []⟩, .done .nil)) (.text c!"z" .nil) (.cons ⟨false, false, [], [], []⟩ none (.text c!"-" .nil) .nil))
        ⟨false, false, [], [], []⟩ .nil) .nil ⟨false, false, [], [], []⟩ <|
  .comment c!" c " <| .stmt true false ⟨false, false, [], [], []⟩ ⟨0, .name c!"raw", []⟩ (.done .nil) .nil

def coreData : Value := .obj [(c!"list", .arr [.str c!"<b>", .bool false]), (c!"on", .bool true), (c!"raw", .str c!"<i>")]

example : coreTm.ok [] = true ∧ coreTm.core = true := by decide +kernel
example : String.ofList coreTm.src =
    "<ul>{{#each list}}<li>{{@index}}:{{#if (and this ../on)}}{{this}}{{else z}}z{{else}}-{{/if}}{{/each}}{{! c }}{{{raw}}}" := by decide +kernel
example : (coreTm.den (Scene.start { Reg.new with escape := escapeHtml } c!"t" coreData)).1 = c!"<ul><li>0:&lt;b&gt;<li>1:-<i>" := by decide +kernel

/-- Paths written with brackets, quotes, `/` and `./`; arrays are indexed. -/
def partsTm : STm :=
  .stmt true false ⟨false, false, [], [], []⟩ ⟨0, .name c!"list", [⟨false, .bracket c!"0"⟩]⟩ (.done .nil) <| .text c!"," <|
  .stmt false false ⟨false, false, [], [], []⟩ ⟨0, .dot, [.word c!"on"]⟩ (.done .nil) <| .text c!"," <|
  .stmt false false ⟨false, false, [], [], []⟩ ⟨0, .this, [⟨true, .quoted false [.ch 'a', .ch ' ', .ch 'b']⟩]⟩ (.done .nil) <| .text c!"," <|
  .stmt false false ⟨false, false, [], [], []⟩ ⟨0, .name c!"list", [⟨false, .bracket c!"2"⟩]⟩ (.done .nil) .nil

example : partsTm.ok [] = true ∧ partsTm.core = true := by decide +kernel
example : String.ofList partsTm.src = "{{{list.[0]}}},{{./on}},{{this/\"a b\"}},{{list.[2]}}" := by decide +kernel
example : (partsTm.den (Scene.start { Reg.new with escape := escapeHtml } c!"t"
    (.obj [(c!"list", .arr [.str c!"<b>", .bool false]), (c!"on", .bool true), (c!"a b", .str c!"&")]))).1 = c!"<b>,true,&amp;," := by decide +kernel

/-- A template without `{{{`. -/
def tameTm : STm := .text c!"<p title=\"" <| .stmt false false ⟨false, false, [], [], []⟩ ⟨0, .name c!"t", []⟩ (.done .nil) <| .text c!"\">" .nil

example : tameTm.ok [] = true ∧ tameTm.core = true ∧ tameTm.tame = true ∧ tameTm.own = [c!"<p title=\"", c!"\">"] := by decide +kernel
example : (tameTm.den (Scene.start Reg.new c!"t" (.obj [(c!"t", .str c!"\"><script>")]))).1 = c!"<p title=\"&quot;&gt;&lt;script&gt;\">" := by decide +kernel
example : Equipped Reg.new := ⟨fun _ => rfl, rfl, rfl, rfl⟩
example : Careful := ⟨(by intro _ _ h; cases h), (by intro _ h; cases h), (by intro _ _ h; cases h), (by intro _ _ _ h; cases h)⟩
example : Reg.once 1 Reg.new c!"t" c!"a } {[] \\ é" .null = .ok c!"a } {[] \\ é" :=
  C04_once _ (by
    intro a b h
    have : startsWith (c!"a } {[] \\ é".drop a.length) c!"{{" = true := startsWith_iff.2 ⟨b, by rw [h]; simp⟩
    have hl : a.length < 20 := by have := congrArg List.length h; simp at this; omega
    revert this; generalize a.length = k at hl; revert k; decide +kernel) (by
    intro a b h
    have : startsWith (c!"a } {[] \\ é".drop a.length) c!"[[" = true := startsWith_iff.2 ⟨b, by rw [h]; simp⟩
    have hl : a.length < 20 := by have := congrArg List.length h; simp at this; omega
    revert this; generalize a.length = k at hl; revert k; decide +kernel) _ _ _ _

end Bracket.Props
