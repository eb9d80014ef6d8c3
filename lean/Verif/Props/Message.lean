import Verif.Model.Message
import Verif.Spec.Message
import Verif.Props.Display
import Verif.Props.Registry
import Verif.Props.Full

/-! C73: what errors say. -/

namespace Bracket.Props
open Spec

/-! ### Syntax errors -/

theorem message_lines (k : SynKind) : '\n' ∉ k.message := by cases k <;> decide

theorem message_inj {k k' : SynKind} (h : k.message = k'.message) : k = k' := by
  cases k <;> cases k' <;> first | rfl | (revert h; decide)

theorem split_line {a b c d : Str} (ha : '\n' ∉ a) (hc : '\n' ∉ c) (h : a ++ '\n' :: b = c ++ '\n' :: d) : a = c ∧ b = d := by
  induction a generalizing c with
  | nil =>
      cases c with
      | nil => simpa using h
      | cons x c => injection h with h1 _; subst h1; simp at hc
  | cons x a ih =>
      cases c with
      | nil => injection h with h1 _; subst h1; simp at ha
      | cons y c =>
          injection h with h1 h2
          obtain ⟨e, f⟩ := ih (fun m => ha (List.mem_cons_of_mem _ m)) (fun m => hc (List.mem_cons_of_mem _ m)) h2
          exact ⟨by rw [h1, e], f⟩

/-- C73: the full text of a syntax error is one line saying what is wrong, then the source snippet. -/
theorem C73_line (e : SyntaxErr) : ∃ line, e.debug = line ++ '\n' :: e.info ∧ '\n' ∉ line ∧ e.display = line ∧ c!"Syntax error, " <+: line :=
  ⟨e.kind.message, rfl, message_lines _, rfl, by cases e.kind <;> decide⟩

/-- C73: the full texts of two syntax errors are the same only if it is the same error at the same place of
the same source. -/
theorem C73_unambiguous (a b : SyntaxErr) : a.debug = b.debug ↔ a = b := by
  refine ⟨fun h => ?_, fun h => h ▸ rfl⟩
  obtain ⟨h1, h2⟩ := split_line (message_lines _) (message_lines _) h
  cases a; cases b
  simp only at h1 h2
  rw [message_inj h1, h2]

/-- C73: and the short texts only if the same thing is wrong. -/
theorem C73_kinds (a b : SyntaxErr) : a.display = b.display ↔ a.kind = b.kind :=
  ⟨message_inj, fun h => congrArg SynKind.message h⟩

/-! ### Errors handed on -/

section
variable (io : IoErr → Str)

/-- C73: an error says the same however many helpers handed it on. -/
theorem C73_around {e x : RenderErr} (h : Around e x) : e.display io = x.display io := by
  induction h with
  | same => rfl
  | template _ ih => rw [← ih, RenderErr.display, HelperErr.display]
  | once _ ih => rw [← ih, RenderErr.display, HelperErr.display]

/-- Every error is a first error handed on. -/
theorem C73_first (e : RenderErr) : ∃ x, Around e x ∧ First x ∧ ∀ y, Around e y → First y → y = x := by
  have : ∀ m (e : RenderErr), sizeOf e < m → ∃ x, Around e x ∧ First x ∧ ∀ y, Around e y → First y → y = x := by
    intro m
    induction m with
    | zero => intro e h; omega
    | succ m ih =>
        intro e h
        by_cases hf : First e
        · refine ⟨e, .same e, hf, fun y hy _ => ?_⟩
          cases hy with
          | same => rfl
          | template => exact hf.elim
          | once => exact hf.elim
        · have : (∃ x, e = .helper (.render x)) ∨ ∃ x, e = .helper (.onceRender x) := by
            cases e with
            | helper k => cases k <;> first | exact (hf trivial).elim | exact .inl ⟨_, rfl⟩ | exact .inr ⟨_, rfl⟩
            | _ => exact (hf trivial).elim
          rcases this with ⟨x, rfl⟩ | ⟨x, rfl⟩
          · simp at h
            obtain ⟨y, h1, h2, h3⟩ := ih x (by omega)
            refine ⟨y, .template h1, h2, fun z hz hzf => ?_⟩
            cases hz with
            | same => exact hzf.elim
            | template g => exact h3 z g hzf
          · simp at h
            obtain ⟨y, h1, h2, h3⟩ := ih x (by omega)
            refine ⟨y, .once h1, h2, fun z hz hzf => ?_⟩
            cases hz with
            | same => exact hzf.elim
            | once g => exact h3 z g hzf
  exact this _ e (Nat.lt_succ_self _)

/-- C73: a syntax error met while rendering says what the compiler says about it. -/
theorem C73_syntax {e x : RenderErr} {s : SyntaxErr} (h : Around e x) (hx : Syntactic x s) :
    (ApiErr.render e).display io = (ApiErr.syntax s).display io := by
  show e.display io = s.display
  rw [C73_around io h]
  cases hx <;> rw [RenderErr.display, HelperErr.display]

theorem start (n r : Str) : n <:+: n ++ r := ⟨[], r, rfl⟩

theorem under {n a r : Str} (h : n <:+: r) : n <:+: a ++ r := by
  obtain ⟨x, y, h⟩ := h
  exact ⟨a ++ x, y, by simp only [← h, List.append_assoc]⟩

/-- C73: an error text contains every name the error is about. -/
theorem C73_names {e x : RenderErr} {n : Str} (h : Around e x) (hx : Names x n) : n <:+: (ApiErr.render e).display io := by
  show n <:+: e.display io
  rw [C73_around io h]
  cases hx <;> simp only [RenderErr.display, HelperErr.display, List.append_assoc]
  case got => exact under (under (under (under (under (start _ _)))))
  case expected => exact under (under (under (start _ _)))
  case field => exact under (under (under (start _ _)))
  case variableIn => exact under (under (under (start _ _)))
  all_goals exact under (start _ _)

/-- C73: an error text of the library begins with `Syntax error, ` exactly if it is about a syntax error. -/
theorem C73_recognisable {e x : RenderErr} (h : Around e x) (hf : First x) (ho : Ours x) :
    c!"Syntax error, " <+: (ApiErr.render e).display io ↔ ∃ s, Syntactic x s := by
  show c!"Syntax error, " <+: e.display io ↔ _
  rw [C73_around io h]
  constructor
  · intro hp
    have hh : (x.display io).head? = some 'S' := by
      obtain ⟨r, hr⟩ := hp
      rw [← hr]; rfl
    cases x with
    | helper k =>
        cases k with
        | «syntax» s => exact ⟨s, .path s⟩
        | onceSyntax s => exact ⟨s, .once s⟩
        | message => exact ho.elim
        | io => exact ho.elim
        | render => exact hf.elim
        | onceRender => exact hf.elim
        | _ => simp [RenderErr.display, HelperErr.display] at hh
    | io => exact ho.elim
    | _ => simp [RenderErr.display] at hh
  · rintro ⟨s, hs⟩
    obtain ⟨line, -, -, h3, h4⟩ := C73_line s
    have : x.display io = s.display := by cases hs <;> rw [RenderErr.display, HelperErr.display]
    rw [this, h3]; exact h4

/-! ### Different errors say different things -/

/-- Texts with quotes between them. -/
private def joinQ : List Str → Str
  | [] => []
  | [a] => a
  | a :: b :: l => a ++ '\'' :: joinQ (b :: l)

private theorem joinQ_inj : ∀ (l m : List Str), l ≠ [] → m ≠ [] → (∀ a ∈ l, '\'' ∉ a) → (∀ a ∈ m, '\'' ∉ a) → joinQ l = joinQ m → l = m
  | [], _, h, _, _, _, _ => absurd rfl h
  | _, [], _, h, _, _, _ => absurd rfl h
  | [a], [b], _, _, _, _, h => by rw [joinQ, joinQ] at h; rw [h]
  | [a], b :: c :: m, _, _, hl, _, h => by
      rw [joinQ, joinQ] at h
      exact absurd (h ▸ List.mem_append_right b List.mem_cons_self : '\'' ∈ a) (hl a List.mem_cons_self)
  | b :: c :: m, [a], _, _, _, hl, h => by
      rw [joinQ, joinQ] at h
      exact absurd (h ▸ List.mem_append_right b List.mem_cons_self : '\'' ∈ a) (hl a List.mem_cons_self)
  | a :: c :: l, b :: d :: m, _, _, hl, hm, h => by
      rw [joinQ, joinQ] at h
      have split : ∀ {a b : Str} {x y : Str}, '\'' ∉ a → '\'' ∉ b → a ++ '\'' :: x = b ++ '\'' :: y → a = b ∧ x = y := by
        intro a
        induction a with
        | nil =>
            intro b x y _ hb h
            cases b with
            | nil => exact ⟨rfl, by injection h⟩
            | cons e b => injection h with h _; exact absurd (h ▸ List.mem_cons_self) hb
        | cons e a ih =>
            intro b x y ha hb h
            cases b with
            | nil => injection h with h _; exact absurd (h ▸ List.mem_cons_self) ha
            | cons f b =>
                injection h with h1 h2
                obtain ⟨g1, g2⟩ := ih (fun h => ha (List.mem_cons_of_mem _ h)) (fun h => hb (List.mem_cons_of_mem _ h)) h2
                exact ⟨by rw [h1, g1], g2⟩
      obtain ⟨h1, h2⟩ := split (hl a List.mem_cons_self) (hm b List.mem_cons_self) h
      rw [h1, joinQ_inj (c :: l) (d :: m) (by simp) (by simp) (fun x hx => hl x (List.mem_cons_of_mem _ hx)) (fun x hx => hm x (List.mem_cons_of_mem _ hx)) h2]

/-- The text between the quotes, and around them. -/
private def parts : RenderErr → List Str
  | .partialNotFound n => [c!"Partial ", n, c!" not found"]
  | .variableNotFound p t => [c!"Variable ", p, c!" not found in " ++ t ++ c!", check the variable path and verify the template data"]
  | .helperNotFound n => [c!"Helper ", n, c!" not found, check the name"]
  | .partialCycle n => [c!"Cycle detected whilst processing partial ", n, []]
  | .helperCycle n => [c!"Cycle detected whilst processing helper ", n, []]
  | .partialIdentifier n => [c!"Partial names must be simple identifiers, got path ", n, []]
  | .blockIdentifier n => [c!"Block names must be simple identifiers, got path ", n, []]
  | .blockTargetSubExpr => [c!"Block target sub expressions are only supported for partials"]
  | .helper (.blockTemplate n) => [c!"Helper ", n, c!" expects a block template"]
  | .helper (.blockTemplateNotAllowed n) => [c!"Helper ", n, c!" does not allow a block template"]
  | .helper (.arityExact n k) => [c!"Helper ", n, c!" got invalid arity expects " ++ showNat k ++ c!" arguments(s)"]
  | .helper (.arityRange n lo hi) => [c!"Helper ", n, c!" got invalid arity expects " ++ showNat lo ++ c!"-" ++ showNat hi ++ c!" argument(s)"]
  | .helper (.lookupField n f) => [c!"Helper ", n, c!" failed to resolve field ", f, []]
  | .helper (.invalidNumericalOperand n) => [c!"Helper ", n, c!" got invalid numerical operand"]
  | .helper (.typeAssert n a b) => [c!"Helper ", n, c!" type assertion failed, expected ", a, c!" but got ", b, []]
  | _ => []

private theorem showNat_inj {a b : Nat} (h : showNat a = showNat b) : a = b := by
  have h1 := (showNat_isNumeral a).2.2.1
  have h2 := (showNat_isNumeral b).2.2.1
  rw [← h1, ← h2, h]

private theorem digits_end {a b : Nat} {c d : Char} {x y : Str} (hc : ¬ ('0' ≤ c ∧ c ≤ '9')) (hd : ¬ ('0' ≤ d ∧ d ≤ '9'))
    (h : showNat a ++ c :: x = showNat b ++ d :: y) : a = b ∧ c = d ∧ x = y := by
  have ha := (showNat_isNumeral a).2.1
  have hb := (showNat_isNumeral b).2.1
  have key : ∀ {u v : Str}, (∀ e ∈ u, '0' ≤ e ∧ e ≤ '9') → (∀ e ∈ v, '0' ≤ e ∧ e ≤ '9') → u ++ c :: x = v ++ d :: y → u = v ∧ c = d ∧ x = y := by
    intro u
    induction u with
    | nil =>
        intro v _ hv h
        cases v with
        | nil => injection h with h1 h2; exact ⟨rfl, h1, h2⟩
        | cons e v => injection h with h1 h2; exact absurd (hv e List.mem_cons_self) (h1 ▸ hc)
    | cons e u ih =>
        intro v hu hv h
        cases v with
        | nil => injection h with h1 h2; exact absurd (hu e List.mem_cons_self) (h1 ▸ hd)
        | cons f v =>
            injection h with h1 h2
            obtain ⟨g1, g2⟩ := ih (fun k hk => hu k (List.mem_cons_of_mem _ hk)) (fun k hk => hv k (List.mem_cons_of_mem _ hk)) h2
            exact ⟨by rw [h1, g1], g2⟩
  obtain ⟨h1, h2⟩ := key ha hb h
  exact ⟨showNat_inj h1, h2⟩

/-- C73: an error of the library, about names without quotes, can be told from every other by its text (a syntax error,
without its snippet, by its kind). -/
theorem C73_distinct {x y : RenderErr} (fx : First x) (fy : First y) (ox : Ours x) (oy : Ours y) (qx : ∀ n, Names x n → '\'' ∉ n) (qy : ∀ n, Names y n → '\'' ∉ n)
    (h : x.display io = y.display io) : x = y ∨ ∃ s t, Syntactic x s ∧ Syntactic y t ∧ s.kind = t.kind := by
  by_cases hs : c!"Syntax error, " <+: x.display io
  · obtain ⟨s, hs1⟩ := (C73_recognisable io (.same x) fx ox).1 hs
    obtain ⟨t, ht⟩ := (C73_recognisable io (.same y) fy oy).1 (show c!"Syntax error, " <+: y.display io from h ▸ hs)
    have e1 := C73_syntax io (.same x) hs1
    have e2 := C73_syntax io (.same y) ht
    exact .inr ⟨s, t, hs1, ht, (C73_kinds s t).1 (e1.symm.trans (Eq.trans h e2))⟩
  left
  have hd : ∀ n, '\'' ∉ showNat n := fun n h => by
    have := (showNat_isNumeral n).2.1 _ h
    revert this
    decide
  have key : ∀ z : RenderErr, First z → Ours z → ¬ (c!"Syntax error, " <+: z.display io) → (∀ n, Names z n → '\'' ∉ n) →
      z.display io = joinQ (parts z) ∧ parts z ≠ [] ∧ ∀ a ∈ parts z, '\'' ∉ a := by
    intro z fz oz hz qz
    have stx : ∀ s, ¬ Syntactic z s := fun s hs => hz ((C73_recognisable io (.same z) fz oz).2 ⟨s, hs⟩)
    cases z with
    | io => exact oz.elim
    | helper k =>
        cases k with
        | «syntax» s => exact absurd (.path s) (stx s)
        | onceSyntax s => exact absurd (.once s) (stx s)
        | message => exact oz.elim
        | io => exact oz.elim
        | render => exact fz.elim
        | onceRender => exact fz.elim
        | blockTemplate n => have := qz n (.blockTemplate n); simp [parts, joinQ, RenderErr.display, HelperErr.display, this]
        | blockTemplateNotAllowed n => have := qz n (.noBlockTemplate n); simp [parts, joinQ, RenderErr.display, HelperErr.display, this]
        | arityExact n k => have := qz n (.arityExact n k); simp [parts, joinQ, RenderErr.display, HelperErr.display, this, hd]
        | arityRange n k l => have := qz n (.arityRange n k l); simp [parts, joinQ, RenderErr.display, HelperErr.display, this, hd]
        | lookupField n f => have := qz n (.lookupField n f); have := qz f (.field n f); simp [parts, joinQ, RenderErr.display, HelperErr.display, *]
        | invalidNumericalOperand n => have := qz n (.operand n); simp [parts, joinQ, RenderErr.display, HelperErr.display, this]
        | typeAssert n a b =>
            have := qz n (.type n a b); have := qz a (.expected n a b); have := qz b (.got n a b)
            simp [parts, joinQ, RenderErr.display, HelperErr.display, *]
    | partialNotFound n => have := qz n (.partialNotFound n); simp [parts, joinQ, RenderErr.display, this]
    | variableNotFound p t => have := qz p (.variable p t); have := qz t (.variableIn p t); simp [parts, joinQ, RenderErr.display, *]
    | helperNotFound n => have := qz n (.helperNotFound n); simp [parts, joinQ, RenderErr.display, this]
    | partialCycle n => have := qz n (.partialCycle n); simp [parts, joinQ, RenderErr.display, this]
    | helperCycle n => have := qz n (.helperCycle n); simp [parts, joinQ, RenderErr.display, this]
    | partialIdentifier n => have := qz n (.partialIdentifier n); simp [parts, joinQ, RenderErr.display, this]
    | blockIdentifier n => have := qz n (.blockIdentifier n); simp [parts, joinQ, RenderErr.display, this]
    | blockTargetSubExpr => simp [parts, joinQ, RenderErr.display]
  obtain ⟨hx1, hx2, hx3⟩ := key x fx ox hs qx
  obtain ⟨hy1, hy2, hy3⟩ := key y fy oy (h ▸ hs) qy
  have hp : parts x = parts y := joinQ_inj _ _ hx2 hy2 hx3 hy3 (hx1.symm.trans (h.trans hy1))
  clear hx1 hx3 hy1 hy3 hs h fx fy ox oy qx qy key
  cases x with
  | helper k =>
      cases k with
      | arityExact n a =>
          cases y with
          | helper k' =>
              cases k' with
              | arityExact m b =>
                  simp [parts] at hp ⊢
                  obtain ⟨h1, h2⟩ := hp
                  exact ⟨h1, showNat_inj h2⟩
              | arityRange m lo hi =>
                  simp [parts] at hp
                  exact absurd (digits_end (by decide) (by decide) hp.2).2.1 (by decide)
              | _ => first | exact absurd rfl hy2 | (simp [parts] at hp; done)
          | _ => first | exact absurd rfl hy2 | (simp [parts] at hp; done)
      | arityRange n lo hi =>
          cases y with
          | helper k' =>
              cases k' with
              | arityExact m b =>
                  simp [parts] at hp
                  exact absurd (digits_end (by decide) (by decide) hp.2).2.1 (by decide)
              | arityRange m lo' hi' =>
                  simp [parts] at hp ⊢
                  obtain ⟨h1, h2⟩ := hp
                  obtain ⟨h3, _, h4⟩ := digits_end (by decide) (by decide) h2
                  exact ⟨h1, h3, (digits_end (by decide) (by decide) h4).1⟩
              | _ => first | exact absurd rfl hy2 | (simp [parts] at hp; done)
          | _ => first | exact absurd rfl hy2 | (simp [parts] at hp; done)
      | _ =>
          cases y with
          | helper k' =>
              cases k' with
              | _ => first | exact absurd rfl hx2 | exact absurd rfl hy2 | (simp [parts] at hp; done) | (simp [parts] at hp ⊢; exact hp)
          | _ => first | exact absurd rfl hx2 | exact absurd rfl hy2 | (simp [parts] at hp; done) | (simp [parts] at hp ⊢; exact hp)
  | _ =>
      cases y with
      | helper k' =>
          cases k' with
          | _ => first | exact absurd rfl hx2 | exact absurd rfl hy2 | (simp [parts] at hp; done) | (simp [parts] at hp ⊢; exact hp)
      | _ => first | rfl | exact absurd rfl hx2 | exact absurd rfl hy2 | (simp [parts] at hp; done) | (simp [parts] at hp ⊢; exact hp)

/-- C73: the text of an arity error gives the numbers of arguments wanted, the smaller first. -/
theorem C73_arity (name : Str) (lo hi : Nat) :
    (∃ u v, (RenderErr.helper (.arityRange name lo hi)).display io = u ++ (c!" expects " ++ (showNat lo ++ '-' :: (showNat hi ++ ' ' :: v)))) ∧
    (∃ u v, (RenderErr.helper (.arityExact name lo)).display io = u ++ (c!" expects " ++ (showNat lo ++ ' ' :: v))) := by
  refine ⟨⟨c!"Helper '" ++ name ++ c!"' got invalid arity", c!"argument(s)", ?_⟩, ⟨c!"Helper '" ++ name ++ c!"' got invalid arity", c!"arguments(s)", ?_⟩⟩ <;>
    simp [RenderErr.display, HelperErr.display]

/-- C73: what is shown for debugging is the same text, but for a syntax error it has the snippet too. -/
theorem C73_debug (e : ApiErr) : (∀ s, e = .syntax s → e.debug io = s.debug ∧ e.display io = s.display) ∧
    ((∀ s, e ≠ .syntax s) → e.debug io = e.display io) := by
  cases e with
  | «syntax» s => exact ⟨fun t h => by injection h with h; subst h; exact ⟨rfl, rfl⟩, fun h => absurd rfl (h s)⟩
  | _ => exact ⟨fun t h => (by cases h), fun _ => rfl⟩

/-- C73: errors that compare equal (C72) say the same. -/
theorem C73_equal {a b : ApiErr} (h : apiEq a b = true) : a.display io = b.display io ∧ a.debug io = b.debug io := by
  rw [C72_sound h]; exact ⟨rfl, rfl⟩

/-- C73: rendering a template that is not there says so, with its name. -/
theorem C73_template [Host] (n : Nat) (r : Reg) (name : Str) (data : Value) (h : r.get name = none) :
    ∃ e, r.render n name data = .err e ∧ e.display io = c!"Template not found '" ++ name ++ c!"'" ∧ e.debug io = e.display io :=
  ⟨_, (C36_missing n r stringSink name data h).2, rfl, rfl⟩
end

/-- Two errors with the same name in them. -/
example : First (.helperCycle c!"m") ∧ Ours (.helperCycle c!"m") ∧ (∀ n, Names (.helperCycle c!"m") n → '\'' ∉ n) ∧ (∀ n, Names (.partialCycle c!"m") n → '\'' ∉ n) :=
  ⟨trivial, trivial, fun n h => by cases h; decide, fun n h => by cases h; decide⟩

/-- The hypotheses on concrete errors: a missing partial under two blocks, and a syntax error of `rc.once`. -/
example : Around (.helper (.render (.helper (.onceRender (.partialNotFound c!"m"))))) (.partialNotFound c!"m") ∧
    First (.partialNotFound c!"m") ∧ Ours (.partialNotFound c!"m") ∧ Names (.partialNotFound c!"m") c!"m" ∧
    Syntactic (.helper (.onceSyntax ⟨.emptyPath, []⟩)) ⟨.emptyPath, []⟩ :=
  ⟨.template (.once (.same _)), trivial, trivial, .partialNotFound _, .once _⟩

section Examples
attribute [local instance] exHost

/-- The text of the error an operation returned. -/
def textOf {α : Type} : Out α → Option Str
  | .err e => some (e.display fun _ => [])
  | _ => none

def debugOf {α : Type} : Out α → Option Str
  | .err e => some (e.debug fun _ => [])
  | _ => none

/-- Concrete texts, through two blocks, in strict mode, and of a syntax error. -/
example :
    textOf (Reg.once 60 Reg.new c!"t" c!"{{#each l}}{{#if this}}{{> m}}{{/if}}{{/each}}" (.obj [(c!"l", .arr [.bool true])])) = some c!"Partial 'm' not found" ∧
    textOf (Reg.once 60 (Reg.new.setStrict true) c!"t" c!"{{a.b}}" (.obj [])) = some c!"Variable 'a.b' not found in t, check the variable path and verify the template data" ∧
    textOf (Reg.once 60 Reg.new c!"t" c!"{{#each}}{{/each}}" (.obj [])) = some c!"Helper 'each' got invalid arity expects 1 arguments(s)" ∧
    debugOf (Reg.once 60 Reg.new c!"t" c!"a {{/if}}" (.obj [])) =
      some c!"Syntax error, got a closing tag but no block is open\n  --> t:1:3\n   |\n 1 | a {{/if}}\n   | --^\n   = note: perhaps open the block 'if'" := by
  refine ⟨by decide +kernel, by decide +kernel, by decide +kernel, by decide +kernel⟩
end Examples
end Bracket.Props
