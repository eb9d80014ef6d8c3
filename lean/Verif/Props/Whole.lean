import Verif.Lemmas.Tied
import Verif.Props.Full

/-! C63–C67: panics, strict mode, concatenation, data and templates that are not mentioned. -/

set_option linter.unusedSectionVars false
set_option linter.unusedSimpArgs false

namespace Bracket.Props
open Bracket Re Spec
open Bracket.Spec.Full (Mood Outcome wrote failed cut opens isNil stops Library)
open Bracket.Props.Tied

section
variable [Host] [Custom]

theorem sound_any (K : SPath → SArgs → Bool) : Sound K true := fun _ _ _ _ _ _ _ _ _ _ _ f _ => by cases f <;> trivial

/-- The names of the templates and `@partial-block`. -/
def partNames (lib : List (Str × STm)) : List Str := c!"@partial-block" :: lib.map (·.1)

theorem room_start (lib : List (Str × STm)) (reg : Reg) (name : Str) (data : Value) : Whole.Room (partNames lib) (lib.length + 1) (Scene.start reg name data) :=
  Nat.le_trans (List.length_filter_le _ _) (by simp [partNames])

theorem known_names (lib : List (Str × STm)) (x : Str) (h : x = c!"@partial-block" ∨ (lib.lookup x).isSome = true) : x ∈ partNames lib := by
  rcases h with rfl | h
  · exact List.mem_cons_self
  · exact List.mem_cons_of_mem _ (mem_of_lookup h)

/-- Two renderings of the same template. -/
theorem joined_meaning {N : SPath → Bool} {K : SPath → SArgs → Bool} {Q : Option Str → Bool} {pan loose : Bool} (hK : Sound K pan)
    {T : STm} (hT : T.every N K Q = true) {lib lib' : List (Str × STm)} (h0 : Q none = true → ∀ x, Q (some x) = true) (h1 : ∀ x, Q (some x) = true → lib'.lookup x = lib.lookup x)
    (h2 : ∀ x U, Q (some x) = true → lib.lookup x = some U → U.every N K Q = true) {reg reg' : Reg} {name : Str} {data data' : Value}
    (ha : Akin N loose (Scene.start reg name data) (Scene.start reg' name data')) (d : Nat) (hd : lib.length + 1 ≤ d) :
    Joined N K Q pan loose (Full.meaning lib T (Scene.start reg name data))
      (Full.tm (Full.depth (lib'.lookup ·) d) T (Scene.start reg' name data') false false false ⟨false, false, none, .none⟩) :=
  joined_tm hK (joined_depth hK h0 h1 h2 (known_names lib) (lib.length + 1) _ _ (Nat.le_refl _) hd) T hT _ _ (room_start lib reg name data) ha
    false false false _ (fun _ h => by cases h)

theorem akin_refl (Γ : Scene) (N : SPath → Bool) (loose : Bool) : Akin N loose Γ Γ := ⟨rfl, rfl, rfl, rfl, .inl rfl, fun _ _ _ => rfl⟩

/-! ### C63 -/

theorem said_bind {α β : Type} {x : Said α} {f : α → Said β} {b : β} (h : (x.bind f).2 = .ok b) : ∃ a, x.2 = .ok a ∧ (f a).2 = .ok b := by
  obtain ⟨w, x⟩ := x
  cases x with
  | error e => cases h
  | ok a => exact ⟨a, rfl, h⟩

theorem isStr_eval {x : SExpr} (h : x.isStr = true) (Γ : Scene) (k : Cut) : ∃ w, x.eval Γ k = said (some (.str w)) := by
  cases x with
  | lit l =>
      cases l with
      | str q s => exact ⟨_, by rw [SExpr.eval]; rfl⟩
      | bracket w => exact ⟨_, by rw [SExpr.eval]; rfl⟩
      | _ => cases h
  | _ => cases h

theorem eval_named {Γ : Scene} {k : Cut} : ∀ {a : SArgs} {vs hs}, (a.eval Γ k).2 = .ok (vs, hs) → ((Full.named a).eval Γ k).2 = .ok hs
  | .done h, vs, hs, he => by
      rw [SArgs.eval] at he
      rw [Full.named]
      obtain ⟨x, hx, he⟩ := said_bind he
      injection he with he
      injection he with _ he
      rw [hx, he]
  | .argW w x r, vs, hs, he => by
      rw [SArgs.eval] at he
      rw [Full.named]
      obtain ⟨v, _, he⟩ := said_bind he
      obtain ⟨y, hy, he⟩ := said_bind he
      injection he with he
      injection he with _ he
      rw [← he]
      exact eval_named (a := r) hy

theorem strAt_eval {k : Str} {Γ : Scene} {c : Cut} : ∀ {h : SHash} {hs}, h.strAt k = true → (h.eval Γ c).2 = .ok hs → ∀ v, hs.lookup k = some v → ∃ w, v = .str w
  | .tail _, hs, h1, he, v, hv => by rw [SHash.eval] at he; injection he with he; subst he; cases hv
  | .pairW ws j x r, hs, h1, he, v, hv => by
      rw [SHash.strAt] at h1
      simp only [Bool.and_eq_true, Bool.or_eq_true, bne_iff_ne] at h1
      rw [SHash.eval] at he
      obtain ⟨y, hx, he⟩ := said_bind he
      obtain ⟨z, hr, he⟩ := said_bind he
      injection he with he
      subst he
      rw [List.lookup_cons] at hv
      by_cases hk : k = j
      · subst hk
        simp only [beq_self_eq_true] at hv
        injection hv with hv
        rcases h1.1 with h | h
        · exact absurd rfl h
        · obtain ⟨w, hw⟩ := isStr_eval h Γ c
          rw [hw] at hx
          injection hx with hx
          subst hx
          exact ⟨w, hv.symm⟩
      · have : (k == j) = false := by simpa using hk
        rw [this] at hv
        exact strAt_eval (h := r) h1.2 hr v hv

theorem second_eval {Γ : Scene} {k : Cut} {a : SArgs} {x y : Value} {hs} (h : a.secondStr = true) (he : (a.eval Γ k).2 = .ok ([x, y], hs)) : ∃ w, y = .str w := by
  match a, h, he with
  | .done h', _, he =>
      rw [SArgs.eval] at he
      obtain ⟨z, _, he⟩ := said_bind he
      cases he
  | .argW _ e (.done h'), _, he =>
      rw [SArgs.eval] at he
      obtain ⟨v, _, he⟩ := said_bind he
      obtain ⟨u, hu, he⟩ := said_bind he
      rw [SArgs.eval] at hu
      obtain ⟨z, _, hu⟩ := said_bind hu
      cases hu
      cases he
  | .argW _ e (.argW _ e' r), h, he =>
      obtain ⟨w, hw⟩ := isStr_eval (x := e') h Γ k
      rw [SArgs.eval] at he
      obtain ⟨v, _, he⟩ := said_bind he
      obtain ⟨u, hu, he⟩ := said_bind he
      rw [SArgs.eval, hw] at hu
      obtain ⟨v', hv', hu⟩ := said_bind hu
      injection hv' with hv'
      subst hv'
      obtain ⟨z, _, hu⟩ := said_bind hu
      injection hu with hu
      subst hu
      injection he with he
      injection he with he _
      injection he with _ he
      injection he with he _
      exact ⟨w, he.symm⟩

theorem comparison_fine {name : Str} {f : F64 → F64 → Bool} {a b : Value} {x : Fault} (h : comparison name f a b = .error x) : Fine false x := by
  unfold comparison at h
  split at h
  · cases h
  · injection h with h; subst h; trivial
  · injection h with h; subst h; trivial

theorem unary_fine {name : Str} {vs : List Value} {f : Value → Except Fault (Option Value)} {x : Fault} (hf : ∀ v, f v = .error x → Fine false x)
    (h : unary name vs f = .error x) : Fine false x := by
  unfold unary at h
  split at h
  · exact hf _ h
  · injection h with h; subst h; trivial

theorem binary_fine {name : Str} {vs : List Value} {f : Value → Value → Except Fault (Option Value)} {x : Fault}
    (hf : ∀ u v, vs = [u, v] → f u v = .error x → Fine false x) (h : binary name vs f = .error x) : Fine false x := by
  unfold binary at h
  split at h
  · exact hf _ _ rfl h
  · injection h with h; subst h; trivial

theorem ite_err {α : Type} {c : Prop} [Decidable c] {x y : Except Fault α} {f : Fault} {P : Prop} (h : (if c then x else y) = .error f)
    (hx : c → x = .error f → P) (hy : ¬c → y = .error f → P) : P := by
  by_cases hc : c
  · rw [if_pos hc] at h; exact hx hc h
  · rw [if_neg hc] at h; exact hy hc h

theorem sound_steady : Sound Spec.steady false := by
  intro w a Γ k vs hs hk hw he Δ c f hf
  unfold Spec.steady at hk
  simp only [Bool.and_eq_true, Bool.or_eq_true, bne_iff_ne] at hk
  obtain ⟨h1, h2⟩ := hk
  unfold helperValue at hf
  cases hcu : Custom.fn w with
  | some g =>
      rw [hcu] at hf
      exact fine_said f hf
  | none =>
  rw [hcu] at hf
  simp only at hf
  replace hw : helperNames.contains w = true := by
    unfold isHelper at hw
    rw [hcu] at hw
    simpa using hw
  unfold builtinValue at hf
  refine ite_err hf (fun _ h => unary_fine (fun v h => by cases h) h) fun n1 hf => ?_
  refine ite_err hf (fun _ h => unary_fine (fun v h => by cases h) h) fun n2 hf => ?_
  refine ite_err hf (fun _ h => unary_fine (fun v h => by cases h) h) fun n3 hf => ?_
  refine ite_err hf (fun _ h => binary_fine (fun _ _ _ h => by cases h) h) fun n4 hf => ?_
  refine ite_err hf (fun _ h => binary_fine (fun _ _ _ h => by cases h) h) fun n5 hf => ?_
  refine ite_err hf (fun _ h => binary_fine (fun _ _ _ h => comparison_fine h) h) fun n6 hf => ?_
  refine ite_err hf (fun _ h => binary_fine (fun _ _ _ h => comparison_fine h) h) fun n7 hf => ?_
  refine ite_err hf (fun _ h => binary_fine (fun _ _ _ h => comparison_fine h) h) fun n8 hf => ?_
  refine ite_err hf (fun _ h => binary_fine (fun _ _ _ h => comparison_fine h) h) fun n9 hf => ?_
  refine ite_err hf (fun _ h => binary_fine (fun _ _ _ h => comparison_fine h) h) fun n10 hf => ?_
  refine ite_err hf (fun _ h => binary_fine (fun _ _ _ h => comparison_fine h) h) fun n11 hf => ?_
  refine ite_err hf (fun hl h => ?_) fun n12 hf => ?_
  · subst hl
    rcases h1 with h1 | h1
    · exact absurd rfl h1
    refine binary_fine (fun u v hv h => ?_) h
    subst hv
    obtain ⟨w, rfl⟩ := second_eval h1 he
    replace h : (match member u w with | some v => .ok (some v) | none => helperErr (.lookupField c!"lookup" w)) = Except.error f := h
    cases hfd : member u w with
    | some v => rw [hfd] at h; cases h
    | none => rw [hfd] at h; injection h with h; subst h; trivial
  refine ite_err hf (fun _ h => unary_fine (fun v h => by cases h) h) fun n13 hf => ?_
  refine ite_err hf (fun _ h => by injection h with h; subst h; trivial) fun _ hlast => ?_
  have hlog : w = c!"log" := by
    rw [List.contains_iff_mem] at hw
    unfold helperNames at hw
    simp only [List.mem_cons, List.not_mem_nil, or_false] at hw
    simp only [not_or] at n2
    rcases hw with h | h | h | h | h | h | h | h | h | h | h | h | h | h | h | h <;> first | exact h | exact absurd h (by assumption) | exact absurd h n2.1 | exact absurd h n2.2.1 | exact absurd h n2.2.2
  subst hlog
  rcases h2 with h2 | h2
  · exact absurd rfl h2
  cases hv : hs.lookup c!"level" with
  | none => rw [hv] at hlast; cases hlast
  | some v =>
      obtain ⟨w, rfl⟩ := strAt_eval h2 (eval_named he) _ hv
      rw [hv] at hlast
      cases hlast

/-- The interpreter does not panic. -/
theorem steady_meaning {T : STm} (hT : T.steady = true) {lib : List (Str × STm)} (hl : ∀ x ∈ lib, x.2.steady = true) (reg : Reg) (name : Str) (data : Value) :
    (Full.meaning lib T (Scene.start reg name data)).2 ≠ .error .panic := by
  intro h
  have := (joined_meaning (N := fun _ => true) (K := Spec.steady) (Q := fun _ => true) (pan := false) (loose := false) sound_steady hT (lib := lib) (lib' := lib)
    (fun _ _ => rfl) (fun _ _ => rfl) (fun x U _ hU => hl _ (mem_lookup hU)) (akin_refl (Scene.start reg name data) _ false) _ (Nat.le_refl _)).fine _ h
  cases this

/-- **C63**: rendering a well-formed template with well-formed partials never panics, whatever the data, if
none of them calls `lookup` with a computed field or `log` with a computed level: the result is text or an
error. -/
theorem C63_once (T : STm) (hok : T.ok [] = true) (hT : T.steady = true) (lib : List (Str × STm)) (hl : ∀ x ∈ lib, x.2.steady = true) (reg : Reg)
    (hb : Equipped reg) (hh : Full.Holds reg lib) (name : Str) (data : Value) :
    ∃ N, ∀ n, N ≤ n → (∃ w, Reg.once n reg name T.src data = .ok w) ∨ ∃ e, Reg.once n reg name T.src data = .err (.render e) := by
  obtain ⟨N, h⟩ := C61_once T hok lib reg hb hh name data
  refine ⟨N, fun n hn => ?_⟩
  rw [h n hn]
  have := steady_meaning hT hl reg name data
  revert this
  generalize Full.meaning lib T (Scene.start reg name data) = o
  obtain ⟨w, x⟩ := o
  intro hp
  match x, hp with
  | .ok _, _ => exact .inl ⟨w, rfl⟩
  | .error (.err e), _ => exact .inr ⟨e, rfl⟩
  | .error .panic, hp => exact absurd rfl hp

/-- **C63**: the same for a registered template and any destination that accepts every write. -/
theorem C63_registered (lib : List (Str × STm)) (hl : ∀ x ∈ lib, x.2.steady = true) (reg : Reg) (hb : Equipped reg) (hh : Full.Holds reg lib)
    (name : Str) (T : STm) (hT : lib.lookup name = some T) (data : Value) (sink : Sink) (hs : ∀ ws w, ∃ n, sink ws w = .ok n) :
    ∃ N, ∀ n, N ≤ n → (reg.renderToWrite n sink name data).1 = .ok () ∨ ∃ e, (reg.renderToWrite n sink name data).1 = .err (.render e) := by
  obtain ⟨N, h⟩ := C61_registered lib reg hb hh name T hT data sink hs
  refine ⟨N, fun n hn => ?_⟩
  obtain ⟨ws, _, h2⟩ := h n hn
  rw [h2]
  have := steady_meaning (hl _ (mem_lookup hT)) hl reg name data
  revert this
  generalize Full.meaning lib T (Scene.start reg name data) = o
  obtain ⟨w, x⟩ := o
  intro hp
  match x, hp with
  | .ok _, _ => exact .inl rfl
  | .error (.err e), _ => exact .inr ⟨e, rfl⟩
  | .error .panic, hp => exact absurd rfl hp

/-! ### C64 -/

mutual
theorem every_expr {N : SPath → Bool} {K : SPath → SArgs → Bool} (hN : ∀ p, N p = true) (hK : ∀ p a, K p a = true) : ∀ x : SExpr, x.every N K = true
  | .path p => by rw [SExpr.every]; exact hN p
  | .lit l => by rw [SExpr.every]
  | .sub p a => by rw [SExpr.every]; simp [hN, hK, every_args hN hK a]
theorem every_args {N : SPath → Bool} {K : SPath → SArgs → Bool} (hN : ∀ p, N p = true) (hK : ∀ p a, K p a = true) : ∀ a : SArgs, a.every N K = true
  | .done h => by rw [SArgs.every]; exact every_hash hN hK h
  | .argW _ x r => by rw [SArgs.every]; simp [every_expr hN hK x, every_args hN hK r]
theorem every_hash {N : SPath → Bool} {K : SPath → SArgs → Bool} (hN : ∀ p, N p = true) (hK : ∀ p a, K p a = true) : ∀ h : SHash, h.every N K = true
  | .tail _ => by rw [SHash.every]
  | .pairW _ _ x r => by rw [SHash.every]; simp [every_expr hN hK x, every_hash hN hK r]
end

mutual
theorem every_tm {N : SPath → Bool} {K : SPath → SArgs → Bool} {Q : Option Str → Bool} (hN : ∀ p, N p = true) (hK : ∀ p a, K p a = true) (hQ : ∀ x, Q x = true) :
    ∀ T : STm, T.every N K Q = true
  | .nil => by rw [STm.every]
  | .text _ r | .comment _ r | .longComment _ r | .escaped _ r | .link _ _ _ _ r => by rw [STm.every]; exact every_tm hN hK hQ r
  | .stmt _ part _ p a r => by rw [STm.every]; simp [hN, hK, hQ, every_args hN hK a, every_tm hN hK hQ r]
  | .dyn _ part _ q b a r => by rw [STm.every]; simp [hN, hK, hQ, every_args hN hK a, every_args hN hK b, every_tm hN hK hQ r]
  | .rawBlock _ name a _ _ r => by rw [STm.every]; simp [hN, hK, every_args hN hK a, every_tm hN hK hQ r]
  | .block part _ name a body cs _ r => by
      rw [STm.every]; simp [hN, hK, hQ, every_args hN hK a, every_tm hN hK hQ body, every_cls hN hK hQ cs, every_tm hN hK hQ r]
theorem every_cls {N : SPath → Bool} {K : SPath → SArgs → Bool} {Q : Option Str → Bool} (hN : ∀ p, N p = true) (hK : ∀ p a, K p a = true) (hQ : ∀ x, Q x = true) :
    ∀ cs : SCls, cs.every N K Q = true
  | .nil => by rw [SCls.every]
  | .cons _ none body r => by rw [SCls.every]; simp [every_tm hN hK hQ body, every_cls hN hK hQ r]
  | .cons _ (some (p, a)) body r => by
      rw [SCls.every]; simp [hN, hK, every_args hN hK a, every_tm hN hK hQ body, every_cls hN hK hQ r]
end

theorem akin_lenient (reg : Reg) (name : Str) (data : Value) (N : SPath → Bool) :
    Akin N true (Scene.start { reg with strict := true } name data) (Scene.start { reg with strict := false } name data) :=
  ⟨rfl, rfl, rfl, rfl, .inr ⟨rfl, rfl⟩, fun _ _ _ => rfl⟩

theorem lenient_meaning (T : STm) (lib : List (Str × STm)) (reg : Reg) (name : Str) (data : Value) :
    Joined (fun _ => true) (fun _ _ => true) (fun _ => true) true true (Full.meaning lib T (Scene.start { reg with strict := true } name data))
      (Full.meaning lib T (Scene.start { reg with strict := false } name data)) :=
  joined_meaning (sound_any _) (every_tm (fun _ => rfl) (fun _ _ => rfl) (fun _ => rfl) T) (fun _ _ => rfl) (fun _ _ => rfl)
    (fun _ U _ _ => every_tm (fun _ => rfl) (fun _ _ => rfl) (fun _ => rfl) U) (akin_lenient reg name data _) _ (Nat.le_refl _)

/-- **C64**: strict mode only adds errors: when a rendering succeeds in strict mode, it gives the same text
without. -/
theorem C64_once (T : STm) (hok : T.ok [] = true) (lib : List (Str × STm)) (reg : Reg) (hb : Equipped reg) (hl : Full.Holds reg lib) (name : Str)
    (data : Value) :
    ∃ N, ∀ n, N ≤ n → ∀ w, Reg.once n { reg with strict := true } name T.src data = .ok w → Reg.once n { reg with strict := false } name T.src data = .ok w := by
  obtain ⟨N, h⟩ := C61_once T hok lib { reg with strict := true } ⟨hb.1, hb.2, hb.3, hb.4⟩ hl name data
  obtain ⟨M, h'⟩ := C61_once T hok lib { reg with strict := false } ⟨hb.1, hb.2, hb.3, hb.4⟩ hl name data
  refine ⟨max N M, fun n hn w hw => ?_⟩
  rw [h n (Nat.le_trans (Nat.le_max_left ..) hn)] at hw
  rw [h' n (Nat.le_trans (Nat.le_max_right ..) hn)]
  have := (lenient_meaning T lib reg name data).same
  revert this hw
  generalize Full.meaning lib T (Scene.start { reg with strict := true } name data) = o
  generalize Full.meaning lib T (Scene.start { reg with strict := false } name data) = o'
  rintro hw (rfl | ⟨_, ⟨f, hf⟩, _⟩)
  · exact hw
  · obtain ⟨u, x⟩ := o
    simp only at hf
    subst hf
    cases f <;> cases hw

/-- **C64**: until the rendering in strict mode stops, it writes the same: what it wrote is what the other
begins with, and all of it when it succeeds. -/
theorem C64_registered (lib : List (Str × STm)) (reg : Reg) (hb : Equipped reg) (hl : Full.Holds reg lib) (name : Str) (T : STm)
    (hT : lib.lookup name = some T) (data : Value) (sink : Sink) (hs : ∀ ws w, ∃ n, sink ws w = .ok n) :
    ∃ N, ∀ n, N ≤ n →
      outText (Reg.renderToWrite n { reg with strict := true } sink name data).2 <+: outText (Reg.renderToWrite n { reg with strict := false } sink name data).2 ∧
      ((Reg.renderToWrite n { reg with strict := true } sink name data).1 = .ok () →
        (Reg.renderToWrite n { reg with strict := false } sink name data).1 = .ok () ∧
        outText (Reg.renderToWrite n { reg with strict := true } sink name data).2 = outText (Reg.renderToWrite n { reg with strict := false } sink name data).2) := by
  obtain ⟨N, h⟩ := C61_registered lib { reg with strict := true } ⟨hb.1, hb.2, hb.3, hb.4⟩ hl name T hT data sink hs
  obtain ⟨M, h'⟩ := C61_registered lib { reg with strict := false } ⟨hb.1, hb.2, hb.3, hb.4⟩ hl name T hT data sink hs
  refine ⟨max N M, fun n hn => ?_⟩
  obtain ⟨ws, g1, g2⟩ := h n (Nat.le_trans (Nat.le_max_left ..) hn)
  obtain ⟨ws', g3, g4⟩ := h' n (Nat.le_trans (Nat.le_max_right ..) hn)
  rw [g2, g4]
  show outText ws <+: outText ws' ∧ (_ → _ ∧ outText ws = outText ws')
  rw [g1, g3]
  have := (lenient_meaning T lib reg name data).same
  revert this
  generalize Full.meaning lib T (Scene.start { reg with strict := true } name data) = o
  generalize Full.meaning lib T (Scene.start { reg with strict := false } name data) = o'
  rintro (rfl | ⟨_, ⟨f, hf⟩, hp⟩)
  · exact ⟨List.prefix_rfl, fun h => ⟨h, rfl⟩⟩
  · refine ⟨hp, fun h => ?_⟩
    rw [hf] at h
    cases f <;> cases h

/-! ### C65 -/

theorem opens_calm {names : List Str} : ∀ {T : STm}, T.calm names = true → opens T = false
  | .nil, _ | .text _ _, _ | .comment _ _, _ | .longComment _ _, _ | .escaped _ _, _ | .link _ _ _ _ _, _ => rfl
  | .stmt _ _ tl _ _ _, h => by
      rw [STm.calm] at h
      simp only [Bool.and_eq_true, Tilde.plain, Bool.not_eq_true'] at h
      simp [opens, h.1.2.1]
  | .dyn _ _ tl _ _ _ _, h => by
      rw [STm.calm] at h
      simp only [Bool.and_eq_true, Tilde.plain, Bool.not_eq_true'] at h
      simp [opens, h.1.2.1]
  | .rawBlock tl _ _ _ _ _, h => by
      rw [STm.calm] at h
      simp only [Bool.and_eq_true, Tilde.plain, Bool.not_eq_true'] at h
      simp [opens, h.1.1.1]
  | .block _ tl _ _ _ _ _ _, h => by
      rw [STm.calm] at h
      simp only [Bool.and_eq_true, Tilde.plain, Bool.not_eq_true'] at h
      simp [opens, h.1.1.1.1.2.1]

theorem stops_append {names : List Str} {T U : STm} (hT : T.calm names = true) (hU : opens U = false) : stops (T.append U) false = stops T false := by
  have h1 := opens_calm hT
  unfold stops
  simp only [Bool.and_false, Bool.or_false, h1]
  cases T <;> first | exact hU | exact h1

theorem stops_calm {names : List Str} {T : STm} (hT : T.calm names = true) : stops T false = false := by
  unfold stops
  simp only [opens_calm hT, Bool.and_false, Bool.or_false]

theorem andThen_assoc (a : Outcome) (f g : Mood → Outcome) : (a.andThen f).andThen g = a.andThen fun μ => (f μ).andThen g := by
  obtain ⟨w, x⟩ := a
  cases x with
  | error e => rfl
  | ok μ =>
      show Outcome.andThen (w ++ (f μ).1, (f μ).2) g = (w ++ ((f μ).andThen g).1, ((f μ).andThen g).2)
      unfold Outcome.andThen
      cases (f μ).2 <;> simp

theorem tm_append {names : List Str} (L : Library) {U : STm} (hU : opens U = false) : ∀ (T : STm), T.calm names = true → ∀ (Γ : Scene) (μ : Mood),
    Full.tm L (T.append U) Γ false false false μ = (Full.tm L T Γ false false false μ).andThen (Full.tm L U Γ false false false)
  | .nil, _, Γ, μ => by rw [Full.tm]; simp [STm.append, wrote, Outcome.andThen]
  | .text w r, h, Γ, μ => by
      rw [STm.calm] at h
      rw [STm.append, Full.tm, Full.tm, stops_append h hU, andThen_assoc]
      exact congrArg _ (funext fun ν => tm_append L hU r h Γ ν)
  | .comment w r, h, Γ, μ => by
      rw [STm.calm] at h
      rw [STm.append, Full.tm, Full.tm, stops_append h hU, andThen_assoc]
      exact congrArg _ (funext fun ν => tm_append L hU r h Γ ν)
  | .longComment w r, h, Γ, μ => by
      rw [STm.calm] at h
      rw [STm.append, Full.tm, Full.tm, stops_append h hU, andThen_assoc]
      exact congrArg _ (funext fun ν => tm_append L hU r h Γ ν)
  | .escaped w r, h, Γ, μ => by
      rw [STm.calm] at h
      rw [STm.append, Full.tm, Full.tm, stops_append h hU, andThen_assoc]
      exact congrArg _ (funext fun ν => tm_append L hU r h Γ ν)
  | .link e h' l t r, h, Γ, μ => by
      rw [STm.calm] at h
      rw [STm.append, Full.tm, Full.tm, stops_append h hU, andThen_assoc]
      exact congrArg _ (funext fun ν => tm_append L hU r h Γ ν)
  | .stmt raw part tl p a r, h, Γ, μ => by
      rw [STm.calm] at h
      simp only [Bool.and_eq_true, Tilde.plain, Bool.not_eq_true'] at h
      rw [STm.append, Full.tm, Full.tm, stops_append h.2 hU, andThen_assoc, h.1.2.2]
      exact congrArg _ (funext fun ν => tm_append L hU r h.2 Γ ν)
  | .dyn raw part tl q b a r, h, Γ, μ => by
      rw [STm.calm] at h
      simp only [Bool.and_eq_true, Tilde.plain, Bool.not_eq_true'] at h
      rw [STm.append, Full.tm, Full.tm, stops_append h.2 hU, andThen_assoc, h.1.2.2]
      exact congrArg _ (funext fun ν => tm_append L hU r h.2 Γ ν)
  | .rawBlock tl name a w cl r, h, Γ, μ => by
      rw [STm.calm] at h
      simp only [Bool.and_eq_true, Tilde.plain, Bool.not_eq_true'] at h
      rw [STm.append, Full.tm, Full.tm, stops_append h.2 hU, andThen_assoc]
      exact congrArg _ (funext fun ν => tm_append L hU r h.2 Γ ν)
  | .block part tl name a body cs cl r, h, Γ, μ => by
      rw [STm.calm] at h
      simp only [Bool.and_eq_true, Tilde.plain, Bool.not_eq_true'] at h
      rw [STm.append, Full.tm, Full.tm, stops_append h.2 hU, andThen_assoc]
      exact congrArg _ (funext fun ν => tm_append L hU r h.2 Γ ν)

/-- The mood at the start. -/
def fresh : Mood := ⟨false, false, none, .none⟩

/-- The mood afterwards is the one at the start. -/
def Rests (a : Outcome) : Prop := ∀ μ, a.2 = .ok μ → μ = fresh

theorem rests_wrote (w : Str) : Rests (wrote w fresh) := fun μ h => by cases h; rfl
theorem rests_failed (f : Fault) : Rests (failed f) := fun μ h => by cases h
theorem Rests.within {a : Outcome} (h : Rests a) : Rests a.within := by
  obtain ⟨w, x⟩ := a
  cases x with
  | error f => intro μ h; cases h
  | ok μ => exact h
theorem Rests.andThen {a : Outcome} {k : Mood → Outcome} (h : Rests a) (hk : Rests (k fresh)) : Rests (a.andThen k) := by
  obtain ⟨w, x⟩ := a
  cases x with
  | error f => intro μ h; cases h
  | ok μ =>
      obtain rfl := h μ rfl
      exact fun ν hν => hk ν hν

theorem Rests.after {α : Type} {x : Said α} {k : α → Outcome} (hk : ∀ v, Rests (k v)) : Rests (.after x k) := by
  obtain ⟨w, x⟩ := x
  cases x with
  | error f => intro μ h; cases h
  | ok v => exact fun ν hν => hk v ν hν

theorem rests_rounds {D : Scene → Mood → Outcome} (h : ∀ Γ, Rests (D Γ fresh)) (Γ : Scene) : ∀ rs, Rests (Full.rounds D Γ rs fresh)
  | [] => rests_wrote _
  | r :: rs => by rw [Full.rounds]; exact (h _).within.andThen (rests_rounds h Γ rs)

theorem rests_contents {D : Scene → Mood → Outcome} (h : ∀ Γ, Rests (D Γ fresh)) (Γ : Scene) (e : Option HelperErr) : ∀ l, Rests (Full.contents D Γ e l fresh)
  | [] => by
      cases e with
      | none => exact rests_wrote _
      | some e => exact rests_failed _
  | .print x :: l => (rests_wrote _).andThen (rests_contents h Γ e l)
  | .content none :: l => (h _).within.andThen (rests_contents h Γ e l)
  | .content (some _) :: l => (h _).within.andThen (rests_contents h Γ e l)

theorem rests_custom {D A : Scene → Mood → Outcome} (hD : ∀ Γ, Rests (D Γ fresh)) (hA : ∀ Γ, Rests (A Γ fresh)) (f : CustomFn) (t : Option Str)
    (vs : List Value) (hs : List (Str × Value)) (Γ : Scene) : Rests (Full.customBlock f t vs hs D A Γ fresh) := by
  unfold Full.customBlock
  cases f.block t vs (fun k => hs.lookup k) with
  | contents l e => exact rests_contents hD _ e l
  | otherwise => exact (hA _).within

theorem rests_link (Γ : Scene) (e : Bool) (h : Str) (l t : Option Str) : Rests (Full.link Γ e h l t fresh) := by
  unfold Full.link
  cases (if e then none else (Custom.link : Option CustomFn)) with
  | none => exact rests_wrote _
  | some f =>
      simp only
      split
      · exact rests_failed _
      · exact Rests.after fun _ => rests_wrote _

theorem rests_helped {D A : Scene → Mood → Outcome} (hD : ∀ Γ, Rests (D Γ fresh)) (hA : ∀ Γ, Rests (A Γ fresh)) (name : Str) (t : Option Str) (a : SArgs) (Γ : Scene) :
    Rests (Full.helped name t a D A Γ fresh) := by
  unfold Full.helped
  split
  · exact rests_failed _
  refine Rests.after fun x => ?_
  obtain ⟨vs, hs⟩ := x
  simp only
  unfold Full.blockHelper
  cases Custom.fn name with
  | some f => exact rests_custom hD hA f t vs hs _
  | none =>
  have val : Rests (match builtinValue name vs hs with
      | .error f => failed f
      | .ok _ => wrote [] fresh) := by
    cases builtinValue name vs hs with
    | error f => exact rests_failed f
    | ok _ => exact rests_wrote _
  simp only
  unfold Full.builtinBlock
  match vs, val with
  | [v], val =>
      simp only
      split
      · split
        · exact (hD _).within
        · exact (hA _).within
      split
      · split
        · exact (hA _).within
        · exact (hD _).within
      split
      · cases v with
        | arr l => exact rests_rounds hD _ _
        | obj l => exact rests_rounds hD _ _
        | _ => exact rests_wrote _
      split
      · cases v with
        | null => exact rests_wrote _
        | _ => exact (hD _).within
      · exact val
  | [], val => exact val
  | _ :: _ :: _, val => exact val

theorem rests_included {names : List Str} {L : Library} (hL : ∀ q ∈ names, ∀ t, L.get q = some t → ∀ Γ, Rests (L.render t Γ fresh)) {p : SPath} (hp : p.shown ∈ names) (a : SArgs) (Γ : Scene) :
    Rests (Full.partialCall L none p a Γ fresh) := by
  unfold Full.partialCall
  split
  · exact rests_failed _
  unfold Full.included
  split
  · exact rests_failed _
  rw [show fresh.given none = fresh from rfl, show L.find fresh p.shown = L.get p.shown from by unfold Library.find; split <;> rfl]
  cases hg : L.get p.shown with
  | none => exact rests_failed _
  | some t => exact Rests.after fun _ => Rests.after fun _ => hL _ hp t hg _

mutual
theorem rests_tm {names : List Str} (L : Library) (hL : ∀ q ∈ names, ∀ t, L.get q = some t → ∀ Γ, Rests (L.render t Γ fresh)) : ∀ (T : STm), T.calm names = true → ∀ Γ, Rests (Full.tm L T Γ false false false fresh)
  | .nil, _, Γ => by rw [Full.tm]; exact rests_wrote _
  | .text w r, h, Γ => by
      rw [STm.calm] at h
      rw [Full.tm, stops_calm h]; exact (rests_wrote _).andThen (rests_tm L hL r h Γ)
  | .comment w r, h, Γ => by
      rw [STm.calm] at h
      rw [Full.tm, stops_calm h]; exact (rests_wrote _).andThen (rests_tm L hL r h Γ)
  | .longComment w r, h, Γ => by
      rw [STm.calm] at h
      rw [Full.tm, stops_calm h]; exact (rests_wrote _).andThen (rests_tm L hL r h Γ)
  | .escaped w r, h, Γ => by
      rw [STm.calm] at h
      rw [Full.tm, stops_calm h]; exact (rests_wrote _).andThen (rests_tm L hL r h Γ)
  | .link e h' l t r, h, Γ => by
      rw [STm.calm] at h
      rw [Full.tm, stops_calm h]; exact (rests_link Γ e h' l t).andThen (rests_tm L hL r h Γ)
  | .stmt raw part tl p a r, h, Γ => by
      rw [STm.calm] at h
      simp only [Bool.and_eq_true, Tilde.plain, Bool.not_eq_true'] at h
      rw [Full.tm, stops_calm h.2, h.1.2.2]
      refine Rests.andThen ?_ (rests_tm L hL r h.2 Γ)
      cases part with
      | false =>
          simp only [Bool.false_eq_true, if_false]
          unfold Full.prints
          exact Rests.after fun v => by cases v <;> exact rests_wrote _
      | true => exact rests_included hL (List.contains_iff_mem.1 (by simpa using h.1.1)) a Γ
  | .dyn raw part tl q b a r, h, Γ => by
      rw [STm.calm] at h
      simp only [Bool.and_eq_true, Tilde.plain, Bool.not_eq_true'] at h
      rw [Full.tm, stops_calm h.2, h.1.2.2, h.1.1]
      refine Rests.andThen ?_ (rests_tm L hL r h.2 Γ)
      simp only [Bool.false_eq_true, if_false]
      unfold Full.prints
      exact Rests.after fun v => by cases v <;> exact rests_wrote _
  | .rawBlock tl name a w cl r, h, Γ => by
      rw [STm.calm] at h
      simp only [Bool.and_eq_true, Tilde.plain, Bool.not_eq_true'] at h
      rw [Full.tm, stops_calm h.2, h.1.1.2, h.1.2.1, h.1.2.2]
      refine Rests.andThen ?_ (rests_tm L hL r h.2 Γ)
      split
      · exact rests_helped (D := fun _ μ => wrote (cut (μ.hint || false || μ.close) false w) ⟨false, false, μ.block, ⟨μ.hint || false || μ.close, false⟩⟩) (A := fun _ μ => wrote [] μ)
          (fun _ => rests_wrote _) (fun _ => rests_wrote _) name _ a Γ
      · exact rests_wrote _
  | .block part tl name a body cs cl r, h, Γ => by
      rw [STm.calm] at h
      simp only [Bool.and_eq_true, Tilde.plain, Bool.not_eq_true'] at h
      obtain ⟨⟨⟨⟨⟨h1, h2⟩, h3⟩, h4⟩, h5⟩, h6⟩ := h
      rw [Full.tm, stops_calm h6, h1, h2.2, h3.1, h3.2]
      refine Rests.andThen ?_ (rests_tm L hL r h6 Γ)
      simp only [Bool.false_eq_true, if_false]
      have hD : ∀ Δ, Rests ((fun Δ μ => (Full.tm L body Δ false false (μ.hint || false) μ).andThen fun μ => wrote [] { μ with close := !isNil body && false }) Δ fresh) := by
        intro Δ
        refine Rests.andThen (rests_tm L hL body h4 Δ) ?_
        simp only [Bool.and_false]
        exact rests_wrote _
      have hA : ∀ Δ, Rests ((fun Δ μ => Full.clauses L cs cl Δ (fun μ => wrote [] μ) μ) Δ fresh) := fun Δ => rests_cls L hL cs h5 cl h3 Δ (rests_wrote _)
      unfold Full.block
      split
      · exact rests_helped hD hA name none a Γ
      · cases Γ.find ⟨0, .name name, []⟩ with
        | some v =>
            simp only
            cases (Custom.blockMissing : Option (Str → Value → CustomFn)) with
            | none => exact (hD Γ).within
            | some f =>
                simp only [Full.handled]
                split
                · exact rests_failed _
                · exact Rests.after fun x => rests_custom hD hA _ none x.1 x.2 _
        | none =>
            simp only
            cases (Custom.missing : Option (Str → CustomFn)) with
            | none =>
                simp only
                split
                · exact rests_failed _
                · exact rests_wrote _
            | some f => exact Rests.after fun _ => rests_wrote _
theorem rests_cls {names : List Str} (L : Library) (hL : ∀ q ∈ names, ∀ t, L.get q = some t → ∀ Γ, Rests (L.render t Γ fresh)) : ∀ (cs : SCls), cs.calm names = true → ∀ (cl : Tilde), cl.before = false ∧ cl.after = false → ∀ (Γ : Scene) {f : Mood → Outcome}, Rests (f fresh) →
    Rests (Full.clauses L cs cl Γ f fresh)
  | .nil, h, cl, hcl, Γ, f, hf => by rw [Full.clauses]; exact hf
  | .cons tl none body r, h, cl, hcl, Γ, f, hf => by
      rw [SCls.calm] at h
      simp only [Bool.and_eq_true, Tilde.plain, Bool.not_eq_true'] at h
      obtain ⟨⟨h1, h2⟩, h3⟩ := h
      have he : Full.clauseEnd r cl = (false, false) := by cases r <;> simp [Full.clauseEnd, hcl]
      rw [Full.clauses, he, h1.2]
      refine rests_cls L hL r h3 cl hcl Γ ?_
      refine Rests.andThen (rests_tm L hL body h2 Γ) ?_
      simp only [Bool.and_false]
      exact rests_wrote _
  | .cons tl (some (p, a)) body r, h, cl, hcl, Γ, f, hf => by
      rw [SCls.calm] at h
      simp only [Bool.and_eq_true, Tilde.plain, Bool.not_eq_true'] at h
      obtain ⟨⟨h1, h2⟩, h3⟩ := h
      have he : Full.clauseEnd r cl = (false, false) := by cases r <;> simp [Full.clauseEnd, hcl]
      rw [Full.clauses, he, h1.2]
      refine Rests.after fun v => ?_
      split
      · refine Rests.andThen (rests_tm L hL body h2 Γ) ?_
        simp only [Bool.and_false]
        exact rests_wrote _
      · exact rests_cls L hL r h3 cl hcl Γ hf
end

theorem rests_depth {names : List Str} {get : Str → Option STm} (hg : ∀ q ∈ names, ∀ t, get q = some t → t.calm names = true) :
    ∀ n, ∀ q ∈ names, ∀ t, (Full.depth get n).get q = some t → ∀ Γ, Rests ((Full.depth get n).render t Γ fresh)
  | 0, _, _, _, _, _ => rests_failed _
  | n + 1, q, hq, t, ht, Γ => rests_tm _ (rests_depth hg n) t (hg q hq t ht) Γ

theorem meaning_append {names : List Str} {T U : STm} (hT : T.calm names = true) (hU : opens U = false) (lib : List (Str × STm))
    (hlib : ∀ q ∈ names, ∀ t, lib.lookup q = some t → t.calm names = true) (Γ : Scene) :
    Full.meaning lib (T.append U) Γ = (Full.meaning lib T Γ).andThen fun _ => Full.meaning lib U Γ := by
  unfold Full.meaning
  rw [tm_append _ hU T hT]
  have := rests_tm (Full.depth (lib.lookup ·) (lib.length + 1)) (rests_depth hlib _) T hT Γ
  revert this
  change Rests (Full.tm _ T Γ false false false ⟨false, false, none, .none⟩) → _
  generalize Full.tm _ T Γ false false false ⟨false, false, none, .none⟩ = o
  intro h
  obtain ⟨w, x⟩ := o
  cases x with
  | error f => rfl
  | ok μ =>
      obtain rfl := h μ rfl
      rfl

mutual
theorem calm_core : ∀ {T : STm}, T.core = true → T.calm [] = true
  | .nil, _ => by rw [STm.calm]
  | .text _ r, h | .comment _ r, h | .longComment _ r, h | .escaped _ r, h | .link _ _ _ _ r, h => by
      rw [STm.core] at h; rw [STm.calm]; exact calm_core h
  | .stmt _ part tl _ _ r, h => by
      rw [STm.core] at h; rw [STm.calm]
      simp only [Bool.and_eq_true] at h ⊢
      exact ⟨⟨by simpa using h.1.1, h.1.2⟩, calm_core h.2⟩
  | .dyn _ part tl _ _ _ r, h => by
      rw [STm.core] at h; rw [STm.calm]
      simp only [Bool.and_eq_true] at h ⊢
      exact ⟨h.1, calm_core h.2⟩
  | .rawBlock _ _ _ _ _ r, h => by
      rw [STm.core] at h; rw [STm.calm]
      simp only [Bool.and_eq_true] at h ⊢
      exact ⟨h.1, calm_core h.2⟩
  | .block _ _ _ _ body cs _ r, h => by
      rw [STm.core] at h; rw [STm.calm]
      simp only [Bool.and_eq_true] at h ⊢
      exact ⟨⟨⟨h.1.1.1, calm_core h.1.1.2⟩, calm_core_cls h.1.2⟩, calm_core h.2⟩
theorem calm_core_cls : ∀ {T : SCls}, T.core = true → T.calm [] = true
  | .nil, _ => by rw [SCls.calm]
  | .cons _ _ body r, h => by
      rw [SCls.core] at h; rw [SCls.calm]
      simp only [Bool.and_eq_true] at h ⊢
      exact ⟨⟨h.1.1, calm_core h.1.2⟩, calm_core_cls h.2⟩
end

theorem append_src : ∀ T U : STm, (T.append U).src = T.src ++ U.src
  | .nil, U => by rw [STm.append, STm.src]; rfl
  | .text w r, U | .comment w r, U | .longComment w r, U | .escaped w r, U | .link _ _ _ _ r, U | .stmt _ _ _ _ _ r, U | .dyn _ _ _ _ _ _ r, U => by
      rw [STm.append, STm.src, STm.src, append_src r U, List.append_assoc]
  | .rawBlock _ _ _ _ _ r, U | .block _ _ _ _ _ _ _ r, U => by
      rw [STm.append, STm.src, STm.src, append_src r U]
      simp only [List.append_assoc]

/-- The second after the first. -/
def both : Out Str → Out Str → Out Str
  | .ok w, .ok w' => .ok (w ++ w')
  | .ok _, x => x
  | x, _ => x

/-- **C65**: the text of two templates one after the other writes what the first writes and then what the
second writes, with the same data (and fails as the first one that does), if the first, and the partials `names` which it
and they may include, have no `~` and no partials with a content, and the second does not begin with `{{~`. -/
theorem C65_once (names : List Str) (T U : STm) (hT : T.ok [] = true) (hU : U.ok [] = true) (hTU : (T.append U).ok [] = true) (hc : T.calm names = true)
    (ho : opens U = false) (lib : List (Str × STm)) (hlib : ∀ q ∈ names, ∀ t, lib.lookup q = some t → t.calm names = true)
    (reg : Reg) (hb : Equipped reg) (hl : Full.Holds reg lib) (name : Str) (data : Value) :
    ∃ N, ∀ n, N ≤ n → Reg.once n reg name (T.src ++ U.src) data = both (Reg.once n reg name T.src data) (Reg.once n reg name U.src data) := by
  obtain ⟨N1, h1⟩ := C61_once T hT lib reg hb hl name data
  obtain ⟨N2, h2⟩ := C61_once U hU lib reg hb hl name data
  obtain ⟨N3, h3⟩ := C61_once _ hTU lib reg hb hl name data
  refine ⟨max N1 (max N2 N3), fun n hn => ?_⟩
  rw [← append_src, h1 n (by omega), h2 n (by omega), h3 n (by omega), meaning_append hc ho lib hlib]
  generalize Full.meaning lib T (Scene.start reg name data) = o
  generalize Full.meaning lib U (Scene.start reg name data) = o'
  obtain ⟨w, x⟩ := o
  obtain ⟨w', y⟩ := o'
  cases x with
  | error f => cases f <;> rfl
  | ok μ =>
      cases y with
      | error f => cases f <;> rfl
      | ok ν => rfl

/-! ### C66 -/

theorem avoids_walk {k : Str} {m m' : List (Str × Value)} (hm : ∀ x, x ≠ k → m.lookup x = m'.lookup x) {x : Str} (hx : x ≠ k) (ks : List Str) :
    walk (.obj m) (x :: ks) = walk (.obj m') (x :: ks) := by
  simp only [walk, member, hm x hx]

theorem avoids_find {k : Str} {m m' : List (Str × Value)} (hm : ∀ x, x ≠ k → m.lookup x = m'.lookup x) (p : SPath) (hp : p.avoids k = true)
    (s : Bool) (e : Str → Str) (f : Str) (sc : List Scope) (cs : List CallSite) :
    Scene.find ⟨s, e, f, .obj m, sc, cs⟩ p = Scene.find ⟨s, e, f, .obj m', sc, cs⟩ p := by
  unfold SPath.avoids at hp
  unfold Scene.find
  cases hh : p.head with
  | abs w => rfl
  | this =>
      rw [hh] at hp
      simp only at hp ⊢
      cases hr : p.names with
      | nil => rw [hr] at hp; cases hp
      | cons x ks =>
          rw [hr] at hp
          simp only [bne_iff_ne] at hp
          cases sc with
          | nil => exact avoids_walk hm hp ks
          | cons c sc =>
              cases hv : c.value with
              | none => simp only [thisValue, hv, Option.getD_none]; exact avoids_walk hm hp ks
              | some v => simp only [thisValue, hv, Option.getD_some]
  | dot =>
      rw [hh] at hp
      simp only at hp ⊢
      cases hr : p.names with
      | nil => rw [hr] at hp; cases hp
      | cons x ks =>
          rw [hr] at hp
          simp only [bne_iff_ne] at hp
          cases sc with
          | nil => exact avoids_walk hm hp ks
          | cons c sc =>
              cases hv : c.value with
              | none => simp only [thisValue, hv, Option.getD_none]; exact avoids_walk hm hp ks
              | some v => simp only [thisValue, hv, Option.getD_some]
  | loc w =>
      rw [hh] at hp
      simp only [Bool.or_eq_true, bne_iff_ne] at hp ⊢
      split
      · rename_i hw
        split
        · rfl
        · cases hr : p.names with
          | nil => rename_i h; exact absurd hr h
          | cons x ks =>
              rw [hr] at hp
              refine avoids_walk hm (fun h => ?_) ks
              subst h
              rcases hp with hp | hp
              · exact hp hw
              · exact hp rfl
      · rfl
  | name w =>
      rw [hh] at hp
      simp only [bne_iff_ne] at hp ⊢
      have key := avoids_walk hm hp p.names
      split
      · unfold frames
        rw [List.flatten_append, List.flatten_append, List.findSome?_append, List.findSome?_append]
        simp only [List.flatten_cons, List.flatten_nil, List.append_nil, List.findSome?_cons, key]
      · rename_i n hn
        unfold frames
        by_cases hlt : n + 1 < (sc.map frame).length
        · rw [List.getElem?_append_left hlt, List.getElem?_append_left hlt]
        · rw [List.getElem?_append_right (Nat.le_of_not_lt hlt), List.getElem?_append_right (Nat.le_of_not_lt hlt)]
          generalize n + 1 - (sc.map frame).length = j
          cases j with
          | zero => simp only [List.getElem?_cons_zero, Option.bind_some, List.findSome?_cons, key]
          | succ j => rfl

/-- **C66**: a member of the data that is not mentioned has no influence: if neither the template nor any
partial has a path that leads to the member `k` of the data or to the data as a whole, then data that
differ only in `k` (or lack it) give the same text, error or panic. -/
theorem C66_once (k : Str) (T : STm) (hok : T.ok [] = true) (hT : T.avoids k = true) (lib : List (Str × STm)) (ha : ∀ x ∈ lib, x.2.avoids k = true)
    (reg : Reg) (hb : Equipped reg) (hl : Full.Holds reg lib) (name : Str) (m m' : List (Str × Value)) (hm : ∀ x, x ≠ k → m.lookup x = m'.lookup x) :
    ∃ N, ∀ n, N ≤ n → Reg.once n reg name T.src (.obj m) = Reg.once n reg name T.src (.obj m') := by
  obtain ⟨N1, h1⟩ := C61_once T hok lib reg hb hl name (.obj m)
  obtain ⟨N2, h2⟩ := C61_once T hok lib reg hb hl name (.obj m')
  refine ⟨max N1 N2, fun n hn => ?_⟩
  rw [h1 n (by omega), h2 n (by omega)]
  have ak : Akin (SPath.avoids k) false (Scene.start reg name (.obj m)) (Scene.start reg name (.obj m')) :=
    ⟨rfl, rfl, rfl, rfl, .inl rfl, fun p sc hp => avoids_find hm p hp _ _ _ _ _⟩
  rcases (joined_meaning (pan := true) (sound_any _) hT (lib := lib) (lib' := lib) (fun _ _ => rfl) (fun _ _ => rfl) (fun _ U _ hU => ha _ (mem_lookup hU)) ak _ (Nat.le_refl _)).same with h | ⟨h, _⟩
  · exact congrArg _ h
  · cases h

/-! ### C67 -/

/-- **C67**: templates that are not included do not matter: if the template includes only the partials
`names`, and so do these, then any two registries that agree on those (and in their settings) give the same
text, error or panic. -/
theorem C67_once (names : List Str) (T : STm) (hok : T.ok [] = true) (hT : T.includes names = true) (lib lib' : List (Str × STm))
    (hsame : ∀ x ∈ names, lib.lookup x = lib'.lookup x) (hin : ∀ x ∈ names, ∀ U, lib.lookup x = some U → U.includes names = true)
    (reg reg' : Reg) (hb : Equipped reg) (hb' : Equipped reg') (hl : Full.Holds reg lib) (hl' : Full.Holds reg' lib') (hs : reg'.strict = reg.strict)
    (he : reg'.escape = reg.escape) (name : Str) (data : Value) :
    ∃ N, ∀ n, N ≤ n → Reg.once n reg name T.src data = Reg.once n reg' name T.src data := by
  obtain ⟨N1, h1⟩ := C61_once T hok lib reg hb hl name data
  obtain ⟨N2, h2⟩ := whole_once T hok lib' reg' hb' hl' (max (lib.length + 1) (lib'.length + 1)) (Nat.le_max_right ..) name data
  refine ⟨max N1 N2, fun n hn => ?_⟩
  rw [h1 n (by omega), h2 n (by omega)]
  have ak : Akin (fun _ => true) false (Scene.start reg name data) (Scene.start reg' name data) :=
    ⟨he, rfl, rfl, rfl, .inl hs, fun _ _ _ => rfl⟩
  rcases (joined_meaning (pan := true) (sound_any _) (Q := fun x => x.any names.contains) hT (lib := lib) (lib' := lib')
    (fun h => by cases h)
    (fun x hx => (hsame x (List.contains_iff_mem.1 hx)).symm) (fun x U hx hU => hin x (List.contains_iff_mem.1 hx) U hU) ak
    (max (lib.length + 1) (lib'.length + 1)) (Nat.le_max_left ..)).same with h | ⟨h, _⟩
  · exact congrArg _ h
  · cases h

end

/-! ### Examples -/

attribute [local instance] exHost noCustom

private def t0 : Tilde := ⟨false, false, [], [], []⟩

/-- `{{lookup user "name"}}{{log this level="warn"}}` -/
def steadyTm : STm :=
  .stmt false false t0 ⟨0, .name c!"lookup", []⟩ (.arg (.path ⟨0, .name c!"user", []⟩) (.arg (.lit (.str false [.ch 'n'])) (.done .nil))) <|
  .stmt false false t0 ⟨0, .name c!"log", []⟩ (.arg (.path ⟨0, .this, []⟩) (.done (.pair c!"level" (.lit (.str false [.ch 'w'])) .nil))) .nil

example : String.ofList steadyTm.src = "{{lookup user \"n\"}}{{log this level=\"w\"}}" ∧ steadyTm.ok [] = true ∧ steadyTm.steady = true := by decide +kernel
example : wholeTm.steady = true ∧ ∀ x ∈ wholeLib, x.2.steady = true := by decide +kernel

/-- `{{lookup user key}}` -/
example : (STm.stmt false false t0 ⟨0, .name c!"lookup", []⟩
    (.arg (.path ⟨0, .name c!"user", []⟩) (.arg (.path ⟨0, .name c!"key", []⟩) (.done .nil))) .nil).steady = false := by decide +kernel

/-- `a{{x}}{{y}}`: in strict mode it fails at `{{y}}`. -/
def halfTm : STm :=
  .text c!"a" <| .stmt false false t0 ⟨0, .name c!"x", []⟩ (.done .nil) <| .stmt false false t0 ⟨0, .name c!"y", []⟩ (.done .nil) <| .text c!"b" .nil

example : halfTm.ok [] = true ∧
    (Full.meaning [] halfTm (Scene.start { Reg.new with strict := true } c!"t" (.obj [(c!"x", .bool true)]))).1 = c!"atrue" ∧
    (Full.meaning [] halfTm (Scene.start { Reg.new with strict := false } c!"t" (.obj [(c!"x", .bool true)]))).1 = c!"atrueb" := by decide +kernel

/-- `{{#if x}}c{{/if}}` -/
def tailTm : STm := .block false t0 c!"if" (.arg (.path ⟨0, .name c!"x", []⟩) (.done .nil)) (.text c!"c" .nil) .nil t0 .nil

example : halfTm.ok [] = true ∧ tailTm.ok [] = true ∧ (halfTm.append tailTm).ok [] = true ∧ halfTm.calm [] = true ∧ opens tailTm = false ∧
    String.ofList (halfTm.append tailTm).src = "a{{x}}{{y}}b{{#if x}}c{{/if}}" := by decide +kernel
/-- With a partial: `{{> half}}`. -/
example : (STm.stmt false true ⟨false, false, [], c!" ", []⟩ ⟨0, .name c!"half", []⟩ (.done .nil) .nil).calm [c!"half"] = true ∧ halfTm.calm [c!"half"] = true ∧
    (STm.stmt false true ⟨false, false, [], c!" ", []⟩ ⟨0, .name c!"half", []⟩ (.done .nil) .nil).core = false := by decide +kernel

private def leakT : STm := .block true ⟨false, false, [], c!" ", []⟩ c!"frame" (.done .nil) (.text c!"in" .nil) .nil t0 .nil
private def leakU : STm := .stmt false true ⟨false, false, [], c!" ", []⟩ ⟨0, .name c!"frame", []⟩ (.done .nil) .nil

/-- **C65**, why the first must have no block partials: the content of a block partial is still there after
its end.  `{{#> frame}}in{{/frame}}` and `{{> frame}}` with `frame` being `({{> @partial-block}})`: the
second alone is an error, but after the first it is not. -/
theorem C65_leaks : ∃ (reg : Reg) (T U : STm), T.ok [] = true ∧ U.ok [] = true ∧ (T.append U).ok [] = true ∧
    ∃ N, ∀ n, N ≤ n → Reg.once n reg c!"t" U.src .null = .err (.render (.partialNotFound c!"@partial-block")) ∧
      Reg.once n reg c!"t" (T.src ++ U.src) .null = .ok c!"(in)(in)" := by
  obtain ⟨_, h1, h2⟩ := C61_insert [] Reg.new ⟨fun _ => rfl, rfl, rfl, rfl⟩ (fun _ => rfl) c!"frame" frameTm (by decide +kernel)
  have hTU : (leakT.append leakU).ok [] = true := by decide +kernel
  obtain ⟨N, h⟩ := C61_once leakU (by decide +kernel) _ _ h1 h2 c!"t" .null
  obtain ⟨M, h'⟩ := C61_once (leakT.append leakU) hTU _ _ h1 h2 c!"t" .null
  refine ⟨(Reg.new.insert c!"frame" frameTm.src).2, leakT, leakU, by decide +kernel, by decide +kernel, hTU, max N M, fun n hn => ?_⟩
  rw [← append_src, h n (by omega), h' n (by omega)]
  exact ⟨rfl, rfl⟩

example : wholeTm.avoids c!"secret" = false := by decide +kernel
example : halfTm.avoids c!"secret" = true ∧ (STm.stmt false false t0 ⟨0, .this, [.word c!"user", .word c!"secret"]⟩ (.done .nil) halfTm).avoids c!"secret" = true ∧
    halfTm.avoids c!"x" = false := by decide +kernel
example : ∀ x, x ≠ c!"secret" → [(c!"secret", Value.null), (c!"x", .bool true)].lookup x = [(c!"x", Value.bool true)].lookup x := by
  intro x hx
  have : (x == c!"secret") = false := by simpa using hx
  simp only [List.lookup_cons, this]

example : wholeTm.includes [c!"row", c!"frame", c!"@partial-block"] = true ∧ rowTm.includes [c!"row", c!"frame", c!"@partial-block"] = true ∧
    frameTm.includes [c!"row", c!"frame", c!"@partial-block"] = true := by decide +kernel

end Bracket.Props
