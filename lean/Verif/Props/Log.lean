import Verif.Spec.Log
import Verif.Spec.Step
import Verif.Props.JsonText
import Mathlib.Tactic.Tauto

/-! C57: the `log` helper. -/

namespace Bracket.Props
open Bracket Spec

theorem joinSpace_eq : ∀ ws : List Str, joinSpace ws = between [' '] ws
  | [] => rfl
  | [_] => rfl
  | w :: x :: r => by rw [joinSpace, between, joinSpace_eq (x :: r)]; rfl

theorem splitLines_lines : ∀ s : Str, IsLines s (splitLines s)
  | [] => ⟨by simp [splitLines], by simp [splitLines], rfl⟩
  | c :: cs => by
      obtain ⟨h1, h2, h3⟩ := splitLines_lines cs
      rw [splitLines]
      by_cases hc : c = '\n'
      · rw [if_pos hc]
        refine ⟨by simp, ?_, ?_⟩
        · intro l hl
          rcases List.mem_cons.1 hl with rfl | hl
          · simp
          · exact h2 l hl
        · cases h : splitLines cs with
          | nil => exact absurd h h1
          | cons x r =>
              rw [h] at h3
              rw [between, h3, hc]
              rfl
      · rw [if_neg hc]
        cases h : splitLines cs with
        | nil => exact absurd h h1
        | cons x r =>
            rw [h] at h2 h3
            refine ⟨by simp, ?_, ?_⟩
            · intro l hl
              rcases List.mem_cons.1 hl with rfl | hl
              · intro hm
                rcases List.mem_cons.1 hm with rfl | hm
                · exact hc rfl
                · exact h2 x (by simp) hm
              · exact h2 l (List.mem_cons_of_mem _ hl)
            · rw [← h3]
              cases r <;> rfl

/-- The lines of a text are determined by it. -/
theorem lines_unique : ∀ {ls ls' : List Str} {t : Str}, IsLines t ls → IsLines t ls' → ls = ls'
  | [], _, _, h, _ => absurd rfl h.1
  | _, [], _, _, h => absurd rfl h.1
  | [] :: r, [] :: r', t, h, h' => by
      match r, r', h, h' with
      | [], [], _, _ => rfl
      | [], _ :: _, h, h' => have := h.2.2.trans h'.2.2.symm; simp [between] at this
      | _ :: _, [], h, h' => have := h.2.2.trans h'.2.2.symm; simp [between] at this
      | a :: b, a' :: b', h, h' =>
          have e : between ['\n'] (a :: b) = between ['\n'] (a' :: b') := by
            have := h.2.2.trans h'.2.2.symm
            simpa [between] using this
          have := lines_unique (ls := a :: b) (ls' := a' :: b') (t := between ['\n'] (a :: b))
            ⟨by simp, fun l hl => h.2.1 l (List.mem_cons_of_mem _ hl), rfl⟩
            ⟨by simp, fun l hl => h'.2.1 l (List.mem_cons_of_mem _ hl), e.symm⟩
          rw [this]
  | [] :: r, (c :: w) :: r', t, h, h' => by
      have e := h.2.2.trans h'.2.2.symm
      have hc : c ≠ '\n' := fun hc => h'.2.1 (c :: w) (by simp) (by simp [hc])
      match r, h with
      | [], h => cases r' <;> simp [between] at e
      | a :: b, h => cases r' <;> simp [between] at e <;> exact absurd e.1.symm hc
  | (c :: w) :: r, [] :: r', t, h, h' => by
      have e := h.2.2.trans h'.2.2.symm
      have hc : c ≠ '\n' := fun hc => h.2.1 (c :: w) (by simp) (by simp [hc])
      match r', h' with
      | [], h' => cases r <;> simp [between] at e
      | a :: b, h' => cases r <;> simp [between] at e <;> exact absurd e.1 hc
  | (c :: w) :: r, (c' :: w') :: r', t, h, h' => by
      have e := h.2.2.trans h'.2.2.symm
      have e' : c = c' ∧ between ['\n'] (w :: r) = between ['\n'] (w' :: r') := by
        cases r <;> cases r' <;> simpa [between] using e
      have mem : ∀ {c : Char} {w : Str} {r : List Str}, (∀ l ∈ (c :: w) :: r, '\n' ∉ l) → ∀ l ∈ w :: r, '\n' ∉ l := by
        intro c w r hh l hl
        rcases List.mem_cons.1 hl with rfl | hl
        · exact fun hm => hh (c :: l) List.mem_cons_self (List.mem_cons_of_mem _ hm)
        · exact hh l (List.mem_cons_of_mem _ hl)
      have := lines_unique (ls := w :: r) (ls' := w' :: r') ⟨by simp, mem h.2.1, rfl⟩ ⟨by simp, mem h'.2.1, e'.2.symm⟩
      injection this with a b
      rw [e'.1, a, b]
termination_by ls => ls.length + (ls.map List.length).sum

section
variable [Host]

theorem run_logRecords (S : Sem) (E : Env) (level : Str) : ∀ (ls : List Str) (s : RS),
    run S E (logLines level ls) s = (.ok none, { s with logs := s.logs ++ ls.map fun l => (level, l) })
  | [], s => by simp [logLines, run]; rfl
  | l :: ls, s => by
      rw [logLines, run]
      show run S E (logLines level ls) { s with logs := s.logs ++ [(level, l)] } = _
      rw [run_logRecords S E level ls]
      simp

theorem unquote_said : ∀ v : Value, Worded v (unquote v)
  | .str s => .str s
  | .null => .other (by simp) (compact_tight _)
  | .bool b => .other (by simp) (compact_tight _)
  | .num n => .other (by simp) (compact_tight _)
  | .arr l => .other (by simp) (compact_tight _)
  | .obj m => .other (by simp) (compact_tight _)

theorem unquotes_said : ∀ l : List Value, List.Forall₂ Worded l (l.map unquote)
  | [] => .nil
  | v :: l => .cons (unquote_said v) (unquotes_said l)

/-- **C57**: the `log` helper, given one or more arguments, joins their texts with spaces and logs the
result (strings as they are, other values as JSON) line by line, at the level its `level` parameter names (`info` when there is none or it names no
level); it returns nothing and has no other effect.  A `level` that is no string panics. -/
theorem C57_log (ctx : Ctx) (t : Option Node) (h1 : ctx.args ≠ []) (h2 : ctx.args.length < 2 ^ 64) :
    ∃ words, List.Forall₂ Worded ctx.args words ∧ ∀ lines, IsLines (between [' '] words) lines → ∀ (S : Sem) (E : Env) (s : RS),
    run S E (hLog ctx t) s =
      match ctx.param c!"level" with
      | none => (.ok none, { s with logs := s.logs ++ lines.map fun l => (c!"info", l) })
      | some (.str level) =>
          (.ok none, { s with logs := s.logs ++ lines.map fun l => (if level ∈ levels then level else c!"info", l) })
      | some _ => (.panic, s) := by
  refine ⟨ctx.args.map unquote, unquotes_said _, fun lines hl S E s => ?_⟩
  have ha : ∀ k, ctx.withArity 1 (2 ^ 64 - 1) k = k := by
    intro k
    have : 0 < ctx.args.length := List.length_pos_iff.2 h1
    unfold Ctx.withArity Ctx.arity
    rw [if_neg (by decide), if_neg (by omega)]
  have hs : splitLines (joinSpace (ctx.args.map unquote)) = lines := by
    rw [joinSpace_eq]
    exact lines_unique (splitLines_lines _) hl
  have hlev : ∀ level : Str, logLevel level = if level ∈ levels then level else c!"info" := by
    intro level
    unfold logLevel levels
    by_cases hi : level = c!"info"
    · subst hi; decide
    · simp only [List.mem_cons, List.not_mem_nil, or_false]
      by_cases hh : level = c!"error" ∨ level = c!"debug" ∨ level = c!"warn" ∨ level = c!"trace"
      · rw [if_pos hh, if_pos (by tauto)]
      · rw [if_neg hh, if_neg (by tauto)]
  unfold hLog
  rw [ha]
  simp only [hs]
  cases ctx.param c!"level" with
  | none => exact run_logRecords S E _ lines s
  | some v =>
      cases v with
      | str level =>
          show _ = (Res.ok none, { s with logs := s.logs ++ lines.map fun l => (if level ∈ levels then level else c!"info", l) })
          rw [← hlev]
          exact run_logRecords S E _ lines s
      | _ => rfl

end

example : IsLines c!"a b\n\nc" [c!"a b", [], c!"c"] := ⟨by decide, by decide, rfl⟩

end Bracket.Props
