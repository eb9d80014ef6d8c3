import Verif.Lemmas.Eval
import Verif.Lemmas.Basic

/-! Arguments and hash parameters. -/

set_option linter.unusedSectionVars false

namespace Bracket
open Spec

theorem assoc_mapInsert (k k' : Str) (v : Value) (m : List (Str × Value)) :
    assoc k' (mapInsert k v m) = if k' = k then some v else assoc k' m := by
  induction m with
  | nil =>
      unfold mapInsert assoc assoc
      by_cases h : k' = k
      · rw [if_pos h.symm, if_pos h]
      · rw [if_neg (Ne.symm h), if_neg h]
  | cons x m ih =>
      obtain ⟨a, b⟩ := x
      unfold mapInsert
      by_cases h1 : a = k
      · rw [if_pos h1]
        subst h1
        unfold assoc
        by_cases h : k' = a
        · rw [if_pos h.symm, if_pos h]
        · rw [if_neg (Ne.symm h), if_neg h, if_neg (Ne.symm h)]
      · rw [if_neg h1]
        by_cases h2 : strLt k a = true
        · rw [if_pos h2]
          conv => lhs; unfold assoc
          by_cases h : k' = k
          · rw [if_pos h.symm, if_pos h]
          · rw [if_neg (Ne.symm h), if_neg h]
        · rw [if_neg h2]
          unfold assoc
          rw [ih]
          by_cases h : a = k'
          · rw [if_pos h, if_pos h, if_neg (by rw [← h]; exact h1)]
          · rw [if_neg h, if_neg h]

section
variable [Host]

theorem lookupM_def (E : Env) (p : Path) (s : RS) :
    lookupM E p s = (match lookup E.root s.scopes p with | some v => Res.ok v | none => Res.panic, s) := by
  unfold lookupM
  rw [RM.bind_def]
  simp only [RM.get, RM.orPanic]
  cases lookup E.root s.scopes p <;> rfl

theorem paramM_iff {E : Env} {p : ParamValue} {s t : RS} {x : Value} {m : Option Str} :
    Eval (fun n => paramM (sem n) E p) s (.ok (x, m)) t ↔
      ∃ v, ParamEval E p s v t ∧ x = v.getD .null ∧ m = (match v with | some _ => none | none => p.asStr) := by
  cases p with
  | json src v sp l =>
      rw [show (fun n => paramM (sem n) E (.json src v sp l)) = fun _ => (pure (v, none) : RM (Value × Option Str)) from rfl,
        Spec.Eval.pure]
      constructor
      · rintro ⟨h, rfl⟩
        cases h
        exact ⟨_, .literal _ _ _ _ _, rfl, rfl⟩
      · rintro ⟨w, h, rfl, rfl⟩
        cases h
        exact ⟨rfl, rfl⟩
  | path p =>
      rw [show (fun n => paramM (sem n) E (.path p)) = fun _ => (lookupM E p >>= fun o => match o with
        | some v => (pure (v, none) : RM (Value × Option Str))
        | none => RM.orPanic p.asStr >>= fun raw => pure (.null, some raw)) from rfl, Spec.Eval.const, RM.bind_def]
      rw [lookupM_def]
      constructor
      · rintro ⟨-, h⟩
        cases hv : lookup E.root s.scopes p with
        | none => rw [hv] at h; cases h
        | some o =>
            rw [hv] at h
            cases o with
            | some v => cases h; exact ⟨_, .path hv (by simp), rfl, rfl⟩
            | none =>
                simp only at h
                rw [RM.bind_def] at h
                simp only [RM.orPanic] at h
                cases hr : p.asStr with
                | none => rw [hr] at h; cases h
                | some raw =>
                    rw [hr] at h
                    cases h
                    exact ⟨_, .path hv (by simp [hr]), rfl, by simp [ParamValue.asStr, hr]⟩
      · rintro ⟨v, h, rfl, rfl⟩
        cases h with
        | path hv ha =>
            rw [hv]
            refine ⟨by simp, ?_⟩
            cases v with
            | some v => rfl
            | none =>
                obtain ⟨raw, hr⟩ := Option.isSome_iff_exists.1 (ha rfl)
                simp only
                rw [RM.bind_def]
                simp only [RM.orPanic, hr, ParamValue.asStr]
                rfl
  | subExpr c =>
      constructor
      · intro h
        unfold paramM at h
        obtain ⟨o, t1, h1, h2⟩ := Spec.Eval.bind_inv_ok h
        cases o with
        | some v =>
            obtain ⟨e, rfl⟩ := Spec.Eval.pure.1 h2
            cases e
            exact ⟨_, .sub h1 (by simp), rfl, rfl⟩
        | none =>
            have h2 := (Spec.Eval.const.1 h2).2
            simp only at h2
            rw [RM.bind_def] at h2
            simp only [RM.orPanic] at h2
            cases hr : c.asStr with
            | none => rw [hr] at h2; cases h2
            | some raw =>
                rw [hr] at h2
                cases h2
                exact ⟨_, .sub h1 (by simp [hr]), rfl, by simp [ParamValue.asStr, hr]⟩
      · rintro ⟨v, h, rfl, rfl⟩
        cases h with
        | sub hv ha =>
            unfold paramM
            refine Spec.Eval.bindOk (mono_statement _ _) (fun _ => MonoF.const _) hv ?_
            rw [Spec.Eval.const]
            refine ⟨by simp, ?_⟩
            cases v with
            | some v => rfl
            | none =>
                obtain ⟨raw, hr⟩ := Option.isSome_iff_exists.1 (ha rfl)
                simp only
                rw [RM.bind_def]
                simp only [RM.orPanic, hr, ParamValue.asStr]
                rfl

/-- The missing arguments, from index `i`. -/
def argMissing : Nat → List ParamValue → List (Option Value) → List Missing
  | i, p :: ps, none :: vs => (match p.asStr with | some raw => [.arg i raw] | none => []) ++ argMissing (i + 1) ps vs
  | i, _ :: ps, some _ :: vs => argMissing (i + 1) ps vs
  | _, _, _ => []

/-- The missing hash parameters. -/
def keyMissing : List (Str × ParamValue) → List (Option Value) → List Missing
  | (k, p) :: ps, none :: vs => (match p.asStr with | some raw => [.param k raw] | none => []) ++ keyMissing ps vs
  | _ :: ps, some _ :: vs => keyMissing ps vs
  | _, _ => []

/-- The hash built from the values. -/
def hashOf : List (Str × ParamValue) → List (Option Value) → List (Str × Value) → List (Str × Value)
  | (k, _) :: ps, v :: vs, out => hashOf ps vs (mapInsert k (v.getD .null) out)
  | _, _, out => out

theorem argumentsLoop_iff {E : Env} : ∀ (ps : List ParamValue) (i : Nat) (ms : List Missing) (s t : RS)
    (vals : List Value) (ms' : List Missing),
    Eval (fun n => argumentsLoop (sem n) E i ps ms) s (.ok (vals, ms')) t ↔
      ∃ vs, ArgsEval E ps s vs t ∧ vals = vs.map (·.getD .null) ∧ ms' = ms ++ argMissing i ps vs := by
  intro ps
  induction ps with
  | nil =>
      intro i ms s t vals ms'
      rw [show (fun n => argumentsLoop (sem n) E i [] ms) = fun _ => (pure ([], ms) : RM (List Value × List Missing)) from rfl,
        Spec.Eval.pure]
      constructor
      · rintro ⟨h, rfl⟩
        cases h
        exact ⟨[], .nil _, rfl, by simp [argMissing]⟩
      · rintro ⟨vs, h, rfl, rfl⟩
        cases h
        exact ⟨by simp [argMissing], rfl⟩
  | cons p ps ih =>
      intro i ms s t vals ms'
      constructor
      · intro h
        unfold argumentsLoop at h
        obtain ⟨⟨x, m⟩, t1, h1, h2⟩ := Spec.Eval.bind_inv_ok h
        obtain ⟨⟨y, ms2⟩, t2, h3, h4⟩ := Spec.Eval.bind_inv_ok h2
        obtain ⟨e, rfl⟩ := Spec.Eval.pure.1 h4
        cases e
        obtain ⟨v, g1, rfl, rfl⟩ := paramM_iff.1 h1
        obtain ⟨vs, g2, rfl, rfl⟩ := (ih _ _ _ _ _ _).1 h3
        refine ⟨v :: vs, .cons g1 g2, rfl, ?_⟩
        cases v with
        | some v => rfl
        | none =>
            simp only [addMissing, argMissing]
            cases p.asStr <;> simp
      · rintro ⟨vs, h, rfl, rfl⟩
        cases h with
        | @cons _ _ _ t1 _ v vs g1 g2 =>
            unfold argumentsLoop
            refine Spec.Eval.bindOk (mono_paramM _ _) (fun x => MonoF.bind (mono_arguments _ _ _ _) fun _ => MonoF.const _)
              (paramM_iff.2 ⟨v, g1, rfl, rfl⟩) ?_
            refine Spec.Eval.bindOk (mono_arguments _ _ _ _) (fun _ => MonoF.const _)
              ((ih _ _ _ _ _ _).2 ⟨vs, g2, rfl, rfl⟩) ?_
            rw [Spec.Eval.pure]
            refine ⟨?_, rfl⟩
            cases v with
            | some v => rfl
            | none =>
                simp only [addMissing, argMissing]
                cases p.asStr <;> simp

theorem hashLoop_iff {E : Env} : ∀ (ps : List (Str × ParamValue)) (out : List (Str × Value)) (ms : List Missing) (s t : RS)
    (out' : List (Str × Value)) (ms' : List Missing),
    Eval (fun n => hashLoop (sem n) E ps out ms) s (.ok (out', ms')) t ↔
      ∃ vs, ArgsEval E (ps.map (·.2)) s vs t ∧ out' = hashOf ps vs out ∧ ms' = ms ++ keyMissing ps vs := by
  intro ps
  induction ps with
  | nil =>
      intro out ms s t out' ms'
      rw [show (fun n => hashLoop (sem n) E [] out ms) = fun _ => (pure (out, ms) : RM (List (Str × Value) × List Missing)) from rfl,
        Spec.Eval.pure]
      constructor
      · rintro ⟨h, rfl⟩
        cases h
        exact ⟨[], .nil _, rfl, by simp [keyMissing]⟩
      · rintro ⟨vs, h, rfl, rfl⟩
        cases h
        exact ⟨by simp [keyMissing], rfl⟩
  | cons kp ps ih =>
      obtain ⟨k, p⟩ := kp
      intro out ms s t out' ms'
      constructor
      · intro h
        unfold hashLoop at h
        obtain ⟨⟨x, m⟩, t1, h1, h2⟩ := Spec.Eval.bind_inv_ok h
        obtain ⟨v, g1, rfl, rfl⟩ := paramM_iff.1 h1
        obtain ⟨vs, g2, rfl, rfl⟩ := (ih _ _ _ _ _ _).1 h2
        refine ⟨v :: vs, .cons g1 g2, rfl, ?_⟩
        cases v with
        | some v => rfl
        | none =>
            simp only [addMissing, keyMissing]
            cases p.asStr <;> simp
      · rintro ⟨vs, h, rfl, rfl⟩
        cases h with
        | @cons _ _ _ t1 _ v vs g1 g2 =>
            unfold hashLoop
            refine Spec.Eval.bindOk (mono_paramM _ _) (fun x => mono_hash _ _ _ _)
              (paramM_iff.2 ⟨v, g1, rfl, rfl⟩) ?_
            refine (ih _ _ _ _ _ _).2 ⟨vs, g2, rfl, ?_⟩
            cases v with
            | some v => rfl
            | none =>
                simp only [addMissing, keyMissing]
                cases p.asStr <;> simp

/-! ### Reading the result -/

theorem argsEval_length {E : Env} {ps : List ParamValue} {s t : RS} {vs : List (Option Value)}
    (h : ArgsEval E ps s vs t) : vs.length = ps.length := by
  induction h with
  | nil => rfl
  | cons _ _ ih => simp [ih]

theorem missingArg_append (i : Nat) (a b : List Missing) :
    missingArg i (a ++ b) = (missingArg i a).or (missingArg i b) := by
  induction a with
  | nil => rfl
  | cons x a ih =>
      cases x with
      | arg j raw =>
          simp only [List.cons_append, missingArg]
          split
          · rfl
          · exact ih
      | param k raw => simpa only [List.cons_append, missingArg] using ih

theorem missingParam_append (k : Str) (a b : List Missing) :
    missingParam k (a ++ b) = (missingParam k a).or (missingParam k b) := by
  induction a with
  | nil => rfl
  | cons x a ih =>
      cases x with
      | param j raw =>
          simp only [List.cons_append, missingParam]
          split
          · rfl
          · exact ih
      | arg k raw => simpa only [List.cons_append, missingParam] using ih

theorem missingParam_argMissing (k : Str) : ∀ (ps : List ParamValue) (vs : List (Option Value)) (i : Nat),
    missingParam k (argMissing i ps vs) = none := by
  intro ps
  induction ps with
  | nil => intro vs i; rfl
  | cons p ps ih =>
      intro vs i
      cases vs with
      | nil => rfl
      | cons v vs =>
          cases v with
          | some v => exact ih vs _
          | none =>
              simp only [argMissing]
              rw [missingParam_append, ih]
              cases p.asStr <;> rfl

theorem missingArg_keyMissing (i : Nat) : ∀ (ps : List (Str × ParamValue)) (vs : List (Option Value)),
    missingArg i (keyMissing ps vs) = none := by
  intro ps
  induction ps with
  | nil => intro vs; rfl
  | cons p ps ih =>
      intro vs
      obtain ⟨k, p⟩ := p
      cases vs with
      | nil => rfl
      | cons v vs =>
          cases v with
          | some v => exact ih vs
          | none =>
              simp only [keyMissing]
              rw [missingArg_append, ih]
              cases p.asStr <;> rfl

theorem missingArg_argMissing_lt : ∀ (ps : List ParamValue) (vs : List (Option Value)) (i j : Nat), j < i →
    missingArg j (argMissing i ps vs) = none := by
  intro ps
  induction ps with
  | nil => intro vs i j _; rfl
  | cons p ps ih =>
      intro vs i j hj
      cases vs with
      | nil => rfl
      | cons v vs =>
          cases v with
          | some v => exact ih vs _ _ (by omega)
          | none =>
              simp only [argMissing]
              rw [missingArg_append, ih _ _ _ (by omega)]
              cases p.asStr with
              | none => rfl
              | some raw => simp [missingArg, show i ≠ j by omega]

theorem missingArg_argMissing : ∀ (ps : List ParamValue) (vs : List (Option Value)) (i j : Nat),
    missingArg (i + j) (argMissing i ps vs) =
      match ps[j]?, vs[j]? with
      | some p, some v => missingText p v
      | _, _ => none := by
  intro ps
  induction ps with
  | nil => intro vs i j; simp [argMissing, missingArg]
  | cons p ps ih =>
      intro vs i j
      cases vs with
      | nil =>
          simp only [argMissing, missingArg, List.getElem?_nil]
          cases (p :: ps)[j]? <;> rfl
      | cons v vs =>
          cases j with
          | zero =>
              simp only [Nat.add_zero, List.getElem?_cons_zero]
              cases v with
              | some v => exact missingArg_argMissing_lt _ _ (i + 1) i (by omega)
              | none =>
                  simp only [argMissing, missingText]
                  rw [missingArg_append, missingArg_argMissing_lt _ _ (i + 1) i (by omega)]
                  cases p.asStr with
                  | none => rfl
                  | some raw => simp [missingArg]
          | succ j =>
              simp only [List.getElem?_cons_succ]
              have := ih vs (i + 1) j
              rw [show i + 1 + j = i + (j + 1) by omega] at this
              rw [← this]
              cases v with
              | some v => rfl
              | none =>
                  simp only [argMissing]
                  rw [missingArg_append]
                  cases p.asStr with
                  | none => rfl
                  | some raw => simp [missingArg]

theorem missingParam_notMem : ∀ (ps : List (Str × ParamValue)) (vs : List (Option Value)) (k : Str),
    k ∉ ps.map (·.1) → missingParam k (keyMissing ps vs) = none := by
  intro ps
  induction ps with
  | nil => intro vs k _; rfl
  | cons kp ps ih =>
      obtain ⟨k', p⟩ := kp
      intro vs k hk
      simp only [List.map_cons, List.mem_cons, not_or] at hk
      cases vs with
      | nil => rfl
      | cons v vs =>
          cases v with
          | some v => exact ih vs k hk.2
          | none =>
              simp only [keyMissing]
              rw [missingParam_append, ih _ _ hk.2]
              cases p.asStr with
              | none => rfl
              | some raw => simp [missingParam, Ne.symm hk.1]

theorem hashOf_notMem : ∀ (ps : List (Str × ParamValue)) (vs : List (Option Value)) (out : List (Str × Value)) (k : Str),
    k ∉ ps.map (·.1) → assoc k (hashOf ps vs out) = assoc k out := by
  intro ps
  induction ps with
  | nil => intro vs out k _; rfl
  | cons kp ps ih =>
      obtain ⟨k', p⟩ := kp
      intro vs out k hk
      simp only [List.map_cons, List.mem_cons, not_or] at hk
      cases vs with
      | nil => rfl
      | cons v vs =>
          simp only [hashOf]
          rw [ih _ _ _ hk.2, assoc_mapInsert, if_neg hk.1]

theorem params_get : ∀ (ps : List (Str × ParamValue)) (vs : List (Option Value)) (out : List (Str × Value)),
    (ps.map (·.1)).Nodup → ∀ (i : Nat) k p v, ps[i]? = some (k, p) → vs[i]? = some v →
      assoc k (hashOf ps vs out) = some (v.getD .null) ∧ missingParam k (keyMissing ps vs) = missingText p v := by
  intro ps
  induction ps with
  | nil => intro vs out _ i k p v h; simp at h
  | cons kp ps ih =>
      obtain ⟨k', p'⟩ := kp
      intro vs out hnd i k p v h1 h2
      rw [List.map_cons, List.nodup_cons] at hnd
      cases vs with
      | nil => simp at h2
      | cons v' vs =>
          cases i with
          | zero =>
              simp only [List.getElem?_cons_zero, Option.some.injEq, Prod.mk.injEq] at h1 h2
              obtain ⟨rfl, rfl⟩ := h1
              subst h2
              refine ⟨?_, ?_⟩
              · simp only [hashOf]
                rw [hashOf_notMem _ _ _ _ hnd.1, assoc_mapInsert, if_pos rfl]
              · cases v' with
                | some v => exact missingParam_notMem ps vs _ hnd.1
                | none =>
                    simp only [keyMissing, missingText]
                    rw [missingParam_append, missingParam_notMem _ _ _ hnd.1]
                    cases p'.asStr with
                    | none => rfl
                    | some raw => simp [missingParam]
          | succ i =>
              simp only [List.getElem?_cons_succ] at h1 h2
              have hk : k ≠ k' := by
                rintro rfl
                exact hnd.1 (List.mem_map.2 ⟨_, List.mem_of_getElem? h1, rfl⟩)
              obtain ⟨g1, g2⟩ := ih vs (mapInsert k' (v'.getD .null) out) hnd.2 i k p v h1 h2
              refine ⟨g1, ?_⟩
              rw [← g2]
              cases v' with
              | some v => rfl
              | none =>
                  simp only [keyMissing]
                  rw [missingParam_append]
                  cases p'.asStr with
                  | none => rfl
                  | some raw => simp [missingParam, Ne.symm hk]

/-- What a helper receives, from the evaluation of its arguments. -/
theorem receives_of {E : Env} {c : Call} {s u t : RS} {vs hs : List (Option Value)} {name : Str} {text : Option Str}
    {prop : Option (Str × Value)} (hnd : (c.params.map (·.1)).Nodup) (h1 : ArgsEval E c.args s vs u)
    (h2 : ArgsEval E (c.params.map (·.2)) u hs t) :
    Receives E c s
      { call := c, name, args := vs.map (·.getD .null), params := hashOf c.params hs [], text, property := prop,
        missing := argMissing 0 c.args vs ++ keyMissing c.params hs } t := by
  refine ⟨rfl, ⟨vs, hs, u, h1, h2, ?_, ?_⟩, by simp [argsEval_length h1], ?_, ?_⟩
  · intro i p v hp hv
    refine ⟨by simp [Ctx.get, hv], ?_⟩
    unfold Ctx.missingAt
    rw [missingArg_append, missingArg_keyMissing]
    have := missingArg_argMissing c.args vs 0 i
    rw [Nat.zero_add] at this
    rw [this, hp, hv]
    simp
  · intro i k p v hp hv
    obtain ⟨g1, g2⟩ := params_get c.params hs [] hnd i k p v hp hv
    refine ⟨g1, ?_⟩
    unfold Ctx.missingKey
    rw [missingParam_append, missingParam_argMissing, g2]
    rfl
  · intro i hi
    unfold Ctx.missingAt
    rw [missingArg_append, missingArg_keyMissing]
    have := missingArg_argMissing c.args vs 0 i
    rw [Nat.zero_add] at this
    rw [this, List.getElem?_eq_none hi]
    rfl
  · intro k hk
    refine ⟨?_, ?_⟩
    · unfold Ctx.param
      simp only
      rw [hashOf_notMem _ _ _ _ hk]
      rfl
    · unfold Ctx.missingKey
      rw [missingParam_append, missingParam_argMissing, missingParam_notMem _ _ _ hk]
      rfl

end
end Bracket
