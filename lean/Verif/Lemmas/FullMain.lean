import Verif.Lemmas.FullTm

/-! What templates write, with `~` and partials: the induction over the template. -/

set_option linter.unusedSectionVars false
set_option linter.unusedSimpArgs false

namespace Bracket.Props.Whole
open Bracket Re Spec Bracket.Props
open Bracket.Spec.Full (Mood Outcome wrote failed cut opens isNil stops Library)

section
variable [Host] [Custom]

/-- A statement that is not a partial. -/
theorem does_stmt {Γ : Scene} {E : Env} {s : RS} {μ : Mood} (ha : At Γ E s) (hc : Feels μ s) {raw : Bool} {x : SExpr} {c : Call}
    (hpart : c.isPartial = false) (hs : Sees (fun n => callF (sem n) E c) s (x.eval Γ μ.trim) Eq) (he : c.isEscaped = some (!raw)) :
    Does (fun n => renderKind (sem n) E (.statement c)) s Γ E (Full.prints Γ raw (x.eval Γ μ.trim) μ) := by
  have hs := hs.map (f := fun n => (sem n).statement E c) fun r u h => (evaluates_callF hpart).2 h
  refine Does.after (g := fun v _ => sayValue E c v) (mono_statement E c) (fun _ => MonoF.const _) hs ?_
  rintro v _ t h2 rfl
  have hAt := h2.at ha
  have hCt := silent_feels h2 hc
  cases v with
  | none => exact does_pure hAt hCt
  | some v =>
      have hw := does_writeUnit hAt hCt hCt.trim (stringify v) (!raw)
      have e : (if cut μ.trim.start μ.trim.stop (stringify v) = [] then [] else escOf E (!raw) (cut μ.trim.start μ.trim.stop (stringify v)))
          = Γ.print μ.trim ⟨!raw, stringify v⟩ := by
        unfold escOf Scene.print
        rw [ha.escape]
      rw [e] at hw
      refine hw.congr fun n => ?_
      unfold sayValue
      simp only
      rw [orPanic_bind he]
      rfl

/-- Partials, wherever they are called. -/
def Parts (P : Scene → Prop) (E : Env) (L : Library) : Prop :=
  ∀ Γ s μ content pb name a c, P Γ → At Γ E s → Feels μ s → ArgsRep a c.args c.params → a.ok = true →
    ContentRep content pb → Does (fun n => partialAt (sem n) E c pb name) s Γ E (Full.included L content name a Γ μ)

/-- A statement that calls a partial. -/
theorem does_partStmt {E : Env} {Γ : Scene} {s : RS} {c : Call} (hpart : c.isPartial = true) {o : Outcome}
    (h : Does (fun n => renderPartial (sem n) E c none) s Γ E o) : Does (fun n => renderKind (sem n) E (.statement c)) s Γ E o := by
  have hmono : MonoF fun n => renderPartial (sem n) E c none := mono_renderPartial E c none
  have e1 : (fun n => statementF (sem n) E c) = fun n => renderPartial (sem n) E c none >>= fun _ => (Pure.pure none : RM (Option Value)) := by
    funext n
    unfold statementF
    rw [if_pos hpart]
  have key : ∀ r t, Eval (fun n => renderPartial (sem n) E c none) s r t → Eval (fun n => renderKind (sem n) E (.statement c)) s r t := by
    intro r t h
    cases r with
    | ok a =>
        have h1 : Evaluates E c s (.ok none) t := evaluates_iff.2 (by
          rw [e1]; exact h.bindOk (g := fun _ _ => (Pure.pure none : RM (Option Value))) hmono (fun _ => .const _) (Spec.Eval.pure.2 ⟨rfl, rfl⟩))
        exact h1.bindOk (g := fun v _ => sayValue E c v) (mono_statement E c) (fun _ => MonoF.const _) (Spec.Eval.pure.2 ⟨rfl, rfl⟩)
    | err e =>
        have h1 : Evaluates E c s (.err e) t := evaluates_iff.2 (by
          rw [e1]; exact h.bindFail (g := fun _ _ => (Pure.pure none : RM (Option Value))) rfl)
        exact h1.bindFail (g := fun v _ => sayValue E c v) rfl
    | panic =>
        have h1 : Evaluates E c s .panic t := evaluates_iff.2 (by
          rw [e1]; exact h.bindFail (g := fun _ _ => (Pure.pure none : RM (Option Value))) rfl)
        exact h1.bindFail (g := fun v _ => sayValue E c v) rfl
    | fuel => exact absurd rfl h.1
  exact h.map key rfl

section
variable {names : List Str} {N : Nat}

mutual
theorem does_tm (E : Env) {L : Library} (hL : Parts (Room names N) E L) : ∀ (T : STm) (ns : List Node) (k : Str), TmRep T ns → T.ok k = true →
    ∀ (f : Nat → Ev → RM Unit) (opn cls start : Bool), Loop E opn cls f → ∀ (Γ : Scene) (s : RS) (μ : Mood) (prev : Option Bool) (hint : Option TrimHint),
      Room names N Γ → At Γ E s → Feels μ s → LoopAt prev hint opn start →
      Does (fun n => runEvents (f n) ns prev hint) s Γ E (Full.tm L T Γ opn cls start μ)
  | .nil, ns, k, hT, hok, f, opn, cz, start, hf, Γ, s, μ, prev, hint, hro, ha, hc, hp => by
      cases hT
      rw [Full.tm]
      exact does_nil ha hc f prev hint
  | .text w r, ns, k, hT, hok, f, opn, cz, start, hf, Γ, s, μ, prev, hint, hro, ha, hc, hp => by
      rw [STm.ok] at hok
      simp only [Bool.and_eq_true] at hok
      rw [Full.tm]
      cases hT with
      | text h hr =>
          exact does_cons hf hr (tl := ⟨false, false⟩) rfl hp (does_text ha hc h _ _)
            (fun t μ' p' h' ha' hc' hp' => does_tm E hL r _ k hr hok.2 f opn cz false hf Γ t μ' p' h' hro ha' hc' hp')
  | .comment w r, ns, k, hT, hok, f, opn, cz, start, hf, Γ, s, μ, prev, hint, hro, ha, hc, hp => by
      rw [STm.ok] at hok
      simp only [Bool.and_eq_true] at hok
      rw [Full.tm]
      cases hT with
      | comment h hw hr =>
          exact does_cons hf hr (tl := ⟨false, false⟩) rfl hp (does_comment ha hc rfl (fun n => rfl) _ _)
            (fun t μ' p' h' ha' hc' hp' => does_tm E hL r _ k hr hok.2 f opn cz false hf Γ t μ' p' h' hro ha' hc' hp')
  | .longComment w r, ns, k, hT, hok, f, opn, cz, start, hf, Γ, s, μ, prev, hint, hro, ha, hc, hp => by
      rw [STm.ok] at hok
      simp only [Bool.and_eq_true] at hok
      rw [Full.tm]
      cases hT with
      | longComment h hw hr =>
          exact does_cons hf hr (tl := ⟨false, false⟩) rfl hp (does_comment ha hc rfl (fun n => rfl) _ _)
            (fun t μ' p' h' ha' hc' hp' => does_tm E hL r _ k hr hok.2 f opn cz false hf Γ t μ' p' h' hro ha' hc' hp')
  | .escaped w r, ns, k, hT, hok, f, opn, cz, start, hf, Γ, s, μ, prev, hint, hro, ha, hc, hp => by
      rw [STm.ok] at hok
      simp only [Bool.and_eq_true] at hok
      rw [Full.tm]
      cases hT with
      | escaped h hw hr =>
          refine does_cons hf hr (tl := ⟨false, false⟩) rfl hp (does_write ha hc rfl (fun n u => ?_) _ _)
            (fun t μ' p' h' ha' hc' hp' => does_tm E hL r _ k hr hok.2 f opn cz false hf Γ t μ' p' h' hro ha' hc' hp')
          unfold renderKind
          simp only
          rw [orPanic_bind h]
          have e : escapedText w = '\\' :: (c!"{{" ++ (w ++ c!"}}")) := rfl
          rw [e, orPanic_bind (slice_tail (by decide))]
          rfl
  | .link e h lb tt r, ns, k, hT, hok, f, opn, cz, start, hf, Γ, s, μ, prev, hint, hro, ha, hc, hp => by
      rw [STm.ok] at hok
      simp only [Bool.and_eq_true] at hok
      rw [Full.tm]
      cases hT with
      | link h he h1 h2 h3 hn =>
          exact does_cons hf hn (tl := ⟨false, false⟩) rfl hp (does_link ha hc h he h1 h2 h3 _ _)
            (fun t μ' p' h' ha' hc' hp' => does_tm E hL r _ k hn hok.2 f opn cz false hf Γ t μ' p' h' hro ha' hc' hp')
  | .stmt raw part tl p a r, ns, k, hT, hok, f, opn, cz, start, hf, Γ, s, μ, prev, hint, hro, ha, hc, hp => by
      rw [STm.ok] at hok
      simp only [Bool.and_eq_true] at hok
      rw [Full.tm]
      cases hT with
      | stmt h ht he hl hr =>
          refine does_cons hf hr (trim_of hl) hp (Does.node (trim_of hl) ?_)
            (fun t μ' p' h' ha' hc' hp' => does_tm E hL r _ k hr hok.2 f opn cz tl.after hf Γ t μ' p' h' hro ha' hc' hp')
          cases part with
          | true =>
              obtain ⟨q, hq, hqr⟩ := ht.target
              exact does_partStmt ht.isPartial (does_partial hq hqr hok.1.1.1.2 fun name =>
                hL Γ _ _ none none name a _ hro (begin_at ha _ _) (begin_feels hc ⟨start, stops r cz⟩ ⟨tl.seen.before, tl.seen.after⟩) ht.args hok.1.1.2 rfl)
          | false =>
              obtain ⟨q, hq, hqr⟩ := ht.target
              exact does_stmt (x := .sub p a) (begin_at ha _ _) (begin_feels hc _ _) ht.isPartial
                (sees_call (begin_at ha _ _) (begin_feels hc ⟨start, stops r cz⟩ ⟨tl.seen.before, tl.seen.after⟩).trim hqr hok.1.1.1.2 hq (argsSee ht.args hok.1.1.2)) he
  | .dyn raw part tl q b a r, ns, k, hT, hok, f, opn, cz, start, hf, Γ, s, μ, prev, hint, hro, ha, hc, hp => by
      rw [STm.ok] at hok
      simp only [Bool.and_eq_true] at hok
      rw [Full.tm]
      cases hT with
      | dyn h hpa hcond ht hd hargs he hl hr =>
          refine does_cons hf hr (trim_of hl) hp (Does.node (trim_of hl) ?_)
            (fun t μ' p' h' ha' hc' hp' => does_tm E hL r _ k hr hok.2 f opn cz tl.after hf Γ t μ' p' h' hro ha' hc' hp')
          cases part with
          | true =>
              exact does_partStmt hpa (does_computed (begin_at ha _ _) (begin_feels hc _ _) hok.1.1.1.1.2 hok.1.1.1.2 ht hd fun t name hA hF =>
                hL Γ t _ none none name a _ hro hA hF hargs hok.1.1.2 rfl)
          | false =>
              exact does_stmt (x := .sub q b) (begin_at ha _ _) (begin_feels hc _ _) hpa
                (sees_dyn (begin_at ha _ _) (begin_feels hc ⟨start, stops r cz⟩ ⟨tl.seen.before, tl.seen.after⟩).trim hok.1.1.1.1.2 hok.1.1.1.2 ht hd) he
  | .rawBlock tl name a w cl r, ns, k, hT, hok, f, opn, cz, start, hf, Γ, s, μ, prev, hint, hro, ha, hc, hp => by
      rw [STm.ok] at hok
      simp only [Bool.and_eq_true] at hok
      rw [Full.tm]
      cases hT with
      | rawBlock h hraw ht hl hcl hn hw hcs hr =>
          rename_i b t ns
          have htr := trim_of hl
          have hcont : Content (Room names N) E (.block b) fun _ μ => wrote (cut (μ.hint || tl.after || μ.close) cl.before w) 
              ⟨false, cl.after, μ.block, ⟨μ.hint || tl.after || μ.close, cl.before⟩⟩ := by
            intro Δ u ν _ ha' hc'
            have h1 := does_cons (loop_block (E := E) htr hcl) (m := .text t) (r := .nil) (ns := []) .nil rfl (loop_first (hint := u.hint))
              (does_text ha' hc' hw _ _) (k := wrote []) (fun v μ' p' h' ha'' hc'' _ => does_nil ha'' hc'' _ p' h')
            rw [andThen_done] at h1
            have h2 := does_template (b := b) hcl (by rw [hn]; exact h1)
            rw [hn, hc'.hint] at h2
            simpa [closed, Full.Outcome.andThen, wrote, stops, opens, isNil, Full.Mood.next] using h2
          have hrt : rawText b = some (cut tl.after cl.before w, ⟨cl.before, cl.after⟩) := by
            rw [rawText_eq (inner := w) (by rw [hn]; exact hw) htr hcl]
            rfl
          refine does_cons hf hr htr hp (Does.node htr ?_)
            (fun t μ' p' h' ha' hc' hp' => does_tm E hL r _ k hr hok.2 f opn cz opn hf Γ t μ' p' h' hro ha' hc' hp')
          have hd := does_rawBlock hro (begin_at ha ⟨start, stops r cz⟩ ⟨tl.before, tl.after⟩) (begin_feels hc ⟨start, stops r cz⟩ ⟨tl.before, tl.after⟩)
            (begin_trim hc ⟨start, stops r cz⟩ ⟨tl.before, tl.after⟩) hcont (no_inverse hcs) hok.1.1.1.1.2 hok.1.1.1.2 hraw ht hrt
          exact hd
  | .block part tl name a body cs cl r, ns, k, hT, hok, f, opn, cz, start, hf, Γ, s, μ, prev, hint, hro, ha, hc, hp => by
      rw [STm.ok] at hok
      simp only [Bool.and_eq_true] at hok
      obtain ⟨⟨⟨⟨⟨⟨⟨⟨⟨⟨_, _⟩, _⟩, hname⟩, haok⟩, _⟩, hbok⟩, hcok⟩, _⟩, _⟩, hrok⟩ := hok
      rw [Full.tm]
      cases hT with
      | block h hraw ht hl hcl hb hcs hr =>
          rename_i b ns
          have htr := trim_of hl
          refine does_cons hf hr htr hp (Does.node htr ?_)
            (fun t μ' p' h' ha' hc' hp' => does_tm E hL r _ k hr hrok f opn cz opn hf Γ t μ' p' h' hro ha' hc' hp')
          cases part with
          | true =>
              obtain ⟨q, hq, hqr⟩ := ht.target
              have h := does_partial hq hqr (name_ok hname) fun name => hL Γ _ _ (some body) (some (.block b)) name a b.call hro (begin_at ha ⟨start, stops r cz⟩ ⟨tl.before, tl.after⟩)
                (begin_feels hc ⟨start, stops r cz⟩ ⟨tl.before, tl.after⟩) ht.args haok ⟨b, _, rfl, hb, hbok⟩
              refine h.congr fun n => ?_
              show blockF (sem n) E b _ = _
              unfold blockF
              rw [if_pos ht.isPartial]
          | false =>
              have hcont : Content (Room names N) E (.block b) fun Δ μ =>
                  (Full.tm L body Δ tl.after cl.before (μ.hint || tl.after) μ).andThen fun μ => wrote [] { μ with close := !isNil body && cl.after } := by
                intro Δ u ν hro' ha' hc'
                have h1 := does_template hcl (does_tm E hL body _ _ hb hbok _ tl.after cl.before _ (loop_block htr hcl) Δ u ν none u.hint hro' ha' hc' loop_first)
                rwa [hc'.hint, isEmpty_eq hb] at h1
              have hinv : Inverts (Room names N) E (.block b) fun Δ μ => Full.clauses L cs cl Δ (fun μ => wrote [] μ) μ := fun Δ u ν hro' ha' hc' =>
                does_inverse ha' hc' (does_cls E hL cs cl _ _ hcs hcok Δ u ν none (fun μ => wrote [] μ) hro' ha' hc' rfl)
              exact does_block hro (begin_at ha _ _) (begin_feels hc _ _) hcont hinv hname haok hraw ht
theorem does_cls (E : Env) {L : Library} (hL : Parts (Room names N) E L) : ∀ (cs : SCls) (cl : Tilde) (ns : List Node) (k : Str), ClsRep cl cs ns → cs.ok k = true →
    ∀ (Γ : Scene) (s : RS) (μ : Mood) (al : Option Node) (o : Mood → Outcome), Room names N Γ → At Γ E s → Feels μ s → Picks Γ E μ al (o μ) →
      Clauses Γ E μ ns al s (Full.clauses L cs cl Γ o μ)
  | .nil, cl, ns, k, hT, hok, Γ, s, μ, al, o, hro, ha, hc, hp => by
      cases hT
      rw [Full.clauses]
      exact .inl ⟨al, s, [], _, Spec.Eval.pure.2 ⟨rfl, rfl⟩, .refl s, hp, rfl⟩
  | .cons tl cond body r, cl, ns, k, hT, hok, Γ, s, μ, al, o, hro, ha, hc, hp => by
      unfold SCls.ok at hok
      simp only [Bool.and_eq_true] at hok
      obtain ⟨⟨⟨⟨⟨_, hcond⟩, _⟩, hbok⟩, _⟩, hrok⟩ := hok
      cases hT with
      | cons hraw ht hl hcl hb hcs hr =>
          rename_i b ns
          have htr := trim_of hl
          have hcl' : b.trimClose = some ⟨(Full.clauseEnd r cl).1, (Full.clauseEnd r cl).2⟩ := by
            rw [hcl]; cases r <;> rfl
          have hcont : ∀ u ν, At Γ E u → Feels ν u → Does (fun n => template (sem n) E (.block b)) u Γ E
              ((Full.tm L body Γ tl.after (Full.clauseEnd r cl).1 (ν.hint || tl.after) ν).andThen fun μ => wrote [] { μ with close := !isNil body && (Full.clauseEnd r cl).2 }) := by
            intro u ν ha' hc'
            have h1 := does_template hcl' (does_tm E hL body _ _ hb hbok _ tl.after (Full.clauseEnd r cl).1 _ (loop_block htr hcl') Γ u ν none u.hint hro ha' hc' loop_first)
            rwa [hc'.hint, isEmpty_eq hb] at h1
          cases cond with
          | none =>
              have hem : b.call.isEmpty = true := ht.target
              have := does_cls E hL r cl ns k hr hrok Γ s μ (some (.block b)) (fun μ =>
                  (Full.tm L body Γ tl.after (Full.clauseEnd r cl).1 (μ.hint || tl.after) μ).andThen fun μ =>
                    wrote [] { μ with close := !isNil body && (Full.clauseEnd r cl).2 }) hro ha hc fun u ha' hc' => hcont u μ ha' hc'
              have e1 : (fun n => inverseLoop (sem n) E (.block b :: ns) al) = fun n => inverseLoop (sem n) E ns (some (.block b)) :=
                funext fun n => by rw [inverseLoop, if_pos hem]
              unfold Clauses
              rw [e1, Full.clauses]
              exact this
          | some x =>
              obtain ⟨p, a⟩ := x
              simp only [Bool.and_eq_true] at hcond
              obtain ⟨q, hq, hqr⟩ := ht.target
              have hem : b.call.isEmpty = false := by
                unfold Call.isEmpty
                rw [hq]
                show q.components.isEmpty = false
                have hk := hqr.kinds
                cases hcomp : q.components with
                | nil => rw [hcomp] at hk; simp at hk
                | cons _ _ => rfl
              have hs := sees_call ha hc.trim hqr hcond.1.2 hq (argsSee ht.args hcond.2)
              have e1 : (fun n => inverseLoop (sem n) E (.block b :: ns) al) = fun n => (sem n).call E b.call >>= fun v => nextClause (sem n) E b ns al v :=
                funext fun n => by rw [inverseLoop, if_neg (by simp [hem])]; rfl
              unfold Clauses
              rw [e1, Full.clauses]
              have hmono : ∀ v : Option Value, MonoF fun n => nextClause (sem n) E b ns al v := by
                intro v
                cases v with
                | none => exact mono_inverseLoop E ns al
                | some v =>
                    unfold nextClause
                    simp only
                    split
                    · exact MonoF.const _
                    · exact mono_inverseLoop E ns al
              revert hs
              generalize (SExpr.sub p a).eval Γ μ.trim = x
              intro hs
              obtain ⟨w0, x⟩ := x
              cases x with
              | error g =>
                  obtain ⟨t, h1, h2⟩ := hs
                  have h3 := ((calls_iff).2 h1).bindFail (g := fun v n => nextClause (sem n) E b ns al v) (res_notOk g)
                  rw [res_cast] at h3
                  exact .inr ⟨g, t, w0, h3, h2, rfl⟩
              | ok v =>
                  obtain ⟨v', t, h1, h2, rfl⟩ := hs
                  have h1 := (calls_iff).2 h1
                  simp only [Full.Outcome.after]
                  by_cases htv : isTruthy (v.getD .null) = true
                  · simp only [if_pos htv]
                    cases v with
                    | none => cases htv
                    | some v =>
                        refine .inl ⟨some (.block b), t, w0, _, h1.bindOk (mono_call E _) hmono ?_, h2, fun u ha' hc' => hcont u μ ha' hc', rfl⟩
                        simp only [Option.getD_some] at htv
                        simp only [nextClause, htv, if_true]
                        exact Spec.Eval.pure.2 ⟨rfl, rfl⟩
                  · simp only [if_neg htv]
                    have ih := does_cls E hL r cl ns k hr hrok Γ t μ al o hro (h2.at ha) (silent_feels h2 hc) hp
                    have hgo : ∀ rr u, Eval (fun n => inverseLoop (sem n) E ns al) t rr u →
                        Eval (fun n => nextClause (sem n) E b ns al v) t rr u := by
                      intro rr u hx
                      cases v with
                      | none => exact hx
                      | some v =>
                          simp only [Option.getD_some] at htv
                          simp only [nextClause, htv, if_false]
                          exact hx
                    rcases ih with ⟨pick, u, w1, o1, g1, g2, g3, g4⟩ | ⟨g, u, w1, g1, g2, g3⟩
                    · refine .inl ⟨pick, u, w0 ++ w1, o1, h1.bindOk (mono_call E _) hmono (hgo _ _ g1), h2.trans g2, g3, ?_⟩
                      rw [g4]; simp
                    · refine .inr ⟨g, u, w0 ++ w1, h1.bindOk (mono_call E _) hmono (hgo _ _ g1), by rw [g2, h2.out, List.append_assoc], ?_⟩
                      rw [g3]
end

end

/-- Partials inside partials. -/
theorem inner {names : List Str} {E : Env} {get : Str → Option STm} (hlib : LibRep E get)
    (hnames : ∀ name, (name = c!"@partial-block" ∨ (get name).isSome) → name ∈ names) :
    ∀ N, Inner (Room names N) E (Full.depth get (N + 1)).render ∧ Parts (Room names N) E (Full.depth get N) := by
  have step : ∀ N, Parts (Room names N) E (Full.depth get N) → Inner (Room names N) E (Full.depth get (N + 1)).render := by
    intro N hL T ns k Γ s μ hT hok hro ha hc
    have := does_tm E hL T ns k hT hok _ false false _ (loop_top E) Γ s μ none s.hint hro ha hc loop_first
    rw [hc.hint, Bool.or_false] at this
    exact this
  intro N
  induction N with
  | zero =>
      have hL : Parts (Room names 0) E (Full.depth get 0) := fun Γ s μ content pb name a c hro ha hc hargs haok hcon =>
        does_included (names := names) (N := 0) hlib hnames
          (fun Γ x hro hx hn => absurd (hro.zero hx) (by rw [hn]; simp)) hro ha hc hargs haok hcon
      exact ⟨step 0 hL, hL⟩
  | succ n ih =>
      have hL : Parts (Room names (n + 1)) E (Full.depth get (n + 1)) := fun Γ s μ content pb name a c hro ha hc hargs haok hcon =>
        does_included (names := names) (N := n + 1) hlib hnames
          (fun Γ x hro hx hn sc => ⟨n, (hro.part hx hn).push sc, ih.1⟩) hro ha hc hargs haok hcon
      exact ⟨step _ hL, hL⟩

end

end Bracket.Props.Whole
