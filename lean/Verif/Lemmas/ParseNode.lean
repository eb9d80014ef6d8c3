import Verif.Lemmas.ParseCall

/-! Parsing one piece of a template other than a block gives that piece. -/

set_option linter.unusedSectionVars false
set_option linter.unusedSimpArgs false

namespace Bracket
open Re Spec Props P

/-! ### Stretches of text -/

/-- Every character of `w` (followed by `k`) is a token by itself. -/
inductive TxtRun (m : Mode) (tk : Char → Kind) (k : Str) : Str → Prop
  | nil : TxtRun m tk k []
  | cons {c : Char} {w : Str} (h : nextTok m (c :: (w ++ k)) = (tk c, 1)) (hr : TxtRun m tk k w) : TxtRun m tk k (c :: w)

def blockTxt (c : Char) : Kind := .block (if c = '\n' then .newline else .text)
def commentTxt (c : Char) : Kind := .comment (if c = '\n' then .newline else .text)
def longTxt (c : Char) : Kind := .rawComment (if c = '\n' then .newline else .text)
def escTxt (c : Char) : Kind := .rawStatement (if c = '\n' then .newline else .text)

theorem clear_block {k : Str} : ∀ {w : Str}, clearOf openers w k = true → TxtRun .block blockTxt k w
  | [], _ => .nil
  | c :: w, h => by
      rw [clearOf] at h
      simp only [Bool.and_eq_true, Bool.not_eq_true'] at h
      exact .cons (tok_text h.1) (clear_block h.2)

theorem clear_comment {k : Str} : ∀ {w : Str}, clearOf [c!"}}"] w k = true → TxtRun .comment commentTxt k w
  | [], _ => .nil
  | c :: w, h => by
      rw [clearOf] at h
      simp only [Bool.and_eq_true, Bool.not_eq_true', List.any_cons, List.any_nil, Bool.or_false] at h
      exact .cons (tok_commentText h.1) (clear_comment h.2)

theorem clear_long {k : Str} : ∀ {w : Str}, clearOf [c!"--}}"] w k = true → TxtRun .rawComment longTxt k w
  | [], _ => .nil
  | c :: w, h => by
      rw [clearOf] at h
      simp only [Bool.and_eq_true, Bool.not_eq_true', List.any_cons, List.any_nil, Bool.or_false] at h
      exact .cons (tok_longText h.1) (clear_long h.2)

theorem clear_esc {k : Str} : ∀ {w : Str}, clearOf [c!"}}", c!"~}}"] w k = true → TxtRun .rawStatement escTxt k w
  | [], _ => .nil
  | c :: w, h => by
      rw [clearOf] at h
      simp only [Bool.and_eq_true, Bool.not_eq_true', List.any_cons, List.any_nil, Bool.or_false, Bool.or_eq_false_iff] at h
      exact .cons (tok_rawText h.1.1 h.1.2) (clear_esc h.2)

/-- What follows does not matter when it is hidden by enough text. -/
theorem clearOf_append {pats : List Str} {n : Nat} (hp : ∀ p ∈ pats, p.length ≤ n + 1) {k : Str} (hk : n ≤ k.length) (k' : Str) :
    ∀ {w : Str}, clearOf pats w k = true → clearOf pats w (k ++ k') = true
  | [], _ => rfl
  | c :: w, h => by
      rw [clearOf] at h ⊢
      simp only [Bool.and_eq_true, Bool.not_eq_true', List.any_eq_false] at h ⊢
      refine ⟨?_, clearOf_append hp hk k' h.2⟩
      intro p hpm hs
      refine h.1 p hpm ?_
      obtain ⟨t, e⟩ := startsWith_iff.1 hs
      have hl : p.length ≤ (c :: (w ++ k)).length := by
        have := hp p hpm
        simp only [List.length_cons, List.length_append]; omega
      have e' : (c :: (w ++ k)) ++ k' = p ++ t := by rw [← e]; simp
      refine startsWith_iff.2 ⟨(c :: (w ++ k)).drop p.length, ?_⟩
      have : p = (c :: (w ++ k)).take p.length := by
        have h2 := congrArg (List.take p.length) e'
        rw [List.take_append_of_le_length hl, List.take_left] at h2
        exact h2.symm
      conv => lhs; rw [← List.take_append_drop p.length (c :: (w ++ k)), ← this]

theorem until_run {m : Mode} {tk : Char → Kind} {stop : Token → Bool} (hm : ∀ c, nextMode m (tk c) = m)
    (hstop : ∀ c sp, stop ⟨tk c, sp⟩ = false) (k : Str) : ∀ (w : Str) (off a : Nat) (s : PS), TxtRun m tk k w →
    ∃ t : PS, t.stack = s.stack ∧ t.next = s.next ∧
      untilLoop stop (lexFrom m off (w ++ k)) ⟨a, off⟩ s = untilLoop stop (lexFrom m (off + blen w) k) ⟨a, off + blen w⟩ t
  | [], off, a, s, _ => ⟨s, rfl, rfl, rfl⟩
  | c :: w, off, a, s, h => by
      cases h with
      | cons h hr =>
          rw [List.cons_append, lexFrom_tok1 _ h, hm]
          have ih := fun s => until_run hm hstop k w (off + c.utf8Size) a s hr
          obtain ⟨t, h1, h2, ht⟩ := ih { s with
              toks := lexFrom m (off + c.utf8Size) (w ++ k)
              line := if Token.isNewline ⟨tk c, ⟨off, off + c.utf8Size⟩⟩ then s.line + 1 else s.line
              byte := off + c.utf8Size - 1 }
          refine ⟨t, h1, h2, ?_⟩
          rw [untilLoop, P.bind_def]
          simp only [P.modify, hstop, Bool.false_eq_true, if_false]
          rw [P.bind_def]
          simp only [setByte]
          rw [ht, show off + c.utf8Size + blen w = off + blen (c :: w) by simp [Nat.add_assoc]]

/-- The tokens not yet parsed. -/
def PS.rem (s : PS) : List Token := s.next.toList ++ s.toks

/-- The remaining tokens are those of `k`, at `off`. -/
def AtB (off : Nat) (k : Str) (s : PS) : Prop := s.rem = lexFrom .block off k

/-- Nothing follows, or something that is not text. -/
def Opens (k : Str) : Prop := k = [] ∨ (openers.any (startsWith k)) = true

theorem Opens.notText {k : Str} (h : Opens k) (off : Nat) : ∀ t L, lexFrom .block off k = t :: L → t.isText = false := by
  intro t L e
  rcases h with rfl | h
  · cases e
  · obtain ⟨p, hp, hs⟩ := List.any_eq_true.1 h
    obtain ⟨r, rfl⟩ := startsWith_iff.1 hs
    have hne : p ≠ [] := by rintro rfl; revert hp; decide
    have hrule : ∃ n pr kd, 2 ≤ n ∧ RuleAt (rules .block) (p ++ r) n pr kd := by
      simp only [openers, List.mem_cons, List.not_mem_nil, or_false] at hp
      have mk : ∀ (w : Str) (pr : Nat) (kd : Kind) (re : Re), 2 ≤ w.length → (re, pr, kd) ∈ rules .block → Matches re w → p = w →
          ∃ n pr kd, 2 ≤ n ∧ RuleAt (rules .block) (p ++ r) n pr kd := by
        intro w pr kd re hw hmem hmt e
        refine ⟨w.length, pr, kd, hw, by omega, by rw [e]; simp, re, hmem, ?_⟩
        rw [e, List.take_left]; exact hmt
      rcases hp with rfl | rfl | rfl | rfl
      · refine mk c!"{{" 4 (.block .startStatement) _ (by decide) (by simp only [rules, blockRules, List.mem_cons]; exact .inr (.inr (.inr (.inr (.inl rfl))))) ?_ rfl
        have : c!"{{" = c!"{{" ++ ([] ++ ([] ++ [])) := rfl
        rw [this]
        exact .seq (m_lit.2 rfl) (.seq (.right .eps) (.seq (.right .eps) (m_star.2 (by simp))))
      · refine mk c!"[[" 4 (.block .startLink) _ (by decide) (by simp [rules, blockRules]; rfl) ?_ rfl
        have : c!"[[" = [] ++ c!"[[" := rfl
        rw [this]
        exact .seq (.right .eps) (m_lit.2 rfl)
      · refine mk c!"\\{{" 6 (.block .startRawStatement) _ (by decide) (by simp [rules, blockRules]; rfl) ?_ rfl
        have : c!"\\{{" = c!"\\{{" ++ [] := rfl
        rw [this]
        exact .seq (m_lit.2 rfl) (.right .eps)
      · refine mk c!"\\[[" 4 (.block .startLink) _ (by decide) (by simp [rules, blockRules]; rfl) ?_ rfl
        have : c!"\\[[" = ['\\'] ++ c!"[[" := rfl
        rw [this]
        exact .seq (.left (m_ch.2 rfl)) (m_lit.2 rfl)
    have hk : t.kind = (nextTok .block (p ++ r)).1 := by
      cases hpr : p ++ r with
      | nil => simp at hpr; exact absurd hpr.1 hne
      | cons c cs =>
          rw [hpr] at e
          have := nextTok_bound .block (c :: cs) (by simp)
          have e2 : c :: cs = (c :: cs).take (nextTok .block (c :: cs)).2 ++ (c :: cs).drop (nextTok .block (c :: cs)).2 :=
            (List.take_append_drop _ _).symm
          have hlen : ((c :: cs).take (nextTok .block (c :: cs)).2).length = (nextTok .block (c :: cs)).2 := by
            rw [List.length_take]; omega
          have e3 := lexFrom_tok (m := .block) (k := (nextTok .block (c :: cs)).1) (w := (c :: cs).take (nextTok .block (c :: cs)).2)
            (rest := (c :: cs).drop (nextTok .block (c :: cs)).2) off
            (by intro h0; rw [h0] at hlen; simp at hlen; omega) (by rw [← e2, hlen])
          rw [← e2, e] at e3
          injection e3 with e4 _
          rw [e4]
    rcases C55_maximal_munch .block (p ++ r) with ⟨pr, ⟨h1, h2, re, h3, h4⟩, hbest⟩ | ⟨hno, _⟩
    · obtain ⟨n, pr', kd, hn, hr⟩ := hrule
      have hlen : 2 ≤ (nextTok .block (p ++ r)).2 := by
        rcases hbest _ _ _ hr with h | ⟨h, _⟩ <;> omega
      unfold Token.isText
      rw [hk]
      have hl2 : ((p ++ r).take (nextTok .block (p ++ r)).2).length = (nextTok .block (p ++ r)).2 := by
        rw [List.length_take]; omega
      generalize (p ++ r).take (nextTok .block (p ++ r)).2 = u at h4 hl2
      generalize hkd : (nextTok .block (p ++ r)).1 = kd' at h3 ⊢
      simp only [rules, blockRules, List.mem_cons, List.not_mem_nil, or_false, Prod.mk.injEq] at h3
      rcases h3 with ⟨_, _, rfl⟩ | ⟨_, _, rfl⟩ | ⟨_, _, rfl⟩ | ⟨_, _, rfl⟩ | ⟨_, _, rfl⟩ | ⟨_, _, rfl⟩ | ⟨_, _, rfl⟩ | ⟨_, _, rfl⟩ |
        ⟨_, _, rfl⟩ | ⟨hre, _, rfl⟩ | ⟨hre, _, rfl⟩
      · rfl
      · rfl
      · rfl
      · rfl
      · rfl
      · rfl
      · rfl
      · rfl
      · rfl
      · subst hre
        unfold anyNoNl at h4
        obtain ⟨c, _, rfl⟩ := m_cls.1 h4
        simp at hl2; omega
      · subst hre
        have := m_ch.1 h4
        subst this
        simp at hl2; omega
    · obtain ⟨n, pr', kd, hn, hr⟩ := hrule
      exact absurd hr (hno _ _ _)

theorem Opens.noBrace {k : Str} (h : Opens k) : NotNext ['}'] k := by
  rintro c r rfl
  rcases h with h | h
  · cases h
  · simp only [List.mem_singleton]
    rintro rfl
    simp [openers, startsWith] at h

/-! ### Pieces -/

section
variable [Host] (E : PEnv)

theorem AtB.token {off : Nat} {k : Str} {s : PS} (h : AtB off k s) {tok : Token} {L : List Token} (e : lexFrom .block off k = tok :: L) :
    tokenP s = (.ok (some tok), { s with next := none, toks := L }) := by
  unfold AtB PS.rem at h
  rw [e] at h
  unfold tokenP
  cases hn : s.next with
  | none =>
      rw [hn] at h
      simp only [Option.toList_none, List.nil_append] at h
      simp only [h]
  | some x =>
      rw [hn] at h
      simp only [Option.toList_some, List.singleton_append, List.cons.injEq] at h
      obtain ⟨rfl, rfl⟩ := h
      rfl

/-- At `w ++ k`, parsing the next piece reads `w` and gives a node with `Q`. -/
def Piece (pre w k : Str) (Q : Node → Prop) : Prop := ∀ s : PS, AtB (blen pre) (w ++ k) s → ∃ tok L node t,
  tokenP s = (.ok (some tok), { s with next := none, toks := L }) ∧
  (∀ n, advance E (n + 1) tok { s with next := none, toks := L } = (.ok (some node), t)) ∧
  Q node ∧ t.stack = s.stack ∧ AtB (blen (pre ++ w)) k t

theorem slice_mid {src pre w k : Str} (h : src = pre ++ (w ++ k)) : slice src (blen pre) (blen (pre ++ w)) = some w :=
  slice_eq h rfl (by simp)

theorem Opens.nil : Opens [] := .inl rfl

theorem untilLoop_opens {k : Str} (hk : Opens k) (off : Nat) (sp : Span) (s : PS) :
    ∃ t : PS, untilLoop (fun t => !t.isText) (lexFrom .block off k) sp s = (.ok (sp, (lexFrom .block off k).head?), t) ∧
      t.toks = (lexFrom .block off k).tail ∧ t.stack = s.stack := by
  cases e : lexFrom .block off k with
  | nil => exact ⟨_, rfl, rfl, rfl⟩
  | cons x L =>
      have := hk.notText off x L e
      unfold untilLoop
      rw [P.bind_def]
      simp only [P.modify, this, Bool.not_false, if_true]
      exact ⟨_, rfl, rfl, rfl⟩

theorem piece_text {pre w k : Str} (hne : w ≠ []) (hw : clearOf openers w k = true) (hk : Opens k) (hsrc : E.src = pre ++ (w ++ k)) :
    Piece E pre w k fun x => ∃ t : Text, x = .text t ∧ t.asStr = some w := by
  intro s hs
  have hrun := clear_block hw
  cases hrun with
  | nil => exact absurd rfl hne
  | @cons c w h hr =>
      have hmode : ∀ c, nextMode .block (blockTxt c) = .block := by intro c; unfold blockTxt; split <;> rfl
      have e := lexFrom_tok1 (blen pre) h
      rw [hmode] at e
      obtain ⟨t, h1, h2, h3⟩ := until_run (stop := fun t => !t.isText) hmode (by intro c sp; unfold blockTxt; split <;> rfl) k w
        (blen pre + c.utf8Size) (blen pre)
        { s with next := none, toks := lexFrom .block (blen pre + c.utf8Size) (w ++ k),
                 line := if Token.isNewline ⟨blockTxt c, ⟨blen pre, blen pre + c.utf8Size⟩⟩ then s.line + 1 else s.line } hr
      obtain ⟨t', g1, g2, g3⟩ := untilLoop_opens hk (blen pre + c.utf8Size + blen w) ⟨blen pre, blen pre + c.utf8Size + blen w⟩ t
      refine ⟨_, _, _, { t' with next := (lexFrom .block (blen pre + c.utf8Size + blen w) k).head? }, hs.token e, ?_,
        ⟨⟨E.src, ⟨blen pre, blen pre + c.utf8Size + blen w⟩,
          ⟨(if Token.isNewline ⟨blockTxt c, ⟨blen pre, blen pre + c.utf8Size⟩⟩ then s.line + 1 else s.line), t'.line + 1⟩⟩, rfl, ?_⟩, ?_, ?_⟩
      · intro n
        rw [advance, P.bind_def]
        have hit : Token.isText ⟨blockTxt c, ⟨blen pre, blen pre + c.utf8Size⟩⟩ = true := by unfold blockTxt; split <;> rfl
        simp only [incLineIf, hit, if_true]
        rw [P.bind_def]
        simp only [lineRange]
        rw [P.bind_def]
        have hu : untilP (fun t => !t.isText) ⟨blen pre, blen pre + c.utf8Size⟩
            (if Token.isNewline ⟨blockTxt c, ⟨blen pre, blen pre + c.utf8Size⟩⟩ then
              { s with next := none, toks := lexFrom .block (blen pre + c.utf8Size) (w ++ k), line := s.line + 1 }
            else { s with next := none, toks := lexFrom .block (blen pre + c.utf8Size) (w ++ k) }) =
            (.ok (⟨blen pre, blen pre + c.utf8Size + blen w⟩, (lexFrom .block (blen pre + c.utf8Size + blen w) k).head?), t') := by
          unfold untilP
          rw [P.bind_def]
          simp only [P.get]
          rw [← g1, ← h3]
          split <;> rfl
        rw [hu]
        simp only
        rw [P.bind_def]
        simp only [P.modify]
        rw [P.bind_def]
        simp only [P.line]
        split <;> rfl
      · unfold Text.asStr
        rw [show blen pre + c.utf8Size + blen w = blen (pre ++ c :: w) by simp [Nat.add_assoc]]
        exact slice_mid hsrc
      · simp only [g3, h1]
      · unfold AtB PS.rem
        rw [show blen (pre ++ c :: w) = blen pre + c.utf8Size + blen w by simp [Nat.add_assoc]]
        simp only [g2]
        cases lexFrom .block (blen pre + c.utf8Size + blen w) k <;> rfl

theorem textUntil_run {m : Mode} {tk : Char → Kind} {stop : Token → Bool} (hm : ∀ c, nextMode m (tk c) = m)
    (hstop : ∀ c sp, stop ⟨tk c, sp⟩ = false) {w fw k : Str} {kf : Kind} (hr : TxtRun m tk (fw ++ k) w) (hfw : fw ≠ [])
    (hf : nextTok m (fw ++ k) = (kf, fw.length)) (hsf : ∀ sp, stop ⟨kf, sp⟩ = true) {a off : Nat} {s : PS}
    (hs : s.toks = lexFrom m off (w ++ (fw ++ k))) :
    ∃ (l : Span) (t : PS), textUntil E ⟨a, off⟩ stop s = (.ok (some
        (⟨E.src, ⟨E.src, ⟨off, off + blen w⟩, l⟩, ⟨a, off⟩, ⟨off + blen w, off + blen w + blen fw⟩⟩,
          ⟨kf, ⟨off + blen w, off + blen w + blen fw⟩⟩)), t) ∧
      t.stack = s.stack ∧ t.next = s.next ∧ t.toks = lexFrom (nextMode m kf) (off + blen w + blen fw) k := by
  obtain ⟨t, h1, h2, h3⟩ := until_run hm hstop (fw ++ k) w off off s hr
  rw [lexFrom_tok _ hfw hf] at h3
  refine ⟨⟨s.line, (if Token.isNewline ⟨kf, ⟨off + blen w, off + blen w + blen fw⟩⟩ then t.line + 1 else t.line) + 1⟩, { t with
    toks := lexFrom (nextMode m kf) (off + blen w + blen fw) k
    line := if Token.isNewline ⟨kf, ⟨off + blen w, off + blen w + blen fw⟩⟩ then t.line + 1 else t.line }, ?_, h1, h2, rfl⟩
  unfold textUntil
  rw [P.bind_def]
  simp only [lineRange]
  rw [P.bind_def]
  have hu : untilP stop ⟨off, off⟩ s = (.ok (⟨off, off + blen w⟩, some ⟨kf, ⟨off + blen w, off + blen w + blen fw⟩⟩), { t with
      toks := lexFrom (nextMode m kf) (off + blen w + blen fw) k
      line := if Token.isNewline ⟨kf, ⟨off + blen w, off + blen w + blen fw⟩⟩ then t.line + 1 else t.line }) := by
    unfold untilP
    rw [P.bind_def]
    simp only [P.get]
    rw [hs, h3, untilLoop, P.bind_def]
    simp only [P.modify, hsf, if_true]
    rfl
  rw [hu]
  rfl

/-- A piece read by `textUntil`. -/
theorem piece_until {m : Mode} {tk : Char → Kind} {kf : Kind} (hm : ∀ c, nextMode m (tk c) = m)
    (hstop : ∀ c sp, ((⟨tk c, sp⟩ : Token).kind == kf) = false) (hmf : nextMode m kf = .block)
    {ow w fw k pre : Str} {ko : Kind} (how : ow ≠ []) (ho : nextTok .block (ow ++ (w ++ (fw ++ k))) = (ko, ow.length))
    (hmo : nextMode .block ko = m) (hr : TxtRun m tk (fw ++ k) w) (hfw : fw ≠ [])
    (hf : nextTok m (fw ++ k) = (kf, fw.length)) (hsrc : E.src = pre ++ ((ow ++ (w ++ fw)) ++ k)) (mk : TextBlock → Node)
    (hadv : ∀ n sp s tb c t, textUntil E sp (fun t => t.kind == kf) s = (.ok (some (tb, c)), t) →
      advance E (n + 1) ⟨ko, sp⟩ s = (.ok (some (mk tb)), t)) :
    Piece E pre (ow ++ (w ++ fw)) k fun x => ∃ t : TextBlock, x = mk t ∧ t.asStr = some (ow ++ (w ++ fw)) ∧ t.text.asStr = some w := by
  intro s hs
  have e : (ow ++ (w ++ fw)) ++ k = ow ++ (w ++ (fw ++ k)) := by simp
  rw [e] at hs
  have e1 := lexFrom_tok (blen pre) how ho
  rw [hmo] at e1
  obtain ⟨l, t, h1, h2, h3, h4⟩ := textUntil_run E (stop := fun t => t.kind == kf) hm hstop hr hfw hf (by intro sp; simp)
    (a := blen pre) (off := blen pre + blen ow)
    (s := { s with next := none, toks := lexFrom m (blen pre + blen ow) (w ++ (fw ++ k)) }) rfl
  refine ⟨_, _, mk _, t, hs.token e1, fun n => hadv n _ _ _ _ _ h1, ⟨_, rfl, ?_, ?_⟩, h2, ?_⟩
  · refine slice_eq hsrc rfl ?_
    simp [Nat.add_assoc]
  · refine slice_eq (a := pre ++ ow) (c := fw ++ k) ?_ (by simp) (by simp [Nat.add_assoc])
    rw [hsrc]; simp
  · unfold AtB PS.rem
    rw [h3, h4, hmf]
    simp [Nat.add_assoc]

theorem piece_comment {pre w k : Str} (h : clearOf [c!"}}"] w c!"}}" = true) (hw : startsWith w c!"--" = false)
    (hsrc : E.src = pre ++ (commentText w ++ k)) :
    Piece E pre (commentText w) k fun x => ∃ t : TextBlock, x = .comment t ∧ t.asStr = some (commentText w) ∧ t.text.asStr = some w := by
  refine piece_until E (m := .comment) (tk := commentTxt) (kf := .comment .fin) (by intro c; unfold commentTxt; split <;> rfl)
    (by intro c sp; unfold commentTxt; split <;> rfl) rfl (ow := c!"{{!") (fw := c!"}}") (ko := .block .startComment) (by simp) ?_ rfl ?_ (by simp)
    (tok_commentFin k) hsrc .comment ?_
  · refine tok_comment ?_
    cases w with
    | nil => rfl
    | cons c w =>
        cases w with
        | nil =>
            by_cases hc : c = '-'
            · subst hc; rfl
            · simp [startsWith, hc]
        | cons d w => simpa [startsWith] using hw
  · exact clear_comment (clearOf_append (n := 2) (by simp) (by simp) k h)
  · intro n sp s tb c t ht
    have : advance E (n + 1) ⟨.block .startComment, sp⟩ s = (do let x ← commentP E sp; pure (some x)) s := by rw [advance]; rfl
    rw [this, P.bind_def]
    unfold commentP
    rw [P.bind_def, ht]
    rfl

theorem piece_long {pre w k : Str} (h : clearOf [c!"--}}"] w c!"--}}" = true) (hsrc : E.src = pre ++ (longCommentText w ++ k)) :
    Piece E pre (longCommentText w) k fun x => ∃ t : TextBlock, x = .rawComment t ∧ t.asStr = some (longCommentText w) ∧ t.text.asStr = some w := by
  refine piece_until E (m := .rawComment) (tk := longTxt) (kf := .rawComment .fin) (by intro c; unfold longTxt; split <;> rfl)
    (by intro c sp; unfold longTxt; split <;> rfl) rfl (ow := c!"{{!--") (fw := c!"--}}") (ko := .block .startRawComment) (by simp)
    (tok_longComment _) rfl (clear_long (clearOf_append (n := 3) (by simp) (by simp) k h)) (by simp) (tok_longFin k) hsrc .rawComment ?_
  intro n sp s tb c t ht
  have : advance E (n + 1) ⟨.block .startRawComment, sp⟩ s = (do let x ← rawComment E sp; pure (some x)) s := by rw [advance]; rfl
  rw [this, P.bind_def]
  unfold rawComment
  rw [P.bind_def, ht]
  rfl

theorem dropLast_last {w : Str} {c : Char} (h : w.getLast? = some c) : w.dropLast ++ [c] = w := by
  obtain ⟨l, rfl⟩ := List.getLast?_eq_some_iff.1 h
  simp

theorem esc_split (w : Str) : escapedText w = (c!"\\{{" ++ brace (w.head? == some '{') '{') ++ (escInner w ++ escFin w) := by
  unfold escapedText escInner escFin
  simp only
  have ha : w = brace (w.head? == some '{') '{' ++ (if w.head? = some '{' then w.tail else w) := by
    cases w with
    | nil => rfl
    | cons c w =>
        by_cases h : c = '{'
        · subst h; rfl
        · simp [brace, h]
  generalize hA : (if w.head? = some '{' then w.tail else w) = a at ha ⊢
  have hb : a = (if a.getLast? = some '}' then a.dropLast else a) ++ brace (a.getLast? == some '}') '}' := by
    by_cases h : a.getLast? = some '}'
    · rw [if_pos h, h]; exact (dropLast_last h).symm
    · simp [brace, h]
  generalize hB : (if a.getLast? = some '}' then a.dropLast else a) = b at hb ⊢
  have hc : b = (if b.getLast? = some '~' then b.dropLast else b) ++ tilde (b.getLast? == some '~') := by
    by_cases h : b.getLast? = some '~'
    · rw [if_pos h, h]; exact (dropLast_last h).symm
    · simp [tilde, h]
  generalize (if b.getLast? = some '~' then b.dropLast else b) = d at hc ⊢
  conv => lhs; rw [ha, hb, hc]
  simp only [List.append_assoc]

theorem piece_escaped {pre w k : Str} (h : clearOf [c!"}}", c!"~}}"] (escInner w) (escFin w) = true) (hk : escCurly w = false → NotNext ['}'] k)
    (hsrc : E.src = pre ++ (escapedText w ++ k)) :
    Piece E pre (escapedText w) k fun x => ∃ t : TextBlock, x = .rawStatement t ∧ t.asStr = some (escapedText w) ∧ t.text.asStr = some (escInner w) := by
  have hl : 2 ≤ (escFin w).length := by unfold escFin; simp only [List.length_append]; simp; omega
  have hd : ∀ c r, escInner w ++ (escFin w ++ k) = c :: r → (w.head? == some '{') = false → c ≠ '{' := by
    intro c r e hh
    have := congrArg (· ++ k) (esc_split w)
    rw [hh] at this
    simp only [escapedText, brace, Bool.false_eq_true, if_false, List.append_nil, List.append_assoc] at this
    have := List.append_cancel_left this
    rw [e] at this
    cases w with
    | nil => simp at this; rw [← this.1]; decide
    | cons d w => simp at this hh; rw [← this.1]; exact hh
  rw [esc_split w] at hsrc ⊢
  refine piece_until E (m := .rawStatement) (tk := escTxt) (kf := .rawStatement .fin) (by intro c; unfold escTxt; split <;> rfl)
    (by intro c sp; unfold escTxt; split <;> rfl) rfl (ow := c!"\\{{" ++ brace (w.head? == some '{') '{') (fw := escFin w) (ko := .block .startRawStatement) (by simp)
    ?_ rfl (clear_esc (clearOf_append (n := 2) (by simp) hl k h)) (by intro h; rw [h] at hl; simp at hl) ?_ hsrc .rawStatement ?_
  · cases hh : (w.head? == some '{') with
    | true => exact tok_escaped3 _
    | false => exact tok_escaped fun c r e => (by have := hd c r e hh; simpa using this)
  · unfold escFin
    exact tok_escFin _ _ fun hc => hk (by unfold escCurly; exact hc)
  intro n sp s tb c t ht
  have : advance E (n + 1) ⟨.block .startRawStatement, sp⟩ s = (do let x ← rawStatement E sp; pure (some x)) s := by rw [advance]; rfl
  rw [this, P.bind_def]
  unfold rawStatement
  rw [P.bind_def, ht]
  rfl

/-! ### Statements -/

theorem SPath.notAfterOpen {p : SPath} (h : p.ok = true) (rest : Str) : NotNext afterOpen (p.text ++ rest) := by
  obtain ⟨c, r, e, hc⟩ := SPath.first h
  refine NotNext.of_head e ?_
  rcases hc with hc | rfl | rfl
  · exact ident_notin hc (by decide)
  · decide
  · decide

theorem tildeAt_of {c X Y : Str} {x : Char} {n : Nat} (e : c = X ++ x :: Y) (hx : x.utf8Size = 1) (hn : n = blen X) :
    Block.tildeAt c n = some (x == '~') := by
  unfold Block.tildeAt
  have h1 : blen c > n := by subst e hn; simp; omega
  rw [if_pos h1, slice_eq (a := X) (b := [x]) (c := Y) (by rw [e]; simp) hn (by rw [hn]; simp [hx])]
  simp only [Option.map_some]
  by_cases h : x = '~'
  · subst h; rfl
  · simp [h]

theorem notAfterOpen_gt {p : SPath} (h : p.ok = true) {part : Bool} {gap : Str} (hg : gapOk part gap = true) (rest : Str) :
    NotNext afterOpen (gt part gap ++ (p.text ++ rest)) := by
  cases part with
  | false =>
      cases gap with
      | nil => exact SPath.notAfterOpen h rest
      | cons c gap =>
          simp [gapOk] at hg
          subst hg
          rintro c r e
          cases e; decide
  | true =>
      rintro c r e
      cases e; decide

theorem mark_head {tl : Tilde} (ht : tl.ok = true) (hb : tl.before = false) (c : Char) (hc : c ∉ [' ', '\t']) (r : Str) :
    tl.mark ≠ c :: r := by
  have := Tilde.flat ht
  intro e
  simp only [Tilde.mark, hb, tilde, Bool.false_eq_true, if_false, List.nil_append] at e
  rw [e] at this
  simp [Spec.flat] at this hc
  grind

theorem mark_before {tl : Tilde} (ht : tl.ok = true) (O R : Str) :
    Block.tildeAt (O ++ (tl.mark ++ R)) (blen O) = some tl.before ∨ (tl.before = false ∧ tl.mark = []) := by
  cases hb : tl.before with
  | true =>
      left
      exact tildeAt_of (X := O) (x := '~') (Y := tl.pad ++ R) (by simp [Tilde.mark, tilde, hb]) (by decide) rfl
  | false =>
      cases hm : tl.mark with
      | nil => exact .inr ⟨rfl, rfl⟩
      | cons c m =>
          left
          have hc : Spec.flat c = true := by
            have := Tilde.flat ht
            simp only [Tilde.mark, hb, tilde, Bool.false_eq_true, if_false, List.nil_append] at hm
            rw [hm] at this
            simp at this
            exact this.1
          simp only [Spec.flat, Bool.or_eq_true, beq_iff_eq] at hc
          have hc1 : c.utf8Size = 1 := by rcases hc with rfl | rfl <;> decide
          have hc2 : (c == '~') = false := by rcases hc with rfl | rfl <;> decide
          rw [tildeAt_of (X := O) (x := c) (Y := m ++ R) (by simp) hc1 rfl, hc2]

/-- The `~` before: what comes after the mark is not `~`. -/
theorem mark_tilde {tl : Tilde} (ht : tl.ok = true) (O : Str) {R : Str} {x : Char} {r : Str} (e : R = x :: r) (hx : x.utf8Size = 1) (hx' : x ≠ '~') :
    Block.tildeAt (O ++ (tl.mark ++ R)) (blen O) = some tl.before := by
  rcases mark_before ht O R with h | ⟨h1, h2⟩
  · exact h
  · rw [h2, h1, tildeAt_of (X := O) (x := x) (Y := r) (by simp [e]) hx rfl]
    simp [hx']

theorem mark_tilde_end {tl : Tilde} (ht : tl.ok = true) (O : Str) :
    Block.tildeAt (O ++ tl.mark) (blen O) = some tl.before := by
  rcases mark_before ht O [] with h | ⟨h1, h2⟩
  · simpa using h
  · rw [h2, h1]
    unfold Block.tildeAt
    rw [if_neg (by simp)]

theorem endsWith_last (w : Str) (c d : Char) : endsWith (w ++ [c]) [d] = (c == d) := by
  simp [endsWith, startsWith]

theorem mark_seen {tl : Tilde} (ht : tl.ok = true) (raw : Bool) :
    endsWith (c!"{{" ++ brace raw '{' ++ tl.mark) ['~'] = tl.seen.before := by
  unfold Tilde.mark Tilde.seen
  have hp := Tilde.flat ht
  rcases List.eq_nil_or_concat tl.pad with h | ⟨ini, c, h⟩
  · simp only [h]; cases raw <;> cases tl.before <;> rfl
  · rw [h] at hp ⊢
    have e : c!"{{" ++ brace raw '{' ++ (tilde tl.before ++ ini.concat c) = (c!"{{" ++ brace raw '{' ++ (tilde tl.before ++ ini)) ++ [c] := by simp
    rw [e, endsWith_last]
    have hc : c = ' ' ∨ c = '\t' := by simp [Spec.flat] at hp; exact hp.2
    have hne : (ini.concat c).isEmpty = false := by simp
    simp only [hne, Bool.and_false]
    rcases hc with rfl | rfl <;> decide

theorem mark_escaped {tl : Tilde} (ht : tl.ok = true) (raw : Bool) :
    startsWith (c!"{{" ++ brace raw '{' ++ tl.mark) c!"{{{" = raw := by
  cases raw with
  | true => simp [brace, startsWith]
  | false =>
      cases hb : tl.before with
      | true => simp [brace, startsWith, Tilde.mark, tilde, hb]
      | false =>
          have := mark_head ht hb '{' (by decide)
          cases hm : tl.mark with
          | nil => rfl
          | cons c m =>
              rw [hm] at this
              have hc : c ≠ '{' := by rintro rfl; exact this m rfl
              simp [brace, startsWith, hc]

theorem piece_stmt {pre k : Str} {raw part : Bool} {tl : Tilde} {p : SPath} {a : SArgs} (htl : tl.ok = true) (hg : gapOk part tl.gap = true) (hp : p.ok = true) (ha : a.ok = true)
    (hk : NotNext ['}'] k) (hsrc : E.src = pre ++ (stmtText raw part tl p a ++ k)) :
    Piece E pre (stmtText raw part tl p a) k fun x => ∃ c : Call, x = .statement c ∧ c.asStr = some (stmtText raw part tl p a) ∧
      TagRep part false (some p) a c ∧ c.isEscaped = some (!raw) ∧ TildeRep tl.seen (.statement c) := by
  intro s hs
  have hcl : Closer .call (tilde tl.after ++ brace raw '}' ++ c!"}}") k := by
    have := Closer.fin tl.after (if raw then 1 else 0) (r := k) (by split <;> omega) (fun _ => hk)
    cases raw <;> simpa [brace] using this
  have e : stmtText raw part tl p a ++ k = (c!"{{" ++ brace raw '{' ++ tl.mark) ++ (gt part tl.gap ++ (p.text ++ (a.text ++
    ((tilde tl.after ++ brace raw '}' ++ c!"}}") ++ k)))) := by simp [stmtText]
  rw [e] at hs
  have e1 := lexFrom_tok (blen pre) (by simp) (tok_stmt raw htl (notAfterOpen_gt hp hg (a.text ++ ((tilde tl.after ++ brace raw '}' ++ c!"}}") ++ k))))
  generalize hopn : c!"{{" ++ brace raw '{' ++ tl.mark = opn at hs e e1
  generalize hclo : tilde tl.after ++ brace raw '}' ++ c!"}}" = clo at hs hcl e e1
  rw [show nextMode .block (.block .startStatement) = .params from rfl, ← blen_append] at e1
  obtain ⟨c, t, h1, h2⟩ := call_run E part (Tilde.gapBlank htl) hp ha hcl (pre := pre ++ opn) ⟨blen pre, blen (pre ++ opn)⟩
    (s := { s with next := none, toks := lexFrom .params (blen (pre ++ opn)) (gt part tl.gap ++ (p.text ++ (a.text ++ (clo ++ k)))) })
    (by rw [hsrc, e]; simp) rfl
  have htxt : stmtText raw part tl p a = opn ++ (gt part tl.gap ++ (p.text ++ (a.text ++ clo))) := by
    rw [stmtText, hopn, hclo]
  have hopen : c.openStr = some opn := by
    unfold Call.openStr
    rw [h2.src, h2.opn]
    exact slice_eq (a := pre) (c := gt part tl.gap ++ (p.text ++ (a.text ++ (clo ++ k)))) (by rw [hsrc, htxt]; simp) rfl (by simp)
  have hclose : c.closeStr = some clo := by
    unfold Call.closeStr
    rw [h2.src, h2.clo]
    exact slice_eq (a := pre ++ (opn ++ (gt part tl.gap ++ (p.text ++ a.text)))) (c := k) (by rw [hsrc, htxt]; simp) (by simp [Nat.add_assoc]) (by simp [Nat.add_assoc])
  refine ⟨_, _, _, t, hs.token e1, ?_, ⟨c, rfl, ?_, h2.rep, ?_, ?_, ?_⟩, h2.rel.stack, ?_⟩
  · intro n
    have : ∀ s', advance E (n + 1) ⟨.block .startStatement, ⟨blen pre, blen (pre ++ opn)⟩⟩ s' =
      (do let x ← callParse E ⟨blen pre, blen (pre ++ opn)⟩; pure (some (Node.statement x))) s' := by intro s'; rw [advance]; rfl
    rw [this, P.bind_def, h1]
    rfl
  · unfold Call.asStr
    rw [h2.src, h2.clo, h2.opn]
    exact slice_eq hsrc rfl (by rw [htxt]; simp [Nat.add_assoc])
  · unfold Call.isEscaped
    rw [hopen, ← hopn]
    simp only [Option.map_some, mark_escaped htl]
  · simp only [Node.trimBefore, Call.trimBefore, hopen, ← hopn]
    simp only [Option.map_some, mark_seen htl]
  · simp only [Node.trimAfter, Call.trimAfter, hclose, ← hclo, Tilde.seen]
    cases raw <;> cases tl.after <;> rfl
  · unfold AtB PS.rem
    rw [h2.rel.next, h2.toks, htxt]
    simp [Nat.add_assoc]

omit [Host] in
theorem notAfterOpen_dyn (q : SPath) (b : SArgs) {part : Bool} {gap : Str} (hg : gapOk part gap = true) (rest : Str) :
    NotNext afterOpen (gt part gap ++ ((SExpr.sub q b).text ++ rest)) := by
  have ed : (SExpr.sub q b).text = '(' :: (q.text ++ (b.text ++ [')'])) := by rw [SExpr.text]
  cases part with
  | false =>
      cases gap with
      | nil => rw [show gt false [] = [] from rfl, List.nil_append]; exact NotNext.of_head ed (by decide)
      | cons c gap =>
          simp [gapOk] at hg
          subst hg
          rintro c r e
          cases e; decide
  | true =>
      rintro c r e
      cases e; decide

/-- A tag whose target is computed. -/
theorem piece_dyn {pre k : Str} {raw part : Bool} {tl : Tilde} {q : SPath} {b a : SArgs} (htl : tl.ok = true) (hg : gapOk part tl.gap = true) (hqb : (SExpr.sub q b).ok = true) (ha : a.ok = true)
    (hk : NotNext ['}'] k) (hsrc : E.src = pre ++ (dynText raw part tl q b a ++ k)) :
    Piece E pre (dynText raw part tl q b a) k fun x => ∃ c : Call, x = .statement c ∧ c.asStr = some (dynText raw part tl q b a) ∧
      c.isPartial = part ∧ c.conditional = false ∧ (∃ d, c.target = .subExpr d ∧ ExprRep (.sub q b) (.subExpr d)) ∧ ArgsRep a c.args c.params ∧ c.isEscaped = some (!raw) ∧ TildeRep tl.seen (.statement c) := by
  intro s hs
  have hcl : Closer .call (tilde tl.after ++ brace raw '}' ++ c!"}}") k := by
    have := Closer.fin tl.after (if raw then 1 else 0) (r := k) (by split <;> omega) (fun _ => hk)
    cases raw <;> simpa [brace] using this
  have e : dynText raw part tl q b a ++ k = (c!"{{" ++ brace raw '{' ++ tl.mark) ++ (gt part tl.gap ++ ((SExpr.sub q b).text ++ (a.text ++
    ((tilde tl.after ++ brace raw '}' ++ c!"}}") ++ k)))) := by simp [dynText]
  rw [e] at hs
  have e1 := lexFrom_tok (blen pre) (by simp) (tok_stmt raw htl (notAfterOpen_dyn q b hg (a.text ++ ((tilde tl.after ++ brace raw '}' ++ c!"}}") ++ k))))
  generalize hopn : c!"{{" ++ brace raw '{' ++ tl.mark = opn at hs e e1
  generalize hclo : tilde tl.after ++ brace raw '}' ++ c!"}}" = clo at hs hcl e e1
  rw [show nextMode .block (.block .startStatement) = .params from rfl, ← blen_append] at e1
  obtain ⟨c, t, h1, h2⟩ := call_dyn E part (Tilde.gapBlank htl) hqb ha hcl (pre := pre ++ opn) ⟨blen pre, blen (pre ++ opn)⟩
    (s := { s with next := none, toks := lexFrom .params (blen (pre ++ opn)) (gt part tl.gap ++ ((SExpr.sub q b).text ++ (a.text ++ (clo ++ k)))) })
    (by rw [hsrc, e]; simp) rfl
  have htxt : dynText raw part tl q b a = opn ++ (gt part tl.gap ++ ((SExpr.sub q b).text ++ (a.text ++ clo))) := by
    rw [dynText, hopn, hclo]
  have hopen : c.openStr = some opn := by
    unfold Call.openStr
    rw [h2.src, h2.opn]
    exact slice_eq (a := pre) (c := gt part tl.gap ++ ((SExpr.sub q b).text ++ (a.text ++ (clo ++ k)))) (by rw [hsrc, htxt]; simp) rfl (by simp)
  have hclose : c.closeStr = some clo := by
    unfold Call.closeStr
    rw [h2.src, h2.clo]
    exact slice_eq (a := pre ++ (opn ++ (gt part tl.gap ++ ((SExpr.sub q b).text ++ a.text)))) (c := k) (by rw [hsrc, htxt]; simp) (by simp [Nat.add_assoc]) (by simp [Nat.add_assoc])
  refine ⟨_, _, _, t, hs.token e1, ?_, ⟨c, rfl, ?_, h2.isPartial, h2.conditional, h2.target, h2.args, ?_, ?_, ?_⟩, h2.rel.stack, ?_⟩
  · intro n
    have : ∀ s', advance E (n + 1) ⟨.block .startStatement, ⟨blen pre, blen (pre ++ opn)⟩⟩ s' =
      (do let x ← callParse E ⟨blen pre, blen (pre ++ opn)⟩; pure (some (Node.statement x))) s' := by intro s'; rw [advance]; rfl
    rw [this, P.bind_def, h1]
    rfl
  · unfold Call.asStr
    rw [h2.src, h2.clo, h2.opn]
    exact slice_eq hsrc rfl (by rw [htxt]; simp [Nat.add_assoc])
  · unfold Call.isEscaped
    rw [hopen, ← hopn]
    simp only [Option.map_some, mark_escaped htl]
  · simp only [Node.trimBefore, Call.trimBefore, hopen, ← hopn]
    simp only [Option.map_some, mark_seen htl]
  · simp only [Node.trimAfter, Call.trimAfter, hclose, ← hclo, Tilde.seen]
    cases raw <;> cases tl.after <;> rfl
  · unfold AtB PS.rem
    rw [h2.rel.next, h2.toks, htxt]
    simp [Nat.add_assoc]

/-- An `{{else ..}}` tag. -/
theorem piece_else {pre k : Str} {tl : Tilde} (htl : tl.ok = true) {cond : Option (SPath × SArgs)} (hcond : condOk tl.gap cond = true)
    (hk : NotNext ['}'] k) (hsrc : E.src = pre ++ (elseText tl cond ++ k)) :
    Piece E pre (elseText tl cond) k fun x => ∃ c : Call, x = .statement c ∧ TagRep false true (cond.map (·.1)) (condArgs cond) c ∧
      c.opn = ⟨blen pre, blen (pre ++ (c!"{{" ++ tl.mark))⟩ ∧ c.trimAfter = some tl.after := by
  intro s hs
  have hcl : Closer .call (tilde tl.after ++ c!"}}") k := by
    have := Closer.fin tl.after 0 (r := k) (by omega) (fun _ => hk)
    simpa using this
  have e : elseText tl cond ++ k = (c!"{{" ++ tl.mark) ++ (c!"else" ++ (condText tl cond ++
    ((tilde tl.after ++ c!"}}") ++ k))) := by simp [elseText]
  rw [e] at hs
  have ht := tok_stmt (rest := c!"else" ++ (condText tl cond ++ ((tilde tl.after ++ c!"}}") ++ k))) false htl (by
    rintro c r h; cases h; decide)
  have hb : c!"{{" ++ brace false '{' ++ tl.mark = c!"{{" ++ tl.mark := rfl
  rw [hb] at ht
  have e1 := lexFrom_tok (blen pre) (by simp) ht
  generalize hopn : c!"{{" ++ tl.mark = opn at hs e e1
  generalize hclo : tilde tl.after ++ c!"}}" = clo at hs hcl e e1
  rw [show nextMode .block (.block .startStatement) = .params from rfl, ← blen_append] at e1
  obtain ⟨c, t, h1, h2⟩ := else_run E htl cond hcond hcl (pre := pre ++ opn) ⟨blen pre, blen (pre ++ opn)⟩
    (s := { s with next := none, toks := lexFrom .params (blen (pre ++ opn)) (c!"else" ++ (condText tl cond ++ (clo ++ k))) })
    (by rw [hsrc, e]; simp) rfl
  have htxt : elseText tl cond = opn ++ (c!"else" ++ (condText tl cond ++ clo)) := by rw [elseText, hopn, hclo]
  have hclose : c.closeStr = some clo := by
    unfold Call.closeStr
    rw [h2.src, h2.clo]
    exact slice_eq (a := pre ++ (opn ++ (c!"else" ++ condText tl cond))) (c := k) (by rw [hsrc, htxt]; simp) (by simp [Nat.add_assoc]) (by simp [Nat.add_assoc])
  refine ⟨_, _, _, t, hs.token e1, ?_, ⟨c, rfl, h2.rep, h2.opn, ?_⟩, h2.rel.stack, ?_⟩
  · intro n
    have : ∀ s', advance E (n + 1) ⟨.block .startStatement, ⟨blen pre, blen (pre ++ opn)⟩⟩ s' =
      (do let x ← callParse E ⟨blen pre, blen (pre ++ opn)⟩; pure (some (Node.statement x))) s' := by intro s'; rw [advance]; rfl
    rw [this, P.bind_def, h1]
    rfl
  · simp only [Call.trimAfter, hclose, ← hclo]
    cases tl.after <;> rfl
  · unfold AtB PS.rem
    rw [h2.rel.next, h2.toks, htxt]
    simp [Nat.add_assoc]

/-! ### Links -/

/-- The escapes in a field. -/
def marks : Str → LinkFlags → LinkFlags
  | '\\' :: 'n' :: w, f => marks w { f with newline := true }
  | '\\' :: '|' :: w, f => marks w { f with pipe := true }
  | '\\' :: _ :: w, f => marks w { f with bracket := true }
  | _ :: w, f => marks w f
  | [], f => f

/-- How a field goes on. -/
inductive FieldParts : Str → Prop where
  | nil : FieldParts []
  | esc {c : Char} {w : Str} (hc : c = 'n' ∨ c = '|' ∨ c = ']') (hw : FieldParts w) : FieldParts ('\\' :: c :: w)
  | run {u w : Str} (hne : u ≠ []) (hu : ∀ x ∈ u, linkChar x = true ∧ x ≠ '\n') (hw : FieldParts w) (hs : ∀ c r, w = c :: r → linkChar c = false) : FieldParts (u ++ w)

theorem fieldParts : ∀ {w : Str}, fieldOk w = true → FieldParts w
  | [], _ => .nil
  | ['\\'], h => by simp [fieldOk] at h
  | '\\' :: c :: w, h => by
      rw [fieldOk] at h
      simp only [Bool.and_eq_true, Bool.or_eq_true, beq_iff_eq] at h
      exact .esc (by rcases h.1 with (h | h) | h <;> simp [h]) (fieldParts h.2)
  | c :: w, h => by
      by_cases hb : c = '\\'
      · subst hb
        cases w with
        | nil => simp [fieldOk] at h
        | cons d w =>
            rw [fieldOk] at h
            simp only [Bool.and_eq_true, Bool.or_eq_true, beq_iff_eq] at h
            exact .esc (by rcases h.1 with (h | h) | h <;> simp [h]) (fieldParts h.2)
      · rw [fieldOk] at h
        · simp only [Bool.and_eq_true, bne_iff_ne, ne_eq] at h
          obtain ⟨⟨⟨⟨h1, h2⟩, h3⟩, h4⟩, h5⟩ := h
          have hc : linkChar c = true ∧ c ≠ '\n' := ⟨by simp [linkChar, h1, h2, h3], h4⟩
          cases fieldParts h5 with
          | nil => exact .run (u := [c]) (by simp) (by simpa using hc) .nil (by rintro _ _ ⟨⟩)
          | esc hc' hw => exact .run (u := [c]) (by simp) (by simpa using hc) (.esc hc' hw) (by rintro _ _ e; cases e; decide)
          | @run u w hne hu hw hs =>
              rw [← List.cons_append]
              refine .run (by simp) ?_ hw hs
              intro x hx
              rcases List.mem_cons.1 hx with rfl | hx
              · exact hc
              · exact hu x hx
        · intro c' w' h1 h2; exact hb h1

theorem marks_run {u : Str} (hu : ∀ x ∈ u, linkChar x = true ∧ x ≠ '\n') (w : Str) (f : LinkFlags) : marks (u ++ w) f = marks w f := by
  induction u with
  | nil => rfl
  | cons c u ih =>
      have hc : c ≠ '\\' := by rintro rfl; have := (hu '\\' (by simp)).1; revert this; decide
      have hu' : ∀ x ∈ u, linkChar x = true ∧ x ≠ '\n' := fun x hx => hu x (by simp [hx])
      rw [List.cons_append]
      cases hh : u ++ w with
      | nil => rw [hh] at ih; rw [← ih hu', marks] <;> first | rfl | (intros; simp_all)
      | cons d v => rw [hh] at ih; rw [← ih hu', marks] <;> first | rfl | (intros; simp_all)

theorem fieldValue_run {u : Str} (hu : ∀ x ∈ u, linkChar x = true ∧ x ≠ '\n') (w : Str) : fieldValue (u ++ w) = u ++ fieldValue w := by
  induction u with
  | nil => rfl
  | cons c u ih =>
      have hc : c ≠ '\\' := by rintro rfl; have := (hu '\\' (by simp)).1; revert this; decide
      have hu' : ∀ x ∈ u, linkChar x = true ∧ x ≠ '\n' := fun x hx => hu x (by simp [hx])
      rw [List.cons_append, fieldValue, ih hu', List.cons_append] <;> (intros; simp_all)

/-- At least these. -/
def LinkFlags.le (f g : LinkFlags) : Prop := (f.newline = true → g.newline = true) ∧ (f.pipe = true → g.pipe = true) ∧ (f.bracket = true → g.bracket = true)

theorem le_marks {w : Str} (hw : FieldParts w) : ∀ f : LinkFlags, LinkFlags.le f (marks w f) := by
  induction hw with
  | nil => intro f; exact ⟨id, id, id⟩
  | esc hc hw ih =>
      intro f
      rcases hc with rfl | rfl | rfl
      · have := ih { f with newline := true }; rw [marks]; exact ⟨fun _ => this.1 rfl, this.2.1, this.2.2⟩
      · have := ih { f with pipe := true }; rw [marks]; exact ⟨this.1, fun _ => this.2.1 rfl, this.2.2⟩
      · have := ih { f with bracket := true }
        rw [marks] <;> first | exact ⟨this.1, this.2.1, fun _ => this.2.2 rfl⟩ | (intro h; cases h)
  | run hne hu hw hs ih => intro f; rw [marks_run hu]; exact ih f

theorem replace2_run {a b : Char} {r u w : Str} (h : ∀ x ∈ u, x ≠ a) : replace2 a b r (u ++ w) = u ++ replace2 a b r w := by
  induction u with
  | nil => rfl
  | cons c u ih => rw [List.cons_append, replace2_skip (h c (by simp)), ih (fun x hx => h x (by simp [hx]))]; rfl

theorem intoOwned_run {u : Str} (hu : ∀ x ∈ u, x ≠ '\\') (w : Str) (g : LinkFlags) : g.intoOwned (u ++ w) = u ++ g.intoOwned w := by
  obtain ⟨a, b, c⟩ := g
  unfold LinkFlags.intoOwned
  cases a <;> cases b <;> cases c <;> simp only [if_true, Bool.false_eq_true, if_false, replace2_run hu]

theorem intoOwned_eq {w : Str} (hw : FieldParts w) : ∀ (f g : LinkFlags), LinkFlags.le (marks w f) g → g.intoOwned w = fieldValue w := by
  induction hw with
  | nil => intro f g _; obtain ⟨a, b, c⟩ := g; cases a <;> cases b <;> cases c <;> rfl
  | @esc c w hc hw ih =>
      intro f g hg
      have hrep : ∀ (a b : Char) (r v : Str), a ≠ b → replace2 a b r (a :: b :: v) = r ++ replace2 a b r v := by
        intro a b r v _; rw [replace2]; simp
      have hoth : ∀ (x y b : Char) (r v : Str), y ≠ b → y ≠ x → replace2 x b r (x :: y :: v) = x :: y :: replace2 x b r v := by
        intro x y b r v h1 h2
        rw [replace2_keep (by simpa using h1), replace2_skip h2]
      rcases hc with rfl | rfl | rfl
      · rw [marks] at hg
        have h1 : g.newline = true := hg.1 ((le_marks hw _).1 rfl)
        have ih := ih _ g hg
        rw [fieldValue, ← ih]
        unfold LinkFlags.intoOwned
        simp only [h1, if_true]
        rw [hrep _ _ _ _ (by decide)]
        have hn : '\n' ≠ '\\' := by decide
        cases g.pipe <;> cases g.bracket <;> simp only [if_true, Bool.false_eq_true, if_false, List.singleton_append, replace2_skip hn]
      · rw [marks] at hg
        have h1 : g.pipe = true := hg.2.1 ((le_marks hw _).2.1 rfl)
        have ih := ih _ g hg
        rw [show fieldValue ('\\' :: '|' :: w) = '|' :: fieldValue w by rw [fieldValue]; decide, ← ih]
        unfold LinkFlags.intoOwned
        simp only [h1, if_true]
        have hn : '|' ≠ '\\' := by decide
        cases g.newline <;> cases g.bracket <;>
          simp only [if_true, Bool.false_eq_true, if_false, hoth _ _ _ _ _ (show '|' ≠ 'n' by decide) hn, hrep _ _ _ _ (show '\\' ≠ '|' by decide),
            List.singleton_append, replace2_skip hn]
      · rw [marks] at hg
        · have h1 : g.bracket = true := hg.2.2 ((le_marks hw _).2.2 rfl)
          have ih := ih _ g hg
          rw [show fieldValue ('\\' :: ']' :: w) = ']' :: fieldValue w by rw [fieldValue]; decide, ← ih]
          unfold LinkFlags.intoOwned
          simp only [h1, if_true]
          have hn : ']' ≠ '\\' := by decide
          cases g.newline <;> cases g.pipe <;>
            simp only [if_true, Bool.false_eq_true, if_false, hoth _ _ _ _ _ (show ']' ≠ 'n' by decide) hn, hoth _ _ _ _ _ (show ']' ≠ '|' by decide) hn,
              hrep _ _ _ _ (show '\\' ≠ ']' by decide), List.singleton_append, replace2_skip hn]
        · decide
        · decide
  | @run u w hne hu hw hs ih =>
      intro f g hg
      rw [marks_run hu] at hg
      rw [fieldValue_run hu, ← ih f g hg]
      exact intoOwned_run (fun x hx => by rintro rfl; have := (hu '\\' hx).1; revert this; decide) w g

/-- The value of a field, and when it is the text as it stands. -/
theorem field_value {w : Str} (hw : FieldParts w) :
    ((marks w ⟨false, false, false⟩).any = true → (marks w ⟨false, false, false⟩).intoOwned w = fieldValue w) ∧
    ((marks w ⟨false, false, false⟩).any = false → fieldValue w = w) := by
  have h := intoOwned_eq hw ⟨false, false, false⟩ _ ⟨id, id, id⟩
  refine ⟨fun _ => h, fun h' => ?_⟩
  rw [← h]
  unfold LinkFlags.any at h'
  simp only [Bool.or_eq_false_iff] at h'
  unfold LinkFlags.intoOwned
  simp [h']

/-- Where the last text of a field ends: at the end of the field, if it has no escapes. -/
def lastText (off d : Nat) (w : Str) (x : Nat) : Prop := (marks w ⟨false, false, false⟩).any = false → x = if w = [] then d else off + blen w

theorem marks_false : ∀ {w : Str}, FieldParts w → ∀ f, (marks w f).any = false → f.any = false := by
  intro w hw f h
  have := le_marks hw f
  obtain ⟨h1, h2, h3⟩ := this
  unfold LinkFlags.any at *
  simp only [Bool.or_eq_false_iff] at h ⊢
  obtain ⟨⟨g1, g2⟩, g3⟩ := h
  refine ⟨⟨?_, ?_⟩, ?_⟩
  · cases e : f.newline with
    | false => rfl
    | true => rw [h1 e] at g1; cases g1
  · cases e : f.pipe with
    | false => rfl
    | true => rw [h2 e] at g2; cases g2
  · cases e : f.bracket with
    | false => rfl
    | true => rw [h3 e] at g3; cases g3

theorem marks_esc {c : Char} {w : Str} (hw : FieldParts w) : (marks ('\\' :: c :: w) ⟨false, false, false⟩).any = true := by
  cases h : (marks ('\\' :: c :: w) ⟨false, false, false⟩).any with
  | true => rfl
  | false =>
      exfalso
      by_cases h1 : c = 'n'
      · subst h1; rw [marks] at h; have := marks_false hw _ h; cases this
      by_cases h2 : c = '|'
      · subst h2; rw [marks] at h; have := marks_false hw _ h; cases this
      rw [marks] at h
      · have := marks_false hw _ h; cases this
      · exact h1
      · exact h2

theorem marks_clean {w : Str} (hw : FieldParts w) (h : (marks w ⟨false, false, false⟩).any = false) : w = [] ∨ ∀ x ∈ w, linkChar x = true ∧ x ≠ '\n' := by
  cases hw with
  | nil => exact .inl rfl
  | esc hc hw => rw [marks_esc hw] at h; cases h
  | @run u w hne hu hw hs =>
      cases hw with
      | nil => rw [List.append_nil]; exact .inr hu
      | esc hc hw => rw [marks_run hu, marks_esc hw] at h; cases h
      | @run u' w' hne' hu' hw' hs' =>
          cases u' with
          | nil => exact absurd rfl hne'
          | cons c u' => have := hs c (u' ++ w') rfl; rw [(hu' c (by simp)).1] at this; cases this

theorem href_skip {w rest : Str} (hw : FieldParts w) (hr : ∀ c r, rest = c :: r → linkChar c = false) : ∀ {off : Nat} {l : Link} (f : LinkFlags) (s : PS),
    ∃ (t : PS) (x : Nat), t.stack = s.stack ∧ t.next = s.next ∧ lastText off l.hrefSpan.stop w x ∧ linkHref E (lexFrom .link off (w ++ rest)) l f s =
      linkHref E (lexFrom .link (off + blen w) rest) { l with hrefSpan := ⟨l.hrefSpan.start, x⟩ } (marks w f) t := by
  induction hw with
  | nil => intro off l f s; exact ⟨s, l.hrefSpan.stop, rfl, rfl, fun _ => rfl, rfl⟩
  | @esc c w hc hw ih =>
      intro off l f s
      have hb : ∀ d : Char, d = 'n' ∨ d = '|' ∨ d = ']' → off + 2 + blen w = off + blen ('\\' :: d :: w) := by
        rintro d (rfl | rfl | rfl) <;> simp [blen_cons, show ('\\' : Char).utf8Size = 1 by decide, show ('n' : Char).utf8Size = 1 by decide,
          show ('|' : Char).utf8Size = 1 by decide, show (']' : Char).utf8Size = 1 by decide] <;> omega
      have hlast : ∀ x, lastText off l.hrefSpan.stop ('\\' :: c :: w) x := fun x h => by rw [marks_esc hw] at h; cases h
      have hbb := hb c hc
      rcases hc with rfl | rfl | rfl
      · have e := lexFrom_tok (m := .link) off (w := c!"\\n") (by simp) (tok_linkEscN (w ++ rest))
        obtain ⟨t, x, a1, a2, a3, a4⟩ := ih (off := off + 2) (l := l) { f with newline := true }
          { s with toks := lexFrom .link (off + 2) (w ++ rest), byte := off + 2 - 1 }
        refine ⟨t, x, a1, a2, hlast x, ?_⟩
        rw [show '\\' :: 'n' :: w ++ rest = c!"\\n" ++ (w ++ rest) from rfl, e, linkHref, P.bind_def]
        simp only [P.modify]
        rw [P.bind_def]
        simp only [setByte]
        rw [marks, ← hbb]
        exact a4
      · have e := lexFrom_tok (m := .link) off (w := c!"\\|") (by simp) (tok_linkEscP (w ++ rest))
        obtain ⟨t, x, a1, a2, a3, a4⟩ := ih (off := off + 2) (l := l) { f with pipe := true }
          { s with toks := lexFrom .link (off + 2) (w ++ rest), byte := off + 2 - 1 }
        refine ⟨t, x, a1, a2, hlast x, ?_⟩
        rw [show '\\' :: '|' :: w ++ rest = c!"\\|" ++ (w ++ rest) from rfl, e, linkHref, P.bind_def]
        simp only [P.modify]
        rw [P.bind_def]
        simp only [setByte]
        rw [marks, ← hbb]
        exact a4
      · have e := lexFrom_tok (m := .link) off (w := c!"\\]") (by simp) (tok_linkEscB (w ++ rest))
        obtain ⟨t, x, a1, a2, a3, a4⟩ := ih (off := off + 2) (l := l) { f with bracket := true }
          { s with toks := lexFrom .link (off + 2) (w ++ rest), byte := off + 2 - 1 }
        refine ⟨t, x, a1, a2, hlast x, ?_⟩
        rw [show '\\' :: ']' :: w ++ rest = c!"\\]" ++ (w ++ rest) from rfl, e, linkHref, P.bind_def]
        simp only [P.modify]
        rw [P.bind_def]
        simp only [setByte]
        rw [marks, ← hbb]
        · exact a4
        · decide
        · decide
  | @run u w hne hu hw hs ih =>
      intro off l f s
      have hr' : ∀ c r, w ++ rest = c :: r → linkChar c = false := by
        intro c r e
        cases w with
        | nil => exact hr c r e
        | cons d w => injection e with e1 e2; subst e1; exact hs d w rfl
      have e := lexFrom_tok (m := .link) off hne (tok_linkText hne hu hr')
      obtain ⟨t, x, a1, a2, a3, a4⟩ := ih (off := off + blen u) (l := { l with hrefSpan := ⟨l.hrefSpan.start, off + blen u⟩ }) f
        { s with toks := lexFrom .link (off + blen u) (w ++ rest), byte := off + blen u - 1 }
      refine ⟨t, x, a1, a2, ?_, ?_⟩
      · intro h
        rw [marks_run hu] at h
        have := a3 h
        rw [this]
        by_cases hw' : w = []
        · subst hw'; simp [hne]
        · rw [if_neg hw', if_neg (by simp [hne]), blen_append, Nat.add_assoc]
      · rw [List.append_assoc, e, linkHref, P.bind_def]
        simp only [P.modify]
        rw [P.bind_def]
        simp only [setByte]
        rw [marks_run hu, blen_append, ← Nat.add_assoc]
        exact a4

/-- The span of the field being read. -/
def partSpan (l : Link) : LinkPart → Span
  | .label => l.labelSpan
  | .title => l.titleSpan
def withSpan (l : Link) (sp : Span) : LinkPart → Link
  | .label => { l with labelSpan := sp }
  | .title => { l with titleSpan := sp }

theorem value_skip (part : LinkPart) {w rest : Str} (hw : FieldParts w) (hr : ∀ c r, rest = c :: r → linkChar c = false) : ∀ {off : Nat} {l : Link} (f : LinkFlags) (s : PS),
    ∃ (t : PS) (x : Nat), t.stack = s.stack ∧ t.next = s.next ∧ lastText off (partSpan l part).stop w x ∧ linkValue E (lexFrom .link off (w ++ rest)) l f part s =
      linkValue E (lexFrom .link (off + blen w) rest) (withSpan l ⟨(partSpan l part).start, x⟩ part) (marks w f) part t := by
  induction hw with
  | nil => intro off l f s; refine ⟨s, (partSpan l part).stop, rfl, rfl, fun _ => rfl, ?_⟩; cases part <;> rfl
  | @esc c w hc hw ih =>
      intro off l f s
      have hb : ∀ d : Char, d = 'n' ∨ d = '|' ∨ d = ']' → off + 2 + blen w = off + blen ('\\' :: d :: w) := by
        rintro d (rfl | rfl | rfl) <;> simp [blen_cons, show ('\\' : Char).utf8Size = 1 by decide, show ('n' : Char).utf8Size = 1 by decide,
          show ('|' : Char).utf8Size = 1 by decide, show (']' : Char).utf8Size = 1 by decide] <;> omega
      have hlast : ∀ x, lastText off (partSpan l part).stop ('\\' :: c :: w) x := fun x h => by rw [marks_esc hw] at h; cases h
      have hbb := hb c hc
      rcases hc with rfl | rfl | rfl
      · have e := lexFrom_tok (m := .link) off (w := c!"\\n") (by simp) (tok_linkEscN (w ++ rest))
        obtain ⟨t, x, a1, a2, a3, a4⟩ := ih (off := off + 2) (l := l) { f with newline := true }
          { s with toks := lexFrom .link (off + 2) (w ++ rest), byte := off + 2 - 1 }
        refine ⟨t, x, a1, a2, hlast x, ?_⟩
        rw [show '\\' :: 'n' :: w ++ rest = c!"\\n" ++ (w ++ rest) from rfl, e, linkValue.eq_def]
        simp only
        rw [P.bind_def]
        simp only [P.modify]
        rw [P.bind_def]
        simp only [setByte]
        rw [marks, ← hbb]
        exact a4
      · have e := lexFrom_tok (m := .link) off (w := c!"\\|") (by simp) (tok_linkEscP (w ++ rest))
        obtain ⟨t, x, a1, a2, a3, a4⟩ := ih (off := off + 2) (l := l) { f with pipe := true }
          { s with toks := lexFrom .link (off + 2) (w ++ rest), byte := off + 2 - 1 }
        refine ⟨t, x, a1, a2, hlast x, ?_⟩
        rw [show '\\' :: '|' :: w ++ rest = c!"\\|" ++ (w ++ rest) from rfl, e, linkValue.eq_def]
        simp only
        rw [P.bind_def]
        simp only [P.modify]
        rw [P.bind_def]
        simp only [setByte]
        rw [marks, ← hbb]
        exact a4
      · have e := lexFrom_tok (m := .link) off (w := c!"\\]") (by simp) (tok_linkEscB (w ++ rest))
        obtain ⟨t, x, a1, a2, a3, a4⟩ := ih (off := off + 2) (l := l) { f with bracket := true }
          { s with toks := lexFrom .link (off + 2) (w ++ rest), byte := off + 2 - 1 }
        refine ⟨t, x, a1, a2, hlast x, ?_⟩
        rw [show '\\' :: ']' :: w ++ rest = c!"\\]" ++ (w ++ rest) from rfl, e, linkValue.eq_def]
        simp only
        rw [P.bind_def]
        simp only [P.modify]
        rw [P.bind_def]
        simp only [setByte]
        rw [marks, ← hbb]
        · exact a4
        · decide
        · decide
  | @run u w hne hu hw hs ih =>
      intro off l f s
      have hr' : ∀ c r, w ++ rest = c :: r → linkChar c = false := by
        intro c r e
        cases w with
        | nil => exact hr c r e
        | cons d w => injection e with e1 e2; subst e1; exact hs d w rfl
      have e := lexFrom_tok (m := .link) off hne (tok_linkText hne hu hr')
      obtain ⟨t, x, a1, a2, a3, a4⟩ := ih (off := off + blen u) (l := withSpan l ⟨(partSpan l part).start, off + blen u⟩ part) f
        { s with toks := lexFrom .link (off + blen u) (w ++ rest), byte := off + blen u - 1 }
      refine ⟨t, x, a1, a2, ?_, ?_⟩
      · intro h
        rw [marks_run hu] at h
        have := a3 h
        rw [this]
        by_cases hw' : w = []
        · subst hw'; cases part <;> simp [hne, partSpan, withSpan]
        · rw [if_neg hw', if_neg (by simp [hne]), blen_append, Nat.add_assoc]
      · rw [List.append_assoc, e, linkValue.eq_def]
        simp only
        rw [P.bind_def]
        simp only [P.modify]
        rw [P.bind_def]
        simp only [setByte]
        rw [marks_run hu, blen_append, ← Nat.add_assoc]
        cases part <;> exact a4

/-- The owned text of a field, if it has escapes. -/
def owned (w : Str) (d : Option Str) : Option Str := if (marks w ⟨false, false, false⟩).any then some (fieldValue w) else d

/-- What is known of a field after it has been read. -/
def FieldIs (src : Str) (v : Option Str) (sp : Span) (w : Str) : Prop :=
  (match v with
   | some v => some v
   | none => slice src sp.start sp.stop) = some w

theorem href_close {pre w rest : Str} (hw : FieldParts w) (hsrc : E.src = pre ++ (w ++ rest)) {l : Link} (hl : l.opn.stop = blen pre) {sp : Span}
    (hsp : sp.start = blen pre + blen w) (s : PS) :
    hrefOwned E l (marks w ⟨false, false, false⟩) sp s = (.ok { l with href := owned w l.href }, s) := by
  unfold hrefOwned owned
  split
  · rename_i h
    rw [P.bind_def]
    rw [slice_eq (a := pre) (b := w) (c := rest) hsrc hl (by rw [hsp])]
    simp only [orPanic, Pure.pure]
    rw [(field_value hw).1 h]
  · rfl

theorem part_close (part : LinkPart) {pre w rest : Str} (hw : FieldParts w) (hsrc : E.src = pre ++ (w ++ rest)) {l : Link} (hl : (partSpan l part).start = blen pre) {sp : Span}
    (hsp : sp.start = blen pre + blen w) (s : PS) :
    assignIfEscaped E l (marks w ⟨false, false, false⟩) sp part s = (.ok (match part with
      | .label => { l with label := owned w l.label }
      | .title => { l with title := owned w l.title }), s) := by
  unfold assignIfEscaped owned
  split
  · rename_i h
    cases part <;> simp only [partSpan] at hl <;> simp only <;>
      (rw [P.bind_def, slice_eq (a := pre) (b := w) (c := rest) hsrc hl (by rw [hsp])]; simp only [orPanic, Pure.pure]; rw [(field_value hw).1 h])
  · cases part <;> rfl

theorem field_is {pre w rest src : Str} (hw : FieldParts w) (hsrc : src = pre ++ (w ++ rest)) {x d : Nat} (hx : lastText (blen pre) d w x) (hd : w = [] → d = blen pre) :
    FieldIs src (owned w none) ⟨blen pre, x⟩ (fieldValue w) := by
  unfold FieldIs owned
  by_cases h : (marks w ⟨false, false, false⟩).any = true
  · rw [if_pos h]
  · rw [if_neg h]
    have h : (marks w ⟨false, false, false⟩).any = false := by simpa using h
    simp only
    rw [(field_value hw).2 h]
    refine slice_eq (a := pre) (b := w) (c := rest) hsrc rfl ?_
    rw [hx h]
    split
    · rename_i e; rw [hd e, e]; rfl
    · rfl

/-- The whole content of a link. -/
theorem linkHref_run {pre h : Str} {lb tt : Option Str} (hh : fieldOk h = true) (hlb : optFieldOk lb = true) (htt : optFieldOk tt = true)
    (hlt : (lb.isSome || tt.isNone) = true) (k : Str) (hsrc : E.src = pre ++ (h ++ (piped lb ++ (piped tt ++ (c!"]]" ++ k)))))
    {l : Link} (h0 : l.hrefSpan = ⟨blen pre, blen pre⟩) (hs : l.labelSpan = ⟨blen pre, blen pre⟩)
    (ht : l.titleSpan = ⟨blen pre, blen pre⟩) (ho : l.opn.stop = blen pre) (e1 : l.href = none) (e2 : l.label = none) (e3 : l.title = none) (s : PS) :
    ∃ (t : PS) (l' : Link), t.stack = s.stack ∧ t.next = s.next ∧
      t.toks = lexFrom .block (blen pre + blen h + blen (piped lb) + blen (piped tt) + 2) k ∧
      linkHref E (lexFrom .link (blen pre) (h ++ (piped lb ++ (piped tt ++ (c!"]]" ++ k))))) l ⟨false, false, false⟩ s = (.ok l', t) ∧
      l'.src = l.src ∧ l'.opn = l.opn ∧ l'.line = l.line ∧
      l'.clo = some ⟨blen pre + blen h + blen (piped lb) + blen (piped tt), blen pre + blen h + blen (piped lb) + blen (piped tt) + 2⟩ ∧
      FieldIs E.src l'.href l'.hrefSpan (fieldValue h) ∧ FieldIs E.src l'.label l'.labelSpan (fieldValue (lb.getD [])) ∧
      FieldIs E.src l'.title l'.titleSpan (fieldValue (tt.getD [])) := by
  have hfin : ∀ c r, c!"]]" ++ k = c :: r → linkChar c = false := by rintro c r e; cases e; decide
  have hpipe : ∀ z c r, '|' :: z = c :: r → linkChar c = false := by rintro z c r e; cases e; decide
  have nz : ∀ n : Nat, n + blen [] = n := fun _ => rfl
  have bc : ∀ w : Str, blen ('|' :: w) = 1 + blen w := fun _ => rfl
  have hh := fieldParts hh
  have hempty : ∀ r, E.src = pre ++ r → FieldIs E.src none ⟨blen pre, blen pre⟩ (fieldValue []) := fun r e =>
    slice_eq (a := pre) (b := []) (c := r) (by rw [e]; rfl) rfl rfl
  cases lb with
  | none =>
      cases tt with
      | some w => simp at hlt
      | none =>
          simp only [piped, List.nil_append, nz] at hsrc ⊢
          obtain ⟨t1, x, a1, a2, a3, a4⟩ := href_skip E hh hfin (off := blen pre) (l := l) ⟨false, false, false⟩ s
          refine ⟨{ t1 with toks := lexFrom .block (blen pre + blen h + 2) k, byte := blen pre + blen h + 2 - 1 },
            { l with hrefSpan := ⟨l.hrefSpan.start, x⟩, href := owned h l.href, clo := some ⟨blen pre + blen h, blen pre + blen h + 2⟩ }, a1, a2, rfl, ?_,
            rfl, rfl, rfl, rfl, ?_, ?_, ?_⟩
          · rw [a4, lexFrom_tok _ (by simp) (tok_linkFin k), show nextMode .link (.link .fin) = .block from rfl, linkHref, P.bind_def]
            simp only [P.modify]
            rw [P.bind_def]
            simp only [setByte]
            rw [P.bind_def, href_close E hh hsrc (by exact ho) rfl]
            rfl
          · simp only [h0, e1] at a3 ⊢; exact field_is hh hsrc a3 (fun _ => rfl)
          · simp only [hs, e2]; exact hempty _ hsrc
          · simp only [ht, e3]; exact hempty _ hsrc
  | some w =>
      obtain ⟨w1, w2⟩ : w ≠ [] ∧ fieldOk w = true := by simpa [optFieldOk] using hlb
      have w2 := fieldParts w2
      cases tt with
      | none =>
          simp only [piped, List.nil_append, nz, bc, List.cons_append] at hsrc ⊢
          obtain ⟨t1, x, a1, a2, a3, a4⟩ := href_skip E hh (hpipe (w ++ (c!"]]" ++ k))) (off := blen pre) (l := l) ⟨false, false, false⟩ s
          rw [lexFrom_tok1 _ (tok_pipe _), show nextMode .link (.link .pipe) = .link from rfl, linkHref, P.bind_def] at a4
          simp only [P.modify] at a4
          rw [P.bind_def] at a4
          simp only [setByte] at a4
          rw [P.bind_def, href_close E hh hsrc (by exact ho) rfl] at a4
          simp only at a4
          obtain ⟨t2, y, b1, b2, b3, b4⟩ := value_skip E .label w2 hfin (off := blen pre + blen h + 1)
            (l := { l with hrefSpan := ⟨l.hrefSpan.start, x⟩, href := owned h l.href, labelSpan := ⟨blen pre + blen h + 1, l.labelSpan.stop⟩ }) ⟨false, false, false⟩
            { t1 with toks := lexFrom .link (blen pre + blen h + 1) (w ++ (c!"]]" ++ k)), byte := blen pre + blen h + 1 - 1 }
          have hsrc2 : E.src = (pre ++ (h ++ ['|'])) ++ (w ++ (c!"]]" ++ k)) := by rw [hsrc]; simp
          have hp2 : blen (pre ++ (h ++ ['|'])) = blen pre + blen h + 1 := by simp [Nat.add_assoc]; rfl
          rw [lexFrom_tok _ (by simp) (tok_linkFin k), show nextMode .link (.link .fin) = .block from rfl, linkValue, P.bind_def] at b4
          simp only [P.modify] at b4
          rw [P.bind_def] at b4
          simp only [setByte] at b4
          rw [P.bind_def, part_close E .label w2 hsrc2 (by rw [hp2]; rfl) (by rw [hp2])] at b4
          refine ⟨{ t2 with toks := lexFrom .block (blen pre + blen h + (1 + blen w) + 2) k, byte := blen pre + blen h + (1 + blen w) + 2 - 1 },
            { l with hrefSpan := ⟨l.hrefSpan.start, x⟩, href := owned h l.href, labelSpan := ⟨blen pre + blen h + 1, y⟩, label := owned w l.label,
                     clo := some ⟨blen pre + blen h + (1 + blen w), blen pre + blen h + (1 + blen w) + 2⟩ },
            b1.trans a1, b2.trans a2, rfl, a4.trans (b4.trans ?_), rfl, rfl, rfl, rfl, ?_, ?_, ?_⟩
          · rw [Nat.add_assoc (blen pre + blen h) 1]
            rfl
          · simp only [h0, e1] at a3 ⊢; exact field_is hh hsrc a3 (fun _ => rfl)
          · rw [← hp2] at b3 ⊢
            simp only [e2, Option.getD_some]
            exact field_is w2 hsrc2 b3 (fun e => absurd e w1)
          · simp only [ht, e3]; exact hempty _ hsrc
      | some v =>
          obtain ⟨v1, v2⟩ : v ≠ [] ∧ fieldOk v = true := by simpa [optFieldOk] using htt
          have v2 := fieldParts v2
          simp only [piped, nz, bc, List.cons_append] at hsrc ⊢
          obtain ⟨t1, x, a1, a2, a3, a4⟩ := href_skip E hh (hpipe (w ++ ('|' :: (v ++ (c!"]]" ++ k))))) (off := blen pre) (l := l) ⟨false, false, false⟩ s
          rw [lexFrom_tok1 _ (tok_pipe _), show nextMode .link (.link .pipe) = .link from rfl, linkHref, P.bind_def] at a4
          simp only [P.modify] at a4
          rw [P.bind_def] at a4
          simp only [setByte] at a4
          rw [P.bind_def, href_close E hh hsrc (by exact ho) rfl] at a4
          simp only at a4
          obtain ⟨t2, y, b1, b2, b3, b4⟩ := value_skip E .label w2 (hpipe (v ++ (c!"]]" ++ k))) (off := blen pre + blen h + 1)
            (l := { l with hrefSpan := ⟨l.hrefSpan.start, x⟩, href := owned h l.href, labelSpan := ⟨blen pre + blen h + 1, l.labelSpan.stop⟩ }) ⟨false, false, false⟩
            { t1 with toks := lexFrom .link (blen pre + blen h + 1) (w ++ ('|' :: (v ++ (c!"]]" ++ k)))), byte := blen pre + blen h + 1 - 1 }
          have hsrc2 : E.src = (pre ++ (h ++ ['|'])) ++ (w ++ ('|' :: (v ++ (c!"]]" ++ k)))) := by rw [hsrc]; simp
          have hp2 : blen (pre ++ (h ++ ['|'])) = blen pre + blen h + 1 := by simp [Nat.add_assoc]; rfl
          rw [lexFrom_tok1 _ (tok_pipe _), show nextMode .link (.link .pipe) = .link from rfl, linkValue, P.bind_def] at b4
          simp only [P.modify] at b4
          rw [P.bind_def] at b4
          simp only [setByte] at b4
          rw [P.bind_def, part_close E .label w2 hsrc2 (by rw [hp2]; rfl) (by rw [hp2])] at b4
          simp only at b4
          obtain ⟨t3, z, d1, d2, d3, d4⟩ := value_skip E .title v2 hfin (off := blen pre + blen h + 1 + blen w + 1)
            (l := { l with hrefSpan := ⟨l.hrefSpan.start, x⟩, href := owned h l.href, labelSpan := ⟨blen pre + blen h + 1, blen pre + blen h + 1 + blen w⟩,
                           label := owned w l.label, titleSpan := ⟨blen pre + blen h + 1 + blen w + 1, l.titleSpan.stop⟩ }) ⟨false, false, false⟩
            { t2 with toks := lexFrom .link (blen pre + blen h + 1 + blen w + 1) (v ++ (c!"]]" ++ k)), byte := blen pre + blen h + 1 + blen w + 1 - 1 }
          have hsrc3 : E.src = (pre ++ (h ++ ('|' :: (w ++ ['|'])))) ++ (v ++ (c!"]]" ++ k)) := by rw [hsrc]; simp
          have hp3 : blen (pre ++ (h ++ ('|' :: (w ++ ['|'])))) = blen pre + blen h + 1 + blen w + 1 := by
            simp [Nat.add_assoc, show ('|' : Char).utf8Size = 1 by decide]
          rw [lexFrom_tok _ (by simp) (tok_linkFin k), show nextMode .link (.link .fin) = .block from rfl, linkValue, P.bind_def] at d4
          simp only [P.modify] at d4
          rw [P.bind_def] at d4
          simp only [setByte] at d4
          rw [P.bind_def, part_close E .title v2 hsrc3 (by rw [hp3]; rfl) (by rw [hp3])] at d4
          refine ⟨{ t3 with toks := lexFrom .block (blen pre + blen h + (1 + blen w) + (1 + blen v) + 2) k,
                            byte := blen pre + blen h + (1 + blen w) + (1 + blen v) + 2 - 1 },
            { l with hrefSpan := ⟨l.hrefSpan.start, x⟩, href := owned h l.href, labelSpan := ⟨blen pre + blen h + 1, blen pre + blen h + 1 + blen w⟩, label := owned w l.label,
                     titleSpan := ⟨blen pre + blen h + 1 + blen w + 1, z⟩, title := owned v l.title,
                     clo := some ⟨blen pre + blen h + (1 + blen w) + (1 + blen v), blen pre + blen h + (1 + blen w) + (1 + blen v) + 2⟩ },
            d1.trans (b1.trans a1), d2.trans (b2.trans a2), rfl, a4.trans (b4.trans (d4.trans ?_)), rfl, rfl, rfl, rfl, ?_, ?_, ?_⟩
          · have x1 : blen pre + blen h + 1 + blen w + 1 + blen v = blen pre + blen h + (1 + blen w) + (1 + blen v) := by omega
            rw [x1]
            rfl
          · simp only [h0, e1] at a3 ⊢; exact field_is hh hsrc a3 (fun _ => rfl)
          · rw [← hp2]
            simp only [e2, Option.getD_some]
            exact field_is w2 hsrc2 (d := 0) (fun _ => by rw [if_neg w1]) (fun e => absurd e w1)
          · rw [← hp3] at d3 ⊢
            simp only [e3, Option.getD_some]
            exact field_is v2 hsrc3 d3 (fun e => absurd e v1)

theorem piece_link {pre k : Str} {e : Bool} {h : Str} {lb tt : Option Str} (hh : fieldOk h = true) (hlb : optFieldOk lb = true)
    (htt : optFieldOk tt = true) (hlt : (lb.isSome || tt.isNone) = true) (hsrc : E.src = pre ++ (linkText e h lb tt ++ k)) :
    Piece E pre (linkText e h lb tt) k fun x => ∃ l : Link, x = .link l ∧ l.asStr = some (linkText e h lb tt) ∧ l.isEscaped = some e ∧
      l.hrefStr = some (fieldValue h) ∧ l.labelStr = some (fieldValue (lb.getD [])) ∧ l.titleStr = some (fieldValue (tt.getD [])) := by
  intro s hs
  have u1 : ('|' : Char).utf8Size = 1 := by decide
  have u2 : (']' : Char).utf8Size = 1 := by decide
  have ee : linkText e h lb tt ++ k = (brace e '\\' ++ c!"[[") ++ (h ++ (piped lb ++ (piped tt ++ (c!"]]" ++ k)))) := by simp [linkText]
  rw [ee] at hs hsrc
  have e1 := lexFrom_tok (blen pre) (by simp) (tok_link (h ++ (piped lb ++ (piped tt ++ (c!"]]" ++ k)))) e)
  have htxt : linkText e h lb tt = (brace e '\\' ++ c!"[[") ++ (h ++ (piped lb ++ (piped tt ++ c!"]]"))) := rfl
  have hesc : startsWith (brace e '\\' ++ c!"[[") ['\\'] = e := by cases e <;> rfl
  generalize hopn : brace e '\\' ++ c!"[[" = opn at hs hsrc e1 htxt hesc
  rw [show nextMode .block (.block .startLink) = .link from rfl, ← blen_append] at e1
  obtain ⟨t, l', h1, h2, h3, h4, g1, g2, g3, g4, g5, g6, g7⟩ := linkHref_run E (pre := pre ++ opn) hh hlb htt hlt k (by rw [hsrc]; simp)
    (l := Link.new E.src ⟨blen pre, blen (pre ++ opn)⟩ ⟨s.line, s.line + 1⟩) rfl rfl rfl rfl rfl rfl rfl
    { s with next := none, toks := lexFrom .link (blen (pre ++ opn)) (h ++ (piped lb ++ (piped tt ++ (c!"]]" ++ k)))), byte := blen (pre ++ opn) }
  refine ⟨_, _, _, t, hs.token e1, ?_, ⟨{ l' with line := ⟨l'.line.start, t.line + 1⟩ }, rfl, ?_, ?_, ?_, ?_, ?_⟩, h1, ?_⟩
  · intro n
    have : ∀ s', advance E (n + 1) ⟨.block .startLink, ⟨blen pre, blen (pre ++ opn)⟩⟩ s' =
      (do let x ← linkParse E ⟨blen pre, blen (pre ++ opn)⟩; pure (some (Node.link x))) s' := by intro s'; rw [advance]; rfl
    rw [this, P.bind_def]
    unfold linkParse
    rw [P.bind_def]
    simp only [setByte]
    rw [P.bind_def]
    simp only [lineRange]
    rw [P.bind_def]
    simp only [P.get]
    rw [P.bind_def, h4]
    simp only [g4]
    rfl
  · unfold Link.asStr Link.endPos
    simp only [g1, g2, g4]
    exact slice_eq (a := pre) (c := k) (by simp only [Link.new]; rw [hsrc, htxt]; simp) rfl (by rw [htxt]; simp [Nat.add_assoc, u1, u2])
  · unfold Link.isEscaped
    have := slice_eq (a := pre) (b := opn) hsrc rfl rfl
    rw [← blen_append] at this
    simp only [g1, g2, Link.new]
    rw [this]
    simp [hesc]
  · unfold Link.hrefStr; simp only [g1]; exact g5
  · unfold Link.labelStr; simp only [g1]; exact g6
  · unfold Link.titleStr; simp only [g1]; exact g7
  · unfold AtB PS.rem
    rw [h2, h3, htxt]
    simp [Nat.add_assoc, u1, u2]

/-! ### Raw blocks -/

/-- The `~` after the name of an end tag. -/
theorem tilde_end {name tail O C c : Str} {t : Bool} (hn : nameOk name = true) (ht : tail.all blank = true) (h : (t || asciiEnd (name ++ tail)) = true)
    (e : c = O ++ (name ++ (tail ++ (tilde t ++ C)))) {n : Nat} (hC : n = blen C + 1) : Block.tildeAt c (blen c - n) = some t := by
  cases t with
  | true =>
      refine tildeAt_of (X := O ++ (name ++ tail)) (Y := C) (x := '~') (by rw [e]; simp [tilde]) (by decide) ?_
      rw [e, hC]; simp [tilde, show ('~' : Char).utf8Size = 1 by decide]; omega
  | false =>
      obtain ⟨h1, _, _⟩ := nameOk_spec hn
      have hne : name ++ tail ≠ [] := by obtain ⟨c, r, e, _⟩ := nameOk_head hn; simp [e]
      obtain ⟨ini, x, hix⟩ : ∃ ini x, name ++ tail = ini ++ [x] := ⟨_, _, (List.dropLast_concat_getLast hne).symm⟩
      rw [hix] at h
      have hx : x.utf8Size = 1 := by simpa [asciiEnd] using h
      have : (x == '~') = false := by
        rw [beq_eq_false_iff_ne]; rintro rfl
        have hm : '~' ∈ name ++ tail := by rw [hix]; simp
        rcases List.mem_append.1 hm with hm | hm
        · have := h1 _ hm; revert this; decide
        · have := List.all_eq_true.1 ht _ hm; revert this; decide
      have e' : c = (O ++ ini) ++ x :: C := by
        rw [e, ← List.append_assoc name, hix]; simp [tilde]
      rw [tildeAt_of (X := O ++ ini) (Y := C) (x := x) e' hx (by rw [e', hC]; simp [hx]; omega), this]

theorem name_text (name : Str) : (⟨0, .name name, []⟩ : SPath).text = name := by simp [following, SPath.text, dots, Head.text, dotted]

theorem name_shown (name : Str) : (⟨0, .name name, []⟩ : SPath).shown = name := by
  simp [SPath.shown, followingShown, dottedShown, dots, Head.text]

theorem name_ok {name : Str} (h : nameOk name = true) : (⟨0, .name name, []⟩ : SPath).ok = true := by simp [SPath.ok, h]

/-- What ends an end tag. -/
def CloserT (C r : Str) : Prop := ∃ tail w, C = tail ++ w ∧ tail.all blank = true ∧ Closer .call w r

/-- The content of an end tag. -/
theorem close_call {name : Str} (hn : nameOk name = true) {w r pre : Str} (hc : CloserT w r) (opn : Span)
    {s : PS} (hsrc : E.src = pre ++ (name ++ (w ++ r))) (hs : s.toks = lexFrom .params (blen pre) (name ++ (w ++ r))) :
    ∃ a st c t, callParse E opn s = (.ok c, t) ∧
      TagRun E false false (some ⟨0, .name name, []⟩) a opn ⟨st, blen (pre ++ (name ++ w))⟩
        (blen (pre ++ (name ++ w))) r s c t := by
  obtain ⟨tail, w, rfl, htail, hc⟩ := hc
  have := call_run E false (gap := []) rfl (name_ok hn) (a := .done (.tail tail)) (by rw [SArgs.ok, SHash.ok]; exact htail) hc opn (pre := pre) (s := s)
  simp only [gt, SArgs.text, SHash.text, name_text, Bool.false_eq_true, if_false, List.nil_append, List.append_nil, List.append_assoc] at this hsrc hs ⊢
  exact ⟨_, _, this hsrc hs⟩

theorem piece_raw {pre k : Str} {tl cl : Tilde} {name : Str} {a : SArgs} {w : Str} (htl : tl.ok = true) (hctl : cl.ok = true) (hn : nameOk name = true) (ha : a.ok = true)
    (hw : clearOf openers w (rawCloseText name cl ++ k) = true) (hcl : (cl.after || asciiEnd (name ++ cl.tail)) = true)
    (hsrc : E.src = pre ++ ((rawOpenText tl name a ++ (w ++ rawCloseText name cl)) ++ k)) :
    Piece E pre (rawOpenText tl name a ++ (w ++ rawCloseText name cl)) k fun x => ∃ (b : Block) (t : Text), x = .block b ∧
      b.asStr = some (rawOpenText tl name a ++ (w ++ rawCloseText name cl)) ∧ b.raw = true ∧
      TagRep false false (some ⟨0, .name name, []⟩) a b.call ∧ TildeRep tl (.block b) ∧ b.trimClose = some ⟨cl.before, cl.after⟩ ∧
      b.nodes = [.text t] ∧ t.asStr = some w ∧ b.conditionals = [] := by
  intro s hs
  have hclo : ∀ (b : Bool) (r : Str), Closer .call (tilde b ++ c!"}}}}") r := fun b r => by
    have := Closer.fin b 2 (r := r) (by omega) (by omega)
    simpa [List.replicate] using this
  have eo : rawOpenText tl name a = (c!"{{{{" ++ tl.mark) ++ (name ++ (a.text ++ (tilde tl.after ++ c!"}}}}"))) := rfl
  have ec : rawCloseText name cl = (c!"{{{{" ++ cl.mark ++ ['/']) ++ (name ++ (cl.tail ++ (tilde cl.after ++ c!"}}}}"))) := rfl
  have hopen : Block.tildeAt (c!"{{{{" ++ tl.mark) 4 = some tl.before := mark_tilde_end htl _
  have hafter : startsWith (tilde tl.after ++ c!"}}}}") ['~'] = tl.after := by cases tl.after <;> rfl
  have hcb : Block.tildeAt (rawCloseText name cl) 4 = some cl.before := by
    rw [ec]
    rw [List.append_assoc, List.append_assoc]
    exact mark_tilde hctl c!"{{{{" rfl (by decide) (by decide)
  have hca : Block.tildeAt (rawCloseText name cl) (blen (rawCloseText name cl) - 5) = some cl.after :=
    tilde_end hn (Tilde.tailBlank hctl) hcl (O := c!"{{{{" ++ cl.mark ++ ['/']) (C := c!"}}}}") ec (by decide)
  have hlen : blen (rawCloseText name cl) > 5 := by
    rw [ec]; simp only [blen_append]
    have : blen c!"}}}}" = 4 := by decide
    have : blen c!"{{{{" = 4 := by decide
    omega
  have ht1 := tok_rawOpen (rest := name ++ (a.text ++ ((tilde tl.after ++ c!"}}}}") ++ (w ++ (rawCloseText name cl ++ k))))) htl (by
    have := SPath.notAfterOpen (name_ok hn) (a.text ++ ((tilde tl.after ++ c!"}}}}") ++ (w ++ (rawCloseText name cl ++ k))))
    rwa [name_text] at this)
  have ht2 := tok_rawClose (name ++ ((cl.tail ++ (tilde cl.after ++ c!"}}}}")) ++ k)) hctl
  have hcl1 := hclo tl.after (w ++ (rawCloseText name cl ++ k))
  have hcl2 : CloserT (cl.tail ++ (tilde cl.after ++ c!"}}}}")) k := ⟨_, _, rfl, Tilde.tailBlank hctl, hclo cl.after k⟩
  have hne1 : c!"{{{{" ++ tl.mark ≠ [] := by simp
  have hne2 : c!"{{{{" ++ cl.mark ++ ['/'] ≠ [] := by simp
  generalize c!"{{{{" ++ tl.mark = O1 at *
  generalize tilde tl.after ++ c!"}}}}" = C1 at *
  generalize c!"{{{{" ++ cl.mark ++ ['/'] = O2 at *
  generalize cl.tail ++ (tilde cl.after ++ c!"}}}}") = C2 at *
  have e : (rawOpenText tl name a ++ (w ++ rawCloseText name cl)) ++ k = O1 ++ (name ++ (a.text ++ (C1 ++ (w ++ (rawCloseText name cl ++ k))))) := by
    rw [eo]; simp
  rw [e] at hs hsrc
  have e1 := lexFrom_tok (blen pre) hne1 ht1
  rw [show nextMode .block (.block .startRawBlock) = .params from rfl, ← blen_append] at e1
  obtain ⟨c, t, h1, h2⟩ := call_run E false (gap := []) rfl (name_ok hn) ha hcl1 (pre := pre ++ O1) ⟨blen pre, blen (pre ++ O1)⟩
    (s := { s with next := none, toks := lexFrom .params (blen (pre ++ O1)) (name ++ (a.text ++ (C1 ++ (w ++ (rawCloseText name cl ++ k))))) })
    (by rw [hsrc, name_text]; simp [gt]) (by rw [name_text]; rfl)
  rw [name_text] at h2
  simp only [gt, Bool.false_eq_true, if_false, List.nil_append] at h2
  have htoks := h2.toks
  obtain ⟨l, t2, g1, g2, g3, g4⟩ := textUntil_run E (m := .block) (tk := blockTxt) (stop := fun t => t.kind == .block .endRawBlock)
    (by intro c; unfold blockTxt; split <;> rfl) (by intro c sp; unfold blockTxt; split <;> rfl) (w := w) (fw := O2)
    (k := name ++ (C2 ++ k)) (kf := .block .endRawBlock)
    (by have := clear_block hw; rw [ec] at this; simpa using this) hne2 ht2 (by intro sp; rfl)
    (a := blen (pre ++ O1 ++ (name ++ a.text))) (off := blen (pre ++ O1 ++ (name ++ (a.text ++ C1)))) (s := t)
    (by rw [htoks, ec]; simp)
  have hb : blen (pre ++ O1 ++ (name ++ (a.text ++ C1))) + blen w + blen O2 = blen (pre ++ O1 ++ (name ++ (a.text ++ (C1 ++ (w ++ O2))))) := by
    simp [Nat.add_assoc]
  rw [hb] at g4 g1
  obtain ⟨_, _, c3, t3, k1, k2⟩ := close_call E hn hcl2 (pre := pre ++ O1 ++ (name ++ (a.text ++ (C1 ++ (w ++ O2)))))
    ⟨blen (pre ++ O1 ++ (name ++ (a.text ++ C1))) + blen w, blen (pre ++ O1 ++ (name ++ (a.text ++ (C1 ++ (w ++ O2)))))⟩ (s := t2)
    (by rw [hsrc, ec]; simp) g4
  obtain ⟨q, hq, hqr⟩ := h2.rep.target
  obtain ⟨q3, hq3, hqr3⟩ := k2.rep.target
  refine ⟨_, _, _, t3, hs.token e1, ?_, ⟨((((Block.new E.src ⟨blen pre, blen (pre ++ O1)⟩ true ⟨s.line, s.line + 1⟩).setCall c).push
    (.text ⟨E.src, ⟨blen (pre ++ O1 ++ (name ++ (a.text ++ C1))), blen (pre ++ O1 ++ (name ++ (a.text ++ C1))) + blen w⟩, l⟩)).exit
      ⟨blen (pre ++ O1 ++ (name ++ (a.text ++ C1))) + blen w, blen (pre ++ O1 ++ (name ++ (a.text ++ (C1 ++ (w ++ O2)))) ++ (name ++ C2))⟩).linesEnd t3.line,
    ⟨E.src, ⟨blen (pre ++ O1 ++ (name ++ (a.text ++ C1))), blen (pre ++ O1 ++ (name ++ (a.text ++ C1))) + blen w⟩, l⟩, rfl, ?_⟩, ?_, ?_⟩
  · intro n
    have : ∀ s', advance E (n + 1) ⟨.block .startRawBlock, ⟨blen pre, blen (pre ++ O1)⟩⟩ s' =
      (do let x ← rawBlock E ⟨blen pre, blen (pre ++ O1)⟩; pure (some x)) s' := by intro s'; rw [advance]; rfl
    rw [this, P.bind_def]
    unfold rawBlock
    rw [P.bind_def]
    simp only [lineRange]
    rw [P.bind_def, h1]
    simp only [h2.clo]
    rw [P.bind_def, hq]
    simp only [CallTarget.asStr, hqr.asStr, orPanic]
    rw [P.bind_def, g1]
    simp only
    rw [P.bind_def, k1]
    simp only [k2.clo]
    rw [P.bind_def, hq3]
    simp only [CallTarget.asStr, hqr3.asStr, orPanic, k2.opn]
    simp only [ne_eq, not_true_eq_false, if_false]
    rw [P.bind_def]
    rfl
  · have hclose : slice E.src (blen (pre ++ O1 ++ (name ++ (a.text ++ C1))) + blen w)
        (blen (pre ++ O1 ++ (name ++ (a.text ++ (C1 ++ (w ++ O2)))) ++ (name ++ C2))) = some (rawCloseText name cl) :=
      slice_eq (a := pre ++ (O1 ++ (name ++ (a.text ++ (C1 ++ w))))) (c := k) (by rw [hsrc]; simp) (by simp [Nat.add_assoc])
        (by rw [ec]; simp [Nat.add_assoc])
    refine ⟨?_, rfl, h2.rep, ⟨?_, ?_⟩, ?_, rfl, ?_, rfl⟩
    · exact slice_eq (a := pre) (c := k) (by rw [hsrc, eo]; simp [Block.new, Block.setCall, Block.push, Block.exit, Block.linesEnd, Block.src]) rfl
        (by rw [eo, ec]; simp [Nat.add_assoc])
    · show (slice E.src (blen pre) (blen (pre ++ O1))).bind (fun o => Block.tildeAt o 4) = _
      rw [slice_mid hsrc]; exact hopen
    · show (c.closeStr).map _ = _
      unfold Call.closeStr
      rw [h2.src, h2.clo]
      simp only
      rw [slice_eq (a := pre ++ O1 ++ (name ++ a.text)) (b := C1) (c := w ++ (rawCloseText name cl ++ k)) (by rw [hsrc]; simp) rfl (by simp [Nat.add_assoc])]
      simp [hafter]
    · show ((slice E.src _ _).bind (fun c => Block.tildeAt c 4)).bind (fun x => ((slice E.src _ _).bind fun c =>
        if blen c > 5 then Block.tildeAt c (blen c - 5) else some false).map fun y => (⟨x, y⟩ : TrimHint)) = _
      rw [hclose]
      simp only [Option.bind_some, hcb, if_pos hlen, hca, Option.map_some]
    · exact slice_eq (a := pre ++ O1 ++ (name ++ (a.text ++ C1))) (c := rawCloseText name cl ++ k) (by rw [hsrc]; simp) rfl rfl
  · rw [k2.rel.stack, g2, h2.rel.stack]
  · unfold AtB PS.rem
    rw [k2.rel.next, g3, h2.rel.next, k2.toks, eo, ec]
    simp [Nat.add_assoc]

end

end Bracket
