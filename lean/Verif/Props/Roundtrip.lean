import Verif.Lemmas.ParseTm
import Verif.Props.ParserTotal
import Verif.Lemmas.Examples

/-! C56: compiling the text of a well-formed template gives that template. -/

set_option linter.unusedSectionVars false
set_option linter.unusedSimpArgs false

namespace Bracket.Props
open Bracket Re Spec P

section
variable [Host] (E : PEnv)

/-- The nodes parsed between `s` and `s'` are `ns`. -/
def Adds (s : PS) (ns : List Node) (s' : PS) : Prop := ∀ acc res u, Ends (fun n => parseLoop E n (acc ++ ns)) s' res u →
  Ends (fun n => parseLoop E n acc) s res u

theorem Adds.nil (s : PS) : Adds E s [] s := fun acc res u h => by rwa [List.append_nil] at h

theorem Adds.cons {s t u : PS} {x : Node} {ns : List Node} (h : Adds E s [x] t) (h' : Adds E t ns u) : Adds E s (x :: ns) u := by
  intro acc res v he
  refine h acc res v (h' (acc ++ [x]) res v ?_)
  rwa [List.append_assoc]

theorem adds_next {s t : PS} {x : Node} (h : parserNext E s = (.ok (some x), t)) : Adds E s [x] t := by
  intro acc res u ⟨hr, n, hn⟩
  refine ⟨hr, n + 1, ?_⟩
  simp only
  rw [parseLoop, P.bind_def, h]
  exact hn

theorem adds_step {s u t : PS} {tok : Token} {x : Node} (h1 : tokenP s = (.ok (some tok), u))
    (h2 : ∀ n, advance E (n + 1) tok u = (.ok (some x), t)) : Adds E s [x] t := by
  apply adds_next
  unfold parserNext
  rw [P.bind_def, h1]
  simp only
  rw [P.bind_def]
  simp only [P.get]
  exact h2 _

theorem adds_block {s u s0 t : PS} {tok : Token} {x : Node} (h1 : tokenP s = (.ok (some tok), u))
    (h2 : ∀ n, advance E (n + 1) tok u = blockLoop E n s0) (h3 : Ends (blockLoop E) s0 (.ok (some x)) t) : Adds E s [x] t := by
  apply adds_next
  unfold parserNext
  rw [P.bind_def, h1]
  simp only
  rw [P.bind_def]
  simp only [P.get]
  obtain ⟨hr, n, hn⟩ := h3
  refine Ends.at (f := fun n => advance E n tok) (grows_advance E tok) ⟨hr, n + 1, by simp only; rw [h2, hn]⟩ ?_
  have := (advance_top E (advFuel u)).1 tok u (by unfold advFuel PS.left Tri.wt; split <;> omega)
  unfold Top at this
  intro hf
  rcases hm : advance E (advFuel u) tok u with ⟨r, t'⟩
  rw [hm] at this hf
  simp only at hf
  subst hf
  exact this

theorem _root_.Bracket.Piece.adds {pre w k : Str} {Q : Node → Prop} (h : Piece E pre w k Q) {s : PS} (hs : AtB (blen pre) (w ++ k) s) :
    ∃ x t, Q x ∧ Adds E s [x] t ∧ t.stack = s.stack ∧ AtB (blen (pre ++ w)) k t := by
  obtain ⟨tok, L, x, t, h1, h2, h3, h4, h5⟩ := h s hs
  exact ⟨x, t, h3, adds_step E h1 h2, h4, h5⟩

theorem tm_top : ∀ (T : STm) (k pre : Str) (s : PS), T.ok k = true → Opens k → E.src = pre ++ (T.src ++ k) →
    AtB (blen pre) (T.src ++ k) s → s.stack = [] →
    ∃ ns s', TmRep T ns ∧ Adds E s ns s' ∧ s'.stack = [] ∧ AtB (blen (pre ++ T.src)) k s'
  | .nil, k, pre, s, hok, hk, hsrc, hs, hst => ⟨[], s, .nil, .nil E s, hst, by simpa [STm.src] using hs⟩
  | .text w r, k, pre, s, hok, hk, hsrc, hs, hst => by
      rw [STm.ok] at hok
      simp only [Bool.and_eq_true, Bool.not_eq_true', List.isEmpty_eq_false_iff] at hok
      obtain ⟨⟨⟨hne, hw⟩, hnt⟩, hr⟩ := hok
      have e : (STm.text w r).src ++ k = w ++ (r.src ++ k) := by simp [STm.src]
      rw [e] at hs hsrc
      obtain ⟨x, t', ⟨t, rfl, h2⟩, h3, h4, h5⟩ := (piece_text E hne hw (opens_tm hk hnt) hsrc).adds E hs
      obtain ⟨ns, s2, g1, g2, g3, g4⟩ := tm_top r k (pre ++ w) t' hr hk (by rw [hsrc]; simp) h5 (h4.trans hst)
      exact ⟨_, s2, .text h2 g1, h3.cons E g2, g3, by simpa [STm.src] using g4⟩
  | .comment w r, k, pre, s, hok, hk, hsrc, hs, hst => by
      rw [STm.ok] at hok
      simp only [Bool.and_eq_true, Bool.not_eq_true'] at hok
      obtain ⟨⟨hw, hd⟩, hr⟩ := hok
      have e : (STm.comment w r).src ++ k = commentText w ++ (r.src ++ k) := by simp [STm.src]
      rw [e] at hs hsrc
      obtain ⟨x, t', ⟨t, rfl, h2, h2'⟩, h3, h4, h5⟩ := (piece_comment E hw hd hsrc).adds E hs
      obtain ⟨ns, s2, g1, g2, g3, g4⟩ := tm_top r k (pre ++ commentText w) t' hr hk (by rw [hsrc]; simp) h5 (h4.trans hst)
      exact ⟨_, s2, .comment h2 h2' g1, h3.cons E g2, g3, by simpa [STm.src] using g4⟩
  | .longComment w r, k, pre, s, hok, hk, hsrc, hs, hst => by
      rw [STm.ok] at hok
      simp only [Bool.and_eq_true, Bool.not_eq_true'] at hok
      obtain ⟨hw, hr⟩ := hok
      have e : (STm.longComment w r).src ++ k = longCommentText w ++ (r.src ++ k) := by simp [STm.src]
      rw [e] at hs hsrc
      obtain ⟨x, t', ⟨t, rfl, h2, h2'⟩, h3, h4, h5⟩ := (piece_long E hw hsrc).adds E hs
      obtain ⟨ns, s2, g1, g2, g3, g4⟩ := tm_top r k (pre ++ longCommentText w) t' hr hk (by rw [hsrc]; simp) h5 (h4.trans hst)
      exact ⟨_, s2, .longComment h2 h2' g1, h3.cons E g2, g3, by simpa [STm.src] using g4⟩
  | .escaped w r, k, pre, s, hok, hk, hsrc, hs, hst => by
      rw [STm.ok] at hok
      simp only [Bool.and_eq_true, bne_iff_ne] at hok
      obtain ⟨⟨hw, hnb⟩, hr⟩ := hok
      have e : (STm.escaped w r).src ++ k = escapedText w ++ (r.src ++ k) := by simp [STm.src]
      rw [e] at hs hsrc
      obtain ⟨x, t', ⟨t, rfl, h2, h2'⟩, h3, h4, h5⟩ := (piece_escaped E hw (fun hc => noBrace_tm hk hr (by simpa [hc] using hnb)) hsrc).adds E hs
      obtain ⟨ns, s2, g1, g2, g3, g4⟩ := tm_top r k (pre ++ escapedText w) t' hr hk (by rw [hsrc]; simp) h5 (h4.trans hst)
      exact ⟨_, s2, .escaped h2 h2' g1, h3.cons E g2, g3, by simpa [STm.src] using g4⟩
  | .link esc h lb tt r, k, pre, s, hok, hk, hsrc, hs, hst => by
      rw [STm.ok] at hok
      simp only [Bool.and_eq_true] at hok
      obtain ⟨⟨⟨⟨hh, hlb⟩, htt⟩, hlt⟩, hr⟩ := hok
      have e : (STm.link esc h lb tt r).src ++ k = linkText esc h lb tt ++ (r.src ++ k) := by simp [STm.src]
      rw [e] at hs hsrc
      obtain ⟨x, t', ⟨t, rfl, a1, a2, a3, a4, a5⟩, h3, h4, h5⟩ := (piece_link E hh hlb htt hlt hsrc).adds E hs
      obtain ⟨ns, s2, g1, g2, g3, g4⟩ := tm_top r k (pre ++ linkText esc h lb tt) t' hr hk (by rw [hsrc]; simp) h5 (h4.trans hst)
      exact ⟨_, s2, .link a1 a2 a3 a4 a5 g1, h3.cons E g2, g3, by simpa [STm.src] using g4⟩
  | .stmt raw part tl p a r, k, pre, s, hok, hk, hsrc, hs, hst => by
      rw [STm.ok] at hok
      simp only [Bool.and_eq_true] at hok
      obtain ⟨⟨⟨⟨⟨htl, hg⟩, hp⟩, ha⟩, hnb⟩, hr⟩ := hok
      have e : (STm.stmt raw part tl p a r).src ++ k = stmtText raw part tl p a ++ (r.src ++ k) := by simp [STm.src]
      rw [e] at hs hsrc
      obtain ⟨x, t', ⟨t, rfl, a1, a2, a3, a4⟩, h3, h4, h5⟩ := (piece_stmt E htl hg hp ha (noBrace_tm hk hr hnb) hsrc).adds E hs
      obtain ⟨ns, s2, g1, g2, g3, g4⟩ := tm_top r k (pre ++ stmtText raw part tl p a) t' hr hk (by rw [hsrc]; simp) h5 (h4.trans hst)
      exact ⟨_, s2, .stmt a1 a2 a3 a4 g1, h3.cons E g2, g3, by simpa [STm.src] using g4⟩
  | .dyn raw part tl q b a r, k, pre, s, hok, hk, hsrc, hs, hst => by
      rw [STm.ok] at hok
      simp only [Bool.and_eq_true] at hok
      obtain ⟨⟨⟨⟨⟨⟨htl, hg⟩, hq⟩, hb⟩, ha⟩, hnb⟩, hr⟩ := hok
      have e : (STm.dyn raw part tl q b a r).src ++ k = dynText raw part tl q b a ++ (r.src ++ k) := by simp [STm.src]
      rw [e] at hs hsrc
      obtain ⟨x, t', ⟨t, rfl, a1, a2, a3, ⟨d, a4, a5⟩, a6, a7, a8⟩, h3, h4, h5⟩ := (piece_dyn E htl hg (by rw [SExpr.ok, hq, hb]; rfl) ha (noBrace_tm hk hr hnb) hsrc).adds E hs
      obtain ⟨ns, s2, g1, g2, g3, g4⟩ := tm_top r k (pre ++ dynText raw part tl q b a) t' hr hk (by rw [hsrc]; simp) h5 (h4.trans hst)
      exact ⟨_, s2, .dyn a1 a2 a3 a4 a5 a6 a7 a8 g1, h3.cons E g2, g3, by simpa [STm.src] using g4⟩
  | .rawBlock tl name a w cl r, k, pre, s, hok, hk, hsrc, hs, hst => by
      rw [STm.ok] at hok
      simp only [Bool.and_eq_true] at hok
      obtain ⟨⟨⟨⟨⟨⟨htl, hctl⟩, hn⟩, ha⟩, hw⟩, hcl⟩, hr⟩ := hok
      have e : (STm.rawBlock tl name a w cl r).src ++ k = (rawOpenText tl name a ++ (w ++ rawCloseText name cl)) ++ (r.src ++ k) := by simp [STm.src]
      rw [e] at hs hsrc
      obtain ⟨x, t', ⟨b, t, rfl, a1, a2, a3, a4, a5, a6, a7, a8⟩, h3, h4, h5⟩ := (piece_raw E htl hctl hn ha hw hcl hsrc).adds E hs
      obtain ⟨ns, s2, g1, g2, g3, g4⟩ := tm_top r k (pre ++ (rawOpenText tl name a ++ (w ++ rawCloseText name cl))) t' hr hk (by rw [hsrc]; simp) h5 (h4.trans hst)
      exact ⟨_, s2, .rawBlock a1 a2 a3 a4 a5 a6 a7 a8 g1, h3.cons E g2, g3, by simpa [STm.src] using g4⟩
  | .block part tl name a body cs cl r, k, pre, s, hok, hk, hsrc, hs, hst => by
      rw [STm.ok] at hok
      simp only [Bool.and_eq_true] at hok
      obtain ⟨⟨⟨⟨⟨⟨⟨⟨⟨⟨htl, hg⟩, hctl⟩, hn⟩, ha⟩, hnb⟩, hbok⟩, hcok⟩, hcl⟩, hnr⟩, hr⟩ := hok
      have e : (STm.block part tl name a body cs cl r).src ++ k =
        (openText part tl name a ++ (body.src ++ (cs.src ++ closeText name cl))) ++ (r.src ++ k) := by simp [STm.src]
      rw [e] at hs hsrc
      obtain ⟨tok, L, s0, s2, tok2, L2, b, t, a1, a2, a3, a4, a5, a6, a7, a8⟩ := block_run E (tm_runs E body) (cls_runs E cs) htl hg hctl hn ha hnb hbok hcok hcl
        (noBrace_tm hk hr hnr) hsrc hs
      have hst' : t.stack = [] := a6.trans hst
      have hend := a3 _ _ (fun _ => hst') (ends_close E a4 a5 hst')
      obtain ⟨ns, s3, g1, g2, g3, g4⟩ := tm_top r k (pre ++ (openText part tl name a ++ (body.src ++ (cs.src ++ closeText name cl))))
        t hr hk (by rw [hsrc]; simp) a7 hst'
      exact ⟨_, s3, a8 r ns g1, (adds_block E a1 a2 hend).cons E g2, g3, by simpa [STm.src] using g4⟩

/-- **C56**: compiling the text of any well-formed template succeeds, whatever the file name and
offsets, and the compiled nodes are that template: the same pieces in the same order with the same
text, names, arguments, literals, clauses, nesting and white space control, and nothing else. -/
theorem C56_roundtrip (T : STm) (o : ParserOptions) (h : T.ok [] = true) :
    ∃ ns, compile T.src o = .ok (.document T.src ns) ∧ TmRep T ns := by
  obtain ⟨ns, s', h1, h2, h3, h4⟩ := tm_top ⟨T.src, o.fileName⟩ T [] [] (initPS T.src o) h .nil (by simp)
    (by simp [AtB, PS.rem, initPS, lex, lexFrom]) rfl
  refine ⟨ns, ?_, h1⟩
  have hend : Ends (fun n => parseLoop ⟨T.src, o.fileName⟩ n ns) s' (.ok ns) s' := by
    refine ⟨by simp, 1, ?_⟩
    simp only
    rw [parseLoop, P.bind_def]
    have : tokenP s' = (.ok none, s') := by
      simp only [AtB, PS.rem, lexFrom_nil, List.append_eq_nil_iff, Option.toList_eq_nil_iff] at h4
      unfold tokenP
      rw [h4.1, h4.2]
    unfold parserNext
    rw [P.bind_def, this]
    rfl
  have hE := h2 [] (.ok ns) s' (by simpa using hend)
  have ht := parseLoop_top ⟨T.src, o.fileName⟩ (2 * (initPS T.src o).toks.length + 2) [] (initPS T.src o)
    (by rw [init_left]; simp [initPS]; omega)
  have hx := hE.at (f := fun n => parseLoop ⟨T.src, o.fileName⟩ n []) (grows_parseLoop _ []) (n := 2 * (initPS T.src o).toks.length + 2) (by
    unfold Top at ht
    intro hf
    rcases hm : parseLoop ⟨T.src, o.fileName⟩ (2 * (initPS T.src o).toks.length + 2) [] (initPS T.src o) with ⟨r, t'⟩
    rw [hm] at ht
    simp only [hm] at hf
    subst hf
    exact ht)
  unfold compile
  simp only [hx]

end

attribute [local instance] exHost

/-- A template with every kind of piece. -/
def exTm : STm :=
  .text c!"a }} {é\n" <| .comment c!" note " <| .longComment c!" {{x}} " <| .escaped c!"no" <| .escaped c!"{ x ~}" <| .link false c!"u" (some c!"l b") none <|
  .stmt true false ⟨true, false, [], [], []⟩ ⟨2, .name c!"foo", [.word c!"bar", ⟨true, .bracket c!"a. b"⟩, ⟨false, .quoted true [.ch 'q', .quote, .ch ' ']⟩]⟩ (.argW c!"\n  " (.lit (.str false [.ch 'q', .quote, .ch '\\', .ch 'z']))
    (.arg (.sub ⟨0, .name c!"f", []⟩ (.arg (.lit (.bracket c!"12 ")) (.done (.tail c!" "))))
      (.done (.pair c!"k" (.path ⟨0, .dot, [⟨false, .bracket c!"0"⟩, .word c!"z"]⟩) (.pairW c!"\t\n" c!"j" (.lit (.neg 3)) (.tail c!"\n")))))) <|
  .rawBlock ⟨false, true, [' '], [], []⟩ c!"raw" (.done .nil) c!"keep } this" ⟨false, false, [], [], [' ']⟩ <|
  .block false ⟨false, true, [], [], []⟩ c!"if" (.arg (.path ⟨0, .loc c!"root", [.word c!"x"]⟩) (.done .nil))
    (.text c!"yes " <| .block true ⟨false, false, [], [], []⟩ c!"p" (.done .nil) (.text c!"in" .nil) .nil ⟨true, true, [], [], []⟩ .nil)
    (.cons ⟨false, false, [' '], c!" ", []⟩ (some (⟨0, .name c!"y", []⟩, .done .nil)) (.stmt false true ⟨false, false, [' '], c!" \n", []⟩ ⟨0, .name c!"part", []⟩ (.done .nil) .nil)
      (.cons ⟨false, true, [], [], [' ']⟩ none (.text c!"no" .nil) .nil)) ⟨true, false, [' '], [], [' ']⟩ <|
  .stmt false false ⟨false, false, [], c!"\n ", []⟩ ⟨0, .name c!"x", []⟩ (.done (.tail c!"\n")) <|
  .dyn false true ⟨true, false, [], c!" ", []⟩ ⟨0, .name c!"pick", []⟩ (.arg (.lit (.bool true)) (.done .nil)) (.done (.pair c!"k" (.lit .null) .nil)) <|
  .dyn true false ⟨false, true, [], [], []⟩ ⟨0, .name c!"f", []⟩ (.done .nil) (.arg (.path ⟨0, .abs c!"b", [.word c!"c", ⟨true, .word c!"d"⟩]⟩) (.done (.pair c!"k" (.path ⟨0, .abs c!"e", []⟩) .nil))) <|
  .text c!" end" .nil

example : exTm.ok [] = true := by decide +kernel

end Bracket.Props
