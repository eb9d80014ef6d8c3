import Verif.Model.Lexer

/-! Specifications of lexing: tokens tile the source; what a pattern matches. -/

namespace Bracket.Spec

/-- `Tiles off s ts`: the spans of `ts` cut the text `s`, which starts at byte `off`, into
consecutive non-empty pieces from its first to its last character. -/
inductive Tiles : Nat → Str → List Token → Prop
  | nil {off : Nat} : Tiles off [] []
  | cons {off : Nat} {w r : Str} {k : Kind} {ts : List Token} (hw : w ≠ [])
      (h : Tiles (off + blen w) r ts) : Tiles off (w ++ r) (⟨k, ⟨off, off + blen w⟩⟩ :: ts)

/-- No two neighbours are both text. -/
def NoAdjacentText : List Token → Prop
  | a :: b :: r => ¬ (a.isText = true ∧ b.isText = true) ∧ NoAdjacentText (b :: r)
  | _ => True

/-- The words a pattern matches. -/
inductive Matches : Re → Str → Prop
  | eps : Matches .eps []
  | cls {p : Char → Bool} {c : Char} (h : p c = true) : Matches (.cls p) [c]
  | seq {a b : Re} {u v : Str} (ha : Matches a u) (hb : Matches b v) : Matches (.seq a b) (u ++ v)
  | left {a b : Re} {u : Str} (h : Matches a u) : Matches (.alt a b) u
  | right {a b : Re} {u : Str} (h : Matches b u) : Matches (.alt a b) u
  | done {a : Re} : Matches (.star a) []
  | more {a : Re} {u v : Str} (hu : Matches a u) (hv : Matches (.star a) v) :
      Matches (.star a) (u ++ v)

/-- Rule `r` of the table matches the first `n ≥ 1` characters of `s`. -/
def RuleAt (rs : List Rule) (s : Str) (n : Nat) (prio : Nat) (k : Kind) : Prop :=
  0 < n ∧ n ≤ s.length ∧ ∃ re, (re, prio, k) ∈ rs ∧ Matches re (s.take n)

end Bracket.Spec
