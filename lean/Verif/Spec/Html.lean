import Verif.Model.Basic

/-! Specification of HTML escaping: the five entities and a decoder, independent of
the escaping code. -/

namespace Bracket.Spec

/-- The entities the escaped text may use, with the character each stands for. -/
def entities : List (Str × Char) :=
  [ (c!"&lt;", '<'), (c!"&gt;", '>'), (c!"&quot;", '"'), (c!"&amp;", '&'), (c!"&#x27;", '\'') ]

/-- Characters that have a meaning in HTML text or quoted attributes (besides `&`). -/
def markup : List Char := ['<', '>', '"', '\'']

/-- What a browser does with the five entities; any other character stands for itself. -/
def decode : Str → Str
  | '&' :: 'l' :: 't' :: ';' :: r => '<' :: decode r
  | '&' :: 'g' :: 't' :: ';' :: r => '>' :: decode r
  | '&' :: 'q' :: 'u' :: 'o' :: 't' :: ';' :: r => '"' :: decode r
  | '&' :: 'a' :: 'm' :: 'p' :: ';' :: r => '&' :: decode r
  | '&' :: '#' :: 'x' :: '2' :: '7' :: ';' :: r => '\'' :: decode r
  | c :: r => c :: decode r
  | [] => []

/-- Text that is safe to put in HTML: no markup character, and each `&` starts one
of the entities. -/
def HtmlSafe (s : Str) : Prop :=
  (∀ c ∈ s, c ∉ markup) ∧
  ∀ a b, s = a ++ '&' :: b → ∃ e ∈ entities, ∃ t, '&' :: b = e.1 ++ t

end Bracket.Spec
