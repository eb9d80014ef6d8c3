/-
Base definitions shared by every part of the model: strings as lists of Unicode
scalar values, UTF-8 byte offsets, Rust `&s[a..b]` slicing, `trim_start` /
`trim_end`, and the parameters standing for code outside the repository.
-/

namespace Bracket

/-- Rust `str`/`String`.  A Rust string is a UTF-8 byte sequence; it is modelled
by the list of its `char`s, and byte offsets are computed with `blen`. -/
abbrev Str := List Char

/-- `c!"abc"` is notation for `'a' :: 'b' :: 'c' :: []` (convenience for literals only). -/
macro:max "c!" s:str : term => do
  let cs := s.getString.toList
  let nil : Lean.TSyntax `term ← `(([] : List Char))
  cs.foldrM (fun c acc => do
    let lit : Lean.TSyntax `term := ⟨Lean.Syntax.mkCharLit c⟩
    `(List.cons $lit $acc)) nil

/-- Length in UTF-8 bytes: Rust `str::len`. -/
def blen : Str → Nat
  | [] => 0
  | c :: cs => c.utf8Size + blen cs

/-- Drop exactly `n` bytes; `none` when `n` is out of range or inside a `char`. -/
def dropB : Nat → Str → Option Str
  | 0, s => some s
  | _ + 1, [] => none
  | n + 1, c :: cs =>
      if c.utf8Size ≤ n + 1 then dropB (n + 1 - c.utf8Size) cs else none

/-- Take exactly `n` bytes; `none` when `n` is out of range or inside a `char`. -/
def takeB : Nat → Str → Option Str
  | 0, _ => some []
  | _ + 1, [] => none
  | n + 1, c :: cs =>
      if c.utf8Size ≤ n + 1 then (takeB (n + 1 - c.utf8Size) cs).map (c :: ·) else none

/-- Rust `&s[a..b]`; `none` models the panic (`a > b`, out of range, or not on a
`char` boundary). -/
def slice (s : Str) (a b : Nat) : Option Str :=
  if a ≤ b then (dropB a s).bind (takeB (b - a)) else none

/-- Unicode `White_Space`: used by Rust `trim_start`/`trim_end` and by `\s` of the
`regex-syntax` crate (both use the same Unicode property). -/
def isWs (c : Char) : Bool :=
  let n := c.toNat
  (9 ≤ n && n ≤ 13) || n == 0x20 || n == 0x85 || n == 0xA0 || n == 0x1680 ||
  (0x2000 ≤ n && n ≤ 0x200A) || n == 0x2028 || n == 0x2029 || n == 0x202F ||
  n == 0x205F || n == 0x3000

/-- Rust `str::trim_start`. -/
def trimStart : Str → Str
  | [] => []
  | c :: cs => if isWs c then trimStart cs else c :: cs

/-- Rust `str::trim_end`. -/
def trimEnd (s : Str) : Str := (trimStart s.reverse).reverse

/-- Rust `str::starts_with` for a string pattern. -/
def startsWith : Str → Str → Bool
  | _, [] => true
  | [], _ :: _ => false
  | c :: cs, p :: ps => c == p && startsWith cs ps

/-- Rust `str::ends_with` for a string pattern. -/
def endsWith (s p : Str) : Bool := startsWith s.reverse p.reverse

/-- Decimal digits of a natural number, most significant first (`format!("{}", n)`). -/
def natDigitsAux : Nat → Nat → Str → Str
  | 0, _, acc => acc
  | fuel + 1, n, acc =>
      let acc := Char.ofNat (48 + n % 10) :: acc
      if n / 10 = 0 then acc else natDigitsAux fuel (n / 10) acc

/-- Decimal rendering of a natural number. -/
def showNat (n : Nat) : Str := natDigitsAux (n + 1) n []

/-- A half-open range of byte offsets (or of line numbers): Rust `Range<usize>`. -/
structure Span where
  start : Nat
  stop : Nat
deriving DecidableEq, Repr

/-- A finite IEEE-754 double: `(-1)^neg * mant * 2^exp`.  `serde_json::Number`
never holds NaN or an infinity. -/
structure F64 where
  neg : Bool
  mant : Nat
  exp : Int
deriving DecidableEq, Repr

/-- `serde_json::Number` (1.0.59, default features): `PosInt(u64)`, `NegInt(i64)`
(always negative: the constructor holds the magnitude) or a finite `Float(f64)`. -/
inductive Num where
  | posInt (n : Nat)
  | negInt (magnitude : Nat)
  | float (f : F64)
deriving DecidableEq, Repr

/-- Behaviour of code outside the repository that the modelled functions call.
Every theorem is proved for an arbitrary `Host` unless it says otherwise. -/
class Host where
  /-- decimal text → `f64` as done by `serde_json` for number literals with a
  fraction, an exponent or more than 64 bits; `none` = "number out of range" -/
  parseFloat : Str → Option F64
  /-- shortest round-trip rendering of a finite double (`ryu`, used by serde_json) -/
  showFloat : F64 → Str
  /-- `unicode_width::UnicodeWidthStr::width` -/
  width : Str → Nat
  /-- the number serde_json 1.0.59 yields for the literal `-0` (`0` or `-0.0`) -/
  negZero : Num
  /-- `true` for a build with overflow checks (debug), `false` for release -/
  overflowChecks : Bool

/-- Association-list lookup (first match). Used for Rust maps whose keys are
unique by construction. -/
def assoc {β : Type u} (k : Str) : List (Str × β) → Option β
  | [] => none
  | (k', v) :: r => if k' = k then some v else assoc k r

/-- `HashMap::insert`: overwrite in place when present, otherwise append. -/
def assocInsert {β : Type u} (k : Str) (v : β) : List (Str × β) → List (Str × β)
  | [] => [(k, v)]
  | (k', v') :: r => if k' = k then (k, v) :: r else (k', v') :: assocInsert k v r

/-- `HashMap::remove`. -/
def assocErase {β : Type u} (k : Str) : List (Str × β) → List (Str × β)
  | [] => []
  | (k', v') :: r => if k' = k then assocErase k r else (k', v') :: assocErase k r

end Bracket
