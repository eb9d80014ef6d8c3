import Verif.Model.Basic

/-! Model of `src/json.rs` and of the parts of `serde_json` it relies on
(`Value`, `Number`, `Map`, `to_string`, `to_string_pretty`). -/

namespace Bracket

/-- `serde_json::Value`.  Without the `preserve_order` feature `Map` is a
`BTreeMap<String, Value>`: it is modelled by an association list kept in
strictly increasing key order (`mapInsert` keeps it so: `sorted_mapInsert` in `Props/Hash`). -/
inductive Value where
  | null
  | bool (b : Bool)
  | num (n : Num)
  | str (s : Str)
  | arr (l : List Value)
  | obj (m : List (Str × Value))

/-- Byte order of `String` keys in a `BTreeMap`; UTF-8 order coincides with
code-point order. -/
def strLt : Str → Str → Bool
  | _, [] => false
  | [], _ :: _ => true
  | a :: as, b :: bs => a.toNat < b.toNat || (a == b && strLt as bs)

/-- `Map::insert` on a sorted map. -/
def mapInsert (k : Str) (v : Value) : List (Str × Value) → List (Str × Value)
  | [] => [(k, v)]
  | (k', v') :: r =>
      if k' = k then (k, v) :: r
      else if strLt k k' then (k, v) :: (k', v') :: r
      else (k', v') :: mapInsert k v r

/-- Hexadecimal digit (lower case) as written by serde_json for `\u00XX`. -/
def hexDigit (n : Nat) : Char := if n < 10 then Char.ofNat (48 + n) else Char.ofNat (87 + n)

/-- serde_json string escaping for one character. -/
def jsonEscChar (c : Char) : Str :=
  if c = '"' then ['\\', '"']
  else if c = '\\' then ['\\', '\\']
  else if c.toNat = 8 then ['\\', 'b']
  else if c.toNat = 12 then ['\\', 'f']
  else if c = '\n' then ['\\', 'n']
  else if c = '\r' then ['\\', 'r']
  else if c = '\t' then ['\\', 't']
  else if c.toNat < 32 then ['\\', 'u', '0', '0', hexDigit (c.toNat / 16), hexDigit (c.toNat % 16)]
  else [c]

/-- serde_json rendering of a string, with quotes. -/
def jsonStr (s : Str) : Str := '"' :: (s.flatMap jsonEscChar ++ ['"'])

/-- `Number`'s `Display`. -/
def showNum [Host] : Num → Str
  | .posInt n => showNat n
  | .negInt m => '-' :: showNat m
  | .float f => Host.showFloat f

mutual
/-- `serde_json::to_string` / `Value::to_string` (compact form). -/
def toJson [Host] : Value → Str
  | .null => c!"null"
  | .bool true => c!"true"
  | .bool false => c!"false"
  | .num n => showNum n
  | .str s => jsonStr s
  | .arr l => '[' :: (arrJson l ++ [']'])
  | .obj m => '{' :: (objJson m ++ ['}'])
/-- Comma-separated elements. -/
def arrJson [Host] : List Value → Str
  | [] => []
  | v :: r => toJson v ++ (match r with | [] => [] | _ :: _ => ',' :: arrJson r)
/-- Comma-separated members. -/
def objJson [Host] : List (Str × Value) → Str
  | [] => []
  | (k, v) :: r =>
      jsonStr k ++ ':' :: (toJson v ++ (match r with | [] => [] | _ :: _ => ',' :: objJson r))
end

/-- Indentation of the pretty printer: two spaces per level. -/
def indent (n : Nat) : Str := List.replicate (2 * n) ' '

mutual
/-- `serde_json::to_string_pretty`, at nesting level `n`. -/
def toJsonPretty [Host] (n : Nat) : Value → Str
  | .null => c!"null"
  | .bool true => c!"true"
  | .bool false => c!"false"
  | .num x => showNum x
  | .str s => jsonStr s
  | .arr [] => c!"[]"
  | .arr (v :: r) => '[' :: (arrJsonPretty (n + 1) (v :: r) ++ '\n' :: (indent n ++ [']']))
  | .obj [] => c!"{}"
  | .obj (kv :: r) => '{' :: (objJsonPretty (n + 1) (kv :: r) ++ '\n' :: (indent n ++ ['}']))
/-- One element per line. -/
def arrJsonPretty [Host] (n : Nat) : List Value → Str
  | [] => []
  | v :: r => '\n' :: (indent n ++ toJsonPretty n v ++
      (match r with | [] => [] | _ :: _ => ',' :: arrJsonPretty n r))
/-- One member per line. -/
def objJsonPretty [Host] (n : Nat) : List (Str × Value) → Str
  | [] => []
  | (k, v) :: r => '\n' :: (indent n ++ jsonStr k ++ ':' :: ' ' :: (toJsonPretty n v ++
      (match r with | [] => [] | _ :: _ => ',' :: objJsonPretty n r)))
end

/-- json.rs:7-14 `stringify`. -/
def stringify [Host] (v : Value) : Str :=
  match v with
  | .str s => s
  | .obj _ => c!"Object"
  | .arr l => c!"Array" ++ ('[' :: (showNat l.length ++ [']']))
  | .null => toJson .null
  | .bool b => toJson (.bool b)
  | .num n => toJson (.num n)

/-- json.rs:16-21 `unquote`. -/
def unquote [Host] (v : Value) : Str :=
  match v with
  | .str s => s
  | .null => toJson .null
  | .bool b => toJson (.bool b)
  | .num n => toJson (.num n)
  | .arr l => toJson (.arr l)
  | .obj m => toJson (.obj m)

/-- ASCII digit value. -/
def digitVal (c : Char) : Option Nat :=
  if '0'.toNat ≤ c.toNat ∧ c.toNat ≤ '9'.toNat then some (c.toNat - 48) else none

/-- Decimal digits to a number; `none` on a non-digit. -/
def parseDigits : Str → Nat → Option Nat
  | [], acc => some acc
  | c :: cs, acc =>
      match digitVal c with
      | some d => parseDigits cs (acc * 10 + d)
      | none => none

/-- Rust `str::parse::<usize>`: an optional `+`, then at least one ASCII digit.
Simplification: no overflow failure; an index above `usize::MAX` is out of range
of any list, and the caller yields `None` in both cases. -/
def parseUsize (s : Str) : Option Nat :=
  match s with
  | [] => none
  | ['+'] => none
  | '+' :: cs => parseDigits cs 0
  | cs => parseDigits cs 0

/-- json.rs:53-71 `find_field`. -/
def findField (target : Value) (field : Str) : Option Value :=
  match target with
  | .obj m => assoc field m
  | .arr l => match parseUsize field with
      | some i => l[i]?
      | none => none
  | _ => none

/-- The `while` loop of json.rs:33-45: at least one part must be consumed. -/
def findPartsLoop : List Str → Value → Option Value
  | [], _ => none
  | [p], cur => findField cur p
  | p :: q :: r, cur =>
      match findField cur p with
      | some v => findPartsLoop (q :: r) v
      | none => none

/-- json.rs:24-50 `find_parts`. -/
def findParts (parts : List Str) (doc : Value) : Option Value :=
  match doc with
  | .obj _ => findPartsLoop parts doc
  | .arr _ => findPartsLoop parts doc
  | _ => none

/-- `!= 0` for the three kinds of number (`-0.0 == 0.0`). -/
def Num.nonzero : Num → Bool
  | .posInt n => n != 0
  | .negInt n => n != 0
  | .float f => f.mant != 0

/-- json.rs:73-92 `is_truthy`. -/
def isTruthy : Value → Bool
  | .obj _ => true
  | .arr _ => true
  | .str s => decide (blen s > 0)
  | .bool b => b
  | .num n => n.nonzero
  | .null => false

/-- Largest `k ≤ fuel` steps of halving until `n < 2^53`: returns `(n', k)`. -/
def shiftCount : Nat → Nat → Nat
  | 0, _ => 0
  | fuel + 1, n => if n < 2 ^ 53 then 0 else 1 + shiftCount fuel (n / 2)

/-- Rust `n as f64` for an integer below 2^64 (round to nearest, ties to even);
the rounded value is an integer. -/
def roundF64 (n : Nat) : Nat :=
  let k := shiftCount 64 n
  let q := n / 2 ^ k
  let r := n % 2 ^ k
  let half := 2 ^ k / 2
  if k = 0 then n
  else if r < half then q * 2 ^ k
  else if half < r then (q + 1) * 2 ^ k
  else if q % 2 = 0 then q * 2 ^ k else (q + 1) * 2 ^ k

/-- `Number::as_f64`; always `Some` in serde_json 1.0.59 without
`arbitrary_precision`. -/
def Num.asF64 : Num → F64
  | .posInt n => ⟨false, roundF64 n, 0⟩
  | .negInt m => ⟨true, roundF64 m, 0⟩
  | .float f => f

/-- Signed mantissa. -/
def F64.sgn (a : F64) : Int := if a.neg then -(a.mant : Int) else (a.mant : Int)

/-- Both operands scaled to the common (smaller) exponent. -/
def F64.scaled (a b : F64) : Int × Int :=
  (a.sgn * 2 ^ (a.exp - min a.exp b.exp).toNat, b.sgn * 2 ^ (b.exp - min a.exp b.exp).toNat)

/-- `lhs == rhs` on finite doubles. -/
def F64.eqb (a b : F64) : Bool := (F64.scaled a b).1 == (F64.scaled a b).2
/-- `lhs < rhs` on finite doubles. -/
def F64.ltb (a b : F64) : Bool := decide ((F64.scaled a b).1 < (F64.scaled a b).2)

end Bracket
