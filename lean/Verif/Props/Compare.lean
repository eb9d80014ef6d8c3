import Mathlib.Tactic.NormNum
import Mathlib.Tactic.Positivity
import Mathlib.Tactic.Push
import Mathlib.Tactic.Ring
import Mathlib.Tactic.Linarith
import Verif.Spec.Number
import Verif.Spec.Helper

/-! C20: the comparison helpers. -/

namespace Bracket.Props
open Spec

/-- The rational the comparison helpers actually compare: the `f64` of the number. -/
abbrev cmpValue (n : Num) : ℚ := floatValue n.asF64

theorem floatValue_scaled (f : F64) (m : Int) (h : m ≤ f.exp) :
    floatValue f = ((f.sgn * 2 ^ (f.exp - m).toNat : Int) : ℚ) * (2 : ℚ) ^ m := by
  have h2 : (2 : ℚ) ≠ 0 := by norm_num
  have e1 : (2 : ℚ) ^ f.exp = (2 : ℚ) ^ (f.exp - m).toNat * (2 : ℚ) ^ m := by
    rw [← zpow_natCast, Int.toNat_of_nonneg (by omega), ← zpow_add₀ h2]
    congr 1; omega
  have e2 : ((f.sgn : Int) : ℚ) = if f.neg then -(f.mant : ℚ) else (f.mant : ℚ) := by
    unfold F64.sgn; split <;> simp
  unfold floatValue
  rw [e1, ← e2]
  push_cast
  ring

/-- The code's scaled comparison is the comparison of the values. -/
theorem ltb_iff (a b : F64) : F64.ltb a b = true ↔ floatValue a < floatValue b := by
  have hp : (0 : ℚ) < (2 : ℚ) ^ min a.exp b.exp := by positivity
  rw [floatValue_scaled a (min a.exp b.exp) (by omega), floatValue_scaled b (min a.exp b.exp) (by omega),
    mul_lt_mul_iff_left₀ hp, Int.cast_lt]
  exact ⟨of_decide_eq_true, decide_eq_true⟩

theorem eqb_iff (a b : F64) : F64.eqb a b = true ↔ floatValue a = floatValue b := by
  have hp : (0 : ℚ) < (2 : ℚ) ^ min a.exp b.exp := by positivity
  rw [floatValue_scaled a (min a.exp b.exp) (by omega), floatValue_scaled b (min a.exp b.exp) (by omega),
    mul_left_inj' (ne_of_gt hp), Int.cast_inj]
  simp [F64.eqb, F64.scaled]

theorem hCmp_returns (f : F64 → F64 → Bool) (a b : Num) :
    Returns (hCmp f) [.num a, .num b] (.bool (f a.asF64 b.asF64)) := by
  intro ctx t h
  simp [hCmp, Ctx.withArity, Ctx.arity, h, Ctx.tryGet, Ctx.get, Ctx.assert, assertKinds, assertType]

/-- C20: each comparison helper returns the boolean of the comparison it is named
after, on the `f64` values of its two numbers. -/
theorem C20_compare (a b : Num) :
    Returns hLt [.num a, .num b] (.bool (decide (cmpValue a < cmpValue b))) ∧
    Returns hGt [.num a, .num b] (.bool (decide (cmpValue a > cmpValue b))) ∧
    Returns hEq [.num a, .num b] (.bool (decide (cmpValue a = cmpValue b))) ∧
    Returns hNe [.num a, .num b] (.bool (decide (cmpValue a ≠ cmpValue b))) ∧
    Returns hLte [.num a, .num b] (.bool (decide (cmpValue a ≤ cmpValue b))) ∧
    Returns hGte [.num a, .num b] (.bool (decide (cmpValue a ≥ cmpValue b))) := by
  have key : ∀ (f : F64 → F64 → Bool) (p : Prop) [Decidable p],
      (f a.asF64 b.asF64 = true ↔ p) → Returns (hCmp f) [.num a, .num b] (.bool (decide p)) := by
    intro f p _ h
    have : decide p = f a.asF64 b.asF64 := by
      rw [Bool.eq_iff_iff, h]; simp
    rw [this]
    exact hCmp_returns f a b
  refine ⟨key _ _ (ltb_iff _ _), key _ _ (ltb_iff _ _), key _ _ (eqb_iff _ _), key _ _ ?_, key _ _ ?_, key _ _ ?_⟩
  · rw [Bool.not_eq_true', ← Bool.not_eq_true, eqb_iff]
  · rw [Bool.or_eq_true, ltb_iff, eqb_iff, le_iff_lt_or_eq]
  · rw [Bool.or_eq_true, ltb_iff, eqb_iff, ge_iff_le, le_iff_lt_or_eq, eq_comm (a := cmpValue b)]

/-- C20: on any two numbers exactly one of `lt`, `eq`, `gt` returns true; `lte`, `gte`,
`ne` are determined by them. -/
theorem C20_trichotomy (a b : Num) :
    ∃ lt eq gt : Bool,
      Returns hLt [.num a, .num b] (.bool lt) ∧ Returns hEq [.num a, .num b] (.bool eq) ∧
      Returns hGt [.num a, .num b] (.bool gt) ∧ Returns hNe [.num a, .num b] (.bool !eq) ∧
      Returns hLte [.num a, .num b] (.bool (lt || eq)) ∧
      Returns hGte [.num a, .num b] (.bool (gt || eq)) ∧
      (lt, eq, gt) ∈ [(true, false, false), (false, true, false), (false, false, true)] := by
  obtain ⟨h1, h2, h3, h4, h5, h6⟩ := C20_compare a b
  refine ⟨_, _, _, h1, h3, h2, ?_, ?_, ?_, ?_⟩
  · rw [← decide_not]; exact h4
  · rw [← Bool.decide_or]; simpa [le_iff_lt_or_eq] using h5
  · rw [← Bool.decide_or]
    have : (cmpValue a ≥ cmpValue b) = (cmpValue a > cmpValue b ∨ cmpValue a = cmpValue b) := by
      rw [ge_iff_le, le_iff_lt_or_eq, eq_comm (a := cmpValue b)]
    simpa only [this] using h6
  · rcases lt_trichotomy (cmpValue a) (cmpValue b) with h | h | h
    · simp [h, ne_of_lt h, not_lt_of_gt h]
    · simp [h]
    · simp [h, ne_of_gt h, not_lt_of_gt h]

/-- C20: `lt` is transitive. -/
theorem C20_order (a b c : Num)
    (hab : Returns hLt [.num a, .num b] (.bool true))
    (hbc : Returns hLt [.num b, .num c] (.bool true)) :
    Returns hLt [.num a, .num c] (.bool true) := by
  have det : ∀ {h args v w}, Returns h args v → Returns h args w → v = w := by
    intro h args v w h1 h2
    let ctx : Ctx := ⟨Call.default, [], args, [], none, none, []⟩
    have := (h1 ctx none rfl).symm.trans (h2 ctx none rfl)
    simpa using this
  have h1 : cmpValue a < cmpValue b := by
    have := det (C20_compare a b).1 hab; simpa using this
  have h2 : cmpValue b < cmpValue c := by
    have := det (C20_compare b c).1 hbc; simpa using this
  have := (C20_compare a c).1
  simpa [h1.trans h2] using this

example : Returns hLt [.num (.negInt 3), .num (.posInt 2)] (.bool true) ∧
    Returns hLt [.num (.posInt 2), .num (.float ⟨false, 5, -1⟩)] (.bool true) := by
  constructor
  · have := (C20_compare (.negInt 3) (.posInt 2)).1
    have e : cmpValue (.negInt 3) < cmpValue (.posInt 2) := by
      rw [← ltb_iff]; decide
    simpa [e] using this
  · have := (C20_compare (.posInt 2) (.float ⟨false, 5, -1⟩)).1
    have e : cmpValue (.posInt 2) < cmpValue (.float ⟨false, 5, -1⟩) := by
      rw [← ltb_iff]; decide
    simpa [e] using this

/-- C20: `eq` is reflexive, symmetric and transitive. -/
theorem C20_equivalence (a b c : Num) :
    Returns hEq [.num a, .num a] (.bool true) ∧
    (Returns hEq [.num a, .num b] (.bool true) → Returns hEq [.num b, .num a] (.bool true)) ∧
    (Returns hEq [.num a, .num b] (.bool true) → Returns hEq [.num b, .num c] (.bool true) → Returns hEq [.num a, .num c] (.bool true)) := by
  have det : ∀ {h args v w}, Returns h args v → Returns h args w → v = w := by
    intro h args v w h1 h2
    let ctx : Ctx := ⟨Call.default, [], args, [], none, none, []⟩
    have := (h1 ctx none rfl).symm.trans (h2 ctx none rfl)
    simpa using this
  have val : ∀ {x y}, Returns hEq [.num x, .num y] (.bool true) → cmpValue x = cmpValue y := by
    intro x y h
    have := det (C20_compare x y).2.2.1 h; simpa using this
  refine ⟨by simpa using (C20_compare a a).2.2.1, fun h => ?_, fun h h' => ?_⟩
  · simpa [(val h).symm] using (C20_compare b a).2.2.1
  · simpa [(val h).trans (val h')] using (C20_compare a c).2.2.1

/-- C20: a non-number operand is a type error naming the helper, never a result. -/
theorem C20_type_error (f : F64 → F64 → Bool) (a b : Value)
    (h : typeOf a ≠ .number ∨ typeOf b ≠ .number) :
    ∃ got, Fails (hCmp f) [a, b] (fun name => .typeAssert name c!"number" got) := by
  by_cases ha : typeOf a = .number
  · have hb : typeOf b ≠ .number := by tauto
    refine ⟨(typeOf b).name, fun ctx t hc => ?_⟩
    cases a <;> simp [typeOf] at ha
    cases b <;> simp [typeOf] at hb <;>
      simp [hCmp, Ctx.withArity, Ctx.arity, hc, Ctx.tryGet, Ctx.get, Ctx.assert, assertKinds,
        assertType, JType.name, typeOf]
  · refine ⟨(typeOf a).name, fun ctx t hc => ?_⟩
    cases a <;> simp [typeOf] at ha <;>
      simp [hCmp, Ctx.withArity, Ctx.arity, hc, Ctx.tryGet, Ctx.get, Ctx.assert, assertKinds,
        assertType, JType.name, typeOf]

example : typeOf (.str c!"1") ≠ .number := by decide

/-! ### Integers -/

theorem shiftCount_small {fuel n : Nat} (h : n < 2 ^ 53) : shiftCount fuel n = 0 := by
  cases fuel with
  | zero => rfl
  | succ f => rw [shiftCount, if_pos h]

theorem roundF64_small {n : Nat} (h : n ≤ 2 ^ 53) : roundF64 n = n := by
  rcases Nat.lt_or_eq_of_le h with h | rfl
  · simp [roundF64, shiftCount_small h]
  · decide

/-- C20: integers up to 2^53 in magnitude are compared exactly. -/
theorem C20_exact_small (n : Nat) (h : n ≤ 2 ^ 53) :
    cmpValue (.posInt n) = numValue (.posInt n) ∧ cmpValue (.negInt n) = numValue (.negInt n) := by
  simp [cmpValue, Num.asF64, floatValue, numValue, roundF64_small h]

example : (9007199254740992 : Nat) ≤ 2 ^ 53 := by decide

/-- C20 fails beyond that: two different integers compare equal. -/
theorem C20_eq_collision :
    numValue (.posInt (2 ^ 53)) ≠ numValue (.posInt (2 ^ 53 + 1)) ∧
    Returns hEq [.num (.posInt (2 ^ 53)), .num (.posInt (2 ^ 53 + 1))] (.bool true) := by
  constructor
  · simp [numValue]
  · have h := (C20_compare (.posInt (2 ^ 53)) (.posInt (2 ^ 53 + 1))).2.2.1
    have e : cmpValue (.posInt (2 ^ 53)) = cmpValue (.posInt (2 ^ 53 + 1)) := by
      rw [← eqb_iff]; decide
    rw [decide_eq_true e] at h
    exact h

theorem shiftCount_spec (fuel n : Nat) (h : n < 2 ^ (53 + fuel)) :
    n < 2 ^ (53 + shiftCount fuel n) ∧ (shiftCount fuel n ≠ 0 → 2 ^ (52 + shiftCount fuel n) ≤ n) := by
  induction fuel generalizing n with
  | zero => exact ⟨h, by simp [shiftCount]⟩
  | succ f ih =>
      by_cases hn : n < 2 ^ 53
      · rw [shiftCount, if_pos hn]; exact ⟨hn, by simp⟩
      · rw [shiftCount, if_neg hn]
        have h2 : n / 2 < 2 ^ (53 + f) := by
          rw [Nat.div_lt_iff_lt_mul (by omega), ← pow_succ]; exact h
        obtain ⟨h3, h4⟩ := ih (n / 2) h2
        generalize hk : shiftCount f (n / 2) = k at *
        have e1 : 2 ^ (53 + (1 + k)) = 2 ^ (53 + k) * 2 := by rw [← pow_succ]; congr 1; omega
        have e2 : 2 ^ (52 + (1 + k)) = 2 ^ (52 + k) * 2 := by rw [← pow_succ]; congr 1; omega
        refine ⟨by rw [e1]; omega, fun _ => ?_⟩
        rw [e2]
        by_cases hk0 : k = 0
        · subst hk0; omega
        · have := h4 hk0; omega

/-- Rounding stays between the neighbouring multiples of the unit in the last place. -/
theorem roundF64_bounds (n : Nat) :
    n / 2 ^ shiftCount 64 n * 2 ^ shiftCount 64 n ≤ roundF64 n ∧
    roundF64 n ≤ (n / 2 ^ shiftCount 64 n + 1) * 2 ^ shiftCount 64 n := by
  unfold roundF64
  simp only
  split
  · rename_i hk; simp [hk]
  · split
    · exact ⟨le_refl _, Nat.mul_le_mul_right _ (Nat.le_succ _)⟩
    · split
      · exact ⟨Nat.mul_le_mul_right _ (Nat.le_succ _), le_refl _⟩
      · split
        · exact ⟨le_refl _, Nat.mul_le_mul_right _ (Nat.le_succ _)⟩
        · exact ⟨Nat.mul_le_mul_right _ (Nat.le_succ _), le_refl _⟩

/-- Converting an integer to `f64` preserves the (non-strict) order. -/
theorem roundF64_mono {m n : Nat} (h : m ≤ n) (hn : n < 2 ^ 64) : roundF64 m ≤ roundF64 n := by
  have bm := roundF64_bounds m
  have bn := roundF64_bounds n
  have sm := shiftCount_spec 64 m (by have : (2 : Nat) ^ 64 ≤ 2 ^ (53 + 64) := by decide
                                      omega)
  have sn := shiftCount_spec 64 n (by have : (2 : Nat) ^ 64 ≤ 2 ^ (53 + 64) := by decide
                                      omega)
  rcases Nat.lt_trichotomy (shiftCount 64 m) (shiftCount 64 n) with hlt | heq | hgt
  · -- everything rounded from `m` stays below `2^(52 + k_n)`
    have h1 : m / 2 ^ shiftCount 64 m + 1 ≤ 2 ^ 53 := by
      have : m / 2 ^ shiftCount 64 m < 2 ^ 53 := by
        rw [Nat.div_lt_iff_lt_mul (by positivity), ← pow_add]; exact sm.1
      omega
    have h2 : 2 ^ 52 ≤ n / 2 ^ shiftCount 64 n := by
      rw [Nat.le_div_iff_mul_le (by positivity), ← pow_add]; exact sn.2 (by omega)
    calc roundF64 m ≤ (m / 2 ^ shiftCount 64 m + 1) * 2 ^ shiftCount 64 m := bm.2
      _ ≤ 2 ^ 53 * 2 ^ shiftCount 64 m := Nat.mul_le_mul_right _ h1
      _ = 2 ^ (53 + shiftCount 64 m) := (pow_add _ _ _).symm
      _ ≤ 2 ^ (52 + shiftCount 64 n) := Nat.pow_le_pow_right (by omega) (by omega)
      _ = 2 ^ 52 * 2 ^ shiftCount 64 n := pow_add _ _ _
      _ ≤ n / 2 ^ shiftCount 64 n * 2 ^ shiftCount 64 n := Nat.mul_le_mul_right _ h2
      _ ≤ roundF64 n := bn.1
  · by_cases hq : m / 2 ^ shiftCount 64 m < n / 2 ^ shiftCount 64 n
    · calc roundF64 m ≤ (m / 2 ^ shiftCount 64 m + 1) * 2 ^ shiftCount 64 m := bm.2
        _ ≤ n / 2 ^ shiftCount 64 n * 2 ^ shiftCount 64 n := by
            rw [heq] at hq ⊢; exact Nat.mul_le_mul_right _ hq
        _ ≤ roundF64 n := bn.1
    · have hle : m / 2 ^ shiftCount 64 m ≤ n / 2 ^ shiftCount 64 n := by
        rw [heq]; exact Nat.div_le_div_right h
      have hqe : m / 2 ^ shiftCount 64 m = n / 2 ^ shiftCount 64 n := by omega
      have hr : m % 2 ^ shiftCount 64 m ≤ n % 2 ^ shiftCount 64 n := by
        have e1 := Nat.div_add_mod m (2 ^ shiftCount 64 m)
        have e2 := Nat.div_add_mod n (2 ^ shiftCount 64 n)
        rw [hqe] at e1
        rw [heq] at e1 ⊢
        omega
      unfold roundF64
      simp only [hqe]
      rw [heq] at hr ⊢
      have hs : ∀ q : Nat, q * 2 ^ shiftCount 64 n ≤ (q + 1) * 2 ^ shiftCount 64 n :=
        fun q => Nat.mul_le_mul_right _ (Nat.le_succ _)
      split_ifs <;> omega
  · exfalso
    have h1 := sm.2 (by omega)
    have h2 : 2 ^ (53 + shiftCount 64 n) ≤ 2 ^ (52 + shiftCount 64 m) :=
      Nat.pow_le_pow_right (by omega) (by omega)
    omega

/-- A double that is at least `2^(52+k)` is a multiple of `2^k`. -/
theorem double_multiple {m k : Nat} (h : Double m) (hm : 2 ^ (52 + k) ≤ m) : ∃ j, m = j * 2 ^ k := by
  obtain ⟨q, e, hq, rfl⟩ := h
  have he : k ≤ e := by
    by_contra hlt
    have h1 : q * 2 ^ e < 2 ^ 53 * 2 ^ e := Nat.mul_lt_mul_of_pos_right hq (by positivity)
    rw [← pow_add] at h1
    have h2 : 2 ^ (53 + e) ≤ 2 ^ (52 + k) := Nat.pow_le_pow_right (by omega) (by omega)
    omega
  refine ⟨q * 2 ^ (e - k), ?_⟩
  rw [mul_assoc, ← pow_add]
  congr 2
  omega

/-- The integer as a double: the nearest one, and of two that are equally near the one with an even last digit. -/
theorem roundF64_nearest {n : Nat} (hn : n < 2 ^ 64) :
    Double (roundF64 n) ∧ ∀ m, Double m → m ≠ roundF64 n →
      apart n (roundF64 n) < apart n m ∨ (apart n (roundF64 n) = apart n m ∧ EvenDouble (roundF64 n)) := by
  have sn := shiftCount_spec 64 n (by have : (2 : Nat) ^ 64 ≤ 2 ^ (53 + 64) := by decide
                                      omega)
  unfold roundF64
  simp only
  generalize shiftCount 64 n = k at sn ⊢
  by_cases hk : k = 0
  · subst hk
    simp only [if_true]
    refine ⟨⟨n, 0, sn.1, by simp⟩, fun m _ hne => .inl ?_⟩
    unfold apart
    omega
  · simp only [if_neg hk]
    have hlo := sn.2 hk
    have hD : 2 ^ k = 2 * (2 ^ k / 2) := by
      obtain ⟨j, rfl⟩ := Nat.exists_eq_succ_of_ne_zero hk
      rw [pow_succ]
      omega
    have hpos : 0 < 2 ^ k := by positivity
    have hmod := Nat.div_add_mod n (2 ^ k)
    have hlt := Nat.mod_lt n hpos
    have hq1 : n / 2 ^ k < 2 ^ 53 := by
      rw [Nat.div_lt_iff_lt_mul hpos, ← pow_add]; exact sn.1
    have hq2 : 2 ^ 52 ≤ n / 2 ^ k := by
      rw [Nat.le_div_iff_mul_le hpos, ← pow_add]; exact hlo
    have hb : 2 ^ (52 + k) ≤ n / 2 ^ k * 2 ^ k := by
      rw [pow_add]; exact Nat.mul_le_mul_right _ hq2
    generalize n / 2 ^ k = q at *
    generalize n % 2 ^ k = r at *
    have hs : (q + 1) * 2 ^ k = q * 2 ^ k + 2 ^ k := by ring
    have hc : 2 ^ k * q = q * 2 ^ k := Nat.mul_comm _ _
    have d0 : Double (q * 2 ^ k) := ⟨q, k, hq1, rfl⟩
    have hup : (∃ e, q + 1 = 2 ^ 53 ∧ (q + 1) * 2 ^ k = 2 ^ 52 * 2 ^ e) ∨ q + 1 < 2 ^ 53 := by
      by_cases h : q + 1 = 2 ^ 53
      · exact .inl ⟨k + 1, h, by rw [h, ← pow_add, ← pow_add]; congr 1; omega⟩
      · exact .inr (by omega)
    have d1 : Double ((q + 1) * 2 ^ k) := by
      rcases hup with ⟨e, -, he⟩ | h
      · exact ⟨2 ^ 52, e, by decide, he⟩
      · exact ⟨q + 1, k, h, rfl⟩
    -- a double is at most the lower neighbour or at least the upper one
    have gap : ∀ m, Double m → m ≤ q * 2 ^ k ∨ (q + 1) * 2 ^ k ≤ m := by
      intro m hm
      by_cases hml : 2 ^ (52 + k) ≤ m
      · obtain ⟨j, rfl⟩ := double_multiple hm hml
        by_cases hj : j ≤ q
        · exact .inl (Nat.mul_le_mul_right _ hj)
        · exact .inr (Nat.mul_le_mul_right _ (by omega))
      · exact .inl (by omega)
    rw [hs] at *
    have e0 : q % 2 = 0 → EvenDouble (q * 2 ^ k) := fun h => ⟨q, k, hq2, hq1, h, rfl⟩
    have e1 : ¬ q % 2 = 0 → EvenDouble (q * 2 ^ k + 2 ^ k) := by
      intro h
      rcases hup with ⟨e, -, he⟩ | hu
      · exact ⟨2 ^ 52, e, Nat.le_refl _, by decide, by decide, he⟩
      · exact ⟨q + 1, k, by omega, hu, by omega, by ring⟩
    generalize q * 2 ^ k = a at *
    generalize hD2 : 2 ^ k / 2 = half at *
    by_cases h1 : r < half
    · rw [if_pos h1]
      refine ⟨d0, fun m hm hne => .inl ?_⟩
      have := gap m hm
      unfold apart
      omega
    · rw [if_neg h1]
      by_cases h2 : half < r
      · rw [if_pos h2]
        refine ⟨d1, fun m hm hne => .inl ?_⟩
        have := gap m hm
        unfold apart
        omega
      · rw [if_neg h2]
        have hr : r = half := by omega
        by_cases h3 : q % 2 = 0
        · rw [if_pos h3]
          refine ⟨d0, fun m hm hne => ?_⟩
          have hg := gap m hm
          have ev : EvenDouble a := e0 h3
          unfold apart
          by_cases hm2 : m = a + 2 ^ k
          · exact .inr ⟨by omega, ev⟩
          · exact .inl (by omega)
        · rw [if_neg h3]
          refine ⟨d1, fun m hm hne => ?_⟩
          have hg := gap m hm
          have ev : EvenDouble (a + 2 ^ k) := e1 h3
          unfold apart
          by_cases hm2 : m = a
          · exact .inr ⟨by omega, ev⟩
          · exact .inl (by omega)

/-- **C20**: an integer is compared as the double nearest to it (of two that are equally near, the one whose last
binary digit is 0), as Rust's `as f64` says. -/
theorem C20_nearest (n : Nat) (hn : n < 2 ^ 64) :
    ∃ r : Nat, cmpValue (.posInt n) = r ∧ cmpValue (.negInt n) = -(r : ℚ) ∧ Double r ∧
      ∀ m, Double m → m ≠ r → apart n r < apart n m ∨ (apart n r = apart n m ∧ EvenDouble r) := by
  refine ⟨roundF64 n, ?_, ?_, roundF64_nearest hn⟩ <;> simp [cmpValue, Num.asF64, floatValue]

example : (18446744073709551615 : Nat) < 2 ^ 64 := by decide

/-- The integers a JSON number can hold. -/
def IntNum (a : Num) : Prop :=
  (∃ n, a = .posInt n ∧ n < 2 ^ 64) ∨ (∃ n, a = .negInt n ∧ n ≤ 2 ^ 63)

/-- C20: for any integers, what `lt` (and so `gt`) claims is true of the exact values; rounding
can only turn a strict order into equality, never reverse it. -/
theorem C20_integers_never_reversed (a b : Num) (ha : IntNum a) (hb : IntNum b) :
    numValue a ≤ numValue b → cmpValue a ≤ cmpValue b := by
  have h64 : (2 : Nat) ^ 63 < 2 ^ 64 := by decide
  rcases ha with ⟨m, rfl, hm⟩ | ⟨m, rfl, hm⟩ <;> rcases hb with ⟨n, rfl, hn⟩ | ⟨n, rfl, hn⟩ <;>
    simp only [cmpValue, Num.asF64, floatValue, numValue, zpow_zero, mul_one, if_true, if_false,
      Bool.false_eq_true]
  · intro h
    exact Nat.cast_le.mpr (roundF64_mono (Nat.cast_le.mp h) hn)
  · intro h
    have h0 : (0 : ℚ) ≤ m := Nat.cast_nonneg m
    have h1 : (0 : ℚ) ≤ n := Nat.cast_nonneg n
    have hm0 : (m : ℚ) = 0 := by linarith
    have hn0 : (n : ℚ) = 0 := by linarith
    rw [Nat.cast_eq_zero] at hm0 hn0
    subst hm0 hn0
    simp [roundF64_small]
  · intro _
    have h0 : (0 : ℚ) ≤ (roundF64 m : ℚ) := Nat.cast_nonneg _
    have h1 : (0 : ℚ) ≤ (roundF64 n : ℚ) := Nat.cast_nonneg _
    linarith
  · intro h
    have : n ≤ m := by
      have h' : (n : ℚ) ≤ m := by linarith
      exact Nat.cast_le.mp h'
    have := roundF64_mono this (by omega)
    have : (roundF64 n : ℚ) ≤ roundF64 m := Nat.cast_le.mpr this
    linarith

example : IntNum (.posInt (2 ^ 64 - 1)) ∧ IntNum (.negInt (2 ^ 63)) ∧
    numValue (.negInt (2 ^ 63)) ≤ numValue (.posInt (2 ^ 64 - 1)) :=
  ⟨.inl ⟨_, rfl, by decide⟩, .inr ⟨_, rfl, by decide⟩, by norm_num [numValue]⟩

end Bracket.Props
