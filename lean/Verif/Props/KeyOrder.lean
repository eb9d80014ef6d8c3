import Verif.Lemmas.KeyOrder
import Verif.Props.Whole

/-! C51 end to end: the order of hash arguments does not matter. -/

set_option linter.unusedSectionVars false

namespace Bracket.Props
open Bracket Spec Bracket.Props.KeyOrder
open Bracket.Spec.Full hiding block blockHelper contents rounds builtinBlock depth

section
variable [H : Host] [C : Custom]

theorem ord_result (a : Outcome) : (ord a).result = a.result := by
  obtain ⟨w, x⟩ := a
  rcases x with (_ | _) | _ <;> rfl

/-- **C51**, end to end: two templates that differ only in the order in which the hash arguments of calls (of helpers,
blocks, partials and sub-expressions, at any depth, all of them paths and literals) are written give the same text, error
or panic, also when the partials differ so. -/
theorem C51_written (T U : STm) (hT : T.ok [] = true) (hU : U.ok [] = true) (h : T.ordered = U.ordered) (lib lib' : List (Str × STm))
    (hlib : ∀ x, (lib.lookup x).map STm.ordered = (lib'.lookup x).map STm.ordered) (reg reg' : Reg) (hb : Equipped reg) (hb' : Equipped reg')
    (hl : Full.Holds reg lib) (hl' : Full.Holds reg' lib') (hs : reg'.strict = reg.strict) (he : reg'.escape = reg.escape) (name : Str) (data : Value) :
    ∃ N, ∀ n, N ≤ n → Reg.once n reg name T.src data = Reg.once n reg' name U.src data := by
  obtain ⟨N1, h1⟩ := whole_once T hT lib reg hb hl (max (lib.length + 1) (lib'.length + 1)) (Nat.le_max_left ..) name data
  obtain ⟨N2, h2⟩ := whole_once U hU lib' reg' hb' hl' (max (lib.length + 1) (lib'.length + 1)) (Nat.le_max_right ..) name data
  refine ⟨max N1 N2, fun n hn => ?_⟩
  rw [h1 n (by omega), h2 n (by omega), show Scene.start reg' name data = Scene.start reg name data by unfold Scene.start; rw [hs, he]]
  generalize max (lib.length + 1) (lib'.length + 1) = k
  have a := tm_ordered (depth_ordered (get := (lib.lookup ·)) (get' := fun x => (lib.lookup x).map STm.ordered) (fun _ => rfl) k) T
    (Scene.start reg name data) false false false ⟨false, false, none, .none⟩
  have b := tm_ordered (depth_ordered (get := (lib'.lookup ·)) (get' := fun x => (lib.lookup x).map STm.ordered) hlib k) U
    (Scene.start reg name data) false false false ⟨false, false, none, .none⟩
  rw [← ord_result, ← a, h, b, ord_result]

theorem place_comm {w k w' k' : Str} {x x' : SExpr} (hk : k ≠ k') : ∀ h : SHash,
    (h.place w' k' x').place w k x = (h.place w k x).place w' k' x'
  | .tail u => by
      rw [SHash.place, SHash.place, SHash.place, SHash.place, SHash.place, SHash.place]
      by_cases a : strLt k k' = true
      · have b : strLt k' k = false := by
          cases b : strLt k' k with
          | false => rfl
          | true => have := strLt_trans a b; rw [strLt_irrefl] at this; cases this
        rw [if_pos a, b]; rfl
      · have b : strLt k' k = true := strLt_total hk (by simpa using a)
        rw [if_neg a, if_pos b]
  | .pairW u n y r => by
      have no : ∀ {a b : Str}, strLt a b = true → strLt b a = false := fun {a b} h => by
        cases e : strLt b a with
        | false => rfl
        | true => have := strLt_trans h e; rw [strLt_irrefl] at this; cases this
      have ih := place_comm (w := w) (k := k) (w' := w') (k' := k') (x := x) (x' := x') hk r
      by_cases a : strLt k n = true <;> by_cases b : strLt k' n = true <;> by_cases c : strLt k k' = true
      all_goals
        try have c' := no c
        try have c' := strLt_total hk (by simpa using c)
        simp_all [SHash.place]
      · have := strLt_trans c' a; rw [b] at this; cases this
      · have := strLt_trans c b; rw [a] at this; cases this

/-- Two hash arguments with different keys may change places. -/
theorem sort_swap {w k w' k' : Str} {x x' : SExpr} (hk : k ≠ k') (h : SHash) :
    (SHash.pairW w k x (.pairW w' k' x' h)).sort = (SHash.pairW w' k' x' (.pairW w k x h)).sort := by
  simp only [SHash.sort]
  exact place_comm hk _

/-- The hash arguments, one after the other. -/
def SHash.of (w : Str) : List (Str × Str × SExpr) → SHash
  | [] => .tail w
  | (ws, k, x) :: l => .pairW ws k x (SHash.of w l)

theorem keys_of (w : Str) : ∀ l, (SHash.of w l).keys = l.map (·.2.1)
  | [] => rfl
  | (ws, k, x) :: l => by rw [SHash.of, SHash.keys, keys_of w l]; rfl
theorem plain_of (w : Str) : ∀ l, (SHash.of w l).plain = l.all (·.2.2.plain)
  | [] => rfl
  | (ws, k, x) :: l => by rw [SHash.of, SHash.plain, plain_of w l]; rfl

/-- Any order of hash arguments with different keys: `ordered` is the same. -/
theorem C51_any (w : Str) {l l' : List (Str × Str × SExpr)} (h : l.Perm l') (hk : (l.map (·.2.1)).Nodup) (hp : ∀ y ∈ l, y.2.2.plain = true) :
    (SArgs.done (SHash.of w l)).ordered = (SArgs.done (SHash.of w l')).ordered := by
  have sorts : (SHash.of w l).sort = (SHash.of w l').sort := by
    clear hp
    induction h with
    | nil => rfl
    | cons a _ ih =>
        simp only [List.map_cons, List.nodup_cons] at hk
        simp only [SHash.of, SHash.sort, ih hk.2]
    | swap a b l =>
        simp only [List.map_cons, List.nodup_cons, List.mem_cons, not_or] at hk
        exact sort_swap hk.1.1 _
    | trans h1 _ ih1 ih2 => exact (ih1 hk).trans (ih2 ((h1.map _).nodup_iff.1 hk))
  have p1 : (SHash.of w l).plain = true := by rw [plain_of, List.all_eq_true]; exact hp
  have p2 : (SHash.of w l').plain = true := by
    rw [plain_of, List.all_eq_true]; exact fun y hy => hp y (h.mem_iff.2 hy)
  have n1 : (SHash.of w l).keys.Nodup := by rw [keys_of]; exact hk
  have n2 : (SHash.of w l').keys.Nodup := by rw [keys_of]; exact (h.map _).nodup_iff.1 hk
  simp only [SArgs.ordered]
  rw [p1, p2, decide_eq_true n1, decide_eq_true n2]
  exact congrArg _ sorts

end

/-! ### Examples -/

attribute [local instance] exHost noCustom

/-- `{{#> row n=1 m=x}}{{json this pretty=a z=2}}{{/row}}` and the same in other orders. -/
def keyedTm (swap : Bool) : STm :=
  let one : SHash := if swap then .pair c!"m" (.path ⟨0, .name c!"x", []⟩) (.pair c!"n" (.lit (.bool true)) .nil)
    else .pair c!"n" (.lit (.bool true)) (.pair c!"m" (.path ⟨0, .name c!"x", []⟩) .nil)
  let two : SHash := if swap then .pair c!"z" (.lit .null) (.pair c!"pretty" (.path ⟨0, .name c!"a", []⟩) .nil)
    else .pair c!"pretty" (.path ⟨0, .name c!"a", []⟩) (.pair c!"z" (.lit .null) .nil)
  .block true ⟨false, false, [], [], []⟩ c!"row" (.done one)
    (.stmt false false ⟨false, false, [], [], []⟩ ⟨0, .name c!"json", []⟩ (.arg (.path ⟨0, .this, []⟩) (.done two)) .nil) .nil
    ⟨false, false, [], [], []⟩ .nil

example : String.ofList (keyedTm false).src = "{{#>row n=true m=x}}{{json this pretty=a z=null}}{{/row}}" ∧
    String.ofList (keyedTm true).src = "{{#>row m=x n=true}}{{json this z=null pretty=a}}{{/row}}" := by decide +kernel
example : (keyedTm false).ok [] = true ∧ (keyedTm true).ok [] = true := by decide +kernel
example : (keyedTm false).ordered = (keyedTm true).ordered := rfl

/-- `{{json x pretty=a z=null}}` and `{{json x z=null pretty=a}}`, for all data. -/
example (data : Value) : ∃ N, ∀ n, N ≤ n →
    Reg.once n Reg.new c!"t" c!"{{json x pretty=a z=null}}" data = Reg.once n Reg.new c!"t" c!"{{json x z=null pretty=a}}" data :=
  let call (h : SHash) : STm := .stmt false false ⟨false, false, [], [], []⟩ ⟨0, .name c!"json", []⟩ (.arg (.path ⟨0, .name c!"x", []⟩) (.done h)) .nil
  C51_written (call (.pair c!"pretty" (.path ⟨0, .name c!"a", []⟩) (.pair c!"z" (.lit .null) .nil)))
    (call (.pair c!"z" (.lit .null) (.pair c!"pretty" (.path ⟨0, .name c!"a", []⟩) .nil)))
    (by decide +kernel) (by decide +kernel) rfl [] [] (fun _ => rfl) Reg.new Reg.new ⟨fun _ => rfl, rfl, rfl, rfl⟩ ⟨fun _ => rfl, rfl, rfl, rfl⟩
    (fun _ => rfl) (fun _ => rfl) rfl rfl c!"t" data

end Bracket.Props
