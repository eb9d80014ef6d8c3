import Verif.Spec.JsonText
import Verif.Spec.Helper
import Verif.Props.Values
import Verif.Lemmas.ExHost

/-! C58: the `json` helper. -/

set_option linter.unusedSectionVars false

namespace Bracket.Props
open Bracket Spec

theorem hex_digit : ∀ n : Fin 16, hexValue (hexDigit n) = some n.val := by decide +kernel

theorem escChar_text (c : Char) {s t : Str} (h : JChars s t) : JChars (c :: s) (jsonEscChar c ++ t) := by
  unfold jsonEscChar
  have nat : ∀ n, c.toNat = n → c = Char.ofNat n := by rintro n rfl; exact (Char.ofNat_toNat c).symm
  split
  · subst_vars; exact .esc (by decide) h
  split
  · subst_vars; exact .esc (by decide) h
  split
  · rename_i h8; rw [nat 8 h8]; exact .esc (by decide) h
  split
  · rename_i h8; rw [nat 12 h8]; exact .esc (by decide) h
  split
  · subst_vars; exact .esc (by decide) h
  split
  · subst_vars; exact .esc (by decide) h
  split
  · subst_vars; exact .esc (by decide) h
  split
  · rename_i h32
    refine .unicode ?_ h
    have h1 := hex_digit ⟨c.toNat / 16, by omega⟩
    have h2 := hex_digit ⟨c.toNat % 16, by omega⟩
    have h0 : hexValue '0' = some 0 := by decide
    simp only at h1 h2
    unfold hex4
    rw [h0, h1, h2]
    simp only [Option.bind_eq_bind, Option.bind_some]
    congr 1
    omega
  · exact .plain (by omega) (by assumption) (by assumption) h

theorem chars_text : ∀ s : Str, JChars s (s.flatMap jsonEscChar)
  | [] => .nil
  | c :: s => by rw [List.flatMap_cons]; exact escChar_text c (chars_text s)

/-- The text of a string determines it. -/
theorem chars_unique : ∀ {s s' t : Str}, JChars s t → JChars s' t → s = s' := by
  intro s s' t h
  induction h generalizing s' with
  | nil => intro h'; cases h'; rfl
  | plain h h1 h2 hr ih =>
      intro h'
      cases h' with
      | plain _ _ _ hr' => rw [ih hr']
      | esc => exact absurd rfl h2
      | unicode => exact absurd rfl h2
  | esc h hr ih =>
      intro h'
      cases h' with
      | plain _ _ hn _ => exact absurd rfl hn
      | esc h' hr' =>
          rw [ih hr']
          congr 1
          revert h h'
          simp only [jsonEscapes, List.mem_cons, List.not_mem_nil, or_false, Prod.mk.injEq]
          rintro (⟨rfl, rfl⟩ | ⟨rfl, rfl⟩ | ⟨rfl, rfl⟩ | ⟨rfl, rfl⟩ | ⟨rfl, rfl⟩ | ⟨rfl, rfl⟩ | ⟨rfl, rfl⟩ | ⟨rfl, rfl⟩) <;> simp <;> exact Eq.symm
      | unicode => revert h; simp [jsonEscapes]
  | unicode h hr ih =>
      intro h'
      cases h' with
      | plain _ _ hn _ => exact absurd rfl hn
      | esc h' => revert h'; simp [jsonEscapes]
      | unicode h' hr' =>
          rw [ih hr']
          rw [h] at h'
          injection h' with h'
          rw [Char.toNat_inj.1 h']

section
variable [Host]

theorem blank_nil : JBlank [] := by simp [JBlank]

theorem num_text : ∀ n : Num, JText (.num n) (showNum n)
  | .posInt n => .nat (showNat_isNumeral n)
  | .negInt n => .neg (showNat_isNumeral n)
  | .float f => .float f

theorem str_text (s : Str) : JText (.str s) (jsonStr s) := .str (chars_text s)

mutual
theorem compact_text : ∀ v : Value, JText v (toJson v)
  | .null => .null
  | .bool true => .tt
  | .bool false => .ff
  | .num n => num_text n
  | .str s => str_text s
  | .arr l => by
      rw [toJson]
      rcases compact_items l with rfl | h
      · exact .arrEmpty (w := []) blank_nil
      · exact .arr h
  | .obj m => by
      rw [toJson]
      rcases compact_members m with rfl | h
      · exact .objEmpty (w := []) blank_nil
      · exact .obj h
theorem compact_items : ∀ (l : List Value), l = [] ∨ JItems l (arrJson l)
  | [] => .inl rfl
  | v :: r => by
      right
      have hv := compact_text v
      rcases compact_items r with rfl | h
      · simpa [arrJson] using JItems.one blank_nil hv blank_nil
      · cases r with
        | nil => cases h
        | cons w r => simpa [arrJson] using JItems.more blank_nil hv blank_nil h
theorem compact_members : ∀ (m : List (Str × Value)), m = [] ∨ JMembers m (objJson m)
  | [] => .inl rfl
  | (k, v) :: r => by
      right
      have hv := compact_text v
      rcases compact_members r with rfl | h
      · simpa [objJson, jsonStr] using JMembers.one blank_nil (chars_text k) blank_nil blank_nil hv blank_nil
      · cases r with
        | nil => cases h
        | cons w r => simpa [objJson, jsonStr] using JMembers.more blank_nil (chars_text k) blank_nil blank_nil hv blank_nil h
end

theorem blank_line (n : Nat) : JBlank ('\n' :: indent n) := by
  intro c hc
  rcases List.mem_cons.1 hc with rfl | hc
  · exact .inr (.inl rfl)
  · exact .inl (List.eq_of_mem_replicate hc)

theorem blank_space : JBlank [' '] := by simp [JBlank]

/-- Blank space may be added after the last element. -/
theorem items_blank {l : List Value} {t w : Str} (hw : JBlank w) (h : JItems l t) : JItems l (t ++ w) := by
  match h with
  | .one (v := v) (a := a) (t := t) (b := b) ha hv hb =>
      have := JItems.one ha hv (b := b ++ w) (by intro c hc; rcases List.mem_append.1 hc with hc | hc; exact hb c hc; exact hw c hc)
      simpa using this
  | .more ha hv hb hr =>
      have := JItems.more ha hv hb (items_blank hw hr)
      simpa using this
termination_by l.length

theorem members_blank {l : List (Str × Value)} {t w : Str} (hw : JBlank w) (h : JMembers l t) : JMembers l (t ++ w) := by
  match h with
  | .one (d := d) ha hk hb hc hv hd =>
      have := JMembers.one ha hk hb hc hv (d := d ++ w) (by intro c hc; rcases List.mem_append.1 hc with hc | hc; exact hd c hc; exact hw c hc)
      simpa using this
  | .more ha hk hb hc hv hd hr =>
      have := JMembers.more ha hk hb hc hv hd (members_blank hw hr)
      simpa using this
termination_by l.length

mutual
theorem pretty_text : ∀ (v : Value) (n : Nat), JText v (toJsonPretty n v)
  | .null, _ => .null
  | .bool true, _ => .tt
  | .bool false, _ => .ff
  | .num n, _ => num_text n
  | .str s, _ => str_text s
  | .arr l, n => by
      rcases pretty_items l (n + 1) with rfl | h
      · exact .arrEmpty (w := []) blank_nil
      · cases l with
        | nil => cases h
        | cons v r =>
            rw [toJsonPretty]
            simpa using JText.arr (items_blank (blank_line n) h)
  | .obj m, n => by
      rcases pretty_members m (n + 1) with rfl | h
      · exact .objEmpty (w := []) blank_nil
      · cases m with
        | nil => cases h
        | cons v r =>
            rw [toJsonPretty]
            simpa using JText.obj (members_blank (blank_line n) h)
theorem pretty_items : ∀ (l : List Value) (n : Nat), l = [] ∨ JItems l (arrJsonPretty n l)
  | [], _ => .inl rfl
  | v :: r, n => by
      right
      have hv := pretty_text v n
      rcases pretty_items r n with rfl | h
      · simpa [arrJsonPretty] using JItems.one (blank_line n) hv blank_nil
      · cases r with
        | nil => cases h
        | cons w r => simpa [arrJsonPretty] using JItems.more (blank_line n) hv blank_nil h
theorem pretty_members : ∀ (m : List (Str × Value)) (n : Nat), m = [] ∨ JMembers m (objJsonPretty n m)
  | [], _ => .inl rfl
  | (k, v) :: r, n => by
      right
      have hv := pretty_text v n
      rcases pretty_members r n with rfl | h
      · simpa [objJsonPretty, jsonStr] using JMembers.one (blank_line n) (chars_text k) blank_nil blank_space hv blank_nil
      · cases r with
        | nil => cases h
        | cons w r => simpa [objJsonPretty, jsonStr] using JMembers.more (blank_line n) (chars_text k) blank_nil blank_space hv blank_nil h
end

theorem escChar_line (c : Char) : '\n' ∉ jsonEscChar c := by
  unfold jsonEscChar
  have hd : ∀ n : Fin 16, hexDigit n ≠ '\n' := by decide +kernel
  split
  · decide
  split
  · decide
  split
  · decide
  split
  · decide
  split
  · decide
  split
  · decide
  split
  · decide
  split
  · have h1 := hd ⟨c.toNat / 16, by omega⟩
    have h2 := hd ⟨c.toNat % 16, by omega⟩
    simp only at h1 h2
    simp [h1.symm, h2.symm]
  · rename_i h _ _ _
    simpa using fun e => h e.symm

theorem str_line (s : Str) : '\n' ∉ jsonStr s := by
  simp [jsonStr, escChar_line]

mutual
theorem compact_line (hf : ∀ f, '\n' ∉ Host.showFloat f) : ∀ v : Value, '\n' ∉ toJson v
  | .null => by simp [toJson]
  | .bool true => by simp [toJson]
  | .bool false => by simp [toJson]
  | .num n => by
      rw [toJson]
      have hn : ∀ n, '\n' ∉ showNat n := fun n h => by
        have := (showNat_isNumeral n).2.1 _ h
        revert this; decide
      cases n with
      | posInt n => exact hn n
      | negInt n => simpa [showNum] using hn n
      | float f => exact hf f
  | .str s => by rw [toJson]; exact str_line s
  | .arr l => by simpa [toJson] using items_line hf l
  | .obj m => by simpa [toJson] using members_line hf m
theorem items_line (hf : ∀ f, '\n' ∉ Host.showFloat f) : ∀ l : List Value, '\n' ∉ arrJson l
  | [] => by simp [arrJson]
  | v :: r => by
      have h1 := compact_line hf v
      have h2 := items_line hf r
      cases r <;> simp [arrJson, h1] at h2 ⊢ <;> exact h2
theorem members_line (hf : ∀ f, '\n' ∉ Host.showFloat f) : ∀ m : List (Str × Value), '\n' ∉ objJson m
  | [] => by simp [objJson]
  | (k, v) :: r => by
      have h1 := compact_line hf v
      have h2 := members_line hf r
      have h3 := str_line k
      cases r <;> simp [objJson, h1, h3] at h2 ⊢ <;> exact h2
end

/-! ### Layout -/

theorem layout_cons (d : Nat) (w : Str) : ∀ L : Layout, L ≠ [] → Layout.text ((d, w) :: L) = indent d ++ (w ++ '\n' :: L.text)
  | [], h => absurd rfl h
  | _ :: _, _ => rfl

theorem layout_append : ∀ (L M : Layout), L ≠ [] → M ≠ [] → Layout.text (L ++ M) = L.text ++ '\n' :: M.text
  | [], _, h, _ => absurd rfl h
  | [(d, w)], M, _, hM => by rw [List.singleton_append, layout_cons d w M hM]; simp [Layout.text, indent]
  | (d, w) :: x :: r, M, _, hM => by
      rw [List.cons_append, layout_cons d w _ (by simp), layout_append (x :: r) M (by simp) hM, layout_cons d w (x :: r) (by simp)]
      simp

theorem comma_ne : ∀ {L : Layout}, L ≠ [] → L.comma ≠ []
  | [], h => absurd rfl h
  | [_], _ => by simp [Layout.comma]
  | _ :: _ :: _, _ => by simp [Layout.comma]

theorem comma_text : ∀ L : Layout, L ≠ [] → L.comma.text = L.text ++ [',']
  | [], h => absurd rfl h
  | [(d, w)], _ => by simp [Layout.comma, Layout.text]
  | (d, w) :: x :: r, _ => by
      rw [Layout.comma, layout_cons d w _ (comma_ne (by simp)), comma_text (x :: r) (by simp), layout_cons d w _ (by simp)]
      simp

/-- `n` levels deeper. -/
def down (n : Nat) (L : Layout) : Layout := L.map fun p => (p.1 + n, p.2)

theorem down_ne {n : Nat} {L : Layout} (h : L ≠ []) : down n L ≠ [] := by cases L <;> simp_all [down]

theorem down_deeper (n : Nat) (L : Layout) : down n L.deeper = down (n + 1) L := by
  simp only [down, Layout.deeper, List.map_map]
  refine List.map_congr_left fun p _ => ?_
  simp only [Function.comp]
  rw [show p.1 + 1 + n = p.1 + (n + 1) by omega]

theorem down_append (n : Nat) (L M : Layout) : down n (L ++ M) = down n L ++ down n M := List.map_append

theorem down_comma (n : Nat) : ∀ L : Layout, down n L.comma = (down n L).comma
  | [] => rfl
  | [_] => rfl
  | p :: x :: r => by
      have := down_comma n (x :: r)
      simp only [down, Layout.comma, List.map_cons] at this ⊢
      rw [this]

theorem down_after (n : Nat) (w : Str) : ∀ L : Layout, down n (L.after w) = (down n L).after w
  | [] => rfl
  | _ :: _ => rfl

theorem down_zero (L : Layout) : down 0 L = L := by simp [down]

theorem after_text (w : Str) : ∀ {L : Layout} {n : Nat} {t : Str}, (down n L).text = indent n ++ t → (∃ x r, L = (0, x) :: r) →
    ((down n L).after w).text = indent n ++ (w ++ t)
  | L, n, t, h, hx => by
      obtain ⟨x, r, rfl⟩ := hx
      cases r with
      | nil =>
          simp only [down, List.map_cons, List.map_nil, Layout.text, Layout.after, Nat.zero_add, indent] at h ⊢
          rw [List.append_cancel_left h]
      | cons y r =>
          simp only [down, List.map_cons, Layout.text, Layout.after, Nat.zero_add, indent] at h ⊢
          rw [← List.append_cancel_left h]
          simp

mutual
theorem pretty_lines : ∀ v : Value, ∃ L, Lines v L ∧ (∃ x r, L = (0, x) :: r) ∧ ∀ n, (down n L).text = indent n ++ toJsonPretty n v
  | .null => ⟨_, .scalar (by simp [Scalar]) .null, ⟨_, _, rfl⟩, by simp [down, Layout.text, indent, toJsonPretty]⟩
  | .bool true => ⟨_, .scalar (by simp [Scalar]) .tt, ⟨_, _, rfl⟩, by simp [down, Layout.text, indent, toJsonPretty]⟩
  | .bool false => ⟨_, .scalar (by simp [Scalar]) .ff, ⟨_, _, rfl⟩, by simp [down, Layout.text, indent, toJsonPretty]⟩
  | .num m => ⟨_, .scalar (by simp [Scalar]) (num_text m), ⟨_, _, rfl⟩, by simp [down, Layout.text, indent, toJsonPretty]⟩
  | .str s => ⟨_, .scalar (by simp [Scalar]) (str_text s), ⟨_, _, rfl⟩, by simp [down, Layout.text, indent, toJsonPretty]⟩
  | .arr [] => ⟨_, .arrEmpty, ⟨_, _, rfl⟩, by simp [down, Layout.text, indent, toJsonPretty]⟩
  | .arr (v :: r) => by
      obtain ⟨L, h, hne, ht⟩ := pretty_itemLines (v :: r) (by simp)
      refine ⟨_, .arr h, ⟨_, _, rfl⟩, fun n => ?_⟩
      rw [show down n ((0, ['[']) :: (L.deeper ++ [(0, [']'])])) = (n, ['[']) :: (down (n + 1) L ++ [(n, [']'])]) by
        simp [down, Layout.deeper, Nat.add_comm, Nat.add_left_comm], layout_cons _ _ _ (by simp), layout_append _ _ (down_ne hne) (by simp), toJsonPretty]
      have := ht (n + 1)
      simp only [Layout.text, List.cons_append, List.nil_append]
      rw [← this]
      simp [indent]
  | .obj [] => ⟨_, .objEmpty, ⟨_, _, rfl⟩, by simp [down, Layout.text, indent, toJsonPretty]⟩
  | .obj (v :: r) => by
      obtain ⟨L, h, hne, ht⟩ := pretty_memberLines (v :: r) (by simp)
      refine ⟨_, .obj h, ⟨_, _, rfl⟩, fun n => ?_⟩
      rw [show down n ((0, ['{']) :: (L.deeper ++ [(0, ['}'])])) = (n, ['{']) :: (down (n + 1) L ++ [(n, ['}'])]) by
        simp [down, Layout.deeper, Nat.add_comm, Nat.add_left_comm], layout_cons _ _ _ (by simp), layout_append _ _ (down_ne hne) (by simp), toJsonPretty]
      have := ht (n + 1)
      simp only [Layout.text, List.cons_append, List.nil_append]
      rw [← this]
      simp [indent]
theorem pretty_itemLines : ∀ l : List Value, l ≠ [] → ∃ L, ItemLines l L ∧ L ≠ [] ∧ ∀ n, '\n' :: (down n L).text = arrJsonPretty n l
  | [], h => absurd rfl h
  | [v], _ => by
      obtain ⟨L, h, ⟨x, r, hx⟩, ht⟩ := pretty_lines v
      exact ⟨L, .one h, by simp [hx], fun n => by rw [ht]; simp [arrJsonPretty]⟩
  | v :: w :: r, _ => by
      obtain ⟨L, h, ⟨x, y, hx⟩, ht⟩ := pretty_lines v
      obtain ⟨M, hM, hne, hm⟩ := pretty_itemLines (w :: r) (by simp)
      have hL : L ≠ [] := by simp [hx]
      refine ⟨_, .more h hM, by simp [comma_ne hL], fun n => ?_⟩
      rw [down_append, down_comma, layout_append _ _ (comma_ne (down_ne hL)) (down_ne hne), comma_text _ (down_ne hL), ht, hm,
        arrJsonPretty]
      simp
theorem pretty_memberLines : ∀ l : List (Str × Value), l ≠ [] → ∃ L, MemberLines l L ∧ L ≠ [] ∧ ∀ n, '\n' :: (down n L).text = objJsonPretty n l
  | [], h => absurd rfl h
  | [(k, v)], _ => by
      obtain ⟨L, h, ⟨x, r, hx⟩, ht⟩ := pretty_lines v
      refine ⟨_, .one (chars_text k) h, by simp [hx, Layout.after], fun n => ?_⟩
      rw [down_after, after_text _ (ht n) ⟨x, r, hx⟩]
      simp [objJsonPretty, jsonStr]
  | (k, v) :: w :: r, _ => by
      obtain ⟨L, h, ⟨x, y, hx⟩, ht⟩ := pretty_lines v
      obtain ⟨M, hM, hne, hm⟩ := pretty_memberLines (w :: r) (by simp)
      have hL : L ≠ [] := by simp [hx]
      have ha : ∀ (n : Nat) u, (down n L).after u ≠ [] := by intro n u; simp [hx, down, Layout.after]
      have ha' : ∀ u, L.after u ≠ [] := by intro u; simp [hx, Layout.after]
      refine ⟨_, .more (chars_text k) h hM, by simp [hne], fun n => ?_⟩
      rw [down_append, down_comma, down_after, layout_append _ _ (comma_ne (ha n _)) (down_ne hne), comma_text _ (ha n _),
        after_text _ (ht n) ⟨x, y, hx⟩, hm, objJsonPretty]
      simp [jsonStr]
end

theorem compact_arr (l : List Value) (hv : ∀ v ∈ l, Dense v (toJson v)) : Dense (.arr l) (toJson (.arr l)) := by
  induction l with
  | nil => exact .arrEmpty
  | cons v r ih =>
      cases r with
      | nil => simpa [toJson, arrJson] using Dense.one (hv v (by simp))
      | cons w r =>
          have := ih fun x hx => hv x (List.mem_cons_of_mem _ hx)
          rw [toJson] at this
          simpa [toJson, arrJson] using Dense.more (hv v (by simp)) this (by simp)

theorem compact_obj (l : List (Str × Value)) (hv : ∀ p ∈ l, Dense p.2 (toJson p.2)) : Dense (.obj l) (toJson (.obj l)) := by
  induction l with
  | nil => exact .objEmpty
  | cons v r ih =>
      obtain ⟨k, v⟩ := v
      cases r with
      | nil => simpa [toJson, objJson, jsonStr] using Dense.oneMember (chars_text k) (hv (k, v) (by simp))
      | cons w r =>
          have := ih fun x hx => hv x (List.mem_cons_of_mem _ hx)
          rw [toJson] at this
          simpa [toJson, objJson, jsonStr] using Dense.moreMembers (chars_text k) (hv (k, v) (by simp)) this (by simp)

/-- The compact text has no white space between its tokens. -/
theorem compact_tight : ∀ v : Value, Dense v (toJson v)
  | .null => .scalar (by simp [Scalar]) .null
  | .bool true => .scalar (by simp [Scalar]) .tt
  | .bool false => .scalar (by simp [Scalar]) .ff
  | .num m => .scalar (by simp [Scalar]) (num_text m)
  | .str s => .scalar (by simp [Scalar]) (str_text s)
  | .arr l => compact_arr l fun v _ => compact_tight v
  | .obj m => compact_obj m fun p _ => compact_tight p.2
decreasing_by
  all_goals simp_wf
  · rename_i h; have := List.sizeOf_lt_of_mem h; omega
  · rename_i h; have := List.sizeOf_lt_of_mem h; obtain ⟨a, b⟩ := p; simp_all; omega

/-- **C58**: the `json` helper returns a string which is a JSON text of its argument: without white space
between the tokens, on one line, unless its `pretty` parameter is truthy; then laid out with one element or
member per line, indented by two spaces per level. -/
theorem C58_json (ctx : Ctx) (t : Option Node) (v : Value) (h : ctx.args = [v]) :
    ∃ w, hJson ctx t = .ret (some (.str w)) ∧ JText v w ∧
      ((∀ p, ctx.param c!"pretty" = some p → Falsy p) → Dense v w ∧ ((∀ f, '\n' ∉ Host.showFloat f) → '\n' ∉ w)) ∧
      ((∃ p, ctx.param c!"pretty" = some p ∧ ¬ Falsy p) → ∃ L, Lines v L ∧ w = L.text) := by
  have ha : hJson ctx t = .ret (some (.str (if isTruthy ((ctx.param c!"pretty").getD (.bool false)) then toJsonPretty 0 v else toJson v))) := by
    simp [hJson, Ctx.withArity, Ctx.arity, h, Ctx.get]
  refine ⟨_, ha, ?_, ?_, ?_⟩
  · split
    · exact pretty_text v 0
    · exact compact_text v
  · intro hp
    rw [if_neg]
    · exact ⟨compact_tight v, fun hf => compact_line hf v⟩
    · cases hq : ctx.param c!"pretty" with
      | none => simp [isTruthy]
      | some p =>
          rw [Option.getD_some, C08_truthy]
          exact fun hn => hn (hp p hq)
  · rintro ⟨p, hq, hp⟩
    obtain ⟨L, hL, _, ht⟩ := pretty_lines v
    refine ⟨L, hL, ?_⟩
    rw [hq, Option.getD_some, if_pos ((C08_truthy p).2 hp), ← down_zero L, ht 0]
    simp [indent]

/-- **C58**: nothing is escaped without need: a string of printable characters other than quotes and backslashes
is written as it is, between quotes. -/
theorem C58_printable (ctx : Ctx) (t : Option Node) (s : Str) (h : ctx.args = [.str s])
    (hs : ∀ c ∈ s, ' ' ≤ c ∧ c ≠ '"' ∧ c ≠ '\\') : hJson ctx t = .ret (some (.str ('"' :: (s ++ ['"'])))) := by
  have hc : ∀ c ∈ s, jsonEscChar c = [c] := by
    intro c hm
    obtain ⟨h1, h2, h3⟩ := hs c hm
    have h1 : 32 ≤ c.toNat := h1
    have ne : ∀ d : Char, d.toNat < 32 → c ≠ d := by rintro d hd rfl; omega
    unfold jsonEscChar
    rw [if_neg h2, if_neg h3, if_neg (by omega), if_neg (by omega), if_neg (ne _ (by decide)), if_neg (ne _ (by decide)),
      if_neg (ne _ (by decide)), if_neg (by omega)]
  have hj : jsonStr s = '"' :: (s ++ ['"']) := by
    have : s.flatMap jsonEscChar = s := by
      clear hs h
      induction s with
      | nil => rfl
      | cons c s ih => rw [List.flatMap_cons, hc c (by simp), ih fun d hd => hc d (by simp [hd])]; rfl
    unfold jsonStr
    rw [this]
  have ha : hJson ctx t = .ret (some (.str (if isTruthy ((ctx.param c!"pretty").getD (.bool false)) then toJsonPretty 0 (.str s) else toJson (.str s)))) := by
    simp [hJson, Ctx.withArity, Ctx.arity, h, Ctx.get]
  rw [ha]
  simp only [toJsonPretty, toJson, hj, ite_self]

/-- No two strings have a JSON text in common. -/
theorem C58_strings {s s' t : Str} (h : JChars s t) (h' : JChars s' t) : s = s' := chars_unique h h'

end

attribute [local instance] exHost

example : toJson (.obj [(c!"a\"", .arr [.num (.posInt 1), .null]), (c!"b", .str c!"x\ny")]) = c!"{\"a\\\"\":[1,null],\"b\":\"x\\ny\"}" := by decide +kernel

example : toJsonPretty 0 (.obj [(c!"a", .arr [.num (.posInt 1), .arr []]), (c!"b", .null)]) =
    c!"{\n  \"a\": [\n    1,\n    []\n  ],\n  \"b\": null\n}" := by decide +kernel
example : Layout.text [(0, ['[']), (1, c!"1"), (0, [']'])] = c!"[\n  1\n]" := by decide +kernel

end Bracket.Props
