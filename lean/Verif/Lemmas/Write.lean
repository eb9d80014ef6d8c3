import Verif.Lemmas.Frame

/-! Closed forms of the primitive steps. -/

namespace Bracket

/-- The state after one write. -/
def RS.wrote (s : RS) (chunk : Str) (r : Except IoErr Nat) : RS := { s with out := s.out ++ [⟨chunk, r⟩] }

/-- The text handed to the destination. -/
def chunkOf (E : Env) (s : RS) (c : Str) (esc : Bool) : Str :=
  if esc then E.reg.escape (applyTrim s.trim c) else applyTrim s.trim c

/-- The result of a write that reached the destination. -/
def writeRes : Except IoErr Nat → Res Nat
  | .ok n => .ok n
  | .error e => .err (.io e)

theorem writeStr_eq (E : Env) (c : Str) (esc : Bool) (s : RS) :
    writeStr E c esc s =
      if (applyTrim s.trim c).isEmpty then (.ok 0, s)
      else (writeRes (E.sink s.out (chunkOf E s c esc)),
            s.wrote (chunkOf E s c esc) (E.sink s.out (chunkOf E s c esc))) := by
  unfold writeStr
  rw [RM.bind_def]
  show (if (applyTrim s.trim c).isEmpty = true then (pure 0 : RM Nat) else _) s = _
  by_cases h : (applyTrim s.trim c).isEmpty = true
  · rw [if_pos h, if_pos h]; rfl
  · rw [if_neg h, if_neg h, RM.bind_def]
    show (match (match E.sink s.out (chunkOf E s c esc) with
      | .ok n => (pure n : RM Nat)
      | .error e => RM.fail (.io e)) (s.wrote (chunkOf E s c esc) (E.sink s.out (chunkOf E s c esc))) with
      | x => x) = _
    cases E.sink s.out (chunkOf E s c esc) <;> rfl

theorem nested_state (i : RS) (m : RM Unit) (s : RS) :
    (nested i m s).2 = s.after (m { i with logs := s.logs, trace := s.trace }).2 := by
  unfold nested
  rcases m { i with logs := s.logs, trace := s.trace } with ⟨r, t⟩
  cases r <;> rfl

theorem buffer_eq (S : Sem) (E : Env) (n : Node) (s : RS) :
    buffer S E n s = nested { RS.init s.stack with scopes := s.scopes } (template S { E with sink := stringSink } n) s :=
  rfl

end Bracket
