import Verif.Spec.Full

/-! What a template mentions: paths, calls and partials. -/

namespace Bracket.Spec

mutual
/-- Every path is one of `N`, every call one of `K`. -/
def SExpr.every (N : SPath → Bool) (K : SPath → SArgs → Bool) : SExpr → Bool
  | .path p => N p
  | .lit _ => true
  | .sub p a => N p && K p a && a.every N K
def SArgs.every (N : SPath → Bool) (K : SPath → SArgs → Bool) : SArgs → Bool
  | .done h => h.every N K
  | .argW _ x r => x.every N K && r.every N K
def SHash.every (N : SPath → Bool) (K : SPath → SArgs → Bool) : SHash → Bool
  | .tail _ => true
  | .pairW _ _ x r => x.every N K && r.every N K
end

mutual
/-- Every path mentioned is one of `N`, every call one of `K` and every partial one of `Q` (`Q none`: any
partial, since its name is computed). -/
def STm.every (N : SPath → Bool) (K : SPath → SArgs → Bool) (Q : Option Str → Bool) : STm → Bool
  | .nil => true
  | .text _ r | .comment _ r | .longComment _ r | .escaped _ r | .link _ _ _ _ r => r.every N K Q
  | .stmt _ part _ p a r => (if part then Q (some p.shown) else N p && K p a) && a.every N K && r.every N K Q
  | .dyn _ part _ q b a r => (!part || Q none) && (N q && K q b && b.every N K) && a.every N K && r.every N K Q
  | .rawBlock _ name a _ _ r => N ⟨0, .name name, []⟩ && K ⟨0, .name name, []⟩ a && a.every N K && r.every N K Q
  | .block part _ name a body cs _ r =>
      (if part then Q (some name) else N ⟨0, .name name, []⟩ && K ⟨0, .name name, []⟩ a) && a.every N K &&
        body.every N K Q && cs.every N K Q && r.every N K Q
def SCls.every (N : SPath → Bool) (K : SPath → SArgs → Bool) (Q : Option Str → Bool) : SCls → Bool
  | .nil => true
  | .cons _ none body r => body.every N K Q && r.every N K Q
  | .cons _ (some (p, a)) body r => N p && K p a && a.every N K && body.every N K Q && r.every N K Q
end

/-! ### Calls that can panic (C63) -/

def SLit.isStr : SLit → Bool
  | .str _ _ | .bracket _ => true
  | _ => false

/-- A string literal. -/
def SExpr.isStr : SExpr → Bool
  | .lit l => l.isStr
  | _ => false

/-- The second argument, if there is one, is a string literal. -/
def SArgs.secondStr : SArgs → Bool
  | .argW _ _ (.argW _ x _) => x.isStr
  | _ => true

/-- The value of every hash argument `k` is a string literal. -/
def SHash.strAt (k : Str) : SHash → Bool
  | .tail _ => true
  | .pairW _ j x r => (j != k || x.isStr) && r.strAt k

/-- Not a call of `lookup` with a computed field, nor of `log` with a computed level. -/
def steady (p : SPath) (a : SArgs) : Bool :=
  (p != ⟨0, .name c!"lookup", []⟩ || a.secondStr) && (p != ⟨0, .name c!"log", []⟩ || (Full.named a).strAt c!"level")

/-- No such call anywhere. -/
def STm.steady (T : STm) : Bool := T.every (fun _ => true) Spec.steady (fun _ => true)

/-! ### Members of the data that are not mentioned (C66) -/

/-- The path does not lead to the member `k` of the data, nor to the data as a whole. -/
def SPath.avoids (k : Str) (p : SPath) : Bool :=
  match p.head with
  | .this | .dot => match p.names with
      | [] => false
      | x :: _ => x != k
  | .loc w => w != c!"root" || p.names.head? != some k
  | .name w => w != k
  | .abs _ => true

/-- No path in the template leads there. -/
def STm.avoids (k : Str) (T : STm) : Bool := T.every (SPath.avoids k) (fun _ _ => true) (fun _ => true)

/-- The template includes only these partials (and none whose name is computed). -/
def STm.includes (names : List Str) (T : STm) : Bool := T.every (fun _ => true) (fun _ _ => true) (fun x => x.any names.contains)

/-! ### One template after another (C65) -/

/-- The pieces of `T`, then those of `U`. -/
def STm.append : STm → STm → STm
  | .nil, U => U
  | .text w r, U => .text w (r.append U)
  | .comment w r, U => .comment w (r.append U)
  | .longComment w r, U => .longComment w (r.append U)
  | .escaped w r, U => .escaped w (r.append U)
  | .link e h l t r, U => .link e h l t (r.append U)
  | .stmt raw part tl p a r, U => .stmt raw part tl p a (r.append U)
  | .dyn raw part tl q b a r, U => .dyn raw part tl q b a (r.append U)
  | .rawBlock tl name a w cl r, U => .rawBlock tl name a w cl (r.append U)
  | .block part tl name a body cs cl r, U => .block part tl name a body cs cl (r.append U)

mutual
/-- No `~`, no partials with a content, and only the partials `names`. -/
def STm.calm (names : List Str) : STm → Bool
  | .nil => true
  | .text _ r => r.calm names
  | .comment _ r => r.calm names
  | .longComment _ r => r.calm names
  | .escaped _ r => r.calm names
  | .link _ _ _ _ r => r.calm names
  | .stmt _ part tl p _ r => (!part || names.contains p.shown) && tl.plain && r.calm names
  | .dyn _ part tl _ _ _ r => !part && tl.plain && r.calm names
  | .rawBlock tl _ _ _ cl r => tl.plain && cl.plain && r.calm names
  | .block part tl _ _ body cs cl r =>
      !part && tl.plain && cl.plain && body.calm names && cs.calm names && r.calm names
def SCls.calm (names : List Str) : SCls → Bool
  | .nil => true
  | .cons tl _ body r => tl.plain && body.calm names && r.calm names
end

end Bracket.Spec
