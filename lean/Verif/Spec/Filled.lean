import Verif.Spec.Full

/-! Literals in the place of arguments whose values are known (C96). -/

namespace Bracket.Spec

mutual
/-- Each argument that is a path `p` is the literal `σ p`, if there is one. -/
def SExpr.filled (σ : SPath → Option SLit) : SExpr → SExpr
  | .path p => match σ p with
      | some l => .lit l
      | none => .path p
  | .lit l => .lit l
  | .sub p a => .sub p (a.filled σ)
def SArgs.filled (σ : SPath → Option SLit) : SArgs → SArgs
  | .done h => .done (h.filled σ)
  | .argW ws x r => .argW ws (x.filled σ) (r.filled σ)
def SHash.filled (σ : SPath → Option SLit) : SHash → SHash
  | .tail w => .tail w
  | .pairW ws k x r => .pairW ws k (x.filled σ) (r.filled σ)
end

mutual
/-- The same for all calls of a template: of helpers and partials, as statements, blocks, conditions and sub-expressions. -/
def STm.filled (σ : SPath → Option SLit) : STm → STm
  | .nil => .nil
  | .text w r => .text w (r.filled σ)
  | .comment w r => .comment w (r.filled σ)
  | .longComment w r => .longComment w (r.filled σ)
  | .escaped w r => .escaped w (r.filled σ)
  | .link e h l t r => .link e h l t (r.filled σ)
  | .stmt raw part tl p a r => .stmt raw part tl p (a.filled σ) (r.filled σ)
  | .dyn raw part tl q b a r => .dyn raw part tl q (b.filled σ) (a.filled σ) (r.filled σ)
  | .rawBlock tl name a w cl r => .rawBlock tl name (a.filled σ) w cl (r.filled σ)
  | .block part tl name a body cs cl r => .block part tl name (a.filled σ) (body.filled σ) (cs.filled σ) cl (r.filled σ)
def SCls.filled (σ : SPath → Option SLit) : SCls → SCls
  | .nil => .nil
  | .cons tl none body r => .cons tl none (body.filled σ) (r.filled σ)
  | .cons tl (some (p, a)) body r => .cons tl (some (p, a.filled σ)) (body.filled σ) (r.filled σ)
end

/-- The literals are the values, in the data, of paths `@root.a.b`; `null` where there is none (`@root` alone is
nothing: C12). -/
def Known [Host] (σ : SPath → Option SLit) (data : Value) : Prop :=
  ∀ p l, σ p = some l → p.head = .loc c!"root" ∧ (if p.names = [] then none else walk data p.names).getD .null = l.value

end Bracket.Spec
