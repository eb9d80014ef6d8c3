import Verif.Spec.Mentions

/-! Putting the text of a partial in the place of its calls (C79). -/

namespace Bracket.Spec

/-- No argument. -/
def SArgs.isBlank : SArgs → Bool
  | .done (.tail _) => true
  | _ => false

mutual
/-- The template with `X` in the place of every `{{> p}}` without arguments. -/
def STm.inline (p : Str) (X : STm) : STm → STm
  | .nil => .nil
  | .text w r => .text w (STm.inline p X r)
  | .comment w r => .comment w (STm.inline p X r)
  | .longComment w r => .longComment w (STm.inline p X r)
  | .escaped w r => .escaped w (STm.inline p X r)
  | .link e h l t r => .link e h l t (STm.inline p X r)
  | .stmt raw part tl q a r =>
      if part && q == ⟨0, .name p, []⟩ && a.isBlank then X.append (STm.inline p X r) else .stmt raw part tl q a (STm.inline p X r)
  | .dyn raw part tl q b a r => .dyn raw part tl q b a (STm.inline p X r)
  | .rawBlock tl name a w cl r => .rawBlock tl name a w cl (STm.inline p X r)
  | .block part tl name a body cs cl r => .block part tl name a (STm.inline p X body) (SCls.inline p X cs) cl (STm.inline p X r)
def SCls.inline (p : Str) (X : STm) : SCls → SCls
  | .nil => .nil
  | .cons tl cond body r => .cons tl cond (STm.inline p X body) (SCls.inline p X r)
end

mutual
/-- No `~` in any tag. -/
def STm.tildeless : STm → Bool
  | .nil => true
  | .text _ r | .comment _ r | .longComment _ r | .escaped _ r | .link _ _ _ _ r => r.tildeless
  | .stmt _ _ tl _ _ r | .dyn _ _ tl _ _ _ r => tl.plain && r.tildeless
  | .rawBlock tl _ _ _ cl r => tl.plain && cl.plain && r.tildeless
  | .block _ tl _ _ body cs cl r => tl.plain && cl.plain && body.tildeless && cs.tildeless && r.tildeless
def SCls.tildeless : SCls → Bool
  | .nil => true
  | .cons tl _ body r => tl.plain && body.tildeless && r.tildeless
end

/-- The path begins with a name, with `/` or with `@root` or, if `inner`, with `this`, `./` or a local variable: it means
the same when there is one more empty scope further out. -/
def SPath.portable (inner : Bool) (p : SPath) : Bool :=
  p.parents == 0 && match p.head with
    | .name _ => true
    | .loc w => inner || w == c!"root"
    | .this | .dot => inner
    | .abs _ => true

/-- Does a block of this helper render its content in a scope of its own? -/
def ownScope [Custom] (name : Str) : Bool := (Custom.fn name).isNone && (name == c!"each" || name == c!"with")

mutual
/-- Outside `{{#each}}` and `{{#with}}` (`inner`: we are inside one), paths begin with a name or with `@root`;
inside they may also begin with `this`, `./` or a local variable. -/
def STm.portable [Custom] (inner : Bool) : STm → Bool
  | .nil => true
  | .text _ r | .comment _ r | .longComment _ r | .escaped _ r | .link _ _ _ _ r => r.portable inner
  | .stmt _ _ _ p a r => p.portable inner && a.every (SPath.portable inner) (fun _ _ => true) && r.portable inner
  | .dyn _ _ _ q b a r =>
      q.portable inner && b.every (SPath.portable inner) (fun _ _ => true) && a.every (SPath.portable inner) (fun _ _ => true) && r.portable inner
  | .rawBlock _ _ a _ _ r => a.every (SPath.portable inner) (fun _ _ => true) && r.portable inner
  | .block _ _ name a body cs _ r =>
      a.every (SPath.portable inner) (fun _ _ => true) && body.portable (inner || ownScope name) && cs.portable inner && r.portable inner
def SCls.portable [Custom] (inner : Bool) : SCls → Bool
  | .nil => true
  | .cons _ none body r => body.portable inner && r.portable inner
  | .cons _ (some (p, a)) body r =>
      p.portable inner && a.every (SPath.portable inner) (fun _ _ => true) && body.portable inner && r.portable inner
end

end Bracket.Spec
