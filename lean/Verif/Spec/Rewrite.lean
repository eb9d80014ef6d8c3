import Verif.Spec.Inline
import Verif.Spec.Full

/-! Rewriting conditionals (C85). -/

namespace Bracket.Spec

/-- One argument. -/
def SArgs.only (s t : Str) (x : SExpr) : SArgs := .argW s x (.done (.tail t))
/-- Two arguments. -/
def SArgs.two (s s' t : Str) (x y : SExpr) : SArgs := .argW s x (.argW s' y (.done (.tail t)))
/-- A name. -/
def SPath.word (w : Str) : SPath := ⟨0, .name w, []⟩

/-- A variable or a literal: nothing can go wrong, and nothing is written, when it is evaluated. -/
def SExpr.silent : SExpr → Bool
  | .sub .. => false
  | _ => true

mutual
/-- The two templates are the same but for the way their conditions are written. -/
inductive Recast : STm → STm → Prop
  | symm {T T' : STm} : Recast T T' → Recast T' T
  | nil : Recast .nil .nil
  | text (w : Str) {r r' : STm} : Recast r r' → Recast (.text w r) (.text w r')
  | comment (w : Str) {r r' : STm} : Recast r r' → Recast (.comment w r) (.comment w r')
  | longComment (w : Str) {r r' : STm} : Recast r r' → Recast (.longComment w r) (.longComment w r')
  | escaped (w : Str) {r r' : STm} : Recast r r' → Recast (.escaped w r) (.escaped w r')
  | link (e : Bool) (h : Str) (l t : Option Str) {r r' : STm} : Recast r r' → Recast (.link e h l t r) (.link e h l t r')
  | stmt (raw part : Bool) {tl tl' : Tilde} (p : SPath) (a : SArgs) {r r' : STm} : tl.plain = true → tl'.plain = true → Recast r r' →
      Recast (.stmt raw part tl p a r) (.stmt raw part tl' p a r')
  | dyn (raw part : Bool) {tl tl' : Tilde} (q : SPath) (b a : SArgs) {r r' : STm} : tl.plain = true → tl'.plain = true → Recast r r' →
      Recast (.dyn raw part tl q b a r) (.dyn raw part tl' q b a r')
  | rawBlock {tl tl' : Tilde} (name : Str) (a : SArgs) (w : Str) {cl cl' : Tilde} {r r' : STm} : tl.plain = true → tl'.plain = true →
      cl.plain = true → cl'.plain = true → Recast r r' → Recast (.rawBlock tl name a w cl r) (.rawBlock tl' name a w cl' r')
  | block (part : Bool) {tl tl' : Tilde} (name : Str) (a : SArgs) {b b' : STm} {cs cs' : SCls} {cl cl' : Tilde} {r r' : STm} :
      tl.plain = true → tl'.plain = true → cl.plain = true → cl'.plain = true → Recast b b' → RecastCls true cs cs' → Recast r r' →
      Recast (.block part tl name a b cs cl r) (.block part tl' name a b' cs' cl' r')
  /-- `{{#unless x}}b..{{/unless}}` is `{{#if (not x)}}b..{{/if}}`. -/
  | unlessNot {tl tl' : Tilde} (s t u v s' t' : Str) (x : SExpr) {b b' : STm} {cs cs' : SCls} {cl cl' : Tilde} {r r' : STm} :
      tl.plain = true → tl'.plain = true → cl.plain = true → cl'.plain = true → Recast b b' → RecastCls true cs cs' → Recast r r' →
      Recast (.block false tl c!"unless" (.only s t x) b cs cl r)
        (.block false tl' c!"if" (.only s' t' (.sub (.word c!"not") (.only u v x))) b' cs' cl' r')
  /-- `{{#unless x}}b{{else}}c{{/unless}}` is `{{#if x}}c{{else}}b{{/if}}`. -/
  | unlessElse {tl tl' te te' : Tilde} (s t s' t' : Str) (x : SExpr) {b b' c c' : STm} {cl cl' : Tilde} {r r' : STm} :
      tl.plain = true → tl'.plain = true → te.plain = true → te'.plain = true → cl.plain = true → cl'.plain = true → Recast b b' → Recast c c' → Recast r r' →
      Recast (.block false tl c!"unless" (.only s t x) b (.cons te none c .nil) cl r)
        (.block false tl' c!"if" (.only s' t' x) c' (.cons te' none b' .nil) cl' r')
  /-- `{{#if x}}{{#if y}}b{{/if}}{{/if}}` is `{{#if (and x y)}}b{{/if}}` when `y` is a variable or a literal. -/
  | ifAnd {tl tl' tm : Tilde} (s t s1 t1 s' t' u u' v : Str) (x y : SExpr) {b b' : STm} {cl cl' cm : Tilde} {r r' : STm} : y.silent = true →
      tl.plain = true → tl'.plain = true → tm.plain = true → cl.plain = true → cl'.plain = true → cm.plain = true → Recast b b' → Recast r r' →
      Recast (.block false tl c!"if" (.only s t x) (.block false tm c!"if" (.only s1 t1 y) b .nil cm .nil) .nil cl r)
        (.block false tl' c!"if" (.only s' t' (.sub (.word c!"and") (.two u u' v x y))) b' .nil cl' r')
/-- The same for clauses (`fresh`: there is no plain `{{else}}` before them). -/
inductive RecastCls : Bool → SCls → SCls → Prop
  | symm {fresh : Bool} {cs cs' : SCls} : RecastCls fresh cs cs' → RecastCls fresh cs' cs
  | nil (fresh : Bool) : RecastCls fresh .nil .nil
  | plain (fresh : Bool) {tl tl' : Tilde} {b b' : STm} {cs cs' : SCls} : tl.plain = true → tl'.plain = true → Recast b b' → RecastCls false cs cs' →
      RecastCls fresh (.cons tl none b cs) (.cons tl' none b' cs')
  | cond {fresh : Bool} {tl tl' : Tilde} (p : SPath) (a : SArgs) {b b' : STm} {cs cs' : SCls} : tl.plain = true → tl'.plain = true → Recast b b' → RecastCls fresh cs cs' →
      RecastCls fresh (.cons tl (some (p, a)) b cs) (.cons tl' (some (p, a)) b' cs')
  /-- An empty `{{else}}` at the end may be left out. -/
  | empty {tl : Tilde} : tl.plain = true → RecastCls true (.cons tl none .nil .nil) .nil
  /-- Of two plain `{{else}}`s the first does not matter. -/
  | last (fresh : Bool) {tl tm tl' : Tilde} (z : STm) {b b' : STm} {cs cs' : SCls} : tl.plain = true → tm.plain = true → tl'.plain = true →
      Recast b b' → RecastCls false cs cs' → RecastCls fresh (.cons tl none z (.cons tm none b cs)) (.cons tl' none b' cs')
  /-- `{{else p a}}b..` is `{{else}}{{#if (p a)}}b..{{/if}}`. -/
  | nest {tl tl' tm cm : Tilde} (s t : Str) (p : SPath) (a : SArgs) {b b' : STm} {cs cs' : SCls} : tl.plain = true → tl'.plain = true → tm.plain = true → cm.plain = true →
      Recast b b' → RecastCls true cs cs' →
      RecastCls true (.cons tl (some (p, a)) b cs) (.cons tl' none (.block false tm c!"if" (.only s t (.sub p a)) b' cs' cm .nil) .nil)
  /-- `{{else if x}}b..` is `{{else}}{{#if x}}b..{{/if}}`. -/
  | elseIf {tl tl' tm cm : Tilde} (s t s' t' : Str) (x : SExpr) {b b' : STm} {cs cs' : SCls} : tl.plain = true → tl'.plain = true → tm.plain = true → cm.plain = true →
      Recast b b' → RecastCls true cs cs' →
      RecastCls true (.cons tl (some (.word c!"if", .only s t x)) b cs) (.cons tl' none (.block false tm c!"if" (.only s' t' x) b' cs' cm .nil) .nil)
  /-- `{{else unless x}}b` is never rendered. -/
  | elseUnless {fresh : Bool} {tl : Tilde} (s t : Str) (x : SExpr) (b : STm) {cs cs' : SCls} : x.silent = true → tl.plain = true →
      RecastCls fresh cs cs' → RecastCls fresh (.cons tl (some (.word c!"unless", .only s t x)) b cs) cs'
end

/-- The error without the helper calls it was reported through. -/
def RenderErr.core : RenderErr → RenderErr
  | .helper (.render e) => RenderErr.core e
  | e => e

/-- The recursion limit of a helper was reached. -/
def RenderErr.isLimit (e : RenderErr) : Prop := ∃ w, RenderErr.core e = .helperCycle w

/-- The same text, or the same error but for the helper calls it was reported through, or a panic, unless one of the two
reached the recursion limit of a helper. -/
def SameResult (a b : Out Str) : Prop :=
  (∃ e, (a = .err (.render e) ∨ b = .err (.render e)) ∧ RenderErr.isLimit e) ∨
  (∃ w, a = .ok w ∧ b = .ok w) ∨
  (∃ e e', a = .err (.render e) ∧ b = .err (.render e') ∧ RenderErr.core e = RenderErr.core e') ∨
  (a = .panic ∧ b = .panic)

/-- The helpers the rules are about are the built-in ones. -/
structure Conditionals [Custom] : Prop where
  ifs : Custom.fn c!"if" = none
  unlesses : Custom.fn c!"unless" = none
  nots : Custom.fn c!"not" = none
  ands : Custom.fn c!"and" = none

end Bracket.Spec
