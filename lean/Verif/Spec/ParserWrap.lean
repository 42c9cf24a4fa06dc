import Verif.Spec.Piecewise
import Verif.Model.ParserWrap

/-! What the analysed functions compute, which expressions are treated as a whole, and what is assumed of CROWN. -/

set_option autoImplicit false

namespace Verif.Spec

open Verif.Pw Verif.Pars

variable {K : Type} [Field K] [LinearOrder K]

/-- The values of the variables when a function that consists of assignments reaches `return`. -/
def envAtReturn (F : Funs K) (env : Env K) : List (PS K) → Option (Env K)
  | [] => some env
  | .ret _ :: _ => some env
  | .assign x e :: rest => (evalE F env e).bind fun v => envAtReturn F (Dict.set env x v) rest
  | _ :: _ => none

/-- The text `sub` occurs in the identifier `s`. -/
def Occurs (sub s : String) : Prop := sub.toList <:+: s.toList

/-- Texts with a special treatment. -/
def specialTexts : List String := ["atan2", "arctan2", "get_lane_heading", "get_lateral_distance", "minus_angular",
  "angular_span_rect_parser", "angular_bounds_diff_correct", "get_heading_bounds_optimized", "get_lateral_distance_bounds_optimized"]

/-- No identifier of the expression contains a special text. -/
def NoSpecial (e : PE K) : Prop := ∀ s ∈ idents e, ∀ t ∈ specialTexts, ¬ Occurs t s

/-- The expression contains neither special texts nor names of piecewise functions. -/
def Plain (pws : List (PFun K)) (e : PE K) : Prop := NoSpecial e ∧ ∀ s ∈ idents e, ∀ f ∈ pws, ¬ Occurs f.name s

/-- The expression is a call of the function with variables named like its parameters. -/
def OwnCall (f : PFun K) : PE K → Prop
  | .call1 g (.name a) => g = f.name ∧ f.params = [a]
  | .call2 g (.name a) (.name b) => g = f.name ∧ f.params = [a, b]
  | _ => False

/-- The expression is such a call, and no other listed function has a name that occurs in it. -/
def PwCall (pws : List (PFun K)) (e : PE K) : Prop :=
  NoSpecial e ∧ ∃ f ∈ pws, OwnCall f e ∧ ∀ g ∈ pws, (∃ s ∈ idents e, Occurs g.name s) → g = f

/-- Calls of the listed functions mean their definitions. -/
def CallsMean (F : Funs K) (pws : List (PFun K)) : Prop :=
  ∀ f ∈ pws, (∀ a, F.f1 f.name a = callFn F f [a]) ∧ ∀ a b, F.f2 f.name a b = callFn F f [a, b]

/-- What is assumed of CROWN: the bounds of an expression over a box of its variables contain its values. -/
def CrownSound (ctx : Ctx K) : Prop :=
  ∀ e box lu, ctx.crown e box = .ok lu → ∀ env v, (∀ n ∈ names e, n ∈ box.map Prod.fst) →
    (∀ q ∈ box, ∃ w, Dict.get? env q.1 = some w ∧ q.2.1 ≤ w ∧ w ≤ q.2.2) → evalE ctx.F env e = some v → lu.1 ≤ v ∧ v ≤ lu.2

/-- A piecewise function in the form that is analysed correctly, see C50. -/
def GoodPiecewise (f : PFun K) : Prop :=
  f.params.Nodup ∧ ∃ pre post b o c outs, (∀ s ∈ pre, s = PS.skip) ∧ f.body = pre ++ .ifS c b o :: post ∧ IfChain c b o outs ∧ ∀ e ∈ outs, NoSpecial e

/-- Every assigned expression is plain or a call of a listed piecewise function. -/
def GoodBody (pws : List (PFun K)) (body : List (PS K)) : Prop :=
  ∀ x e, PS.assign x e ∈ body → Plain pws e ∨ PwCall pws e

/-- The variables assigned before `return`. -/
def assignedVars : List (PS K) → List String
  | .assign x _ :: rest => x :: assignedVars rest
  | _ => []

/-- The bounds `r` contain the values of all variables when the function reaches `return`, for all arguments in `b`. -/
def CoversValues (F : Funs K) (f : PFun K) (b r : Bounds K) : Prop :=
  ∀ env env', EnvIn env b → envAtReturn F env f.body = some env' → EnvIn env' r

/-- The bounds computed for the assigned expressions are correct and consist of one interval. -/
def GoodFor (F : Funs K) (eb : EB K) (f : PFun K) : Prop :=
  ∀ x e, PS.assign x e ∈ f.body → ExprSound F eb e ∧ ∀ b l, eb e b = .ok l → l.length = 1

end Verif.Spec
