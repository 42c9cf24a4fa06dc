import Verif.Spec.Decision

/-!
A condition under which `merge_if_single` loses nothing. If both branches of an `if` leave a variable with the same symbolic value,
`merge_if_single` (verse/parser/parser.py:620-621) keeps the value from *before* the `if`. So it must be the same one.
-/

set_option autoImplicit false

namespace Verif.Py

variable {V : Type} [DecidableEq V]

/-- Values `t`, `f` in the branches and `o` before: equal branch values are the value before (or there was none). -/
def safeCell (t f o : Option (Cell V)) : Bool := decide (t ≠ f) || decide (o = none) || decide (o = t)

/-- The same for scope values, and for the attributes of objects. -/
def safeVar (t f o : Option (SV V)) : Bool :=
  (decide (t ≠ f) || decide (o = none) || decide (o = t)) &&
  match t, f, o with
  | some (.obj dt), some (.obj df), some (.obj d) =>
    d.keys.all (fun a => safeCell (Dict.get? dt a) (Dict.get? df a) (Dict.get? d a))
  | _, _, _ => true

/-- All variables known before the `if`. -/
def mergeSafe (et ef env : Env V) : Bool :=
  env.vars.keys.all (fun x => safeVar (et.lookup x) (ef.lookup x) (env.lookup x))

mutual
/-- Every `if` of the statement is safe. -/
def noTwin (zero : V) (env : Env V) : Stmt V → Bool
  | .ite t b o =>
    match procV zero env t with
    | .error _ => true
    | .ok r => noTwins zero r.2 b && noTwins zero r.2 o &&
      (match procSs zero r.2 b, procSs zero r.2 o with
      | .ok et, .ok ef => mergeSafe et ef r.2
      | _, _ => true)
  | _ => true
/-- Every `if` of the block is safe. -/
def noTwins (zero : V) (env : Env V) : List (Stmt V) → Bool
  | [] => true
  | s :: ss => noTwin zero env s &&
    (match procS zero env s with
    | .ok env' => noTwins zero env' ss
    | .error _ => true)
end

/-- No `if` of the decision logic leaves a variable with the same value in both branches unless it had it before. -/
def Logic.noTwin (zero : V) (env : Env V) (D : Logic V) : Bool :=
  noTwins zero (D.params.foldl (fun (e : Env V) p => e.addHole p.1 p.2) { env with asserts := [] }) D.body

end Verif.Py
