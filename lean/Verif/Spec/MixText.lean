import Verif.Model.MixText
import Verif.Spec.MixMono

/-!
The functions `dynamics(self, x, args)` as Python programs, and what is assumed of sympy (C98).
-/

set_option autoImplicit false

namespace Verif.MixT
open Verif.Mix

variable {K : Type}

/-- The names in an expression. -/
def names : Ex K → List String
  | .num _ => []
  | .var n => [n]
  | .neg e => names e
  | .add a b => names a ++ names b
  | .sub a b => names a ++ names b
  | .mul a b => names a ++ names b
  | .div a b => names a ++ names b
  | .pow a _ => names a

/-- Python objects: numbers and lists of numbers. -/
inductive Obj (K : Type) where
  | num (k : K)
  | list (l : List K)

/-- The values of names. -/
abbrev Store (K : Type) := String → Option (Obj K)

/-- `name = value` -/
def Store.set (σ : Store K) (n : String) (v : Obj K) : Store K := fun m => if m = n then some v else σ m

/-- `a, b, … = [v, w, …]` -/
def Store.unpack (σ : Store K) : List String → List K → Store K
  | n :: ns, v :: vs => (σ.set n (.num v)).unpack ns vs
  | _, _ => σ

variable [Field K] [DecidableEq K]

/-- The value of an expression; `none` is an exception. -/
def eval (σ : Store K) : Ex K → Option K
  | .num k => some k
  | .var n => match σ n with
    | some (.num k) => some k
    | _ => none
  | .neg e => (eval σ e).map (- ·)
  | .add a b => (eval σ a).bind fun x => (eval σ b).map fun y => x + y
  | .sub a b => (eval σ a).bind fun x => (eval σ b).map fun y => x - y
  | .mul a b => (eval σ a).bind fun x => (eval σ b).map fun y => x * y
  | .div a b => (eval σ a).bind fun x => (eval σ b).bind fun y => if y = 0 then none else some (x / y)
  | .pow a n => (eval σ a).map (· ^ n)

/-- Execution of the body, up to the first `return`. -/
def exec (σ : Store K) : List (Stmt K) → Option (List K)
  | [] => none
  | .text _ :: r => exec σ r
  | .unpack ts v :: r => match v with
    | .var n => match σ n with
      | some (.list l) => if l.length = ts.length then exec (σ.unpack ts l) r else none
      | _ => none
    | _ => none
  | .assign t v :: r => (eval σ v).bind fun k => exec (σ.set t (.num k)) r
  | .aug t v :: r => (eval σ (.var t)).bind fun a => (eval σ v).bind fun k => exec (σ.set t (.num (a + k))) r
  | .ret es :: _ => es.mapM (eval σ)

/-- `dynamics(x, args)` -/
def call (body : List (Stmt K)) (x args : List K) : Option (List K) :=
  exec (Store.set (Store.set (fun _ => none) "x" (.list x)) "args" (.list args)) body

/-- The form of the function in the example `Agent3` (demo/uncertain_dynamics/uncertain_agents.py:125-132):
```
w1, …, dt = args
x1, … = x
"""Begin Dynamic"""
x1_plus = e1
…
"""End Dynamic"""
return [x1_plus, …]
``` -/
def standard (ws xs ps : List String) (es : List (Ex K)) : List (Stmt K) :=
  [.unpack (ws ++ ["dt"]) (.var "args"), .unpack xs (.var "x"), .text "Begin Dynamic"] ++
    (ps.zip es).map (fun p => .assign p.1 p.2) ++ [.text "End Dynamic", .ret (ps.map .var)]

/-- Names are distinct, and the expressions use state, parameters and time step only. -/
structure Proper (ws xs ps : List String) (es : List (Ex K)) : Prop where
  distinct : (xs ++ (ws ++ (ps ++ ["dt", "x", "args"]))).Nodup
  size : ps.length = xs.length ∧ es.length = xs.length
  uses : ∀ e ∈ es, ∀ n ∈ names e, n ∈ xs ∨ n ∈ ws ∨ n = "dt"

/-- What is assumed of sympy: simplification adds no symbol and keeps values, where there are any; `free_symbols` are the symbols, each of them once. -/
structure Lawful (T : Tools K) : Prop where
  fewer : ∀ e, ∀ n ∈ names (T.sym e), n ∈ names e
  same : ∀ e (ρ : String → K) v, eval (fun n => some (.num (ρ n))) e = some v → val ρ (T.sym e) = v
  once : ∀ e, (T.symbols e).Nodup
  all : ∀ e n, n ∈ T.symbols e ↔ n ∈ names e

/-- The minimizer finds the minimum and the maximum of the function that an expression stands for. -/
def Minimizes [LinearOrder K] (T : Tools K) (e : Ex K) : Prop :=
  ExactFor T.minimize (lambdify (T.symbols e) e) ∧ ExactFor T.minimize (lambdify (T.symbols (.neg e)) (.neg e))

end Verif.MixT
