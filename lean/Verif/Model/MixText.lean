import Verif.Model.MixMono

/-!
`verse/analysis/mixmonotone.py`, 207-291: reach tubes of agents that have only a function `dynamics`, whose source text is taken apart.

Simplifications: `sympify` (with its automatic simplifications) and the order of `free_symbols` are parameters; expressions have numbers, names and
arithmetic; `lambdify`'d expressions have the value 0 for quotients by 0; names have no special meaning for sympy.
-/

set_option autoImplicit false

namespace Verif.MixT
open Verif.Mix

variable {K : Type}

/-- Expressions. -/
inductive Ex (K : Type) where
  | num (k : K)
  | var (n : String)
  | neg (e : Ex K)
  | add (a b : Ex K)
  | sub (a b : Ex K)
  | mul (a b : Ex K)
  | div (a b : Ex K)
  | pow (a : Ex K) (n : Nat)
deriving DecidableEq

/-- Statements of the body of `dynamics`: a string, `a, b = e`, `a = e`, `a += e`, `return [e, …]`. -/
inductive Stmt (K : Type) where
  | text (s : String)
  | unpack (ts : List String) (v : Ex K)
  | assign (t : String) (v : Ex K)
  | aug (t : String) (v : Ex K)
  | ret (es : List (Ex K))

/-- `extract`, `text_exprs`, `x_var`, `w_var`, 214-217. -/
structure Acc (K : Type) where
  on : Bool
  texts : List (Ex K)
  xs : List String
  ws : List String
deriving DecidableEq

/-- One iteration of the loop of lines 218-240. (The branch for "End Dynamic", 222-224, is not reachable: it has the condition of the branch before.) -/
def scan (s : Acc K) : Stmt K → Except String (Acc K)
  | .text t => .ok (if t = "Begin Dynamic" then { s with on := true } else s)
  | .unpack ts v =>
    if s.on then .ok { s with texts := s.texts ++ [v] }
    else match v with
      | .var n => .ok (if n = "args" then { s with ws := s.ws ++ ts.dropLast } else if n = "x" then { s with xs := s.xs ++ ts } else s)
      | _ => .error "AttributeError"
  | .assign _ v =>
    if s.on then .ok { s with texts := s.texts ++ [v] }
    else match v with
      | .var n => if n = "args" ∨ n = "x" then .error "AttributeError" else .ok s
      | _ => .error "AttributeError"
  | .aug _ _ => .ok s
  | .ret _ => .ok s

/-- The loop and the check of lines 214-243. -/
def extract (body : List (Stmt K)) : Except String (Acc K) :=
  (body.foldlM scan (⟨false, [], [], []⟩ : Acc K)).bind fun s => if s.texts.length = s.xs.length then .ok s else .error "ValueError"

/-- `expr.subs("dt", time_step)`, 249. -/
def subst (x : String) (k : K) : Ex K → Ex K
  | .num a => .num a
  | .var n => if n = x then .num k else .var n
  | .neg e => .neg (subst x k e)
  | .add a b => .add (subst x k a) (subst x k b)
  | .sub a b => .sub (subst x k a) (subst x k b)
  | .mul a b => .mul (subst x k a) (subst x k b)
  | .div a b => .div (subst x k a) (subst x k b)
  | .pow a n => .pow (subst x k a) n

variable [Field K]

/-- The value of a `lambdify`'d expression. -/
def val (ρ : String → K) : Ex K → K
  | .num k => k
  | .var n => ρ n
  | .neg e => - val ρ e
  | .add a b => val ρ a + val ρ b
  | .sub a b => val ρ a - val ρ b
  | .mul a b => val ρ a * val ρ b
  | .div a b => val ρ a / val ρ b
  | .pow a n => val ρ a ^ n

/-- `lambdify([vars], expr)`, 43. -/
def lambdify (vars : List String) (e : Ex K) (z : List K) : K := val (fun n => ((vars.zip z).lookup n).getD 0) e

/-- What is not in this library: the minimizer (`scipy.optimize.minimize(…).fun`), `sympify`, and the list of `free_symbols`. -/
structure Tools (K : Type) where
  minimize : (List K → K) → List K → List K → K
  sym : Ex K → Ex K
  symbols : Ex K → List String

/-- `var_range[var]`, 40. -/
def rangeOf (ranges : Dict String (K × K)) (n : String) : Except String (K × K) :=
  match Dict.get? ranges n with
  | some r => .ok r
  | none => .error "KeyError"

/-- `find_min_symbolic`, 34-46. -/
def findMin (T : Tools K) (e : Ex K) (ranges : Dict String (K × K)) : Except String K :=
  ((T.symbols e).mapM (rangeOf ranges)).map fun rs => T.minimize (lambdify (T.symbols e) e) (rs.map Prod.fst) (rs.map Prod.snd)

/-- `find_max_symbolic`, 49-52. -/
def findMaxS (T : Tools K) (e : Ex K) (ranges : Dict String (K × K)) : Except String K := (findMin T (.neg e) ranges).map fun r => -r

/-- `var_range`, 265-269, 275-279. -/
def ranges (xs ws : List String) (x w xhat what : List K) : Except String (Dict String (K × K)) :=
  if x.length < xs.length ∨ xhat.length < xs.length ∨ w.length < ws.length ∨ what.length < ws.length then .error "IndexError"
  else .ok ((xs.zip (x.zip xhat) ++ ws.zip (w.zip what)).foldl (fun d p => Dict.set d p.1 p.2) [])

variable [LinearOrder K]

/-- `computeD`, 260-286. -/
def computeD (T : Tools K) (xs ws : List String) (exprs : List (Ex K)) : Decomp K := fun x w xhat what =>
  exprs.mapM fun e =>
    if allLe x xhat && allLe w what then (ranges xs ws x w xhat what).bind (findMin T e)
    else if allLe xhat x && allLe what w then (ranges xs ws xhat what x w).bind (findMaxS T e)
    else .error "ValueError"

/-- `calculate_bloated_tube_mixmono_disc`, 207-288, for an agent with `dynamics` only. -/
def tubeText [FloorRing K] (T : Tools K) (body : List (Stmt K)) (lo hi w what : List K) (horizon dt : K) : Except String (List (K × List K)) :=
  (extract body).bind fun s => tubeDisc lo hi w what horizon dt (computeD T s.xs s.ws (s.texts.map fun e => subst "dt" dt (T.sym e)))

end Verif.MixT
