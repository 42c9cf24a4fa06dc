import Verif.Spec.Python
import Verif.Spec.Naming
import Verif.Model.Parser

/-!
The module around a decision logic: inputs (parameters, imported modules, mode classes) and helper functions
`def f(params): return body` / `f = lambda params: body`, defined one after the other.
-/

set_option autoImplicit false

namespace Verif.Py

variable {V : Type}

mutual
/-- `n` is a comprehension variable somewhere in the expression -/
def binds (n : String) : Expr V → Bool
  | .const _ | .str _ | .opaque | .name _ | .hole _ _ => false
  | .attr e _ => binds n e
  | .unary _ e => binds n e
  | .binop _ l r => binds n l || binds n r
  | .boolop _ es => bindsL n es
  | .compare l rest => binds n l || bindsC n rest
  | .call _ args => bindsL n args
  | .mcall _ _ args => bindsL n args
  | .gen _ elt x iter ifs => x == n || binds n iter || binds n elt || bindsL n ifs
  | .red _ e x value => x == n || binds n value || binds n e
  | .ifexp t b o => binds n t || binds n b || binds n o
def bindsL (n : String) : Exprs V → Bool
  | .nil => false
  | .cons e es => binds n e || bindsL n es
def bindsC (n : String) : Cmps V → Bool
  | .nil => false
  | .cons _ e rest => binds n e || bindsC n rest
end

mutual
/-- `n` occurs as a plain `Name` (or as the name of a function or object that is called), not as a hole -/
def rawOcc (n : String) : Expr V → Bool
  | .const _ | .str _ | .opaque | .hole _ _ => false
  | .name m => m == n
  | .attr e _ => rawOcc n e
  | .unary _ e => rawOcc n e
  | .binop _ l r => rawOcc n l || rawOcc n r
  | .boolop _ es => rawOccL n es
  | .compare l rest => rawOcc n l || rawOccC n rest
  | .call f args => f == n || rawOccL n args
  | .mcall o _ args => o == n || rawOccL n args
  | .gen _ elt _ iter ifs => rawOcc n iter || rawOcc n elt || rawOccL n ifs
  | .red _ e _ value => rawOcc n value || rawOcc n e
  | .ifexp t b o => rawOcc n t || rawOcc n b || rawOcc n o
def rawOccL (n : String) : Exprs V → Bool
  | .nil => false
  | .cons e es => rawOcc n e || rawOccL n es
def rawOccC (n : String) : Cmps V → Bool
  | .nil => false
  | .cons _ e rest => rawOcc n e || rawOccC n rest
end

mutual
/-- `n` is mentioned in a conditional expression or in the filter of a comprehension, or is the function or object of a call. -/
def special (n : String) : Expr V → Bool
  | .const _ | .str _ | .opaque | .hole _ _ | .name _ => false
  | .attr e _ => special n e
  | .unary _ e => special n e
  | .binop _ l r => special n l || special n r
  | .boolop _ es => specialL n es
  | .compare l rest => special n l || specialC n rest
  | .call f args => f == n || specialL n args
  | .mcall o _ args => o == n || specialL n args
  | .gen _ elt _ iter ifs => special n iter || special n elt || rawOccL n ifs
  | .red _ e _ value => special n value || special n e
  | .ifexp t b o => rawOcc n t || rawOcc n b || rawOcc n o
def specialL (n : String) : Exprs V → Bool
  | .nil => false
  | .cons e es => special n e || specialL n es
def specialC (n : String) : Cmps V → Bool
  | .nil => false
  | .cons _ e rest => special n e || specialC n rest
end

/-- Inside a function with the given parameters. -/
def Names.params (N : Names) (ps : List String) : Names :=
  { A := fun n => n ∈ ps ∨ N.A n, B := N.B, L := N.L }

/-- One more helper. -/
def Names.helper (N : Names) (f : String) (k : Nat) (bs : List String) : Names :=
  { A := N.A, B := N.B, L := fun n => if n = f then some (k, bs) else N.L n }

/-- Names fresh enough to be parameters: different, not used at module level, not comprehension variables. -/
structure ParamNames (N : Names) (ps : List String) : Prop where
  nodup : ps.Nodup
  fresh : ∀ p ∈ ps, N.Local p
  copy : "copy" ∉ ps

/-- `Module P ν N env`: the module with inputs `ν` has the names `N` and is analysed to the environment `env`. -/
inductive Module (P : PyOps V) (ν : Store V) : Names → Env V → Prop where
  /-- Only inputs: every name in scope stands for itself. -/
  | base (N : Names) (env : Env V)
      (holes : ∀ k sv, env.lookup k = some sv → N.A k ∧ ∃ t, sv = .cell (.ast (.hole k t)))
      (inputs : ∀ n, N.A n → ∃ t, env.lookup n = some (.cell (.ast (.hole n t))))
      (disjoint : ∀ n, N.A n → ¬ N.B n)
      (nohelper : ∀ n, N.L n = none)
      (modes : ∀ n, env.modeDefs.contains n = true → N.A n ∧ ∀ a, P.getattr (ν n) a = P.str a)
      (copy : N.A "copy" → ∀ v, P.call (ν "copy") "deepcopy" [v] = v)
      (copyB : ¬ N.B "copy") : Module P ν N env
  /-- `def f(params): return body`. Its comprehension variables are among `bs`; parameters are not used in filters, conditional
  expressions or as functions. Calling it evaluates the body with the parameters bound to the arguments. -/
  | helper (N : Names) (env env' : Env V) (f : String) (ps : List (String × Option String)) (body : Expr V) (l : Lam V)
      (bs : List String) (prev : Module P ν N env) (name : N.Local f)
      (params : ParamNames N (ps.map Prod.fst)) (static : Static (N.params (ps.map Prod.fst)) body)
      (bound : ∀ y, binds y body = true → y ∈ bs) (boundB : ∀ y ∈ bs, N.B y)
      (called : ∀ g k bs', N.L g = some (k, bs') → special g body = true → ∀ y ∈ bs', y ∈ bs)
      (plain : ∀ p ∈ ps.map Prod.fst, special p body = false)
      (parsed : lamFromAst P.zero env ps body = .ok (l, env'))
      (meaning : ∀ vs, vs.length = ps.length → P.call (ν f) "" vs = eval P (updMany ν (ps.map Prod.fst) vs) body) :
      Module P ν (N.helper f ps.length bs) (env'.set f (.lam l))

/-- A decision logic
```
def decisionLogic(params):
    out = copy.deepcopy(ego)
    rest
    return out
```
where `ego` is annotated with the state class `cls`. -/
structure Logic (V : Type) where
  params : List (String × Option String)
  ego : String
  cls : String
  out : String
  rest : List (Stmt V)

/-- the body of the decision logic -/
def Logic.body (D : Logic V) : List (Stmt V) := .assign D.out (deepcopy D.ego) :: D.rest

/-- the store at the start of a call -/
def Logic.start (D : Logic V) (ν : Store V) (args : List V) : Store V := updMany ν (D.params.map Prod.fst) args

/-- The decision logic respects the naming discipline. -/
structure Logic.WellNamed (P : PyOps V) (ν : Store V) (N : Names) (env : Env V) (D : Logic V) (attrs : List String) : Prop where
  module : Module P ν N env
  params : ParamNames N (D.params.map Prod.fst)
  ego : (D.ego, some D.cls) ∈ D.params
  state : Dict.get? env.stateDefs D.cls = some attrs
  copy : N.A "copy"
  out : (N.params (D.params.map Prod.fst)).Local D.out
  static : StaticSs (N.params (D.params.map Prod.fst)) D.rest

/-- The statement is not an assignment to `out` or to an attribute of `out` (it may contain some). -/
def notTop (out : String) : Stmt V → Bool
  | .assign x _ => x != out
  | .setattr x _ _ => x != out
  | _ => true

end Verif.Py
