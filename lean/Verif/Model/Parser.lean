import Verif.Model.Ast
import Mathlib.Data.List.Dedup

/-!
Model of verse/parser/parser.py: symbolic execution of decision logic.

Simplifications, for the whole file:
* The stack of scopes is kept in one table. `Env.set` (460-465) writes to the scope that already has the key, so a key is in
  at most one scope; `Env.pop` is "forget the keys that were not there at the matching `Env.push`".
* Values are immutable (Python shares and mutates AST nodes; `merge_if_single` deep-copies).
* `ControllerIR.ir_eq` (364-369) compares printed text; here syntax trees are compared.
-/

set_option autoImplicit false

namespace Verif.Py

variable {V : Type}

/-- `CondValCase`, verse/parser/parser.py:90-104. -/
structure Case (V : Type) where
  conds : List (Expr V)
  val : Expr V
deriving DecidableEq

/-- The value of a scalar variable or of an attribute: an AST, or a `CondVal` (verse/parser/parser.py:109-115). -/
inductive Cell (V : Type) where
  | ast (e : Expr V)
  | cond (cases : List (Case V))
deriving DecidableEq

/-- `_Assert`, verse/parser/parser.py:166-179. -/
structure PAssert (V : Type) where
  cond : Expr V
  label : Option String
  pre : List (Expr V)
deriving DecidableEq

/-- `_Assert.__eq__`, verse/parser/parser.py:172-179: the label is ignored. -/
def PAssert.same [DecidableEq V] (a b : PAssert V) : Bool := decide (a.pre = b.pre) && decide (a.cond = b.cond)

/-- `Lambda`, verse/parser/parser.py:206-213. -/
structure Lam (V : Type) where
  params : List String
  body : Expr V
  asserts : List (PAssert V)
deriving DecidableEq

/-- `ScopeValue`: an AST or `CondVal`, an object (`dict` from attribute to value), or a closure. -/
inductive SV (V : Type) where
  | cell (c : Cell V)
  | obj (d : Dict String (Cell V))
  | lam (l : Lam V)
deriving DecidableEq

/-- `Env`, verse/parser/parser.py:421-427, with the asserts of the innermost scope. -/
structure Env (V : Type) where
  vars : Dict String (SV V)
  asserts : List (PAssert V)
  /-- `state_defs`: name of the state class ↦ `StateDef.all_vars()` -/
  stateDefs : Dict String (List String)
  /-- names of the mode classes -/
  modeDefs : List String

/-- `Env.lookup`, verse/parser/parser.py:454-458. -/
def Env.lookup (env : Env V) (k : String) : Option (SV V) := Dict.get? env.vars k

/-- `Env.set`, verse/parser/parser.py:460-465. -/
def Env.set (env : Env V) (k : String) (v : SV V) : Env V := { env with vars := Dict.set env.vars k v }

/-- `Env.add_hole`, verse/parser/parser.py:467-468. -/
def Env.addHole (env : Env V) (n : String) (typ : Option String) : Env V := env.set n (.cell (.ast (.hole n typ)))

/-- `Env.push` followed later by `Env.pop` (verse/parser/parser.py:448-452): `env` is the environment at the push, `env'` the
one before the pop. Names added in between disappear, values of older names stay as they are now; asserts of the inner
scope are dropped. -/
def Env.popTo (env env' : Env V) : Env V :=
  { env with vars := env'.vars.filter (fun kv => Dict.mem env.vars kv.1) }

/-- What a scope value looks like inside an expression. -/
def toExpr : Option (SV V) → Expr V
  | some (.cell (.ast e)) => e
  | _ => .opaque

mutual
/-- `ArgSubstituter`, verse/parser/parser.py:284-295: replaces `ast.arg` nodes, everywhere, by name. -/
def subst (s : Dict String (Expr V)) : Expr V → Expr V
  | .const v => .const v
  | .str t => .str t
  | .name n => .name n
  | .hole n typ => (Dict.get? s n).getD (.hole n typ)
  | .attr e a => .attr (subst s e) a
  | .unary op e => .unary op (subst s e)
  | .binop op l r => .binop op (subst s l) (subst s r)
  | .boolop op es => .boolop op (substs s es)
  | .compare l rest => .compare (subst s l) (substC s rest)
  | .call f args => .call f (substs s args)
  | .mcall o f args => .mcall o f (substs s args)
  | .gen op elt x iter ifs => .gen op (subst s elt) x (subst s iter) (substs s ifs)
  | .red op e x value => .red op (subst s e) x (subst s value)
  | .ifexp t b o => .ifexp (subst s t) (subst s b) (subst s o)
  | .opaque => .opaque
def substs (s : Dict String (Expr V)) : Exprs V → Exprs V
  | .nil => .nil
  | .cons e es => .cons (subst s e) (substs s es)
def substC (s : Dict String (Expr V)) : Cmps V → Cmps V
  | .nil => .nil
  | .cons op e rest => .cons op (subst s e) (substC s rest)
end

/-- `Lambda.apply`, verse/parser/parser.py:260-272: `zip` stops at the shorter list, a later parameter of the same name
wins. -/
def Lam.apply (l : Lam V) (args : List (Expr V)) : List (PAssert V) × Expr V :=
  let s := (l.params.zip args).foldl (fun (d : Dict String (Expr V)) pa => Dict.set d pa.1 pa.2) []
  (l.asserts.map (fun a => { cond := subst s a.cond, label := a.label, pre := a.pre.map (subst s) }), subst s l.body)

/-- `cond_trans`, verse/parser/parser.py:917-927, applied to the conjunction of the filters (line 930). -/
def condTrans (zero : V) (op : RedOp) (e c : Expr V) : Expr V :=
  match op with
  | .any => .boolop .and (.cons e (.cons c .nil))
  | .all => .boolop .or (.cons e (.cons (.unary .not c) .nil))
  | .sum => .ifexp c e (.const zero)

/-- The comparisons after the first one, verse/parser/parser.py:866-869: neighbours `proc_comps[i]`, `proc_comps[i+1]`. -/
def neighbours (l : Expr V) : Cmps V → Exprs V
  | .nil => .nil
  | .cons op e rest => .cons (.compare l (.cons op e .nil)) (neighbours e rest)

/-- Assembly of a comparison, verse/parser/parser.py:864-873: a single comparison, or the conjunction of neighbours. -/
def mkCompare (l : Expr V) : Cmps V → Expr V
  | .nil => .compare l .nil
  | .cons op e .nil => .compare l (.cons op e .nil)
  | .cons op e rest => .boolop .and (.cons (.compare l (.cons op e .nil)) (neighbours e rest))

/-- `proc` of `obj.a` once `obj` is known, verse/parser/parser.py:790-800. -/
def attrOf (modeDefs : List String) (a : String) : Option (SV V) → Except String (SV V)
  | some (.cell (.ast (.hole n typ))) =>
    .ok (.cell (.ast (if modeDefs.contains n then .str a else .attr (.hole n typ) a)))
  | some (.obj d) => match Dict.get? d a with
    | some c => .ok (.cell c)
    | none => .error "KeyError"
  | _ => .error "TypeError"

/-- Is the value the `copy` module's hole? (verse/parser/parser.py:880-886) -/
def isCopy : Option (SV V) → Bool
  | some (.cell (.ast (.hole n _))) => n == "copy"
  | _ => false

/-- Is the value a hole? -/
def isHole : Option (SV V) → Bool
  | some (.cell (.ast (.hole _ _))) => true
  | _ => false

/-- Is the expression the name of a mode class? (verse/parser/parser.py:791-792) -/
def isModeName (modeDefs : List String) : Expr V → Bool
  | .name n => modeDefs.contains n
  | _ => false

mutual
/-- `proc` on expressions, verse/parser/parser.py:749-952; the result is the scope value (`none` is Python's `None`) and the
environment afterwards. `zero` is the constant of line 925. -/
def procV (zero : V) (env : Env V) : Expr V → Except String (Option (SV V) × Env V)
  | .const v => .ok (some (.cell (.ast (.const v))), env)
  | .str s => .ok (some (.cell (.ast (.str s))), env)
  | .hole n typ => .ok (some (.cell (.ast (.hole n typ))), env)
  | .opaque => .ok (some (.cell (.ast .opaque)), env)
  | .red _ _ _ _ => .error "NotImplementedError"
  | .ifexp t b o => .ok (some (.cell (.ast (.ifexp t b o))), env)
  | .name n => .ok (env.lookup n, env)
  | .attr e a =>
    if isModeName env.modeDefs e then .ok (some (.cell (.ast (.str a))), env)
    else do
      let (o, env) ← procV zero env e
      let v ← attrOf env.modeDefs a o
      return (some v, env)
  | .unary op e => do
    let (v, env) ← procV zero env e
    return (some (.cell (.ast (.unary op (toExpr v)))), env)
  | .binop op l r => do
    let (v, env) ← procV zero env l
    let (w, env) ← procV zero env r
    return (some (.cell (.ast (.binop op (toExpr v) (toExpr w)))), env)
  | .boolop op es => do
    let (vs, env) ← procL zero env es
    return (some (.cell (.ast (.boolop op vs))), env)
  | .compare l rest => do
    let (vs, env) ← procC zero env rest
    let (v, env) ← procV zero env l
    return (some (.cell (.ast (mkCompare (toExpr v) vs))), env)
  | .call f args =>
    match env.lookup f with
    | some (.lam l) => do
      let (vs, env) ← procL zero env args
      let r := l.apply vs.toList
      return (some (.cell (.ast r.2)), { env with asserts := env.asserts ++ r.1 })
    | some (.cell (.ast (.hole _ _))) => do
      let (vs, env) ← procL zero env args
      return (some (.cell (.ast (.call f vs))), env)
    | _ => .error "NotImplementedError: unknown function"
  | .mcall o f args =>
    if isCopy (env.lookup o) && f == "deepcopy" then
      match args with
      | .cons e .nil => procV zero env e
      | _ => .error "ValueError"
    else if isHole (env.lookup o) then do
      let (vs, env) ← procL zero env args
      return (some (.cell (.ast (.mcall o f vs))), env)
    else .error "TypeError"
  | .gen op elt x iter ifs =>
    if (env.lookup op.name).isSome then .error "not modelled: rebinding of any/all/sum"
    else do
      let (e, env1) ← procV zero (env.addHole x none) elt
      let e := if ifs.length = 0 then toExpr e else condTrans zero op (toExpr e) (.boolop .and ifs)
      let (i, env2) ← procV zero env1 iter
      return (some (.cell (.ast (.red op e x (toExpr i)))), env.popTo env2)
/-- `[proc(a, env) for a in args]` -/
def procL (zero : V) (env : Env V) : Exprs V → Except String (Exprs V × Env V)
  | .nil => .ok (.nil, env)
  | .cons e es => do
    let (v, env) ← procV zero env e
    let (vs, env) ← procL zero env es
    return (.cons (toExpr v) vs, env)
/-- `[proc(comp, env) for comp in node.comparators]`, with the operators -/
def procC (zero : V) (env : Env V) : Cmps V → Except String (Cmps V × Env V)
  | .nil => .ok (.nil, env)
  | .cons op e rest => do
    let (v, env) ← procV zero env e
    let (vs, env) ← procC zero env rest
    return (.cons op (toExpr v) vs, env)
end

/-- `Lambda.from_ast` for `lambda params: body`, verse/parser/parser.py:214-254. -/
def lamFromAst (zero : V) (env : Env V) (params : List (String × Option String)) (body : Expr V) :
    Except String (Lam V × Env V) := do
  let env1 := params.foldl (fun (e : Env V) p => e.addHole p.1 p.2) { env with asserts := [] }
  let (v, env2) ← procV zero env1 body
  return ({ params := params.map Prod.fst, body := toExpr v, asserts := env2.asserts }, env.popTo env2)

/-- `merge_conds`, verse/parser/parser.py:17-23. -/
def mergeConds (tt : V) : List (Expr V) → Expr V
  | [] => .const tt
  | [c] => c
  | c :: cs => .boolop .and (.ofList (c :: cs))

/-- `as_cv`, verse/parser/parser.py:661-666: the cases of a value. -/
def Cell.asCases : Cell V → List (Case V)
  | .ast e => [{ conds := [], val := e }]
  | .cond cs => cs

/-- `merge_cond`, verse/parser/parser.py:651-657, on a list of cases. -/
def addCond (test : Expr V) (cs : List (Case V)) : List (Case V) :=
  cs.map (fun c => { c with conds := c.conds ++ [test] })

/-- Removal of the cases of `orig`, verse/parser/parser.py:670-674 (`list.remove` drops the first equal element). -/
def eraseCases [DecidableEq V] (orig cs : List (Case V)) : List (Case V) :=
  orig.foldl (fun (acc : List (Case V)) o => acc.erase o) cs

/-- `merge_if_val`, verse/parser/parser.py:648-691. -/
def mergeIfVal [DecidableEq V] (test : Expr V) (t f o : Option (Cell V)) : Except String (Cell V) :=
  let orig := (o.map Cell.asCases).getD []
  let ts := eraseCases orig ((t.map Cell.asCases).getD [])
  let fs := eraseCases orig ((f.map Cell.asCases).getD [])
  if ts.isEmpty && fs.isEmpty then .error "no need for merge?"
  else .ok (.cond (addCond test ts ++ addCond (.unary .not test) fs ++ orig))

/-- `merge_if_single` on the attributes of an object, verse/parser/parser.py:604-645: `t` and `f` are the attributes in the two
branches, `d` those before the `if`. The union of the key sets is traversed in some order (a Python `set`). -/
def mergeAttrs [DecidableEq V] (test : Expr V) (t f d : Dict String (Cell V)) : Except String (Dict String (Cell V)) :=
  (t.keys ++ f.keys).dedup.foldlM (fun (d : Dict String (Cell V)) a =>
    if Dict.get? t a = Dict.get? f a then .ok d
    else (mergeIfVal test (Dict.get? t a) (Dict.get? f a) (Dict.get? d a)).map (Dict.set d a)) d

/-- The scalar in a scope value (`none` for an absent variable). -/
def scalar : Option (SV V) → Except String (Option (Cell V))
  | none => .ok none
  | some (.cell c) => .ok (some c)
  | some (.obj _) => .error "AssertionError"
  | some (.lam _) => .error "not modelled: merging functions"

/-- The object in a scope value (`{}` for an absent variable). -/
def object : Option (SV V) → Except String (Dict String (Cell V))
  | none => .ok []
  | some (.obj d) => .ok d
  | _ => .error "AssertionError"

/-- Is the value a `dict`? -/
def isObj : Option (SV V) → Bool
  | some (.obj _) => true
  | _ => false

/-- One step of `merge_if_single` on an environment, verse/parser/parser.py:618-645, for the variable `x` with values `t` and
`f` in the branches. Simplification: an object that exists only in the else branch is treated as a scalar by Python (line
642-645 wraps the dict in a `CondVal`, which no later attribute access survives); here it is an error. -/
def mergeVar [DecidableEq V] (test : Expr V) (x : String) (t f : Option (SV V)) (env : Env V) : Except String (Env V) :=
  if t = f then .ok env
  else if isObj t then do
    let dt ← object t
    let df ← object f
    let d ← object (env.lookup x)
    let d' ← mergeAttrs test dt df d
    return env.set x (.obj d')
  else do
    let ct ← scalar t
    let cf ← scalar f
    let co ← scalar (env.lookup x)
    let c ← mergeIfVal test ct cf co
    return env.set x (.cell c)

/-- `list.remove(o)` if there is an element equal to `o` (up to labels), verse/parser/parser.py:595-599. -/
def removeSame [DecidableEq V] (l : List (PAssert V)) (o : PAssert V) : List (PAssert V) := l.eraseP (fun a => o.same a)

/-- `merge_assert`, verse/parser/parser.py:589-601. -/
def mergeAssert [DecidableEq V] (test : Expr V) (trues falses orig : List (PAssert V)) : List (PAssert V) :=
  (orig.foldl removeSame trues).map (fun a => { a with pre := a.pre ++ [test] }) ++
  (orig.foldl removeSame falses).map (fun a => { a with pre := a.pre ++ [.unary .not test] }) ++ orig

/-- `merge_if`, verse/parser/parser.py:580-586. -/
def mergeIf [DecidableEq V] (test : Expr V) (trues falses env : Env V) : Except String (Env V) := do
  let env' ← (trues.vars.keys ++ falses.vars.keys).dedup.foldlM
    (fun (e : Env V) x => mergeVar test x (trues.lookup x) (falses.lookup x) e) env
  return { env' with asserts := mergeAssert test trues.asserts falses.asserts env.asserts }

/-- `obj[a] = c` after `proc_assign_attr` looked the object up, verse/parser/parser.py:695-704: an unknown name becomes a new
object. -/
def setAttr (env : Env V) (x a : String) (c : Cell V) : Except String (Env V) :=
  match env.lookup x with
  | none => .ok (env.set x (.obj [(a, c)]))
  | some (.obj d) => .ok (env.set x (.obj (Dict.set d a c)))
  | _ => .error "TypeError"

/-- `proc_assign` to a name, verse/parser/parser.py:706-719, for the processed value. A hole whose annotation is a state class is
expanded into its attributes; another hole, or `None`, is ignored. -/
def assignName (env : Env V) (x : String) : Option (SV V) → Except String (Env V)
  | none => .ok env
  | some (.cell (.ast (.hole n typ))) =>
    match typ.bind (Dict.get? env.stateDefs) with
    | some attrs => attrs.foldlM (fun (e : Env V) a =>
        setAttr e x a (.ast (if env.modeDefs.contains n then .str a else .attr (.hole n typ) a))) env
    | none => .ok env
  | some v => .ok (env.set x v)

/-- The cell in a scope value that is assigned to an attribute. -/
def attrCell : SV V → Except String (Cell V)
  | .cell c => .ok c
  | _ => .error "not modelled: nested objects"

mutual
/-- `proc` on statements, verse/parser/parser.py:749-952. -/
def procS [DecidableEq V] (zero : V) (env : Env V) : Stmt V → Except String (Env V)
  | .assign x e => do
    let (v, env) ← procV zero env e
    assignName env x v
  | .setattr x a e => do
    -- line 696-697: an unknown object is created before the value is processed
    let env := if (env.lookup x).isNone then env.set x (.obj []) else env
    let (v, env) ← procV zero env e
    match v with
    | none => return env
    | some v => do
      let c ← attrCell v
      setAttr env x a c
  | .ite test body orelse => do
    let (t, env) ← procV zero env test
    let et ← procSs zero env body
    let ef ← procSs zero env orelse
    mergeIf (toExpr t) et ef env
  | .assert c label => do
    let (v, env) ← procV zero env c
    return { env with asserts := env.asserts ++ [{ cond := toExpr v, label := label, pre := [] }] }
/-- a block of statements -/
def procSs [DecidableEq V] (zero : V) (env : Env V) : List (Stmt V) → Except String (Env V)
  | [] => .ok env
  | s :: ss => (procS zero env s).bind (fun env => procSs zero env ss)
end

mutual
/-- Does compiling this expression raise? -/
def hasOpaque : Expr V → Bool
  | .opaque => true
  | .const _ | .str _ | .name _ | .hole _ _ => false
  | .attr e _ => hasOpaque e
  | .unary _ e => hasOpaque e
  | .binop _ l r => hasOpaque l || hasOpaque r
  | .boolop _ es => hasOpaques es
  | .compare l rest => hasOpaque l || hasOpaqueC rest
  | .call _ args => hasOpaques args
  | .mcall _ _ args => hasOpaques args
  | .gen _ elt _ iter ifs => hasOpaque elt || hasOpaque iter || hasOpaques ifs
  | .red _ e _ value => hasOpaque e || hasOpaque value
  | .ifexp t b o => hasOpaque t || hasOpaque b || hasOpaque o
def hasOpaques : Exprs V → Bool
  | .nil => false
  | .cons e es => hasOpaque e || hasOpaques es
def hasOpaqueC : Cmps V → Bool
  | .nil => false
  | .cons _ e rest => hasOpaque e || hasOpaqueC rest
end

/-- `ModePath`, verse/parser/parser.py:298-305: guard, variable and value (the compiled and the verification version have the
same meaning). -/
structure Path (V : Type) where
  cond : Expr V
  var : String
  val : Expr V
deriving DecidableEq

/-- `Assert` / `CompiledAssert`, verse/parser/parser.py:182-193. -/
structure AssertIR (V : Type) where
  cond : Expr V
  label : String
  pre : Expr V
deriving DecidableEq

/-- `ControllerIR`, verse/parser/parser.py:314-322: paths and asserts. -/
structure IR (V : Type) where
  paths : List (Path V)
  asserts : List (AssertIR V)
deriving DecidableEq

/-- `Env.trans_args` followed by compilation, verse/parser/parser.py:491-574: the meaning does not change (holes become names,
reductions become generator expressions); a `CondVal` inside raises. -/
def compile (e : Expr V) : Except String (Expr V) := if hasOpaque e then .error "NotImplementedError" else .ok e

/-- The paths of one output variable, verse/parser/parser.py:400-410. -/
def pathsOf (tt : V) (var : String) : Cell V → Except String (List (Path V))
  | .ast _ => .ok []
  | .cond cs => (cs.filter (fun c => !c.conds.isEmpty)).mapM (fun (c : Case V) => do
      let g ← compile (mergeConds tt c.conds)
      let v ← compile c.val
      return { cond := g, var := var, val := v })

/-- One compiled assert, verse/parser/parser.py:375-395. -/
def assertIR (tt : V) (i : Nat) (a : PAssert V) : Except String (AssertIR V) := do
  let c ← compile a.cond
  let p ← compile (mergeConds tt a.pre)
  return { cond := c, label := a.label.getD s!"<assert {i}>", pre := p }

/-- `ControllerIR.from_env`, verse/parser/parser.py:369-418, for a decision logic `def decisionLogic(params): body; return out`
analysed in the environment `env` of the module: `Lambda.from_ast` (214-254) with the returned object. -/
def extract [DecidableEq V] (zero tt : V) (env : Env V) (params : List (String × Option String)) (body : List (Stmt V))
    (out : String) : Except String (IR V) := do
  let env1 := params.foldl (fun (e : Env V) p => e.addHole p.1 p.2) { env with asserts := [] }
  let env2 ← procSs zero env1 body
  let asserts ← (env2.asserts.zipIdx).mapM (fun (ai : PAssert V × Nat) => assertIR tt ai.2 ai.1)
  match env2.lookup out with
  | some (.obj d) => do
    let ps ← d.mapM (fun (ac : String × Cell V) => pathsOf tt ac.1 ac.2)
    return { paths := ps.flatten, asserts := asserts }
  | _ => .error "NotImplementedError: non-object return"

end Verif.Py
