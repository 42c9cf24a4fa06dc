import Verif.Spec.PyFun

/-!
Model of verse/analysis/parsed_wrap/bounded_piecewise.py and of `handle_piecewise_function`
(verse/analysis/parsed_wrap/parser_wrapper.py:321-360). Numbers are exact: `z3num_to_float` is the
identity here.
-/

set_option autoImplicit false

namespace Verif.Pw

open Verif.Spec

/-- Real terms of z3. -/
inductive ZE (K : Type) where
  | var (x : String)
  | const (c : K)
  | neg (a : ZE K)
  | add (a b : ZE K)
  | sub (a b : ZE K)
  | mul (a b : ZE K)
  | div (a b : ZE K)

/-- Formulas of z3. -/
inductive ZF (K : Type) where
  | tt
  | cmp (op : CmpOp) (a b : ZE K)
  | and (a b : ZF K)
  | or (a b : ZF K)
  | not (a : ZF K)

variable {K : Type} [Field K] [LinearOrder K]

/-- verse/analysis/parsed_wrap/bounded_piecewise.py:183-226 `ast_to_z3_expr`. -/
def toZ (vars : List String) : PE K → Except String (ZE K)
  | .name x => if x ∈ vars then .ok (.var x) else .error "ValueError"
  | .const c => .ok (.const c)
  | .neg a => (toZ vars a).map .neg
  | .pos a => toZ vars a
  | .add a b => (toZ vars a).bind fun x => (toZ vars b).map fun y => .add x y
  | .sub a b => (toZ vars a).bind fun x => (toZ vars b).map fun y => .sub x y
  | .mul a b => (toZ vars a).bind fun x => (toZ vars b).map fun y => .mul x y
  | .div a b => (toZ vars a).bind fun x => (toZ vars b).map fun y => .div x y
  | .call1 _ _ => .error "ValueError"
  | .call2 _ _ _ => .error "ValueError"

/-- verse/analysis/parsed_wrap/bounded_piecewise.py:143-162: the loop over the operators of a comparison.
`left` is the same in every round. -/
def cmpLoop (vars : List String) (left : ZE K) : Option (ZF K) → List (CmpOp × PE K) → Except String (Option (ZF K))
  | result, [] => .ok result
  | result, (op, e) :: rest => (toZ vars e).bind fun right =>
    cmpLoop vars left (some (match result with | none => .cmp op left right | some r => .and r (.cmp op left right))) rest

/-- verse/analysis/parsed_wrap/bounded_piecewise.py:136-180 `ast_to_z3_condition`. A comparison without
operators does not exist in Python. -/
def toZC (vars : List String) : PC K → Except String (ZF K)
  | .cmp l ops => (toZ vars l).bind fun left => (cmpLoop vars left none ops).bind fun r => match r with
    | some f => .ok f
    | none => .error "SyntaxError"
  | .and a b => (toZC vars a).bind fun x => (toZC vars b).map fun y => .and x y
  | .or a b => (toZC vars a).bind fun x => (toZC vars b).map fun y => .or x y
  | .not a => (toZC vars a).map .not
  | .other => .error "ValueError"

/-- verse/analysis/parsed_wrap/bounded_piecewise.py:229-244 `extract_return_value`. -/
def extractReturn : List (PS K) → Except String (PE K)
  | [] => .error "ValueError"
  | .ret e :: _ => .ok e
  | _ :: rest => extractReturn rest

/-- verse/analysis/parsed_wrap/bounded_piecewise.py:116-133: the loop along `if`, `elif`, `else`, started at
an `if` with the given parts. -/
def chainLoop (vars : List String) : Nat → PC K → List (PS K) → List (PS K) → Except String (List (Option (ZF K) × PE K))
  | 0, _, _, _ => .error "RecursionError"
  | n + 1, c, body, orelse => (toZC vars c).bind fun z => (extractReturn body).bind fun out =>
    match orelse with
    | [.ifS c' body' orelse'] => (chainLoop vars n c' body' orelse').map fun l => (some z, out) :: l
    | [] => .ok [(some z, out)]
    | orelse => (extractReturn orelse).map fun e => [(some z, out), (none, e)]

/-- A bound on the number of rounds of the loop. -/
def chainDepth : List (PS K) → Nat
  | [.ifS _ _ orelse] => chainDepth orelse + 1
  | _ => 1

/-- verse/analysis/parsed_wrap/bounded_piecewise.py:101-105: the first `if` of the body. -/
def findIf : List (PS K) → Option (PC K × List (PS K) × List (PS K))
  | [] => none
  | .ifS c b o :: _ => some (c, b, o)
  | _ :: rest => findIf rest

/-- verse/analysis/parsed_wrap/bounded_piecewise.py:84-133 `parse_piecewise_function`. -/
def parsePiecewise (f : PFun K) : Except String (List (Option (ZF K) × PE K)) :=
  match findIf f.body with
  | none => .error "ValueError"
  | some (c, b, o) => chainLoop f.params (chainDepth o + 1) c b o

/-- The z3 optimizer: smallest (`true`) or largest (`false`) value of a variable over the points of the box
that satisfy the formula; `none` when the check does not answer `sat`. -/
abbrev Opt (K : Type) := Bool → Dict String (K × K) → ZF K → String → Option K

/-- `And(negated_conditions) if negated_conditions else BoolVal(True)`,
verse/analysis/parsed_wrap/bounded_piecewise.py:42. -/
def conj : List (ZF K) → ZF K
  | [] => .tt
  | [a] => a
  | a :: l => .and a (conj l)

/-- verse/analysis/parsed_wrap/bounded_piecewise.py:50-77: the bounds of all variables on a branch. -/
def constrain (opt : Opt K) (box : Dict String (K × K)) (cond : ZF K) : Option (Dict String (K × K)) :=
  (Dict.keys box).mapM fun n => (opt true box cond n).bind fun lo => (opt false box cond n).map fun hi => (n, (lo, hi))

/-- verse/analysis/parsed_wrap/bounded_piecewise.py:40-82: the loop over the branches. -/
def piecesLoop (opt : Opt K) (box : Dict String (K × K)) : List (ZF K) → List (Option (ZF K) × PE K) → List (Dict String (K × K) × PE K)
  | _, [] => []
  | neg, (none, out) :: rest =>
    ((constrain opt box (conj neg)).map fun b => (b, out)).toList ++ piecesLoop opt box neg rest
  | neg, (some c, out) :: rest =>
    ((constrain opt box c).map fun b => (b, out)).toList ++ piecesLoop opt box (neg ++ [.not c]) rest

/-- verse/analysis/parsed_wrap/bounded_piecewise.py:23-82 `bounded_piecewise_z3`. -/
def boundedPiecewise (opt : Opt K) (conds : List (Option (ZF K) × PE K)) (box : Dict String (K × K)) : List (Dict String (K × K) × PE K) :=
  piecesLoop opt box [] conds

/-- The bounds of all variables: for each a list of intervals. -/
abbrev Bounds (K : Type) := Dict String (List (K × K))

/-- Computation of the bounds of an expression. -/
abbrev EB (K : Type) := PE K → Bounds K → Except String (List (K × K))

/-- `dict(zip(args, combo))`. -/
def zipDict {V : Type} (args : List String) (combo : List V) : Dict String V :=
  (args.zip combo).foldl (fun d p => Dict.set d p.1 p.2) []

/-- `current_bounds[name]` for all arguments. -/
def lookupAll (cur : Bounds K) (args : List String) : Except String (List (List (K × K))) :=
  args.mapM fun a => match Dict.get? cur a with | some l => .ok l | none => .error "KeyError"

/-- verse/analysis/parsed_wrap/parser_wrapper.py:337-354: the bounds of all branches for one combination. -/
def comboBounds (opt : Opt K) (eb : EB K) (parsed : List (Option (ZF K) × PE K)) (args : List String) (combo : List (K × K)) :
    Except String (List (K × K)) :=
  ((boundedPiecewise opt parsed (zipDict args combo)).mapM fun r => eb r.2 (r.1.map fun p => (p.1, [p.2]))).map List.flatten

/-- `min(min(b) for b in bs)` and `max(max(b) for b in bs)`,
verse/analysis/parsed_wrap/parser_wrapper.py:357-360. -/
def hull : List (K × K) → Except String (List (K × K))
  | [] => .error "ValueError"
  | b :: bs => .ok [(bs.foldl (fun m x => min m (min x.1 x.2)) (min b.1 b.2), bs.foldl (fun m x => max m (max x.1 x.2)) (max b.1 b.2))]

/-- verse/analysis/parsed_wrap/parser_wrapper.py:321-360 `handle_piecewise_function`. -/
def handlePiecewise (opt : Opt K) (eb : EB K) (f : PFun K) (args : List String) (cur : Bounds K) : Except String (List (K × K)) :=
  (lookupAll cur args).bind fun bl => (parsePiecewise f).bind fun parsed =>
    ((product bl).mapM (comboBounds opt eb parsed args)).bind fun all => hull all.flatten

end Verif.Pw
