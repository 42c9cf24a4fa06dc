import Verif.Model.Basic
import Mathlib.Algebra.Order.Field.Basic

/-!
Guard evaluation of the verifier: `verse/automaton/guard.py`.

A guard is the expression tree the parser produced (`cond_veri`). Python uses one class of nodes for everything; here formulas and
terms are separate types, so guards that use a number as a truth value, or compare truth values, are not modelled. Chained
comparisons do not occur: the parser has split them (C15). Strings that Python builds from names (`"ego.x"`,
`"others_0.x"`, `"tmp_variable7"`) are keys here, and the substring tests of Python on unparsed code are tests for
occurrence of a key. Arithmetic is exact (Python: floats and the reals of the solver).
-/

set_option autoImplicit false

namespace Verif.Grd

/-- Variables: `n.a`; `l_i.a`, attribute `a` of the `i`-th element of the list `l` (guard.py:1273); a bare name; the temporary
variable `tmp_variable{i}` (guard.py:480). -/
inductive Key where
  | attr (n a : String)
  | elem (l : String) (i : Nat) (a : String)
  | name (n : String)
  | tmp (i : Nat)
deriving DecidableEq

/-- Values of constants and of discrete variables. -/
inductive Val (K : Type) where
  | num (r : K)
  | str (s : String)
  | bool (b : Bool)
deriving DecidableEq

/-- Comparison operators, guard.py:744-757. -/
inductive CmpOp where
  | ge | gt | lt | le | eq | ne
deriving DecidableEq

/-- Arithmetic operators (`ast.BinOp`). -/
inductive BinOp where
  | add | sub | mul | div
deriving DecidableEq

/-- The two map queries with continuous arguments, guard.py:421, 488. -/
inductive Query where
  | lateral | longitudinal
deriving DecidableEq

mutual
/-- Terms. `lane q l xs` is `track_map.get_lateral_distance(l, [xs…])` or `…get_longitudinal_position…`; `sum x l t` is the reduction
`sum(t for x in l)`; `sumList ts` is the call `sum([ts…])` it is unrolled to; `call` is any other function call. -/
inductive Term (K : Type) where
  | lit (v : Val K)
  | var (k : Key)
  | neg (t : Term K)
  | bin (op : BinOp) (l r : Term K)
  | call (f : String) (args : Terms K)
  | lane (q : Query) (l : Term K) (xs : List Key)
  | sum (x l : String) (t : Term K)
  | sumList (ts : Terms K)
deriving DecidableEq
inductive Terms (K : Type) where
  | nil
  | cons (t : Term K) (ts : Terms K)
deriving DecidableEq
end

mutual
/-- Formulas. `red b x l f` is `all(f for x in l)` if `b`, else `any(f for x in l)`; `callb` is a call that returns a `bool`. -/
inductive Fml (K : Type) where
  | bool (b : Bool)
  | cmp (op : CmpOp) (l r : Term K)
  | and (fs : Fmls K)
  | or (fs : Fmls K)
  | not (f : Fml K)
  | callb (f : String) (args : Terms K)
  | red (all : Bool) (x l : String) (f : Fml K)
deriving DecidableEq
inductive Fmls (K : Type) where
  | nil
  | cons (f : Fml K) (fs : Fmls K)
deriving DecidableEq
end

variable {K : Type}

def Terms.toList : Terms K → List (Term K)
  | .nil => []
  | .cons t ts => t :: ts.toList

def Terms.ofList : List (Term K) → Terms K
  | [] => .nil
  | t :: ts => .cons t (.ofList ts)

def Fmls.toList : Fmls K → List (Fml K)
  | .nil => []
  | .cons t ts => t :: ts.toList

def Fmls.ofList : List (Fml K) → Fmls K
  | [] => .nil
  | t :: ts => .cons t (.ofList ts)

/-! ### Unrolling `any`/`all`/`sum` -/

/-- `_parse_elt_new`, guard.py:1242-1339: `x.a` becomes `l_i.a`. -/
def subKey (x l : String) (i : Nat) : Key → Key
  | .attr n a => if n = x then .elem l i a else .attr n a
  | k => k

mutual
/-- `_parse_elt_new` on terms, guard.py:1242-1339. -/
def subT (x l : String) (i : Nat) : Term K → Term K
  | .lit v => .lit v
  | .var k => .var (subKey x l i k)
  | .neg t => .neg (subT x l i t)
  | .bin op s t => .bin op (subT x l i s) (subT x l i t)
  | .call f args => .call f (subTs x l i args)
  | .lane q k xs => .lane q (subT x l i k) (xs.map (subKey x l i))
  | .sum y m t => .sum y m (subT x l i t)
  | .sumList ts => .sumList (subTs x l i ts)
def subTs (x l : String) (i : Nat) : Terms K → Terms K
  | .nil => .nil
  | .cons t ts => .cons (subT x l i t) (subTs x l i ts)
end

mutual
/-- `_parse_elt_new` on formulas, guard.py:1242-1339. -/
def subF (x l : String) (i : Nat) : Fml K → Fml K
  | .bool b => .bool b
  | .cmp op s t => .cmp op (subT x l i s) (subT x l i t)
  | .and fs => .and (subFs x l i fs)
  | .or fs => .or (subFs x l i fs)
  | .not f => .not (subF x l i f)
  | .callb f args => .callb f (subTs x l i args)
  | .red b y m f => .red b y m (subF x l i f)
def subFs (x l : String) (i : Nat) : Fmls K → Fmls K
  | .nil => .nil
  | .cons f fs => .cons (subF x l i f) (subFs x l i fs)
end

mutual
/-- Does the term contain a reduction? -/
def hasRedT : Term K → Bool
  | .sum _ _ _ => true
  | .neg t => hasRedT t
  | .bin _ s t => hasRedT s || hasRedT t
  | .call _ args => hasRedTs args
  | .lane _ k _ => hasRedT k
  | .sumList ts => hasRedTs ts
  | _ => false
def hasRedTs : Terms K → Bool
  | .nil => false
  | .cons t ts => hasRedT t || hasRedTs ts
end

mutual
/-- Does the formula contain a reduction? -/
def hasRedF : Fml K → Bool
  | .red _ _ _ _ => true
  | .cmp _ s t => hasRedT s || hasRedT t
  | .and fs => hasRedFs fs
  | .or fs => hasRedFs fs
  | .not f => hasRedF f
  | .callb _ args => hasRedTs args
  | .bool _ => false
def hasRedFs : Fmls K → Bool
  | .nil => false
  | .cons f fs => hasRedF f || hasRedFs fs
end

mutual
/-- Variables of a term. -/
def keysT : Term K → List Key
  | .lit _ => []
  | .var k => [k]
  | .neg t => keysT t
  | .bin _ s t => keysT s ++ keysT t
  | .call _ args => keysTs args
  | .lane _ k xs => keysT k ++ xs
  | .sum _ _ t => keysT t
  | .sumList ts => keysTs ts
def keysTs : Terms K → List Key
  | .nil => []
  | .cons t ts => keysT t ++ keysTs ts
end

mutual
/-- Variables of a formula. -/
def keysF : Fml K → List Key
  | .bool _ => []
  | .cmp _ s t => keysT s ++ keysT t
  | .and fs => keysFs fs
  | .or fs => keysFs fs
  | .not f => keysF f
  | .callb _ args => keysTs args
  | .red _ _ _ f => keysF f
def keysFs : Fmls K → List Key
  | .nil => []
  | .cons f fs => keysF f ++ keysFs fs
end

/-- Is the variable an attribute of `x`? -/
def isAttrOf (x : String) : Key → Bool
  | .attr n _ => decide (n = x)
  | _ => false

/-- `len_dict[l]` -/
def lenOf (len : Dict String Nat) (l : String) : Except String Nat :=
  match Dict.get? len l with
  | some n => .ok n
  | none => .error "KeyError"

/-- The call `sum([…])` of the unrolled elements, or the only element: `ValueSubstituter.visit_Reduction`, guard.py:57-78. -/
def sumOp : List (Term K) → Term K
  | [t] => t
  | ts => .sumList (.ofList ts)

mutual
/-- `parse_any_all_new` / `unroll_any_all_new` / `ValueSubstituter.visit_Reduction` on terms, guard.py:1170-1240, 57-78: a single
element stands for itself. If the element contains a reduction, replacing an attribute of the variable in it raises `AttributeError`: `ValueSubstituter` compares the
reduction with the attribute, and `Reduction.__eq__` (parser.py:149-157) reads `o.op`. If there is nothing to replace, the copies of the inner reduction are unrolled
when `ast.walk` reaches the original one: `NodeSubstituter` (28-34) replaces all nodes that are equal to it. -/
def unrollT (len : Dict String Nat) : Term K → Except String (Term K)
  | .lit v => .ok (.lit v)
  | .var k => .ok (.var k)
  | .neg t => (unrollT len t).map .neg
  | .bin op s t => do
    let s ← unrollT len s
    let t ← unrollT len t
    return .bin op s t
  | .call f args => (unrollTs len args).map (.call f)
  | .lane q k xs => (unrollT len k).map (fun k => .lane q k xs)
  | .sum x l t => do
    let n ← lenOf len l
    if hasRedT t then
      if n ≠ 0 ∧ (keysT t).any (isAttrOf x) then .error "AttributeError"
      else (unrollT len t).map (fun u => sumOp ((List.range n).map (fun _ => u)))
    else return sumOp ((List.range n).map (fun i => subT x l i t))
  | .sumList ts => (unrollTs len ts).map .sumList
def unrollTs (len : Dict String Nat) : Terms K → Except String (Terms K)
  | .nil => .ok .nil
  | .cons t ts => do
    let t ← unrollT len t
    let ts ← unrollTs len ts
    return .cons t ts
end

/-- `ast.BoolOp` of the unrolled elements, or the only element: `ValueSubstituter.visit_Reduction`, guard.py:57-78. -/
def boolOp (all : Bool) : List (Fml K) → Fml K
  | [f] => f
  | fs => if all then .and (.ofList fs) else .or (.ofList fs)

mutual
/-- The same on formulas, guard.py:1170-1240. -/
def unrollF (len : Dict String Nat) : Fml K → Except String (Fml K)
  | .bool b => .ok (.bool b)
  | .cmp op s t => do
    let s ← unrollT len s
    let t ← unrollT len t
    return .cmp op s t
  | .and fs => (unrollFs len fs).map .and
  | .or fs => (unrollFs len fs).map .or
  | .not f => (unrollF len f).map .not
  | .callb f args => (unrollTs len args).map (.callb f)
  | .red b x l f => do
    let n ← lenOf len l
    if hasRedF f then
      if n ≠ 0 ∧ (keysF f).any (isAttrOf x) then .error "AttributeError"
      else (unrollF len f).map (fun u => boolOp b ((List.range n).map (fun _ => u)))
    else return boolOp b ((List.range n).map (fun i => subF x l i f))
def unrollFs (len : Dict String Nat) : Fmls K → Except String (Fmls K)
  | .nil => .ok .nil
  | .cons f fs => do
    let f ← unrollF len f
    let fs ← unrollFs len fs
    return .cons f fs
end

/-- What `sensor.sense` returns (verse/sensor/base_sensor.py:52-135), with `V` the values of continuous variables (intervals for
the verifier): values of `ego.a`, lists of values of `others.a`. -/
structure Sensed (K V : Type) where
  cont : Dict Key V
  contL : Dict (String × String) (List V)
  disc : Dict Key (Val K)
  discL : Dict (String × String) (List (Val K))
  len : Dict String Nat
deriving DecidableEq

/-- The updates that `_parse_elt_new` (guard.py:1283-1301) and `apply_cont_var_updater` (verse/analysis/verifier.py:1280-1284) make for one
unrolled variable. -/
def addElem {V : Type} (s : Sensed K V) : Key → Except String (Sensed K V)
  | .elem l i a =>
    match Dict.get? s.contL (l, a) with
    | some vs => match vs[i]? with
      | some v => .ok { s with cont := Dict.set s.cont (.elem l i a) v }
      | none => .error "IndexError"
    | none => match Dict.get? s.discL (l, a) with
      | some vs => match vs[i]? with
        | some v => .ok { s with disc := Dict.set s.disc (.elem l i a) v }
        | none => .error "IndexError"
      | none => .ok s
  | _ => .ok s

/-- All updates for an unrolled guard. -/
def addElems {V : Type} (s : Sensed K V) (f : Fml K) : Except String (Sensed K V) := (keysF f).foldlM addElem s

/-! ### Discrete evaluation -/

/-- The functions a guard may call with discrete arguments (`eval(expr)`, guard.py:829): a parameter. -/
abbrev Funs (K : Type) := String → List (Val K) → Val K

/-- `isinstance(v, bool)` in guard.py:742 means "unknown". -/
def known : Val K → Option (Val K)
  | .bool _ => none
  | v => some v

section
variable [LinearOrder K]

/-- `left op right`, guard.py:744-757, for values that are not `bool`: numbers by order, strings by their order, different types are
different and cannot be ordered. -/
def compareVals : CmpOp → Val K → Val K → Except String Bool
  | .eq, a, b => .ok (decide (a = b))
  | .ne, a, b => .ok (decide (a ≠ b))
  | .ge, .num a, .num b => .ok (decide (b ≤ a))
  | .gt, .num a, .num b => .ok (decide (b < a))
  | .lt, .num a, .num b => .ok (decide (a < b))
  | .le, .num a, .num b => .ok (decide (a ≤ b))
  | .ge, .str a, .str b => .ok (!decide (a < b))
  | .gt, .str a, .str b => .ok (decide (b < a))
  | .lt, .str a, .str b => .ok (decide (a < b))
  | .le, .str a, .str b => .ok (!decide (b < a))
  | _, _, _ => .error "TypeError"

/-- The arguments of a call whose variables are all discrete; `eval` after the textual replacement of variables by quoted values,
guard.py:827-829. Simplification: only constants, string-valued variables and bare names. -/
def argVals (disc : Dict Key (Val K)) : Terms K → Except String (List (Val K))
  | .nil => .ok []
  | .cons (.lit v) ts => (argVals disc ts).map (fun vs => v :: vs)
  | .cons (.var k) ts =>
    match Dict.get? disc k with
    | some (.str s) => (argVals disc ts).map (fun vs => .str s :: vs)
    | _ => .error "not modelled: argument of a call"
  | _ => .error "not modelled: argument of a call"

/-- Does a call mention a discrete and no continuous variable? guard.py:818-820. -/
def discOnly {V : Type} (cont : Dict Key V) (disc : Dict Key (Val K)) (args : Terms K) : Bool :=
  (keysTs args).any (fun k => (Dict.get? disc k).isSome) && (keysTs args).all (fun k => (Dict.get? cont k).isNone)

/-- `ast.parse(str(res)).body[0].value`, guard.py:831-842: a string turns into a bare name. -/
def litOf : Val K → Term K
  | .str s => .var (.name s)
  | v => .lit v

mutual
/-- `_evaluate_guard_disc` on terms, guard.py:732-905: the value (`none` for Python's `True`, unknown) and the new node.
Simplification: attributes of mode classes (guard.py:865) do not occur, the parser turns them into constants. -/
def discT {V : Type} (F : Funs K) (cont : Dict Key V) (disc : Dict Key (Val K)) : Term K → Except String (Option (Val K) × Term K)
  | .lit v => .ok (known v, .lit v)
  | .var k => match Dict.get? disc k with
    | some v => .ok (known v, .var k)
    | none => .ok (none, .var k)
  | .neg t => (discT F cont disc t).map (fun r => (none, .neg r.2))
  | .bin op s t => do
    let r ← discT F cont disc s
    let r' ← discT F cont disc t
    return (none, .bin op r.2 r'.2)
  | .call f args => do
    let as ← discTs F cont disc args
    if discOnly cont disc as then do
      let vs ← argVals disc as
      return (known (F f vs), litOf (F f vs))
    else return (none, .call f as)
  | .lane q k xs => do
    let r ← discT F cont disc k
    if discOnly cont disc (.cons (.lane q r.2 xs) .nil) then .error "not modelled: lane query without continuous variable"
    else return (none, .lane q r.2 xs)
  | .sum _ _ _ => .error "ValueError"
  | .sumList ts => if discOnly cont disc ts then .error "not modelled: sum of discrete variables" else .ok (none, .sumList ts)
def discTs {V : Type} (F : Funs K) (cont : Dict Key V) (disc : Dict Key (Val K)) : Terms K → Except String (Terms K)
  | .nil => .ok .nil
  | .cons t ts => do
    let r ← discT F cont disc t
    let ts ← discTs F cont disc ts
    return .cons r.2 ts
end

mutual
/-- `_evaluate_guard_disc` on formulas, guard.py:732-905: can it be satisfied, and the new node. -/
def discF {V : Type} (F : Funs K) (cont : Dict Key V) (disc : Dict Key (Val K)) : Fml K → Except String (Bool × Fml K)
  | .bool b => .ok (b, .bool b)
  | .cmp op s t => do
    let l ← discT F cont disc s
    let r ← discT F cont disc t
    match l.1, r.1 with
    | some a, some b => do
      let res ← compareVals op a b
      return (res, .bool res)
    | _, _ => return (true, .cmp op l.2 r.2)
  | .and fs => do
    let r ← discAnd F cont disc fs
    match r with
    | some fs => return (true, .and fs)
    | none => return (false, .bool false)
  | .or fs => do
    let r ← discOr F cont disc fs
    return (r.1, .or r.2)
  | .not f => do
    let r ← discF F cont disc f
    if r.1 then return (true, .not r.2) else return (true, .bool true)
  | .callb f args => do
    let as ← discTs F cont disc args
    if discOnly cont disc as then do
      let vs ← argVals disc as
      match F f vs with
      | .bool b => return (b, .bool b)
      | _ => .error "not modelled: call with another result than bool as formula"
    else return (true, .callb f as)
  | .red _ _ _ _ => .error "ValueError"
/-- The loop of a conjunction, guard.py:767-776: `none` at the first false conjunct. -/
def discAnd {V : Type} (F : Funs K) (cont : Dict Key V) (disc : Dict Key (Val K)) : Fmls K → Except String (Option (Fmls K))
  | .nil => .ok (some .nil)
  | .cons f fs => do
    let r ← discF F cont disc f
    if r.1 then do
      let r' ← discAnd F cont disc fs
      return r'.map (fun fs => .cons r.2 fs)
    else return none
/-- The loop of a disjunction, guard.py:777-784. -/
def discOr {V : Type} (F : Funs K) (cont : Dict Key V) (disc : Dict Key (Val K)) : Fmls K → Except String (Bool × Fmls K)
  | .nil => .ok (false, .nil)
  | .cons f fs => do
    let r ← discF F cont disc f
    let r' ← discOr F cont disc fs
    return (r.1 || r'.1, .cons r.2 r'.2)
end

/-- `evaluate_guard_disc`, guard.py:716-730: the rest of the list is left alone after the first false entry. -/
def discList {V : Type} (F : Funs K) (cont : Dict Key V) (disc : Dict Key (Val K)) : List (Fml K) → Except String (Bool × List (Fml K))
  | [] => .ok (true, [])
  | f :: fs => do
    let r ← discF F cont disc f
    if r.1 then do
      let r' ← discList F cont disc fs
      return (r'.1, r.2 :: r'.2)
    else return (false, r.2 :: fs)

end

/-! ### Hybrid evaluation: lane queries -/

/-- A closed interval. -/
abbrev Iv (K : Type) := K × K

/-- The part of the map the guard evaluation uses (verse/map/lane_map.py:34-89): the physical lane of a virtual one, the segment of a lane at
a point, the query on a segment, the enclosure of `_handle_lateral_set` / `_handle_longitudinal_set` (guard.py:598-714) over a box
given by its corners. -/
structure Road (K Seg : Type) where
  phys : String → String
  segment : String → List K → Seg
  measure : Query → Seg → List K → K
  enclose : Query → Seg → List K → List K → Iv K

/-- `get_lateral_distance(lane, p)` / `get_longitudinal_position(lane, p)`, verse/map/lane_map.py:66-89 and verse/map/lane.py:44-54. -/
def Road.dist {Seg : Type} (M : Road K Seg) (q : Query) (lane : String) (p : List K) : K :=
  M.measure q (M.segment (M.phys lane) p) p

/-- `vehicle_lane`, guard.py:424-434 and 492-502. -/
def laneName {Seg : Type} (M : Road K Seg) (disc : Dict Key (Val K)) : Term K → Except String String
  | .var k => match Dict.get? disc k with
    | some (.str s) => .ok s
    | some _ => .error "TypeError"
    | none => match k with
      | .name s => .ok (M.phys s)
      | _ => .error "AttributeError"
  | _ => .error "ValueError"

/-- `cont_var_dict[var]` for the coordinates, guard.py:436-447. -/
def corners (cont : Dict Key (Iv K)) : List Key → Except String (List K × List K)
  | [] => .ok ([], [])
  | k :: ks => match Dict.get? cont k with
    | some iv => (corners cont ks).map (fun r => (iv.1 :: r.1, iv.2 :: r.2))
    | none => .error "KeyError"

section
variable [LinearOrder K]

/-- The interval of a lane query, guard.py:461-473 and 528-541: the segments at the lower and at the upper corner. -/
def laneInterval {Seg : Type} (M : Road K Seg) (q : Query) (lane : String) (lo hi : List K) : Iv K :=
  let a := M.enclose q (M.segment (M.phys lane) lo) lo hi
  let b := M.enclose q (M.segment (M.phys lane) hi) lo hi
  (min a.1 b.1, max a.2 b.2)

/-- `_evaluate_guard_hybrid` on terms, guard.py:384-596. The dictionary of continuous variables gets a temporary variable for every lane
query. -/
def hybT {Seg : Type} (M : Road K Seg) (disc : Dict Key (Val K)) (cont : Dict Key (Iv K)) :
    Term K → Except String (Term K × Dict Key (Iv K))
  | .lit v => .ok (.lit v, cont)
  | .var k => .ok (.var k, cont)
  | .neg t => (hybT M disc cont t).map (fun r => (.neg r.1, r.2))
  | .bin op s t => do
    let r ← hybT M disc cont s
    let r' ← hybT M disc r.2 t
    return (.bin op r.1 r'.1, r'.2)
  | .lane q k xs => do
    let l ← laneName M disc k
    let c ← corners cont xs
    let v := Key.tmp (cont.length + 1)
    return (.var v, Dict.set cont v (laneInterval M q l c.1 c.2))
  | _ => .error "ValueError"

mutual
/-- `_evaluate_guard_hybrid` on formulas, guard.py:384-596: can it be satisfied, the new node, the new dictionary. -/
def hybF {Seg : Type} (M : Road K Seg) (disc : Dict Key (Val K)) (cont : Dict Key (Iv K)) :
    Fml K → Except String (Bool × Fml K × Dict Key (Iv K))
  | .bool b => .ok (b, .bool b, cont)
  | .cmp op s t => do
    let r ← hybT M disc cont s
    let r' ← hybT M disc r.2 t
    return (true, .cmp op r.1 r'.1, r'.2)
  | .and fs => (hybAnd M disc cont fs).map (fun r => (r.1, .and r.2.1, r.2.2))
  | .or fs => (hybOr M disc cont fs).map (fun r => (r.1, .or r.2.1, r.2.2))
  | .not f => do
    let r ← hybF M disc cont f
    return (if r.1 then (true, .not r.2.1, r.2.2) else (true, .bool true, r.2.2))
  | _ => .error "ValueError"
/-- The loop of a conjunction, guard.py:396-406: it stops at the first false conjunct. -/
def hybAnd {Seg : Type} (M : Road K Seg) (disc : Dict Key (Val K)) (cont : Dict Key (Iv K)) :
    Fmls K → Except String (Bool × Fmls K × Dict Key (Iv K))
  | .nil => .ok (true, .nil, cont)
  | .cons f fs => do
    let r ← hybF M disc cont f
    if r.1 then do
      let r' ← hybAnd M disc r.2.2 fs
      return (r'.1, .cons r.2.1 r'.2.1, r'.2.2)
    else return (false, .cons r.2.1 fs, r.2.2)
/-- The loop of a disjunction, guard.py:407-414. The new node of a disjunct is not stored (line 410 assigns the loop variable); the nodes
are changed in place, except that a negation of something false stays `not False` instead of `True`: it is the same formula. -/
def hybOr {Seg : Type} (M : Road K Seg) (disc : Dict Key (Val K)) (cont : Dict Key (Iv K)) :
    Fmls K → Except String (Bool × Fmls K × Dict Key (Iv K))
  | .nil => .ok (false, .nil, cont)
  | .cons f fs => do
    let r ← hybF M disc cont f
    let r' ← hybOr M disc r.2.2 fs
    return (r.1 || r'.1, .cons r.2.1 r'.2.1, r'.2.2)
end

/-- `evaluate_guard_hybrid`, guard.py:355-382: all entries are processed. -/
def hybList {Seg : Type} (M : Road K Seg) (disc : Dict Key (Val K)) (cont : Dict Key (Iv K)) :
    List (Fml K) → Except String (Bool × List (Fml K) × Dict Key (Iv K))
  | [] => .ok (true, [], cont)
  | f :: fs => do
    let r ← hybF M disc cont f
    let r' ← hybList M disc r.2.2 fs
    return (r.1 && r'.1, r.2.1 :: r'.2.1, r'.2.2)

end

/-! ### The solver query -/

mutual
/-- Formulas of the solver: what the generated string evaluates to. -/
inductive ZFml (K : Type) where
  | const (b : Bool)
  | cmp (op : CmpOp) (l r : Term K)
  | and (fs : ZFmls K)
  | or (fs : ZFmls K)
  | not (f : ZFml K)
deriving DecidableEq
inductive ZFmls (K : Type) where
  | nil
  | cons (f : ZFml K) (fs : ZFmls K)
deriving DecidableEq
end

def ZFmls.ofList : List (ZFml K) → ZFmls K
  | [] => .nil
  | t :: ts => .cons t (.ofList ts)

/-- A `bool` or a string, the result of `_generate_z3_expression_node`. -/
abbrev ZRes (K : Type) := Bool ⊕ ZFml K

/-- The text of a result inside `Not(…)`, guard.py:342. -/
def ZRes.text : ZRes K → ZFml K
  | .inl b => .const b
  | .inr f => f

/-- `And(…)`, or the only string; guard.py:309-313. `And()` is what the solver makes of no arguments: true. -/
def zAnd : List (ZFml K) → ZFml K
  | [f] => f
  | fs => .and (.ofList fs)

/-- `Or(…)`, or the only string; guard.py:325-329. -/
def zOr : List (ZFml K) → ZFml K
  | [f] => f
  | fs => .or (.ofList fs)

mutual
/-- `_generate_z3_expression_node`, guard.py:280-353. -/
def genF : Fml K → Except String (ZRes K)
  | .bool b => .ok (.inl b)
  | .cmp op s t => .ok (.inr (.cmp op s t))
  | .and fs => (genAnd fs).map (fun r => match r with
    | none => .inl false
    | some zs => .inr (zAnd zs))
  | .or fs => (genOr fs).map (fun r => match r with
    | none => .inl true
    | some zs => .inr (zOr zs))
  | .not f => (genF f).map (fun r => .inr (.not r.text))
  | _ => .error "not modelled: call in a solver query"
/-- The conjuncts that are strings; `none` if one is `False`. guard.py:300-308. -/
def genAnd : Fmls K → Except String (Option (List (ZFml K)))
  | .nil => .ok (some [])
  | .cons f fs => do
    let r ← genF f
    match r with
    | .inl true => genAnd fs
    | .inl false => return none
    | .inr z => return (← genAnd fs).map (fun zs => z :: zs)
/-- The disjuncts that are strings; `none` if one is `True`. guard.py:316-324. -/
def genOr : Fmls K → Except String (Option (List (ZFml K)))
  | .nil => .ok (some [])
  | .cons f fs => do
    let r ← genF f
    match r with
    | .inl true => return none
    | .inl false => genOr fs
    | .inr z => return (← genOr fs).map (fun zs => z :: zs)
end

/-- The loop of `generate_z3_expression`, guard.py:264-273. -/
def genLoop : List (Fml K) → Except String (Option (List (ZFml K)))
  | [] => .ok (some [])
  | f :: fs => do
    let r ← genF f
    match r with
    | .inl true => genLoop fs
    | .inl false => return none
    | .inr z => return (← genLoop fs).map (fun zs => z :: zs)

/-- `generate_z3_expression`, guard.py:251-278. -/
def genList (fs : List (Fml K)) : Except String (ZRes K) :=
  (genLoop fs).map (fun r => match r with
    | none => .inl false
    | some [] => .inl true
    | some zs => .inr (zAnd zs))

mutual
/-- Variables of a solver formula. -/
def ZFml.keys : ZFml K → List Key
  | .const _ => []
  | .cmp _ s t => keysT s ++ keysT t
  | .and fs => fs.keys
  | .or fs => fs.keys
  | .not f => f.keys
def ZFmls.keys : ZFmls K → List Key
  | .nil => []
  | .cons f fs => f.keys ++ fs.keys
end

/-- Can `eval` build a solver term from it? Numbers, continuous variables, arithmetic. Division only by a number: the solver and
Python differ on division by zero. -/
def arith [Zero K] [DecidableEq K] : Term K → Bool
  | .lit (.num _) => true
  | .var _ => true
  | .neg t => arith t
  | .bin .div s t => arith s && match t with
    | .lit (.num r) => decide (r ≠ 0)
    | _ => false
  | .bin _ s t => arith s && arith t
  | _ => false

mutual
/-- Can `eval` build the solver formula? -/
def ZFml.wf [Zero K] [DecidableEq K] : ZFml K → Bool
  | .const _ => true
  | .cmp _ s t => arith s && arith t
  | .and fs => fs.wf
  | .or fs => fs.wf
  | .not f => f.wf
def ZFmls.wf [Zero K] [DecidableEq K] : ZFmls K → Bool
  | .nil => true
  | .cons f fs => f.wf && fs.wf
end

/-- Answers of `Solver.check()`. -/
inductive Answer where
  | sat | unsat | unknown
deriving DecidableEq

/-- The solver: a formula and bounds of variables. A parameter. -/
abbrev Solver (K : Type) := ZFml K → List (Key × Iv K) → Answer

/-- The bounds given to the solver, guard.py:104 and 236-238: every variable of the formula. -/
def bounds (cont : Dict Key (Iv K)) (z : ZFml K) : List (Key × Iv K) :=
  z.keys.filterMap (fun k => (Dict.get? cont k).map (fun iv => (k, iv)))

/-- `evaluate_guard_cont` without star sets, guard.py:182-249: may the guard be hit, does it hold everywhere? -/
def contList [Zero K] [DecidableEq K] (S : Solver K) (cont : Dict Key (Iv K)) (fs : List (Fml K)) : Except String (Bool × Bool) := do
  let r ← genList fs
  match r with
  | .inl b => return (b, b)
  | .inr z =>
    if !(z.keys.all (fun k => (Dict.get? cont k).isSome)) then .error "NameError"
    else if !z.wf then .error "Z3Exception"
    else if S z (bounds cont z) = .sat then return (true, S (.not z) (bounds cont z) = .unsat)
    else return (false, false)

/-! ### The whole pipeline -/

/-- The check of a prepared guard against a rectangle, verse/analysis/verifier.py:1154-1168: `disc` is the dictionary of the
preparation, `s` what is sensed for the rectangle; `u` is the unrolled guard. -/
def check [Zero K] [LinearOrder K] {Seg : Type} (M : Road K Seg) (S : Solver K) (disc : Dict Key (Val K)) (s : Sensed K (Iv K))
    (u : Fml K) (fs : List (Fml K)) : Except String (Bool × Bool) := do
  let s ← addElems s u
  let r ← hybList M disc s.cont fs
  if r.1 then contList S r.2.2 r.2.1 else return (false, false)

/-- Preparation with what is sensed for the first rectangle of the tube (`s₀`), and check for a rectangle (`s`):
verse/analysis/verifier.py:1033-1046 and 1154-1168. -/
def evalGuard [Zero K] [LinearOrder K] {Seg : Type} (F : Funs K) (M : Road K Seg) (S : Solver K) (s₀ s : Sensed K (Iv K))
    (f : Fml K) : Except String (Bool × Bool) := do
  let u ← unrollF s₀.len f
  let s₁ ← addElems s₀ u
  let r ← discList F s₁.cont s₁.disc [u]
  if r.1 then check M S s₁.disc s u r.2 else return (false, false)

end Verif.Grd
