import Verif.Model.Piecewise
import Verif.Model.Angular
import Verif.Model.Reset

/-!
Model of verse/analysis/parsed_wrap/parser_wrapper.py and wrapper_consts.py. The tests and replacements on the text of an
expression are done on its identifiers: the searched texts are identifiers themselves, and `ast.unparse` separates
identifiers by other characters. CROWN (sensor_parser.py), the optimizers of bounded_map.py and z3 are parameters.
-/

set_option autoImplicit false

namespace Verif.Pars

open Verif.Spec Verif.Pw Verif.Ang

variable {K : Type}

/-- `sub in s`. -/
def has (sub s : String) : Bool := decide (sub.toList <:+: s.toList)

/-- verse/analysis/parsed_wrap/wrapper_consts.py:5-11 `ALIASES`. -/
def aliases : List (String × String) :=
  [("atan2", "angular_span_rect_parser"), ("arctan2", "angular_span_rect_parser"), ("get_lane_heading", "get_heading_bounds_optimized"),
   ("get_lateral_distance", "get_lateral_distance_bounds_optimized"), ("minus_angular", "angular_bounds_diff_correct")]

/-- verse/analysis/parsed_wrap/wrapper_consts.py:13-15 `ANGULAR_FUNCTIONS`. -/
def angularFunctions : List String := ["angular_span_rect_parser", "angular_bounds_diff_correct"]

/-- verse/analysis/parsed_wrap/wrapper_consts.py:17-21 `MAP_FUNCTIONS`. -/
def mapFunctions : List String := ["get_heading_bounds_optimized", "get_lateral_distance_bounds_optimized"]

/-- verse/analysis/parsed_wrap/parser_wrapper.py:233-235: the aliases in one identifier. -/
def aliasName (s : String) : String :=
  aliases.foldl (fun s a => if has a.1 s then String.ofList (Rst.replaceText a.1.toList a.2.toList s.toList.length s.toList) else s) s

/-- The expression with changed identifiers. -/
def mapIds (g : String → String) : PE K → PE K
  | .name x => .name (g x)
  | .const c => .const c
  | .neg a => .neg (mapIds g a)
  | .pos a => .pos (mapIds g a)
  | .add a b => .add (mapIds g a) (mapIds g b)
  | .sub a b => .sub (mapIds g a) (mapIds g b)
  | .mul a b => .mul (mapIds g a) (mapIds g b)
  | .div a b => .div (mapIds g a) (mapIds g b)
  | .call1 f a => .call1 (g f) (mapIds g a)
  | .call2 f a b => .call2 (g f) (mapIds g a) (mapIds g b)

/-- The variable names of an expression. -/
def names : PE K → List String
  | .name x => [x]
  | .const _ => []
  | .neg a => names a
  | .pos a => names a
  | .add a b => names a ++ names b
  | .sub a b => names a ++ names b
  | .mul a b => names a ++ names b
  | .div a b => names a ++ names b
  | .call1 _ a => names a
  | .call2 _ a b => names a ++ names b

/-- The identifiers of an expression. -/
def idents : PE K → List String
  | .name x => [x]
  | .const _ => []
  | .neg a => idents a
  | .pos a => idents a
  | .add a b => idents a ++ idents b
  | .sub a b => idents a ++ idents b
  | .mul a b => idents a ++ idents b
  | .div a b => idents a ++ idents b
  | .call1 f a => f :: idents a
  | .call2 f a b => f :: (idents a ++ idents b)

/-- `func in expr_code`. -/
def mentions (sub : String) (e : PE K) : Bool := (idents e).any (has sub)

/-- The parts of an expression. -/
def children : PE K → List (PE K)
  | .name _ => []
  | .const _ => []
  | .neg a => [a]
  | .pos a => [a]
  | .add a b => [a, b]
  | .sub a b => [a, b]
  | .mul a b => [a, b]
  | .div a b => [a, b]
  | .call1 _ a => [a]
  | .call2 _ a b => [a, b]

def depth : PE K → Nat
  | .name _ => 1
  | .const _ => 1
  | .neg a => depth a + 1
  | .pos a => depth a + 1
  | .add a b => max (depth a) (depth b) + 1
  | .sub a b => max (depth a) (depth b) + 1
  | .mul a b => max (depth a) (depth b) + 1
  | .div a b => max (depth a) (depth b) + 1
  | .call1 _ a => depth a + 1
  | .call2 _ a b => max (depth a) (depth b) + 1

/-- `ast.walk`: level by level. -/
def walk : Nat → List (PE K) → List (PE K)
  | 0, _ => []
  | n + 1, l => l ++ walk n (l.flatMap children)

/-- The arguments of a call. -/
def callArgs : PE K → Option (List (PE K))
  | .call1 _ a => some [a]
  | .call2 _ a b => some [a, b]
  | _ => none

/-- verse/analysis/parsed_wrap/parser_wrapper.py:240-244: the names among the arguments of the first call. -/
def firstArgs (argNames : List String) (e : PE K) : List String :=
  match (walk (depth e) [e]).findSome? callArgs with
  | none => []
  | some l => l.filterMap fun a => match a with | .name x => if x ∈ argNames then some x else none | _ => none

/-- What is outside the model: half a turn, `np.arctan2`, the functions available to `eval`, CROWN (`parsed_sensor_expr`; the
error `"NotATensor"` is the `TypeError` for constant functions), z3, and the optimizers over a map. -/
structure Ctx (K : Type) where
  p : K
  at2 : K → K → K
  F : Funs K
  crown : PE K → Dict String (K × K) → Except String (K × K)
  opt : Opt K
  mapB : String → List (K × K) → Except String (K × K)

variable [Field K] [LinearOrder K]

/-- The call `func(*bounds_combination)` for the two angular functions. -/
def angCall [FloorRing K] (ctx : Ctx K) (f : String) (combo : List (K × K)) : Except String (ABound K) :=
  match combo with
  | [a, b] => if f = "angular_span_rect_parser" then .ok (spanRectParser ctx.p ctx.at2 a b) else .ok (angDiff ctx.p a b)
  | _ => .error "TypeError"

/-- verse/analysis/parsed_wrap/parser_wrapper.py:267-293 `handle_angular_function`. -/
def handleAngular [FloorRing K] (ctx : Ctx K) (f : String) (args : List String) (cur : Bounds K) : Except String (List (K × K)) :=
  (lookupAll cur args).bind fun bl => ((product bl).mapM (angCall ctx f)).bind fun out => combineBounds ctx.p out

/-- `[(min(firsts), max(seconds))]`; the minimum of an empty list raises an exception. -/
def envelope (l : List (K × K)) : Except String (List (K × K)) :=
  if l = [] then .error "ValueError" else .ok [(minList (l.map Prod.fst), maxList (l.map Prod.snd))]

/-- verse/analysis/parsed_wrap/parser_wrapper.py:296-319 `handle_map_function`. `mapB` is the optimizer applied to
the map and the mode, which are swapped twice on the way. -/
def handleMap (mapB : String → List (K × K) → Except String (K × K)) (f : String) (args : List String) (cur : Bounds K) :
    Except String (List (K × K)) :=
  (lookupAll cur args).bind fun bl => ((product bl).mapM (mapB f)).bind envelope

/-- verse/analysis/parsed_wrap/parser_wrapper.py:393-413: the loop over the combinations. -/
def crownLoop (ctx : Ctx K) (e : PE K) (args : List String) : List (List (K × K)) → List (K × K) → Except String (List (K × K))
  | [], acc => envelope acc
  | combo :: rest, acc => match ctx.crown e (zipDict args combo) with
    | .ok b => crownLoop ctx e args rest (acc ++ [b])
    | .error s => if s = "NotATensor" then match evalE ctx.F [] e with
        | some r => .ok [(r, r)]
        | none => .error "Exception"
      else .error "Exception"

/-- verse/analysis/parsed_wrap/parser_wrapper.py:362-413 `handle_crown_function`. The arguments are sorted in the code, which has
no effect: they are passed with their names. -/
def handleCrown (ctx : Ctx K) (e : PE K) (argNames : List String) (cur : Bounds K) : Except String (List (K × K)) :=
  let args := ((names e).filter (fun n => decide (n ∈ argNames))).dedup
  (lookupAll cur args).bind fun bl => crownLoop ctx e args (product bl) []

/-- verse/analysis/parsed_wrap/parser_wrapper.py:209-264 `compute_expression_bounds_with_parsed_sensor`. `pws` are the
piecewise functions, `pwH` computes the bounds of one, `mapB` those of a map function. -/
def dispatch [FloorRing K] (ctx : Ctx K) (mapB : String → List (K × K) → Except String (K × K)) (pws : List (PFun K))
    (pwH : PFun K → List String → Bounds K → Except String (List (K × K))) : EB K := fun e0 cur =>
  let argNames := Dict.keys cur
  let e := mapIds aliasName e0
  let args := firstArgs argNames e
  match angularFunctions.find? (fun f => mentions f e) with
  | some f => handleAngular ctx f args cur
  | none => match pws.find? (fun f => mentions f.name e) with
    | some f => pwH f args cur
    | none => match mapFunctions.find? (fun f => mentions f e) with
      | some f => handleMap mapB f args cur
      | none => handleCrown ctx e argNames cur

/-- verse/analysis/parsed_wrap/parser_wrapper.py:347-351: the bounds of what a branch of a piecewise function returns,
without piecewise functions and without a map. -/
def branchBounds [FloorRing K] (ctx : Ctx K) : EB K :=
  dispatch ctx (fun _ _ => .error "Exception") [] (fun _ _ _ => .error "Exception")

/-- The bounds of an expression on the right of an assignment. -/
def exprBounds [FloorRing K] (ctx : Ctx K) (pws : List (PFun K)) : EB K :=
  dispatch ctx ctx.mapB pws (handlePiecewise ctx.opt (branchBounds ctx))

/-- verse/analysis/parsed_wrap/parser_wrapper.py:168-199: the loop over the statements. -/
def parseLoop (eb : EB K) : List (PS K) → Bounds K → List (Bounds K) → Except String (Bounds K × List (Bounds K))
  | [], cur, hist => .ok (cur, hist)
  | .ret _ :: _, cur, hist => .ok (cur, hist)
  | .assign x e :: rest, cur, hist => (eb e cur).bind fun l => parseLoop eb rest (Dict.set cur x l) (hist ++ [Dict.set cur x l])
  | _ :: _, _, _ => .error "Exception"

/-- verse/analysis/parsed_wrap/parser_wrapper.py:160-206 `parse_function` without the cache. -/
def parseFunction (eb : EB K) (f : PFun K) (input : Bounds K) : Except String (Bounds K × List (Bounds K)) :=
  parseLoop eb f.body input [input]

/-! ### Splitting the box -/

/-- `np.linspace(lo, hi, n + 1)[i]`. -/
def linPoint (lo hi : K) (n i : Nat) : K := if i = n then hi else lo + i * ((hi - lo) / n)

/-- verse/analysis/parsed_wrap/parser_wrapper.py:98-104: the parts of one interval. -/
def splitIv (n : Nat) (b : K × K) : List (K × K) :=
  if b.1 = b.2 then [b] else (List.range n).map fun i => (linPoint b.1 b.2 n i, linPoint b.1 b.2 n (i + 1))

/-- `b[0]`. -/
def headB : List (K × K) → Except String (K × K)
  | b :: _ => .ok b
  | [] => .error "IndexError"

/-- verse/analysis/parsed_wrap/parser_wrapper.py:120-130: the union of the bounds of one variable. -/
def unionVar (p : K) (all : List (List (K × K))) : Except String (List (K × K)) :=
  if all.any (fun l => decide (1 < l.length)) then combineBounds p (all.map .many)
  else (all.mapM headB).bind envelope

/-- `cb[var]`. -/
def lookupB (v : String) (cb : Bounds K) : Except String (List (K × K)) :=
  match Dict.get? cb v with | some l => .ok l | none => .error "KeyError"

/-- verse/analysis/parsed_wrap/parser_wrapper.py:119-130: the union of all results. -/
def unionAll (p : K) (all : List (Bounds K)) : Except String (Bounds K) :=
  match all with
  | [] => .error "IndexError"
  | first :: _ => (Dict.keys first).mapM fun v => (all.mapM (lookupB v)).bind fun bs => (unionVar p bs).map fun l => (v, l)

/-- The dictionary of bounds `{name: [(min, max)]}`. -/
def boxDict (argNames : List String) (input : List (K × K)) : Bounds K := zipDict argNames (input.map fun b => [b])

/-- verse/analysis/parsed_wrap/parser_wrapper.py:94-136: splitting, with the results of `parse_function`. -/
def parseSplits (p : K) (parse : Bounds K → Except String (Bounds K × List (Bounds K))) (argNames : List String) (input : List (K × K)) (n : Nat) :
    Except String (Bounds K) :=
  ((product (input.map (splitIv n))).mapM fun sb => (parse (boxDict argNames sb)).map Prod.fst).bind (unionAll p)

/-! ### The cache -/

instance : DecidableEq (Bounds K) := inferInstanceAs (DecidableEq (List (String × List (K × K))))

/-- The files of the cache directory: the key is the text of the bounds and the name of the function. -/
abbrev Cache (K : Type) := Dict (Bounds K × String) (Bounds K × Option (List (Bounds K)))

/-- verse/analysis/parsed_wrap/parser_wrapper.py:138-206 `parse_function`. -/
def parseCached (eb : EB K) (f : PFun K) (input : Bounds K) (cache parent : Bool) (st : Cache K) :
    Except String (Bounds K × Option (List (Bounds K))) × Cache K :=
  match Dict.get? st (input, f.name) with
  | some r => (.ok r, st)
  | none => match parseFunction eb f input with
    | .error s => (.error s, st)
    | .ok r => (.ok (r.1, some r.2), if cache && !parent then Dict.set st (input, f.name) (r.1, some r.2) else st)

/-- What `parse_function_array` returns: a dictionary, or a pair of a dictionary and a history. -/
inductive ArrayResult (K : Type) where
  | only (b : Bounds K)
  | pair (b : Bounds K) (h : Option (List (Bounds K)))
  deriving DecidableEq

def ArrayResult.bounds : ArrayResult K → Bounds K
  | .only b => b
  | .pair b _ => b

/-- verse/analysis/parsed_wrap/parser_wrapper.py:32-136 `parse_function_array`. -/
def parseArray (p : K) (eb : EB K) (f : PFun K) (input : List (K × K)) (cache : Bool) (n : Nat) (st : Cache K) :
    Except String (ArrayResult K) × Cache K :=
  if input.length ≠ f.params.length then (.error "ValueError", st)
  else if input.any (fun b => decide (b.1 > b.2)) then (.error "ValueError", st)
  else
    let key := boxDict f.params input
    match Dict.get? st (key, f.name) with
    | some r => (.ok (.only r.1), st)
    | none =>
      if n = 1 then
        let r := parseCached eb f key cache false st
        (r.1.map fun r => .pair r.1 r.2, r.2)
      else
        match parseSplits p (fun b => (parseCached eb f b cache true st).1.map fun r => (r.1, [])) f.params input n with
        | .error s => (.error s, st)
        | .ok u => (.ok (.only u), if cache then Dict.set st (key, f.name) (u, none) else st)

end Verif.Pars
