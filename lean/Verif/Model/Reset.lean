import Verif.Model.Simulator
import Verif.Model.Rect

/-!
`Verifier.apply_reset` and `Verifier._get_combinations` of `verse/analysis/verifier.py` (1286-1381, 1504-1510): the image of a
rectangle under the resets of one transition.

Python works on the unparsed text of the reset expression: the variables are replaced in it by the text of a number, and the text is
evaluated. Here an expression is a syntax tree whose atoms (names with attributes, numerals) are texts, and the replacement acts on the
text of every atom. This is the same, because the names of continuous variables consist of letters, digits, `_` and `.` only, so that
an occurrence of a name in an unparsed expression lies within one atom. Only arithmetic is modelled for continuous variables.

* `sh` is `str` on numbers, `rd` the number that a text denotes to `eval` (`none`: it raises an exception).
* Numbers are elements of an ordered field: no rounding, infinities, or nan.
-/

set_option autoImplicit false

namespace Verif.Rst

open Verif.Rect

abbrev Text := List Char

/-- The arithmetic part of Python expressions. -/
inductive Ex
  | atom (t : Text)
  | neg (a : Ex)
  | add (a b : Ex)
  | sub (a b : Ex)
  | mul (a b : Ex)
  | div (a b : Ex)
  | pow (a : Ex) (n : Nat)
deriving DecidableEq

/-- The atoms of an expression. -/
def Ex.atoms : Ex → List Text
  | .atom t => [t]
  | .neg a => a.atoms
  | .add a b => a.atoms ++ b.atoms
  | .sub a b => a.atoms ++ b.atoms
  | .mul a b => a.atoms ++ b.atoms
  | .div a b => a.atoms ++ b.atoms
  | .pow a _ => a.atoms

/-- `t.replace(s, new)` for a non-empty `s`: occurrences from left to right that do not overlap. The first argument bounds the number
of steps, the length of `t` suffices. -/
def replaceText (s new : Text) : Nat → Text → Text
  | 0, t => t
  | _ + 1, [] => []
  | n + 1, c :: cs => if s <+: c :: cs then new ++ replaceText s new n ((c :: cs).drop s.length) else c :: replaceText s new n cs

/-- Line 1368, on the atoms. -/
def Ex.replace (s new : Text) : Ex → Ex
  | .atom t => .atom (replaceText s new t.length t)
  | .neg a => .neg (a.replace s new)
  | .add a b => .add (a.replace s new) (b.replace s new)
  | .sub a b => .sub (a.replace s new) (b.replace s new)
  | .mul a b => .mul (a.replace s new) (b.replace s new)
  | .div a b => .div (a.replace s new) (b.replace s new)
  | .pow a n => .pow (a.replace s new) n

section
variable {K : Type} [Field K] [LinearOrder K]

/-- What a text that is not a numeral does. -/
def readNum (rd : Text → Option K) (t : Text) : Except String K :=
  match rd t with
  | some k => .ok k
  | none => .error "NameError"

/-- `a / b` -/
def divide (x y : K) : Except String K := if y = 0 then .error "ZeroDivisionError" else .ok (x / y)

/-- `eval` of the text of an expression without variables, line 1369. A minus sign that a replacement puts in front of the base of a
power applies to the power. -/
def Ex.eval (rd : Text → Option K) : Ex → Except String K
  | .atom t => readNum rd t
  | .neg a => (a.eval rd).map (fun x => -x)
  | .add a b => (a.eval rd).bind fun x => (b.eval rd).map fun y => x + y
  | .sub a b => (a.eval rd).bind fun x => (b.eval rd).map fun y => x - y
  | .mul a b => (a.eval rd).bind fun x => (b.eval rd).map fun y => x * y
  | .div a b => (a.eval rd).bind fun x => (b.eval rd).bind fun y => divide x y
  | .pow (.atom ('-' :: t)) n => (readNum rd t).map (fun x => -x ^ n)
  | .pow a n => (a.eval rd).map (fun x => x ^ n)

/-- Lines 1350-1353: the keys of `cont_var_dict` whose text occurs in the expression. -/
def symbols (D : Dict Text (K × K)) (e : Ex) : List (Text × (K × K)) :=
  D.filter (fun kv => e.atoms.any (fun t => decide (kv.1 <:+: t)))

/-- `_get_combinations`, lines 1504-1510. -/
def combinations (syms : List (Text × (K × K))) : List (List K) := product (syms.map (fun kv => [kv.2.1, kv.2.2]))

/-- Lines 1367-1368. -/
def substAll (sh : K → Text) (syms : List (Text × (K × K))) (comb : List K) (e : Ex) : Ex :=
  (syms.zip comb).foldl (fun (e : Ex) sv => e.replace sv.1.1 (sh sv.2)) e

/-- `lb` and `ub` of lines 1361-1371. -/
def bounds : List K → Except String (K × K)
  | [] => .error "inf"
  | r :: rs => .ok (rs.foldl min r, rs.foldl max r)

/-- Lines 1350-1371: the range of a reset expression. -/
def resetRange (sh : K → Text) (rd : Text → Option K) (D : Dict Text (K × K)) (e : Ex) : Except String (K × K) :=
  ((combinations (symbols D e)).mapM (fun comb => (substAll sh (symbols D e) comb e).eval rd)).bind bounds

/-- The value of a reset, by the branches that `apply_reset` distinguishes. `D` is the discrete variable dictionary. -/
inductive Val (V D : Type)
  /-- a constant (for a mode): line 1317 -/
  | const (v : V)
  /-- `X.v` with `X` among the mode definitions or not: lines 1329-1331 -/
  | member (known : Bool) (v : V)
  /-- a call of the map, after the replacement of the discrete variables, as a list: lines 1321-1328 -/
  | mapCall (f : D → List V)
  /-- anything else -/
  | arith (e : Ex)

/-- One element of `reset_list`, lines 1302-1304. -/
structure Item (K V D : Type) where
  var  : String
  val  : Val V D
  disc : D
  cont : Dict Text (K × K)

variable {V D : Type}

/-- Lines 1316-1331: the new entry of `possible_dest`; a value that is none of the known forms leaves it as it is. -/
def destOf (old : List V) (v : Val V D) (disc : D) : List V :=
  match v with
  | .const v => [v]
  | .member known v => if known then [v] else old
  | .mapCall f => f disc
  | .arith _ => old

/-- `apply_reset`, the body of the loop, lines 1301-1374. `acc` is `(possible_dest, rect)`. -/
def applyOne (sh : K → Text) (rd : Text → Option K) (contVars discVars : List String) (acc : List (List V) × Box K)
    (it : Item K V D) : Except String (List (List V) × Box K) :=
  if Sim.hasMode it.var then
    match Sim.indexOf? discVars it.var with
    | none => .error "ValueError"
    | some i => match acc.1[i]? with
      | none => .error "IndexError"
      | some old => .ok (acc.1.set i (destOf old it.val it.disc), acc.2)
  else match Sim.indexOf? contVars it.var with
    | none => .error "ValueError"
    | some i => match it.val with
      | .arith e => (resetRange sh rd it.cont e).bind fun r =>
          if i < acc.2.1.length ∧ i < acc.2.2.length then .ok (acc.1, (acc.2.1.set i r.1, acc.2.2.set i r.2)) else .error "IndexError"
      | _ => .error "NameError"

/-- `Verifier.apply_reset`, lines 1286-1381: all destinations, and the rectangle after the reset. `rect` is the state of the agent
without time. -/
def applyReset (sh : K → Text) (rd : Text → Option K) (contVars discVars : List String) (mode : List V) (rect : Box K)
    (items : List (Item K V D)) : Except String (List (List V) × Box K) :=
  (items.foldlM (applyOne sh rd contVars discVars) (mode.map (fun m => [m]), rect)).map (fun r => (product r.1, r.2))

end

end Verif.Rst
