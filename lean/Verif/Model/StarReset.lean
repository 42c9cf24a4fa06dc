import Verif.Model.Reset
import Verif.Model.Star

/-!
`Verifier.apply_reset_stars` of `verse/analysis/verifier.py` (1383-1501): the image of a star set under the resets of one transition.
As in `Verif.Model.Reset`, the replacements in the text of an expression act on its atoms; `sh` is `str` on numbers, `rd` the number that
a text denotes to `eval`.
-/

set_option autoImplicit false

namespace Verif.StarRst

open Verif.Rst Verif.Stars

/-- One element of `reset_list`, lines 1403-1406. Of `cont_var_dict` only the keys are used. -/
structure SItem (V D : Type) where
  var  : String
  val  : Val V D
  disc : D
  cont : List Text

/-- The text `ego`. -/
def egoText : Text := ['e', 'g', 'o']

/-- Lines 1459-1463: the keys with `ego` in them. -/
def statevec (cont : List Text) : List Text := cont.filter (fun k => decide (egoText <:+: k))

variable {K V D : Type} [Field K] [LinearOrder K]

/-- Lines 1477-1479: the loop over the entries of the state, from entry `i` on. -/
def substState (sh : K → Text) (sv : List Text) : Nat → List K → Ex → Except String Ex
  | _, [], e => .ok e
  | i, x :: xs, e => match sv[i]? with
    | none => .error "IndexError"
    | some s => substState sh sv (i + 1) xs (if e.atoms.any (fun t => decide (s <:+: t)) then e.replace s (sh x) else e)

/-- `t.split('.', 1)[1]` -/
def afterDot : Text → Except String Text
  | [] => .error "IndexError"
  | c :: cs => if c = '.' then .ok cs else afterDot cs

/-- Lines 1482-1484: the loop over the entries of the state, from entry `i` on; `n` entries remain. -/
def assignState (sv : List Text) (var : String) (r : K) : Nat → Nat → List K → Except String (List K)
  | _, 0, out => .ok out
  | i, n + 1, out => match sv[i]? with
    | none => .error "IndexError"
    | some s => (afterDot s).bind fun v => assignState sv var r (i + 1) n (if var.toList = v then out.set i r else out)

/-- Lines 1473-1484: one iteration over `idxs`. -/
def resetStep (sh : K → Text) (rd : Text → Option K) (sv : List Text) (state out : List K) (x : Nat × String × Ex) : Except String (List K) :=
  (substState sh sv 0 state x.2.2).bind fun e => (e.eval rd).bind fun r => assignState sv x.2.1 r 0 state.length out

/-- `reset_func`, lines 1469-1485. `exprs` are `reset_vars` and `expr_list`. -/
def resetFunc (sh : K → Text) (rd : Text → Option K) (sv : List Text) (exprs : Dict Nat (String × Ex)) (x : Vec K) : Except String (Vec K) :=
  let state := (List.range x.len).map x.at_
  (exprs.foldlM (resetStep sh rd sv state) state).map ofList

/-- What the loop over the resets has computed: `possible_dest`, `reset_vars` with `expr_list`, and `statevec`. -/
structure Acc (V : Type) where
  dests : List (List V)
  exprs : Dict Nat (String × Ex)
  sv    : List Text

/-- The body of the loop, lines 1403-1463. -/
def collectOne (contVars discVars : List String) (acc : Acc V) (it : SItem V D) : Except String (Acc V) :=
  if Sim.hasMode it.var then
    match Sim.indexOf? discVars it.var with
    | none => .error "ValueError"
    | some i => match acc.dests[i]? with
      | none => .error "IndexError"
      | some old => .ok { acc with dests := acc.dests.set i (destOf old it.val it.disc) }
  else match Sim.indexOf? contVars it.var with
    | none => .error "ValueError"
    | some i => match it.val with
      | .arith e => .ok { acc with exprs := Dict.set acc.exprs i (it.var, e), sv := statevec it.cont }
      | _ => .error "NameError"

/-- `Verifier.apply_reset_stars`, lines 1383-1501: all destinations, and the star set after the reset. -/
def applyResetStars (sh : K → Text) (rd : Text → Option K) (contVars discVars : List String) (mode : List V) (star : StarSet K)
    (items : List (SItem V D)) : Except String (List (List V) × StarSet K) :=
  (items.foldlM (collectOne contVars discVars) ⟨mode.map (fun m => [m]), [], []⟩).bind fun acc =>
    (applyMap (resetFunc sh rd acc.sv acc.exprs) star).map fun s => (product acc.dests, s)

end Verif.StarRst
