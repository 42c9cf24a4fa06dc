import Verif.Model.TorchText

/-!
What the source text of a sensor means (C104): it is a Python function; `sin`, `cos`, `atan2` and `norm` are the mathematical functions.
-/

set_option autoImplicit false

namespace Verif.Torch.Spec

open Verif.Torch

/-- The Euclidean norm. -/
noncomputable def euclid (xs : List ℝ) : ℝ := Real.sqrt ((xs.map (fun x => x ^ 2)).sum)

/-- The mathematical functions, on any numbers. -/
noncomputable def ideal (n : String) (args : List Val) : Except String Val :=
  if n = "sin" then match args with
    | [.num t x] => .ok (.num t (Real.sin x))
    | _ => .error "TypeError"
  else if n = "cos" then match args with
    | [.num t x] => .ok (.num t (Real.cos x))
    | _ => .error "TypeError"
  else if n = "atan2" then match args with
    | [.num t y, .num u x] => .ok (.num (t || u) (Lane.arctan2 y x))
    | _ => .error "TypeError"
  else if n = "norm" then match args with
    | [.seq vs] => .ok (.num (vs.any Prod.fst) (euclid (vs.map Prod.snd)))
    | [.num t x] => .ok (.num t |x|)
    | _ => .error "TypeError"
  else libPrim n args

/-- The functions that torch computes in their place. -/
noncomputable def replaced (n : String) (args : List Val) : Except String Val :=
  if n = "sin" then libPrim "torch.sin" args
  else if n = "cos" then libPrim "torch.cos" args
  else if n = "atan2" then torchPrim "atan2_crown_safe" args
  else torchPrim n args

open Classical in
/-- The mathematical functions where torch computes the same: arguments must be tensors, the arguments of `atan2` must not be straight behind or close to the vertical
axis on the left or on it; `norm` is excluded. -/
noncomputable def guarded (n : String) (args : List Val) : Except String Val :=
  if n = "sin" then match args with
    | [.num true x] => .ok (.num true (Real.sin x))
    | _ => .error "TypeError"
  else if n = "cos" then match args with
    | [.num true x] => .ok (.num true (Real.cos x))
    | _ => .error "TypeError"
  else if n = "atan2" then match args with
    | [.num true y, .num true x] => if 0 < x ∨ (x < -(1 / 10 ^ 8) ∧ y ≠ 0) then .ok (.num true (Lane.arctan2 y x)) else .error "excluded"
    | _ => .error "TypeError"
  else if n = "norm" then .error "excluded"
  else libPrim n args

/-- Where the source text runs. -/
noncomputable def source (prim : String → List Val → Except String Val) (f : Fn) : World :=
  { globals := [(f.name, .fn "<the function itself>"), ("sin", .fn "sin"), ("cos", .fn "cos"), ("atan2", .fn "atan2"), ("norm", .fn "norm"),
      ("torch", .mod "torch"), ("np", .mod "np"), ("abs", .fn "abs")],
    attr := libAttr, prim := prim }

/-- The outputs of the source text for tensors. -/
noncomputable def runSource (prim : String → List Val → Except String Val) (f : Fn) (xs : List ℝ) : Except String (List ℝ) :=
  (run (source prim f) f [] (xs.map (Val.num true))).bind fun r => outputs r.1

mutual
/-- The name does not occur. -/
def Free (n : String) : Expr → Prop
  | .num _ => True
  | .name m => m ≠ n
  | .attr e _ => Free n e
  | .neg e => Free n e
  | .bin _ l r => Free n l ∧ Free n r
  | .pow e _ => Free n e
  | .call f args => Free n f ∧ Frees n args
  | .seq es => Frees n es
/-- The name does not occur in the list. -/
def Frees (n : String) : Exprs → Prop
  | .nil => True
  | .cons e es => Free n e ∧ Frees n es
end

/-- Names that a sensor must not use for its own purposes. -/
def reserved : List String := ["sin", "cos", "atan2", "torch", "atan2_crown_safe"]

/-- A sensor that assigns to names only, uses no reserved name for a parameter, a variable or itself, and does not mention the replacements. -/
structure Hygienic (f : Fn) : Prop where
  targets : ∀ s ∈ f.body, ∃ n, s.1 = .name n ∧ n ∉ reserved
  params : ∀ p ∈ f.params, p ∉ reserved
  fname : f.name ∉ reserved ∧ f.name ≠ "norm"
  body : ∀ s ∈ f.body, Free "atan2_crown" s.2 ∧ Free "atan2_crown_safe" s.2
  ret : Free "atan2_crown" f.ret ∧ Free "atan2_crown_safe" f.ret

end Verif.Torch.Spec
