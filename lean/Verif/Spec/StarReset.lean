import Verif.Model.StarReset
import Verif.Spec.Reset
import Verif.Spec.StarSolver

/-!
What resets do to a state (C69).
-/

set_option autoImplicit false

namespace Verif.StarRst.Spec

open Verif.Rst Verif.Rst.Spec Verif.Stars Verif.StarRst

variable {K V D : Type} [Field K] [LinearOrder K]

/-- `ego.v` -/
def egoName (v : String) : Text := egoText ++ '.' :: v.toList

/-- The values of the names `ego.v` in a state. -/
def egoVars (contVars : List String) (x : Nat → K) : Text → Option K := fun t =>
  ((contVars.zipIdx).find? (fun vi => decide (egoName vi.1 = t))).map (fun vi => x vi.2)

/-- The state `y` after the resets of the state `x`: a variable that is reset has the value of the expression in `x`, the others keep
theirs. -/
def ResetTo (rd : Text → Option K) (contVars : List String) (items : List (SItem V D)) (x y : Nat → K) : Prop :=
  ∀ (i : Nat) (v : String), contVars[i]? = some v →
    (∀ it ∈ items, it.var = v → ∃ e, it.val = .arith e ∧ value rd (egoVars contVars x) e = some (y i)) ∧
    ((∀ it ∈ items, it.var ≠ v) → y i = x i)

/-- The expression is an affine function of the state. -/
def AffineIn (rd : Text → Option K) (contVars : List String) (e : Ex) : Prop :=
  ∃ (a : K) (c : Nat → K), ∀ x : Nat → K, value rd (egoVars contVars x) e = some (a + ∑ k ∈ Finset.range contVars.length, c k * x k)

/-- Sums, differences, and products and quotients with numbers, of the names `ego.v`. -/
inductive LinearEx (rd : Text → Option K) (contVars : List String) : Ex → Prop
  | var (v : String) (h : v ∈ contVars) : LinearEx rd contVars (.atom (egoName v))
  | closed (e : Ex) (h : ∀ t, Occurs t e → t ∉ contVars.map egoName) (x : K) (hx : value rd (fun _ => none) e = some x) : LinearEx rd contVars e
  | neg (a : Ex) : LinearEx rd contVars a → LinearEx rd contVars (.neg a)
  | add (a b : Ex) : LinearEx rd contVars a → LinearEx rd contVars b → LinearEx rd contVars (.add a b)
  | sub (a b : Ex) : LinearEx rd contVars a → LinearEx rd contVars b → LinearEx rd contVars (.sub a b)
  | scale (a b : Ex) (h : ∀ t, Occurs t a → t ∉ contVars.map egoName) (x : K) (hx : value rd (fun _ => none) a = some x) :
      LinearEx rd contVars b → LinearEx rd contVars (.mul a b)
  | scale' (a b : Ex) (h : ∀ t, Occurs t b → t ∉ contVars.map egoName) (x : K) (hx : value rd (fun _ => none) b = some x) :
      LinearEx rd contVars a → LinearEx rd contVars (.mul a b)
  | div (a b : Ex) (h : ∀ t, Occurs t b → t ∉ contVars.map egoName) (x : K) (hx : value rd (fun _ => none) b = some x) (h0 : x ≠ 0) :
      LinearEx rd contVars a → LinearEx rd contVars (.div a b)

/-- The state as ranges of the names. -/
def pointDict (contVars : List String) (x : Nat → K) : Dict Text (K × K) := (contVars.zipIdx).map (fun vi => (egoName vi.1, (x vi.2, x vi.2)))

/-- The states at which the reset is evaluated: the center, and the center plus a basis vector. -/
def Evaluated (s : StarSet K) (x : Nat → K) : Prop :=
  (∀ d, x d = s.center.at_ d) ∨ ∃ j < s.basis.rows, ∀ d, x d = s.center.at_ d + s.basis.at_ j d

end Verif.StarRst.Spec
