import Verif.Spec.Verifier
import Verif.Model.Partitioned

/-! What the step of `verify_partitioned` relies on, beyond `Spec/Verifier.lean`. -/

set_option autoImplicit false

namespace Verif.Ver.Spec

open Verif.Ver Verif.Rect.Spec Verif.Rst.Spec

variable {S G K V D : Type}

/-- The states lie in the rectangles, and the modes are those of the states, except that agent `a` has the mode `dest`. -/
def WithinMoved [LE K] (a : String) (dest : List V) (snap : Snap K V) (sd : StateDict K V) : Prop :=
  List.Forall₂ (fun (x : String × List K × List V × List V) (y : String × Seg K × List V × List V) =>
    x.1 = y.1 ∧ Inside x.2.1 y.2.1.box ∧ y.2.2.1 = (if x.1 = a then dest else x.2.2.1) ∧ x.2.2.2 = y.2.2.2) snap sd

section
variable [Field K] [LinearOrder K]

/-- Sensing on any rectangles around a state of the tubes, with the destination mode, gives ranges that contain the values of the variables
in the resets, and the ranges of the reset expressions can be computed from them. -/
structure PartFaithful (M : Meaning S G K V D) (w : PWorld S K V) (b : Body S G K V D) (tr : Trace K) : Prop where
  range : ∀ a dl p i snap sd dest, Controlled b a dl → p ∈ dl.paths → InTube b tr i snap → WithinMoved a dest snap sd →
    InRange (w.sensedCont (w.sense a sd)) (M.vars p a snap)
  reset : ∀ a dl p i snap sd dest e, Controlled b a dl → p ∈ dl.paths → InTube b tr i snap → WithinMoved a dest snap sd →
    p.val = .arith e → p.var ∈ dl.cont →
    Readable w.sh w.rd (w.sensedCont (w.sense a sd)) e ∧ NoVarPow (w.sensedCont (w.sense a sd)) e ∧ Between w.rd (w.sensedCont (w.sense a sd)) e

/-- At most one path for each variable may be satisfied by agent `a` at step `i`. -/
def OnePath (w : World S K V) (b : Body S G K V D) (tr : Trace K) (i : Nat) (a : String) (dl : Logic S G K V D) : Prop :=
  ∀ p ∈ dl.paths, ∀ q ∈ dl.paths, p.var = q.var → HitAt w b tr i a p → HitAt w b tr i a q → p = q

end

/-- The dimensions to cut are distinct and exist; time is dimension 0. -/
def DimsOk (dims : Option (List Nat)) (d : Nat) : Prop := ∀ ds, dims = some ds → ds.Nodup ∧ ∀ k ∈ ds, k ≤ d

end Verif.Ver.Spec
