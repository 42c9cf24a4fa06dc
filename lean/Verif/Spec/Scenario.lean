import Verif.Model.Scenario

/-! What it means that the initial condition of a scenario does not depend on the lists of the caller. -/

set_option autoImplicit false

namespace Verif.Scn.Spec

open Verif.Scn

variable {K : Type}

/-- The heap only grew: all the old objects are as before. -/
def Grown (h h' : Heap K) : Prop := h.rows <+: h'.rows ∧ h.mats <+: h'.mats

/-- `h''` agrees with `h'` on all the objects that were created since `h`: whoever owned the objects of `h` may have changed those, and
created others. -/
def SameNew (h h' h'' : Heap K) : Prop :=
  (∀ r, h.rows.length ≤ r → r < h'.rows.length → h''.rows[r]? = h'.rows[r]?) ∧ (∀ m, h.mats.length ≤ m → m < h'.mats.length → h''.mats[m]? = h'.mats[m]?)

/-- `m` denotes the rows `v`, whatever happens to the objects of `h`. -/
def Isolated (h h' : Heap K) (m : Nat) (v : List (List K)) : Prop := ∀ h'', SameNew h h' h'' → deref h'' m = some v

/-- The two corners of the initial rectangle: a single state is a degenerate rectangle. -/
def corners (rows : List (List K)) : List (List K) :=
  match rows with
  | [x] => [x, x]
  | _ => rows

end Verif.Scn.Spec
