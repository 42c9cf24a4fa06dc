import Mathlib.Algebra.Order.Field.Basic
import Mathlib.Data.List.Forall2

/-! What a tube built from simulations should contain (C40). -/

set_option autoImplicit false

namespace Verif.Dry

variable {K : Type} [Field K] [LinearOrder K]

/-- The row lies between two corners. -/
def Within (lo hi row : List K) : Prop := List.Forall₂ (· ≤ ·) lo row ∧ List.Forall₂ (· ≤ ·) row hi

/-- The row lies between two corners that are moved away from `mid` by the factor `f`, in every column. -/
def WithinScaled (f : K) (mid lo hi row : List K) : Prop :=
  row.length = lo.length ∧ row.length = hi.length ∧ row.length = mid.length ∧
  ∀ (c : Nat) (m l u x : K), mid[c]? = some m → lo[c]? = some l → hi[c]? = some u → row[c]? = some x → m - f * (m - l) ≤ x ∧ x ≤ m + f * (u - m)

end Verif.Dry
