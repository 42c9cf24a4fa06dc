import Verif.Model.MixMono
import Mathlib.Data.List.Forall2

/-! What a tube of a mixed-monotone system should contain (C41). -/

set_option autoImplicit false

namespace Verif.Mix

variable {K : Type} [Field K] [LinearOrder K]

/-- The vector lies in the box. -/
def InBox (lo hi a : List K) : Prop := List.Forall₂ (· ≤ ·) lo a ∧ List.Forall₂ (· ≤ ·) a hi

/-- The decomposition function bounds the dynamics `F` (next state from state and parameters) on all boxes. -/
def Bounds (dec : Decomp K) (F : List K → List K → List K) : Prop :=
  ∀ x xhat w what, List.Forall₂ (· ≤ ·) x xhat → List.Forall₂ (· ≤ ·) w what →
    ∃ d dhat, dec x w xhat what = .ok d ∧ dec xhat what x w = .ok dhat ∧ d.length = x.length ∧ dhat.length = x.length ∧
      ∀ a v, InBox x xhat a → InBox w what v → InBox d dhat (F a v)

/-- The same for states of length `n`, and given bounds of the parameters. -/
def BoundsOn (dec : Decomp K) (F : List K → List K → List K) (n : Nat) (w what : List K) : Prop :=
  ∀ x xhat, x.length = n → List.Forall₂ (· ≤ ·) x xhat →
    ∃ d dhat, dec x w xhat what = .ok d ∧ dec xhat what x w = .ok dhat ∧ d.length = x.length ∧ dhat.length = x.length ∧
      ∀ a v, InBox x xhat a → InBox w what v → InBox d dhat (F a v)

/-- A trajectory from the initial box under parameters that may change in every step, within their bounds. -/
structure Trajectory (F : List K → List K → List K) (lo hi w what : List K) (a v : Nat → List K) : Prop where
  init : InBox lo hi (a 0)
  param : ∀ k, InBox w what (v k)
  next : ∀ k, a (k + 1) = F (a k) (v k)

/-- A minimizer is exact for a function: on every box its result is a lower bound, and is attained. -/
def ExactFor (minimize : (List K → K) → List K → List K → K) (g : List K → K) : Prop :=
  ∀ lo hi, List.Forall₂ (· ≤ ·) lo hi → (∀ z, InBox lo hi z → minimize g lo hi ≤ g z) ∧ ∃ z, InBox lo hi z ∧ minimize g lo hi = g z

end Verif.Mix
