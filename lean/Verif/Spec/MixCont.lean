import Verif.Model.MixCont
import Verif.Spec.MixMono
import Mathlib.Analysis.Calculus.Deriv.Basic
import Mathlib.Algebra.BigOperators.Group.Finset.Basic

/-! What a tube of a mixed-monotone system in continuous time should contain (C81). -/

set_option autoImplicit false

namespace Verif.Mix

open Set

/-- `y` is a solution of `y' = f(t, y)` on `[0, T]` with `n` components. -/
structure Solves (n : Nat) (T : ℝ) (f : ℝ → List ℝ → List ℝ) (y : ℝ → List ℝ) : Prop where
  length : ∀ t ∈ Icc 0 T, (y t).length = n
  continuous : ∀ i < n, ContinuousOn (fun t => (y t).getD i 0) (Icc 0 T)
  deriv : ∀ t ∈ Ico 0 T, ∀ i < n, HasDerivWithinAt (fun s => (y s).getD i 0) ((f t (y t)).getD i 0) (Ici t) t

/-- `dec` is a decomposition function for the dynamics `F`, with `n` state variables and `m` parameters: it agrees with `F` on the diagonal, it grows
in the other state variables and in the parameters, it shrinks in the variables and parameters with hat; and it is Lipschitz on bounded sets. -/
structure MixedMonotone (dec : DecompC ℝ) (F : List ℝ → List ℝ → List ℝ) (n m : Nat) : Prop where
  length : ∀ x w xhat what, x.length = n → w.length = m → xhat.length = n → what.length = m → (dec x w xhat what).length = n
  diag : ∀ a v, a.length = n → v.length = m → dec a v a v = F a v
  up : ∀ i x x' w w' xhat what, i < n → x.length = n → w.length = m → xhat.length = n → what.length = m → List.Forall₂ (· ≤ ·) x x' → x[i]? = x'[i]? →
    List.Forall₂ (· ≤ ·) w w' → (dec x w xhat what).getD i 0 ≤ (dec x' w' xhat what).getD i 0
  down : ∀ i x w xhat xhat' what what', i < n → x.length = n → w.length = m → xhat.length = n → what.length = m → List.Forall₂ (· ≤ ·) xhat xhat' →
    List.Forall₂ (· ≤ ·) what what' → (dec x w xhat' what').getD i 0 ≤ (dec x w xhat what).getD i 0
  lipschitz : ∀ R : ℝ, ∃ L : ℝ, 0 ≤ L ∧ ∀ x x' w xhat xhat' what, x.length = n → x'.length = n → w.length = m → xhat.length = n → xhat'.length = n →
    what.length = m → (∀ z ∈ x ++ x' ++ w ++ xhat ++ xhat' ++ what, |z| ≤ R) → ∀ i < n,
    |(dec x w xhat what).getD i 0 - (dec x' w xhat' what).getD i 0| ≤ L * ∑ j ∈ Finset.range n, (|x.getD j 0 - x'.getD j 0| + |xhat.getD j 0 - xhat'.getD j 0|)

/-- A trajectory from the initial box under parameters that may change at any time, within their bounds. -/
structure TrajectoryC (F : List ℝ → List ℝ → List ℝ) (n : Nat) (T : ℝ) (lo hi w what : List ℝ) (ξ ω : ℝ → List ℝ) : Prop where
  init : InBox lo hi (ξ 0)
  param : ∀ t, InBox w what (ω t)
  solves : Solves n T (fun t a => F a (ω t)) ξ

/-- The integrator is exact for `k` steps of length `dt` of `y' = f y` from `s`. -/
def ExactSteps (solve : (List ℝ → List ℝ) → ℝ → List ℝ → List ℝ) (n : Nat) (f : List ℝ → List ℝ) (dt : ℝ) (s : List ℝ) (k : Nat) : Prop :=
  ∀ i < k, ∃ y, Solves n dt (fun _ => f) y ∧ y 0 = (solve f dt)^[i] s ∧ y dt = (solve f dt)^[i + 1] s

end Verif.Mix
