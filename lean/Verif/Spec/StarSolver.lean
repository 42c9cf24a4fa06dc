import Verif.Spec.Star
import Verif.Model.Star

/-! The points of a modelled star set, and what is assumed about the solvers it is handed to (C42-C44, C61, C62). -/

set_option autoImplicit false

namespace Verif.Stars

open Finset

variable {K : Type} [Field K] [LinearOrder K]

/-- `x` is a point of the star set. -/
def InStar (s : StarSet K) (x : Nat → K) : Prop :=
  Point s.center.len s.basis.rows s.C.rows s.center.at_ s.basis.at_ s.C.at_ s.g.at_ x

/-- The constructor accepts the star set. -/
def Built (s : StarSet K) : Prop := new s.center s.basis s.C s.g = .ok s

/-- The points that a linear program ranges over: `A x ≤ b`, and `0 ≤ x` if the flag is set. -/
def LPFeas (nonneg : Bool) (A : Mat K) (b : Vec K) (x : Nat → K) : Prop :=
  Sat A.rows A.cols A.at_ b.at_ x ∧ (nonneg = true → ∀ j < A.cols, 0 ≤ x j)

/-- What is assumed about `linprog`: a solution that is returned is optimal, a solution comes with status 0, and status 2 is only
reported for a program without feasible point. -/
structure LPCorrect (lp : Bool → Vec K → Mat K → Vec K → LPRes K) : Prop where
  sol  : ∀ (nn : Bool) (c : Vec K) (A : Mat K) (b : Vec K) (x : Vec K), A.cols = c.len → A.rows = b.len → (lp nn c A b).x = some x →
    x.len = c.len ∧ LPFeas nn A b x.at_ ∧ ∀ y, LPFeas nn A b y → ∑ j ∈ range c.len, c.at_ j * x.at_ j ≤ ∑ j ∈ range c.len, c.at_ j * y j
  zero : ∀ (nn : Bool) (c : Vec K) (A : Mat K) (b : Vec K), A.cols = c.len → A.rows = b.len → (lp nn c A b).status = 0 →
    ∃ x, (lp nn c A b).x = some x
  two  : ∀ (nn : Bool) (c : Vec K) (A : Mat K) (b : Vec K), A.cols = c.len → A.rows = b.len → (lp nn c A b).status = 2 →
    ¬ ∃ y, LPFeas nn A b y

/-- What is assumed about `polytope.box2poly`: the inequalities it returns describe the box. -/
def BoxCorrect (box : List (K × K) → Except String (Mat K × Vec K)) : Prop :=
  ∀ (dims : List (K × K)) (A : Mat K) (b : Vec K), box dims = .ok (A, b) →
    A.cols = dims.length ∧ ∀ x : Nat → K, Sat A.rows A.cols A.at_ b.at_ x ↔ ∀ (d : Nat) (r : K × K), dims[d]? = some r → r.1 ≤ x d ∧ x d ≤ r.2

/-- The linear constraint holds for the coefficients. -/
def Lin.Holds (m : Nat) (α : Nat → K) (l : Lin K) : Prop :=
  if l.eq then l.const + ∑ j ∈ range m, l.coef j * α j = l.bound else l.const + ∑ j ∈ range m, l.coef j * α j ≤ l.bound

/-- What is assumed about the solver of z3 for linear constraints over the reals: `sat` exactly if there are values. -/
def CheckCorrect (check : Nat → List (Lin K) → Bool) : Prop :=
  ∀ (m : Nat) (ls : List (Lin K)), check m ls = true ↔ ∃ α : Nat → K, ∀ l ∈ ls, l.Holds m α

/-- What is assumed about the optimizer of z3: a model it returns satisfies the constraints. -/
def OptCorrect (opt : StarSet K → Mat K → List (Vec K) → Option (Fit K)) : Prop :=
  ∀ (s : StarSet K) (basis : Mat K) (pts : List (Vec K)) (f : Fit K), opt s basis pts = some f → FitOk s basis pts f

end Verif.Stars
