import Verif.Model.Basic
import Mathlib.Algebra.BigOperators.Group.Finset.Basic
import Mathlib.Algebra.Order.Field.Basic

/-!
`verse/stars/starset.py`: star sets.

Simplifications
* numbers are elements of an ordered field (no rounding, no integer arrays);
* an array is its shape and a function from indices to numbers; broadcasting of arrays of different shapes is an error;
* `scipy.optimize.linprog`, the solver and the optimizer of z3, `polytope.box2poly`, the principal component analysis, the sampling and
  the simulator are parameters;
* printing and plotting are not modelled.
-/

set_option autoImplicit false

namespace Verif.Stars

open Finset

/-- A one-dimensional array. -/
structure Vec (K : Type) where
  len : Nat
  at_ : Nat → K

/-- A two-dimensional array. -/
structure Mat (K : Type) where
  rows : Nat
  cols : Nat
  at_  : Nat → Nat → K

/-- The attributes of `StarSet`, starset.py:52-64 (`n` and `m` are the lengths of `center` and `basis`). -/
structure StarSet (K : Type) where
  center : Vec K
  basis  : Mat K
  C      : Mat K
  g      : Vec K

section
variable {K : Type} [Field K] [LinearOrder K]

/-- `M[i]` -/
def Mat.row (M : Mat K) (i : Nat) : Vec K := ⟨M.cols, M.at_ i⟩

/-- `M[:, i]` -/
def Mat.col (M : Mat K) (i : Nat) : Except String (Vec K) := if i < M.cols then .ok ⟨M.rows, fun j => M.at_ j i⟩ else .error "IndexError"

/-- An array from its rows, all of length `n`. -/
def ofRows (n : Nat) (rows : List (Vec K)) : Mat K := ⟨rows.length, n, fun i j => (rows[i]?.map (fun r => r.at_ j)).getD 0⟩

/-- An array from a list of numbers. -/
def ofList (l : List K) : Vec K := ⟨l.length, fun i => l[i]?.getD 0⟩

/-- `np.add` -/
def vadd (a b : Vec K) : Except String (Vec K) := if a.len = b.len then .ok ⟨a.len, fun i => a.at_ i + b.at_ i⟩ else .error "ValueError"

/-- `np.subtract` -/
def vsub (a b : Vec K) : Except String (Vec K) := if a.len = b.len then .ok ⟨a.len, fun i => a.at_ i - b.at_ i⟩ else .error "ValueError"

/-- `-1 * v` -/
def vneg (a : Vec K) : Vec K := ⟨a.len, fun i => -1 * a.at_ i⟩

/-- `a @ b` for one-dimensional arrays. -/
def dot (a b : Vec K) : Except String K := if a.len = b.len then .ok (∑ k ∈ range a.len, a.at_ k * b.at_ k) else .error "ValueError"

/-- `np.matmul(a, b)` for two-dimensional arrays. -/
def matmul (a b : Mat K) : Except String (Mat K) :=
  if a.cols = b.rows then .ok ⟨a.rows, b.cols, fun i j => ∑ k ∈ range a.cols, a.at_ i k * b.at_ k j⟩ else .error "ValueError"

/-- `np.matmul(a, v)` for a two-dimensional and a one-dimensional array. -/
def matvec (a : Mat K) (v : Vec K) : Except String (Vec K) :=
  if a.cols = v.len then .ok ⟨a.rows, fun i => ∑ k ∈ range a.cols, a.at_ i k * v.at_ k⟩ else .error "ValueError"

/-- `np.vstack((a, b))` -/
def vstack (a b : Mat K) : Except String (Mat K) :=
  if a.cols = b.cols then .ok ⟨a.rows + b.rows, a.cols, fun i j => if i < a.rows then a.at_ i j else b.at_ (i - a.rows) j⟩ else .error "ValueError"

/-- `np.append(a, b)` -/
def append (a b : Vec K) : Vec K := ⟨a.len + b.len, fun i => if i < a.len then a.at_ i else b.at_ (i - a.len)⟩

/-- `StarSet.__init__`, starset.py:32-64. -/
def new (center : Vec K) (basis C : Mat K) (g : Vec K) : Except String (StarSet K) :=
  if basis.rows ≠ 0 ∧ basis.cols ≠ center.len then .error "Basis for star set must be the same dimension as center"
  else if C.cols ≠ basis.rows then .error "Width of C"
  else if g.len ≠ C.rows then .error "Length of g vector should be equal length of C"
  else .ok ⟨center, basis, C, g⟩

/-- `superposition`, starset.py:71-85. -/
def superposition (s : StarSet K) (center : Vec K) (basis : Mat K) : Except String (StarSet K) :=
  if basis.rows = s.basis.rows then new center basis s.C s.g else .error "Basis for new star set must be the same"

/-- One iteration of the loop in `post_cont` (223-226) and in `apply_reset` (238-241): `new_basis[i]`. -/
def newVec (f : Vec K → Except String (Vec K)) (s : StarSet K) (center : Vec K) (i : Nat) : Except String (Vec K) :=
  (vadd s.center (s.basis.row i)).bind fun x => (f x).bind fun y => (vsub y center).bind fun v =>
    if v.len = s.basis.cols then .ok v else .error "ValueError"

/-- `post_cont`, starset.py:219-227, with `simulate` for a fixed time; `apply_reset`, 232-242, with the reset function for fixed
expressions. The two bodies are the same. -/
def applyMap (f : Vec K → Except String (Vec K)) (s : StarSet K) : Except String (StarSet K) :=
  (f s.center).bind fun center => ((List.range s.basis.rows).mapM (newVec f s center)).bind fun rows =>
    superposition s center (ofRows s.basis.cols rows)

/-- `new_basises[i]` of `calc_reach_tube_linear`, starset.py:95-100: differences of the rows of two traces. -/
def diffRows (xs : List (K × Vec K)) (centers : List (K × Vec K)) : Except String (List (Vec K)) :=
  (List.range xs.length).mapM (fun j => match xs[j]?, centers[j]? with
    | some x, some c => vsub x.2 c.2
    | _, _ => .error "IndexError")

/-- `basis_list[i]`, 103-104. -/
def nthVec (i : Nat) (ds : List (Vec K)) : Except String (Vec K) := match ds[i]? with
  | some d => .ok d
  | none => .error "IndexError"

/-- One entry of the tube, 101-105. -/
def linearEntry (s : StarSet K) (centers : List (K × Vec K)) (diffs : List (List (Vec K))) (i : Nat) : Except String (K × StarSet K) :=
  match centers[i]? with
  | none => .error "IndexError"
  | some c => (diffs.mapM (nthVec i)).bind fun rows =>
    if rows.all (fun r => decide (r.len = c.2.len)) then (superposition s c.2 (ofRows c.2.len rows)).map (fun st => (c.1, st))
    else .error "Basis for star set must be the same dimension as center"

/-- `calc_reach_tube_linear`, starset.py:88-108. A row of a trace is its time and its state. -/
def reachLinear (sim : Vec K → Except String (List (K × Vec K))) (s : StarSet K) : Except String (List (K × StarSet K)) :=
  (sim s.center).bind fun centers =>
    ((List.range s.basis.rows).mapM (fun i => (vadd s.center (s.basis.row i)).bind fun x => (sim x).bind fun xs => diffRows xs centers)).bind fun diffs =>
      (List.range centers.length).mapM (linearEntry s centers diffs)

/-- A result of `linprog`: the status and the solution, if there is one. -/
structure LPRes (K : Type) where
  status : Nat
  x      : Option (Vec K)

/-- A call of `linprog` with `A_ub`, `b_ub`; the flag says that the variables are bounded below by 0 (the default of `linprog`); without it
the call passes `bounds=(None, None)`. Arrays of wrong shapes are rejected. -/
def callLP (lp : Bool → Vec K → Mat K → Vec K → LPRes K) (nonneg : Bool) (c : Vec K) (A : Mat K) (b : Vec K) : Except String (LPRes K) :=
  if A.cols = c.len ∧ A.rows = b.len then .ok (lp nonneg c A b) else .error "ValueError"

/-- `coefficents @ res.x`, where `res.x` may be `None`. -/
def dotRes (c : Vec K) (r : LPRes K) : Except String K := match r.x with
  | some x => dot c x
  | none => .error "TypeError"

/-- `get_max_min`, starset.py:505-524: the minimum and the maximum, in this order. -/
def getMaxMin (lp : Bool → Vec K → Mat K → Vec K → LPRes K) (s : StarSet K) (i : Nat) : Except String (K × K) :=
  (s.basis.col i).bind fun co =>
    (callLP lp false co s.C s.g).bind fun r => (dotRes co r).bind fun lo =>
      (callLP lp false (vneg co) s.C s.g).bind fun r' => (dotRes co r').bind fun hi =>
        .ok (s.center.at_ i + lo, s.center.at_ i + hi)

/-- `overapprox_rectangle`, starset.py:110-118: the pairs of minimum and maximum. -/
def overapprox (lp : Bool → Vec K → Mat K → Vec K → LPRes K) (s : StarSet K) : Except String (List (K × K)) :=
  (List.range s.center.len).mapM (getMaxMin lp s)

/-- `get_true_center`, starset.py:493-502. -/
def trueCenter (lp : Bool → Vec K → Mat K → Vec K → LPRes K) (s : StarSet K) : Except String (List K) :=
  (List.range s.center.len).mapM (fun i => (getMaxMin lp s i).map (fun r => r.2 - r.1 / 2))

/-- `from_poly`, starset.py:305-313 (and `from_polytope`, 301-302). `constraint_mat[0]` needs a row. -/
def fromPoly (A : Mat K) (b : Vec K) : Except String (StarSet K) :=
  if b.len ≠ A.rows then .error "constraint_mat should be length of rhs"
  else if A.rows = 0 then .error "IndexError"
  else new ⟨A.cols, fun _ => 0⟩ ⟨A.cols, A.cols, fun i j => if i = j then 1 else 0⟩ A b

/-- `rect_to_star`, starset.py:145-152; `box` is `pc.box2poly`. -/
def rectToStar (box : List (K × K) → Except String (Mat K × Vec K)) (lo hi : List K) : Except String (StarSet K) :=
  if lo.length ≠ hi.length then .error "max and min must be same length"
  else (box (lo.zip hi)).bind fun p => fromPoly p.1 p.2

/-- The inner loop of `combine_stars`, starset.py:552-557, with the bounds found so far. -/
def combineDim (lp : Bool → Vec K → Mat K → Vec K → LPRes K) (i : Nat) : List (StarSet K) → Option (K × K) → Except String (Option (K × K))
  | [], acc => .ok acc
  | s :: ss, acc => (getMaxMin lp s i).bind fun r => combineDim lp i ss (match acc with
    | none => some r
    | some a => some (if r.1 < a.1 then r.1 else a.1, if r.2 > a.2 then r.2 else a.2))

/-- `[min, max]` as an interval for `box2poly`, 558-560 (`None` is not a number). -/
def boundsOf : Option (K × K) → Except String (K × K)
  | some b => .ok b
  | none => .error "TypeError"

/-- `combine_stars`, starset.py:547-560. -/
def combineStars (lp : Bool → Vec K → Mat K → Vec K → LPRes K) (box : List (K × K) → Except String (Mat K × Vec K)) :
    List (StarSet K) → Except String (StarSet K)
  | [] => .error "IndexError"
  | s :: ss => ((List.range s.center.len).mapM (fun i => (combineDim lp i (s :: ss) none).bind boundsOf)).bind fun dims => (box dims).bind fun p => fromPoly p.1 p.2

/-- `intersection_poly`, starset.py:270-283: the star set afterwards. `len(constraint_mat[0] == self.n)` is the length of the row, so that
only an empty row is rejected. -/
def intersectionPoly (s : StarSet K) (H : Mat K) (rhs : Vec K) : Except String (StarSet K) :=
  if H.rows = 0 then .error "IndexError"
  else if H.cols = 0 then .error "constraint_mat vectors should be of length n"
  else if rhs.len ≠ H.rows then .error "constraint_mat should be length of rhs"
  else (matmul H s.basis).bind fun newC => (vstack s.C newC).bind fun conjC => (matvec H s.center).bind fun hc =>
    (vsub rhs hc).bind fun newG => .ok { s with C := conjC, g := append s.g newG }

/-- `intersection_halfspace`, starset.py:264-268. -/
def intersectionHalfspace (s : StarSet K) (H : Vec K) (r : K) : Except String (StarSet K) :=
  if H.len = 0 then .error "constraint_vec should be of length n"
  else intersectionPoly s ⟨1, H.len, fun _ j => H.at_ j⟩ ⟨1, fun _ => r⟩

/-- `is_feasible`, starset.py:539-545, without equations. -/
def isFeasible (lp : Bool → Vec K → Mat K → Vec K → LPRes K) (n : Nat) (A : Mat K) (b : Vec K) : Except String Bool :=
  (callLP lp true ⟨n, fun _ => 0⟩ A b).bind fun r =>
    if r.status = 0 then .ok true else if r.status = 2 then .ok false else .error "linear program had unexpected result"

/-- `is_empty`, starset.py:533-537. -/
def isEmpty (lp : Bool → Vec K → Mat K → Vec K → LPRes K) (s : StarSet K) : Except String Bool :=
  (isFeasible lp s.center.len s.C s.g).map (fun b => !b)

/-- `satisfies`, starset.py:327-333. -/
def satisfies (lp : Bool → Vec K → Mat K → Vec K → LPRes K) (s : StarSet K) (H : Vec K) (r : K) : Except String Bool :=
  (new s.center s.basis s.C s.g).bind fun s' => (intersectionHalfspace s' (vneg H) (-1 * r)).bind (isEmpty lp)

/-- `maximize`, starset.py:463-491: the point as a list. -/
def maximize (lp : Bool → Vec K → Mat K → Vec K → LPRes K) (s : StarSet K) (dir : Vec K) : Except String (Vec K) :=
  if dir.len = s.basis.rows then
    (callLP lp false ⟨s.basis.cols, fun j => ∑ k ∈ range dir.len, (-1 * dir.at_ k) * s.basis.at_ k j⟩ s.C s.g).bind fun r =>
      match r.x with
      | none => .error "AttributeError"
      | some x => if x.len = s.basis.rows then (vadd s.center ⟨s.basis.cols, fun j => ∑ k ∈ range x.len, x.at_ k * s.basis.at_ k j⟩)
        else .error "ValueError"
  else .error "ValueError"

/-- A linear constraint over the coefficients for z3: `const + Σ coef j * α j` equals the bound (`eq`), or is at most the bound. -/
structure Lin (K : Type) where
  eq    : Bool
  const : K
  coef  : Nat → K
  bound : K

/-- The equations of `contains_point` (344-349) and of `containment_poly` (588-593) for the coordinates below `n`. -/
def pointEqs (s : StarSet K) (n : Nat) (x : Nat → K) : List (Lin K) :=
  (List.range n).map (fun j => ⟨true, s.center.at_ j, fun i => s.basis.at_ i j, x j⟩)

/-- The inequalities, 352-356 and 596-601. -/
def predIneqs (s : StarSet K) : List (Lin K) := (List.range s.C.rows).map (fun i => ⟨false, 0, fun j => s.C.at_ i j, s.g.at_ i⟩)

/-- `contains_point`, starset.py:335-361; `check` is the answer `sat` of the solver for constraints over so many coefficients. -/
def containsPoint (check : Nat → List (Lin K) → Bool) (s : StarSet K) (pt : Vec K) : Except String Bool :=
  if pt.len ≤ s.center.len then .ok (check s.basis.rows (pointEqs s pt.len pt.at_ ++ predIneqs s)) else .error "IndexError"

/-- `containment_poly`, starset.py:578-603. -/
def containmentPoly (check : Nat → List (Lin K) → Bool) (s : StarSet K) (pt : Vec K) : Except String Bool :=
  if s.center.len ≠ pt.len then .error "ValueError"
  else .ok (check s.C.cols (pointEqs s s.center.len pt.at_ ++ predIneqs s))

/-- `add_constraints`, starset.py:365-391: the constraints on the coefficients, for given values of the state variables. -/
def addConstraints (s : StarSet K) (state : Vec K) : Except String (List (Lin K)) :=
  if s.center.len ≤ state.len then .ok (pointEqs s s.center.len state.at_ ++ predIneqs s) else .error "IndexError"

/-- `new_pred`, starset.py:677-693. -/
def newPred (s : StarSet K) : Except String (StarSet K) :=
  new s.center s.basis ⟨s.C.cols * 2, s.C.cols, fun j i => if i * 2 = j then 1 else if i * 2 + 1 = j then -1 else 0⟩ ⟨s.g.len, fun _ => 1⟩

/-- A model found by `Optimize`, 640-667: the factor, the center, and the coefficients for every point. -/
structure Fit (K : Type) where
  u : K
  c : Nat → K
  α : Nat → Nat → K

/-- The constraints of 641-658: each point is the center plus a combination of the given vectors, with coefficients `a` such that
`C a ≤ u * g`. -/
def FitOk (s : StarSet K) (basis : Mat K) (pts : List (Vec K)) (f : Fit K) : Prop :=
  ∀ (p : Nat) (x : Vec K), pts[p]? = some x →
    (∀ d < s.center.len, f.c d + ∑ j ∈ range s.C.cols, f.α p j * basis.at_ j d = x.at_ d) ∧
    (∀ i < s.C.rows, ∑ j ∈ range s.C.cols, s.C.at_ i j * f.α p j ≤ f.u * s.g.at_ i)

/-- The checks and one round of `post_cont_pca`, starset.py:621-674; `none` when the optimizer does not answer `sat`. -/
def pcaRound (opt : StarSet K → Mat K → List (Vec K) → Option (Fit K)) (s : StarSet K) (basis : Mat K) (pts : List (Vec K)) :
    Except String (Option (StarSet K)) :=
  if pts.isEmpty then .error "ValueError: No points given as input"
  else if pts.any (fun x => decide (x.len ≠ s.center.len)) then .error "ValueError"
  else if ¬ (s.basis.rows = basis.rows ∧ s.basis.cols = basis.cols) then .error "ValueError"
  else match opt s basis pts with
    | none => .ok none
    | some f => (new ⟨s.center.len, f.c⟩ basis s.C ⟨s.g.len, fun i => s.g.at_ i * f.u⟩).map some

/-- `post_cont_pca`, starset.py:620-674: a second attempt with the generic predicate. -/
def postContPca (opt : StarSet K → Mat K → List (Vec K) → Option (Fit K)) (s : StarSet K) (basis : Mat K) (pts : List (Vec K)) : Except String (StarSet K) :=
  (pcaRound opt s basis pts).bind fun r => match r with
    | some st => .ok st
    | none => (newPred s).bind fun s' => (pcaRound opt s' basis pts).bind fun r' => match r' with
      | some st => .ok st
      | none => .error "RuntimeError"

/-- The states of all traces at index `t`, `post_points[:, t, 1:]`, starset.py:721. -/
def slice (traces : List (List (K × Vec K))) (t : Nat) : Except String (List (Vec K)) :=
  traces.mapM (fun tr => match tr[t]? with
    | some r => .ok r.2
    | none => .error "ValueError")

/-- `gen_starset`, starset.py:697-704; `pca` gives the scaled components of the points. -/
def genStarset (opt : StarSet K → Mat K → List (Vec K) → Option (Fit K)) (pca : List (Vec K) → Except String (Mat K)) (s : StarSet K)
    (pts : List (Vec K)) : Except String (StarSet K) := (pca pts).bind fun basis => postContPca opt s basis pts

/-- Line 700 as it is: the import of `PCA` (line 10) is a comment. -/
def pcaNotImported (_ : List (Vec K)) : Except String (Mat K) := .error "NameError"

/-- `gen_starsets_post_sim`, starset.py:707-722, for the sampled points. All traces have the same length (otherwise `np.array` fails). -/
def starsPostSim (opt : StarSet K → Mat K → List (Vec K) → Option (Fit K)) (pca : List (Vec K) → Except String (Mat K))
    (sim : Vec K → Except String (List (K × Vec K))) (s : StarSet K) (samples : List (Vec K)) : Except String (List (StarSet K)) :=
  (samples.mapM sim).bind fun traces => match traces with
    | [] => .error "IndexError"
    | tr :: _ => if traces.all (fun t => decide (t.length = tr.length)) then
        (List.range tr.length).mapM (fun t => (slice traces t).bind (genStarset opt pca s))
      else .error "ValueError"

/-- One star from two rows of the tube, 194-200. -/
def pairStar (box : List (K × K) → Except String (Mat K × Vec K)) (tube : List (K × List K)) (i : Nat) : Except String (K × StarSet K) :=
  match tube[2 * i]?, tube[2 * i + 1]? with
  | some a, some b => (rectToStar box a.2 b.2).map (fun st => (a.1, st))
  | _, _ => .error "IndexError"

/-- `calc_reach_tube` without the option `pca`, starset.py:160-204; `bloat` is `calc_bloated_tube` as a function of the initial rectangle,
given by its lower and its upper corner; a row of the tube is its time and its state. -/
def reachRect (lp : Bool → Vec K → Mat K → Vec K → LPRes K) (box : List (K × K) → Except String (Mat K × Vec K))
    (bloat : List K → List K → Except String (List (K × List K))) (s : StarSet K) : Except String (List (K × StarSet K)) :=
  (overapprox lp s).bind fun r => (bloat (r.map Prod.fst) (r.map Prod.snd)).bind fun tube =>
    (List.range ((tube.length + 1) / 2)).mapM (pairStar box tube)

/-- The loop of `calculate_full_bloated_tube_stars`, verifier.py:169-212: the stars from the position of the segment on, and the tube of the
last segment. A segment of one star uses the first star of the initial set (182). The first argument bounds the number of segments. -/
def fullStarsLoop (combine : List (StarSet K) → Except String (StarSet K)) (reach : StarSet K → Except String (List (K × StarSet K)))
    (segLen : Nat) (first : StarSet K) : Nat → List (StarSet K) → Option (List (K × StarSet K)) → Except String (Option (List (K × StarSet K)))
  | 0, _, last => .ok last
  | _ + 1, [], last => .ok last
  | n + 1, s :: ss, _ =>
    (if ((s :: ss).take segLen).length > 1 then combine ((s :: ss).take segLen) else .ok first).bind fun st =>
      (reach st).bind fun tube => fullStarsLoop combine reach segLen first n ((s :: ss).drop segLen) (some tube)

/-- `calculate_full_bloated_tube_stars`, verifier.py:127-235, without the option `incremental` (with it, line 216 raises `NameError`). -/
def fullStars (combine : List (StarSet K) → Except String (StarSet K)) (reach : StarSet K → Except String (List (K × StarSet K)))
    (segLen : Nat) (inits : List (StarSet K)) : Except String (List (K × StarSet K)) :=
  if segLen = 0 then .error "ValueError"
  else match inits with
    | [] => .error "UnboundLocalError"
    | s :: ss => (fullStarsLoop combine reach segLen s (s :: ss).length (s :: ss) none).bind fun r => match r with
      | some t => .ok t
      | none => .error "UnboundLocalError"

end

end Verif.Stars
