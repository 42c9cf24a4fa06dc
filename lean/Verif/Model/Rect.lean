import Verif.Model.Basic
import Mathlib.Algebra.Order.Field.Basic

/-!
Operations on rectangles and tubes: `combine_rect`, `Verifier._union_traces`, `Verifier._partition_rect` of
`verse/analysis/verifier.py`, and `combine_all` of `verse/analysis/incremental.py`.

A rectangle is the pair of its lower and upper corner (Python: a list of two lists). A tube is the list of its rectangles: Python
stores it flat, the corners of the `i`-th rectangle are the rows `2 * i` and `2 * i + 1`; a tube with an odd number of rows is not
modelled. Corners of different length (ragged arrays, an error of numpy) are cut to the shorter one here.
-/

set_option autoImplicit false

namespace Verif.Rect

variable {K : Type}

abbrev Box (K : Type) := List K × List K

section
variable [LinearOrder K]

/-- `np.minimum` of two rows. -/
def rowMin (a b : List K) : List K := List.zipWith min a b

/-- `np.maximum` of two rows. -/
def rowMax (a b : List K) : List K := List.zipWith max a b

/-- `combine_rect`, verifier.py:1875-1887: the minimum of the lower and the maximum of the upper rows. `np.min` of nothing is a
`ValueError`. -/
def combineRect : List (Box K) → Except String (Box K)
  | [] => .error "ValueError"
  | r :: rs => .ok ((rs.map Prod.fst).foldl rowMin r.1, (rs.map Prod.snd).foldl rowMax r.2)

/-- `combine_all` without star sets, incremental.py:122-133; the error is `np.array([])[:, 0]`. -/
def combineAll : List (Box K) → Except String (Box K)
  | [] => .error "IndexError"
  | r :: rs => .ok ((rs.map Prod.fst).foldl rowMin r.1, (rs.map Prod.snd).foldl rowMax r.2)

/-- `t[i]` for all tubes, verifier.py:1870-1871. -/
def column (ts : List (List (Box K))) (i : Nat) : Except String (List (Box K)) :=
  ts.mapM (fun t => match t[i]? with
    | some r => .ok r
    | none => .error "IndexError")

/-- `Verifier._union_traces`, verifier.py:1863-1873: as many rectangles as the first tube has. -/
def unionTraces : List (List (Box K)) → Except String (List (Box K))
  | [] => .ok []
  | t :: ts => (List.range t.length).mapM (fun i => (column (t :: ts) i).bind combineRect)

end

section
variable [Field K] [DecidableEq K]

/-- `[i for i in partition_dims if lb[i] != ub[i]]`, verifier.py:1808. -/
def varyingDims (r : Box K) : List Nat → Except String (List Nat)
  | [] => .ok []
  | i :: is => match r.1[i]?, r.2[i]? with
    | some a, some b => (varyingDims r is).map (fun ds => if a ≠ b then i :: ds else ds)
    | _, _ => .error "IndexError"

/-- One end of the piece with number `j` of `n` along a dimension, verifier.py:1819-1821. -/
def cut (a b : K) (n j : Nat) : K := a + (j : K) * ((b - a) / (n : K))

/-- The piece for given indices, verifier.py:1816-1822; `js` are pairs of a dimension and an index. -/
def piece (r : Box K) (n : Nat) (js : List (Nat × Nat)) : Box K :=
  js.foldl (fun (s : Box K) dj =>
    (s.1.set dj.1 (cut (r.1.getD dj.1 0) (r.2.getD dj.1 0) n dj.2),
      s.2.set dj.1 (cut (r.1.getD dj.1 0) (r.2.getD dj.1 0) n (dj.2 + 1)))) r

/-- `Verifier._partition_rect`, verifier.py:1787-1823; `none` for the default of `partition_dims`. Dimensions are not negative here. -/
def partitionRect (r : Box K) (n : Nat) (dims : Option (List Nat)) : Except String (List (Box K)) :=
  let dims := (dims.getD ((List.range r.1.length).drop 1)).filter (fun d => decide (d ≠ 0))
  (varyingDims r dims).map fun vd =>
    if vd = [] then [r]
    else (product (List.replicate vd.length (List.range n))).map (fun idx => piece r n (vd.zip idx))

end

end Verif.Rect
