import Verif.Model.Dryvr
import Mathlib.Data.List.Lex
import Mathlib.Data.List.Sort
import Mathlib.Analysis.SpecialFunctions.Log.Basic

/-!
`verse/analysis/dryvr.py`: reach tubes from simulations, method `PWGlobal` (`bloating_method = "GLOBAL"`): the logarithms of the sensitivities are
bounded by straight lines over time, the edges of a convex hull.

Simplifications: as in `Verif.Model.Dryvr`; numbers are reals; the convex hull (`scipy.spatial.ConvexHull`) is a parameter: the indices of its vertices,
or an exception.
-/

set_option autoImplicit false

namespace Verif.Dry

/-- `np.min` of a list of numbers. -/
def minOf {K : Type} [Field K] [LinearOrder K] : List K → K
  | [] => 0
  | [x] => x
  | x :: y :: l => min x (minOf (y :: l))

/-- `points[d][k]`, dryvr.py:58-61 and 75-76: the time, and the logarithm of the sensitivity, which is at least `_EPSILON`. `small` are the radii
that the sensitivities replace by 1, which differ between the two files. The lines of dryvr_disc.py for the same: 45-51, 62-63. -/
noncomputable def point (small : ℝ → Bool) (eps : ℝ) (a : Arr ℝ) (r : List ℝ) (d k : Nat) : ℝ × ℝ :=
  (a.at_ 0 k 0 - a.at_ 0 0 0, Real.log (max (if k = 0 then (if r[d]?.getD 0 = 0 then 0 else 1) else sens eps small a r d k) (1 / 10 ^ 6)))

/-- `new_min`, 78. -/
noncomputable def newMin (small : ℝ → Bool) (eps : ℝ) (a : Arr ℝ) (r : List ℝ) (d : Nat) : ℝ :=
  min (minOf ((List.range (a.len - 1)).map (fun k => (point small eps a r d (k + 1)).2)) + -10) (-10)

/-- `cur_dim_points`, 79-98. -/
noncomputable def dimPoints (small : ℝ → Bool) (eps : ℝ) (a : Arr ℝ) (r : List ℝ) (d : Nat) : List (ℝ × ℝ) :=
  (List.range (a.len - 1)).map (fun k => point small eps a r d (k + 1)) ++
    (if r[d]?.getD 0 = 0 then [((point small eps a r d 1).1, newMin small eps a r d), ((point small eps a r d (a.len - 1)).1, newMin small eps a r d)]
     else [point small eps a r d 0, ((point small eps a r d 0).1, newMin small eps a r d), ((point small eps a r d (a.len - 1)).1, newMin small eps a r d)])

/-- `vert_inds`, 101-102: neighbours in a list of vertices, the last with the first. -/
def cyclePairs (vs : List Nat) : Except String (List (Nat × Nat)) :=
  match vs.getLast?, vs.head? with
  | some l, some f => .ok (vs.zip (vs.drop 1) ++ [(l, f)])
  | _, _ => .error "IndexError"

/-- An element of `linear_separators`. -/
structure Sep where
  t0    : ℝ
  t1    : ℝ
  slope : ℝ
  y     : ℝ
  s     : Nat
  e     : Nat

/-- The body of the loop over the edges of the hull, 103-126; `p` are the indices of the end and of the start. -/
noncomputable def sepOf (pts : List (ℝ × ℝ)) (nm : ℝ) (p : Nat × Nat) : Except String (Option Sep) :=
  match pts[p.1]?, pts[p.2]? with
  | some e, some s =>
    if s.2 ≠ nm ∧ e.2 ≠ nm then
      let slope := (e.2 - s.2) / (e.1 - s.1)
      if s.1 < e.1 then .ok (some ⟨s.1, e.1, slope, s.2 - s.1 * slope, if s.1 = 0 then 0 else p.2 + 1, p.1 + 1⟩)
      else .error "AssertionError"
    else .ok none
  | _, _ => .error "IndexError"

/-- The order of tuples, for `linear_separators.sort()`. -/
def Sep.key (σ : Sep) : List ℝ := [σ.t0, σ.t1, σ.slope, σ.y, σ.s, σ.e]

/-- `segment_df[k - start_ind]`, 134-140. -/
noncomputable def segAt (a : Arr ℝ) (r : List ℝ) (d : Nat) (prev : ℝ) (σ : Sep) (k : Nat) : ℝ :=
  let v := normRadius isZero r d * Real.exp σ.y * Real.exp (σ.slope * a.at_ 0 k 0)
  if k = σ.s then max v prev else v

/-- The body of the loop over the separators, 130-143. The state is `prev_val`, `prev_ind` and the column of `df`. -/
noncomputable def sepStep (a : Arr ℝ) (r : List ℝ) (d : Nat) (st : ℝ × Nat × (Nat → ℝ)) (σ : Sep) : Except String (ℝ × Nat × (Nat → ℝ)) :=
  if st.2.1 = σ.s ∧ σ.s < σ.e then
    .ok (segAt a r d st.1 σ (min σ.e (a.len - 1)), σ.e, fun k => if σ.s ≤ k ∧ k ≤ σ.e then segAt a r d st.1 σ k else st.2.2 k)
  else .error "AssertionError"

/-- One column of `df`, 77-143, for variable `d` (from 0). -/
noncomputable def dimDf (hull : List (ℝ × ℝ) → Except String (List Nat)) (small : ℝ → Bool) (eps : ℝ) (a : Arr ℝ) (r : List ℝ) (d : Nat) : Except String (Nat → ℝ) :=
  (hull (dimPoints small eps a r d)).bind fun vs => (cyclePairs vs).bind fun ps =>
    (ps.mapM (sepOf (dimPoints small eps a r d) (newMin small eps a r d))).bind fun os =>
      (((os.filterMap id).insertionSort (fun σ τ => σ.key ≤ τ.key)).foldlM (sepStep a r d)
        (0, if r[d]?.getD 0 = 0 then 1 else 0, fun k => if k = 0 then r[d]?.getD 0 else 0)).map (fun st => st.2.2)

/-- `df`, 77-143: column 0 is the time. -/
noncomputable def dfGlobal (hull : List (ℝ × ℝ) → Except String (List Nat)) (small : ℝ → Bool) (eps : ℝ) (a : Arr ℝ) (r : List ℝ) : Except String (Nat → Nat → ℝ) :=
  ((List.range (a.dims - 1)).mapM (dimDf hull small eps a r)).map fun fs k c => if c = 0 then 0 else (fs[c - 1]?.getD (fun _ => 0)) k

/-- `reachtube_segment[k]`, 145-151. -/
noncomputable def segmentG (a : Arr ℝ) (df : Nat → Nat → ℝ) (k : Nat) : List ℝ × List ℝ :=
  ((List.range a.dims).map (fun c => min (a.at_ 0 (k + 1) c - df (k + 1) c) (a.at_ 0 k c - df k c)),
   (List.range a.dims).map (fun c => max (a.at_ 0 (k + 1) c + df (k + 1) c) (a.at_ 0 k c + df k c)))

/-- `get_reachtube_segment(traces, radii, "PWGlobal")`, 47-166: the assertions (56, 144), `np.max` of no pair (30), `np.min` of no point (78), the shapes. -/
noncomputable def getSegmentsG (hull : List (ℝ × ℝ) → Except String (List Nat)) (eps : ℝ) (a : Arr ℝ) (r : List ℝ) : Except String (List (List ℝ × List ℝ)) :=
  if (∀ i < a.n, ∀ k < a.len, a.at_ 0 k 0 = a.at_ i k 0) ∧ r.length + 1 = a.dims ∧ 2 ≤ a.n ∧ 2 ≤ a.len then
    (dfGlobal hull isZero eps a r).bind fun df =>
      open Classical in
      if ∀ k < a.len, ∀ c < a.dims, 0 ≤ df k c then .ok ((List.range (a.len - 1)).map (segmentG a df)) else .error "AssertionError"
  else .error "AssertionError"

/-- `calc_bloated_tube` with the method `GLOBAL`, 251-320. -/
noncomputable def bloatedTubeG (hull : List (ℝ × ℝ) → Except String (List Nat)) (eps : ℝ) (sim : List ℝ → List (List ℝ)) (lo hi : List ℝ) (rnd : List (List ℝ)) :
    Except String (List (List ℝ)) :=
  if lo.length = hi.length then
    (toArr (traces sim lo hi rnd)).bind fun a => (getSegmentsG hull eps a (delta lo hi)).map interleave
  else .error "AssertionError"

/-- `reachtube_segment[k]`, dryvr_disc.py:113-115. -/
noncomputable def segmentDiscG (a : Arr ℝ) (df : Nat → Nat → ℝ) (k : Nat) : List ℝ × List ℝ :=
  ((List.range a.dims).map (fun c => a.at_ 0 k c - df k c), (List.range a.dims).map (fun c => a.at_ 0 k c + df k c))

/-- `get_reachtube_segment(traces, radii, "PWGlobal")`, dryvr_disc.py:36-122. The lines 64-107 are those of dryvr.py (77-143 there). -/
noncomputable def getSegmentsDiscG (hull : List (ℝ × ℝ) → Except String (List Nat)) (eps : ℝ) (a : Arr ℝ) (r : List ℝ) : Except String (List (List ℝ × List ℝ)) :=
  if (∀ i < a.n, ∀ k < a.len, a.at_ 0 k 0 = a.at_ i k 0) ∧ r.length + 1 = a.dims ∧ 2 ≤ a.n ∧ 2 ≤ a.len then
    (dfGlobal hull isTiny eps a r).bind fun df =>
      open Classical in
      if ∀ k < a.len, ∀ c < a.dims, 0 ≤ df k c then .ok ((List.range a.len).map (segmentDiscG a df)) else .error "AssertionError"
  else .error "AssertionError"

/-- `calc_bloated_tube_dryvr` with the method `GLOBAL`, dryvr_disc.py:203-268. -/
noncomputable def bloatedTubeDiscG (hull : List (ℝ × ℝ) → Except String (List Nat)) (eps : ℝ) (sim : List ℝ → List (List ℝ)) (lo hi : List ℝ)
    (rnd : List (List ℝ)) : Except String (List (List ℝ)) :=
  if lo.length = hi.length then
    (toArr (traces sim lo hi rnd)).bind fun a => (getSegmentsDiscG hull eps a (delta lo hi)).map interleave
  else .error "AssertionError"

end Verif.Dry
