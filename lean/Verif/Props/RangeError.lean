import Verif.Spec.RangeSensor
import Verif.Proofs.RangeError

/-!
C95: errors of positions from distances and angles.
-/

set_option autoImplicit false

namespace Verif.Props
open Verif.RangeErr Verif.Spec Verif.Ang Real

theorem coordinate_sphere (axis : Axis) (r theta psi : ℝ) : coordinate axis (sphere r theta psi) = r * proj axis psi theta := by
  cases axis <;> simp [coordinate, sphere, proj, mul_assoc]

/-- **C95, angles.** The distance and the angles that are used of a position are its distance from the origin, azimuth and elevation. -/
theorem C95_angles (p : ℝ × ℝ × ℝ) : sphere (rhoOf p) (thetaOf p) (psiOf p) = p ∧ 0 ≤ rhoOf p ∧ (-π < thetaOf p ∧ thetaOf p ≤ π) ∧
    -(π / 2) ≤ psiOf p ∧ psiOf p ≤ π / 2 := by
  obtain ⟨h1, h2, h3⟩ := coords_true p
  refine ⟨?_, Real.sqrt_nonneg _, ⟨Complex.neg_pi_lt_arg _, Complex.arg_le_pi _⟩, ?_⟩
  · refine Prod.ext ?_ (Prod.ext ?_ ?_)
    · simpa [sphere, proj, mul_assoc] using h1
    · simpa [sphere, proj, mul_assoc] using h2
    · simpa [sphere, proj, mul_assoc] using h3
  · have := (Complex.abs_arg_le_pi_div_two_iff (z := (⟨Real.sqrt (p.1 ^ 2 + p.2.1 ^ 2), p.2.2⟩ : ℂ))).2 (Real.sqrt_nonneg _)
    exact abs_le.1 this

/-- **C95, one position.** Whatever a sensor with these errors sees instead of the position `p`, the error in the coordinate is at most the
first and at least the second number that is returned. Missing: errors of the angles of half a turn or more (see `C95_wide_violated`). -/
theorem C95_point_partial (p : ℝ × ℝ × ℝ) (epsR eps : ℝ) (h0 : 0 ≤ eps) (h1 : eps < π) (axis : Axis) (q : ℝ × ℝ × ℝ)
    (hq : MaySee epsR eps (rhoOf p) (thetaOf p) (psiOf p) q) :
    (pointError p epsR eps axis).2 ≤ coordinate axis q - coordinate axis p ∧ coordinate axis q - coordinate axis p ≤ (pointError p epsR eps axis).1 := by
  obtain ⟨r, t, s, hr, ht, hs, rfl⟩ := hq
  have hp : coordinate axis p = rhoOf p * proj axis (psiOf p) (thetaOf p) := by
    rw [← coordinate_sphere, (C95_angles p).1]
  rw [hp, coordinate_sphere]
  obtain ⟨⟨q2, m2, l2⟩, q1, m1, l1⟩ := projections_bracket (thetaOf p) (psiOf p) eps h0 h1 axis t s ht hs
  unfold pointError
  dsimp only
  constructor
  · apply sub_le_sub_right
    rcases sensed_ge (rhoOf p) epsR r _ q1 q2 (Real.sqrt_nonneg _) hr l1 l2 with h | h
    · exact (minList_le _ _ (List.mem_map.2 ⟨q1, m1, rfl⟩)).trans h
    · exact (minList_le _ _ (List.mem_map.2 ⟨q2, m2, rfl⟩)).trans h
  · apply sub_le_sub_right
    rcases sensed_le (rhoOf p) epsR r _ q1 q2 (Real.sqrt_nonneg _) hr l1 l2 with h | h
    · exact h.trans (le_maxList _ _ (List.mem_map.2 ⟨q1, m1, rfl⟩))
    · exact h.trans (le_maxList _ _ (List.mem_map.2 ⟨q2, m2, rfl⟩))

/-- **C95, tight.** Both numbers are errors that can happen. -/
theorem C95_point_tight (p : ℝ × ℝ × ℝ) (epsR eps : ℝ) (hr : 0 ≤ epsR) (h0 : 0 ≤ eps) (h1 : eps < π) (axis : Axis) :
    (∃ q, MaySee epsR eps (rhoOf p) (thetaOf p) (psiOf p) q ∧ coordinate axis q - coordinate axis p = (pointError p epsR eps axis).1) ∧
    ∃ q, MaySee epsR eps (rhoOf p) (thetaOf p) (psiOf p) q ∧ coordinate axis q - coordinate axis p = (pointError p epsR eps axis).2 := by
  have hp : coordinate axis p = rhoOf p * proj axis (psiOf p) (thetaOf p) := by
    rw [← coordinate_sphere, (C95_angles p).1]
  have key : ∀ (f : ℝ → ℝ) (m : ℝ), m ∈ (projections (thetaOf p) (psiOf p) eps axis).map f → (∀ c, ∃ r, |r - rhoOf p| ≤ epsR ∧ f c = r * c) →
      ∃ q, MaySee epsR eps (rhoOf p) (thetaOf p) (psiOf p) q ∧ coordinate axis q = m := by
    intro f m hm hf
    obtain ⟨c, hc, rfl⟩ := List.mem_map.1 hm
    obtain ⟨t, s, ht, hs, rfl⟩ := projections_attained _ _ eps h0 h1 axis c hc
    obtain ⟨r, hr, e⟩ := hf (proj axis s t)
    exact ⟨_, ⟨r, t, s, hr, ht, hs, rfl⟩, by rw [coordinate_sphere, e]⟩
  have hne : ∀ f : ℝ → ℝ, (projections (thetaOf p) (psiOf p) eps axis).map f ≠ [] := by
    intro f h; exact projections_ne_nil _ _ _ _ (List.map_eq_nil_iff.1 h)
  have plus : |rhoOf p + epsR - rhoOf p| ≤ epsR := by rw [add_sub_cancel_left, abs_of_nonneg hr]
  have minus : |rhoOf p - epsR - rhoOf p| ≤ epsR := by
    rw [show rhoOf p - epsR - rhoOf p = -epsR by ring, abs_neg, abs_of_nonneg hr]
  constructor
  · obtain ⟨q, h1, h2⟩ := key _ _ (maxList_mem _ (hne fun q => if 0 ≤ q then (rhoOf p + epsR) * q else (rhoOf p - epsR) * q)) (by
      intro c
      by_cases h : 0 ≤ c
      · exact ⟨_, plus, by simp [h]⟩
      · exact ⟨_, minus, by simp [h]⟩)
    exact ⟨q, h1, by rw [h2, hp]; rfl⟩
  · obtain ⟨q, h1, h2⟩ := key _ _ (minList_mem _ (hne fun q => if 0 ≤ q then (rhoOf p - epsR) * q else (rhoOf p + epsR) * q)) (by
      intro c
      by_cases h : 0 ≤ c
      · exact ⟨_, minus, by simp [h]⟩
      · exact ⟨_, plus, by simp [h]⟩)
    exact ⟨q, h1, by rw [h2, hp]; rfl⟩

/-- A sensor with an error of 1 in the distance and a tenth in the angles may see the position (3, 0, 0) at the distance 4. -/
example : MaySee 1 (1 / 10) (rhoOf (3, 0, 0)) (thetaOf (3, 0, 0)) (psiOf (3, 0, 0)) (4, 0, 0) := by
  have e : rhoOf (3, 0, 0) = 3 := by
    simp only [rhoOf]
    rw [show (3 : ℝ) ^ 2 + 0 ^ 2 + 0 ^ 2 = 3 * 3 by norm_num]
    exact Real.sqrt_mul_self (by norm_num)
  have t : thetaOf (3, 0, 0) = 0 := by
    simp only [thetaOf]; rw [Lane.arctan2_right _ _ (by norm_num)]; simp
  have s : psiOf (3, 0, 0) = 0 := by
    simp only [psiOf]; norm_num; rw [Lane.arctan2_right _ _ (by norm_num)]; simp
  rw [e, t, s]
  exact ⟨4, 0, 0, by norm_num, by norm_num, by norm_num, by simp [sphere]⟩

/-- **Violated for angles without bounds.** With an error of half a turn, the position (1, 0, 0) may be seen at (-1, 0, 0), but the least error in the
first coordinate is given as 0. -/
theorem C95_wide_violated : MaySee 0 π (rhoOf (1, 0, 0)) (thetaOf (1, 0, 0)) (psiOf (1, 0, 0)) (-1, 0, 0) ∧
    (pointError (1, 0, 0) 0 π .x).2 = 0 := by
  have hp := pi_pos
  have e : rhoOf (1, 0, 0) = 1 := by
    simp only [rhoOf]; norm_num
  have t : thetaOf (1, 0, 0) = 0 := by
    simp only [thetaOf]; rw [Lane.arctan2_right _ _ (by norm_num)]; simp
  have s : psiOf (1, 0, 0) = 0 := by
    simp only [psiOf]; norm_num; rw [Lane.arctan2_right _ _ (by norm_num)]; simp
  have w1 : wrapAngle π (0 - π) = π := wrapAngle_eq π _ _ hp ⟨⟨1, by push_cast; ring⟩, by linarith, le_refl _⟩
  have w2 : wrapAngle π (0 + π) = π := wrapAngle_eq π _ _ hp ⟨⟨0, by push_cast; ring⟩, by linarith, le_refl _⟩
  have w3 : wrapAngle π π = π := wrapAngle_eq π _ _ hp ⟨⟨0, by push_cast; ring⟩, by linarith, le_refl _⟩
  have w4 : wrapAngle π 0 = 0 := wrapAngle_eq π _ _ hp ⟨⟨0, by push_cast; ring⟩, by linarith, le_of_lt hp⟩
  have w5 : wrapAngle π (π / 2) = π / 2 := wrapAngle_eq π _ _ hp ⟨⟨0, by push_cast; ring⟩, by linarith, by linarith⟩
  have w6 : wrapAngle π (-π / 2) = -π / 2 := wrapAngle_eq π _ _ hp ⟨⟨0, by push_cast; ring⟩, by linarith, by linarith⟩
  have i0 : inWrapped π 0 π π = false := by
    simp only [inWrapped, w3, w4, le_refl, if_true, Bool.and_eq_false_iff, decide_eq_false_iff_not]; left; linarith
  have i1 : inWrapped π π π π = true := by
    simp only [inWrapped, w3, le_refl, if_true, decide_true, Bool.and_self]
  have i2 : inWrapped π (π / 2) π π = false := by
    simp only [inWrapped, w3, w5, le_refl, if_true, Bool.and_eq_false_iff, decide_eq_false_iff_not]; left; linarith
  have i3 : inWrapped π (-π / 2) π π = false := by
    simp only [inWrapped, w3, w6, le_refl, if_true, Bool.and_eq_false_iff, decide_eq_false_iff_not]; left; linarith
  rw [e, t, s]
  refine ⟨⟨1, π, 0, by norm_num, by rw [sub_zero, abs_of_pos hp], by simpa using le_of_lt hp, by simp [sphere]⟩, ?_⟩
  simp only [pointError, e, t, s, projections, psiCandidates, thetaCandidates, w1, w2, i0, i1, i2, i3, proj]
  norm_num [minList]

/-! ### Boxes -/

/-- The position is in the box. -/
def InBox3 (b : Box3) (p : ℝ × ℝ × ℝ) : Prop :=
  (b.1.1 ≤ p.1 ∧ p.1 ≤ b.1.2) ∧ (b.2.1.1 ≤ p.2.1 ∧ p.2.1 ≤ b.2.1.2) ∧ b.2.2.1 ≤ p.2.2 ∧ p.2.2 ≤ b.2.2.2

/-- **C95, boxes.** If what the optimizer finds is not above the values in the box, the errors at all positions of the box are within the bounds. -/
theorem C95_box_partial (opt : (ℝ × ℝ × ℝ → ℝ) → Box3 → ℝ) (b : Box3) (hopt : ∀ f p, InBox3 b p → opt f b ≤ f p)
    (epsR eps : ℝ) (h0 : 0 ≤ eps) (h1 : eps < π) (axis : Axis) (p : ℝ × ℝ × ℝ) (hp : InBox3 b p)
    (q : ℝ × ℝ × ℝ) (hq : MaySee epsR eps (rhoOf p) (thetaOf p) (psiOf p) q) :
    (boxError opt b epsR eps axis).2 ≤ coordinate axis q - coordinate axis p ∧ coordinate axis q - coordinate axis p ≤ (boxError opt b epsR eps axis).1 := by
  obtain ⟨h2, h3⟩ := C95_point_partial p epsR eps h0 h1 axis q hq
  have e1 := hopt (fun p => -(pointError p epsR eps axis).1) p hp
  have e2 := hopt (fun p => (pointError p epsR eps axis).2) p hp
  simp only [boxError]
  constructor <;> linarith

/-- **C95, boxes, tight.** If what the optimizer finds are values in the box, the bounds are errors that can happen. -/
theorem C95_box_tight (opt : (ℝ × ℝ × ℝ → ℝ) → Box3 → ℝ) (b : Box3) (hopt : ∀ f, ∃ p, InBox3 b p ∧ opt f b = f p)
    (epsR eps : ℝ) (hr : 0 ≤ epsR) (h0 : 0 ≤ eps) (h1 : eps < π) (axis : Axis) :
    (∃ p q, InBox3 b p ∧ MaySee epsR eps (rhoOf p) (thetaOf p) (psiOf p) q ∧ coordinate axis q - coordinate axis p = (boxError opt b epsR eps axis).1) ∧
    ∃ p q, InBox3 b p ∧ MaySee epsR eps (rhoOf p) (thetaOf p) (psiOf p) q ∧ coordinate axis q - coordinate axis p = (boxError opt b epsR eps axis).2 := by
  constructor
  · obtain ⟨p, hp, e⟩ := hopt fun p => -(pointError p epsR eps axis).1
    obtain ⟨⟨q, h2, h3⟩, _⟩ := C95_point_tight p epsR eps hr h0 h1 axis
    exact ⟨p, q, hp, h2, by simp only [boxError, e, neg_neg]; exact h3⟩
  · obtain ⟨p, hp, e⟩ := hopt fun p => (pointError p epsR eps axis).2
    obtain ⟨_, q, h2, h3⟩ := C95_point_tight p epsR eps hr h0 h1 axis
    exact ⟨p, q, hp, h2, by simp only [boxError, e]; exact h3⟩

/-- For a box that is a single position the hypotheses of both theorems hold, for an optimizer that looks at a corner. -/
example : (∀ (f : ℝ × ℝ × ℝ → ℝ) p, InBox3 ((1, 1), (2, 2), (3, 3)) p → (fun (f : ℝ × ℝ × ℝ → ℝ) (b : Box3) => f (b.1.1, b.2.1.1, b.2.2.1)) f ((1, 1), (2, 2), (3, 3)) ≤ f p) ∧
    InBox3 ((1, 1), (2, 2), (3, 3)) (1, 2, 3) := by
  constructor
  · rintro f ⟨x, y, z⟩ ⟨⟨a, b⟩, ⟨c, d⟩, e, g⟩
    dsimp only at *
    rw [le_antisymm a b, le_antisymm c d, le_antisymm e g]
  · simp [InBox3]

/-- **Violated: the optimizer may miss the worst position.** One that only looks at the lower corner finds values in the box; with an error of a quarter of a turn in
the angles the error in the second coordinate over the box from (0, 0, 0) to (1, 0, 0) is given as 0, but the position (1, 0, 0) may be seen at (0, 1, 0). -/
theorem C95_box_violated : ∃ opt : (ℝ × ℝ × ℝ → ℝ) → Box3 → ℝ, (∀ f, ∃ p, InBox3 ((0, 1), (0, 0), (0, 0)) p ∧ opt f ((0, 1), (0, 0), (0, 0)) = f p) ∧
    (boxError opt ((0, 1), (0, 0), (0, 0)) 0 (π / 2) .y).1 = 0 ∧
    InBox3 ((0, 1), (0, 0), (0, 0)) (1, 0, 0) ∧ MaySee 0 (π / 2) (rhoOf (1, 0, 0)) (thetaOf (1, 0, 0)) (psiOf (1, 0, 0)) (0, 1, 0) := by
  have hp := pi_pos
  refine ⟨fun f b => f (b.1.1, b.2.1.1, b.2.2.1), fun f => ⟨_, by simp [InBox3], rfl⟩, ?_, by simp [InBox3], ?_⟩
  · obtain ⟨q, ⟨r, t, s, hr, _, _, rfl⟩, h2⟩ := (C95_point_tight (0, 0, 0) 0 (π / 2) (le_refl _) (by linarith) (by linarith) .y).1
    have e : rhoOf (0, 0, 0) = 0 := by simp [rhoOf]
    rw [e, sub_zero] at hr
    have : r = 0 := abs_eq_zero.1 (le_antisymm hr (abs_nonneg _))
    simp only [boxError, neg_neg]
    rw [← h2, this]
    simp [coordinate, sphere]
  · have e : rhoOf (1, 0, 0) = 1 := by
      simp only [rhoOf]; norm_num
    have t : thetaOf (1, 0, 0) = 0 := by
      simp only [thetaOf]; rw [Lane.arctan2_right _ _ (by norm_num)]; simp
    have s : psiOf (1, 0, 0) = 0 := by
      simp only [psiOf]; norm_num; rw [Lane.arctan2_right _ _ (by norm_num)]; simp
    rw [e, t, s]
    exact ⟨1, π / 2, 0, by norm_num, by rw [sub_zero, abs_of_pos (by linarith)], by rw [sub_zero, abs_zero]; linarith, by simp [sphere]⟩

end Verif.Props
