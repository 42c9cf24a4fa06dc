import Verif.Props.Lane
import Verif.Props.Span
import Verif.Props.Map3d
import Mathlib.Analysis.SpecialFunctions.Trigonometric.Deriv

/-!
More on lanes and directions: the heading of a circular lane (C36), the segments of a lane in terms of coordinates (C37), the
directions of a rectangle with and without a split (C65), and the coordinates on a lane in space (C76).
-/

set_option autoImplicit false

namespace Verif.Props

open Verif.Spec Verif.Lane Verif.Ang

/-! ### C36 -/

/-- **C36**, the heading of circular lanes. Along a circular lane at lateral distance 0 the position moves with speed one in the
direction of `heading_at`, which lies in [-π, π); so a vehicle that keeps this heading goes along the lane. -/
theorem C36_circular_heading (l : Circular) (hr : l.radius ≠ 0) (s : ℝ) :
    HasDerivAt (fun t => (l.position t 0).1) (Real.cos (l.headingAt s)) s ∧
    HasDerivAt (fun t => (l.position t 0).2) (Real.sin (l.headingAt s)) s ∧
    -Real.pi ≤ l.headingAt s ∧ l.headingAt s < Real.pi := by
  have hphi : HasDerivAt (fun t => l.direction * t / l.radius + l.startPhase) (l.direction / l.radius) s := by
    have h := (((hasDerivAt_id s).const_mul l.direction).div_const l.radius).add_const l.startPhase
    simpa using h
  obtain ⟨φ, hφ⟩ : ∃ φ, φ = l.direction * s / l.radius + l.startPhase := ⟨_, rfl⟩
  obtain ⟨k, hk⟩ := wrapToPi_congr (φ + Real.pi / 2 * l.direction)
  have hh : l.headingAt s = φ + Real.pi / 2 * l.direction + k * (2 * Real.pi) := by
    show wrapToPi (l.direction * s / l.radius + l.startPhase + Real.pi / 2 * l.direction) = _
    rw [← hφ, hk]; ring
  have hd : l.direction = 1 ∨ l.direction = -1 := by unfold Circular.direction; split <;> simp
  have hcos : Real.cos (l.headingAt s) = -(Real.sin φ) * l.direction := by
    rw [hh, Real.cos_add_int_mul_two_pi]
    rcases hd with h | h <;> rw [h]
    · rw [mul_one, Real.cos_add_pi_div_two]; ring
    · rw [mul_neg_one, ← sub_eq_add_neg, Real.cos_sub_pi_div_two]; ring
  have hsin : Real.sin (l.headingAt s) = Real.cos φ * l.direction := by
    rw [hh, Real.sin_add_int_mul_two_pi]
    rcases hd with h | h <;> rw [h]
    · rw [mul_one, Real.sin_add_pi_div_two]; ring
    · rw [mul_neg_one, ← sub_eq_add_neg, Real.sin_sub_pi_div_two]; ring
  refine ⟨?_, ?_, wrapToPi_range _⟩
  · have h := ((hphi.cos).const_mul (l.radius - 0 * l.direction)).const_add l.center.1
    refine h.congr_deriv ?_
    rw [hcos, ← hφ]; field_simp; ring
  · have h := ((hphi.sin).const_mul (l.radius - 0 * l.direction)).const_add l.center.2
    refine h.congr_deriv ?_
    rw [hsin, ← hφ]; field_simp; ring

/-- A circular lane to which the theorem applies: it begins in the south and goes east. -/
example : (⟨(0, 0), 10, -(Real.pi / 2), 0, false, 0⟩ : Circular).headingAt 0 = 0 := by
  have hpi := Real.pi_pos
  refine wrapToPi_unique _ _ 0 ?_ (by linarith) hpi
  simp [Circular.direction]

/-! ### C37 -/

section
variable {K : Type} [Field K] [LinearOrder K] [IsStrictOrderedRing K]

/-- **C37**, in terms of coordinates. The segment that a lane uses for a point is one of its segments on which the longitudinal
coordinate of the point is at least -3 and less than the length; among these its lateral coordinate is least. It uses none exactly if
there is none of this kind. -/
theorem C37_coordinates {Seg : Type} (O : SegOps K Seg) (segs : List Seg) (p : K × K) :
    (getSegment O segs p = none ↔ ∀ s ∈ segs, (O.coords s p).1 < -3 ∨ O.length s ≤ (O.coords s p).1) ∧
    ∀ i s, getSegment O segs p = some (i, s) → segs[i]? = some s ∧ -3 ≤ (O.coords s p).1 ∧ (O.coords s p).1 < O.length s ∧
      ∀ s' ∈ segs, -3 ≤ (O.coords s' p).1 → (O.coords s' p).1 < O.length s' → (O.coords s p).2 ≤ (O.coords s' p).2 := by
  have hon : ∀ s, isOn O p s = true ↔ -3 ≤ (O.coords s p).1 ∧ (O.coords s p).1 < O.length s := by
    intro s; simp [isOn, COMPENSATE]
  obtain ⟨h1, h2⟩ := C37_nearest_segment_partial O segs p
  refine ⟨?_, ?_⟩
  · rw [h1]
    refine forall₂_congr fun s _ => ?_
    rw [← Bool.not_eq_true, hon, not_and_or, not_le, not_lt]
  · intro i s h
    obtain ⟨a, b, _, d, _⟩ := h2 i s h
    obtain ⟨b1, b2⟩ := (hon s).1 b
    exact ⟨a, b1, b2, fun s' hs' c1 c2 => d s' hs' ((hon s').2 ⟨c1, c2⟩)⟩

end

/-- A point two metres before the beginning of a lane is on its first segment. -/
example : getSegment straightOps [(⟨(0, 0), (1, 0), 10, 0⟩ : Straight ℚ), ⟨(10, 0), (1, 0), 10, 10⟩] (-2, 1) = some (0, ⟨(0, 0), (1, 0), 10, 0⟩) := by
  decide +kernel

/-! ### C65 -/

/-- **C65 (partial), the directions of a rectangle.** `angular_span_rect` with a split gives one or two intervals, and without a split
one, to be read around the circle if its ends are in the wrong order; each contains the direction of every vector of the rectangle other
than zero. Left out are the rectangles with the origin inside their upper edge, as for `C65_parser_partial`. -/
theorem C65_span_rect_partial (x1 x2 y1 y2 : ℝ) (hbox : ¬ (x1 < 0 ∧ 0 < x2 ∧ y1 < 0 ∧ y2 = 0)) (x y θ : ℝ)
    (hx1 : x1 ≤ x) (hx2 : x ≤ x2) (hy1 : y1 ≤ y) (hy2 : y ≤ y2) (h : IsDirection x y θ) :
    (∃ iv ∈ spanRect Real.pi Ang.arctan2 ⟨x1, x2, y1, y2⟩ true, iv.1 ≤ θ ∧ θ ≤ iv.2) ∧
    ∃ iv, spanRect Real.pi Ang.arctan2 ⟨x1, x2, y1, y2⟩ false = [iv] ∧
      (iv.1 ≤ iv.2 ∧ iv.1 ≤ θ ∧ θ ≤ iv.2 ∨ iv.2 < iv.1 ∧ (iv.1 ≤ θ ∨ θ ≤ iv.2)) := by
  have hθ : -Real.pi < θ ∧ θ ≤ Real.pi := by obtain ⟨_, _, _, _, h1, h2⟩ := h; exact ⟨h1, h2⟩
  have H := C65_parser_partial x1 x2 y1 y2 hbox x y θ hx1 hx2 hy1 hy2 h
  unfold spanRectParser at H
  unfold spanRect
  dsimp only at H ⊢
  generalize spanBetween Real.pi Ang.arctan2 ⟨0, 0, 0, 0⟩ ⟨x1, x2, y1, y2⟩ = t at H ⊢
  have key : t.1 ≤ t.2 ∧ t.1 ≤ θ ∧ θ ≤ t.2 ∨ t.2 < t.1 ∧ (t.1 ≤ θ ∨ θ ≤ t.2) := by
    split at H
    · next hle =>
      obtain ⟨iv, hiv, hb⟩ := H
      simp [ABound.parts, not_lt.2 hle] at hiv
      subst hiv
      exact .inl ⟨hle, hb.1, hb.2⟩
    · next hgt =>
      obtain ⟨iv, hiv, hb⟩ := H
      simp [ABound.parts] at hiv
      rcases hiv with rfl | rfl
      · exact .inr ⟨not_le.1 hgt, .inl hb.1⟩
      · exact .inr ⟨not_le.1 hgt, .inr hb.2⟩
  refine ⟨?_, (t.1, t.2), by simp, key⟩
  by_cases hlt : t.1 < t.2
  · rw [if_pos (.inr hlt)]
    rcases key with ⟨_, k1, k2⟩ | ⟨k, _⟩
    · exact ⟨_, by simp, k1, k2⟩
    · exact absurd k (not_lt.2 hlt.le)
  · rw [if_neg (by simp [hlt])]
    rcases key with ⟨_, k1, k2⟩ | ⟨_, k1 | k2⟩
    · exact ⟨(t.1, Real.pi), by simp, k1, hθ.2⟩
    · exact ⟨(t.1, Real.pi), by simp, k1, hθ.2⟩
    · exact ⟨(-Real.pi, t.2), by simp, hθ.1.le, k2⟩

/-- A rectangle east of the origin and a vector in it. -/
example : ∃ iv, spanRect Real.pi Ang.arctan2 ⟨1, 2, -1, 1⟩ false = [iv] ∧
    (iv.1 ≤ iv.2 ∧ iv.1 ≤ 0 ∧ 0 ≤ iv.2 ∨ iv.2 < iv.1 ∧ (iv.1 ≤ 0 ∨ 0 ≤ iv.2)) :=
  (C65_span_rect_partial 1 2 (-1) 1 (by norm_num) 1 0 0 (by norm_num) (by norm_num) (by norm_num) (by norm_num)
    ⟨1, by norm_num, by norm_num, by norm_num, by linarith [Real.pi_pos], Real.pi_pos.le⟩).2

/-! ### C76 -/

open Verif.Lane3d in
/-- **C76**, coordinates. The coordinates that a lane in space gives for a point are those on a segment on which the longitudinal
coordinate is at least -1 and less than its length, for a circular one the length of its arc, and no other such segment has a smaller
lateral distance; the lateral distance alone is the one of these coordinates. -/
theorem C76_coordinates {rnd : Nat → ℝ → ℝ} {segs : List Obj} {p : V3} {l r θ : ℝ} (h : lrTheta rnd segs p = some (l, r, θ)) :
    (∃ o ∈ segs, o.seg.coords rnd p = some (l, r, θ) ∧ -1 ≤ l ∧
      (match o.seg with | .straight s => l < s.length | .circular c => l < c.length) ∧
      ∀ o' ∈ segs, ∀ l' r' θ', o'.seg.coords rnd p = some (l', r', θ') → -1 ≤ l' →
        (match o'.seg with | .straight s => l' < s.length | .circular c => l' < c.length) → r ≤ r') ∧
    lateralDistance rnd segs p = some r := by
  have hlen : ∀ (s : Segment) (x : ℝ), x < s.length ↔ (match s with | .straight s => x < s.length | .circular c => x < c.length) := by
    intro s x; cases s <;> rfl
  unfold lrTheta at h
  cases hg : getLaneSegment rnd segs p with
  | none => simp [hg] at h
  | some f =>
    obtain ⟨found, possible⟩ := f
    cases found with
    | none => simp [hg] at h
    | some b =>
      obtain ⟨i, o, r0⟩ := b
      simp only [hg, Option.bind_some] at h
      obtain ⟨q1, _, q3⟩ := C76_segment hg
      obtain ⟨s1, s2, ⟨l0, θ0, s3⟩, s4⟩ := q3 i o r0 rfl
      rw [s3] at h
      simp only [Option.some.injEq, Prod.mk.injEq] at h
      obtain ⟨rfl, rfl, rfl⟩ := h
      obtain ⟨m1, l1, r1, θ1, m2, m3, m4⟩ := (q1 o).1 s2
      rw [s3] at m2
      simp only [Option.some.injEq, Prod.mk.injEq] at m2
      obtain ⟨rfl, rfl, rfl⟩ := m2
      refine ⟨⟨o, m1, s3, m3, (hlen _ _).1 m4, ?_⟩, ?_⟩
      · intro o' ho' l' r' θ' e1 e2 e3
        obtain ⟨j, hj⟩ := List.mem_iff_getElem?.1 ho'
        exact (s4 j o' l' r' θ' hj ((q1 o').2 ⟨ho', l', r', θ', e1, e2, (hlen _ _).2 e3⟩) e1).1
      · unfold lateralDistance
        simp [hg, s3]

open Verif.Lane3d in
/-- A point beside a lane of two segments. -/
example : ∃ l r θ, lrTheta (fun d x => (round (x * 10 ^ d) : ℝ) * (1 / 10) ^ d) (straightLane corner) ⟨12, 4, 3⟩ = some (l, r, θ) := by
  obtain ⟨⟨found, P⟩, hf⟩ := straight_total rounding_round corner_ne ⟨12, 4, 3⟩
  obtain ⟨_, h2, h3⟩ := straight_found rounding_round corner_ne hf
  cases found with
  | none => exact absurd ((corner_onto2 _ _).2 (by norm_num)) (h2.1 rfl (2, ⟨10, 0, 0⟩, ⟨10, 10, 0⟩) (by simp [corner]) 4)
  | some b =>
    obtain ⟨i, o, r⟩ := b
    obtain ⟨x, l, θ, _, _, e, _⟩ := h3 i o r rfl
    exact ⟨l, r, θ, by unfold lrTheta; rw [hf, Option.bind_some, Option.bind_some]; exact e⟩

end Verif.Props
