import Verif.Model.LaneQueries
import Verif.Props.Lane

/-!
C94: where a position is relative to a lane.
-/

set_option autoImplicit false
set_option linter.unusedSectionVars false

namespace Verif.Props
open Verif.LaneQ Verif.Lane

/-- The distance, in lane coordinates, of the point with coordinates `s`, `r` to the point of the axis at `t`. -/
def axisDist (s r t : ℝ) : ℝ := |r| + |s - t|

theorem distance_least (v : View) (p : ℝ × ℝ) (s r : ℝ) (hc : v.coords p = (s, r)) (hL : 0 ≤ v.length) :
    (∀ t, 0 ≤ t → t ≤ v.length → distance v p ≤ axisDist s r t) ∧ ∃ t, 0 ≤ t ∧ t ≤ v.length ∧ distance v p = axisDist s r t := by
  unfold distance axisDist
  simp only [hc]
  constructor
  · intro t h0 h1
    have := le_abs_self (s - t)
    have := neg_abs_le (s - t)
    have h3 := abs_nonneg (s - t)
    rcases max_choice (s - v.length) 0 with e1 | e1 <;> rcases max_choice (0 - s) 0 with e2 | e2 <;> rw [e1, e2] <;> linarith
  · rcases le_total s 0 with h | h
    · refine ⟨0, le_refl _, hL, ?_⟩
      rw [max_eq_right (by linarith), max_eq_left (by linarith), abs_of_nonpos (by linarith : s - 0 ≤ 0)]
      ring
    · rcases le_total s v.length with h' | h'
      · refine ⟨s, h, h', ?_⟩
        rw [max_eq_right (by linarith), max_eq_right (by linarith)]
        simp
      · refine ⟨v.length, hL, le_refl _, ?_⟩
        rw [max_eq_left (by linarith), max_eq_right (by linarith), abs_of_nonneg (by linarith : 0 ≤ s - v.length)]
        ring

theorem distance_zero (v : View) (p : ℝ × ℝ) (s r : ℝ) (hc : v.coords p = (s, r)) : distance v p = 0 ↔ r = 0 ∧ 0 ≤ s ∧ s ≤ v.length := by
  unfold distance
  simp only [hc]
  have h1 := abs_nonneg r
  have h2 := le_max_right (s - v.length) 0
  have h3 := le_max_right (0 - s) 0
  constructor
  · intro h
    have a : |r| = 0 := by linarith
    have b : max (s - v.length) 0 = 0 := by linarith
    have c : max (0 - s) 0 = 0 := by linarith
    have b' := le_max_left (s - v.length) 0
    have c' := le_max_left (0 - s) 0
    exact ⟨abs_eq_zero.1 a, by linarith, by linarith⟩
  · rintro ⟨rfl, h4, h5⟩
    rw [max_eq_right (by linarith), max_eq_right (by linarith)]
    simp

/-- What the four questions mean for a position with the coordinates `s` (along the lane) and `r` (across). -/
structure Answers (v : View) (p : ℝ × ℝ) (s r width : ℝ) : Prop where
  /-- on the lane: at most half of the width and the margin from the axis, from a vehicle length before the beginning to less than a vehicle
  length behind the end; also if the coordinates, or one of them, are given -/
  onLane : ∀ margin a b, (a = none ∨ a = some s) → (b = none ∨ b = some r) →
    (onLane v p a b margin = true ↔ |r| ≤ width / 2 + margin ∧ -5 ≤ s ∧ s < v.length + 5)
  /-- reachable: the lane is not forbidden, at most two widths from the axis, not before the beginning -/
  reachable : isReachableFrom v p = true ↔ v.forbidden = false ∧ |r| ≤ 2 * width ∧ 0 ≤ s ∧ s < v.length + 5
  /-- after the end: less than half a vehicle length before the end, or behind it -/
  afterEnd : ∀ a, (a = none ∨ a = some s) → (afterEnd v p a = true ↔ v.length - 5 / 2 < s)
  /-- the distance is the least distance in lane coordinates to a point of the axis -/
  distance : (∀ t, 0 ≤ t → t ≤ v.length → distance v p ≤ axisDist s r t) ∧ ∃ t, 0 ≤ t ∧ t ≤ v.length ∧ distance v p = axisDist s r t
  /-- with a heading and a weight, the weighted angle to the direction of the lane is added -/
  heading : ∀ h weight, distanceWithHeading v p none weight = LaneQ.distance v p ∧
    distanceWithHeading v p (some h) weight = LaneQ.distance v p + weight * |wrapToPi (h - v.headingAt s)|

theorem answers (v : View) (p : ℝ × ℝ) (s r width : ℝ) (hc : v.coords p = (s, r)) (hL : 0 ≤ v.length) (hw : ∀ t, v.widthAt t = width) :
    Answers v p s r width where
  onLane := by
    intro margin a b ha hb
    rcases ha with rfl | rfl <;> rcases hb with rfl | rfl <;> simp [LaneQ.onLane, hc, hw, vehicleLength]
  reachable := by
    unfold isReachableFrom
    cases v.forbidden <;> simp [hc, hw, vehicleLength]
  afterEnd := by
    intro a ha
    rcases ha with rfl | rfl
    · simp [LaneQ.afterEnd, hc, vehicleLength]
    · simp [LaneQ.afterEnd, hc, vehicleLength]
  distance := distance_least v p s r hc hL
  heading := by
    intro h weight
    exact ⟨rfl, by simp only [distanceWithHeading, LaneQ.distance, hc]⟩

/-- **C94, straight lanes.** Every position is `position s r` for some `s` and `r`, and the answers are right for these. -/
theorem C94_straight (start fin : ℝ × ℝ) (hne : start ≠ fin) (width : ℝ) (forbidden : Bool) :
    (∀ s r, Answers (ofStraight start fin width forbidden) ((Straight.new start fin).position s r) s r width) ∧
    ∀ p, ∃ s r, p = (Straight.new start fin).position s r := by
  refine ⟨fun s r => answers _ _ _ _ _ ?_ (norm2_nonneg _) fun _ => rfl, fun p => ?_⟩
  · exact (C36_straight_round_trip start fin hne s r 0 (0, 0)).1
  · exact ⟨_, _, (C36_straight_round_trip start fin hne 0 0 0 p).2.1.symm⟩

/-- On straight lanes the distance is 0 exactly on the axis, and it is never less than the Euclidean distance to the axis. -/
theorem C94_straight_axis (start fin : ℝ × ℝ) (hne : start ≠ fin) (width : ℝ) (forbidden : Bool) (p : ℝ × ℝ) :
    (distance (ofStraight start fin width forbidden) p = 0 ↔
      ∃ t, 0 ≤ t ∧ t ≤ norm2 (fin.1 - start.1, fin.2 - start.2) ∧ p = (Straight.new start fin).position t 0) ∧
    ∃ t, 0 ≤ t ∧ t ≤ norm2 (fin.1 - start.1, fin.2 - start.2) ∧
      norm2 (p.1 - ((Straight.new start fin).position t 0).1, p.2 - ((Straight.new start fin).position t 0).2) ≤
        distance (ofStraight start fin width forbidden) p := by
  obtain ⟨s, r, rfl⟩ := (C94_straight start fin hne width forbidden).2 p
  have hA := (C94_straight start fin hne width forbidden).1 s r
  have hc : (ofStraight start fin width forbidden).coords ((Straight.new start fin).position s r) = (s, r) :=
    (C36_straight_round_trip start fin hne s r 0 (0, 0)).1
  constructor
  · rw [distance_zero _ _ s r hc]
    constructor
    · rintro ⟨rfl, h1, h2⟩
      exact ⟨s, h1, h2, rfl⟩
    · rintro ⟨t, h1, h2, h3⟩
      have e := (C36_straight_round_trip start fin hne t 0 0 (0, 0)).1
      rw [← h3] at e
      have hc' : (s, r) = (t, 0) := by rw [← hc]; exact e
      injection hc' with e1 e2
      subst e1
      exact ⟨e2, h1, h2⟩
  · obtain ⟨t, h0, h1, h2⟩ := hA.distance.2
    refine ⟨t, h0, h1, ?_⟩
    rw [h2]
    -- the coordinates of the difference
    have hu : (Straight.new start fin).dir.1 * (Straight.new start fin).dir.1 + (Straight.new start fin).dir.2 * (Straight.new start fin).dir.2 = 1 := by
      have e := (C36_straight_round_trip start fin hne 1 0 0 (0, 0)).1
      have e := congrArg Prod.fst e
      simp only [Straight.coords, Straight.position, Straight.latDir] at e
      linarith
    unfold norm2 axisDist
    rw [Real.sqrt_le_left (by positivity)]
    have : ((Straight.new start fin).position s r).1 - ((Straight.new start fin).position t 0).1 = (s - t) * (Straight.new start fin).dir.1 - r * (Straight.new start fin).dir.2 := by
      simp only [Straight.position, Straight.latDir]; ring
    rw [this]
    have : ((Straight.new start fin).position s r).2 - ((Straight.new start fin).position t 0).2 = (s - t) * (Straight.new start fin).dir.2 + r * (Straight.new start fin).dir.1 := by
      simp only [Straight.position, Straight.latDir]; ring
    rw [this]
    have e : ((s - t) * (Straight.new start fin).dir.1 - r * (Straight.new start fin).dir.2) * ((s - t) * (Straight.new start fin).dir.1 - r * (Straight.new start fin).dir.2) +
        ((s - t) * (Straight.new start fin).dir.2 + r * (Straight.new start fin).dir.1) * ((s - t) * (Straight.new start fin).dir.2 + r * (Straight.new start fin).dir.1) =
        (s - t) ^ 2 + r ^ 2 := by linear_combination ((s - t) ^ 2 + r ^ 2) * hu
    simp only [e]
    have a1 := abs_nonneg r
    have a2 := abs_nonneg (s - t)
    rw [← sq_abs (s - t), ← sq_abs r]
    nlinarith

/-- The lane from (0, 0) to (4, 3). -/
example : ((0 : ℝ), (0 : ℝ)) ≠ (4, 3) := by norm_num

/-- **C94, circular lanes**: the answers are right for positions up to half a turn from the beginning of the lane. -/
theorem C94_circular_partial (l : Circular) (width : ℝ) (forbidden : Bool) (s r : ℝ) (hr : 0 < l.radius) (hL : 0 ≤ l.length) (hb : r * l.direction < l.radius)
    (h1 : -Real.pi ≤ l.direction * s / l.radius) (h2 : l.direction * s / l.radius < Real.pi) :
    Answers (ofCircular l width forbidden) (l.position s r) s r width :=
  answers _ _ _ _ _ (C36_circular_round_trip_partial l s r hr hb h1 h2) hL fun _ => rfl

/-- A position on a quarter of a circle. -/
example : 0 ≤ (⟨(0, 0), 2, 0, Real.pi / 2, false, 0⟩ : Circular).length ∧ (1 : ℝ) * (⟨(0, 0), 2, 0, Real.pi / 2, false, 0⟩ : Circular).direction < 2 ∧
    -Real.pi ≤ (⟨(0, 0), 2, 0, Real.pi / 2, false, 0⟩ : Circular).direction * 1 / 2 ∧ (⟨(0, 0), 2, 0, Real.pi / 2, false, 0⟩ : Circular).direction * 1 / 2 < Real.pi := by
  have := Real.two_le_pi
  simp only [Circular.direction, Circular.length]
  norm_num
  exact ⟨by linarith, by linarith, by linarith⟩

/-- **Violated for long arcs.** The lane goes three quarters around a circle of radius 10. The point after half a turn is on its axis, but its
distance from the lane is 10 π, it is not on the lane and the lane is not reachable from it. -/
theorem C94_arc_violated (width : ℝ) : ∃ l : Circular, ∃ p : ℝ × ℝ, (∃ t, 0 ≤ t ∧ t ≤ l.length ∧ p = l.position t 0) ∧
    distance (ofCircular l width false) p = 10 * Real.pi ∧ onLane (ofCircular l width false) p none none 0 = false ∧
    isReachableFrom (ofCircular l width false) p = false := by
  have hpi := Real.pi_pos
  have h2 := Real.two_le_pi
  have e3 : arctan2 0 (-10) = Real.pi :=
    arctan2_of Real.pi 10 _ _ (by norm_num) (by simp) (by simp) (by linarith) (le_refl _)
  have w3 : wrapToPi Real.pi = -Real.pi := wrapToPi_unique _ _ (-1) (by push_cast; ring) (le_refl _) (by linarith)
  have hn : norm2 (-10, 0) = 10 := by
    unfold norm2
    rw [show ((-10 : ℝ), (0 : ℝ)).1 * ((-10 : ℝ), (0 : ℝ)).1 + ((-10 : ℝ), (0 : ℝ)).2 * ((-10 : ℝ), (0 : ℝ)).2 = 10 * 10 by norm_num]
    exact Real.sqrt_mul_self (by norm_num)
  refine ⟨⟨(0, 0), 10, 0, 3 * Real.pi / 2, false, 0⟩, (-10, 0), ⟨10 * Real.pi, by positivity, ?_, ?_⟩, ?_⟩
  · simp only [Circular.length, Circular.direction]; norm_num; linarith
  · simp only [Circular.position, Circular.direction]
    norm_num
  · have hc : (ofCircular ⟨(0, 0), 10, 0, 3 * Real.pi / 2, false, 0⟩ width false).coords (-10, 0) = (-(10 * Real.pi), 0) := by
      simp only [ofCircular, Circular.coords, Circular.direction, sub_zero, e3, w3, hn]
      norm_num
      ring
    have hL : (ofCircular ⟨(0, 0), 10, 0, 3 * Real.pi / 2, false, 0⟩ width false).length = 15 * Real.pi := by
      simp only [ofCircular, Circular.length, Circular.direction]; norm_num; ring
    refine ⟨?_, ?_, ?_⟩
    · unfold distance
      simp only [hc, hL]
      rw [max_eq_right (by linarith), max_eq_left (by linarith)]
      simp
    · simp only [onLane, hc, decide_eq_false_iff_not, vehicleLength]
      rintro ⟨_, h, _⟩
      linarith
    · simp only [isReachableFrom, ofCircular, Bool.false_eq_true, if_false] at hc ⊢
      simp only [hc, decide_eq_false_iff_not]
      rintro ⟨_, h, _⟩
      linarith

/-- **A given coordinate 0 counts as not given**: `after_end` with longitudinal coordinate 0 looks at the position instead, with any
other coordinate it does not. -/
theorem C94_zero_violated (v : View) (p : ℝ × ℝ) (h : v.length - 5 / 2 < (v.coords p).1) (hL : 5 < v.length) :
    afterEnd v p (some 0) = true ∧ afterEnd v p (some 1) = false := by
  constructor
  · simp only [afterEnd, if_true, vehicleLength, decide_eq_true_eq]; exact h
  · simp only [afterEnd, one_ne_zero, if_false, vehicleLength, decide_eq_false_iff_not]; linarith

/-- The end of a lane of length 10. -/
example : (ofStraight (0, 0) (10, 0) 4 false).length - 5 / 2 < ((ofStraight (0, 0) (10, 0) 4 false).coords (10, 0)).1 ∧
    5 < (ofStraight (0, 0) (10, 0) 4 false).length := by
  have hn : norm2 (10, 0) = 10 := by
    unfold norm2
    rw [show ((10 : ℝ), (0 : ℝ)).1 * ((10 : ℝ), (0 : ℝ)).1 + ((10 : ℝ), (0 : ℝ)).2 * ((10 : ℝ), (0 : ℝ)).2 = 10 * 10 by norm_num]
    exact Real.sqrt_mul_self (by norm_num)
  simp only [ofStraight, Straight.new, Straight.coords, sub_zero, hn]
  norm_num

/-- The angle to the direction of the lane that is used lies between 0 and π, and is 0 exactly if the heading is that of the lane, up to full turns. -/
theorem C94_heading (v : View) (s h : ℝ) : |wrapToPi (h - v.headingAt s)| ≤ Real.pi ∧
    (|wrapToPi (h - v.headingAt s)| = 0 ↔ ∃ k : ℤ, h = v.headingAt s + 2 * Real.pi * k) := by
  obtain ⟨h1, h2⟩ := wrapToPi_range (h - v.headingAt s)
  refine ⟨abs_le.2 ⟨h1, le_of_lt h2⟩, ?_⟩
  rw [abs_eq_zero]
  constructor
  · intro h0
    obtain ⟨k, hk⟩ := wrapToPi_congr (h - v.headingAt s)
    exact ⟨-k, by push_cast; linarith⟩
  · rintro ⟨k, hk⟩
    exact wrapToPi_unique _ _ (-k) (by rw [hk]; push_cast; ring) (by linarith [Real.pi_pos]) Real.pi_pos

end Verif.Props
