import Verif.Proofs.Lane3dB

/-!
C74: coordinates on lanes in space. C75: the course of circular lanes in space.
-/

set_option autoImplicit false

namespace Verif.Props

open Verif.Lane3d Verif.Spec.Lane3d

/-! ### C74 -/

/-- On a straight lane, the longitudinal coordinate of every point is the place of the nearest point of the axis, the lateral coordinate is the distance to it, and
`position` leads back to the point up to rounding. What is missing: the error of the way back is bounded by `κ`, which says how much the rounding of the sine is
amplified; no bound holds for all lanes (`C74_straight_violated`). -/
theorem C74_straight_partial {rnd : Nat → ℝ → ℝ} (hr : Rounding rnd) {a b : V3} (hab : a ≠ b) (p : V3) {κ : ℝ} (hκ0 : 0 ≤ κ)
    (hκ : a.y = b.y ∨ |(b.x - a.x) * (b.z - a.z)| ≤ κ * (|b.y - a.y| * Verif.Spec.Lane3d.dist a b)) :
    ∃ l r θ, (Straight.new a b).coords rnd p = some (l, r, θ) ∧ 0 ≤ θ ∧ θ < 2 * Real.pi ∧
      Verif.Spec.Lane3d.dist p (along a b l) = r ∧ (∀ t, r ≤ Verif.Spec.Lane3d.dist p (along a b t)) ∧
      Verif.Spec.Lane3d.dist ((Straight.new a b).position l r θ) p ≤ max (1 / 1000) (r * (2 + κ) / 100000) :=
  straight_coords hr hab p hκ0 hκ

/-- The hypotheses hold for a lane that climbs, and for every horizontal lane with `κ = 0`. -/
example (p : V3) : ∃ l r θ, (Straight.new ⟨0, 0, 0⟩ ⟨10, 20, 20⟩).coords (fun d x => (round (x * 10 ^ d) : ℝ) * (1 / 10) ^ d) p = some (l, r, θ) ∧
    Verif.Spec.Lane3d.dist ((Straight.new ⟨0, 0, 0⟩ ⟨10, 20, 20⟩).position l r θ) p ≤ max (1 / 1000) (r * (2 + 1 / 2) / 100000) := by
  have h30 : Verif.Spec.Lane3d.dist ⟨0, 0, 0⟩ ⟨10, 20, 20⟩ = 30 := by
    unfold Verif.Spec.Lane3d.dist
    rw [show ((0 - 10) ^ 2 + (0 - 20) ^ 2 + (0 - 20) ^ 2 : ℝ) = 30 ^ 2 by norm_num]
    exact Real.sqrt_sq (by norm_num)
  obtain ⟨l, r, θ, h, _, _, _, _, h'⟩ := C74_straight_partial rounding_round (a := ⟨0, 0, 0⟩) (b := ⟨10, 20, 20⟩) (by simp) p (κ := 1 / 2) (by norm_num)
    (Or.inr (by rw [h30]; norm_num [abs_of_pos]))
  exact ⟨l, r, θ, h, h'⟩

/-- The place that `position` computes has the given coordinates. -/
theorem C74_back {rnd : Nat → ℝ → ℝ} (hr : Rounding rnd) {a b : V3} (hab : a ≠ b) (l θ : ℝ) {r : ℝ} (h0 : 0 ≤ r) :
    Verif.Spec.Lane3d.dist ((Straight.new a b).position l r θ) (along a b l) = r ∧
    ∃ θ', (Straight.new a b).coords rnd ((Straight.new a b).position l r θ) = some (l, r, θ') := by
  refine ⟨?_, straight_back hr hab l θ h0⟩
  rw [along_eq]
  exact (coor_dist (Straight.unit hab) true h0 θ _).1

example : ∃ θ', (Straight.new ⟨0, 0, 0⟩ ⟨10, 20, 20⟩).coords (fun d x => (round (x * 10 ^ d) : ℝ) * (1 / 10) ^ d)
    ((Straight.new ⟨0, 0, 0⟩ ⟨10, 20, 20⟩).position 7 3 1) = some (7, 3, θ') :=
  (C74_back rounding_round (by simp) 7 1 (by norm_num)).2

/-- **Violation.** A lane of length 100 in almost the direction (3/5, 0, 4/5): a point at distance 10 from the axis has coordinates that `position` turns into a point
on the other side of the axis, more than 19 away. -/
theorem C74_straight_violated {rnd : Nat → ℝ → ℝ} (hr : Rounding rnd) : ∃ a b p : V3, Verif.Spec.Lane3d.dist a b = 100 ∧ 0 < b.y - a.y ∧ b.y - a.y < 1 / 1000 ∧
    (Straight.new a b).coords rnd p = some (50, 10, 0) ∧ 19 ≤ Verif.Spec.Lane3d.dist ((Straight.new a b).position 50 10 0) p := by
  -- the direction
  obtain ⟨n, hnd⟩ : ∃ n : V3, n = ⟨(10 ^ 12 - 1) / (10 ^ 12 + 1) * (3 / 5), 2 * 10 ^ 6 / (10 ^ 12 + 1) * (3 / 5), 4 / 5⟩ := ⟨_, rfl⟩
  have hz : n.z = 4 / 5 := by rw [hnd]
  have hhor : horiz n = 3 / 5 := by
    unfold horiz
    rw [hnd, show (((10 ^ 12 - 1) / (10 ^ 12 + 1) * (3 / 5)) ^ 2 + (2 * 10 ^ 6 / (10 ^ 12 + 1) * (3 / 5)) ^ 2 : ℝ) = (3 / 5) ^ 2 by norm_num]
    exact Real.sqrt_sq (by norm_num)
  have hu : IsUnit3 n := by
    rw [hnd]
    unfold IsUnit3 inner
    norm_num
  have hF : Framed n (2 * 10 ^ 6 / (10 ^ 12 + 1)) ((10 ^ 12 - 1) / (10 ^ 12 + 1)) (3 / 5) := by
    refine ⟨by rw [hnd], by rw [hnd], by norm_num, by rw [hz]; norm_num, by norm_num, hhor, fun h => absurd h (by norm_num), norm_of_sq (by norm_num) (by rw [one_pow]; exact hu), ?_, ?_⟩
    · simp only [frame, hhor]
      rw [if_pos (by norm_num), hnd]
      norm_num
    · simp only [frame, hhor]
      rw [if_pos (by norm_num), hnd]
      norm_num [V3.neg]
  have hl : Verif.Spec.Lane3d.dist ⟨0, 0, 0⟩ (n.smul 100) = 100 := by
    unfold IsUnit3 inner at hu
    unfold Verif.Spec.Lane3d.dist
    simp only [V3.smul]
    rw [show (0 - 100 * n.x) ^ 2 + (0 - 100 * n.y) ^ 2 + (0 - 100 * n.z) ^ 2 = (100 : ℝ) ^ 2 by linear_combination (100 ^ 2) * hu]
    exact Real.sqrt_sq (by norm_num)
  have hl' : ((n.smul 100).sub ⟨0, 0, 0⟩).norm = 100 := by
    refine norm_of_sq (by norm_num) ?_
    unfold IsUnit3 inner at hu
    simp only [inner, V3.smul, V3.sub]
    linear_combination (100 ^ 2) * hu
  have hS : Straight.new ⟨0, 0, 0⟩ (n.smul 100) = ⟨⟨0, 0, 0⟩, n, 100⟩ := by
    unfold Straight.new
    simp only [hl']
    congr 1
    ext <;> simp [V3.div, V3.sub, V3.smul]
  -- the point
  obtain ⟨C, hC⟩ : ∃ C : ℝ, C = -((10 ^ 12 - 4) / (10 ^ 12 + 4)) := ⟨_, rfl⟩
  obtain ⟨S, hSd⟩ : ∃ S : ℝ, S = 4 * 10 ^ 6 / (10 ^ 12 + 4) := ⟨_, rfl⟩
  have hCS : C ^ 2 + S ^ 2 = 1 := by rw [hC, hSd]; norm_num
  obtain ⟨pp, hp⟩ : ∃ p : ℝ, p = 2 * 10 ^ 6 / (10 ^ 12 + 1) := ⟨_, rfl⟩
  obtain ⟨q, hq⟩ : ∃ q : ℝ, q = (10 ^ 12 - 1) / (10 ^ 12 + 1) := ⟨_, rfl⟩
  rw [← hp, ← hq] at hF
  have hp0 : pp ≠ 0 := by rw [hp]; norm_num
  have hamp : 1 / 2 ≤ C + S * (q * n.z / pp) := by rw [hC, hSd, hq, hp, hz]; norm_num
  have hSb : |S| < 1 / 200000 := by rw [hSd, abs_of_pos (by positivity)]; norm_num
  obtain ⟨o, ho⟩ : ∃ o : V3, o = (⟨0, 0, 0⟩ : V3).add (n.smul 50) := ⟨_, rfl⟩
  obtain ⟨pt, hpt⟩ : ∃ pt : V3, pt = ⟨o.x + 10 * (C * pp + S * (q * n.z)), o.y + 10 * (C * (-q) + S * (pp * n.z)), o.z + 10 * (S * (-(3 / 5)))⟩ := ⟨_, rfl⟩
  have e1 := hF.pq
  have e2 := hF.lz
  have horth : inner (vec o pt) n = 0 := by
    simp only [hpt, inner, vec]
    rw [hF.x, hF.y]
    linear_combination (10 * S * n.z * (3 / 5)) * e1
  have hlg : (pt.sub ⟨0, 0, 0⟩).dot n = 50 := by
    unfold IsUnit3 inner at hu
    simp only [ho, inner, vec, V3.add, V3.smul] at horth
    simp only [V3.dot, V3.sub]
    linear_combination horth + 50 * hu
  have hdist : Verif.Spec.Lane3d.dist pt o = 10 := by
    unfold Verif.Spec.Lane3d.dist
    rw [show (pt.x - o.x) ^ 2 + (pt.y - o.y) ^ 2 + (pt.z - o.z) ^ 2 = (10 : ℝ) ^ 2 by
      rw [hpt]
      linear_combination (10 ^ 2 : ℝ) * (C ^ 2 * e1 + S ^ 2 * n.z ^ 2 * e1 + S ^ 2 * e2 + hCS)]
    exact Real.sqrt_sq (by norm_num)
  have hrg : (n.cross (pt.sub ⟨0, 0, 0⟩)).norm = 10 := by
    rw [← dist_foot hu, hlg, ← ho, hdist]
  have hth := theta_tiny hr hF (by norm_num) hp0 hSb hamp (pt := pt) (o := o) (by rw [hpt]) (by rw [hpt]) (by rw [hpt])
  refine ⟨⟨0, 0, 0⟩, n.smul 100, pt, hl, ?_, ?_, ?_, ?_⟩
  · simp only [V3.smul, hnd]; norm_num
  · simp only [V3.smul, hnd]; norm_num
  · rw [Straight.coords_eq, hS]
    simp only [hlg, hrg]
    rw [← ho, hth]
    rfl
  · rw [hS]
    unfold Straight.position
    simp only
    rw [← ho, dist_coor hF true (by norm_num) 0 C S o (pt := pt) (by rw [hpt]; simp [sgn]) (by rw [hpt]; simp [sgn]) (by rw [hpt]; simp [sgn])]
    have : (19 / 10 : ℝ) ≤ Real.sqrt ((Real.cos 0 - C) ^ 2 + (Real.sin 0 - S) ^ 2) := by
      refine Real.le_sqrt_of_sq_le ?_
      rw [Real.cos_zero, Real.sin_zero, hC, hSd]
      norm_num
    linarith

/-- On a circular lane, the coordinates of every point that is not on the axis of the circle: the longitudinal coordinate is the place of the nearest point of the
circle (inside the range of the lane if that point is on the lane), the lateral coordinate is the distance to it; `position` leads to a point at that distance from it,
which is the given point for lanes with `right_rotate=True`. What is missing: rounding is ignored, and the last part fails for `right_rotate=False`
(`C74_left_violated`). -/
theorem C74_circular_partial {center : V3} {R : ℝ} (hR : 0 < R) {v : V3} (hv : v ≠ ⟨0, 0, 0⟩) {s e : ℝ} {right : Bool} (hs0 : 0 ≤ s) (hs1 : s ≤ 2 * Real.pi)
    (he0 : 0 ≤ e) (he1 : e ≤ 2 * Real.pi) (hse : if right then s - e < 2 * Real.pi else e - s < 2 * Real.pi) {p : V3} (hp : ¬ OnAxis center (unit v) p) :
    ∃ c, Circular.new center R v s e right = some c ∧ ∃ l r θ, c.coords (fun _ x => x) p = some (l, r, θ) ∧ 0 ≤ θ ∧ θ < 2 * Real.pi ∧
      OnCircle center (unit v) R (c.position l 0 0) ∧ Verif.Spec.Lane3d.dist p (c.position l 0 0) = r ∧
      (∀ q, OnCircle center (unit v) R q → r ≤ Verif.Spec.Lane3d.dist p q) ∧
      (∀ l', 0 ≤ l' → l' ≤ c.length → c.position l' 0 0 = c.position l 0 0 → 0 ≤ l ∧ l ≤ c.length) ∧
      Verif.Spec.Lane3d.dist (c.position l r θ) (c.position l 0 0) = r ∧ (right = true → c.position l r θ = p) := by
  refine circular_coords hR hv hs0 hs1 he0 he1 ?_ hp
  cases right
  · simp [sgn] at hse ⊢; linarith
  · simp [sgn] at hse ⊢; linarith

/-- A tilted circle and a point off its axis. -/
example : ∃ c, Circular.new ⟨0, -20, 0⟩ 20 ⟨0, 0, 1⟩ 0 (3 * Real.pi / 2) true = some c ∧ ∃ l r θ, c.coords (fun _ x => x) ⟨3, 4, 5⟩ = some (l, r, θ) ∧
    c.position l r θ = ⟨3, 4, 5⟩ := by
  have hpi := Real.pi_pos
  obtain ⟨c, h, l, r, θ, h1, _, _, _, _, _, _, _, h2⟩ := C74_circular_partial (center := ⟨0, -20, 0⟩) (R := 20) (by norm_num) (v := ⟨0, 0, 1⟩) (by simp)
    (s := 0) (e := 3 * Real.pi / 2) (right := true) (le_refl 0) (by linarith) (by positivity) (by linarith) (by simp; linarith) (p := ⟨3, 4, 5⟩) (by
      rintro ⟨t, ht⟩
      injection ht with hx _ _
      simp [unit] at hx)
  exact ⟨c, h, l, r, θ, h1, h2 rfl⟩

/-- **Violation.** On a lane with `right_rotate=False`, a point above the lane gets coordinates that `position` turns into a point below it. -/
theorem C74_left_violated {rnd : Nat → ℝ → ℝ} (hr : Rounding rnd) : ∃ c, Circular.new ⟨0, 0, 0⟩ 10 ⟨0, 0, 1⟩ (Real.pi / 2) 0 false = some c ∧
    ∃ l r θ, c.coords rnd ⟨10, 0, 1⟩ = some (l, r, θ) ∧ l = c.length ∧ c.position l 0 0 = ⟨10, 0, 0⟩ ∧ c.position l r θ = ⟨10, 0, -1⟩ := by
  have hpi := Real.pi_pos
  have r0 : rnd 5 0 = 0 := by have := round_fix hr 5 0; simpa using this
  have r1 : rnd 5 1 = 1 := by have := round_fix hr 5 100000; norm_num at this; exact this
  have r31 : rnd 3 1 = 1 := by have := round_fix hr 3 1000; norm_num at this; exact this
  have r310 : rnd 3 10 = 10 := by have := round_fix hr 3 10000; norm_num at this; exact this
  have s100 : Real.sqrt 100 = 10 := by rw [show (100 : ℝ) = 10 ^ 2 by norm_num]; exact Real.sqrt_sq (by norm_num)
  obtain ⟨c, A, hc, hs, he, h⟩ := circ_new (center := ⟨0, 0, 0⟩) (R := 10) (by norm_num) (v := ⟨0, 0, 1⟩) (by simp) (s := Real.pi / 2) (e := 0) (right := false)
    (by simp [sgn]; linarith) (by simp [sgn]; linarith)
  rw [unit_self (by simp [IsUnit3, inner])] at h
  have hadj : adjust (Real.pi / 2) 0 false = (Real.pi / 2, 0) := by
    unfold adjust
    have c1 : ¬ Real.pi / 2 ≤ 0 := by linarith
    have c2 : ¬ 2 * Real.pi < max (Real.pi / 2) 0 := by rw [max_eq_left (by linarith)]; linarith
    simp only [Bool.false_eq_true, false_and, if_false, true_and, c1, c2]
  rw [hadj] at hs he
  have hout : c.outer c.length = ⟨10, 0, 0⟩ := by
    rw [h.fin_eq (by norm_num)]
    simp [coorByRt, V3.add, V3.smul, frame, horiz]
  have hcoords : c.coords rnd ⟨10, 0, 1⟩ = some (c.length, 1, Real.pi / 2) := by
    have hl : c.longOf 0 = c.length := by
      unfold Circular.longOf
      simp only [hs, he]
      rw [if_neg (by simp), if_neg (by simp)]
      field_simp
    unfold Circular.coords
    rw [h.c_n, h.c_center, h.c_radius, h.c_right]
    have : rtpByCoor rnd ⟨10, 0, 1⟩ ⟨0, 0, 1⟩ ⟨0, 0, 0⟩ 10 false = some (1, Real.pi / 2, 0) := by
      unfold rtpByCoor
      simp only [V3.cross, V3.sub, V3.div, V3.norm, V3.smul, V3.add]
      norm_num [s100]
      simp only [thetaByCoor, cosSin, frame, horiz, angleOf, V3.sub, V3.div, V3.neg]
      norm_num [r0, r1, r31, r310]
    rw [this, Option.map_some]
    simp only [hl]
  refine ⟨c, hc, c.length, 1, Real.pi / 2, hcoords, rfl, ?_, ?_⟩
  · rw [Circ.position_zero, hout]
  · unfold Circular.position
    simp only [hout, h.c_n, h.c_center]
    simp only [V3.cross, V3.sub, V3.div, V3.norm]
    norm_num [s100]
    simp [coorByRt, V3.add, V3.smul, frame, horiz, V3.norm]

/-! ### C75 -/

/-- A circular lane runs counterclockwise around its normal vector at unit speed, whatever `right_rotate` is, on the circle around its centre, from the start phase;
its length is the radius times an angle of at most one turn that agrees with the difference of the phases. -/
theorem C75_travel {center : V3} {R : ℝ} (hR : 0 < R) {v : V3} (hv : v ≠ ⟨0, 0, 0⟩) {s e : ℝ} {right : Bool} (hs0 : 0 ≤ s) (hs1 : s ≤ 2 * Real.pi)
    (he0 : 0 ≤ e) (he1 : e ≤ 2 * Real.pi) (hse : if right then s - e < 2 * Real.pi else e - s < 2 * Real.pi) :
    ∃ c, Circular.new center R v s e right = some c ∧ (∀ l, OnCircle center (unit v) R (c.position l 0 0)) ∧
      (∀ l x, Turned center (unit v) (x / R) (c.position l 0 0) (c.position (l + x) 0 0)) ∧
      (∃ A : ℝ, c.length = R * A ∧ 0 < A ∧ A ≤ 2 * Real.pi ∧ ∃ k : ℤ, A = (if right then e - s else s - e) + 2 * Real.pi * k) := by
  obtain ⟨c, A, hc, _, _, h⟩ := circ_new (center := center) hR hv (s := s) (e := e) (right := right)
    (by cases right <;> simp [sgn] at hse ⊢ <;> linarith) (by cases right <;> simp [sgn] <;> linarith)
  refine ⟨c, hc, fun l => ?_, fun l x => ?_, A, h.c_length, h.A0, h.A1, ?_⟩
  · rw [Circ.position_zero]; exact h.on (unit_unit hv) hR l
  · rw [Circ.position_zero, Circ.position_zero]; exact h.turned (unit_unit hv) hR l x
  · obtain ⟨k, hk⟩ := h.A2
    refine ⟨k, ?_⟩
    rw [hk]
    cases right <;> simp [sgn]

/-- The lane of `SimpleMap3`: a whole turn around (1, 1, 1). -/
example : ∃ c, Circular.new ⟨0, 0, 0⟩ 6 ⟨1, 1, 1⟩ 0 (2 * Real.pi) true = some c ∧ c.length = 6 * (2 * Real.pi) := by
  have hpi := Real.pi_pos
  obtain ⟨c, h, _, _, A, h1, h2, h3, k, hk⟩ := C75_travel (center := ⟨0, 0, 0⟩) (R := 6) (by norm_num) (v := ⟨1, 1, 1⟩) (by simp) (s := 0) (e := 2 * Real.pi)
    (right := true) (le_refl 0) (by linarith) (by linarith) (le_refl _) (by simp; linarith)
  refine ⟨c, h, ?_⟩
  rw [h1]
  congr 1
  simp only [if_true, sub_zero] at hk
  have k1 : (-1 : ℝ) < k := by
    by_contra hc
    have := mul_le_mul_of_nonneg_left (not_lt.1 hc) (show 0 ≤ 2 * Real.pi by linarith)
    linarith
  have k2 : (k : ℝ) < 1 := by
    by_contra hc
    have := mul_le_mul_of_nonneg_left (not_lt.1 hc) (show 0 ≤ 2 * Real.pi by linarith)
    linarith
  have k3 : -1 < k := by exact_mod_cast k1
  have k4 : k < 1 := by exact_mod_cast k2
  have : k = 0 := by omega
  subst this
  rw [hk]; simp

/-- **Violation** at the end of the range that `C75_travel` leaves out: a whole turn given by the phases 2π and 0 has length 0. -/
theorem C75_turn_violated (center : V3) {R : ℝ} {v : V3} (hv : v ≠ ⟨0, 0, 0⟩) :
    ∃ c, Circular.new center R v (2 * Real.pi) 0 true = some c ∧ c.length = 0 := by
  have hpi := Real.pi_pos
  have hu := unit_unit hv
  rw [unit_eq] at hu
  unfold Circular.new
  simp only
  rw [if_neg]
  · refine ⟨_, rfl, ?_⟩
    have : adjust (2 * Real.pi) 0 true = (2 * Real.pi, 2 * Real.pi) := by
      unfold adjust
      simp [hpi.le]
    simp [this]
  · rintro ⟨g1, g2⟩
    unfold horiz at g1
    rw [Real.sqrt_eq_zero (by positivity)] at g1
    unfold IsUnit3 inner at hu
    rw [g2] at hu
    nlinarith

/-- A lane between two points that turns around a unit vector orthogonal to their difference starts at the first and ends at the second, on a circle, counterclockwise.
It turns through the given angle for `right_rotate=False` and angles below π, and for `right_rotate=True` and 3π/2. What is missing: rounding is ignored; for the other
angles the lane turns through a different angle (the last conjunct); π is excluded. -/
theorem C75_ends_partial {n a b : V3} (hn : IsUnit3 n) (hab : a ≠ b) (ho : inner (vec a b) n = 0) {φ : ℝ} (h0 : 0 < φ) (h1 : φ < 2 * Real.pi) (h2 : φ ≠ Real.pi)
    (right : Bool) : ∃ c o R, Circular.fromEnds (fun _ x => x) a b n φ right = some c ∧ 0 < R ∧ OnCircle o n R a ∧ OnCircle o n R b ∧
      c.position 0 0 0 = a ∧ c.position c.length 0 0 = b ∧ (∀ l x, Turned o n (x / R) (c.position l 0 0) (c.position (l + x) 0 0)) ∧
      ((right = false ∧ φ < Real.pi) ∨ (right = true ∧ φ = 3 * Real.pi / 2) → c.length = R * φ) ∧
      c.length = R * (if right then (if φ < Real.pi then 2 * Real.pi - φ else 3 * Real.pi - φ) else if φ < Real.pi then φ else φ - Real.pi) := by
  obtain ⟨c, o, R, g1, g2, g3, g4, g5, g6, g7, g8⟩ := fromEnds_spec hn hab ho h0 h1 h2 right
  refine ⟨c, o, R, g1, g2, g3, g4, g5, g6, g7, ?_, g8⟩
  rintro (⟨hr, hp⟩ | ⟨hr, hp⟩)
  · rw [g8, hr]; simp [hp]
  · rw [g8, hr, hp]
    have hpi := Real.pi_pos
    rw [if_pos rfl, if_neg (by linarith)]
    congr 1
    ring

/-- **Violation.** With `right_rotate=True`, a quarter turn from (10, 0, 0) to (0, 10, 0) is a lane of three quarters of a turn. -/
theorem C75_quarter_violated : ∃ c o R, Circular.fromEnds (fun _ x => x) ⟨10, 0, 0⟩ ⟨0, 10, 0⟩ ⟨0, 0, 1⟩ (Real.pi / 2) true = some c ∧ 0 < R ∧
    OnCircle o ⟨0, 0, 1⟩ R ⟨10, 0, 0⟩ ∧ c.length = R * (3 * (Real.pi / 2)) := by
  have hpi := Real.pi_pos
  obtain ⟨c, o, R, g1, g2, g3, _, _, _, _, _, g8⟩ := C75_ends_partial (n := ⟨0, 0, 1⟩) (a := ⟨10, 0, 0⟩) (b := ⟨0, 10, 0⟩) (by simp [IsUnit3, inner])
    (by simp) (by simp [inner, vec]) (φ := Real.pi / 2) (by linarith) (by linarith) (by linarith) true
  refine ⟨c, o, R, g1, g2, g3, ?_⟩
  rw [g8, if_pos rfl, if_pos (by linarith)]
  congr 1
  ring

/-- **Violation.** Half a turn from (-2, 0, 0) to (2, 0, 0) is a lane from (-1, 0, 0) to (1, 0, 0). -/
theorem C75_half_violated {rnd : Nat → ℝ → ℝ} (hr : Rounding rnd) (right : Bool) :
    ∃ c, Circular.fromEnds rnd ⟨-2, 0, 0⟩ ⟨2, 0, 0⟩ ⟨0, 0, 1⟩ Real.pi right = some c ∧ c.position 0 0 0 = ⟨-1, 0, 0⟩ ∧ c.position c.length 0 0 = ⟨1, 0, 0⟩ := by
  have hpi := Real.pi_pos
  have r0 : rnd 5 0 = 0 := by have := round_fix hr 5 0; simpa using this
  have r2 : rnd 5 2 = 2 := by have := round_fix hr 5 200000; norm_num at this; exact this
  have rm2 : rnd 5 (-2) = -2 := by have := round_fix hr 5 (-200000); norm_num at this; exact this
  have r31 : rnd 3 1 = 1 := by have := round_fix hr 3 1000; norm_num at this; exact this
  have hcr : centerRadius ⟨-2, 0, 0⟩ ⟨2, 0, 0⟩ ⟨0, 0, 1⟩ Real.pi right = some (⟨0, 0, 0⟩, 1) := by
    unfold centerRadius
    rw [if_pos ⟨hpi, by linarith, by norm_num⟩]
    simp only [if_true]
    have : (V3.sub ⟨2, 0, 0⟩ ⟨-2, 0, 0⟩).norm = 4 := by
      refine norm_of_sq (by norm_num) ?_
      simp [inner, V3.sub]; norm_num
    rw [this]
    norm_num [V3.add, V3.div]
  have hsp : thetaByCoor rnd ⟨-2, 0, 0⟩ ⟨0, 0, 1⟩ ⟨0, 0, 0⟩ 1 right = some Real.pi := by
    simp only [thetaByCoor, cosSin, horiz, angleOf, V3.sub, V3.div]
    cases right <;> norm_num [r0, r31, rm2]
  have hep : thetaByCoor rnd ⟨2, 0, 0⟩ ⟨0, 0, 1⟩ ⟨0, 0, 0⟩ 1 right = some 0 := by
    simp only [thetaByCoor, cosSin, horiz, angleOf, V3.sub, V3.div]
    cases right <;> norm_num [r0, r31, r2]
  obtain ⟨c, A, hc, _, _, h⟩ := circ_new (center := ⟨0, 0, 0⟩) (R := 1) (by norm_num) (v := ⟨0, 0, 1⟩) (by simp) (s := Real.pi) (e := 0) (right := right)
    (by cases right <;> simp [sgn] <;> linarith) (by cases right <;> simp [sgn] <;> linarith)
  rw [unit_self (by simp [IsUnit3, inner])] at h
  refine ⟨c, ?_, ?_, ?_⟩
  · unfold Circular.fromEnds
    rw [hcr, Option.bind_some, hsp, Option.bind_some, hep, Option.bind_some, hc]
  · rw [Circ.position_zero, h.start_eq (by norm_num)]
    cases right <;> simp [coorByRt, V3.add, V3.smul, V3.neg, frame, horiz]
  · rw [Circ.position_zero, h.fin_eq (by norm_num)]
    cases right <;> simp [coorByRt, V3.add, V3.smul, V3.neg, frame, horiz]

/-- **Violation.** With a normal vector of length 2, a quarter turn (`right_rotate=False`) does not start at its start. -/
theorem C75_norm_violated {rnd : Nat → ℝ → ℝ} (hr : Rounding rnd) :
    ∃ c, Circular.fromEnds rnd ⟨3 / 5, 0, -(4 / 5)⟩ ⟨-(4 / 5), 0, -(3 / 5)⟩ ⟨0, 2, 0⟩ (Real.pi / 2) false = some c ∧ c.position 0 0 0 ≠ ⟨3 / 5, 0, -(4 / 5)⟩ := by
  have hpi := Real.pi_pos
  have r1 : rnd 5 (3 / 5) = 3 / 5 := by have := round_fix hr 5 60000; norm_num at this; exact this
  have r2 : rnd 5 (-(2 / 5)) = -(2 / 5) := by have := round_fix hr 5 (-40000); norm_num at this; exact this
  have r3 : rnd 5 (-(4 / 5)) = -(4 / 5) := by have := round_fix hr 5 (-80000); norm_num at this; exact this
  have r4 : rnd 5 (-(3 / 10)) = -(3 / 10) := by have := round_fix hr 5 (-30000); norm_num at this; exact this
  have r31 : rnd 3 1 = 1 := by have := round_fix hr 3 1000; norm_num at this; exact this
  have hr2 : (0 : ℝ) < Real.sqrt 2 := by positivity
  have hr22 : Real.sqrt 2 ^ 2 = 2 := Real.sq_sqrt (by norm_num)
  have hcr : centerRadius ⟨3 / 5, 0, -(4 / 5)⟩ ⟨-(4 / 5), 0, -(3 / 5)⟩ ⟨0, 2, 0⟩ (Real.pi / 2) false = some (⟨0, 0, 0⟩, 1) := by
    unfold centerRadius
    rw [if_pos ⟨by linarith, by linarith, by norm_num⟩]
    have c1 : ¬ Real.pi / 2 = Real.pi := by linarith
    have c2 : ¬ Real.pi < Real.pi / 2 := by linarith
    simp only [c1, c2, if_false]
    have e1 : (V3.sub ⟨-(4 / 5), 0, -(3 / 5)⟩ ⟨3 / 5, 0, -(4 / 5)⟩).norm = Real.sqrt 2 := by
      refine norm_of_sq hr2.le ?_
      rw [hr22]
      simp [inner, V3.sub]; norm_num
    have e2 : (V3.cross ⟨0, 2, 0⟩ (V3.sub ⟨-(4 / 5), 0, -(3 / 5)⟩ ⟨3 / 5, 0, -(4 / 5)⟩)).norm = 2 * Real.sqrt 2 := by
      refine norm_of_sq (by positivity) ?_
      rw [mul_pow, hr22]
      simp [inner, V3.sub, V3.cross]; norm_num
    simp only [e1, e2, show Real.pi / 2 / 2 = Real.pi / 4 by ring, Real.tan_pi_div_four, Real.sin_pi_div_four, Bool.false_eq_true, if_false]
    simp only [V3.add, V3.div, V3.smul, V3.cross, V3.sub]
    congr 1
    refine Prod.ext ?_ ?_
    · ext
      · simp only; field_simp; norm_num
      · simp
      · simp only; field_simp; norm_num
    · simp only; field_simp
  have hsp : thetaByCoor rnd ⟨3 / 5, 0, -(4 / 5)⟩ ⟨0, 2, 0⟩ ⟨0, 0, 0⟩ 1 false = some (angleOf rnd (3 / 5) (-(2 / 5))) := by
    have s4 : Real.sqrt 4 = 2 := by rw [show (4 : ℝ) = 2 ^ 2 by norm_num]; exact Real.sqrt_sq (by norm_num)
    simp only [thetaByCoor, cosSin, horiz, V3.sub, V3.div, frame, V3.neg]
    norm_num [r1, r2, r31, s4]
  have hep : ∃ ep, thetaByCoor rnd ⟨-(4 / 5), 0, -(3 / 5)⟩ ⟨0, 2, 0⟩ ⟨0, 0, 0⟩ 1 false = some ep ∧ 0 ≤ ep ∧ ep < 2 * Real.pi := by
    refine ⟨angleOf rnd (-(4 / 5)) (-(3 / 10)), ?_, (angleOf_spec r3).2.2⟩
    have s4 : Real.sqrt 4 = 2 := by rw [show (4 : ℝ) = 2 ^ 2 by norm_num]; exact Real.sqrt_sq (by norm_num)
    simp only [thetaByCoor, cosSin, horiz, V3.sub, V3.div, frame, V3.neg]
    norm_num [r3, r4, r31, s4]
  obtain ⟨ep, hep, p0, p1⟩ := hep
  obtain ⟨a1, a2, a3, a4⟩ := angleOf_spec (rnd := rnd) (c := 3 / 5) (s := -(2 / 5)) r1
  generalize angleOf rnd (3 / 5) (-(2 / 5)) = sp at *
  obtain ⟨c, A, hc, _, _, h⟩ := circ_new (center := ⟨0, 0, 0⟩) (R := 1) (by norm_num) (v := ⟨0, 2, 0⟩) (by simp) (s := sp) (e := ep) (right := false)
    (by simp [sgn]; linarith) (by simp [sgn]; linarith)
  have hun : unit ⟨0, 2, 0⟩ = ⟨0, 1, 0⟩ := by
    have s4 : Real.sqrt 4 = 2 := by rw [show (4 : ℝ) = 2 ^ 2 by norm_num]; exact Real.sqrt_sq (by norm_num)
    simp only [unit, inner]
    norm_num [s4]
  rw [hun] at h
  refine ⟨c, ?_, ?_⟩
  · unfold Circular.fromEnds
    rw [hcr, Option.bind_some, hsp, Option.bind_some, hep, Option.bind_some, hc]
  · rw [Circ.position_zero, h.start_eq (by norm_num)]
    have : coorByRt 1 sp ⟨0, 1, 0⟩ ⟨0, 0, 0⟩ false = ⟨Real.cos sp, 0, Real.sin sp⟩ := by
      simp [coorByRt, V3.add, V3.smul, V3.neg, frame, horiz, V3.norm]
    rw [this]
    intro he
    injection he with h1 _ h3
    rw [h1] at a1
    rw [h3] at a2
    linarith

end Verif.Props
