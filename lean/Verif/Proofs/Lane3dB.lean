import Verif.Proofs.Lane3d

/-!
Straight and circular lanes.
-/

set_option autoImplicit false

namespace Verif.Lane3d

open Verif.Spec.Lane3d

theorem rounding_again {rnd : Nat → ℝ → ℝ} (h : Rounding rnd) (d : Nat) (x : ℝ) : rnd d (rnd d x) = rnd d x := by
  obtain ⟨k, hk⟩ := h.grid d x
  obtain ⟨j, hj⟩ := h.grid d (rnd d x)
  have hn := h.near d (rnd d x)
  have hp : (0 : ℝ) < (1 / 10) ^ d := by positivity
  have e : rnd d (rnd d x) - rnd d x = ((j - k : ℤ) : ℝ) * (1 / 10) ^ d := by
    rw [hj, hk]; push_cast; ring
  rw [e, abs_mul, abs_of_pos hp] at hn
  have h1 : |((j - k : ℤ) : ℝ)| < 1 := by
    by_contra hc
    have := mul_le_mul_of_nonneg_right (not_lt.1 hc) hp.le
    linarith
  have h2 : j - k = 0 := by
    rw [← Int.cast_abs] at h1
    have : |j - k| < 1 := by exact_mod_cast h1
    exact Int.abs_lt_one_iff.1 this
  rw [hj, hk, show j = k by omega]

/-- `round` exists. -/
theorem rounding_round : Rounding (fun d x => (round (x * 10 ^ d) : ℝ) * (1 / 10) ^ d) where
  near d x := by
    have h := abs_sub_round (x * 10 ^ d)
    have hp : (0 : ℝ) < (1 / 10) ^ d := by positivity
    have e : (round (x * 10 ^ d) : ℝ) * (1 / 10) ^ d - x = -((x * 10 ^ d - round (x * 10 ^ d)) * (1 / 10) ^ d) := by
      have : (10 : ℝ) ^ d * (1 / 10) ^ d = 1 := by rw [← mul_pow]; norm_num
      linear_combination x * this
    rw [e, abs_neg, abs_mul, abs_of_pos hp]
    have := mul_le_mul_of_nonneg_right h hp.le
    linarith
  grid d x := ⟨_, rfl⟩

/-! ### Straight lanes -/

theorem dist_eq_norm (p q : V3) : Verif.Spec.Lane3d.dist p q = (p.sub q).norm := rfl

theorem dist_pos {p q : V3} (h : p ≠ q) : 0 < Verif.Spec.Lane3d.dist p q := by
  rcases lt_or_ge 0 (Verif.Spec.Lane3d.dist p q) with h' | h'
  · exact h'
  · exact absurd (eq_of_dist h') h

theorem unit_dir {v : V3} {k : ℝ} (hk : 0 < k) (h : v.norm = k) : IsUnit3 (v.div k) := by
  unfold V3.norm at h
  have h2 : v.x ^ 2 + v.y ^ 2 + v.z ^ 2 = k ^ 2 := by rw [← h, Real.sq_sqrt (by positivity)]
  unfold IsUnit3 inner V3.div
  field_simp
  exact h2

theorem Straight.unit {a b : V3} (h : a ≠ b) : IsUnit3 (Straight.new a b).dir := unit_dir (dist_pos (Ne.symm h)) rfl

theorem along_eq (a b : V3) (t : ℝ) : along a b t = (Straight.new a b).start.add ((Straight.new a b).dir.smul t) := by
  simp only [along, Straight.new, V3.add, V3.smul, V3.div, V3.sub, dist_eq_norm]

/-- The distance to a point of a line. -/
theorem dist_line {n : V3} (hn : IsUnit3 n) (s p : V3) (t : ℝ) :
    Verif.Spec.Lane3d.dist p (s.add (n.smul t)) ^ 2 = (n.cross (p.sub s)).norm ^ 2 + (t - (p.sub s).dot n) ^ 2 := by
  unfold Verif.Spec.Lane3d.dist V3.norm
  rw [Real.sq_sqrt (by positivity), Real.sq_sqrt (by positivity)]
  unfold IsUnit3 inner at hn
  simp only [V3.cross, V3.sub, V3.dot, V3.add, V3.smul]
  have ex : p.x - (s.x + t * n.x) = (p.x - s.x) - t * n.x := by ring
  have ey : p.y - (s.y + t * n.y) = (p.y - s.y) - t * n.y := by ring
  have ez : p.z - (s.z + t * n.z) = (p.z - s.z) - t * n.z := by ring
  rw [ex, ey, ez]
  generalize p.x - s.x = dx
  generalize p.y - s.y = dy
  generalize p.z - s.z = dz
  linear_combination (t ^ 2 - (dx ^ 2 + dy ^ 2 + dz ^ 2)) * hn

theorem norm_nonneg (v : V3) : 0 ≤ v.norm := Real.sqrt_nonneg _

theorem dist_nonneg (p q : V3) : 0 ≤ Verif.Spec.Lane3d.dist p q := Real.sqrt_nonneg _

theorem dist_foot {n : V3} (hn : IsUnit3 n) (s p : V3) :
    Verif.Spec.Lane3d.dist p (s.add (n.smul ((p.sub s).dot n))) = (n.cross (p.sub s)).norm := by
  have h := dist_line hn s p ((p.sub s).dot n)
  rw [sub_self, zero_pow two_ne_zero, add_zero] at h
  exact (pow_left_inj₀ (dist_nonneg _ _) (norm_nonneg _) two_ne_zero).1 h

theorem foot_le {n : V3} (hn : IsUnit3 n) (s p : V3) (t : ℝ) : (n.cross (p.sub s)).norm ≤ Verif.Spec.Lane3d.dist p (s.add (n.smul t)) := by
  have h := dist_line hn s p t
  exact (pow_le_pow_iff_left₀ (norm_nonneg _) (dist_nonneg _ _) two_ne_zero).1 (by rw [h]; nlinarith [sq_nonneg (t - (p.sub s).dot n)])

theorem foot_orth {n : V3} (hn : IsUnit3 n) (s p : V3) : inner (vec (s.add (n.smul ((p.sub s).dot n))) p) n = 0 := by
  unfold IsUnit3 inner at hn
  simp only [inner, vec, V3.add, V3.smul, V3.sub, V3.dot]
  linear_combination (-((p.x - s.x) * n.x + (p.y - s.y) * n.y + (p.z - s.z) * n.z)) * hn

theorem Straight.coords_eq (rnd : Nat → ℝ → ℝ) (s : Straight) (p : V3) : s.coords rnd p =
    (thetaByCoor rnd p s.dir (s.start.add (s.dir.smul ((p.sub s.start).dot s.dir))) (s.dir.cross (p.sub s.start)).norm true).map
      fun theta => ((p.sub s.start).dot s.dir, (s.dir.cross (p.sub s.start)).norm, theta) := by
  unfold Straight.coords thetaByCoor
  simp only
  split <;> rfl

theorem straight_coords {rnd : Nat → ℝ → ℝ} (hr : Rounding rnd) {a b : V3} (hab : a ≠ b) (p : V3) {κ : ℝ} (hκ0 : 0 ≤ κ)
    (hκ : a.y = b.y ∨ |(b.x - a.x) * (b.z - a.z)| ≤ κ * (|b.y - a.y| * Verif.Spec.Lane3d.dist a b)) :
    ∃ l r θ, (Straight.new a b).coords rnd p = some (l, r, θ) ∧ 0 ≤ θ ∧ θ < 2 * Real.pi ∧
      Verif.Spec.Lane3d.dist p (along a b l) = r ∧ (∀ t, r ≤ Verif.Spec.Lane3d.dist p (along a b t)) ∧
      Verif.Spec.Lane3d.dist ((Straight.new a b).position l r θ) p ≤ max (1 / 1000) (r * (2 + κ) / 100000) := by
  have hn := Straight.unit hab
  have hL : 0 < Verif.Spec.Lane3d.dist b a := dist_pos (Ne.symm hab)
  have hsym : Verif.Spec.Lane3d.dist a b = Verif.Spec.Lane3d.dist b a := by
    unfold Verif.Spec.Lane3d.dist
    congr 1
    ring
  have hκ' : (Straight.new a b).dir.y = 0 ∨ |(Straight.new a b).dir.x * (Straight.new a b).dir.z| ≤ κ * |(Straight.new a b).dir.y| := by
    rcases hκ with hκ | hκ
    · left
      simp [Straight.new, V3.div, V3.sub, hκ]
    · right
      rw [hsym] at hκ
      simp only [Straight.new, V3.div, V3.sub]
      have hd : (V3.norm ⟨b.x - a.x, b.y - a.y, b.z - a.z⟩) = Verif.Spec.Lane3d.dist b a := rfl
      rw [hd]
      generalize Verif.Spec.Lane3d.dist b a = L at *
      rw [show (b.x - a.x) / L * ((b.z - a.z) / L) = ((b.x - a.x) * (b.z - a.z)) / (L * L) by field_simp, abs_div, abs_div, abs_of_pos hL,
        abs_of_pos (mul_pos hL hL), div_le_iff₀ (mul_pos hL hL)]
      refine le_trans hκ (le_of_eq ?_)
      field_simp
  rw [Straight.coords_eq]
  have e3 : ∀ x, |rnd 5 x - x| ≤ 1 / 200000 := fun x => le_trans (hr.near 5 x) (by norm_num)
  obtain ⟨t, h1, h2, h3, h4, h5⟩ := theta_close e3 (rounding_again hr 5) hn true (foot_orth hn (Straight.new a b).start p) (dist_foot hn _ p) hκ0 hκ'
  rw [h1]
  refine ⟨_, _, _, rfl, h2, h3, ?_, fun t => ?_, ?_⟩
  · rw [along_eq]; exact dist_foot hn _ p
  · rw [along_eq]; exact foot_le hn _ p t
  · unfold Straight.position
    have hr0 := norm_nonneg ((Straight.new a b).dir.cross (p.sub (Straight.new a b).start))
    generalize ((Straight.new a b).dir.cross (p.sub (Straight.new a b).start)).norm = r at *
    by_cases h0 : rnd 3 r = 0
    · refine le_trans (h4 h0) (le_trans ?_ (le_max_left _ _))
      have := hr.near 3 r
      rw [h0, zero_sub, abs_neg, abs_of_nonneg hr0] at this
      norm_num at this ⊢
      linarith
    · refine le_trans (h5 h0) (le_trans (le_of_eq ?_) (le_max_right _ _))
      ring

theorem coor_dist {n : V3} (hn : IsUnit3 n) (right : Bool) {r : ℝ} (hr : 0 ≤ r) (t : ℝ) (o : V3) :
    Verif.Spec.Lane3d.dist (coorByRt r t n o right) o = r ∧ inner (vec o (coorByRt r t n o right)) n = 0 := by
  obtain ⟨p, q, l, h⟩ := framed hn
  have hs := sgn_sq right
  have e1 := h.pq
  have e2 := h.lz
  have e3 := Real.sin_sq_add_cos_sq t
  rw [h.coor]
  constructor
  · unfold Verif.Spec.Lane3d.dist
    simp only [add_sub_cancel_left]
    rw [show (r * (Real.cos t * p + Real.sin t * (sgn right * (q * n.z)))) ^ 2 + (r * (Real.cos t * -q + Real.sin t * (sgn right * (p * n.z)))) ^ 2 +
      (r * (Real.sin t * -(sgn right * l))) ^ 2 = r ^ 2 by
        generalize sgn right = g at *
        generalize Real.cos t = ct at *
        generalize Real.sin t = st at *
        linear_combination r ^ 2 * (ct ^ 2 * e1 + st ^ 2 * g * g * n.z ^ 2 * e1 + st ^ 2 * g * g * e2 + st ^ 2 * hs + e3)]
    exact Real.sqrt_sq hr
  · simp only [inner, vec]
    rw [h.x, h.y]
    linear_combination (r * Real.sin t * sgn right * n.z * l) * e1

theorem straight_back {rnd : Nat → ℝ → ℝ} (hr : Rounding rnd) {a b : V3} (hab : a ≠ b) (l θ : ℝ) {r : ℝ} (h0 : 0 ≤ r) :
    ∃ θ', (Straight.new a b).coords rnd ((Straight.new a b).position l r θ) = some (l, r, θ') := by
  have hn := Straight.unit hab
  obtain ⟨d1, d2⟩ := coor_dist hn true h0 θ ((Straight.new a b).start.add ((Straight.new a b).dir.smul l))
  unfold Straight.position
  generalize hS : Straight.new a b = S at *
  generalize hp : coorByRt r θ S.dir (S.start.add (S.dir.smul l)) true = p at *
  have hl : (p.sub S.start).dot S.dir = l := by
    simp only [inner, vec, V3.add, V3.smul] at d2
    unfold IsUnit3 inner at hn
    simp only [V3.dot, V3.sub]
    linear_combination d2 + l * hn
  have hrr : (S.dir.cross (p.sub S.start)).norm = r := by rw [← dist_foot hn, hl, d1]
  rw [Straight.coords_eq]
  obtain ⟨t, h1, _⟩ := theta_close (fun x => hr.near 5 x) (rounding_again hr 5) hn true (foot_orth hn S.start p) (dist_foot hn S.start p)
    (κ := if S.dir.y = 0 then 0 else |S.dir.x * S.dir.z| / |S.dir.y|) (by split <;> positivity) (by
      by_cases hy : S.dir.y = 0
      · exact Or.inl hy
      · right
        rw [if_neg hy, div_mul_cancel₀ _ (abs_ne_zero.2 hy)])
  rw [h1, hl, hrr]
  exact ⟨t, rfl⟩

/-! ### Circles -/

theorem coor_turned {n : V3} (hn : IsUnit3 n) (right : Bool) (r t x : ℝ) (o : V3) :
    Turned o n x (coorByRt r t n o right) (coorByRt r (t + sgn right * x) n o right) := by
  obtain ⟨p, q, l, h⟩ := framed hn
  have hs := sgn_sq right
  have e1 := h.pq
  have e2 := h.lz
  have hc : Real.cos (sgn right * x) = Real.cos x := by cases right <;> simp [sgn]
  have hsn : Real.sin (sgn right * x) = sgn right * Real.sin x := by cases right <;> simp [sgn]
  rw [h.coor, h.coor, Real.cos_add, Real.sin_add, hc, hsn]
  unfold Turned
  rw [h.x, h.y]
  simp only
  generalize sgn right = g at *
  generalize Real.cos t = ct at *
  generalize Real.sin t = st at *
  generalize Real.cos x = cx at *
  generalize Real.sin x = sx at *
  refine ⟨?_, ?_, ?_⟩
  · linear_combination (r * ct * sx * q * n.z) * hs + (r * sx * st * g * p) * e2
  · linear_combination (r * ct * sx * p * n.z) * hs - (r * sx * st * g * q) * e2
  · linear_combination (-(r * ct * sx * l)) * hs + (r * sx * ct * l) * e1

theorem coor_period {n : V3} (right : Bool) (r t : ℝ) (o : V3) (k : ℤ) : coorByRt r (t + 2 * Real.pi * k) n o right = coorByRt r t n o right := by
  unfold coorByRt
  rw [show t + 2 * Real.pi * k = t + k * (2 * Real.pi) by ring, Real.cos_add_int_mul_two_pi, Real.sin_add_int_mul_two_pi]

/-- Different angles give different points. -/
theorem coor_inj {n : V3} (hn : IsUnit3 n) (right : Bool) {r : ℝ} (hr : 0 < r) {t u : ℝ} {o : V3} (he : coorByRt r t n o right = coorByRt r u n o right) :
    ∃ k : ℤ, t = u + 2 * Real.pi * k := by
  obtain ⟨p, q, l, h⟩ := framed hn
  have hs := sgn_sq right
  have e1 := h.pq
  have e2 := h.lz
  rw [h.coor, h.coor] at he
  injection he with hx hy hz
  have hx' : Real.cos t * p + Real.sin t * (sgn right * (q * n.z)) = Real.cos u * p + Real.sin u * (sgn right * (q * n.z)) :=
    mul_left_cancel₀ hr.ne' (add_left_cancel hx)
  have hy' : Real.cos t * (-q) + Real.sin t * (sgn right * (p * n.z)) = Real.cos u * (-q) + Real.sin u * (sgn right * (p * n.z)) :=
    mul_left_cancel₀ hr.ne' (add_left_cancel hy)
  have hz' : Real.sin t * (-(sgn right * l)) = Real.sin u * (-(sgn right * l)) := mul_left_cancel₀ hr.ne' (add_left_cancel hz)
  have hc : Real.cos t = Real.cos u := by
    linear_combination p * hx' - q * hy' + (Real.cos u - Real.cos t) * e1
  have hsn : Real.sin t = Real.sin u := by
    generalize sgn right = g at *
    linear_combination (q * n.z * g) * hx' + (p * n.z * g) * hy' - l * g * hz' + (Real.sin u - Real.sin t) * (n.z ^ 2 * g * g * e1 + g * g * e2 + hs)
  have ha : ((t : ℝ) : Real.Angle) = (u : ℝ) := Real.Angle.cos_sin_inj hc hsn
  obtain ⟨k, hk⟩ := Real.Angle.angle_eq_iff_two_pi_dvd_sub.1 ha
  exact ⟨k, by linarith⟩

/-- The phases of a lane. -/
theorem adjust_spec {s e : ℝ} {right : Bool} (h1 : -(2 * Real.pi) < sgn right * (e - s)) (h2 : sgn right * (e - s) ≤ 2 * Real.pi) :
    ∃ A : ℝ, 0 < A ∧ A ≤ 2 * Real.pi ∧ (adjust s e right).2 - (adjust s e right).1 = sgn right * A ∧
      (∃ k : ℤ, A = sgn right * (e - s) + 2 * Real.pi * k) ∧ (∃ k : ℤ, (adjust s e right).1 = s + 2 * Real.pi * k) ∧
      (∃ k : ℤ, (adjust s e right).2 = e + 2 * Real.pi * k) := by
  have hpi := Real.pi_pos
  cases right
  · simp only [sgn, Bool.false_eq_true, if_false] at h1 h2 ⊢
    unfold adjust
    simp only [Bool.false_eq_true, false_and, if_false, true_and]
    by_cases hle : s ≤ e
    · simp only [hle, if_true]
      refine ⟨s + 2 * Real.pi - e, by linarith, by linarith, ?_, ⟨1, by push_cast; ring⟩, ?_⟩
      · split <;> simp <;> ring
      · split
        · exact ⟨⟨0, by simp⟩, ⟨-1, by push_cast; ring⟩⟩
        · exact ⟨⟨1, by simp⟩, ⟨0, by simp⟩⟩
    · simp only [hle, if_false]
      refine ⟨s - e, by linarith, by linarith, ?_, ⟨0, by push_cast; ring⟩, ?_⟩
      · split <;> simp
      · split
        · exact ⟨⟨-1, by push_cast; ring⟩, ⟨-1, by push_cast; ring⟩⟩
        · exact ⟨⟨0, by simp⟩, ⟨0, by simp⟩⟩
  · simp only [sgn, if_true, one_mul] at h1 h2 ⊢
    unfold adjust
    simp only [true_and, Bool.true_eq_false, false_and, if_false]
    by_cases hle : e ≤ s
    · simp only [hle, if_true]
      refine ⟨e + 2 * Real.pi - s, by linarith, by linarith, ?_, ⟨1, by push_cast; ring⟩, ?_⟩
      · split
        · simp only; ring
        · simp only
      · split
        · exact ⟨⟨-1, by push_cast; ring⟩, ⟨0, by simp⟩⟩
        · exact ⟨⟨0, by simp⟩, ⟨1, by simp⟩⟩
    · simp only [hle, if_false]
      refine ⟨e - s, by linarith, by linarith, ?_, ⟨0, by push_cast; ring⟩, ?_⟩
      · split <;> simp
      · split
        · exact ⟨⟨-1, by push_cast; ring⟩, ⟨-1, by push_cast; ring⟩⟩
        · exact ⟨⟨0, by simp⟩, ⟨0, by simp⟩⟩

/-- What the constructor of circular lanes establishes. -/
structure Circ (c : Circular) (center : V3) (R : ℝ) (n : V3) (s e : ℝ) (right : Bool) (A : ℝ) : Prop where
  c_center : c.center = center
  c_radius : c.radius = R
  c_n : c.n = n
  c_right : c.right = right
  A0 : 0 < A
  A1 : A ≤ 2 * Real.pi
  A2 : ∃ k : ℤ, A = sgn right * (e - s) + 2 * Real.pi * k
  c_length : c.length = R * A
  c_diff : c.endPhase - c.startPhase = sgn right * A
  c_start : ∃ k : ℤ, c.startPhase = s + 2 * Real.pi * k
  c_fin : ∃ k : ℤ, c.endPhase = e + 2 * Real.pi * k

theorem unit_eq (v : V3) : Verif.Spec.Lane3d.unit v = v.div v.norm := by
  have : Real.sqrt (inner v v) = v.norm := by unfold inner V3.norm; congr 1; ring
  simp only [Verif.Spec.Lane3d.unit, V3.div, this]

theorem norm_pos {v : V3} (h : v ≠ ⟨0, 0, 0⟩) : 0 < v.norm := by
  have := dist_pos h
  unfold Verif.Spec.Lane3d.dist at this
  simpa [V3.norm] using this

theorem unit_unit {v : V3} (h : v ≠ ⟨0, 0, 0⟩) : IsUnit3 (Verif.Spec.Lane3d.unit v) := by
  rw [unit_eq]; exact unit_dir (norm_pos h) rfl

theorem circ_new {center : V3} {R : ℝ} (hR : 0 < R) {v : V3} (hv : v ≠ ⟨0, 0, 0⟩) {s e : ℝ} {right : Bool} (h1 : -(2 * Real.pi) < sgn right * (e - s))
    (h2 : sgn right * (e - s) ≤ 2 * Real.pi) :
    ∃ c A, Circular.new center R v s e right = some c ∧ c.startPhase = (adjust s e right).1 ∧ c.endPhase = (adjust s e right).2 ∧
      Circ c center R (Verif.Spec.Lane3d.unit v) s e right A := by
  obtain ⟨A, a0, a1, a2, a3, a4, a5⟩ := adjust_spec h1 h2
  have hu := unit_unit hv
  rw [unit_eq] at hu
  unfold Circular.new
  simp only
  rw [if_neg, unit_eq]
  · refine ⟨_, A, rfl, rfl, rfl, rfl, rfl, rfl, rfl, a0, a1, a3, ?_, a2, a4, a5⟩
    simp only
    rw [a2, abs_mul, abs_of_pos hR, abs_mul, sgn_abs, one_mul, abs_of_pos a0]
  · rintro ⟨g1, g2⟩
    unfold horiz at g1
    rw [Real.sqrt_eq_zero (by positivity)] at g1
    unfold IsUnit3 inner at hu
    rw [g2] at hu
    nlinarith

section
variable {c : Circular} {center : V3} {R : ℝ} {n : V3} {s e : ℝ} {right : Bool} {A : ℝ}

theorem Circ.outer (h : Circ c center R n s e right A) (hR : 0 < R) (l : ℝ) :
    c.outer l = coorByRt R (c.startPhase + sgn right * (l / R)) n center right := by
  unfold Circular.outer
  rw [h.c_center, h.c_radius, h.c_n, h.c_right, h.c_diff, h.c_length]
  congr 1
  have := h.A0
  field_simp

theorem coor_zero (t : ℝ) (n o : V3) (right : Bool) : coorByRt 0 t n o right = o := by
  simp [coorByRt, V3.add, V3.smul]

theorem Circ.position_zero (c : Circular) (l t : ℝ) : c.position l 0 t = c.outer l := by
  simp only [Circular.position, coor_zero]

theorem Circ.on (h : Circ c center R n s e right A) (hn : IsUnit3 n) (hR : 0 < R) (l : ℝ) : OnCircle center n R (c.outer l) := by
  rw [h.outer hR]
  obtain ⟨h1, h2⟩ := coor_dist hn right hR.le (c.startPhase + sgn right * (l / R)) center
  exact ⟨h2, h1⟩

theorem Circ.turned (h : Circ c center R n s e right A) (hn : IsUnit3 n) (hR : 0 < R) (l x : ℝ) :
    Turned center n (x / R) (c.outer l) (c.outer (l + x)) := by
  rw [h.outer hR, h.outer hR]
  have := coor_turned hn right R (c.startPhase + sgn right * (l / R)) (x / R) center
  rw [show c.startPhase + sgn right * ((l + x) / R) = c.startPhase + sgn right * (l / R) + sgn right * (x / R) by ring]
  exact this

theorem Circ.start_eq (h : Circ c center R n s e right A) (hR : 0 < R) : c.outer 0 = coorByRt R s n center right := by
  rw [h.outer hR]
  obtain ⟨k, hk⟩ := h.c_start
  rw [hk, zero_div, mul_zero, add_zero, coor_period]

theorem Circ.fin_eq (h : Circ c center R n s e right A) (hR : 0 < R) : c.outer c.length = coorByRt R e n center right := by
  rw [h.outer hR]
  obtain ⟨k, hk⟩ := h.c_fin
  have hd := h.c_diff
  rw [h.c_length, mul_div_cancel_left₀ _ hR.ne', show c.startPhase + sgn right * A = c.endPhase by linarith, hk, coor_period]

end

/-- The longitudinal coordinate of a phase. -/
theorem longOf_spec {c : Circular} {center : V3} {R : ℝ} {n : V3} {s e : ℝ} {right : Bool} {A : ℝ} (h : Circ c center R n s e right A) (hR : 0 < R) (ph : ℝ) :
    c.outer (c.longOf ph) = coorByRt R ph n center right := by
  have hA := h.A0
  have hd := h.c_diff
  have hs := sgn_sq right
  have hg : sgn right ≠ 0 := by intro h0; rw [h0] at hs; norm_num at hs
  have key : ∀ k : ℤ, c.longOf ph = (ph + 2 * Real.pi * k - c.startPhase) * c.length / (c.endPhase - c.startPhase) →
      c.outer (c.longOf ph) = coorByRt R ph n center right := by
    intro k hk
    rw [hk, h.outer hR, hd, h.c_length, ← coor_period right R ph center k]
    congr 1
    have : (ph + 2 * Real.pi * k - c.startPhase) * (R * A) / (sgn right * A) / R = sgn right * (ph + 2 * Real.pi * k - c.startPhase) := by
      rw [div_div, div_eq_iff (by positivity)]
      linear_combination (-(ph + 2 * Real.pi * k - c.startPhase) * R * A) * hs
    rw [this, ← mul_assoc, hs]
    ring
  unfold Circular.longOf at key ⊢
  simp only at key ⊢
  by_cases h1 : ph < c.startPhase ∧ ph < c.endPhase
  · simp only [h1, and_self, if_true] at key ⊢
    by_cases h2 : c.startPhase < ph + 2 * Real.pi ∧ c.endPhase < ph + 2 * Real.pi
    · simp only [h2, and_self, if_true] at key ⊢
      exact key 0 (by push_cast; ring)
    · simp only [h2, if_false] at key ⊢
      exact key 1 (by push_cast; ring)
  · simp only [h1, if_false] at key ⊢
    by_cases h2 : c.startPhase < ph ∧ c.endPhase < ph
    · simp only [h2, and_self, if_true] at key ⊢
      exact key (-1) (by push_cast; ring)
    · simp only [h2, if_false] at key ⊢
      exact key 0 (by push_cast; ring)

theorem longOf_range {c : Circular} {center : V3} {R : ℝ} {n : V3} {s e : ℝ} {right : Bool} {A : ℝ} (h : Circ c center R n s e right A) (hn : IsUnit3 n) (hR : 0 < R)
    (hs0 : 0 ≤ s) (he0 : 0 ≤ e) (hs1 : s ≤ 2 * Real.pi) (he1 : e ≤ 2 * Real.pi) (hs : c.startPhase = (adjust s e right).1) (he : c.endPhase = (adjust s e right).2) {ph : ℝ} (h0 : 0 ≤ ph) (h1 : ph < 2 * Real.pi)
    {l : ℝ} (l0 : 0 ≤ l) (l1 : l ≤ c.length) (hl : c.outer l = coorByRt R ph n center right) : 0 ≤ c.longOf ph ∧ c.longOf ph ≤ c.length := by
  have hpi := Real.pi_pos
  have hA := h.A0
  have hA1 := h.A1
  have hd := h.c_diff
  have hss := sgn_sq right
  rw [h.outer hR] at hl
  obtain ⟨k, hk⟩ := coor_inj hn right hR hl
  rw [h.c_length] at l1
  have x0 : 0 ≤ l / R := by positivity
  have x1 : l / R ≤ A := by rw [div_le_iff₀ hR, mul_comm]; exact l1
  have hrange : -(2 * Real.pi) ≤ min c.startPhase c.endPhase ∧ max c.startPhase c.endPhase ≤ 2 * Real.pi := by
    rw [hs, he]
    unfold adjust
    cases right
    · simp only [Bool.false_eq_true, false_and, if_false, true_and]
      by_cases hle : s ≤ e
      · simp only [hle, if_true]
        split
        · exact ⟨le_min (by simp only; linarith) (by simp only; linarith), max_le (by simp only; linarith) (by simp only; linarith)⟩
        · rename_i hh
          exact ⟨le_min (by simp only; linarith) (by simp only; linarith), not_lt.1 hh⟩
      · simp only [hle, if_false]
        split
        · exact ⟨le_min (by simp only; linarith) (by simp only; linarith), max_le (by simp only; linarith) (by simp only; linarith)⟩
        · rename_i hh
          exact ⟨le_min (by simp only; linarith) (by simp only; linarith), not_lt.1 hh⟩
    · simp only [true_and, Bool.true_eq_false, false_and, if_false]
      by_cases hle : e ≤ s
      · simp only [hle, if_true]
        split
        · exact ⟨le_min (by simp only; linarith) (by simp only; linarith), max_le (by simp only; linarith) (by simp only; linarith)⟩
        · rename_i hh
          exact ⟨le_min (by simp only; linarith) (by simp only; linarith), not_lt.1 hh⟩
      · simp only [hle, if_false]
        split
        · exact ⟨le_min (by simp only; linarith) (by simp only; linarith), max_le (by simp only; linarith) (by simp only; linarith)⟩
        · rename_i hh
          exact ⟨le_min (by simp only; linarith) (by simp only; linarith), not_lt.1 hh⟩
  -- the chosen phase is between the ends
  have goal : ∀ p : ℝ, min c.startPhase c.endPhase ≤ p → p ≤ max c.startPhase c.endPhase →
      0 ≤ (p - c.startPhase) * c.length / (c.endPhase - c.startPhase) ∧ (p - c.startPhase) * c.length / (c.endPhase - c.startPhase) ≤ c.length := by
    intro p hp1 hp2
    rw [h.c_length]
    cases right
    · simp only [sgn, Bool.false_eq_true, if_false] at hd
      have hle : c.endPhase ≤ c.startPhase := by linarith
      rw [min_eq_right hle] at hp1
      rw [max_eq_left hle] at hp2
      rw [hd, show (p - c.startPhase) * (R * A) / (-1 * A) = (c.startPhase - p) * R by field_simp; ring]
      constructor
      · exact mul_nonneg (by linarith) hR.le
      · rw [mul_comm R A]; exact mul_le_mul_of_nonneg_right (by linarith) hR.le
    · simp only [sgn, if_true] at hd
      have hle : c.startPhase ≤ c.endPhase := by linarith
      rw [min_eq_left hle] at hp1
      rw [max_eq_right hle] at hp2
      rw [hd, show (p - c.startPhase) * (R * A) / (1 * A) = (p - c.startPhase) * R by field_simp]
      constructor
      · exact mul_nonneg (by linarith) hR.le
      · rw [mul_comm R A]; exact mul_le_mul_of_nonneg_right (by linarith) hR.le
  have hph : min c.startPhase c.endPhase ≤ c.startPhase + sgn right * (l / R) ∧ c.startPhase + sgn right * (l / R) ≤ max c.startPhase c.endPhase := by
    cases right
    · simp only [sgn, Bool.false_eq_true, if_false] at hd ⊢
      exact ⟨le_trans (min_le_right _ _) (by linarith), le_trans (by linarith) (le_max_left _ _)⟩
    · simp only [sgn, if_true] at hd ⊢
      exact ⟨le_trans (min_le_left _ _) (by linarith), le_trans (by linarith) (le_max_right _ _)⟩
  have hwidth : max c.startPhase c.endPhase - min c.startPhase c.endPhase ≤ 2 * Real.pi := by
    rw [max_sub_min_eq_abs', abs_sub_comm, hd, abs_mul, sgn_abs, one_mul, abs_of_pos hA]
    exact hA1
  have key : ∃ p : ℝ, c.longOf ph = (p - c.startPhase) * c.length / (c.endPhase - c.startPhase) ∧ min c.startPhase c.endPhase ≤ p ∧ p ≤ max c.startPhase c.endPhase := by
    unfold Circular.longOf
    simp only
    simp only [← lt_min_iff, ← max_lt_iff]
    rw [hk] at hph
    generalize min c.startPhase c.endPhase = lo at *
    generalize max c.startPhase c.endPhase = hi at *
    by_cases c1 : ph < lo
    · have k0 : (0 : ℝ) < k := by
        have : 0 < 2 * Real.pi * k := by linarith [hph.1]
        exact pos_of_mul_pos_right this (by linarith)
      have k1 : (1 : ℤ) ≤ k := by exact_mod_cast k0
      have k2 : (k : ℝ) < 2 := by
        by_contra hc
        have := mul_le_mul_of_nonneg_left (not_lt.1 hc) (show 0 ≤ 2 * Real.pi by linarith)
        linarith [hph.2, hrange.2]
      have k3 : k < 2 := by exact_mod_cast k2
      have : k = 1 := by omega
      subst this
      push_cast at hph
      rw [mul_one] at hph
      simp only [c1, if_true]
      rw [if_neg (not_lt.2 hph.2)]
      exact ⟨_, rfl, hph⟩
    · simp only [c1, if_false]
      by_cases c2 : hi < ph
      · rw [if_pos c2]
        have k0 : (k : ℝ) < 0 := by
          by_contra hc
          have := mul_nonneg (show 0 ≤ 2 * Real.pi by linarith) (not_lt.1 hc)
          linarith [hph.2]
        have k1 : k < 0 := by exact_mod_cast k0
        have k2 : (-2 : ℝ) < k := by
          by_contra hc
          have := mul_le_mul_of_nonneg_left (not_lt.1 hc) (show 0 ≤ 2 * Real.pi by linarith)
          linarith [hph.1, hrange.1]
        have k3 : -2 < k := by exact_mod_cast k2
        have : k = -1 := by omega
        subst this
        push_cast at hph
        refine ⟨_, rfl, ?_, ?_⟩ <;> linarith [hph.1, hph.2]
      · rw [if_neg c2]
        exact ⟨_, rfl, not_lt.1 c1, not_lt.1 c2⟩
  obtain ⟨p, e1, e2, e3⟩ := key
  rw [e1]
  exact goal p e2 e3

/-! ### The coordinates of circular lanes -/

theorem cross_norm_sq (u v : V3) : (u.cross v).norm ^ 2 = inner u u * inner v v - inner u v ^ 2 := by
  unfold V3.norm
  rw [Real.sq_sqrt (by positivity)]
  simp only [V3.cross, inner]
  ring

theorem norm_sq (u : V3) : u.norm ^ 2 = inner u u := by
  unfold V3.norm
  rw [Real.sq_sqrt (by positivity)]
  simp only [inner]
  ring

theorem norm_of_sq {u : V3} {k : ℝ} (hk : 0 ≤ k) (h : inner u u = k ^ 2) : u.norm = k :=
  (pow_left_inj₀ (norm_nonneg _) hk two_ne_zero).1 (by rw [norm_sq, h])

/-- The nearest point of a circle. -/
structure Near (n o p : V3) (R : ℝ) (m q : V3) (r : ℝ) : Prop where
  unit : IsUnit3 m
  on : OnCircle o n R q
  dist : Verif.Spec.Lane3d.dist p q = r
  min : ∀ q', OnCircle o n R q' → r ≤ Verif.Spec.Lane3d.dist p q'
  orth : inner (vec q p) m = 0
  tangent : (n.cross (q.sub o)).div (n.cross (q.sub o)).norm = m

theorem near_spec {n o p : V3} (hn : IsUnit3 n) {R : ℝ} (hR : 0 < R) (hp : ¬ OnAxis o n p) : ∃ m q r, Near n o p R m q r ∧
    ∀ (rnd : Nat → ℝ → ℝ) (right : Bool), rtpByCoor rnd p n o R right = (thetaByCoor rnd p m q r right).bind fun theta =>
      (thetaByCoor rnd q n o R right).map fun phase => (r, theta, phase) := by
  set w := p.sub o with hw
  have hN : 0 < (n.cross w).norm := by
    rcases lt_or_ge 0 (n.cross w).norm with h | h
    · exact h
    · exfalso
      have h0 : (n.cross w).norm = 0 := le_antisymm h (norm_nonneg _)
      have := dist_foot hn o p
      rw [← hw, h0] at this
      have := eq_of_dist this.le
      refine hp ⟨w.dot n, ?_⟩
      rw [this]
      rfl
  set N := (n.cross w).norm with hNd
  have hN2 : N ^ 2 = inner w w - inner n w ^ 2 := by
    rw [hNd, cross_norm_sq, show inner n n = 1 from hn, one_mul]
  set m := (n.cross w).div N with hm
  have hmu : IsUnit3 m := unit_dir hN rfl
  have hmn : inner m n = 0 := by
    simp only [hm, inner, V3.div, V3.cross]
    field_simp
    ring
  have hmw : inner m w = 0 := by
    simp only [hm, inner, V3.div, V3.cross]
    field_simp
    ring
  have ht1 : (m.cross n).norm = 1 := by
    refine norm_of_sq (by norm_num) ?_
    have := cross_norm_sq m n
    rw [norm_sq, show inner n n = 1 from hn, show inner m m = 1 from hmu, hmn] at this
    rw [this]; norm_num
  set t := m.cross n with ht
  have htn : inner t n = 0 := by simp only [ht, inner, V3.cross]; ring
  have htm : inner t m = 0 := by simp only [ht, inner, V3.cross]; ring
  have htt : inner t t = 1 := by rw [← norm_sq, ht1]; norm_num
  have htw : inner t w = N := by
    have hNm : ∀ u, inner m u * N = inner (n.cross w) u := by
      intro u; simp only [hm, inner, V3.div]; field_simp
    have h1 : inner t w = inner m (n.cross w) := by simp only [ht, inner, V3.cross]; ring
    have h2 : inner (n.cross w) (n.cross w) = N ^ 2 := by rw [hNd, norm_sq]
    have h3 := hNm (n.cross w)
    rw [h2, pow_two] at h3
    rw [h1]; exact mul_right_cancel₀ hN.ne' h3
  set q := o.add (t.smul R) with hq
  have hqo : vec o q = t.smul R := by simp [vec, hq, V3.add, V3.smul]
  have hqs : q.sub o = t.smul R := by simp [hq, V3.add, V3.smul, V3.sub]
  have hcr : n.cross (q.sub o) = m.smul R := by
    rw [hqs]
    unfold IsUnit3 inner at hn
    unfold inner at hmn
    simp only [ht, V3.cross, V3.smul]
    ext
    · linear_combination (R * m.x) * hn - R * n.x * hmn
    · linear_combination (R * m.y) * hn - R * n.y * hmn
    · linear_combination (R * m.z) * hn - R * n.z * hmn
  have hcrn : (m.smul R).norm = R := by
    refine norm_of_sq hR.le ?_
    unfold IsUnit3 inner at hmu
    simp only [inner, V3.smul]
    linear_combination R ^ 2 * hmu
  refine ⟨m, q, (p.sub q).norm, ⟨hmu, ⟨?_, ?_⟩, rfl, ?_, ?_, ?_⟩, ?_⟩
  · rw [hqo]
    unfold inner at htn
    simp only [inner, V3.smul]
    linear_combination R * htn
  · rw [dist_eq_norm, hqs]
    refine norm_of_sq hR.le ?_
    unfold inner at htt
    simp only [inner, V3.smul]
    linear_combination R ^ 2 * htt
  · rintro q' ⟨hq1, hq2⟩
    have hv : inner (vec o q') (vec o q') = R ^ 2 := by
      rw [← hq2, dist_eq_norm, norm_sq]
      simp only [inner, vec, V3.sub]
    rw [dist_eq_norm]
    refine (pow_le_pow_iff_left₀ (norm_nonneg _) (norm_nonneg _) two_ne_zero).1 ?_
    rw [norm_sq, norm_sq]
    have e1 : inner (p.sub q) (p.sub q) = inner w w - 2 * R * N + R ^ 2 := by
      have : p.sub q = w.sub (t.smul R) := by
        simp only [hq, hw, V3.sub, V3.add, V3.smul]; ext <;> simp only <;> ring
      rw [this, ← htw]
      unfold inner at htt ⊢
      simp only [V3.sub, V3.smul]
      linear_combination R ^ 2 * htt
    have e2 : inner (p.sub q') (p.sub q') = inner w w - 2 * inner w (vec o q') + R ^ 2 := by
      rw [← hv]
      simp only [hw, inner, V3.sub, vec]
      ring
    rw [e1, e2]
    have hcs : inner w (vec o q') ^ 2 ≤ (N * R) ^ 2 := by
      rw [mul_pow, hN2, ← hv]
      generalize vec o q' = u at *
      have h1 := cross_norm_sq (w.sub (n.smul (inner n w))) u
      have h2 : inner (w.sub (n.smul (inner n w))) u = inner w u := by
        have : inner (w.sub (n.smul (inner n w))) u = inner w u - inner n w * inner u n := by
          generalize inner n w = k
          simp only [inner, V3.sub, V3.smul]; ring
        rw [this, hq1, mul_zero, sub_zero]
      have h3 : inner (w.sub (n.smul (inner n w))) (w.sub (n.smul (inner n w))) = inner w w - inner n w ^ 2 := by
        have : inner (w.sub (n.smul (inner n w))) (w.sub (n.smul (inner n w))) = inner w w - 2 * inner n w * inner n w + inner n w ^ 2 * inner n n := by
          generalize hk : inner n w = k
          rw [show inner w w - 2 * k * k = inner w w - 2 * k * inner n w by rw [hk]]
          simp only [inner, V3.sub, V3.smul]; ring
        rw [this, show inner n n = 1 from hn]; ring
      rw [h2, h3] at h1
      linarith [sq_nonneg ((w.sub (n.smul (inner n w))).cross u).norm]
    have := abs_le_of_sq_le_sq' hcs (by positivity)
    nlinarith [this.2]
  · have : vec q p = w.sub (t.smul R) := by
      simp only [vec, hq, hw, V3.sub, V3.add, V3.smul]; ext <;> simp only <;> ring
    rw [this]
    unfold inner at hmw htm ⊢
    simp only [V3.sub, V3.smul]
    linear_combination hmw - R * htm
  · rw [hcr, hcrn]
    ext <;> simp only [V3.div, V3.smul] <;> field_simp
  · intro rnd right
    unfold rtpByCoor
    simp only
    rw [← hw, ← hNd, ← hm, ← ht, ht1]
    have : (t.div 1).smul R = t.smul R := by simp [V3.div, V3.smul]
    rw [this, ← hq]

theorem circular_coords {center : V3} {R : ℝ} (hR : 0 < R) {v : V3} (hv : v ≠ ⟨0, 0, 0⟩) {s e : ℝ} {right : Bool} (hs0 : 0 ≤ s) (hs1 : s ≤ 2 * Real.pi)
    (he0 : 0 ≤ e) (he1 : e ≤ 2 * Real.pi) (hse : -(2 * Real.pi) < sgn right * (e - s)) {p : V3} (hp : ¬ OnAxis center (Verif.Spec.Lane3d.unit v) p) :
    ∃ c, Circular.new center R v s e right = some c ∧ ∃ l r θ, c.coords (fun _ x => x) p = some (l, r, θ) ∧ 0 ≤ θ ∧ θ < 2 * Real.pi ∧
      OnCircle center (Verif.Spec.Lane3d.unit v) R (c.position l 0 0) ∧ Verif.Spec.Lane3d.dist p (c.position l 0 0) = r ∧
      (∀ q, OnCircle center (Verif.Spec.Lane3d.unit v) R q → r ≤ Verif.Spec.Lane3d.dist p q) ∧
      (∀ l', 0 ≤ l' → l' ≤ c.length → c.position l' 0 0 = c.position l 0 0 → 0 ≤ l ∧ l ≤ c.length) ∧
      Verif.Spec.Lane3d.dist (c.position l r θ) (c.position l 0 0) = r ∧ (right = true → c.position l r θ = p) := by
  have hse' : sgn right * (e - s) ≤ 2 * Real.pi := by cases right <;> simp [sgn] <;> linarith
  obtain ⟨c, A, hc, hsp, hep, h⟩ := circ_new (center := center) hR hv hse hse'
  have hn := unit_unit hv
  obtain ⟨m, q, r, N, hrtp⟩ := near_spec hn hR hp
  refine ⟨c, hc, ?_⟩
  obtain ⟨t, t1, t2, t3, t4⟩ := theta_exact N.unit right N.orth N.dist
  obtain ⟨f, f1, f2, f3, f4⟩ := theta_exact hn right N.on.1 N.on.2
  have hout : c.outer (c.longOf f) = q := by rw [longOf_spec h hR, f4]
  have hr0 : 0 ≤ r := by rw [← N.dist]; exact dist_nonneg _ _
  have hpos : ∀ θ, c.position (c.longOf f) r θ = coorByRt r θ m q true := by
    intro θ
    unfold Circular.position
    simp only
    rw [hout, h.c_n, h.c_center, N.tangent]
  refine ⟨c.longOf f, r, t, ?_, t2, t3, ?_⟩
  · unfold Circular.coords
    rw [h.c_n, h.c_center, h.c_radius, h.c_right, hrtp, t1, f1]
    rfl
  · simp only [Circ.position_zero, hout]
    refine ⟨N.on, N.dist, N.min, fun l' a b g => longOf_range h hn hR hs0 he0 hs1 he1 hsp hep f2 f3 a b (g.trans f4.symm), ?_, ?_⟩
    · rw [hpos]; exact (coor_dist N.unit true hr0 t q).1
    · rintro rfl
      rw [hpos, t4]

/-! ### Lanes between two points -/

theorem center_geom {n a b : V3} (hn : IsUnit3 n) (hab : a ≠ b) (ho : inner (vec a b) n = 0) (right : Bool) {θ : ℝ} (h0 : 0 < θ) (h1 : θ < Real.pi / 2) {o : V3} {R : ℝ}
    (hO : o = (((b.add a).div 2).add (((if right then n.cross (a.sub b) else n.cross (b.sub a)).div
      (if right then n.cross (a.sub b) else n.cross (b.sub a)).norm).smul ((b.sub a).norm / 2 / Real.tan θ))))
    (hRd : R = (b.sub a).norm / 2 / Real.sin θ) :
    0 < R ∧ OnCircle o n R a ∧ OnCircle o n R b ∧ Turned o n (-(sgn right * (2 * θ))) a b := by
  have hL : 0 < (b.sub a).norm := dist_pos (Ne.symm hab)
  have hL2 : (b.sub a).norm ^ 2 = inner (b.sub a) (b.sub a) := norm_sq _
  have hsin : 0 < Real.sin θ := Real.sin_pos_of_pos_of_lt_pi h0 (by linarith [Real.pi_pos])
  have hcos : 0 < Real.cos θ := Real.cos_pos_of_mem_Ioo ⟨by linarith, h1⟩
  have hsc := Real.sin_sq_add_cos_sq θ
  have hcr : (n.cross (b.sub a)).norm = (b.sub a).norm := by
    refine (pow_left_inj₀ (norm_nonneg _) (norm_nonneg _) two_ne_zero).1 ?_
    rw [cross_norm_sq, show inner n n = 1 from hn, hL2]
    have : inner n (b.sub a) = 0 := by rw [← ho]; simp only [inner, vec, V3.sub]; ring
    rw [this]; ring
  have hcr' : (n.cross (a.sub b)).norm = (b.sub a).norm := by
    rw [← hcr]
    unfold V3.norm V3.cross V3.sub
    simp only
    congr 1
    ring
  set L := (b.sub a).norm with hLd
  -- half the chord and the cotangent
  set k := Real.cos θ / Real.sin θ with hk
  have hks : k * Real.sin θ = Real.cos θ := by rw [hk]; field_simp
  have hO' : o = ⟨(a.x + b.x) / 2 - sgn right * (k / 2) * (n.y * (b.z - a.z) - n.z * (b.y - a.y)),
      (a.y + b.y) / 2 - sgn right * (k / 2) * (n.z * (b.x - a.x) - n.x * (b.z - a.z)),
      (a.z + b.z) / 2 - sgn right * (k / 2) * (n.x * (b.y - a.y) - n.y * (b.x - a.x))⟩ := by
    rw [hO]
    have ht : Real.tan θ = Real.sin θ / Real.cos θ := Real.tan_eq_sin_div_cos θ
    cases right
    · simp only [Bool.false_eq_true, if_false, hcr, sgn, ht, hk]
      simp only [V3.cross, V3.sub, V3.add, V3.div, V3.smul]
      ext <;> simp only <;> field_simp <;> ring
    · simp only [if_true, hcr', sgn, ht, hk]
      simp only [V3.cross, V3.sub, V3.add, V3.div, V3.smul]
      ext <;> simp only <;> field_simp <;> ring
  have hs := sgn_sq right
  have hRp : 0 < R := by rw [hRd]; positivity
  have hR2 : R ^ 2 = L ^ 2 / 4 * (1 + k ^ 2) := by
    have h1k : (1 + k ^ 2) * Real.sin θ ^ 2 = 1 := by rw [← hks] at hsc; linear_combination hsc
    rw [hRd, div_pow, div_eq_iff (by positivity), div_pow]
    linear_combination (-(L ^ 2 / 4)) * h1k
  have hcos2 : Real.cos (-(sgn right * (2 * θ))) = 1 - 2 * Real.sin θ ^ 2 := by
    rw [Real.cos_neg]
    have : Real.cos (sgn right * (2 * θ)) = Real.cos (2 * θ) := by cases right <;> simp [sgn]
    rw [this, Real.cos_two_mul]
    linarith
  have hsin2 : Real.sin (-(sgn right * (2 * θ))) = -(sgn right * (2 * Real.sin θ * Real.cos θ)) := by
    rw [Real.sin_neg, ← Real.sin_two_mul]
    cases right <;> simp [sgn]
  generalize sgn right = g at *
  unfold IsUnit3 inner at hn
  simp only [inner, V3.sub] at hL2
  simp only [inner, vec] at ho
  clear hO hcr hcr'
  refine ⟨hRp, ⟨?_, ?_⟩, ⟨?_, ?_⟩, ?_⟩
  · simp only [inner, vec, hO']
    linear_combination (-1 / 2 : ℝ) * ho
  · refine (pow_left_inj₀ (dist_nonneg _ _) hRp.le two_ne_zero).1 ?_
    rw [hR2, hL2]
    unfold Verif.Spec.Lane3d.dist
    rw [Real.sq_sqrt (by positivity)]
    simp only [hO']
    linear_combination (k ^ 2 / 4 * (g * g) * ((b.x - a.x) ^ 2 + (b.y - a.y) ^ 2 + (b.z - a.z) ^ 2)) * hn - (k ^ 2 / 4 * (g * g) * ((b.x - a.x) * n.x + (b.y - a.y) * n.y + (b.z - a.z) * n.z)) * ho + (k ^ 2 / 4 * ((b.x - a.x) ^ 2 + (b.y - a.y) ^ 2 + (b.z - a.z) ^ 2)) * hs
  · simp only [inner, vec, hO']
    linear_combination (1 / 2 : ℝ) * ho
  · refine (pow_left_inj₀ (dist_nonneg _ _) hRp.le two_ne_zero).1 ?_
    rw [hR2, hL2]
    unfold Verif.Spec.Lane3d.dist
    rw [Real.sq_sqrt (by positivity)]
    simp only [hO']
    linear_combination (k ^ 2 / 4 * (g * g) * ((b.x - a.x) ^ 2 + (b.y - a.y) ^ 2 + (b.z - a.z) ^ 2)) * hn - (k ^ 2 / 4 * (g * g) * ((b.x - a.x) * n.x + (b.y - a.y) * n.y + (b.z - a.z) * n.z)) * ho + (k ^ 2 / 4 * ((b.x - a.x) ^ 2 + (b.y - a.y) ^ 2 + (b.z - a.z) ^ 2)) * hs
  · unfold Turned
    rw [← hks] at hsc
    rw [hcos2, hsin2, ← hks]
    simp only [hO']
    generalize Real.sin θ = t at *
    refine ⟨?_, ?_, ?_⟩
    · linear_combination (-(b.x - a.x)) * hsc - ((b.x - a.x) * t ^ 2 * k ^ 2) * ((n.x * n.x + n.y * n.y + n.z * n.z) * hs + hn) + (g * g * t ^ 2 * k ^ 2 * n.x) * ho
    · linear_combination (-(b.y - a.y)) * hsc - ((b.y - a.y) * t ^ 2 * k ^ 2) * ((n.x * n.x + n.y * n.y + n.z * n.z) * hs + hn) + (g * g * t ^ 2 * k ^ 2 * n.y) * ho
    · linear_combination (-(b.z - a.z)) * hsc - ((b.z - a.z) * t ^ 2 * k ^ 2) * ((n.x * n.x + n.y * n.y + n.z * n.z) * hs + hn) + (g * g * t ^ 2 * k ^ 2 * n.z) * ho

theorem turned_unique {o n : V3} {t : ℝ} {p q q' : V3} (h : Turned o n t p q) (h' : Turned o n t p q') : q = q' := by
  obtain ⟨h1, h2, h3⟩ := h
  obtain ⟨g1, g2, g3⟩ := h'
  exact V3.ext (h1.trans g1.symm) (h2.trans g2.symm) (h3.trans g3.symm)

theorem unit_self {n : V3} (hn : IsUnit3 n) : Verif.Spec.Lane3d.unit n = n := by
  unfold Verif.Spec.Lane3d.unit
  rw [show inner n n = 1 from hn, Real.sqrt_one]
  simp

theorem fromEnds_spec {n a b : V3} (hn : IsUnit3 n) (hab : a ≠ b) (ho : inner (vec a b) n = 0) {φ : ℝ} (h0 : 0 < φ) (h1 : φ < 2 * Real.pi) (h2 : φ ≠ Real.pi)
    (right : Bool) : ∃ c o R, Circular.fromEnds (fun _ x => x) a b n φ right = some c ∧ 0 < R ∧ OnCircle o n R a ∧ OnCircle o n R b ∧
      c.position 0 0 0 = a ∧ c.position c.length 0 0 = b ∧ (∀ l x, Turned o n (x / R) (c.position l 0 0) (c.position (l + x) 0 0)) ∧
      c.length = R * (if right then (if φ < Real.pi then 2 * Real.pi - φ else 3 * Real.pi - φ) else if φ < Real.pi then φ else φ - Real.pi) := by
  have hpi := Real.pi_pos
  obtain ⟨θ, t0, t1, ht, hF⟩ : ∃ θ, 0 < θ ∧ θ < Real.pi / 2 ∧ (if Real.pi < φ then (φ - Real.pi) / 2 else φ / 2) = θ ∧
      2 * θ = if φ < Real.pi then φ else φ - Real.pi := by
    by_cases hc : Real.pi < φ
    · rw [if_pos hc, if_neg (by linarith)]
      exact ⟨_, by linarith, by linarith, rfl, by ring⟩
    · have : φ < Real.pi := lt_of_le_of_ne (not_lt.1 hc) h2
      rw [if_neg hc, if_pos this]
      exact ⟨_, by linarith, by linarith, rfl, by ring⟩
  obtain ⟨hR, ha, hb, htb⟩ := center_geom hn hab ho right t0 t1 rfl rfl
  unfold Circular.fromEnds centerRadius
  rw [if_pos ⟨h0, h1, hab⟩]
  simp only [h2, if_false, ht, Option.bind_some]
  generalize (((b.add a).div 2).add (((if right then n.cross (a.sub b) else n.cross (b.sub a)).div
      (if right then n.cross (a.sub b) else n.cross (b.sub a)).norm).smul ((b.sub a).norm / 2 / Real.tan θ))) = o at *
  generalize (b.sub a).norm / 2 / Real.sin θ = R at *
  obtain ⟨sp, s1, s2, s3, s4⟩ := theta_exact hn right ha.1 ha.2
  obtain ⟨ep, e1, e2, e3, e4⟩ := theta_exact hn right hb.1 hb.2
  rw [s1, Option.bind_some, e1, Option.bind_some]
  have hv : n ≠ ⟨0, 0, 0⟩ := by
    rintro rfl
    simp [IsUnit3, inner] at hn
  obtain ⟨c, A, hc, _, _, h⟩ := circ_new (center := o) hR hv (s := sp) (e := ep) (right := right) (by cases right <;> simp [sgn] <;> linarith)
    (by cases right <;> simp [sgn] <;> linarith)
  rw [unit_self hn] at h
  have hst : c.outer 0 = a := (h.start_eq hR).trans s4
  have hfin : c.outer c.length = b := (h.fin_eq hR).trans e4
  refine ⟨c, o, R, hc, hR, ha, hb, ?_, ?_, fun l x => ?_, ?_⟩
  · rw [Circ.position_zero, hst]
  · rw [Circ.position_zero, hfin]
  · rw [Circ.position_zero, Circ.position_zero]; exact h.turned hn hR l x
  · rw [h.c_length]
    congr 1
    have g1 := coor_turned hn right R sp (-(sgn right * (2 * θ))) o
    rw [s4] at g1
    have g2 := turned_unique g1 htb
    have g3 := h.turned hn hR 0 c.length
    rw [zero_add, hst, hfin, h.c_length, mul_div_cancel_left₀ _ hR.ne'] at g3
    have g4 := coor_turned hn right R sp A o
    rw [s4] at g4
    have g5 := turned_unique g4 g3
    obtain ⟨k, hk⟩ := coor_inj hn right hR (g5.trans g2.symm)
    have hA0 := h.A0
    have hA1 := h.A1
    cases right
    · simp only [sgn, Bool.false_eq_true, if_false] at hk ⊢
      rw [← hF]
      have hA : A = 2 * θ - 2 * Real.pi * k := by linarith
      have k1 : (k : ℝ) < 1 := by
        by_contra hc
        have := mul_le_mul_of_nonneg_left (not_lt.1 hc) (show 0 ≤ 2 * Real.pi by linarith)
        linarith
      have k2 : (-1 : ℝ) < k := by
        by_contra hc
        have := mul_le_mul_of_nonneg_left (not_lt.1 hc) (show 0 ≤ 2 * Real.pi by linarith)
        linarith
      have k3 : k < 1 := by exact_mod_cast k1
      have k4 : -1 < k := by exact_mod_cast k2
      have : k = 0 := by omega
      subst this
      rw [hA]; push_cast; ring
    · simp only [sgn, if_true] at hk ⊢
      have hA : A = -(2 * θ) + 2 * Real.pi * k := by linarith
      have k1 : (k : ℝ) < 2 := by
        by_contra hc
        have := mul_le_mul_of_nonneg_left (not_lt.1 hc) (show 0 ≤ 2 * Real.pi by linarith)
        linarith
      have k2 : (0 : ℝ) < k := by
        by_contra hc
        have := mul_nonneg (show 0 ≤ 2 * Real.pi by linarith) (neg_nonneg.2 (not_lt.1 hc))
        linarith
      have k3 : k < 2 := by exact_mod_cast k1
      have k4 : 0 < k := by exact_mod_cast k2
      have : k = 1 := by omega
      subst this
      rw [hA, hF]
      split <;> push_cast <;> ring

/-! ### Examples -/

theorem round_fix {rnd : Nat → ℝ → ℝ} (h : Rounding rnd) (d : Nat) (k : ℤ) : rnd d (k * (1 / 10) ^ d) = k * (1 / 10) ^ d := by
  obtain ⟨j, hj⟩ := h.grid d (k * (1 / 10) ^ d)
  have hn := h.near d (k * (1 / 10) ^ d)
  have hp : (0 : ℝ) < (1 / 10) ^ d := by positivity
  have e : rnd d (k * (1 / 10) ^ d) - k * (1 / 10) ^ d = ((j - k : ℤ) : ℝ) * (1 / 10) ^ d := by
    rw [hj]; push_cast; ring
  rw [e, abs_mul, abs_of_pos hp] at hn
  have h1 : |((j - k : ℤ) : ℝ)| < 1 := by
    by_contra hc
    have := mul_le_mul_of_nonneg_right (not_lt.1 hc) hp.le
    linarith
  have h2 : j - k = 0 := by
    rw [← Int.cast_abs] at h1
    have : |j - k| < 1 := by exact_mod_cast h1
    exact Int.abs_lt_one_iff.1 this
  rw [hj, show j = k by omega]

theorem round_zero {rnd : Nat → ℝ → ℝ} (h : Rounding rnd) (d : Nat) {x : ℝ} (hx : |x| < (1 / 10) ^ d / 2) : rnd d x = 0 := by
  obtain ⟨j, hj⟩ := h.grid d x
  have hn := h.near d x
  have hp : (0 : ℝ) < (1 / 10) ^ d := by positivity
  rw [hj] at hn ⊢
  have h1 : |(j : ℝ) * (1 / 10) ^ d| < (1 / 10) ^ d := by
    have := abs_add_le ((j : ℝ) * (1 / 10) ^ d - x) x
    rw [sub_add_cancel] at this
    linarith
  rw [abs_mul, abs_of_pos hp] at h1
  have h2 : |(j : ℝ)| < 1 := by
    by_contra hc
    have := mul_le_mul_of_nonneg_right (not_lt.1 hc) hp.le
    linarith
  rw [← Int.cast_abs] at h2
  have : |j| < 1 := by exact_mod_cast h2
  rw [Int.abs_lt_one_iff.1 this]
  simp

/-- Rounding the sine sends a point to the opposite side of the axis. -/
theorem theta_tiny {rnd : Nat → ℝ → ℝ} (hr : Rounding rnd) {n : V3} {p q l : ℝ} (h : Framed n p q l) (hl : 0 < l) (hp : p ≠ 0) {C S : ℝ}
    (hS : |S| < 1 / 200000) (hC : 1 / 2 ≤ C + S * (q * n.z / p)) {pt o : V3}
    (hx : pt.x = o.x + 10 * (C * p + S * (q * n.z))) (hy : pt.y = o.y + 10 * (C * (-q) + S * (p * n.z))) (hz : pt.z = o.z + 10 * (S * (-l))) :
    thetaByCoor rnd pt n o 10 true = some 0 := by
  have r10 : rnd 3 10 = 10 := by
    have := round_fix hr 3 10000
    norm_num at this
    exact this
  have hny : n.y ≠ 0 := by rw [h.y]; exact mul_ne_zero hp hl.ne'
  unfold thetaByCoor
  rw [r10, if_neg (by norm_num)]
  unfold cosSin
  rw [h.horiz, if_pos hl.ne', h.frame]
  simp only [hny, ne_eq, not_false_eq_true, if_true, sgn, one_mul]
  have e1 : ((pt.sub o).div 10).z / -l = S := by
    simp only [V3.sub, V3.div, hz]
    field_simp
    ring
  rw [e1, round_zero hr 5 (x := S) (by norm_num at hS ⊢; exact hS)]
  have e2 : (((pt.sub o).div 10).x - q * n.z * 0) / p = C + S * (q * n.z / p) := by
    simp only [V3.sub, V3.div, hx]
    field_simp
    ring
  rw [e2, Option.map_some]
  generalize C + S * (q * n.z / p) = X at *
  have hX := abs_le.1 (hr.near 5 X)
  have hX0 : 0 < rnd 5 X := by norm_num at hX; linarith [hX.1]
  simp only [angleOf]
  rw [rounding_again hr, if_neg hX0.ne', if_neg (not_lt.2 hX0.le), zero_div, Real.arctan_zero, if_neg (by simp)]

end Verif.Lane3d
