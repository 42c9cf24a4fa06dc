import Verif.Spec.Lane3d
import Mathlib.Analysis.SpecialFunctions.Trigonometric.Arctan
import Mathlib.Analysis.Complex.Norm
import Mathlib.Analysis.SpecialFunctions.Complex.Circle
import Mathlib.Tactic.LinearCombination

/-!
Frames, angles and distances.
-/

set_option autoImplicit false

namespace Verif.Lane3d

open Verif.Spec.Lane3d

/-! ### Frames -/

/-- A frame orthogonal to the unit vector `n`, as `frame` computes it. -/
structure Framed (n : V3) (p q l : ℝ) : Prop where
  x : n.x = q * l
  y : n.y = p * l
  pq : p ^ 2 + q ^ 2 = 1
  lz : l ^ 2 + n.z ^ 2 = 1
  l0 : 0 ≤ l
  horiz : horiz n = l
  vert : l = 0 → p = 1 ∧ q = 0
  norm : n.norm = 1
  frameR : frame n 1 true = (⟨p, -q, 0⟩, ⟨q * n.z, p * n.z, -l⟩)
  frameL : frame n 1 false = (⟨p, -q, 0⟩, ⟨-(q * n.z), -(p * n.z), l⟩)

theorem framed {n : V3} (h : IsUnit3 n) : ∃ p q l, Framed n p q l := by
  unfold IsUnit3 inner at h
  have hn : n.norm = 1 := by
    unfold V3.norm
    rw [show n.x ^ 2 + n.y ^ 2 + n.z ^ 2 = 1 by rw [← h]; ring]
    exact Real.sqrt_one
  have hl0 : 0 ≤ horiz n := Real.sqrt_nonneg _
  have hl : horiz n ^ 2 = n.x ^ 2 + n.y ^ 2 := Real.sq_sqrt (by positivity)
  by_cases h0 : horiz n = 0
  · have hxy : n.x ^ 2 + n.y ^ 2 = 0 := by rw [← hl, h0]; ring
    have hx : n.x = 0 := by nlinarith [sq_nonneg n.x, sq_nonneg n.y]
    have hy : n.y = 0 := by nlinarith [sq_nonneg n.x, sq_nonneg n.y]
    have hz : n.z = 1 ∨ n.z = -1 := by
      have : (n.z - 1) * (n.z + 1) = 0 := by rw [hx, hy] at h; linarith
      rcases mul_eq_zero.1 this with h | h
      · left; linarith
      · right; linarith
    have h10 : ¬ (1 : ℝ) < 0 := by norm_num
    refine ⟨1, 0, 0, by simp [hx], by simp [hy], by norm_num, ?_, le_refl 0, h0, fun _ => ⟨rfl, rfl⟩, hn, ?_, ?_⟩
    · rcases hz with h | h <;> rw [h] <;> norm_num
    · rcases hz with h | h <;> simp [frame, h0, h, h10]
    · rcases hz with h | h <;> simp [frame, h0, h, h10, V3.neg]
  · refine ⟨n.y / horiz n, n.x / horiz n, horiz n, by field_simp, by field_simp, ?_, ?_, hl0, rfl, fun h => absurd h h0, hn, ?_, ?_⟩
    · rw [div_pow, div_pow, hl]
      rw [← add_div, add_comm (n.y ^ 2)]
      exact div_self (by rw [← hl]; exact pow_ne_zero 2 h0)
    · rw [hl]; linarith
    · simp only [frame, ne_eq, h0, not_false_eq_true, if_true, div_one]
      ext <;> simp <;> ring
    · simp only [frame, ne_eq, h0, not_false_eq_true, if_true, div_one, V3.neg]
      ext <;> simp <;> ring

/-- The sign of the second vector of the frame. -/
def sgn (right : Bool) : ℝ := if right then 1 else -1

theorem sgn_sq (right : Bool) : sgn right * sgn right = 1 := by cases right <;> simp [sgn]

theorem sgn_abs (right : Bool) : |sgn right| = 1 := by cases right <;> simp [sgn]

section
variable {n : V3} {p q l : ℝ}

theorem Framed.frame (h : Framed n p q l) (right : Bool) :
    frame n 1 right = (⟨p, -q, 0⟩, ⟨sgn right * (q * n.z), sgn right * (p * n.z), -(sgn right * l)⟩) := by
  cases right
  · rw [h.frameL]; simp [sgn]
  · rw [h.frameR]; simp [sgn]

theorem Framed.frame_norm (h : Framed n p q l) (right : Bool) : Verif.Lane3d.frame n n.norm right = Verif.Lane3d.frame n 1 right := by rw [h.norm]

/-- The coordinates of a vector in the frame. -/
def cosOf (p q : ℝ) (d : V3) : ℝ := d.x * p - d.y * q
def sinOf (n : V3) (p q l : ℝ) (right : Bool) (d : V3) : ℝ := sgn right * (d.x * q * n.z + d.y * p * n.z - d.z * l)

theorem Framed.decomp (h : Framed n p q l) (right : Bool) {d : V3} (hd : inner d n = 0) :
    d.x = cosOf p q d * p + sinOf n p q l right d * (sgn right * (q * n.z)) ∧
    d.y = cosOf p q d * (-q) + sinOf n p q l right d * (sgn right * (p * n.z)) ∧
    d.z = sinOf n p q l right d * (-(sgn right * l)) := by
  unfold inner at hd
  rw [h.x, h.y] at hd
  have hs := sgn_sq right
  have h1 := h.pq
  have h2 := h.lz
  unfold cosOf sinOf
  generalize sgn right = s at hs
  refine ⟨?_, ?_, ?_⟩
  · linear_combination (-(d.x)) * h1 - q * (d.x * q + d.y * p) * h2 + q * l * hd - (d.x * q * n.z + d.y * p * n.z - d.z * l) * q * n.z * hs
  · linear_combination (-(d.y)) * h1 - p * (d.x * q + d.y * p) * h2 + p * l * hd - (d.x * q * n.z + d.y * p * n.z - d.z * l) * p * n.z * hs
  · linear_combination (-(d.z)) * h2 + n.z * hd + (d.x * q * n.z + d.y * p * n.z - d.z * l) * l * hs

theorem Framed.sq (h : Framed n p q l) (right : Bool) {d : V3} (hd : inner d n = 0) :
    cosOf p q d ^ 2 + sinOf n p q l right d ^ 2 = inner d d := by
  obtain ⟨h1, h2, h3⟩ := h.decomp right hd
  have hs := sgn_sq right
  have e1 := h.pq
  have e2 := h.lz
  unfold inner
  generalize cosOf p q d = c at *
  generalize sinOf n p q l right d = s at *
  generalize sgn right = g at *
  rw [h1, h2, h3]
  linear_combination (-(c ^ 2)) * e1 - s ^ 2 * n.z ^ 2 * e1 - s ^ 2 * e2 - s ^ 2 * (n.z ^ 2 * (p ^ 2 + q ^ 2) + l ^ 2) * hs

theorem Framed.coor (h : Framed n p q l) (right : Bool) (r t : ℝ) (c : V3) : coorByRt r t n c right =
    ⟨c.x + r * (Real.cos t * p + Real.sin t * (sgn right * (q * n.z))), c.y + r * (Real.cos t * (-q) + Real.sin t * (sgn right * (p * n.z))),
      c.z + r * (Real.sin t * (-(sgn right * l)))⟩ := by
  unfold coorByRt
  rw [h.frame_norm, h.frame]
  simp [V3.add, V3.smul]

end

/-! ### Angles -/

theorem angleOf_spec {rnd : Nat → ℝ → ℝ} {c s : ℝ} (hc : rnd 5 c = c) :
    Real.sqrt (c ^ 2 + s ^ 2) * Real.cos (angleOf rnd c s) = c ∧ Real.sqrt (c ^ 2 + s ^ 2) * Real.sin (angleOf rnd c s) = s ∧
    0 ≤ angleOf rnd c s ∧ angleOf rnd c s < 2 * Real.pi := by
  have hpi := Real.pi_pos
  unfold angleOf
  rw [hc]
  by_cases h0 : c = 0
  · rw [if_pos h0, h0]
    have e : (0 : ℝ) ^ 2 + s ^ 2 = s ^ 2 := by ring
    rw [e, Real.sqrt_sq_eq_abs]
    by_cases h1 : 0 < s
    · rw [if_pos h1, Real.cos_pi_div_two, Real.sin_pi_div_two, abs_of_pos h1]
      refine ⟨by ring, by ring, by positivity, by linarith⟩
    · rw [if_neg h1]
      by_cases h2 : s < 0
      · rw [if_pos h2, abs_of_neg h2]
        have e1 : Real.cos (1.5 * Real.pi) = 0 := by
          rw [show 1.5 * Real.pi = Real.pi / 2 + Real.pi by ring, Real.cos_add_pi, Real.cos_pi_div_two, neg_zero]
        have e2 : Real.sin (1.5 * Real.pi) = -1 := by
          rw [show 1.5 * Real.pi = Real.pi / 2 + Real.pi by ring, Real.sin_add_pi, Real.sin_pi_div_two]
        rw [e1, e2]
        refine ⟨by ring, by ring, by positivity, by linarith⟩
      · rw [if_neg h2]
        have : s = 0 := le_antisymm (not_lt.1 h1) (not_lt.1 h2)
        subst this
        simp
        exact hpi
  · rw [if_neg h0]
    have hcs : 0 < c ^ 2 + s ^ 2 := by positivity
    have hq : 0 < 1 + (s / c) ^ 2 := by positivity
    have hsq : Real.sqrt (c ^ 2 + s ^ 2) = |c| * Real.sqrt (1 + (s / c) ^ 2) := by
      rw [← Real.sqrt_sq_eq_abs, ← Real.sqrt_mul (sq_nonneg c)]
      congr 1
      field_simp
    have hr : 0 < Real.sqrt (1 + (s / c) ^ 2) := Real.sqrt_pos.2 hq
    have h1 : |c| * Real.sqrt (1 + (s / c) ^ 2) * Real.cos (Real.arctan (s / c)) = |c| := by
      rw [Real.cos_arctan]; field_simp
    have h2 : |c| * Real.sqrt (1 + (s / c) ^ 2) * Real.sin (Real.arctan (s / c)) = |c| * (s / c) := by
      rw [Real.sin_arctan]; field_simp
    have b1 := Real.arctan_lt_pi_div_two (s / c)
    have b2 := Real.neg_pi_div_two_lt_arctan (s / c)
    rw [hsq]
    simp only
    by_cases hneg : c < 0
    · rw [if_pos hneg, add_comm Real.pi, Real.cos_add_pi, Real.sin_add_pi, mul_neg, mul_neg, h1, h2, abs_of_neg hneg]
      refine ⟨by ring, by field_simp, by linarith, by linarith⟩
    · have hpos : 0 < c := lt_of_le_of_ne (not_lt.1 hneg) (Ne.symm h0)
      rw [if_neg hneg]
      by_cases hth : Real.arctan (s / c) < 0
      · rw [if_pos ⟨hth, hpos⟩, add_comm (2 * Real.pi), Real.cos_add_two_pi, Real.sin_add_two_pi, h1, h2, abs_of_pos hpos]
        refine ⟨rfl, by field_simp, by linarith, by linarith⟩
      · rw [if_neg (fun hh => hth hh.1), h1, h2, abs_of_pos hpos]
        refine ⟨rfl, by field_simp, by linarith, by linarith⟩

/-- The direction of a vector near a unit vector. -/
theorem unit_close {c s c' s' t : ℝ} (hu : c ^ 2 + s ^ 2 = 1) (h1 : Real.sqrt (c' ^ 2 + s' ^ 2) * Real.cos t = c') (h2 : Real.sqrt (c' ^ 2 + s' ^ 2) * Real.sin t = s') :
    Real.sqrt ((Real.cos t - c) ^ 2 + (Real.sin t - s) ^ 2) ≤ 2 * (|c' - c| + |s' - s|) := by
  have hnorm : ∀ a b : ℝ, ‖(⟨a, b⟩ : ℂ)‖ = Real.sqrt (a ^ 2 + b ^ 2) := by
    intro a b
    rw [Complex.norm_def, Complex.normSq_apply]
    congr 1
    ring
  have hle : ∀ a b : ℝ, Real.sqrt (a ^ 2 + b ^ 2) ≤ |a| + |b| := by
    intro a b
    rw [Real.sqrt_le_left (by positivity)]
    nlinarith [sq_abs a, sq_abs b, abs_nonneg a, abs_nonneg b]
  set m := Real.sqrt (c' ^ 2 + s' ^ 2)
  have hm0 : 0 ≤ m := Real.sqrt_nonneg _
  have e1 : ‖(⟨Real.cos t - c', Real.sin t - s'⟩ : ℂ)‖ = |1 - m| := by
    rw [hnorm, ← h1, ← h2]
    rw [show (Real.cos t - m * Real.cos t) ^ 2 + (Real.sin t - m * Real.sin t) ^ 2 = (1 - m) ^ 2 * (Real.cos t ^ 2 + Real.sin t ^ 2) by ring]
    rw [Real.cos_sq_add_sin_sq, mul_one, Real.sqrt_sq_eq_abs]
  have e2 : |1 - m| ≤ ‖(⟨c' - c, s' - s⟩ : ℂ)‖ := by
    have hu' : ‖(⟨c, s⟩ : ℂ)‖ = 1 := by rw [hnorm, hu, Real.sqrt_one]
    have hm' : ‖(⟨c', s'⟩ : ℂ)‖ = m := hnorm _ _
    have := abs_norm_sub_norm_le (⟨c', s'⟩ : ℂ) ⟨c, s⟩
    rw [hu', hm'] at this
    rw [abs_sub_comm]
    refine le_trans this (le_of_eq ?_)
    congr 1
  have e3 : ‖(⟨c' - c, s' - s⟩ : ℂ)‖ ≤ |c' - c| + |s' - s| := by rw [hnorm]; exact hle _ _
  have e4 : Real.sqrt ((Real.cos t - c) ^ 2 + (Real.sin t - s) ^ 2) ≤ ‖(⟨Real.cos t - c', Real.sin t - s'⟩ : ℂ)‖ + ‖(⟨c' - c, s' - s⟩ : ℂ)‖ := by
    rw [← hnorm]
    have : (⟨Real.cos t - c, Real.sin t - s⟩ : ℂ) = ⟨Real.cos t - c', Real.sin t - s'⟩ + ⟨c' - c, s' - s⟩ := by
      apply Complex.ext <;> simp
    rw [this]
    exact norm_add_le _ _
  rw [e1] at e4
  linarith

/-! ### The angle of a point around an axis -/

theorem cosSin_close {rnd : Nat → ℝ → ℝ} {ε : ℝ} (hε : ∀ x, |rnd 5 x - x| ≤ ε) (hidem : ∀ x, rnd 5 (rnd 5 x) = rnd 5 x) {n : V3} {p q l : ℝ}
    (h : Framed n p q l) (right : Bool) {d : V3} (hd : inner d n = 0) {κ : ℝ} (hκ0 : 0 ≤ κ) (hκ : n.y = 0 ∨ |n.x * n.z| ≤ κ * |n.y|) :
    ∃ c' s', cosSin rnd d n right = some (c', s') ∧ rnd 5 c' = c' ∧ |c' - cosOf p q d| ≤ (1 + κ) * ε ∧ |s' - sinOf n p q l right d| ≤ ε := by
  obtain ⟨d1, d2, d3⟩ := h.decomp right hd
  have hs := sgn_sq right
  have hs1 := sgn_abs right
  have hs0 : sgn right ≠ 0 := by intro h0; rw [h0] at hs; norm_num at hs
  have hε0 : 0 ≤ ε := le_trans (abs_nonneg _) (hε 0)
  have hκε : 0 ≤ κ * ε := mul_nonneg hκ0 hε0
  unfold cosSin
  rw [h.horiz]
  by_cases hl : l = 0
  · obtain ⟨rfl, rfl⟩ := h.vert hl
    subst hl
    rw [if_neg (by simp)]
    have hz2 : n.z ^ 2 = 1 := by have := h.lz; linarith
    have hz : n.z ≠ 0 := by intro h0; rw [h0] at hz2; norm_num at hz2
    rw [if_neg hz]
    have hcos : cosOf 1 0 d = d.x := by unfold cosOf; ring
    have hsin : sinOf n 1 0 0 right d = sgn right * (d.y * n.z) := by unfold sinOf; ring
    have hzz : n.z = 1 ∨ n.z = -1 := by
      have : (n.z - 1) * (n.z + 1) = 0 := by linarith
      rcases mul_eq_zero.1 this with h | h
      · left; linarith
      · right; linarith
    refine ⟨_, _, rfl, hidem _, ?_, ?_⟩
    · rw [hcos]
      have := hε d.x
      linarith
    · rw [hsin]
      have e := hε d.y
      have hnn : ¬ (1 : ℝ) < 0 := by norm_num
      have hm : (-1 : ℝ) < 0 := by norm_num
      rw [abs_le] at e ⊢
      rcases hzz with hz | hz <;> rw [hz] <;> cases right <;>
        simp only [sgn, hnn, hm, if_true, if_false, reduceIte, Bool.false_eq_true] <;> constructor <;> linarith [e.1, e.2]
  · rw [if_pos hl, h.frame]
    simp only
    have hlpos : 0 < l := lt_of_le_of_ne h.l0 (Ne.symm hl)
    have es : d.z / -(sgn right * l) = sinOf n p q l right d := by
      rw [div_eq_iff (neg_ne_zero.2 (mul_ne_zero hs0 hl))]; exact d3
    rw [es]
    generalize hS : sinOf n p q l right d = S at *
    have eS := hε S
    by_cases hy : n.y = 0
    · rw [if_neg (by simp [hy])]
      have hp : p = 0 := by
        rcases mul_eq_zero.1 (h.y ▸ hy) with h | h
        · exact h
        · exact absurd h hl
      subst hp
      have hq2 : q ^ 2 = 1 := by have := h.pq; linarith
      have hq : q ≠ 0 := by intro h0; rw [h0] at hq2; norm_num at hq2
      refine ⟨_, _, rfl, hidem _, ?_, eS⟩
      have e : (d.y - sgn right * (0 * n.z) * rnd 5 S) / -q = cosOf 0 q d := by
        rw [div_eq_iff (neg_ne_zero.2 hq)]
        rw [d2]
        have : cosOf 0 q d = -(d.y * q) := by unfold cosOf; ring
        ring_nf
      rw [e]
      have := hε (cosOf 0 q d)
      linarith
    · rw [if_pos hy]
      have hp : p ≠ 0 := by intro h0; exact hy (by rw [h.y, h0, zero_mul])
      refine ⟨_, _, rfl, hidem _, ?_, eS⟩
      generalize hC : cosOf p q d = C at *
      have e : (d.x - sgn right * (q * n.z) * rnd 5 S) / p = C + sgn right * (q * n.z / p) * (S - rnd 5 S) := by
        rw [d1]; field_simp; ring
      rw [e]
      have h1 := hε (C + sgn right * (q * n.z / p) * (S - rnd 5 S))
      have hκ' : |q * n.z / p| ≤ κ := by
        rcases hκ with hκ | hκ
        · exact absurd hκ hy
        · rw [abs_div, div_le_iff₀ (abs_pos.2 hp)]
          rw [h.x, h.y] at hκ
          have e1 : |q * l * n.z| = |q * n.z| * l := by rw [show q * l * n.z = q * n.z * l by ring, abs_mul, abs_of_pos hlpos]
          have e2 : |p * l| = |p| * l := by rw [abs_mul, abs_of_pos hlpos]
          rw [e1, e2, ← mul_assoc] at hκ
          exact le_of_mul_le_mul_right hκ hlpos
      have h2 : |sgn right * (q * n.z / p) * (S - rnd 5 S)| ≤ κ * ε := by
        rw [abs_mul, abs_mul, hs1, one_mul, abs_sub_comm]
        exact mul_le_mul hκ' eS (abs_nonneg _) hκ0
      generalize rnd 5 (C + sgn right * (q * n.z / p) * (S - rnd 5 S)) = Y at *
      generalize sgn right * (q * n.z / p) * (S - rnd 5 S) = E at *
      have : Y - C = (Y - (C + E)) + E := by ring
      rw [this]
      calc |Y - (C + E) + E| ≤ |Y - (C + E)| + |E| := abs_add_le _ _
        _ ≤ ε + κ * ε := add_le_add h1 h2
        _ = (1 + κ) * ε := by ring

theorem dist_coor {n : V3} {p q l : ℝ} (h : Framed n p q l) (right : Bool) {r : ℝ} (hr : 0 ≤ r) (t c s : ℝ) (o : V3) {pt : V3}
    (hx : pt.x = o.x + r * (c * p + s * (sgn right * (q * n.z)))) (hy : pt.y = o.y + r * (c * (-q) + s * (sgn right * (p * n.z))))
    (hz : pt.z = o.z + r * (s * (-(sgn right * l)))) :
    dist (coorByRt r t n o right) pt = r * Real.sqrt ((Real.cos t - c) ^ 2 + (Real.sin t - s) ^ 2) := by
  rw [h.coor]
  unfold Verif.Spec.Lane3d.dist
  simp only [hx, hy, hz]
  have hs := sgn_sq right
  have e1 := h.pq
  have e2 := h.lz
  rw [← abs_of_nonneg hr, ← Real.sqrt_sq_eq_abs, ← Real.sqrt_mul (sq_nonneg r)]
  congr 1
  generalize sgn right = g at *
  generalize Real.cos t = ct
  generalize Real.sin t = st
  rw [Real.sqrt_sq hr]
  linear_combination r ^ 2 * ((ct - c) ^ 2 * e1 + (st - s) ^ 2 * n.z ^ 2 * e1 + (st - s) ^ 2 * e2 + (st - s) ^ 2 * (n.z ^ 2 * (p ^ 2 + q ^ 2) + l ^ 2) * hs)

/-- The computed angle leads back to the point, up to rounding. -/
theorem theta_close {rnd : Nat → ℝ → ℝ} {ε : ℝ} (hε : ∀ x, |rnd 5 x - x| ≤ ε) (hidem : ∀ x, rnd 5 (rnd 5 x) = rnd 5 x) {n : V3} (hn : IsUnit3 n) (right : Bool)
    {pt o : V3} {r : ℝ} (hd : inner (vec o pt) n = 0) (hr : Verif.Spec.Lane3d.dist pt o = r) {κ : ℝ} (hκ0 : 0 ≤ κ) (hκ : n.y = 0 ∨ |n.x * n.z| ≤ κ * |n.y|) :
    ∃ t, thetaByCoor rnd pt n o r right = some t ∧ 0 ≤ t ∧ t < 2 * Real.pi ∧
      (rnd 3 r = 0 → Verif.Spec.Lane3d.dist (coorByRt r t n o right) pt ≤ 2 * r) ∧
      (rnd 3 r ≠ 0 → Verif.Spec.Lane3d.dist (coorByRt r t n o right) pt ≤ r * (2 * ((2 + κ) * ε))) := by
  obtain ⟨p, q, l, h⟩ := framed hn
  have hr0 : 0 ≤ r := hr ▸ Real.sqrt_nonneg _
  have hsq : inner (vec o pt) (vec o pt) = r ^ 2 := by
    rw [← hr]
    unfold Verif.Spec.Lane3d.dist
    rw [Real.sq_sqrt (by positivity)]
    unfold inner vec
    ring
  -- the unit vector towards the point
  have base : ∀ t, r ≠ 0 → ∃ c s, c ^ 2 + s ^ 2 = 1 ∧ c = cosOf p q ((pt.sub o).div r) ∧ s = sinOf n p q l right ((pt.sub o).div r) ∧
      Verif.Spec.Lane3d.dist (coorByRt r t n o right) pt = r * Real.sqrt ((Real.cos t - c) ^ 2 + (Real.sin t - s) ^ 2) := by
    intro t h0
    have hd' : inner ((pt.sub o).div r) n = 0 := by
      unfold inner vec at hd
      unfold inner V3.div V3.sub
      have : (pt.x - o.x) / r * n.x + (pt.y - o.y) / r * n.y + (pt.z - o.z) / r * n.z =
        ((pt.x - o.x) * n.x + (pt.y - o.y) * n.y + (pt.z - o.z) * n.z) / r := by ring
      simp only [this, hd, zero_div]
    have hu : inner ((pt.sub o).div r) ((pt.sub o).div r) = 1 := by
      unfold inner vec at hsq
      unfold inner V3.div V3.sub
      simp only at hsq ⊢
      field_simp
      linarith
    obtain ⟨d1, d2, d3⟩ := h.decomp right hd'
    refine ⟨_, _, by rw [h.sq right hd', hu], rfl, rfl, dist_coor h right hr0 t _ _ o ?_ ?_ ?_⟩
    · rw [← d1]; simp only [V3.div, V3.sub]; field_simp; ring
    · rw [← d2]; simp only [V3.div, V3.sub]; field_simp; ring
    · rw [← d3]; simp only [V3.div, V3.sub]; field_simp; ring
  have hzero : ∀ t, r = 0 → Verif.Spec.Lane3d.dist (coorByRt r t n o right) pt = 0 := by
    intro t h0
    rw [h0] at hsq
    unfold inner vec at hsq
    simp only at hsq
    have ex : pt.x - o.x = 0 := by nlinarith [sq_nonneg (pt.x - o.x), sq_nonneg (pt.y - o.y), sq_nonneg (pt.z - o.z)]
    have ey : pt.y - o.y = 0 := by nlinarith [sq_nonneg (pt.x - o.x), sq_nonneg (pt.y - o.y), sq_nonneg (pt.z - o.z)]
    have ez : pt.z - o.z = 0 := by nlinarith [sq_nonneg (pt.x - o.x), sq_nonneg (pt.y - o.y), sq_nonneg (pt.z - o.z)]
    rw [h0, h.coor]
    unfold Verif.Spec.Lane3d.dist
    simp only [zero_mul, add_zero]
    rw [show o.x - pt.x = 0 by linarith, show o.y - pt.y = 0 by linarith, show o.z - pt.z = 0 by linarith]
    simp
  unfold thetaByCoor
  by_cases h3 : rnd 3 r = 0
  · rw [if_pos h3]
    refine ⟨0, rfl, le_refl 0, by have := Real.pi_pos; linarith, fun _ => ?_, fun hh => absurd h3 hh⟩
    by_cases h0 : r = 0
    · rw [hzero 0 h0, h0]; norm_num
    · obtain ⟨c, s, hcs, _, _, hdist⟩ := base 0 h0
      rw [hdist, mul_comm]
      refine mul_le_mul_of_nonneg_right ?_ hr0
      rw [Real.sqrt_le_left (by norm_num)]
      simp only [Real.cos_zero, Real.sin_zero]
      nlinarith [sq_nonneg s, sq_nonneg (c + 1)]
  · rw [if_neg h3]
    have hd' : inner ((pt.sub o).div r) n = 0 := by
      unfold inner vec at hd
      unfold inner V3.div V3.sub
      have : (pt.x - o.x) / r * n.x + (pt.y - o.y) / r * n.y + (pt.z - o.z) / r * n.z =
        ((pt.x - o.x) * n.x + (pt.y - o.y) * n.y + (pt.z - o.z) * n.z) / r := by ring
      simp only [this, hd, zero_div]
    obtain ⟨c', s', hcs, hid, hc, hs⟩ := cosSin_close hε hidem h right hd' hκ0 hκ
    rw [hcs]
    obtain ⟨a1, a2, a3, a4⟩ := angleOf_spec (s := s') hid
    refine ⟨_, rfl, a3, a4, fun hh => absurd hh h3, fun _ => ?_⟩
    by_cases h0 : r = 0
    · rw [hzero _ h0, h0]; norm_num
    · obtain ⟨c, s, hu, rfl, rfl, hdist⟩ := base (angleOf rnd c' s') h0
      rw [hdist]
      refine mul_le_mul_of_nonneg_left ?_ hr0
      refine le_trans (unit_close hu a1 a2) ?_
      have : |c' - cosOf p q ((pt.sub o).div r)| + |s' - sinOf n p q l right ((pt.sub o).div r)| ≤ (2 + κ) * ε := by
        calc _ ≤ (1 + κ) * ε + ε := add_le_add hc hs
          _ = (2 + κ) * ε := by ring
      linarith

theorem eq_of_dist {p q : V3} (h : Verif.Spec.Lane3d.dist p q ≤ 0) : p = q := by
  have h0 : Verif.Spec.Lane3d.dist p q = 0 := le_antisymm h (Real.sqrt_nonneg _)
  unfold Verif.Spec.Lane3d.dist at h0
  rw [Real.sqrt_eq_zero (by positivity)] at h0
  apply V3.ext <;> nlinarith [sq_nonneg (p.x - q.x), sq_nonneg (p.y - q.y), sq_nonneg (p.z - q.z)]

/-- Without rounding, the computed angle leads back to the point. -/
theorem theta_exact {n : V3} (hn : IsUnit3 n) (right : Bool) {pt o : V3} {r : ℝ} (hd : inner (vec o pt) n = 0) (hr : Verif.Spec.Lane3d.dist pt o = r) :
    ∃ t, thetaByCoor (fun _ x => x) pt n o r right = some t ∧ 0 ≤ t ∧ t < 2 * Real.pi ∧ coorByRt r t n o right = pt := by
  obtain ⟨t, h1, h2, h3, h4, h5⟩ := theta_close (rnd := fun _ x => x) (ε := 0) (by simp) (fun _ => rfl) hn right hd hr
    (κ := if n.y = 0 then 0 else |n.x * n.z| / |n.y|) (by split <;> positivity) (by
      by_cases hy : n.y = 0
      · exact Or.inl hy
      · right
        rw [if_neg hy, div_mul_cancel₀ _ (abs_ne_zero.2 hy)])
  refine ⟨t, h1, h2, h3, eq_of_dist ?_⟩
  by_cases h0 : r = 0
  · have := h4 h0
    rw [h0] at this ⊢
    simpa using this
  · have := h5 h0
    simpa using this

end Verif.Lane3d
