import Verif.Model.Loop3d
import Verif.Spec.Loop3d
import Verif.Proofs.Lane3dB
import Mathlib.Analysis.SpecialFunctions.Trigonometric.Deriv
import Mathlib.Analysis.Calculus.Deriv.Mul
import Mathlib.Analysis.Calculus.Deriv.Add
import Mathlib.Analysis.Calculus.Deriv.Comp

set_option autoImplicit false

namespace Verif.Lane3d

open Verif.Spec.Lane3d

theorem angleOf_scale {s κ : ℝ} (hκ : 0 < κ) : angleOf (fun _ x => x) 0 (s / κ) = angleOf (fun _ x => x) 0 s := by
  unfold angleOf
  simp only [if_true]
  have h1 : 0 < s / κ ↔ 0 < s := ⟨fun h => by have := mul_pos h hκ; rwa [div_mul_cancel₀ _ hκ.ne'] at this, fun h => div_pos h hκ⟩
  have h2 : s / κ < 0 ↔ s < 0 := ⟨fun h => by have := mul_neg_of_neg_of_pos h hκ; rwa [div_mul_cancel₀ _ hκ.ne'] at this, fun h => div_neg_of_neg_of_pos h hκ⟩
  simp only [h1, h2]

theorem cosSin_scale {m : V3} {p q l : ℝ} (h : Framed m p q l) {k : ℝ} (hk : 0 < k) (d : V3) :
    ∃ κ : ℝ, 0 < κ ∧ cosSin (fun _ x => x) d (m.smul k) true = (cosSin (fun _ x => x) d m true).map fun cs => (cs.1, cs.2 / κ) := by
  have hh : horiz (m.smul k) = k * l := by
    have : horiz (m.smul k) = k * horiz m := by
      unfold horiz V3.smul
      simp only
      rw [show (k * m.x) ^ 2 + (k * m.y) ^ 2 = k ^ 2 * (m.x ^ 2 + m.y ^ 2) by ring, Real.sqrt_mul (by positivity), Real.sqrt_sq hk.le]
    rw [this, h.horiz]
  by_cases h0 : l = 0
  · refine ⟨1, one_pos, ?_⟩
    have hz : k * m.z < 0 ↔ m.z < 0 := by
      constructor
      · intro hc; by_contra hn; have := mul_nonneg hk.le (not_lt.1 hn); linarith
      · intro hc; exact mul_neg_of_pos_of_neg hk hc
    have hz0 : k * m.z = 0 ↔ m.z = 0 := by simp [hk.ne']
    unfold cosSin
    rw [hh, h.horiz, h0]
    simp only [V3.smul, mul_zero, ne_eq, not_true_eq_false, if_false, hz, hz0]
    split
    · rfl
    · simp
  · refine ⟨k, hk, ?_⟩
    have hl : k * l ≠ 0 := mul_ne_zero hk.ne' h0
    have hy : (k * m.y ≠ 0) ↔ m.y ≠ 0 := by simp [hk.ne']
    unfold cosSin frame
    rw [hh, h.horiz]
    simp only [hl, h0, V3.smul, ne_eq, not_false_eq_true, if_true, div_one, hy]
    have hk' := hk.ne'
    split
    · simp only [Option.map_some, Option.some.injEq, Prod.mk.injEq]
      exact ⟨by field_simp, by field_simp⟩
    · simp only [Option.map_some, Option.some.injEq, Prod.mk.injEq]
      exact ⟨by field_simp, by field_simp⟩

/-- On the axes of the frame, the length of the normal vector does not matter. -/
theorem theta_scale {m : V3} {p q l : ℝ} (h : Framed m p q l) {k : ℝ} (hk : 0 < k) {pt o : V3} {r : ℝ} (hd : inner ((pt.sub o).div r) m = 0)
    (hq : cosOf p q ((pt.sub o).div r) = 0 ∨ sinOf m p q l true ((pt.sub o).div r) = 0) :
    thetaByCoor (fun _ x => x) pt (m.smul k) o r true = thetaByCoor (fun _ x => x) pt m o r true := by
  unfold thetaByCoor
  generalize (pt.sub o).div r = d at *
  obtain ⟨κ, hκ, hc⟩ := cosSin_scale h hk d
  obtain ⟨c', s', h1, _, h2, h3⟩ := cosSin_close (rnd := fun _ x => x) (ε := 0) (by simp) (fun _ => rfl) h true hd
    (κ := if m.y = 0 then 0 else |m.x * m.z| / |m.y|) (by split <;> positivity) (by
      by_cases hy : m.y = 0
      · exact Or.inl hy
      · right
        rw [if_neg hy, div_mul_cancel₀ _ (abs_ne_zero.2 hy)])
  rw [mul_zero, abs_nonpos_iff, sub_eq_zero] at h2
  rw [abs_nonpos_iff, sub_eq_zero] at h3
  rw [hc, h1]
  simp only [Option.map_some]
  split
  · rfl
  · congr 1
    rcases hq with hq | hq
    · rw [h2, hq, angleOf_scale hκ]
    · rw [h3, hq, zero_div]

/-- The velocity of a curve that turns. -/
theorem turned_velocity {f : ℝ → V3} {o n : V3} {R : ℝ} (h : ∀ x, Turned o n (x / R) (f 0) (f x)) (t : ℝ) :
    Velocity f t ⟨(-Real.sin (t / R) * ((f 0).x - o.x) + Real.cos (t / R) * (n.y * ((f 0).z - o.z) - n.z * ((f 0).y - o.y))) / R,
      (-Real.sin (t / R) * ((f 0).y - o.y) + Real.cos (t / R) * (n.z * ((f 0).x - o.x) - n.x * ((f 0).z - o.z))) / R,
      (-Real.sin (t / R) * ((f 0).z - o.z) + Real.cos (t / R) * (n.x * ((f 0).y - o.y) - n.y * ((f 0).x - o.x))) / R⟩ := by
  have key : ∀ (g : ℝ → ℝ) (a b c : ℝ), (∀ x, g x = a + Real.cos (x / R) * b + Real.sin (x / R) * c) →
      HasDerivAt g ((-Real.sin (t / R) * b + Real.cos (t / R) * c) / R) t := by
    intro g a b c hg
    have e : g = fun x => a + Real.cos (x / R) * b + Real.sin (x / R) * c := funext hg
    rw [e]
    have h1 : HasDerivAt (fun x : ℝ => x / R) (1 / R) t := (hasDerivAt_id t).div_const R
    have h2 := (h1.cos.mul_const b).const_add a
    have h3 := h1.sin.mul_const c
    have h4 := h2.add h3
    exact h4.congr_deriv (by ring)
  exact ⟨key _ _ _ _ fun x => (h x).1, key _ _ _ _ fun x => (h x).2.1, key _ _ _ _ fun x => (h x).2.2⟩

theorem straight_position (s : Straight) (t θ : ℝ) : s.position t 0 θ = s.start.add (s.dir.smul t) := by
  simp only [Straight.position, coor_zero]

theorem straight_velocity (s : Straight) (t : ℝ) : Velocity (fun l => s.position l 0 0) t s.dir := by
  simp only [straight_position]
  have key : ∀ a b : ℝ, HasDerivAt (fun x : ℝ => a + x * b) b t := by
    intro a b
    have := ((hasDerivAt_id t).mul_const b).const_add a
    simpa using this
  exact ⟨key _ _, key _ _, key _ _⟩

/-- A straight lane along a unit vector. -/
theorem straight_new {a b u : V3} (hu : IsUnit3 u) {L : ℝ} (hL : 0 < L) (h : b = a.add (u.smul L)) : Straight.new a b = ⟨a, u, L⟩ := by
  have hn : (b.sub a).norm = L := by
    rw [h]
    unfold V3.norm
    rw [show ((a.add (u.smul L)).sub a).x ^ 2 + ((a.add (u.smul L)).sub a).y ^ 2 + ((a.add (u.smul L)).sub a).z ^ 2 = L ^ 2 * inner u u by
      simp only [V3.add, V3.sub, V3.smul, inner]; ring]
    rw [show inner u u = 1 from hu, mul_one, Real.sqrt_sq hL.le]
  unfold Straight.new
  simp only [hn]
  congr 1
  have := hL.ne'
  rw [h]
  simp only [V3.add, V3.sub, V3.smul, V3.div]
  ext <;> simp only <;> field_simp <;> ring

theorem getEnd_unit {a n u : V3} (hu : IsUnit3 u) {K : ℝ} (hK : 0 < K) (h : n = u.smul K) (L : ℝ) : getEnd a n L = a.add (u.smul L) := by
  have hn : n.norm = K := by
    rw [h]
    unfold V3.norm V3.smul
    simp only
    rw [show (K * u.x) ^ 2 + (K * u.y) ^ 2 + (K * u.z) ^ 2 = K ^ 2 * inner u u by simp only [inner]; ring,
      show inner u u = 1 from hu, mul_one, Real.sqrt_sq hK.le]
  unfold getEnd
  rw [hn, h]
  have := hK.ne'
  simp only [V3.add, V3.smul, V3.div]
  ext <;> simp only <;> field_simp

theorem angle_three_quarters {A : ℝ} (h0 : 0 < A) (h1 : A ≤ 2 * Real.pi) (hs : Real.sin A = -1) : A = 3 * Real.pi / 2 := by
  have hpi := Real.pi_pos
  have e1 : Real.cos (3 * Real.pi / 2) = 0 := by
    rw [show 3 * Real.pi / 2 = Real.pi / 2 + Real.pi by ring, Real.cos_add_pi, Real.cos_pi_div_two, neg_zero]
  have e2 : Real.sin (3 * Real.pi / 2) = -1 := by
    rw [show 3 * Real.pi / 2 = Real.pi / 2 + Real.pi by ring, Real.sin_add_pi, Real.sin_pi_div_two]
  have : Real.cos (A - 3 * Real.pi / 2) = 1 := by rw [Real.cos_sub, e1, e2, hs]; ring
  have := (Real.cos_eq_one_iff_of_lt_of_lt (by linarith) (by linarith)).1 this
  linarith

end Verif.Lane3d
