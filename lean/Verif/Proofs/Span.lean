import Verif.Proofs.Angular
import Verif.Spec.Direction
import Mathlib.Analysis.SpecialFunctions.Complex.Arg
import Mathlib.Algebra.Order.Floor.Ring
import Mathlib.Algebra.Order.Archimedean.Real.Basic

/-! Lemmas about the directions between rectangles. -/

set_option autoImplicit false
set_option linter.unusedSectionVars false

namespace Verif.Ang

open Verif.Spec

/-- `np.arctan2` on real numbers. -/
noncomputable def arctan2 (y x : ℝ) : ℝ := Complex.arg ⟨x, y⟩

theorem arctan2_of_direction {x y θ : ℝ} (h : IsDirection x y θ) : arctan2 y x = θ := by
  obtain ⟨r, hr, hx, hy, h1, h2⟩ := h
  unfold arctan2
  have : (⟨x, y⟩ : ℂ) = (r : ℂ) * (Complex.cos θ + Complex.sin θ * Complex.I) := by
    apply Complex.ext
    · simp [hx, Complex.cos_ofReal_re, Complex.sin_ofReal_im, Complex.cos_ofReal_im]
    · simp [hy, Complex.cos_ofReal_im, Complex.sin_ofReal_re]
  rw [this]
  exact Complex.arg_mul_cos_add_sin_mul_I hr ⟨h1, h2⟩

theorem arctan2_range (y x : ℝ) : -Real.pi < arctan2 y x ∧ arctan2 y x ≤ Real.pi :=
  ⟨Complex.neg_pi_lt_arg _, Complex.arg_le_pi _⟩

theorem direction_arctan2 (x y : ℝ) (h : x ≠ 0 ∨ y ≠ 0) : IsDirection x y (arctan2 y x) := by
  have hz : (⟨x, y⟩ : ℂ) ≠ 0 := by
    intro e
    have e1 : x = 0 := congrArg Complex.re e
    have e2 : y = 0 := congrArg Complex.im e
    rcases h with h | h
    · exact h e1
    · exact h e2
  refine ⟨‖(⟨x, y⟩ : ℂ)‖, norm_pos_iff.2 hz, ?_, ?_, arctan2_range y x⟩
  · exact (Complex.norm_mul_cos_arg ⟨x, y⟩).symm
  · exact (Complex.norm_mul_sin_arg ⟨x, y⟩).symm

theorem arctan2_zero : arctan2 0 0 = 0 := by
  unfold arctan2
  exact Complex.arg_zero

/-! ### Circular cones are convex -/

/-- The cone of directions within `ω` of `μ`. -/
def Cone (μ ω : ℝ) (v : ℝ × ℝ) : Prop :=
  Real.sqrt (v.1 ^ 2 + v.2 ^ 2) * Real.cos ω ≤ v.1 * Real.cos μ + v.2 * Real.sin μ

theorem sqrt_tri (a b c d : ℝ) : Real.sqrt ((a + c) ^ 2 + (b + d) ^ 2) ≤ Real.sqrt (a ^ 2 + b ^ 2) + Real.sqrt (c ^ 2 + d ^ 2) := by
  have h1 := Real.sq_sqrt (show 0 ≤ a ^ 2 + b ^ 2 by positivity)
  have h2 := Real.sq_sqrt (show 0 ≤ c ^ 2 + d ^ 2 by positivity)
  have p1 := Real.sqrt_nonneg (a ^ 2 + b ^ 2)
  have p2 := Real.sqrt_nonneg (c ^ 2 + d ^ 2)
  apply Real.sqrt_le_iff.2
  refine ⟨by linarith, ?_⟩
  have h3 : a * c + b * d ≤ Real.sqrt (a ^ 2 + b ^ 2) * Real.sqrt (c ^ 2 + d ^ 2) := by
    rw [← Real.sqrt_mul (by positivity)]
    apply Real.le_sqrt_of_sq_le
    nlinarith [sq_nonneg (a * d - b * c)]
  nlinarith

theorem sqrt_scale (l a b : ℝ) (hl : 0 ≤ l) : Real.sqrt ((l * a) ^ 2 + (l * b) ^ 2) = l * Real.sqrt (a ^ 2 + b ^ 2) := by
  rw [show (l * a) ^ 2 + (l * b) ^ 2 = l ^ 2 * (a ^ 2 + b ^ 2) by ring, Real.sqrt_mul (by positivity), Real.sqrt_sq hl]

theorem Cone.convex {μ ω : ℝ} (hc : 0 ≤ Real.cos ω) {v w : ℝ × ℝ} (hv : Cone μ ω v) (hw : Cone μ ω w) (l m : ℝ) (hl : 0 ≤ l) (hm : 0 ≤ m) :
    Cone μ ω (l * v.1 + m * w.1, l * v.2 + m * w.2) := by
  unfold Cone at *
  dsimp only
  have h1 := sqrt_tri (l * v.1) (l * v.2) (m * w.1) (m * w.2)
  rw [sqrt_scale l _ _ hl, sqrt_scale m _ _ hm] at h1
  have h2 := mul_le_mul_of_nonneg_right h1 hc
  have h3 := mul_le_mul_of_nonneg_left hv hl
  have h4 := mul_le_mul_of_nonneg_left hw hm
  nlinarith

/-- A number between two others is a combination of them. -/
theorem between_combo (a b x : ℝ) (h1 : a ≤ x) (h2 : x ≤ b) : ∃ l m : ℝ, 0 ≤ l ∧ 0 ≤ m ∧ l + m = 1 ∧ x = l * a + m * b := by
  rcases eq_or_lt_of_le (h1.trans h2) with h | h
  · exact ⟨1, 0, by norm_num, by norm_num, by norm_num, by rw [h] at h1; rw [h]; linarith⟩
  · have hd : 0 < b - a := by linarith
    refine ⟨(b - x) / (b - a), (x - a) / (b - a), by apply div_nonneg <;> linarith, by apply div_nonneg <;> linarith, ?_, ?_⟩
    · field_simp; ring
    · field_simp; ring

/-- A rectangle lies in a cone when its corners do. -/
theorem Cone.rect {μ ω : ℝ} (hc : 0 ≤ Real.cos ω) (a b c d : ℝ) (h1 : Cone μ ω (a, c)) (h2 : Cone μ ω (a, d)) (h3 : Cone μ ω (b, c))
    (h4 : Cone μ ω (b, d)) (x y : ℝ) (hx1 : a ≤ x) (hx2 : x ≤ b) (hy1 : c ≤ y) (hy2 : y ≤ d) : Cone μ ω (x, y) := by
  obtain ⟨l, m, hl, hm, hlm, ex⟩ := between_combo a b x hx1 hx2
  obtain ⟨l', m', hl', hm', hlm', ey⟩ := between_combo c d y hy1 hy2
  have e1 := Cone.convex hc h1 h3 l m hl hm
  have e2 := Cone.convex hc h2 h4 l m hl hm
  have e3 := Cone.convex hc e1 e2 l' m' hl' hm'
  dsimp only at e3
  convert e3 using 2
  · rw [ex]; linear_combination -(l * a + m * b) * hlm'
  · rw [ey]; linear_combination -(l' * c + m' * d) * hlm

/-- A vector is in the cone exactly when its direction is within `ω` of `μ`, up to turns. -/
theorem Cone.of_direction {μ ω θ x y : ℝ} (hω : 0 ≤ ω) (hω' : ω ≤ Real.pi) (h : IsDirection x y θ) (k : ℤ)
    (h1 : |θ + 2 * Real.pi * k - μ| ≤ ω) : Cone μ ω (x, y) := by
  obtain ⟨r, hr, hx, hy, -, -⟩ := h
  unfold Cone
  dsimp only
  have hn : Real.sqrt (x ^ 2 + y ^ 2) = r := by
    rw [hx, hy, sqrt_scale r _ _ hr.le, Real.cos_sq_add_sin_sq, Real.sqrt_one, mul_one]
  have : Real.cos ω ≤ Real.cos (θ + 2 * Real.pi * k - μ) := by
    rw [← Real.cos_abs (θ + 2 * Real.pi * k - μ)]
    exact Real.cos_le_cos_of_nonneg_of_le_pi (abs_nonneg _) hω' h1
  rw [show θ + 2 * Real.pi * k - μ = (θ - μ) + k * (2 * Real.pi) by ring, Real.cos_add_int_mul_two_pi, Real.cos_sub] at this
  rw [hn, hx, hy]
  nlinarith

theorem Cone.zero (μ ω : ℝ) : Cone μ ω (0, 0) := by
  unfold Cone; simp

theorem Cone.to_direction {μ ω θ x y : ℝ} (hω : 0 ≤ ω) (hω' : ω < Real.pi) (h : IsDirection x y θ) (hc : Cone μ ω (x, y)) :
    ∃ k : ℤ, |θ + 2 * Real.pi * k - μ| ≤ ω := by
  obtain ⟨r, hr, hx, hy, -, -⟩ := h
  unfold Cone at hc
  dsimp only at hc
  have hn : Real.sqrt (x ^ 2 + y ^ 2) = r := by
    rw [hx, hy, sqrt_scale r _ _ hr.le, Real.cos_sq_add_sin_sq, Real.sqrt_one, mul_one]
  rw [hn, hx, hy] at hc
  have hcos : Real.cos ω ≤ Real.cos (θ - μ) := by
    rw [Real.cos_sub]
    by_contra hlt
    nlinarith [not_le.1 hlt]
  -- the value in `(-π, π]`
  obtain ⟨⟨k, hk⟩, a, b⟩ := wrapAngle_isWrap Real.pi (θ - μ) Real.pi_pos
  refine ⟨k, ?_⟩
  have e : θ + 2 * Real.pi * k - μ = wrapAngle Real.pi (θ - μ) := by rw [hk]; ring
  rw [e]
  by_contra hlt
  have hlt := not_le.1 hlt
  have habs : |wrapAngle Real.pi (θ - μ)| ≤ Real.pi := abs_le.2 ⟨by linarith, b⟩
  have := Real.cos_lt_cos_of_nonneg_of_le_pi hω habs hlt
  rw [Real.cos_abs, hk, show θ - μ + 2 * Real.pi * k = (θ - μ) + k * (2 * Real.pi) by ring, Real.cos_add_int_mul_two_pi] at this
  linarith

/-! ### Minimum and maximum of a list -/

theorem foldl_min_le {K : Type} [LinearOrder K] : ∀ (l : List K) (a : K), l.foldl min a ≤ a ∧ ∀ x ∈ l, l.foldl min a ≤ x
  | [], a => ⟨le_refl _, by simp⟩
  | b :: l, a => by
    obtain ⟨h1, h2⟩ := foldl_min_le l (min a b)
    refine ⟨h1.trans (min_le_left _ _), ?_⟩
    intro x hx
    rcases List.mem_cons.1 hx with rfl | hx
    · exact h1.trans (min_le_right _ _)
    · exact h2 x hx

theorem foldl_min_mem {K : Type} [LinearOrder K] : ∀ (l : List K) (a : K), l.foldl min a = a ∨ l.foldl min a ∈ l
  | [], a => .inl rfl
  | b :: l, a => by
    rcases foldl_min_mem l (min a b) with h | h
    · rw [List.foldl_cons, h]
      rcases min_choice a b with h | h <;> rw [h]
      · exact .inl rfl
      · exact .inr (by simp)
    · exact .inr (List.mem_cons_of_mem _ h)

theorem foldl_max_le {K : Type} [LinearOrder K] : ∀ (l : List K) (a : K), a ≤ l.foldl max a ∧ ∀ x ∈ l, x ≤ l.foldl max a
  | [], a => ⟨le_refl _, by simp⟩
  | b :: l, a => by
    obtain ⟨h1, h2⟩ := foldl_max_le l (max a b)
    refine ⟨(le_max_left _ _).trans h1, ?_⟩
    intro x hx
    rcases List.mem_cons.1 hx with rfl | hx
    · exact (le_max_right _ _).trans h1
    · exact h2 x hx

theorem foldl_max_mem {K : Type} [LinearOrder K] : ∀ (l : List K) (a : K), l.foldl max a = a ∨ l.foldl max a ∈ l
  | [], a => .inl rfl
  | b :: l, a => by
    rcases foldl_max_mem l (max a b) with h | h
    · rw [List.foldl_cons, h]
      rcases max_choice a b with h | h <;> rw [h]
      · exact .inl rfl
      · exact .inr (by simp)
    · exact .inr (List.mem_cons_of_mem _ h)

section
variable {K : Type} [Field K] [LinearOrder K]

theorem minList_le (l : List K) (x : K) (hx : x ∈ l) : minList l ≤ x := by
  cases l with
  | nil => simp at hx
  | cons a l =>
    obtain ⟨h1, h2⟩ := foldl_min_le l a
    rcases List.mem_cons.1 hx with rfl | hx
    · exact h1
    · exact h2 x hx

theorem minList_mem (l : List K) (hl : l ≠ []) : minList l ∈ l := by
  cases l with
  | nil => exact absurd rfl hl
  | cons a l =>
    rcases foldl_min_mem l a with h | h
    · simp [minList, h]
    · exact List.mem_cons_of_mem _ h

theorem le_maxList (l : List K) (x : K) (hx : x ∈ l) : x ≤ maxList l := by
  cases l with
  | nil => simp at hx
  | cons a l =>
    obtain ⟨h1, h2⟩ := foldl_max_le l a
    rcases List.mem_cons.1 hx with rfl | hx
    · exact h1
    · exact h2 x hx

theorem maxList_mem (l : List K) (hl : l ≠ []) : maxList l ∈ l := by
  cases l with
  | nil => exact absurd rfl hl
  | cons a l =>
    rcases foldl_max_mem l a with h | h
    · simp [maxList, h]
    · exact List.mem_cons_of_mem _ h

theorem minList_eq (l : List K) (a : K) (h1 : a ∈ l) (h2 : ∀ x ∈ l, a ≤ x) : minList l = a :=
  le_antisymm (minList_le l a h1) (h2 _ (minList_mem l (by rintro rfl; simp at h1)))

theorem maxList_eq (l : List K) (a : K) (h1 : a ∈ l) (h2 : ∀ x ∈ l, x ≤ a) : maxList l = a :=
  le_antisymm (h2 _ (maxList_mem l (by rintro rfl; simp at h1))) (le_maxList l a h1)
end

/-- The core of the argument: when the angles of the corners, each up to turns, lie in an interval `[lo, hi]` of at most half a turn, so does
the angle of every point. -/
theorem rect_angle (a b c d lo hi : ℝ) (hw : hi - lo ≤ Real.pi) (hle : lo ≤ hi)
    (hcorner : ∀ v ∈ [(a, c), (a, d), (b, c), (b, d)], v ≠ (0, 0) → ∃ k : ℤ, lo ≤ arctan2 v.2 v.1 + 2 * Real.pi * k ∧ arctan2 v.2 v.1 + 2 * Real.pi * k ≤ hi)
    (x y θ : ℝ) (hx1 : a ≤ x) (hx2 : x ≤ b) (hy1 : c ≤ y) (hy2 : y ≤ d) (h : IsDirection x y θ) :
    ∃ k : ℤ, lo ≤ θ + 2 * Real.pi * k ∧ θ + 2 * Real.pi * k ≤ hi := by
  have hpi := Real.pi_pos
  have hω : 0 ≤ (hi - lo) / 2 := by linarith
  have hc : 0 ≤ Real.cos ((hi - lo) / 2) := Real.cos_nonneg_of_mem_Icc ⟨by linarith, by linarith⟩
  have hcone : ∀ v ∈ [(a, c), (a, d), (b, c), (b, d)], Cone ((lo + hi) / 2) ((hi - lo) / 2) v := by
    intro v hv
    by_cases h0 : v = (0, 0)
    · rw [h0]; exact Cone.zero _ _
    · obtain ⟨k, h1, h2⟩ := hcorner v hv h0
      have hd : IsDirection v.1 v.2 (arctan2 v.2 v.1) := direction_arctan2 _ _ (by
        by_contra hcon
        push Not at hcon
        exact h0 (Prod.ext hcon.1 hcon.2))
      exact Cone.of_direction hω (by linarith) hd k (abs_le.2 ⟨by linarith, by linarith⟩)
  have := Cone.rect hc a b c d (hcone _ (by simp)) (hcone _ (by simp)) (hcone _ (by simp)) (hcone _ (by simp)) x y hx1 hx2 hy1 hy2
  obtain ⟨k, hk⟩ := Cone.to_direction hω (by linarith) h this
  obtain ⟨h1, h2⟩ := abs_le.1 hk
  exact ⟨k, by linarith, by linarith⟩

/-! ### Where `arctan2` lies -/

theorem arctan2_right (y x : ℝ) (h : 0 ≤ x) : -(Real.pi / 2) ≤ arctan2 y x ∧ arctan2 y x ≤ Real.pi / 2 :=
  Complex.abs_arg_le_pi_div_two_iff.2 (show 0 ≤ (⟨x, y⟩ : ℂ).re from h) |> abs_le.1

theorem arctan2_up (y x : ℝ) (h : 0 ≤ y) : 0 ≤ arctan2 y x := Complex.arg_nonneg_iff.2 h

theorem arctan2_down (y x : ℝ) (h : y < 0) : arctan2 y x < 0 := Complex.arg_neg_iff.2 h

theorem arctan2_left (y x : ℝ) (h : x < 0) : Real.pi / 2 < arctan2 y x ∨ arctan2 y x < -(Real.pi / 2) := by
  have : ¬ |arctan2 y x| ≤ Real.pi / 2 := fun hc => absurd (Complex.abs_arg_le_pi_div_two_iff.1 hc) (not_le.2 h)
  have := not_le.1 this
  rcases lt_abs.1 this with h | h
  · exact .inl h
  · exact .inr (by linarith)

theorem fmod_arctan2 (y x : ℝ) : fmod (arctan2 y x) (2 * Real.pi) = if arctan2 y x < 0 then arctan2 y x + 2 * Real.pi else arctan2 y x := by
  obtain ⟨h1, h2⟩ := arctan2_range y x
  have hpi := Real.pi_pos
  obtain ⟨k, hk⟩ := fmod_congr (arctan2 y x) (2 * Real.pi)
  obtain ⟨r1, r2⟩ := fmod_range (arctan2 y x) (2 * Real.pi) (by linarith)
  split
  · next h =>
    exact turns_unique Real.pi hpi _ _ (k - 1) (by rw [hk]; push_cast; ring) (by linarith) (by linarith)
  · next h =>
    exact turns_unique Real.pi hpi _ _ k hk (by linarith [not_lt.1 h]) (by linarith)

end Verif.Ang
