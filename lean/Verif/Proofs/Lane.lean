import Verif.Model.Lane
import Mathlib.Tactic.Linarith
import Mathlib.Tactic.Ring
import Mathlib.Tactic.FieldSimp
import Mathlib.Tactic.LinearCombination
import Mathlib.Analysis.SpecialFunctions.Trigonometric.Arctan

set_option autoImplicit false

namespace Verif.Lane

section
variable {K : Type} [Field K] [LinearOrder K] [IsStrictOrderedRing K]

/-- A product over an interval. -/
theorem mul_between (a b x d : K) (h1 : a ≤ x) (h2 : x ≤ b) : min (a * d) (b * d) ≤ x * d ∧ x * d ≤ max (a * d) (b * d) := by
  rcases le_total 0 d with h | h
  · exact ⟨(min_le_left _ _).trans (mul_le_mul_of_nonneg_right h1 h), (mul_le_mul_of_nonneg_right h2 h).trans (le_max_right _ _)⟩
  · exact ⟨(min_le_right _ _).trans (mul_le_mul_of_nonpos_right h2 h), (mul_le_mul_of_nonpos_right h1 h).trans (le_max_left _ _)⟩

omit [IsStrictOrderedRing K] in
/-- The extremal values of a product are attained at the ends. -/
theorem mul_attained (a b d : K) (h : a ≤ b) : (∃ x, a ≤ x ∧ x ≤ b ∧ x * d = min (a * d) (b * d)) ∧
    ∃ x, a ≤ x ∧ x ≤ b ∧ x * d = max (a * d) (b * d) := by
  constructor
  · rcases min_choice (a * d) (b * d) with e | e
    · exact ⟨a, le_refl _, h, e.symm⟩
    · exact ⟨b, h, le_refl _, e.symm⟩
  · rcases max_choice (a * d) (b * d) with e | e
    · exact ⟨a, le_refl _, h, e.symm⟩
    · exact ⟨b, h, le_refl _, e.symm⟩

end

/-! ### Reals -/

theorem norm2_nonneg (v : ℝ × ℝ) : 0 ≤ norm2 v := Real.sqrt_nonneg _

theorem norm2_sq (v : ℝ × ℝ) : norm2 v * norm2 v = v.1 * v.1 + v.2 * v.2 :=
  Real.mul_self_sqrt (add_nonneg (mul_self_nonneg _) (mul_self_nonneg _))

theorem norm2_mono (a b c d : ℝ) (ha : |a| ≤ |c|) (hb : |b| ≤ |d|) : norm2 (a, b) ≤ norm2 (c, d) := by
  refine Real.sqrt_le_sqrt ?_
  have := sq_le_sq.2 ha
  have := sq_le_sq.2 hb
  simp only
  nlinarith

/-- Values of `wrap_to_pi`. -/
theorem wrapToPi_eq (x : ℝ) : wrapToPi x = x - 2 * Real.pi * ⌊(x + Real.pi) / (2 * Real.pi)⌋ := by
  unfold wrapToPi fmod; ring

theorem wrapToPi_range (x : ℝ) : -Real.pi ≤ wrapToPi x ∧ wrapToPi x < Real.pi := by
  have hp : (0 : ℝ) < 2 * Real.pi := by have := Real.pi_pos; linarith
  have h1 := Int.floor_le ((x + Real.pi) / (2 * Real.pi))
  have h2 := Int.lt_floor_add_one ((x + Real.pi) / (2 * Real.pi))
  rw [le_div_iff₀ hp] at h1
  rw [div_lt_iff₀ hp] at h2
  rw [wrapToPi_eq]
  constructor <;> nlinarith

theorem wrapToPi_congr (x : ℝ) : ∃ k : ℤ, wrapToPi x = x + 2 * Real.pi * k :=
  ⟨-⌊(x + Real.pi) / (2 * Real.pi)⌋, by rw [wrapToPi_eq]; push_cast; ring⟩

theorem wrapToPi_unique (x y : ℝ) (k : ℤ) (h : y = x + 2 * Real.pi * k) (h1 : -Real.pi ≤ y) (h2 : y < Real.pi) : wrapToPi x = y := by
  obtain ⟨m, hm⟩ := wrapToPi_congr x
  obtain ⟨a, b⟩ := wrapToPi_range x
  have hp := Real.pi_pos
  have hd : wrapToPi x - y = 2 * Real.pi * ((m - k : ℤ) : ℝ) := by rw [hm, h]; push_cast; ring
  have : m - k = 0 := by
    by_contra hne
    rcases lt_or_gt_of_ne hne with hl | hl
    · have : ((m - k : ℤ) : ℝ) ≤ -1 := by exact_mod_cast (by omega : m - k ≤ -1)
      nlinarith
    · have : (1 : ℝ) ≤ ((m - k : ℤ) : ℝ) := by exact_mod_cast (by omega : 1 ≤ m - k)
      nlinarith
  rw [this] at hd
  simp at hd
  linarith

theorem arctan2_of (θ r x y : ℝ) (hr : 0 < r) (hx : x = r * Real.cos θ) (hy : y = r * Real.sin θ) (h1 : -Real.pi < θ)
    (h2 : θ ≤ Real.pi) : arctan2 y x = θ := by
  have := Complex.arg_mul_cos_add_sin_mul_I hr (θ := θ) ⟨h1, h2⟩
  unfold arctan2
  rw [← this]
  congr 1
  apply Complex.ext <;> simp [hx, hy, Complex.cos_ofReal_re, Complex.sin_ofReal_re, Complex.cos_ofReal_im, Complex.sin_ofReal_im]

theorem arctan2_right (x y : ℝ) (hx : 0 < x) : arctan2 y x = Real.arctan (y / x) := by
  have hs : 0 < Real.sqrt (1 + (y / x) ^ 2) := Real.sqrt_pos.2 (by positivity)
  refine arctan2_of _ (x * Real.sqrt (1 + (y / x) ^ 2)) x y (mul_pos hx hs) ?_ ?_ ?_ ?_
  · rw [Real.cos_arctan]; field_simp
  · rw [Real.sin_arctan]; field_simp
  · have := Real.neg_pi_div_two_lt_arctan (y / x); have := Real.pi_pos; linarith
  · have := Real.arctan_lt_pi_div_two (y / x); have := Real.pi_pos; linarith

theorem arctan2_up (x y : ℝ) (hy : 0 < y) : arctan2 y x = Real.pi / 2 - Real.arctan (x / y) := by
  have hs : 0 < Real.sqrt (1 + (x / y) ^ 2) := Real.sqrt_pos.2 (by positivity)
  refine arctan2_of _ (y * Real.sqrt (1 + (x / y) ^ 2)) x y (mul_pos hy hs) ?_ ?_ ?_ ?_
  · rw [Real.cos_pi_div_two_sub, Real.sin_arctan]; field_simp
  · rw [Real.sin_pi_div_two_sub, Real.cos_arctan]; field_simp
  · have := Real.arctan_lt_pi_div_two (x / y); have := Real.pi_pos; linarith
  · have := Real.neg_pi_div_two_lt_arctan (x / y); have := Real.pi_pos; linarith

theorem arctan2_down (x y : ℝ) (hy : y < 0) : arctan2 y x = -(Real.pi / 2) - Real.arctan (x / y) := by
  have hs : 0 < Real.sqrt (1 + (x / y) ^ 2) := Real.sqrt_pos.2 (by positivity)
  have hy' : y ≠ 0 := ne_of_lt hy
  have e : -(Real.pi / 2) - Real.arctan (x / y) = -(Real.arctan (x / y) + Real.pi / 2) := by ring
  refine arctan2_of _ (-y * Real.sqrt (1 + (x / y) ^ 2)) x y (mul_pos (by linarith) hs) ?_ ?_ ?_ ?_
  · rw [e, Real.cos_neg, Real.cos_add_pi_div_two, Real.sin_arctan]; field_simp
  · rw [e, Real.sin_neg, Real.sin_add_pi_div_two, Real.cos_arctan]; field_simp
  · have := Real.arctan_lt_pi_div_two (x / y); have := Real.pi_pos; linarith
  · have := Real.neg_pi_div_two_lt_arctan (x / y); have := Real.pi_pos; linarith

/-- A quotient over a box whose divisor keeps its sign lies between the quotients at the corners. -/
theorem div_between (a b x c d y : ℝ) (h1 : a ≤ x) (h2 : x ≤ b) (h3 : c ≤ y) (h4 : y ≤ d) (h : 0 < c ∨ d < 0) :
    min (min (a / c) (a / d)) (min (b / c) (b / d)) ≤ x / y ∧ x / y ≤ max (max (a / c) (a / d)) (max (b / c) (b / d)) := by
  have hinv : d⁻¹ ≤ y⁻¹ ∧ y⁻¹ ≤ c⁻¹ := by
    rcases h with h | h
    · have hy : 0 < y := by linarith
      exact ⟨inv_anti₀ hy h4, inv_anti₀ h h3⟩
    · have hy : y < 0 := by linarith
      have hc : c < 0 := by linarith
      exact ⟨(inv_le_inv_of_neg h hy).2 h4, (inv_le_inv_of_neg hy hc).2 h3⟩
  have k1 := mul_between a b x y⁻¹ h1 h2
  have k2 := mul_between d⁻¹ c⁻¹ y⁻¹ a hinv.1 hinv.2
  have k3 := mul_between d⁻¹ c⁻¹ y⁻¹ b hinv.1 hinv.2
  simp only [div_eq_mul_inv]
  rw [mul_comm d⁻¹ a, mul_comm c⁻¹ a, mul_comm y⁻¹ a] at k2
  rw [mul_comm d⁻¹ b, mul_comm c⁻¹ b, mul_comm y⁻¹ b] at k3
  constructor
  · refine le_trans ?_ k1.1
    refine min_le_min ?_ ?_
    · rw [min_comm]; exact k2.1
    · rw [min_comm]; exact k3.1
  · refine le_trans k1.2 ?_
    refine max_le_max ?_ ?_
    · rw [max_comm]; exact k2.2
    · rw [max_comm]; exact k3.2

/-- `arctan2` over a box that lies in one open half plane other than the left one is between its values at the corners. -/
theorem arctan2_between (lo hi p : ℝ × ℝ) (h1 : lo.1 ≤ p.1) (h2 : p.1 ≤ hi.1) (h3 : lo.2 ≤ p.2) (h4 : p.2 ≤ hi.2)
    (h : 0 < lo.1 ∨ 0 < lo.2 ∨ hi.2 < 0) :
    min (min (arctan2 lo.2 lo.1) (arctan2 lo.2 hi.1)) (min (arctan2 hi.2 lo.1) (arctan2 hi.2 hi.1)) ≤ arctan2 p.2 p.1 ∧
    arctan2 p.2 p.1 ≤ max (max (arctan2 lo.2 lo.1) (arctan2 lo.2 hi.1)) (max (arctan2 hi.2 lo.1) (arctan2 hi.2 hi.1)) := by
  have hm := Real.arctan_strictMono.monotone
  rcases h with h | h | h
  · have k := div_between lo.2 hi.2 p.2 lo.1 hi.1 p.1 h3 h4 h1 h2 (.inl h)
    rw [arctan2_right _ _ h, arctan2_right _ _ (by linarith : 0 < hi.1), arctan2_right _ _ (by linarith : 0 < p.1),
      arctan2_right _ _ h, arctan2_right _ _ (by linarith : 0 < hi.1)]
    simp only [← hm.map_min, ← hm.map_max]
    exact ⟨hm k.1, hm k.2⟩
  · have k := div_between lo.1 hi.1 p.1 lo.2 hi.2 p.2 h1 h2 h3 h4 (.inl h)
    rw [arctan2_up _ _ h, arctan2_up _ _ h, arctan2_up _ _ (by linarith : 0 < hi.2), arctan2_up _ _ (by linarith : 0 < hi.2),
      arctan2_up _ _ (by linarith : 0 < p.2)]
    have k1 := hm k.1
    have k2 := hm k.2
    simp only [hm.map_min, hm.map_max, min_le_iff, le_max_iff] at k1 k2 ⊢
    constructor
    · rcases k2 with (k | k) | k | k
      · exact .inl (.inl (by linarith))
      · exact .inr (.inl (by linarith))
      · exact .inl (.inr (by linarith))
      · exact .inr (.inr (by linarith))
    · rcases k1 with (k | k) | k | k
      · exact .inl (.inl (by linarith))
      · exact .inr (.inl (by linarith))
      · exact .inl (.inr (by linarith))
      · exact .inr (.inr (by linarith))
  · have k := div_between lo.1 hi.1 p.1 lo.2 hi.2 p.2 h1 h2 h3 h4 (.inr h)
    rw [arctan2_down _ _ h, arctan2_down _ _ h, arctan2_down _ _ (by linarith : lo.2 < 0), arctan2_down _ _ (by linarith : lo.2 < 0),
      arctan2_down _ _ (by linarith : p.2 < 0)]
    have k1 := hm k.1
    have k2 := hm k.2
    simp only [hm.map_min, hm.map_max, min_le_iff, le_max_iff] at k1 k2 ⊢
    constructor
    · rcases k2 with (k | k) | k | k
      · exact .inl (.inl (by linarith))
      · exact .inr (.inl (by linarith))
      · exact .inl (.inr (by linarith))
      · exact .inr (.inr (by linarith))
    · rcases k1 with (k | k) | k | k
      · exact .inl (.inl (by linarith))
      · exact .inr (.inl (by linarith))
      · exact .inl (.inr (by linarith))
      · exact .inr (.inr (by linarith))

/-- Without a wrap between two angles, wrapping is a shift on everything between them. -/
theorem wrap_between (s a b x : ℝ) (h1 : a ≤ x) (h2 : x ≤ b)
    (h : ⌊(a - s + Real.pi) / (2 * Real.pi)⌋ = ⌊(b - s + Real.pi) / (2 * Real.pi)⌋) :
    wrapToPi (a - s) ≤ wrapToPi (x - s) ∧ wrapToPi (x - s) ≤ wrapToPi (b - s) := by
  have hp : (0 : ℝ) < 2 * Real.pi := by have := Real.pi_pos; linarith
  have e : ⌊(x - s + Real.pi) / (2 * Real.pi)⌋ = ⌊(a - s + Real.pi) / (2 * Real.pi)⌋ := by
    apply le_antisymm
    · rw [h]; exact Int.floor_le_floor ((div_le_div_iff_of_pos_right hp).2 (by linarith))
    · exact Int.floor_le_floor ((div_le_div_iff_of_pos_right hp).2 (by linarith))
  rw [wrapToPi_eq, wrapToPi_eq, wrapToPi_eq, e, ← h]
  constructor <;> linarith

end Verif.Lane
