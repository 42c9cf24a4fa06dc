import Mathlib.Analysis.ODE.Gronwall
import Mathlib.Algebra.Order.Chebyshev
import Mathlib.Analysis.Calculus.Deriv.Pow

/-!
Comparison of a trajectory with the solution of the embedding system, for mixed-monotone systems in continuous time.
-/

set_option autoImplicit false

namespace Verif.Proofs.MixCont

open Set Filter Topology

/-- The square of the positive part. -/
noncomputable def sqPos (s : ℝ) : ℝ := (max s 0) ^ 2

theorem sqPos_deriv (s : ℝ) : HasDerivAt sqPos (2 * max s 0) s := by
  rcases lt_trichotomy s 0 with h | h | h
  · have e : sqPos =ᶠ[𝓝 s] fun _ => (0 : ℝ) := by
      filter_upwards [Iio_mem_nhds h] with x hx
      simp [sqPos, max_eq_right (le_of_lt (mem_Iio.1 hx))]
    rw [max_eq_right h.le, mul_zero]
    exact (hasDerivAt_const s (0 : ℝ)).congr_of_eventuallyEq e
  · subst h
    rw [max_self, mul_zero]
    rw [hasDerivAt_iff_isLittleO_nhds_zero]
    have : (fun h : ℝ => sqPos (0 + h) - sqPos 0 - h • (0 : ℝ)) = fun h => (max h 0) ^ 2 := by
      funext h; simp [sqPos]
    rw [this]
    have hO : (fun h : ℝ => (max h 0) ^ 2) =O[𝓝 0] fun h : ℝ => h ^ 2 := by
      refine Asymptotics.IsBigO.of_bound 1 (Eventually.of_forall fun h => ?_)
      rw [one_mul, norm_pow, norm_pow]
      refine pow_le_pow_left₀ (norm_nonneg _) ?_ 2
      rw [Real.norm_eq_abs, Real.norm_eq_abs, abs_of_nonneg (le_max_right h 0)]
      exact max_le (le_abs_self h) (abs_nonneg h)
    refine hO.trans_isLittleO ?_
    have := Asymptotics.isLittleO_pow_id (𝕜 := ℝ) (n := 2) (by norm_num)
    simpa using this
  · have e : sqPos =ᶠ[𝓝 s] fun x => x ^ 2 := by
      filter_upwards [Ioi_mem_nhds h] with x hx
      simp [sqPos, max_eq_left (le_of_lt (mem_Ioi.1 hx))]
    rw [max_eq_left h.le]
    have := (hasDerivAt_pow 2 s).congr_of_eventuallyEq e
    simpa using this

variable {n : Nat}

/-- How far the trajectory is outside. -/
noncomputable def excess (x xh ξ : Fin n → ℝ) : ℝ := ∑ j, (max (x j - ξ j) 0 + max (ξ j - xh j) 0)

/-- If the speed of leaving is bounded by a multiple of the distance outside, the trajectory stays inside. -/
theorem stays (T L : ℝ) (hL : 0 ≤ L) (x xh ξ A B C : ℝ → Fin n → ℝ)
    (hx : ∀ i, ContinuousOn (fun t => x t i) (Icc 0 T)) (hxh : ∀ i, ContinuousOn (fun t => xh t i) (Icc 0 T))
    (hξ : ∀ i, ContinuousOn (fun t => ξ t i) (Icc 0 T))
    (dx : ∀ t ∈ Ico 0 T, ∀ i, HasDerivWithinAt (fun t => x t i) (A t i) (Ici t) t)
    (dxh : ∀ t ∈ Ico 0 T, ∀ i, HasDerivWithinAt (fun t => xh t i) (B t i) (Ici t) t)
    (dξ : ∀ t ∈ Ico 0 T, ∀ i, HasDerivWithinAt (fun t => ξ t i) (C t i) (Ici t) t)
    (hlo : ∀ t ∈ Ico 0 T, ∀ i, ξ t i < x t i → A t i - C t i ≤ L * excess (x t) (xh t) (ξ t))
    (hhi : ∀ t ∈ Ico 0 T, ∀ i, xh t i < ξ t i → C t i - B t i ≤ L * excess (x t) (xh t) (ξ t))
    (h0 : ∀ i, x 0 i ≤ ξ 0 i ∧ ξ 0 i ≤ xh 0 i) : ∀ t ∈ Icc 0 T, ∀ i, x t i ≤ ξ t i ∧ ξ t i ≤ xh t i := by
  set E : ℝ → ℝ := fun t => ∑ i, (sqPos (x t i - ξ t i) + sqPos (ξ t i - xh t i)) with hE
  set E' : ℝ → ℝ := fun t => ∑ i, (2 * max (x t i - ξ t i) 0 * (A t i - C t i) + 2 * max (ξ t i - xh t i) 0 * (C t i - B t i)) with hE'
  have hcs : Continuous sqPos := continuous_iff_continuousAt.2 fun s => (sqPos_deriv s).continuousAt
  have hEc : ContinuousOn E (Icc 0 T) := by
    refine continuousOn_finsetSum _ fun i _ => ContinuousOn.add ?_ ?_
    · exact hcs.comp_continuousOn ((hx i).sub (hξ i))
    · exact hcs.comp_continuousOn ((hξ i).sub (hxh i))
  have hEd : ∀ t ∈ Ico 0 T, HasDerivWithinAt E (E' t) (Ici t) t := by
    intro t ht
    refine HasDerivWithinAt.fun_sum fun i _ => HasDerivWithinAt.add ?_ ?_
    · exact (sqPos_deriv _).comp_hasDerivWithinAt t ((dx t ht i).sub (dξ t ht i))
    · exact (sqPos_deriv _).comp_hasDerivWithinAt t ((dξ t ht i).sub (dxh t ht i))
  have hbound : ∀ t ∈ Ico 0 T, E' t ≤ (4 * L * n) * E t + 0 := by
    intro t ht
    have hS : ∀ i, (0 : ℝ) ≤ max (x t i - ξ t i) 0 + max (ξ t i - xh t i) 0 := fun i => add_nonneg (le_max_right _ _) (le_max_right _ _)
    set S := excess (x t) (xh t) (ξ t) with hSd
    have hS0 : 0 ≤ S := Finset.sum_nonneg fun i _ => hS i
    have h1 : E' t ≤ ∑ i, 2 * (L * S) * (max (x t i - ξ t i) 0 + max (ξ t i - xh t i) 0) := by
      refine Finset.sum_le_sum fun i _ => ?_
      have a1 : 2 * max (x t i - ξ t i) 0 * (A t i - C t i) ≤ 2 * max (x t i - ξ t i) 0 * (L * S) := by
        by_cases hc : ξ t i < x t i
        · exact mul_le_mul_of_nonneg_left (hlo t ht i hc) (mul_nonneg (by norm_num) (le_max_right _ _))
        · rw [max_eq_right (by linarith [not_lt.1 hc])]; simp
      have a2 : 2 * max (ξ t i - xh t i) 0 * (C t i - B t i) ≤ 2 * max (ξ t i - xh t i) 0 * (L * S) := by
        by_cases hc : xh t i < ξ t i
        · exact mul_le_mul_of_nonneg_left (hhi t ht i hc) (mul_nonneg (by norm_num) (le_max_right _ _))
        · rw [max_eq_right (by linarith [not_lt.1 hc])]; simp
      nlinarith [a1, a2]
    have h2 : ∑ i, 2 * (L * S) * (max (x t i - ξ t i) 0 + max (ξ t i - xh t i) 0) = 2 * L * S ^ 2 := by
      rw [← Finset.mul_sum]
      have : ∑ i, (max (x t i - ξ t i) 0 + max (ξ t i - xh t i) 0) = S := rfl
      rw [this]; ring
    have h3 : S ^ 2 ≤ n * ∑ i, (max (x t i - ξ t i) 0 + max (ξ t i - xh t i) 0) ^ 2 := by
      have := sq_sum_le_card_mul_sum_sq (s := (Finset.univ : Finset (Fin n))) (f := fun i => max (x t i - ξ t i) 0 + max (ξ t i - xh t i) 0)
      rw [Finset.card_univ, Fintype.card_fin] at this
      exact this
    have h4 : ∑ i, (max (x t i - ξ t i) 0 + max (ξ t i - xh t i) 0) ^ 2 ≤ 2 * E t := by
      rw [hE]
      dsimp only
      rw [Finset.mul_sum]
      refine Finset.sum_le_sum fun i _ => ?_
      unfold sqPos
      nlinarith [sq_nonneg (max (x t i - ξ t i) 0 - max (ξ t i - xh t i) 0)]
    have hn : (0 : ℝ) ≤ n := Nat.cast_nonneg n
    calc E' t ≤ 2 * L * S ^ 2 := h2 ▸ h1
      _ ≤ 2 * L * (n * (2 * E t)) := mul_le_mul_of_nonneg_left (h3.trans (mul_le_mul_of_nonneg_left h4 hn)) (by positivity)
      _ = (4 * L * n) * E t + 0 := by ring
  have hE0 : E 0 ≤ 0 := by
    refine le_of_eq (Finset.sum_eq_zero fun i _ => ?_)
    simp [sqPos, max_eq_right (sub_nonpos.2 (h0 i).1), max_eq_right (sub_nonpos.2 (h0 i).2)]
  have hg := le_gronwallBound_of_liminf_deriv_right_le hEc
    (fun t ht r hr => (hEd t ht).liminf_right_slope_le hr) hE0 hbound
  intro t ht i
  have h := hg t ht
  rw [gronwallBound_ε0_δ0] at h
  have hnn : ∀ s, 0 ≤ sqPos s := fun s => sq_nonneg _
  have hz : ∀ i ∈ Finset.univ, sqPos (x t i - ξ t i) + sqPos (ξ t i - xh t i) = 0 :=
    (Finset.sum_eq_zero_iff_of_nonneg fun i _ => add_nonneg (hnn _) (hnn _)).1
      (le_antisymm h (Finset.sum_nonneg fun i _ => add_nonneg (hnn _) (hnn _)))
  have hzi := hz i (Finset.mem_univ i)
  have z1 : sqPos (x t i - ξ t i) = 0 := le_antisymm (by linarith [hnn (ξ t i - xh t i)]) (hnn _)
  have z2 : sqPos (ξ t i - xh t i) = 0 := le_antisymm (by linarith [hnn (x t i - ξ t i)]) (hnn _)
  have key : ∀ s, sqPos s = 0 → s ≤ 0 := by
    intro s hs
    have : max s 0 = 0 := by simpa [sqPos] using hs
    exact (le_max_left s 0).trans this.le
  exact ⟨by linarith [key _ z1], by linarith [key _ z2]⟩

end Verif.Proofs.MixCont
