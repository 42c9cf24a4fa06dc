import Verif.Proofs.Diameter
import Mathlib.Data.Real.Basic

/-!
C92: the diameters of star sets.
-/

set_option autoImplicit false
set_option linter.unusedSectionVars false

namespace Verif.Props
open Verif.Diam Verif.Stars Finset

variable {K : Type} [Field K] [LinearOrder K] [IsStrictOrderedRing K]

/-- `milp` is right: what it gives is the least value. -/
def MilpSound (milp : Milp K → Option K) : Prop := ∀ P f, milp P = some f → Optimal P f

/-- **C92.** If a distance is found, it is the distance of two points of the star, and no two points of the star are further apart,
as long as the coordinates of those two differ by at most half of the big number 2^20 - 1. -/
theorem C92_distance_partial (milp : Milp K → Option K) (hm : MilpSound milp) (s : StarSet K) (d : K)
    (h : starManhattan milp s = (d, true)) :
    (∃ x y, Pt s x ∧ Pt s y ∧ manhattan s.center.len x y = d) ∧
    ∀ x y, Pt s x → Pt s y → (∀ i < s.center.len, 2 * |x i - y i| ≤ 1048575) → manhattan s.center.len x y ≤ d := by
  unfold starManhattan at h
  cases hf : milp (program s) with
  | none => rw [hf] at h; simp at h
  | some f =>
    rw [hf] at h
    simp only [Prod.mk.injEq, and_true] at h
    obtain ⟨⟨v, hv, hc⟩, ho⟩ := hm _ _ hf
    constructor
    · obtain ⟨hx, hy, hz⟩ := of_feasible s v hv
      refine ⟨_, _, hx, hy, ?_⟩
      rw [← h, ← hc, cost_eq, neg_one_mul, neg_neg]
      exact Finset.sum_congr rfl fun i hi => (hz i (Finset.mem_range.1 hi)).1.symm
    · intro x y hx hy hd
      obtain ⟨w, hw, hcw⟩ := to_feasible s x y hx hy hd
      have := ho w hw
      rw [hcw] at this
      linarith

/-- If no two points of the star differ by more than half of that number in a coordinate, the distance is the diameter of the star. -/
theorem C92_diameter_partial (milp : Milp K → Option K) (hm : MilpSound milp) (s : StarSet K) (d : K)
    (h : starManhattan milp s = (d, true)) (hw : ∀ x y, Pt s x → Pt s y → ∀ i < s.center.len, 2 * |x i - y i| ≤ 1048575) :
    IsDiameter s.center.len (Pt s) d := by
  obtain ⟨h1, h2⟩ := C92_distance_partial milp hm s d h
  exact ⟨h1, fun x y hx hy => h2 x y hx hy (hw x y hx hy)⟩

/-- No distance per coordinate beyond half of that number is ever found. -/
theorem C92_bound (milp : Milp K → Option K) (hm : MilpSound milp) (s : StarSet K) (d : K)
    (h : starManhattan milp s = (d, true)) : 2 * d ≤ s.center.len * 1048575 := by
  unfold starManhattan at h
  cases hf : milp (program s) with
  | none => rw [hf] at h; simp at h
  | some f =>
    rw [hf] at h
    simp only [Prod.mk.injEq, and_true] at h
    obtain ⟨⟨v, hv, hc⟩, ho⟩ := hm _ _ hf
    obtain ⟨hx, hy, hz⟩ := of_feasible s v hv
    rw [cost_eq] at hc
    have : ∑ k ∈ range s.center.len, v (s.center.len * 2 + k) ≤ ∑ k ∈ range s.center.len, (1048575 / 2 : K) := by
      refine Finset.sum_le_sum fun i hi => ?_
      obtain ⟨e, hl⟩ := hz i (Finset.mem_range.1 hi)
      rw [e]
      unfold bigN at hl
      linarith
    rw [Finset.sum_const, Finset.card_range, nsmul_eq_mul] at this
    rw [← h, ← hc]
    linarith

/-- The interval `[0, w]` as a star set: center 0, one vector 1, and `α ≤ w`, `-α ≤ 0`. -/
def interval (w : K) : StarSet K :=
  { center := ⟨1, fun _ => 0⟩
    basis := ⟨1, 1, fun _ _ => 1⟩
    C := ⟨2, 1, fun i _ => if i = 0 then 1 else -1⟩
    g := ⟨2, fun i => if i = 0 then w else 0⟩ }

theorem interval_points (w : K) (x : Nat → K) : Pt (interval w) x ↔ 0 ≤ x 0 ∧ x 0 ≤ w := by
  constructor
  · rintro ⟨α, h1, h2⟩
    have e := h2 0 (by simp [interval])
    have a0 := h1 0 (by simp [interval])
    have a1 := h1 1 (by simp [interval])
    simp only [interval, Finset.sum_range_one] at e a0 a1
    norm_num at e a0 a1
    rw [e]
    exact ⟨a1, a0⟩
  · rintro ⟨h1, h2⟩
    refine ⟨fun _ => x 0, ?_, ?_⟩
    · intro i hi
      have hi : i < 2 := hi
      rcases (show i = 0 ∨ i = 1 by omega) with rfl | rfl
      · simp [interval, h2]
      · simp [interval, h1]
    · intro d hd
      have hd : d < 1 := hd
      obtain rfl : d = 0 := by omega
      simp [interval]

/-- The diameter of the interval is its length. -/
theorem interval_diameter (w : K) (hw : 0 ≤ w) : IsDiameter 1 (Pt (interval w)) w := by
  constructor
  · refine ⟨fun _ => 0, fun _ => w, ?_, ?_, ?_⟩
    · rw [interval_points]; exact ⟨le_refl _, hw⟩
    · rw [interval_points]; exact ⟨hw, le_refl _⟩
    · simp [manhattan, abs_of_nonneg hw]
  · intro x y hx hy
    rw [interval_points] at hx hy
    simp only [manhattan, Finset.sum_range_one]
    rw [abs_le]
    constructor <;> linarith [hx.1, hx.2, hy.1, hy.2]

/-- The least value of a program, if there is one. -/
noncomputable def bestMilp (P : Milp K) : Option K := by
  classical exact if h : ∃ f, Optimal P f then some h.choose else none

theorem bestMilp_sound : MilpSound (bestMilp : Milp K → Option K) := by
  intro P f h
  unfold bestMilp at h
  split at h
  · rename_i hc
    injection h with h
    rw [← h]
    exact hc.choose_spec
  · cases h

/-- For intervals the program has a least value: the length, or half of the big number if that is less. -/
theorem interval_optimal (w : K) (hw : 0 ≤ w) : Optimal (program (interval w)) (-min w (1048575 / 2)) := by
  have hmin : 0 ≤ min w (1048575 / 2) := le_min hw (by norm_num)
  constructor
  · obtain ⟨v, hv, hc⟩ := to_feasible (interval w) (fun _ => 0) (fun _ => min w (1048575 / 2))
      ((interval_points _ _).2 ⟨le_refl _, hw⟩) ((interval_points _ _).2 ⟨hmin, min_le_left _ _⟩) (by
        intro d _
        rw [zero_sub, abs_neg, abs_of_nonneg hmin]
        have := min_le_right w (1048575 / 2)
        unfold bigN
        linarith)
    refine ⟨v, hv, ?_⟩
    rw [hc]
    simp [manhattan, interval, abs_of_nonneg hmin]
  · intro v hv
    obtain ⟨hx, hy, hz⟩ := of_feasible (interval w) v hv
    obtain ⟨e, hl⟩ := hz 0 (by simp [interval])
    rw [interval_points] at hx hy
    rw [cost_eq]
    simp only [interval, Finset.sum_range_one, Nat.add_zero] at e hl hx hy ⊢
    rw [neg_le_neg_iff, e]
    refine le_min ?_ ?_
    · rw [abs_le]
      constructor <;> linarith [hx.1, hx.2, hy.1, hy.2]
    · unfold bigN at hl
      linarith

/-- **C92 does not hold for wide stars.** The diameter of the interval `[0, 1000000]` is 1000000, but 524287.5 is found, and it counts as found. -/
theorem C92_wide_violated :
    IsDiameter 1 (Pt (interval (1000000 : ℚ))) 1000000 ∧ MilpSound (bestMilp : Milp ℚ → Option ℚ) ∧
    starManhattan bestMilp (interval (1000000 : ℚ)) = (1048575 / 2, true) ∧
    ∀ milp : Milp ℚ → Option ℚ, MilpSound milp → ∀ d, starManhattan milp (interval (1000000 : ℚ)) = (d, true) → d < 1000000 := by
  refine ⟨interval_diameter _ (by norm_num), bestMilp_sound, ?_, ?_⟩
  · have ho := interval_optimal (1000000 : ℚ) (by norm_num)
    have hb : bestMilp (program (interval (1000000 : ℚ))) = some (-(1048575 / 2)) := by
      cases h : bestMilp (program (interval (1000000 : ℚ))) with
      | none =>
        unfold bestMilp at h
        split at h
        · cases h
        · rename_i hc; exact absurd ⟨_, ho⟩ hc
      | some f =>
        obtain ⟨⟨x, hx, hcx⟩, hf⟩ := bestMilp_sound _ _ h
        obtain ⟨⟨y, hy, hcy⟩, hg⟩ := ho
        have h1 := hf y hy
        have h2 := hg x hx
        rw [hcy] at h1
        rw [hcx] at h2
        have : f = -min (1000000 : ℚ) (1048575 / 2) := le_antisymm h1 h2
        rw [this]
        norm_num
    unfold starManhattan
    rw [hb]
    norm_num
  · intro milp hm d h
    have := C92_bound milp hm _ d h
    simp only [interval] at this
    norm_num at this
    linarith

/-- For an interval of length 10 the hypotheses of `C92_diameter_partial` hold, and 10 is found. -/
example : MilpSound (bestMilp : Milp ℚ → Option ℚ) ∧ (∀ x y, Pt (interval (10 : ℚ)) x → Pt (interval (10 : ℚ)) y → ∀ i < (interval (10 : ℚ)).center.len, 2 * |x i - y i| ≤ 1048575) ∧
    ∃ f, bestMilp (program (interval (10 : ℚ))) = some f := by
  refine ⟨bestMilp_sound, ?_, ?_⟩
  · intro x y hx hy i hi
    have hi : i < 1 := hi
    obtain rfl : i = 0 := by omega
    rw [interval_points] at hx hy
    have : |x 0 - y 0| ≤ 10 := by rw [abs_le]; constructor <;> linarith [hx.1, hx.2, hy.1, hy.2]
    linarith
  · unfold bestMilp
    rw [dif_pos ⟨_, interval_optimal (10 : ℚ) (by norm_num)⟩]
    exact ⟨_, rfl⟩

end Verif.Props
