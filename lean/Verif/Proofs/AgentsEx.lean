import Verif.Proofs.Agents
import Mathlib.MeasureTheory.Integral.IntervalIntegral.FundThmCalculus

/-! An exact integrator, and the solutions for the example agents. -/

set_option autoImplicit false

namespace Verif.Agents
open Set

open Classical in
/-- The integrator that takes a solution, if there is one. -/
noncomputable def solver : Integ := fun f s h => if H : ∃ y, Mix.Solves s.length h f y ∧ y 0 = s then H.choose h else s

theorem solver_exact {f : ℝ → List ℝ → List ℝ} {h : ℝ} {n : Nat} (hs : ∀ s, s.length = n → ∃ y, Mix.Solves s.length h f y ∧ y 0 = s) : Exact solver n f h := by
  intro s hl
  have H := hs s hl
  refine ⟨H.choose, H.choose_spec.1, H.choose_spec.2, ?_⟩
  unfold solver
  rw [dif_pos H]

theorem solves_of {n : Nat} {T : ℝ} {f : ℝ → List ℝ → List ℝ} {y : ℝ → List ℝ} (hl : ∀ t, (y t).length = n)
    (hd : ∀ i < n, ∀ t, HasDerivAt (fun s => (y s).getD i 0) ((f t (y t)).getD i 0) t) : Mix.Solves n T f y :=
  ⟨fun t _ => hl t, fun i hi t _ => (hd i hi t).continuousAt.continuousWithinAt, fun t _ i hi => (hd i hi t).hasDerivWithinAt⟩

theorem hasDeriv_int (a : ℝ) {g : ℝ → ℝ} (hg : Continuous g) : ∀ t, HasDerivAt (fun t => a + ∫ s in (0 : ℝ)..t, g s) (g t) t := by
  intro t
  exact (intervalIntegral.integral_hasDerivAt_right (hg.intervalIntegrable _ _) (hg.stronglyMeasurableAtFilter _ _) hg.continuousAt).const_add a

/-- The motion of a car under a constant control. -/
noncomputable def carSol (u : ℝ × ℝ) (x y θ v : ℝ) (rest : List ℝ) (t : ℝ) : List ℝ :=
  let θt := fun s => θ + Real.sin u.1 / (175 / 100) * (v * s + u.2 / 2 * s ^ 2)
  [x + ∫ s in (0 : ℝ)..t, (v + u.2 * s) * Real.cos (θt s + u.1), y + ∫ s in (0 : ℝ)..t, (v + u.2 * s) * Real.sin (θt s + u.1), θt t, v + u.2 * t] ++ rest.map (· + t)

theorem carSol_solves (u : ℝ × ℝ) (x y θ v T : ℝ) (rest : List ℝ) (hr : rest.length ≤ 1) : Mix.Solves (4 + rest.length) T (carDyn u) (carSol u x y θ v rest) := by
  have hθ : ∀ t, HasDerivAt (fun s => θ + Real.sin u.1 / (175 / 100) * (v * s + u.2 / 2 * s ^ 2)) ((v + u.2 * t) / (175 / 100) * Real.sin u.1) t := by
    intro t
    have h1 := ((hasDeriv_quad 0 v u.2 t).const_mul (Real.sin u.1 / (175 / 100))).const_add θ
    simp only [zero_add] at h1
    exact h1.congr_deriv (by ring)
  have hc : Continuous (fun s => θ + Real.sin u.1 / (175 / 100) * (v * s + u.2 / 2 * s ^ 2)) := by fun_prop
  refine solves_of (fun t => by simp [carSol]; omega) ?_
  intro i hi t
  obtain ⟨d0, d1, d2, d3⟩ := carDyn_getD u t (carSol u x y θ v rest t)
  match i with
  | 0 =>
    rw [d0]
    exact hasDeriv_int x (g := fun s => (v + u.2 * s) * Real.cos (θ + Real.sin u.1 / (175 / 100) * (v * s + u.2 / 2 * s ^ 2) + u.1)) (by fun_prop) t
  | 1 =>
    rw [d1]
    exact hasDeriv_int y (g := fun s => (v + u.2 * s) * Real.sin (θ + Real.sin u.1 / (175 / 100) * (v * s + u.2 / 2 * s ^ 2) + u.1)) (by fun_prop) t
  | 2 => rw [d2]; exact hθ t
  | 3 => rw [d3]; exact hasDeriv_lin v u.2 t
  | 4 =>
    match rest with
    | [] => simp at hi
    | [r] =>
      have e1 : (carDyn u t (carSol u x y θ v [r] t)).getD 4 0 = 1 := by
        unfold carDyn
        dsimp only
        rw [if_neg (by simp [carSol])]
        simp
      rw [e1]
      have := (hasDerivAt_id t).const_add r
      exact this
    | _ :: _ :: _ => simp at hr
  | i + 5 => omega

theorem solver_car (u : ℝ × ℝ) (h : ℝ) (n : Nat) (hn : n = 4 ∨ n = 5) : Exact solver n (carDyn u) h := by
  refine solver_exact (fun s hs => ?_)
  rcases hn with rfl | rfl
  · match s, hs with
    | [x, y, θ, v], _ => exact ⟨carSol u x y θ v [], carSol_solves u x y θ v h [] (by simp), by simp [carSol]⟩
  · match s, hs with
    | [x, y, θ, v, r], _ => exact ⟨carSol u x y θ v [r], carSol_solves u x y θ v h [r] (by simp), by simp [carSol]⟩

theorem solver_robot (h : ℝ) : Exact solver 1 (fun _ _ => [1]) h := by
  refine solver_exact (fun s hs => ?_)
  match s, hs with
  | [x], _ =>
    refine ⟨fun t => [x + 1 * t], solves_of (fun t => rfl) ?_, by simp⟩
    intro i hi t
    obtain rfl : i = 0 := by simp at hi; exact hi
    exact hasDeriv_lin x 1 t

theorem solver_thermo (rate h : ℝ) : Exact solver 3 (thermoDyn rate) h := by
  refine solver_exact (fun s hs => ?_)
  match s, hs with
  | [x, a, b], _ =>
    refine ⟨fun t => [x * Real.exp (rate * t), a + 1 * t, b + 1 * t], solves_of (fun t => rfl) ?_, by simp⟩
    intro i hi t
    match i with
    | 0 =>
      have h1 : HasDerivAt (fun t : ℝ => rate * t) rate t := by simpa using (hasDerivAt_id t).const_mul rate
      have := (h1.exp).const_mul x
      exact this.congr_deriv (by simp [thermoDyn]; ring)
    | 1 => exact hasDeriv_lin a 1 t
    | 2 => exact hasDeriv_lin b 1 t
    | i + 3 => simp at hi

end Verif.Agents
