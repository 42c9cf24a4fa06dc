import Verif.Spec.Falling
import Verif.Proofs.AgentsEx

set_option autoImplicit false

namespace Verif.Falling
open Verif.Agents Verif.Falling.Spec Set

theorem gravity_getD {g : ℝ} {f : ℝ → List ℝ → List ℝ} (hf : ∀ t r, r.length = 4 → gravity g t r = .ok (f t r)) (t : ℝ) (r : List ℝ) (hr : r.length = 4) :
    f t r = [r.getD 2 0, r.getD 3 0, -g, 0] := by
  match r, hr with
  | [a, b, c, d], _ =>
    have := hf t [a, b, c, d] rfl
    simp only [gravity, Except.ok.injEq] at this
    rw [← this]
    simp

/-- The solution of the dynamics. -/
theorem gravity_flows {g h : ℝ} (hh : 0 ≤ h) {x y vx vy : ℝ} {s' : List ℝ} (hf : FlowsE (gravity g) h [x, y, vx, vy] s') : s' = fallsFirst g h [x, y, vx, vy] := by
  obtain ⟨f, hf, z, h1, h0, rfl⟩ := hf
  have hT : h ∈ Icc 0 h := ⟨hh, le_refl _⟩
  have hl : ∀ t ∈ Icc 0 h, (z t).length = 4 := fun t ht => by simpa using h1.length t ht
  have hfz : ∀ t ∈ Ico 0 h, f t (z t) = [(z t).getD 2 0, (z t).getD 3 0, -g, 0] := fun t ht => gravity_getD hf t _ (hl t (Ico_subset_Icc_self ht))
  have k2 : ∀ t ∈ Icc 0 h, (z t).getD 2 0 = vx + -g * t := fun t ht => by
    have := comp_lin h1 (i := 2) (by simp) (-g) (fun t ht => by rw [hfz t ht]; simp) t ht
    rw [this, h0]; simp
  have k3 : ∀ t ∈ Icc 0 h, (z t).getD 3 0 = vy := fun t ht => by
    have := comp_lin h1 (i := 3) (by simp) 0 (fun t ht => by rw [hfz t ht]; simp) t ht
    rw [this, h0]; simp
  have k0 := comp_eq h1 (i := 0) (by simp) _ _ (hasDeriv_quad x vx (-g)) (fun t ht => by rw [hfz t ht]; simpa using k2 t (Ico_subset_Icc_self ht)) (by rw [h0]; simp) h hT
  have k1 := comp_lin h1 (i := 1) (by simp) vy (fun t ht => by rw [hfz t ht]; simpa using k3 t (Ico_subset_Icc_self ht)) h hT
  have k2 := k2 h hT
  have k3 := k3 h hT
  rw [h0] at k1
  have hl := hl h hT
  generalize z h = w at *
  match w, hl with
  | [a, b, c, d], _ =>
    simp at k0 k1 k2 k3
    simp only [fallsFirst, k0, k1, k2, k3, List.cons.injEq, and_true]
    refine ⟨by ring, trivial, by ring⟩

theorem flows_gravity {g h : ℝ} (x y vx vy : ℝ) : FlowsE (gravity g) h [x, y, vx, vy] (fallsFirst g h [x, y, vx, vy]) := by
  refine ⟨fun _ r => [r.getD 2 0, r.getD 3 0, -g, 0], ?_, fun t => [x + vx * t + -g / 2 * t ^ 2, y + vy * t, vx + -g * t, vy], solves_of (fun _ => rfl) (fun i hi t => ?_), by simp, ?_⟩
  · intro t r hr
    match r, hr with
    | [a, b, c, d], _ => simp [gravity]
  · match i, hi with
    | 0, _ => exact hasDeriv_quad x vx (-g) t
    | 1, _ => exact hasDeriv_lin y vy t
    | 2, _ => exact hasDeriv_lin vx (-g) t
    | 3, _ => exact hasDerivAt_const _ _
  · simp only [fallsFirst, List.cons.injEq, and_true]
    refine ⟨by ring, trivial, by ring⟩

end Verif.Falling
