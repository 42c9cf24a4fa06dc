import Verif.Proofs.MixCont2
import Verif.Props.MixMono
import Mathlib.Analysis.Calculus.Deriv.Comp
import Mathlib.Tactic.IntervalCases
import Mathlib.Analysis.SpecialFunctions.Trigonometric.Deriv
import Mathlib.Analysis.SpecialFunctions.Trigonometric.Bounds

/-!
C81: tubes of mixed-monotone systems in continuous time.
-/

set_option autoImplicit false

namespace Verif.Props
open Verif.Mix Verif.Proofs.MixCont Set

/-- The rectangle of two rows: its bounds are bounds of all four vectors. -/
theorem rectOf_getD (r r' : Row ℝ) (n : Nat) (h1 : r.x.length = n) (h2 : r.xhat.length = n) (h3 : r'.x.length = n) (h4 : r'.xhat.length = n) :
    ∃ lo hi, rectOf r r' = .ok [(r.time, lo), (r'.time, hi)] ∧ lo.length = n ∧ hi.length = n ∧ ∀ j < n,
      (lo.getD j 0 ≤ r.x.getD j 0 ∧ lo.getD j 0 ≤ r'.x.getD j 0) ∧ (r.xhat.getD j 0 ≤ hi.getD j 0 ∧ r'.xhat.getD j 0 ≤ hi.getD j 0) := by
  have hr : ∀ f : ℝ → ℝ → ℝ, reduce4 f r.x r'.x r.xhat r'.xhat =
      .ok (List.zipWith f (List.zipWith f (List.zipWith f r.x r'.x) r.xhat) r'.xhat) := by
    intro f
    rw [reduce4, if_pos]
    omega
  have hl : ∀ f : ℝ → ℝ → ℝ, (List.zipWith f r.x r'.x).length = n := by simp [h1, h3]
  have hl2 : ∀ f : ℝ → ℝ → ℝ, (List.zipWith f (List.zipWith f r.x r'.x) r.xhat).length = n := by simp [h1, h2, h3]
  refine ⟨List.zipWith min (List.zipWith min (List.zipWith min r.x r'.x) r.xhat) r'.xhat, List.zipWith max (List.zipWith max (List.zipWith max r.x r'.x) r.xhat) r'.xhat,
    ?_, by simp [h1, h2, h3, h4], by simp [h1, h2, h3, h4], fun j hj => ?_⟩
  · unfold rectOf
    rw [hr min, hr max]
    rfl
  · rw [getD_zip (hl2 _) h4 hj, getD_zip (hl _) h2 hj, getD_zip h1 h3 hj, getD_zip (hl2 _) h4 hj, getD_zip (hl _) h2 hj, getD_zip h1 h3 hj]
    refine ⟨⟨?_, ?_⟩, ?_, ?_⟩
    · exact (min_le_left _ _).trans ((min_le_left _ _).trans (min_le_left _ _))
    · exact (min_le_left _ _).trans ((min_le_left _ _).trans (min_le_right _ _))
    · exact (le_max_right _ _).trans (le_max_left _ _)
    · exact le_max_right _ _

/-- The tube from step `i` on: its bounds are bounds of the states of the embedding system at the beginning and the end of the step. -/
theorem odeLoop_spec (g : List ℝ → List ℝ) (n : Nat) (dt : ℝ) :
    ∀ (k i : Nat) (s : List ℝ), (∀ j ≤ k, (g^[j] s).length = n + n) →
      ∃ tube, tubeOf (⟨(i : ℝ) * dt, s.take n, s.drop n⟩ :: odeLoop g n dt i k s) = .ok tube ∧ tube.length = 2 * k ∧
        ∀ j < k, ∃ l u, tube[2 * j]? = some (((i + j : Nat) : ℝ) * dt, l) ∧ tube[2 * j + 1]? = some (((i + j + 1 : Nat) : ℝ) * dt, u) ∧
          l.length = n ∧ u.length = n ∧ ∀ c < n,
            (l.getD c 0 ≤ (g^[j] s).getD c 0 ∧ l.getD c 0 ≤ (g^[j + 1] s).getD c 0) ∧
            ((g^[j] s).getD (n + c) 0 ≤ u.getD c 0 ∧ (g^[j + 1] s).getD (n + c) 0 ≤ u.getD c 0)
  | 0, i, s, _ => ⟨[], rfl, rfl, fun j hj => absurd hj (Nat.not_lt_zero j)⟩
  | k + 1, i, s, hlen => by
    have h0 : s.length = n + n := hlen 0 (by omega)
    have h1 : (g s).length = n + n := hlen 1 (by omega)
    obtain ⟨tube, t1, t2, t3⟩ := odeLoop_spec g n dt k (i + 1) (g s) (fun j hj => by
      rw [← Function.iterate_succ_apply]; exact hlen (j + 1) (by omega))
    obtain ⟨lo, hi, r1, r2, r3, r4⟩ := rectOf_getD ⟨(i : ℝ) * dt, s.take n, s.drop n⟩ ⟨((i + 1 : Nat) : ℝ) * dt, (g s).take n, (g s).drop n⟩ n
      (by simp [h0]) (by simp [h0]) (by simp [h1]) (by simp [h1])
    refine ⟨[((i : ℝ) * dt, lo), (((i + 1 : Nat) : ℝ) * dt, hi)] ++ tube, ?_, ?_, ?_⟩
    · have e : odeLoop g n dt i (k + 1) s = ⟨((i + 1 : Nat) : ℝ) * dt, (g s).take n, (g s).drop n⟩ :: odeLoop g n dt (i + 1) k (g s) := by
        rw [odeLoop]
        congr 2
        push_cast
        ring
      rw [e]
      exact (bind_ok_iff _ _ _).2 ⟨_, r1, (map_ok_iff _ _ _).2 ⟨_, t1, rfl⟩⟩
    · simp only [List.length_append, List.length_cons, List.length_nil, t2]
      omega
    · intro j hj
      cases j with
      | zero =>
        refine ⟨lo, hi, rfl, rfl, r2, r3, fun c hc => ?_⟩
        have := r4 c hc
        simp only [getD_take hc, getD_drop] at this
        exact this
      | succ j =>
        obtain ⟨l, u, g1, g2, g3, g4, g5⟩ := t3 j (by omega)
        refine ⟨l, u, ?_, ?_, g3, g4, fun c hc => ?_⟩
        · rw [show 2 * (j + 1) = 2 * j + 2 by ring, List.getElem?_append_right (by simp)]
          simp only [List.length_cons, List.length_nil]
          rw [show 2 * j + 2 - (0 + 1 + 1) = 2 * j by omega, g1, show i + 1 + j = i + (j + 1) by omega]
        · rw [show 2 * (j + 1) + 1 = 2 * j + 1 + 2 by ring, List.getElem?_append_right (by simp)]
          simp only [List.length_cons, List.length_nil]
          rw [show 2 * j + 1 + 2 - (0 + 1 + 1) = 2 * j + 1 by omega, g2, show i + 1 + j + 1 = i + (j + 1) + 1 by omega]
        · have := g5 c hc
          simpa only [Function.iterate_succ_apply] using this

/-- The part of a solution from time `c` on. -/
theorem solves_shift {n : Nat} {T T' c : ℝ} {f : ℝ → List ℝ → List ℝ} {y : ℝ → List ℝ} (h : Solves n T f y) (hc : 0 ≤ c) (hT : T' + c ≤ T) :
    Solves n T' (fun t => f (t + c)) (fun t => y (t + c)) := by
  have hm : ∀ t ∈ Icc 0 T', t + c ∈ Icc 0 T := fun t ht => ⟨by linarith [ht.1], by linarith [ht.2]⟩
  refine ⟨fun t ht => h.length _ (hm t ht), fun i hi => ?_, fun t ht i hi => ?_⟩
  · exact (h.continuous i hi).comp (by fun_prop) hm
  · have h1 := h.deriv (t + c) ⟨by linarith [ht.1], by linarith [ht.2]⟩ i hi
    have h2 : HasDerivWithinAt (fun s : ℝ => s + c) 1 (Ici t) t := (hasDerivWithinAt_id t _).add_const c
    have := HasDerivWithinAt.scomp (h := fun s : ℝ => s + c) t h1 h2 (fun s (hs : t ≤ s) => by simp only [mem_Ici]; linarith)
    simpa [Function.comp_def] using this

/-- All trajectories are between the two halves of the state of the embedding system. -/
theorem inside_all {dec : DecompC ℝ} {F : List ℝ → List ℝ → List ℝ} {lo hi w what : List ℝ} (hd : MixedMonotone dec F lo.length w.length)
    {g : List ℝ → List ℝ} {dt : ℝ} (hdt : 0 < dt) {N : Nat} {Y : Nat → ℝ → List ℝ}
    (hY : ∀ k < N, Solves (lo.length + lo.length) dt (fun _ => embedding dec lo.length w.length (w ++ what)) (Y k) ∧
      Y k 0 = g^[k] (lo ++ hi) ∧ Y k dt = g^[k + 1] (lo ++ hi))
    {ξ ω : ℝ → List ℝ} (hξ : TrajectoryC F lo.length (N * dt) lo hi w what ξ ω) :
    ∀ k < N, ∀ t ∈ Icc 0 dt, InBox ((Y k t).take lo.length) ((Y k t).drop lo.length) (ξ (t + k * dt)) := by
  intro k
  induction k with
  | zero =>
    intro hk t ht
    have h1 : (1 : ℝ) ≤ N := by exact_mod_cast hk
    have := inside_step hd rfl (hY 0 hk).1 (ξ := fun t => ξ (t + 0)) (ω := fun t => ω (t + 0)) (solves_shift hξ.solves (le_refl 0) (by nlinarith)) (fun t => hξ.param _)
      (by rw [(hY 0 hk).2.1]; simpa using hξ.init) t ht
    simpa using this
  | succ k ih =>
    intro hk t ht
    have h1 : ((k + 1 : Nat) : ℝ) + 1 ≤ N := by exact_mod_cast hk
    have h0 : (0 : ℝ) ≤ ((k + 1 : Nat) : ℝ) := Nat.cast_nonneg _
    have hprev := ih (by omega) dt ⟨hdt.le, le_refl _⟩
    rw [(hY k (by omega)).2.2, ← (hY (k + 1) hk).2.1] at hprev
    refine inside_step hd rfl (hY (k + 1) hk).1 (ξ := fun t => ξ (t + ((k + 1 : Nat) : ℝ) * dt)) (ω := fun t => ω (t + ((k + 1 : Nat) : ℝ) * dt))
      (solves_shift hξ.solves (by positivity) (by nlinarith)) (fun t => hξ.param _) ?_ t ht
    have e : dt + (k : ℝ) * dt = 0 + ((k + 1 : Nat) : ℝ) * dt := by push_cast; ring
    rw [e] at hprev
    exact hprev

/-- The times when trajectories are certainly in the rectangle. -/
theorem tube_core {dec : DecompC ℝ} {F : List ℝ → List ℝ → List ℝ} {lo hi w what : List ℝ} (hd : MixedMonotone dec F lo.length w.length) (hlen : lo.length = hi.length)
    (solve : (List ℝ → List ℝ) → ℝ → List ℝ → List ℝ) {horizon dt : ℝ} (hdt : 0 < dt) {Y : Nat → ℝ → List ℝ}
    (hY : ∀ k < ⌈horizon / dt⌉.toNat, Solves (lo.length + lo.length) dt (fun _ => embedding dec lo.length w.length (w ++ what)) (Y k) ∧
      Y k 0 = (solve (embedding dec lo.length w.length (w ++ what)) dt)^[k] (lo ++ hi) ∧
      Y k dt = (solve (embedding dec lo.length w.length (w ++ what)) dt)^[k + 1] (lo ++ hi)) :
    ∃ tube, tubeCont solve lo hi w what horizon dt dec = .ok tube ∧ tube.length = 2 * ⌈horizon / dt⌉.toNat ∧ horizon ≤ ⌈horizon / dt⌉.toNat * dt ∧
      ∀ ξ ω, TrajectoryC F lo.length (⌈horizon / dt⌉.toNat * dt) lo hi w what ξ ω → ∀ k < ⌈horizon / dt⌉.toNat, ∃ l u,
        tube[2 * k]? = some ((k : ℝ) * dt, l) ∧ tube[2 * k + 1]? = some (((k + 1 : Nat) : ℝ) * dt, u) ∧
        ∀ t ∈ Icc 0 dt, (∀ c < lo.length, min ((Y k 0).getD c 0) ((Y k dt).getD c 0) ≤ (Y k t).getD c 0) →
          (∀ c < lo.length, (Y k t).getD (lo.length + c) 0 ≤ max ((Y k 0).getD (lo.length + c) 0) ((Y k dt).getD (lo.length + c) 0)) →
          InBox l u (ξ (t + k * dt)) := by
  obtain ⟨tube, t1, t2, t3⟩ := odeLoop_spec (solve (embedding dec lo.length w.length (w ++ what)) dt) lo.length dt ⌈horizon / dt⌉.toNat 0 (lo ++ hi) (by
    intro j hj
    rcases Nat.lt_or_ge j ⌈horizon / dt⌉.toNat with h | h
    · rw [← (hY j h).2.1]
      exact (hY j h).1.length 0 ⟨le_refl _, hdt.le⟩
    · cases j with
      | zero => simp [hlen]
      | succ j =>
        rw [← (hY j (by omega)).2.2]
        exact (hY j (by omega)).1.length dt ⟨hdt.le, le_refl _⟩)
  refine ⟨tube, ?_, t2, ?_, ?_⟩
  · rw [tubeCont, cut_eq _ _ _ _ rfl]
    simpa using t1
  · rw [← div_le_iff₀ hdt]
    refine le_trans (Int.le_ceil _) ?_
    have := Int.self_le_toNat ⌈horizon / dt⌉
    exact_mod_cast this
  · intro ξ ω hξ k hk
    obtain ⟨l, u, g1, g2, g3, g4, g5⟩ := t3 k hk
    refine ⟨l, u, by simpa using g1, by simpa using g2, fun t ht hlo hhi => ?_⟩
    have hin := inside_all hd hdt hY hξ k hk t ht
    have ly : (Y k t).length = lo.length + lo.length := (hY k hk).1.length t ht
    have lt1 : ((Y k t).take lo.length).length = lo.length := by simp [ly]
    have lt2 : ((Y k t).drop lo.length).length = lo.length := by simp [ly]
    have lξ : (ξ (t + k * dt)).length = lo.length := hin.1.length_eq ▸ lt1
    rw [← (hY k hk).2.1, ← (hY k hk).2.2] at g5
    refine ⟨(forall₂_getD g3 lξ).2 fun c hc => ?_, (forall₂_getD lξ g4).2 fun c hc => ?_⟩
    · have h1 := (forall₂_getD lt1 lξ).1 hin.1 c hc
      rw [getD_take hc] at h1
      exact (le_min (g5 c hc).1.1 (g5 c hc).1.2).trans ((hlo c hc).trans h1)
    · have h1 := (forall₂_getD lξ lt2).1 hin.2 c hc
      rw [getD_drop] at h1
      exact h1.trans ((hhi c hc).trans (max_le (g5 c hc).2.1 (g5 c hc).2.2))

/-- **C81, at the step times.** With a decomposition function of the dynamics and an exact integrator the computation succeeds, the rectangles reach the
horizon, and the rectangle from step `k` to step `k + 1` contains the states of all trajectories at both times, for parameters that change at any time.
Missing: the times between the steps (see `C81_monotone_partial` and `C81_between_violated`). -/
theorem C81_steps_partial (dec : DecompC ℝ) (F : List ℝ → List ℝ → List ℝ) (lo hi w what : List ℝ) (hd : MixedMonotone dec F lo.length w.length)
    (hlen : lo.length = hi.length) (solve : (List ℝ → List ℝ) → ℝ → List ℝ → List ℝ) (horizon dt : ℝ) (hdt : 0 < dt)
    (hsolve : ExactSteps solve (lo.length + lo.length) (embedding dec lo.length w.length (w ++ what)) dt (lo ++ hi) ⌈horizon / dt⌉.toNat) :
    ∃ (n : Nat) (tube : List (ℝ × List ℝ)), tubeCont solve lo hi w what horizon dt dec = .ok tube ∧ tube.length = 2 * n ∧ horizon ≤ n * dt ∧
      ∀ ξ ω, TrajectoryC F lo.length (n * dt) lo hi w what ξ ω → ∀ k < n, ∃ l u, tube[2 * k]? = some ((k : ℝ) * dt, l) ∧
        tube[2 * k + 1]? = some (((k + 1 : Nat) : ℝ) * dt, u) ∧ InBox l u (ξ (k * dt)) ∧ InBox l u (ξ (((k + 1 : Nat) : ℝ) * dt)) := by
  choose! Y hY using hsolve
  obtain ⟨tube, t1, t2, t3, t4⟩ := tube_core hd hlen solve hdt hY
  refine ⟨_, tube, t1, t2, t3, fun ξ ω hξ k hk => ?_⟩
  obtain ⟨l, u, g1, g2, g3⟩ := t4 ξ ω hξ k hk
  refine ⟨l, u, g1, g2, ?_, ?_⟩
  · simpa using g3 0 ⟨le_refl _, hdt.le⟩ (fun c _ => min_le_left _ _) (fun c _ => le_max_left _ _)
  · have := g3 dt ⟨hdt.le, le_refl _⟩ (fun c _ => min_le_right _ _) (fun c _ => le_max_right _ _)
    rwa [show dt + (k : ℝ) * dt = ((k + 1 : Nat) : ℝ) * dt by push_cast; ring] at this

/-- **C81, at all times.** If in every step every component of the state of the embedding system only grows or only shrinks, the rectangle from step `k`
to step `k + 1` contains the states of all trajectories at all times of the step. -/
theorem C81_monotone_partial (dec : DecompC ℝ) (F : List ℝ → List ℝ → List ℝ) (lo hi w what : List ℝ) (hd : MixedMonotone dec F lo.length w.length)
    (hlen : lo.length = hi.length) (solve : (List ℝ → List ℝ) → ℝ → List ℝ → List ℝ) (horizon dt : ℝ) (hdt : 0 < dt) (Y : Nat → ℝ → List ℝ)
    (hsolve : ∀ k < ⌈horizon / dt⌉.toNat, Solves (lo.length + lo.length) dt (fun _ => embedding dec lo.length w.length (w ++ what)) (Y k) ∧
      Y k 0 = (solve (embedding dec lo.length w.length (w ++ what)) dt)^[k] (lo ++ hi) ∧
      Y k dt = (solve (embedding dec lo.length w.length (w ++ what)) dt)^[k + 1] (lo ++ hi))
    (hmono : ∀ k < ⌈horizon / dt⌉.toNat, ∀ c < lo.length + lo.length,
      MonotoneOn (fun t => (Y k t).getD c 0) (Icc 0 dt) ∨ AntitoneOn (fun t => (Y k t).getD c 0) (Icc 0 dt)) :
    ∃ (n : Nat) (tube : List (ℝ × List ℝ)), tubeCont solve lo hi w what horizon dt dec = .ok tube ∧ tube.length = 2 * n ∧ horizon ≤ n * dt ∧
      ∀ ξ ω, TrajectoryC F lo.length (n * dt) lo hi w what ξ ω → ∀ k < n, ∃ l u, tube[2 * k]? = some ((k : ℝ) * dt, l) ∧
        tube[2 * k + 1]? = some (((k + 1 : Nat) : ℝ) * dt, u) ∧ ∀ t ∈ Icc ((k : ℝ) * dt) (((k + 1 : Nat) : ℝ) * dt), InBox l u (ξ t) := by
  obtain ⟨tube, t1, t2, t3, t4⟩ := tube_core hd hlen solve hdt hsolve
  refine ⟨_, tube, t1, t2, t3, fun ξ ω hξ k hk => ?_⟩
  obtain ⟨l, u, g1, g2, g3⟩ := t4 ξ ω hξ k hk
  refine ⟨l, u, g1, g2, fun t ht => ?_⟩
  have hm : t - k * dt ∈ Icc 0 dt := ⟨by linarith [ht.1], by have := ht.2; push_cast at this; linarith⟩
  have h0 : (0 : ℝ) ∈ Icc 0 dt := ⟨le_refl _, hdt.le⟩
  have hd' : dt ∈ Icc 0 dt := ⟨hdt.le, le_refl _⟩
  have := g3 (t - k * dt) hm (fun c hc => by
      rcases hmono k hk c (by omega) with h | h
      · exact (min_le_left _ _).trans (h h0 hm hm.1)
      · exact (min_le_right _ _).trans (h hm hd' hm.2)) (fun c hc => by
      rcases hmono k hk (lo.length + c) (by omega) with h | h
      · exact (h hm hd' hm.2).trans (le_max_right _ _)
      · exact (h h0 hm hm.1).trans (le_max_left _ _))
  simpa using this

namespace MixContEx

/-- `x' = w - x`. -/
def F : List ℝ → List ℝ → List ℝ := fun a v => [v.getD 0 0 - a.getD 0 0]

def dec : DecompC ℝ := fun x w _ _ => [w.getD 0 0 - x.getD 0 0]

theorem dec_mixed : MixedMonotone dec F 1 1 where
  length := fun _ _ _ _ _ _ _ _ => rfl
  diag := fun _ _ _ _ => rfl
  up := by
    intro i x x' w w' xhat what hi _ hw _ _ _ he hww
    obtain rfl : i = 0 := by omega
    have h1 := (forall₂_getD hw (hww.length_eq ▸ hw)).1 hww 0 (by omega)
    have h2 : x.getD 0 0 = x'.getD 0 0 := by rw [List.getD_eq_getElem?_getD, he, ← List.getD_eq_getElem?_getD]
    simp only [dec, h2, List.getD_cons_zero]
    linarith
  down := fun _ _ _ _ _ _ _ _ _ _ _ _ _ _ => le_refl _
  lipschitz := by
    intro R
    refine ⟨1, zero_le_one, ?_⟩
    intro x x' w xhat xhat' what _ _ _ _ _ _ _ i hi
    obtain rfl : i = 0 := by omega
    simp only [dec, List.getD_cons_zero, Finset.sum_range_one, one_mul]
    rw [show w.getD 0 0 - x.getD 0 0 - (w.getD 0 0 - x'.getD 0 0) = -(x.getD 0 0 - x'.getD 0 0) by ring, abs_neg]
    linarith [abs_nonneg (xhat.getD 0 0 - xhat'.getD 0 0)]

/-- The solution of the embedding system for `w` in `[2, 3]`, from `(a, b)`. -/
noncomputable def sol (a b t : ℝ) : List ℝ := [2 + (a - 2) * Real.exp (-t), 3 + (b - 3) * Real.exp (-t)]

noncomputable def solve : (List ℝ → List ℝ) → ℝ → List ℝ → List ℝ := fun _ t s => sol (s.getD 0 0) (s.getD 1 0) t

theorem exp_deriv (a c t : ℝ) (s : Set ℝ) : HasDerivWithinAt (fun t => c + (a - c) * Real.exp (-t)) (c - (c + (a - c) * Real.exp (-t))) s t := by
  have h := (((hasDerivAt_neg t).exp.const_mul (a - c)).const_add c).hasDerivWithinAt (s := s)
  have e : (a - c) * (Real.exp (-t) * -1) = c - (c + (a - c) * Real.exp (-t)) := by ring
  rw [e] at h
  exact h

theorem sol_solves (a b T : ℝ) : Solves 2 T (fun _ => embedding dec 1 1 [2, 3]) (sol a b) where
  length := fun _ _ => rfl
  continuous := by
    intro i hi
    interval_cases i <;> simp only [sol, List.getD_cons_zero, List.getD_cons_succ] <;> fun_prop
  deriv := by
    intro t _ i hi
    interval_cases i <;> simpa [sol, embedding, dec] using exp_deriv _ _ t (Ici t)

theorem solves_all (k : Nat) : ∃ a b, a ≤ 2 ∧ b ≤ 3 ∧ (solve (embedding dec 1 1 [2, 3]) 1)^[k] [0, 1] = [a, b] := by
  induction k with
  | zero => exact ⟨0, 1, by norm_num, by norm_num, rfl⟩
  | succ k ih =>
    obtain ⟨a, b, ha, hb, e⟩ := ih
    refine ⟨2 + (a - 2) * Real.exp (-1), 3 + (b - 3) * Real.exp (-1), ?_, ?_, ?_⟩
    · nlinarith [Real.exp_pos (-1)]
    · nlinarith [Real.exp_pos (-1)]
    · rw [Function.iterate_succ_apply', e]
      rfl

theorem exp_mono (a c T : ℝ) (h : a ≤ c) : MonotoneOn (fun t => c + (a - c) * Real.exp (-t)) (Icc 0 T) := by
  intro s _ t _ hst
  have := Real.exp_le_exp.2 (neg_le_neg hst)
  simp only
  nlinarith

end MixContEx

open MixContEx in
/-- The hypotheses of `C81_steps_partial` and `C81_monotone_partial` hold for `x' = w - x`, `x` in `[0, 1]`, `w` in `[2, 3]`, two steps; and there is a trajectory. -/
example : MixedMonotone dec F 1 1 ∧ ⌈(2 : ℝ) / 1⌉.toNat = 2 ∧ (∃ Y : Nat → ℝ → List ℝ, ∀ k < 2,
      (Solves 2 1 (fun _ => embedding dec 1 1 [2, 3]) (Y k) ∧ Y k 0 = (solve (embedding dec 1 1 [2, 3]) 1)^[k] [0, 1] ∧
        Y k 1 = (solve (embedding dec 1 1 [2, 3]) 1)^[k + 1] [0, 1]) ∧
      ∀ c < 2, MonotoneOn (fun t => (Y k t).getD c 0) (Icc 0 1) ∨ AntitoneOn (fun t => (Y k t).getD c 0) (Icc 0 1)) ∧
    ExactSteps solve 2 (embedding dec 1 1 [2, 3]) 1 [0, 1] 2 ∧ ∃ ξ, TrajectoryC F 1 2 [0] [1] [2] [3] ξ (fun _ => [2]) := by
  have key : ∀ k, ∃ Y : ℝ → List ℝ, (Solves 2 1 (fun _ => embedding dec 1 1 [2, 3]) Y ∧ Y 0 = (solve (embedding dec 1 1 [2, 3]) 1)^[k] [0, 1] ∧
        Y 1 = (solve (embedding dec 1 1 [2, 3]) 1)^[k + 1] [0, 1]) ∧
      ∀ c < 2, MonotoneOn (fun t => (Y t).getD c 0) (Icc 0 1) ∨ AntitoneOn (fun t => (Y t).getD c 0) (Icc 0 1) := by
    intro k
    obtain ⟨a, b, ha, hb, e⟩ := solves_all k
    refine ⟨sol a b, ⟨sol_solves a b 1, ?_, ?_⟩, ?_⟩
    · rw [e]
      simp [sol]
    · rw [Function.iterate_succ_apply', e]
      rfl
    · intro c hc
      left
      interval_cases c
      · simpa [sol] using exp_mono a 2 1 ha
      · simpa [sol] using exp_mono b 3 1 hb
  refine ⟨dec_mixed, by norm_num; rfl, ?_, fun k _ => (key k).imp fun Y h => h.1, fun t => [2 + (0 - 2) * Real.exp (-t)], ?_, ?_, ?_⟩
  · choose Y hY using key
    exact ⟨Y, fun k _ => hY k⟩
  · simp [InBox]
  · intro t
    simp [InBox]
    norm_num
  · refine ⟨fun _ _ => rfl, ?_, ?_⟩
    · intro i hi
      interval_cases i
      simp only [List.getD_cons_zero]
      fun_prop
    · intro t _ i hi
      interval_cases i
      simpa [F] using exp_deriv 0 2 t (Ici t)

namespace MixContOsc

/-- The oscillator: `x' = y`, `y' = -x`. -/
def F : List ℝ → List ℝ → List ℝ := fun a _ => [a.getD 1 0, -a.getD 0 0]

def dec : DecompC ℝ := fun x _ xhat _ => [x.getD 1 0, -xhat.getD 0 0]

theorem dec_mixed : MixedMonotone dec F 2 0 where
  length := fun _ _ _ _ _ _ _ _ => rfl
  diag := fun _ _ _ _ => rfl
  up := by
    intro i x x' w w' xhat what hi hx _ _ _ hle _ _
    have h1 := (forall₂_getD hx (hle.length_eq ▸ hx)).1 hle 1 (by omega)
    interval_cases i
    · simpa [dec] using h1
    · simp [dec]
  down := by
    intro i x w xhat xhat' what what' hi _ _ hx _ hle _
    have h1 := (forall₂_getD hx (hle.length_eq ▸ hx)).1 hle 0 (by omega)
    interval_cases i
    · simp [dec]
    · simpa [dec] using h1
  lipschitz := by
    intro R
    refine ⟨1, zero_le_one, ?_⟩
    intro x x' w xhat xhat' what _ _ _ _ _ _ _ i hi
    have a1 := abs_nonneg (x.getD 0 0 - x'.getD 0 0)
    have a2 := abs_nonneg (x.getD 1 0 - x'.getD 1 0)
    have a3 := abs_nonneg (xhat.getD 0 0 - xhat'.getD 0 0)
    have a4 := abs_nonneg (xhat.getD 1 0 - xhat'.getD 1 0)
    interval_cases i
    · simp only [dec, List.getD_cons_zero, Finset.sum_range_succ, Finset.sum_range_zero, zero_add, one_mul]
      linarith
    · simp only [dec, List.getD_cons_zero, List.getD_cons_succ, Finset.sum_range_succ, Finset.sum_range_zero, zero_add, one_mul]
      rw [show -xhat.getD 0 0 - -xhat'.getD 0 0 = -(xhat.getD 0 0 - xhat'.getD 0 0) by ring, abs_neg]
      linarith

/-- The exact solution of the embedding system when both halves are equal. -/
noncomputable def solve : (List ℝ → List ℝ) → ℝ → List ℝ → List ℝ := fun _ t s =>
  [s.getD 0 0 * Real.cos t + s.getD 1 0 * Real.sin t, s.getD 1 0 * Real.cos t - s.getD 0 0 * Real.sin t,
    s.getD 2 0 * Real.cos t + s.getD 3 0 * Real.sin t, s.getD 3 0 * Real.cos t - s.getD 2 0 * Real.sin t]

noncomputable def sol (t : ℝ) : List ℝ := [Real.cos (t - 1), -Real.sin (t - 1), Real.cos (t - 1), -Real.sin (t - 1)]

noncomputable def traj (t : ℝ) : List ℝ := [Real.cos (t - 1), -Real.sin (t - 1)]

theorem cos_deriv (t : ℝ) (s : Set ℝ) : HasDerivWithinAt (fun t => Real.cos (t - 1)) (-Real.sin (t - 1)) s t := by
  simpa using (((hasDerivAt_id t).sub_const 1).cos).hasDerivWithinAt (s := s)

theorem sin_deriv (t : ℝ) (s : Set ℝ) : HasDerivWithinAt (fun t => -Real.sin (t - 1)) (-Real.cos (t - 1)) s t := by
  have h := ((((hasDerivAt_id t).sub_const 1).sin).neg).hasDerivWithinAt (s := s)
  rw [mul_one] at h
  exact h

theorem sol_solves (T : ℝ) : Solves 4 T (fun _ => embedding dec 2 0 []) sol where
  length := fun _ _ => rfl
  continuous := by
    intro i hi
    interval_cases i <;> simp only [sol, List.getD_cons_zero, List.getD_cons_succ] <;> fun_prop
  deriv := by
    intro t _ i hi
    interval_cases i <;> simp only [sol, embedding, dec, List.getD_cons_zero, List.getD_cons_succ, List.take_succ_cons, List.take_zero, List.drop_succ_cons,
      List.drop_zero, List.cons_append, List.nil_append]
    · exact cos_deriv t _
    · exact sin_deriv t _
    · exact cos_deriv t _
    · exact sin_deriv t _

theorem traj_solves (T : ℝ) : Solves 2 T (fun _ a => F a []) traj where
  length := fun _ _ => rfl
  continuous := by
    intro i hi
    interval_cases i <;> simp only [traj, List.getD_cons_zero, List.getD_cons_succ] <;> fun_prop
  deriv := by
    intro t _ i hi
    interval_cases i <;> simp only [traj, F, List.getD_cons_zero, List.getD_cons_succ]
    · exact cos_deriv t _
    · exact sin_deriv t _

theorem solve_two (f : List ℝ → List ℝ) : solve f 2 [Real.cos 1, Real.sin 1, Real.cos 1, Real.sin 1] = [Real.cos 1, -Real.sin 1, Real.cos 1, -Real.sin 1] := by
  have h1 : Real.cos 1 * Real.cos 2 + Real.sin 1 * Real.sin 2 = Real.cos 1 := by
    rw [← Real.cos_sub, ← Real.cos_neg]; norm_num
  have h2 : Real.sin 1 * Real.cos 2 - Real.cos 1 * Real.sin 2 = -Real.sin 1 := by
    rw [← Real.sin_sub, ← Real.sin_neg]; norm_num
  simp [solve, h1, h2]

end MixContOsc

open MixContOsc in
/-- **C81 fails** between the steps: for the oscillator `x' = y`, `y' = -x`, with an exact integrator, the rectangle of the step of length 2 that begins in
`(cos 1, sin 1)` contains only states with `x = cos 1`, and in the middle of the step the trajectory is in `(1, 0)`. -/
theorem C81_between_violated :
    MixedMonotone dec F 2 0 ∧ ExactSteps solve 4 (embedding dec 2 0 []) 2 [Real.cos 1, Real.sin 1, Real.cos 1, Real.sin 1] 1 ∧
    tubeCont solve [Real.cos 1, Real.sin 1] [Real.cos 1, Real.sin 1] [] [] 2 2 dec = .ok [(0, [Real.cos 1, -Real.sin 1]), (2, [Real.cos 1, Real.sin 1])] ∧
    TrajectoryC F 2 2 [Real.cos 1, Real.sin 1] [Real.cos 1, Real.sin 1] [] [] traj (fun _ => []) ∧ traj 1 = [1, 0] ∧
    ¬ InBox [Real.cos 1, -Real.sin 1] [Real.cos 1, Real.sin 1] (traj 1) := by
  have hsin : 0 < Real.sin 1 := Real.sin_pos_of_pos_of_le_one one_pos (le_refl _)
  have e1 : traj 1 = [1, 0] := by simp [traj]
  refine ⟨dec_mixed, ?_, ?_, ⟨?_, fun _ => ⟨.nil, .nil⟩, traj_solves 2⟩, e1, ?_⟩
  · intro i hi
    obtain rfl : i = 0 := by omega
    refine ⟨sol, sol_solves 2, ?_, ?_⟩
    · simp [sol]
    · rw [Function.iterate_succ_apply, solve_two]
      simp [sol]
      norm_num
  · have hle : -Real.sin 1 ≤ Real.sin 1 := by linarith
    simp [tubeCont, odeLoop, solve_two, tubeOf, rectOf, reduce4, cut, Except.bind, Except.map, hle]
  · simp [InBox, traj]
  · rw [e1]
    rintro ⟨-, h⟩
    rw [List.forall₂_cons] at h
    exact absurd h.1 (not_le.2 (by nlinarith [Real.sin_sq_add_cos_sq 1, Real.cos_le_one 1]))

end Verif.Props
