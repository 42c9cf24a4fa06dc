import Verif.Proofs.MixCont
import Verif.Spec.MixCont
import Mathlib.Data.List.GetD
import Mathlib.Topology.Order.Compact
import Mathlib.Analysis.Normed.Group.Bounded

/-!
Mixed-monotone systems in continuous time: the solution of the embedding system bounds all trajectories.
-/

set_option autoImplicit false

namespace Verif.Proofs.MixCont

open Set Verif.Mix

theorem forall₂_getD {a b : List ℝ} {n : Nat} (ha : a.length = n) (hb : b.length = n) :
    List.Forall₂ (· ≤ ·) a b ↔ ∀ j < n, a.getD j 0 ≤ b.getD j 0 := by
  rw [List.forall₂_iff_get]
  constructor
  · rintro ⟨_, h⟩ j hj
    have := h j (ha ▸ hj) (hb ▸ hj)
    rw [List.getD_eq_getElem _ _ (ha ▸ hj), List.getD_eq_getElem _ _ (hb ▸ hj)]
    simpa using this
  · intro h
    refine ⟨ha.trans hb.symm, fun i h1 h2 => ?_⟩
    have := h i (ha ▸ h1)
    rw [List.getD_eq_getElem _ _ h1, List.getD_eq_getElem _ _ h2] at this
    simpa using this

theorem mem_getD {a : List ℝ} {n : Nat} (ha : a.length = n) {z : ℝ} (h : z ∈ a) : ∃ j < n, z = a.getD j 0 := by
  obtain ⟨j, hj, rfl⟩ := List.getElem_of_mem h
  exact ⟨j, ha ▸ hj, (List.getD_eq_getElem _ _ hj).symm⟩

theorem getD_mem {a : List ℝ} {n j : Nat} (ha : a.length = n) (hj : j < n) : a.getD j 0 ∈ a := by
  rw [List.getD_eq_getElem _ _ (ha ▸ hj)]
  exact List.getElem_mem _

theorem getD_take {a : List ℝ} {n j : Nat} (hj : j < n) : (a.take n).getD j 0 = a.getD j 0 := by
  simp [hj]

theorem getD_drop {a : List ℝ} {n j : Nat} : (a.drop n).getD j 0 = a.getD (n + j) 0 := by
  simp [List.getElem?_drop]

theorem getD_zip {f : ℝ → ℝ → ℝ} {a b : List ℝ} {n j : Nat} (ha : a.length = n) (hb : b.length = n) (hj : j < n) :
    (List.zipWith f a b).getD j 0 = f (a.getD j 0) (b.getD j 0) := by
  rw [List.getD_eq_getElem _ _ (by simp [ha, hb, hj]), List.getD_eq_getElem _ _ (ha ▸ hj), List.getD_eq_getElem _ _ (hb ▸ hj)]
  simp

theorem getElem?_of_getD {a b : List ℝ} {n j : Nat} (ha : a.length = n) (hb : b.length = n) (hj : j < n) (h : a.getD j 0 = b.getD j 0) : a[j]? = b[j]? := by
  rw [List.getElem?_eq_getElem (ha ▸ hj), List.getElem?_eq_getElem (hb ▸ hj)]
  rw [List.getD_eq_getElem _ _ (ha ▸ hj), List.getD_eq_getElem _ _ (hb ▸ hj)] at h
  rw [h]

/-- Solutions are bounded. -/
theorem bounded {n : Nat} {T : ℝ} {f : ℝ → List ℝ → List ℝ} {y : ℝ → List ℝ} (h : Solves n T f y) : ∃ R, ∀ t ∈ Icc 0 T, ∀ z ∈ y t, |z| ≤ R := by
  have h1 : ∀ i : Fin n, ∃ C, ∀ t ∈ Icc 0 T, |(y t).getD i 0| ≤ C := by
    intro i
    obtain ⟨C, hC⟩ := isCompact_Icc.exists_bound_of_continuousOn (h.continuous i i.2)
    exact ⟨C, fun t ht => by simpa using hC t ht⟩
  choose C hC using h1
  refine ⟨∑ i, |C i|, fun t ht z hz => ?_⟩
  obtain ⟨j, hj, rfl⟩ := mem_getD (h.length t ht) hz
  refine (hC ⟨j, hj⟩ t ht).trans ((le_abs_self _).trans ?_)
  exact Finset.single_le_sum (f := fun i => |C i|) (fun i _ => abs_nonneg _) (Finset.mem_univ (⟨j, hj⟩ : Fin n))

theorem list_bounded (l : List ℝ) : ∃ R, ∀ z ∈ l, |z| ≤ R := by
  induction l with
  | nil => exact ⟨0, by simp⟩
  | cons a l ih =>
    obtain ⟨R, hR⟩ := ih
    refine ⟨max |a| R, fun z hz => ?_⟩
    rcases List.mem_cons.1 hz with rfl | hz
    · exact le_max_left _ _
    · exact (hR z hz).trans (le_max_right _ _)

theorem abs_max_sub (a b : ℝ) : |max a b - b| = max (a - b) 0 := by
  rcases le_total a b with h | h
  · rw [max_eq_right h, max_eq_right (by linarith)]; simp
  · rw [max_eq_left h, max_eq_left (by linarith), abs_of_nonneg (by linarith)]

theorem abs_min_sub (a b : ℝ) : |min a b - b| = max (b - a) 0 := by
  rcases le_total a b with h | h
  · rw [min_eq_left h, max_eq_left (by linarith), abs_sub_comm, abs_of_nonneg (by linarith)]
  · rw [min_eq_right h, max_eq_right (by linarith)]; simp

/-- The speed with which a trajectory leaves. -/
theorem speed {dec : DecompC ℝ} {F : List ℝ → List ℝ → List ℝ} {n m : Nat} (hd : MixedMonotone dec F n m) {w what v x xh a : List ℝ} {R L : ℝ}
    (lw : w.length = m) (lx : x.length = n) (lxh : xh.length = n) (la : a.length = n) (hv : InBox w what v)
    (hR : ∀ z ∈ x ++ xh ++ a ++ w ++ what, |z| ≤ R)
    (hL : ∀ x x' w xhat xhat' what, x.length = n → x'.length = n → w.length = m → xhat.length = n → xhat'.length = n →
      what.length = m → (∀ z ∈ x ++ x' ++ w ++ xhat ++ xhat' ++ what, |z| ≤ R) → ∀ i < n,
      |(dec x w xhat what).getD i 0 - (dec x' w xhat' what).getD i 0| ≤ L * ∑ j ∈ Finset.range n, (|x.getD j 0 - x'.getD j 0| + |xhat.getD j 0 - xhat'.getD j 0|))
    (i : Nat) (hi : i < n) :
    (a.getD i 0 < x.getD i 0 → (dec x w xh what).getD i 0 - (F a v).getD i 0 ≤
      L * ∑ j ∈ Finset.range n, (max (x.getD j 0 - a.getD j 0) 0 + max (a.getD j 0 - xh.getD j 0) 0)) ∧
    (xh.getD i 0 < a.getD i 0 → (F a v).getD i 0 - (dec xh what x w).getD i 0 ≤
      L * ∑ j ∈ Finset.range n, (max (x.getD j 0 - a.getD j 0) 0 + max (a.getD j 0 - xh.getD j 0) 0)) := by
  have lv : v.length = m := hv.1.length_eq ▸ lw
  have lwh : what.length = m := hv.2.length_eq ▸ lv
  set p := List.zipWith max x a with hp
  set q := List.zipWith min xh a with hq
  have lp : p.length = n := by simp [hp, lx, la]
  have lq : q.length = n := by simp [hq, lxh, la]
  have gp : ∀ j < n, p.getD j 0 = max (x.getD j 0) (a.getD j 0) := fun j hj => getD_zip lx la hj
  have gq : ∀ j < n, q.getD j 0 = min (xh.getD j 0) (a.getD j 0) := fun j hj => getD_zip lxh la hj
  have Rx : ∀ j < n, |x.getD j 0| ≤ R := fun j hj => hR _ (by simp only [List.mem_append]; exact .inl (.inl (.inl (.inl (getD_mem lx hj)))))
  have Rxh : ∀ j < n, |xh.getD j 0| ≤ R := fun j hj => hR _ (by simp only [List.mem_append]; exact .inl (.inl (.inl (.inr (getD_mem lxh hj)))))
  have Ra : ∀ j < n, |a.getD j 0| ≤ R := fun j hj => hR _ (by simp only [List.mem_append]; exact .inl (.inl (.inr (getD_mem la hj))))
  have Rw : ∀ j < m, |w.getD j 0| ≤ R := fun j hj => hR _ (by simp only [List.mem_append]; exact .inl (.inr (getD_mem lw hj)))
  have Rwh : ∀ j < m, |what.getD j 0| ≤ R := fun j hj => hR _ (by simp only [List.mem_append]; exact .inr (getD_mem lwh hj))
  have Rv : ∀ z ∈ v, |z| ≤ R := by
    intro z hz
    obtain ⟨j, hj, rfl⟩ := mem_getD lv hz
    have h1 := (forall₂_getD lw lv).1 hv.1 j hj
    have h2 := (forall₂_getD lv lwh).1 hv.2 j hj
    exact abs_le.2 ⟨(abs_le.1 (Rw j hj)).1.trans h1, h2.trans (abs_le.1 (Rwh j hj)).2⟩
  have Rp : ∀ z ∈ p, |z| ≤ R := by
    intro z hz
    obtain ⟨j, hj, rfl⟩ := mem_getD lp hz
    rw [gp j hj]
    exact abs_max_le_max_abs_abs.trans (max_le (Rx j hj) (Ra j hj))
  have Rq : ∀ z ∈ q, |z| ≤ R := by
    intro z hz
    obtain ⟨j, hj, rfl⟩ := mem_getD lq hz
    rw [gq j hj]
    exact abs_min_le_max_abs_abs.trans (max_le (Rxh j hj) (Ra j hj))
  have Ral : ∀ z ∈ a, |z| ≤ R := by
    intro z hz
    obtain ⟨j, hj, rfl⟩ := mem_getD la hz
    exact Ra j hj
  have S1 : ∑ j ∈ Finset.range n, (|p.getD j 0 - a.getD j 0| + |q.getD j 0 - a.getD j 0|) =
      ∑ j ∈ Finset.range n, (max (x.getD j 0 - a.getD j 0) 0 + max (a.getD j 0 - xh.getD j 0) 0) := by
    refine Finset.sum_congr rfl fun j hj => ?_
    have hj := Finset.mem_range.1 hj
    rw [gp j hj, gq j hj, abs_max_sub, abs_min_sub]
  have S2 : ∑ j ∈ Finset.range n, (|q.getD j 0 - a.getD j 0| + |p.getD j 0 - a.getD j 0|) =
      ∑ j ∈ Finset.range n, (max (x.getD j 0 - a.getD j 0) 0 + max (a.getD j 0 - xh.getD j 0) 0) := by
    rw [← S1]
    exact Finset.sum_congr rfl fun j _ => add_comm _ _
  have hxp : List.Forall₂ (· ≤ ·) x p := (forall₂_getD lx lp).2 fun j hj => by rw [gp j hj]; exact le_max_left _ _
  have hqx : List.Forall₂ (· ≤ ·) q xh := (forall₂_getD lq lxh).2 fun j hj => by rw [gq j hj]; exact min_le_left _ _
  have hdiag := hd.diag a v la lv
  constructor
  · intro hlt
    have e1 := hd.up i x p w v xh what hi lx lw lxh lwh hxp
      (getElem?_of_getD lx lp hi (by rw [gp i hi, max_eq_left hlt.le])) hv.1
    have e2 := hd.down i p v q xh v what hi lp lv lq lv hqx hv.2
    have e3 := hL p a v q a v lp la lv lq la lv (by
      intro z hz
      simp only [List.mem_append] at hz
      rcases hz with ((((h | h) | h) | h) | h) | h
      · exact Rp z h
      · exact Ral z h
      · exact Rv z h
      · exact Rq z h
      · exact Ral z h
      · exact Rv z h) i hi
    rw [S1, hdiag] at e3
    have := (abs_le.1 e3).2
    linarith
  · intro hlt
    have e1 := hd.up i q xh v what x w hi lq lv lx lw hqx
      (getElem?_of_getD lq lxh hi (by rw [gq i hi, min_eq_left hlt.le])) hv.2
    have e2 := hd.down i q v x p w v hi lq lv lx lw hxp hv.1
    have e3 := hL q a v p a v lq la lv lp la lv (by
      intro z hz
      simp only [List.mem_append] at hz
      rcases hz with ((((h | h) | h) | h) | h) | h
      · exact Rq z h
      · exact Ral z h
      · exact Rv z h
      · exact Rp z h
      · exact Ral z h
      · exact Rv z h) i hi
    rw [S2, hdiag] at e3
    have := (abs_le.1 e3).1
    linarith

/-- On one step: trajectories that begin between the two halves of the state of the embedding system stay there. -/
theorem inside_step {dec : DecompC ℝ} {F : List ℝ → List ℝ → List ℝ} {n m : Nat} (hd : MixedMonotone dec F n m) {w what : List ℝ} (lw : w.length = m)
    {T : ℝ} {y ξ ω : ℝ → List ℝ} (hy : Solves (n + n) T (fun _ => embedding dec n m (w ++ what)) y)
    (hξ : Solves n T (fun t a => F a (ω t)) ξ) (hω : ∀ t, InBox w what (ω t)) (h0 : InBox ((y 0).take n) ((y 0).drop n) (ξ 0)) :
    ∀ t ∈ Icc 0 T, InBox ((y t).take n) ((y t).drop n) (ξ t) := by
  intro t ht
  have hT : 0 ≤ T := ht.1.trans ht.2
  have lwh : what.length = m := (hω 0).2.length_eq ▸ (hω 0).1.length_eq ▸ lw
  obtain ⟨R1, hR1⟩ := bounded hy
  obtain ⟨R2, hR2⟩ := bounded hξ
  obtain ⟨R3, hR3⟩ := list_bounded (w ++ what)
  set R := max R1 (max R2 R3) with hRd
  obtain ⟨L, hL0, hL⟩ := hd.lipschitz R
  have lx : ∀ s ∈ Icc 0 T, ((y s).take n).length = n := fun s hs => by simp [hy.length s hs]
  have lxh : ∀ s ∈ Icc 0 T, ((y s).drop n).length = n := fun s hs => by simp [hy.length s hs]
  have hRall : ∀ s ∈ Icc 0 T, ∀ z ∈ (y s).take n ++ (y s).drop n ++ ξ s ++ w ++ what, |z| ≤ R := by
    intro s hs z hz
    rw [List.take_append_drop] at hz
    simp only [List.mem_append] at hz
    rcases hz with ((h | h) | h) | h
    · exact (hR1 s hs z h).trans (le_max_left _ _)
    · exact (hR2 s hs z h).trans ((le_max_left _ _).trans (le_max_right _ _))
    · exact (hR3 z (by simp [h])).trans ((le_max_right _ _).trans (le_max_right _ _))
    · exact (hR3 z (by simp [h])).trans ((le_max_right _ _).trans (le_max_right _ _))
  have hex : ∀ s, excess (fun j : Fin n => ((y s).take n).getD j 0) (fun j : Fin n => ((y s).drop n).getD j 0) (fun j : Fin n => (ξ s).getD j 0) =
      ∑ j ∈ Finset.range n, (max (((y s).take n).getD j 0 - (ξ s).getD j 0) 0 + max ((ξ s).getD j 0 - ((y s).drop n).getD j 0) 0) := by
    intro s
    unfold excess
    exact Fin.sum_univ_eq_sum_range (fun j => max (((y s).take n).getD j 0 - (ξ s).getD j 0) 0 + max ((ξ s).getD j 0 - ((y s).drop n).getD j 0) 0) n
  have hsp := fun s (hs : s ∈ Icc 0 T) => speed hd lw (lx s hs) (lxh s hs) (hξ.length s hs) (hω s) (hRall s hs) hL
  have hstay := stays T L hL0 (fun s (j : Fin n) => ((y s).take n).getD j 0) (fun s (j : Fin n) => ((y s).drop n).getD j 0)
    (fun s (j : Fin n) => (ξ s).getD j 0)
    (fun s (j : Fin n) => (dec ((y s).take n) w ((y s).drop n) what).getD j 0)
    (fun s (j : Fin n) => (dec ((y s).drop n) what ((y s).take n) w).getD j 0)
    (fun s (j : Fin n) => (F (ξ s) (ω s)).getD j 0)
    (fun i => by simpa only [getD_take i.2] using hy.continuous i (by omega))
    (fun i => by simpa only [getD_drop] using hy.continuous (n + i) (by omega))
    (fun i => hξ.continuous i i.2)
    (fun s hs i => by
      have hs' : s ∈ Icc 0 T := ⟨hs.1, hs.2.le⟩
      have h := hy.deriv s hs i (by omega)
      have e : (embedding dec n m (w ++ what) (y s)).getD i 0 = (dec ((y s).take n) w ((y s).drop n) what).getD i 0 := by
        have hlen := hd.length _ _ _ _ (lx s hs') lw (lxh s hs') lwh
        simp only [embedding, List.take_left' lw, List.drop_left' lw]
        rw [List.getD_append _ _ _ _ (by rw [hlen]; exact i.2)]
      rw [e] at h
      simpa only [getD_take i.2] using h)
    (fun s hs i => by
      have hs' : s ∈ Icc 0 T := ⟨hs.1, hs.2.le⟩
      have h := hy.deriv s hs (n + i) (by omega)
      have e : (embedding dec n m (w ++ what) (y s)).getD (n + i) 0 = (dec ((y s).drop n) what ((y s).take n) w).getD i 0 := by
        have hlen := hd.length _ _ _ _ (lx s hs') lw (lxh s hs') lwh
        simp only [embedding, List.take_left' lw, List.drop_left' lw]
        rw [List.getD_append_right _ _ _ _ (by rw [hlen]; omega), hlen]
        congr 1
        omega
      rw [e] at h
      simpa only [getD_drop] using h)
    (fun s hs i => hξ.deriv s hs i i.2)
    (fun s hs i hlt => by rw [hex]; exact (hsp s ⟨hs.1, hs.2.le⟩ i i.2).1 hlt)
    (fun s hs i hlt => by rw [hex]; exact (hsp s ⟨hs.1, hs.2.le⟩ i i.2).2 hlt)
    (fun i => ⟨(forall₂_getD (lx 0 ⟨le_refl _, hT⟩) (hξ.length 0 ⟨le_refl _, hT⟩)).1 h0.1 i i.2,
      (forall₂_getD (hξ.length 0 ⟨le_refl _, hT⟩) (lxh 0 ⟨le_refl _, hT⟩)).1 h0.2 i i.2⟩) t ht
  exact ⟨(forall₂_getD (lx t ht) (hξ.length t ht)).2 fun j hj => (hstay ⟨j, hj⟩).1, (forall₂_getD (hξ.length t ht) (lxh t ht)).2 fun j hj => (hstay ⟨j, hj⟩).2⟩

end Verif.Proofs.MixCont
