import Verif.Proofs.Span
import Mathlib.Tactic.NormNum

/-!
C65: the interval computed for the directions of the vectors of a rectangle, or between two rectangles.
-/

set_option autoImplicit false

namespace Verif.Props

open Verif.Spec Verif.Ang Real

/-- A point lies in a rectangle. -/
def InRect (r : RectXY ℝ) (q : ℝ × ℝ) : Prop := r.xmin ≤ q.1 ∧ q.1 ≤ r.xmax ∧ r.ymin ≤ q.2 ∧ q.2 ≤ r.ymax

theorem has_full (θ : ℝ) (h1 : -π < θ) (h2 : θ ≤ π) : (ABound.one (-π) π).Has π θ := by
  have hpi := pi_pos
  refine ⟨(-π, π), ?_, h1.le, h2⟩
  simp [ABound.parts, show ¬ (π < -π) by linarith]

theorem has_one (lo hi θ : ℝ) (h1 : lo ≤ θ) (h2 : θ ≤ hi) : (ABound.one lo hi).Has π θ := by
  refine ⟨(lo, hi), ?_, h1, h2⟩
  simp [ABound.parts, not_lt.2 (h1.trans h2)]

theorem has_wrapped (lo hi θ : ℝ) (h : hi < lo) (h1 : -π ≤ θ) (h2 : θ ≤ π) (h3 : lo ≤ θ ∨ θ ≤ hi) : (ABound.one lo hi).Has π θ := by
  rcases h3 with h3 | h3
  · exact ⟨(lo, π), by simp [ABound.parts, h], h3, h2⟩
  · exact ⟨(-π, hi), by simp [ABound.parts, h], h1, h3⟩

/-- An interval `[m, M]` of angles modulo a turn, brought back to `(-π, π]`. -/
theorem has_shifted (m M θ : ℝ) (k : ℤ) (hm : 0 ≤ m) (hM : M < 2 * π) (h1 : -π < θ) (h2 : θ ≤ π)
    (a : m ≤ θ + 2 * π * k) (b : θ + 2 * π * k ≤ M) :
    (ABound.one (if m > π then m - 2 * π else m) (if M > π then M - 2 * π else M)).Has π θ := by
  have hpi := pi_pos
  have hk : θ + 2 * π * k = θ ∨ θ + 2 * π * k = θ + 2 * π := by
    by_cases hc : θ + 2 * π * k ≤ π
    · exact .inl (turns_unique π hpi _ _ k rfl (by linarith) (by linarith))
    · exact .inr (turns_unique π hpi _ _ (k - 1) (by push_cast; ring) (by linarith) (by linarith [not_le.1 hc]))
  split <;> rename_i hc1 <;> split <;> rename_i hc2
  · rcases hk with e | e <;> rw [e] at a b
    · linarith
    · exact has_one _ _ _ (by linarith) (by linarith)
  · exfalso; linarith [not_lt.1 hc2]
  · have hlt : M - 2 * π < m := by linarith
    rcases hk with e | e <;> rw [e] at a b
    · exact has_wrapped _ _ _ hlt h1.le h2 (.inl a)
    · exact has_wrapped _ _ _ hlt h1.le h2 (.inr (by linarith))
  · rcases hk with e | e <;> rw [e] at a b
    · exact has_one _ _ _ a b
    · linarith [not_lt.1 hc2]

/-- The interval of `spanOf` contains the direction of every vector of the box `[a, b] × [c, d]` when it is computed from vectors of the box
that include the corners, and the box is on one side of the origin. -/
theorem spanOf_has (a b c d : ℝ) (V : List (ℝ × ℝ)) (hin : ∀ v ∈ V, a ≤ v.1 ∧ v.1 ≤ b ∧ c ≤ v.2 ∧ v.2 ≤ d)
    (hcor : ∀ v ∈ [(a, c), (a, d), (b, c), (b, d)], v ∈ V) (hside : 0 ≤ a ∨ 0 ≤ c ∨ d < 0 ∨ (b ≤ 0 ∧ ∀ v ∈ V, v ≠ (0, 0)))
    (x y θ : ℝ) (hx1 : a ≤ x) (hx2 : x ≤ b) (hy1 : c ≤ y) (hy2 : y ≤ d) (h : IsDirection x y θ) :
    (ABound.one (spanOf π (V.map fun v => arctan2 v.2 v.1)).1 (spanOf π (V.map fun v => arctan2 v.2 v.1)).2).Has π θ := by
  have hpi := pi_pos
  have hθ : -π < θ ∧ θ ≤ π := by obtain ⟨_, _, _, _, h1, h2⟩ := h; exact ⟨h1, h2⟩
  have hne : V ≠ [] := by rintro rfl; simpa using hcor (a, c) (by simp)
  obtain ⟨A, hA⟩ : ∃ A, A = V.map fun v => arctan2 v.2 v.1 := ⟨_, rfl⟩
  rw [← hA]
  have hAne : A ≠ [] := by rw [hA]; simpa using hne
  have hAmem : ∀ z ∈ A, ∃ v ∈ V, z = arctan2 v.2 v.1 := by
    intro z hz; rw [hA] at hz
    obtain ⟨v, hv, e⟩ := List.mem_map.1 hz
    exact ⟨v, hv, e.symm⟩
  have hVA : ∀ v ∈ V, arctan2 v.2 v.1 ∈ A := fun v hv => by rw [hA]; exact List.mem_map.2 ⟨v, hv, rfl⟩
  unfold spanOf
  dsimp only
  split
  · next hw =>
    have hmin := minList_mem A hAne
    have hmax := maxList_mem A hAne
    obtain ⟨k, k1, k2⟩ := rect_angle a b c d (minList A) (maxList A) hw (minList_le A _ hmax)
      (fun v hv _ => ⟨0, by simpa using minList_le A _ (hVA v (hcor v hv)), by simpa using le_maxList A _ (hVA v (hcor v hv))⟩)
      x y θ hx1 hx2 hy1 hy2 h
    obtain ⟨v1, -, e1⟩ := hAmem _ hmin
    obtain ⟨v2, -, e2⟩ := hAmem _ hmax
    have r1 := (arctan2_range v1.2 v1.1).1
    have r2 := (arctan2_range v2.2 v2.1).2
    rw [← e1] at r1
    rw [← e2] at r2
    have : θ + 2 * π * k = θ := turns_unique π hpi _ _ k rfl (by linarith) (by linarith)
    rw [this] at k1 k2
    exact has_one _ _ _ k1 k2
  · next hw =>
    have hmin := minList_mem A hAne
    have hmax := maxList_mem A hAne
    obtain ⟨v1, hv1, e1⟩ := hAmem _ hmin
    obtain ⟨v2, hv2, e2⟩ := hAmem _ hmax
    have i1 := hin v1 hv1
    have i2 := hin v2 hv2
    have hleft : b ≤ 0 ∧ ∀ v ∈ V, v ≠ (0, 0) := by
      rcases hside with h | h | h | h
      · exfalso
        have q1 := arctan2_right v1.2 v1.1 (by linarith)
        have q2 := arctan2_right v2.2 v2.1 (by linarith)
        apply hw; linarith
      · exfalso
        have q1 := arctan2_up v1.2 v1.1 (by linarith)
        have q2 := (arctan2_range v2.2 v2.1).2
        apply hw; linarith
      · exfalso
        have q1 := arctan2_down v2.2 v2.1 (by linarith)
        have q2 := (arctan2_range v1.2 v1.1).1
        apply hw; linarith
      · exact h
    obtain ⟨hb, hnz⟩ := hleft
    obtain ⟨M, hM⟩ : ∃ M, M = A.map fun z => fmod z (2 * π) := ⟨_, rfl⟩
    rw [← hM]
    have hMne : M ≠ [] := by rw [hM]; simpa using hAne
    have hMr : ∀ z ∈ M, π / 2 ≤ z ∧ z ≤ 3 * π / 2 := by
      intro z hz
      rw [hM] at hz
      obtain ⟨w, hw, rfl⟩ := List.mem_map.1 hz
      obtain ⟨v, hv, rfl⟩ := hAmem w hw
      have hv1 : v.1 ≤ 0 := (hin v hv).2.1.trans hb
      obtain ⟨r1, r2⟩ := arctan2_range v.2 v.1
      have q : π / 2 ≤ arctan2 v.2 v.1 ∨ arctan2 v.2 v.1 ≤ -(π / 2) := by
        rcases lt_or_eq_of_le hv1 with hlt | heq
        · rcases arctan2_left v.2 v.1 hlt with h | h
          · exact .inl h.le
          · exact .inr h.le
        · have hv2 : v.2 ≠ 0 := fun e => hnz v hv (Prod.ext heq e)
          rcases lt_or_gt_of_ne hv2 with h | h
          · right
            rw [arctan2_of_direction (θ := -(π / 2)) ⟨-v.2, by linarith, by simp [heq], by simp, by linarith, by linarith⟩]
          · left
            rw [arctan2_of_direction (θ := π / 2) ⟨v.2, h, by simp [heq], by simp, by linarith, by linarith⟩]
      rw [fmod_arctan2]
      split
      · next hn => rcases q with q | q <;> constructor <;> linarith
      · next hn => rcases q with q | q <;> constructor <;> linarith
    have m1 := hMr _ (minList_mem M hMne)
    have m2 := hMr _ (maxList_mem M hMne)
    obtain ⟨k, k1, k2⟩ := rect_angle a b c d (minList M) (maxList M) (by linarith) (minList_le M _ (maxList_mem M hMne))
      (fun v hv _ => by
        obtain ⟨k, hk⟩ := fmod_congr (arctan2 v.2 v.1) (2 * π)
        have hmem : fmod (arctan2 v.2 v.1) (2 * π) ∈ M := by rw [hM]; exact List.mem_map.2 ⟨_, hVA v (hcor v hv), rfl⟩
        exact ⟨k, by rw [← hk]; exact minList_le M _ hmem, by rw [← hk]; exact le_maxList M _ hmem⟩)
      x y θ hx1 hx2 hy1 hy2 h
    exact has_shifted _ _ _ k (by linarith) (by linarith) hθ.1 hθ.2 k1 k2

theorem cornerVecs_in (r1 r2 : RectXY ℝ) (h1 : r1.xmin ≤ r1.xmax) (h2 : r1.ymin ≤ r1.ymax) (h3 : r2.xmin ≤ r2.xmax) (h4 : r2.ymin ≤ r2.ymax)
    (v : ℝ × ℝ) (hv : v ∈ cornerVecs r1 r2) :
    r2.xmin - r1.xmax ≤ v.1 ∧ v.1 ≤ r2.xmax - r1.xmin ∧ r2.ymin - r1.ymax ≤ v.2 ∧ v.2 ≤ r2.ymax - r1.ymin := by
  simp only [cornerVecs, RectXY.corners, List.mem_flatMap, List.mem_map] at hv
  obtain ⟨c2, hc2, c1, hc1, rfl⟩ := hv
  simp only [List.mem_cons, List.not_mem_nil, or_false] at hc1 hc2
  rcases hc1 with rfl | rfl | rfl | rfl <;> rcases hc2 with rfl | rfl | rfl | rfl <;> dsimp only <;> refine ⟨?_, ?_, ?_, ?_⟩ <;> linarith

theorem cornerVecs_corner (r1 r2 : RectXY ℝ) : ∀ v ∈ [(r2.xmin - r1.xmax, r2.ymin - r1.ymax), (r2.xmin - r1.xmax, r2.ymax - r1.ymin),
    (r2.xmax - r1.xmin, r2.ymin - r1.ymax), (r2.xmax - r1.xmin, r2.ymax - r1.ymin)], v ∈ cornerVecs r1 r2 := by
  intro v hv
  simp only [List.mem_cons, List.not_mem_nil, or_false] at hv
  simp only [cornerVecs, RectXY.corners, List.mem_flatMap, List.mem_map]
  rcases hv with rfl | rfl | rfl | rfl
  · exact ⟨(r2.xmin, r2.ymin), by simp, (r1.xmax, r1.ymax), by simp, rfl⟩
  · exact ⟨(r2.xmin, r2.ymax), by simp, (r1.xmax, r1.ymin), by simp, rfl⟩
  · exact ⟨(r2.xmax, r2.ymin), by simp, (r1.xmin, r1.ymax), by simp, rfl⟩
  · exact ⟨(r2.xmax, r2.ymax), by simp, (r1.xmin, r1.ymin), by simp, rfl⟩

/-- **C65 (partial), two rectangles.** For disjoint rectangles, the interval of
`angular_span_between_rects` contains the direction of every vector from a point of the first to a
point of the second. (The rectangles may also touch, when the second begins where the first ends.)
Missing: rectangles that meet, for which directions are lost unless the lower left corner of one is
strictly inside the other (`C65_between_violated`). -/
theorem C65_between_partial (r1 r2 : RectXY ℝ)
    (hdis : r1.xmax ≤ r2.xmin ∨ r1.ymax ≤ r2.ymin ∨ r2.xmax < r1.xmin ∨ r2.ymax < r1.ymin)
    (q1 q2 : ℝ × ℝ) (h1 : InRect r1 q1) (h2 : InRect r2 q2) (θ : ℝ) (h : IsDirection (q2.1 - q1.1) (q2.2 - q1.2) θ) :
    (ABound.one (spanBetween π arctan2 r1 r2).1 (spanBetween π arctan2 r1 r2).2).Has π θ := by
  have hθ : -π < θ ∧ θ ≤ π := by obtain ⟨_, _, _, _, h1, h2⟩ := h; exact ⟨h1, h2⟩
  obtain ⟨a1, a2, a3, a4⟩ := h1
  obtain ⟨b1, b2, b3, b4⟩ := h2
  unfold spanBetween
  split
  · exact has_full θ hθ.1 hθ.2
  have hin := fun v hv => cornerVecs_in r1 r2 (by linarith) (by linarith) (by linarith) (by linarith) v hv
  refine spanOf_has _ _ _ _ _ hin (cornerVecs_corner r1 r2) ?_ _ _ θ (by linarith) (by linarith) (by linarith) (by linarith) h
  rcases hdis with h | h | h | h
  · exact .inl (by linarith)
  · exact .inr (.inl (by linarith))
  · refine .inr (.inr (.inr ⟨by linarith, fun v hv e => ?_⟩))
    have := (hin v hv).2.1
    rw [e] at this
    dsimp only at this
    linarith
  · exact .inr (.inr (.inl (by linarith)))

/-- Rectangles with a lower left corner strictly inside the other give the full turn. -/
theorem C65_between_inside (r1 r2 : RectXY ℝ)
    (hin : (r1.xmin < r2.xmin ∧ r2.xmin < r1.xmax ∧ r1.ymin < r2.ymin ∧ r2.ymin < r1.ymax) ∨
      (r2.xmin < r1.xmin ∧ r1.xmin < r2.xmax ∧ r2.ymin < r1.ymin ∧ r1.ymin < r2.ymax)) (θ : ℝ) (h1 : -π < θ) (h2 : θ ≤ π) :
    (ABound.one (spanBetween π arctan2 r1 r2).1 (spanBetween π arctan2 r1 r2).2).Has π θ := by
  unfold spanBetween
  rw [if_pos hin]
  exact has_full θ h1 h2

theorem parser_has (y1 y2 x1 x2 θ : ℝ) (h : (ABound.one (spanBetween π arctan2 ⟨0, 0, 0, 0⟩ ⟨x1, x2, y1, y2⟩).1
    (spanBetween π arctan2 ⟨0, 0, 0, 0⟩ ⟨x1, x2, y1, y2⟩).2).Has π θ) : (spanRectParser π arctan2 (y1, y2) (x1, x2)).Has π θ := by
  unfold spanRectParser
  dsimp only
  generalize spanBetween π arctan2 ⟨0, 0, 0, 0⟩ ⟨x1, x2, y1, y2⟩ = r at *
  split
  · exact h
  · next hc =>
    obtain ⟨iv, hiv, hb⟩ := h
    refine ⟨iv, ?_, hb⟩
    simpa [ABound.parts, not_le.1 hc] using hiv

theorem zeroVecs (x1 x2 y1 y2 : ℝ) (v : ℝ × ℝ) : v ∈ cornerVecs (⟨0, 0, 0, 0⟩ : RectXY ℝ) ⟨x1, x2, y1, y2⟩ ↔
    v ∈ [(x1, y1), (x1, y2), (x2, y1), (x2, y2)] := by
  simp only [cornerVecs, RectXY.corners, List.mem_flatMap, List.mem_map, List.mem_cons, List.not_mem_nil, or_false, or_self,
    exists_eq_left, sub_zero]
  constructor
  · rintro ⟨c, hc, rfl⟩; exact hc
  · intro hc; exact ⟨v, hc, rfl⟩

/-- **C65 (partial), `arctan2` of intervals.** `angular_span_rect_parser` contains `arctan2(y, x)` for all
`x` and `y` in the two intervals that are not both zero, unless the box has the origin on its upper edge,
between the corners. Missing: that case, where directions are always lost (`C65_parser_violated`). -/
theorem C65_parser_partial (x1 x2 y1 y2 : ℝ) (hbox : ¬ (x1 < 0 ∧ 0 < x2 ∧ y1 < 0 ∧ y2 = 0)) (x y θ : ℝ)
    (hx1 : x1 ≤ x) (hx2 : x ≤ x2) (hy1 : y1 ≤ y) (hy2 : y ≤ y2) (h : IsDirection x y θ) :
    (spanRectParser π arctan2 (y1, y2) (x1, x2)).Has π θ := by
  have hpi := pi_pos
  have hθ : -π < θ ∧ θ ≤ π := by obtain ⟨_, _, _, _, h1, h2⟩ := h; exact ⟨h1, h2⟩
  apply parser_has
  unfold spanBetween
  split
  · exact has_full θ hθ.1 hθ.2
  next hno =>
  have hno' : ¬ (x1 < 0 ∧ 0 < x2 ∧ y1 < 0 ∧ 0 < y2) := fun hc => hno (.inr hc)
  have hin : ∀ v ∈ cornerVecs (⟨0, 0, 0, 0⟩ : RectXY ℝ) ⟨x1, x2, y1, y2⟩, x1 ≤ v.1 ∧ v.1 ≤ x2 ∧ y1 ≤ v.2 ∧ v.2 ≤ y2 := by
    intro v hv
    simpa using cornerVecs_in _ _ (le_refl (0 : ℝ)) (le_refl (0 : ℝ)) (hx1.trans hx2) (hy1.trans hy2) v hv
  have hcor := fun v => (zeroVecs x1 x2 y1 y2 v).2
  by_cases hcase : 0 ≤ x1 ∨ 0 ≤ y1 ∨ y2 < 0 ∨ (x2 ≤ 0 ∧ ∀ v ∈ cornerVecs (⟨0, 0, 0, 0⟩ : RectXY ℝ) ⟨x1, x2, y1, y2⟩, v ≠ (0, 0))
  · exact spanOf_has x1 x2 y1 y2 _ hin hcor hcase x y θ hx1 hx2 hy1 hy2 h
  · -- the origin is the upper right corner
    push Not at hcase
    obtain ⟨c1, c2, c3, c4⟩ := hcase
    have hx2' : x2 ≤ 0 := by
      by_contra hc
      have hc := not_le.1 hc
      rcases lt_or_eq_of_le c3 with h | h
      · exact hno' ⟨c1, hc, c2, h⟩
      · exact hbox ⟨c1, hc, c2, h.symm⟩
    obtain ⟨v, hv, hv0⟩ := c4 hx2'
    have hv' := (zeroVecs x1 x2 y1 y2 v).1 hv
    have hcorner : x2 = 0 ∧ y2 = 0 := by
      simp only [List.mem_cons, List.not_mem_nil, or_false] at hv'
      rw [hv0] at hv'
      rcases hv' with e | e | e | e <;> simp only [Prod.mk.injEq] at e
      · linarith
      · linarith
      · linarith
      · exact ⟨e.1.symm, e.2.symm⟩
    obtain ⟨rfl, rfl⟩ := hcorner
    obtain ⟨A, hA⟩ : ∃ A, A = (cornerVecs (⟨0, 0, 0, 0⟩ : RectXY ℝ) ⟨x1, 0, y1, 0⟩).map fun v => arctan2 v.2 v.1 := ⟨_, rfl⟩
    rw [← hA]
    have hmem : ∀ z, z ∈ A ↔ z = arctan2 y1 x1 ∨ z = π ∨ z = -(π / 2) ∨ z = 0 := by
      intro z
      have e1 : arctan2 0 x1 = π := arctan2_of_direction ⟨-x1, by linarith, by simp, by simp, by linarith, le_refl _⟩
      have e2 : arctan2 y1 0 = -(π / 2) := arctan2_of_direction ⟨-y1, by linarith, by simp, by simp, by linarith, by linarith⟩
      rw [hA, List.mem_map]
      constructor
      · rintro ⟨v, hv, rfl⟩
        have := (zeroVecs x1 0 y1 0 v).1 hv
        simp only [List.mem_cons, List.not_mem_nil, or_false] at this
        rcases this with rfl | rfl | rfl | rfl
        · exact .inl rfl
        · exact .inr (.inl e1)
        · exact .inr (.inr (.inl e2))
        · exact .inr (.inr (.inr arctan2_zero))
      · rintro (rfl | rfl | rfl | rfl)
        · exact ⟨(x1, y1), (zeroVecs x1 0 y1 0 _).2 (by simp), rfl⟩
        · exact ⟨(x1, 0), (zeroVecs x1 0 y1 0 _).2 (by simp), e1⟩
        · exact ⟨(0, y1), (zeroVecs x1 0 y1 0 _).2 (by simp), e2⟩
        · exact ⟨(0, 0), (zeroVecs x1 0 y1 0 _).2 (by simp), arctan2_zero⟩
    have hr := arctan2_range y1 x1
    have hd := arctan2_down y1 x1 c2
    have hl : arctan2 y1 x1 < -(π / 2) := by
      rcases arctan2_left y1 x1 c1 with h | h
      · linarith
      · exact h
    have emax : maxList A = π := maxList_eq A π ((hmem _).2 (by simp)) fun z hz => by
      rcases (hmem z).1 hz with rfl | rfl | rfl | rfl <;> linarith
    have emin : minList A = arctan2 y1 x1 := minList_eq A _ ((hmem _).2 (by simp)) fun z hz => by
      rcases (hmem z).1 hz with rfl | rfl | rfl | rfl <;> linarith
    have f1 : fmod (arctan2 y1 x1) (2 * π) = arctan2 y1 x1 + 2 * π := by rw [fmod_arctan2, if_pos hd]
    have fm : ∀ z, 0 ≤ z → z < 2 * π → fmod z (2 * π) = z := fun z z1 z2 => by
      obtain ⟨k, hk⟩ := fmod_congr z (2 * π)
      obtain ⟨r1, r2⟩ := fmod_range z (2 * π) (by linarith)
      exact turns_unique π hpi _ _ k hk (by linarith) (by linarith)
    have f2 : fmod (-(π / 2)) (2 * π) = 3 * π / 2 := by
      obtain ⟨k, hk⟩ := fmod_congr (-(π / 2)) (2 * π)
      obtain ⟨r1, r2⟩ := fmod_range (-(π / 2)) (2 * π) (by linarith)
      exact turns_unique π hpi _ _ (k - 1) (by rw [hk]; push_cast; ring) (by linarith) (by linarith)
    have f3 := fm π hpi.le (by linarith)
    have f4 := fm 0 le_rfl (by linarith)
    have hmods : ∀ z, z ∈ A.map (fun a => fmod a (2 * π)) ↔ z = arctan2 y1 x1 + 2 * π ∨ z = π ∨ z = 3 * π / 2 ∨ z = 0 := by
      intro z
      rw [List.mem_map]
      constructor
      · rintro ⟨w, hw, rfl⟩
        rcases (hmem w).1 hw with rfl | rfl | rfl | rfl
        · exact .inl f1
        · exact .inr (.inl f3)
        · exact .inr (.inr (.inl f2))
        · exact .inr (.inr (.inr f4))
      · rintro (rfl | rfl | rfl | rfl)
        · exact ⟨_, (hmem _).2 (.inl rfl), f1⟩
        · exact ⟨_, (hmem _).2 (.inr (.inl rfl)), f3⟩
        · exact ⟨_, (hmem _).2 (.inr (.inr (.inl rfl))), f2⟩
        · exact ⟨_, (hmem _).2 (.inr (.inr (.inr rfl))), f4⟩
    have gmax : maxList (A.map (fun a => fmod a (2 * π))) = 3 * π / 2 := maxList_eq _ _ ((hmods _).2 (by simp)) fun z hz => by
      rcases (hmods z).1 hz with rfl | rfl | rfl | rfl <;> linarith
    have gmin : minList (A.map (fun a => fmod a (2 * π))) = 0 := minList_eq _ _ ((hmods _).2 (by simp)) fun z hz => by
      rcases (hmods z).1 hz with rfl | rfl | rfl | rfl <;> linarith
    unfold spanOf
    dsimp only
    rw [emax, emin, if_neg (by linarith), gmax, gmin]
    -- the direction is in `(-π, -π/2]` or `π`
    obtain ⟨r, hr0, ex, ey, -, -⟩ := h
    have hs : sin θ ≤ 0 := by
      by_contra hc
      have := mul_pos hr0 (not_le.1 hc)
      linarith
    have hcs : cos θ ≤ 0 := by
      by_contra hc
      have := mul_pos hr0 (not_le.1 hc)
      linarith
    have hcov : 0 ≤ θ ∨ θ ≤ -(π / 2) := by
      by_contra hc
      push Not at hc
      have := cos_pos_of_mem_Ioo (show θ ∈ Set.Ioo (-(π / 2)) (π / 2) from ⟨hc.2, by linarith⟩)
      linarith
    rw [if_neg (by linarith : ¬ (0 : ℝ) > π), if_pos (by linarith : 3 * π / 2 > π)]
    exact has_wrapped _ _ _ (by linarith) hθ.1.le hθ.2 (hcov.imp id fun h => by linarith)

/-- **C65 is violated** by every box with the origin on its upper edge, between the corners: the result of
`angular_span_rect_parser` is `[0, π]` and `[-π, β]`, where `β` is the direction of the lower right
corner, and the directions between `β` and zero are lost. -/
theorem C65_parser_violated (x1 x2 y1 : ℝ) (h1 : x1 < 0) (h2 : 0 < x2) (h3 : y1 < 0) :
    ∃ x y θ, x1 ≤ x ∧ x ≤ x2 ∧ y1 ≤ y ∧ y ≤ 0 ∧ IsDirection x y θ ∧ ¬ (spanRectParser π arctan2 (y1, 0) (x1, x2)).Has π θ := by
  have hpi := pi_pos
  have e0 : arctan2 0 x2 = 0 := arctan2_of_direction ⟨x2, h2, by simp, by simp, by linarith, hpi.le⟩
  have e1 : arctan2 0 x1 = π := arctan2_of_direction ⟨-x1, by linarith, by simp, by simp, by linarith, le_refl _⟩
  have hα := arctan2_range y1 x1
  have hβ := arctan2_range y1 x2
  have dα := arctan2_down y1 x1 h3
  have dβ := arctan2_down y1 x2 h3
  have lα : arctan2 y1 x1 < -(π / 2) := by
    rcases arctan2_left y1 x1 h1 with h | h
    · linarith
    · exact h
  have rβ := (arctan2_right y1 x2 h2.le).1
  obtain ⟨r, hr, ex, ey, -, -⟩ := direction_arctan2 x2 y1 (.inl h2.ne')
  generalize hb : arctan2 y1 x2 = β at *
  generalize ha : arctan2 y1 x1 = α at *
  -- the vector half as steep
  obtain ⟨θ, hθ⟩ : ∃ θ, θ = arctan2 (y1 / 2) x2 := ⟨_, rfl⟩
  have hd : IsDirection x2 (y1 / 2) θ := by rw [hθ]; exact direction_arctan2 _ _ (.inl h2.ne')
  have hθ0 : θ < 0 := by rw [hθ]; exact arctan2_down _ _ (by linarith)
  have hθr : -(π / 2) ≤ θ := by rw [hθ]; exact (arctan2_right _ _ h2.le).1
  have hθβ : β < θ := by
    obtain ⟨s, hs, fx, fy, -, -⟩ := hd
    by_contra hc
    have hc := not_lt.1 hc
    -- `sin (θ - β) > 0`
    have hsin : sin (θ - β) * (r * s) = x2 * (y1 / 2) - y1 * x2 := by
      rw [sin_sub]
      linear_combination -(r * cos β) * fy + (r * sin β) * fx - (y1 / 2) * ex + x2 * ey
    have hpos : 0 < x2 * (y1 / 2) - y1 * x2 := by nlinarith
    have : sin (θ - β) ≤ 0 := sin_nonpos_of_nonpos_of_neg_pi_le (by linarith) (by linarith)
    have hrs := mul_pos hr hs
    nlinarith
  refine ⟨x2, y1 / 2, θ, by linarith, le_refl _, by linarith, by linarith, hd, ?_⟩
  obtain ⟨A, hA⟩ : ∃ A, A = (cornerVecs (⟨0, 0, 0, 0⟩ : RectXY ℝ) ⟨x1, x2, y1, 0⟩).map fun v => arctan2 v.2 v.1 := ⟨_, rfl⟩
  have hmem : ∀ z, z ∈ A ↔ z = α ∨ z = π ∨ z = β ∨ z = 0 := by
    intro z
    rw [hA, List.mem_map]
    constructor
    · rintro ⟨v, hv, rfl⟩
      have := (zeroVecs x1 x2 y1 0 v).1 hv
      simp only [List.mem_cons, List.not_mem_nil, or_false] at this
      rcases this with rfl | rfl | rfl | rfl
      · exact .inl ha
      · exact .inr (.inl e1)
      · exact .inr (.inr (.inl hb))
      · exact .inr (.inr (.inr e0))
    · rintro (rfl | rfl | rfl | rfl)
      · exact ⟨(x1, y1), (zeroVecs _ _ _ _ _).2 (by simp), ha⟩
      · exact ⟨(x1, 0), (zeroVecs _ _ _ _ _).2 (by simp), e1⟩
      · exact ⟨(x2, y1), (zeroVecs _ _ _ _ _).2 (by simp), hb⟩
      · exact ⟨(x2, 0), (zeroVecs _ _ _ _ _).2 (by simp), e0⟩
  have fneg : ∀ z, -π < z → z < 0 → fmod z (2 * π) = z + 2 * π := fun z z1 z2 => by
    obtain ⟨k, hk⟩ := fmod_congr z (2 * π)
    obtain ⟨r1, r2⟩ := fmod_range z (2 * π) (by linarith)
    exact turns_unique π hpi _ _ (k - 1) (by rw [hk]; push_cast; ring) (by linarith) (by linarith)
  have fpos : ∀ z, 0 ≤ z → z < 2 * π → fmod z (2 * π) = z := fun z z1 z2 => by
    obtain ⟨k, hk⟩ := fmod_congr z (2 * π)
    obtain ⟨r1, r2⟩ := fmod_range z (2 * π) (by linarith)
    exact turns_unique π hpi _ _ k hk (by linarith) (by linarith)
  have hmods : ∀ z, z ∈ A.map (fun a => fmod a (2 * π)) ↔ z = α + 2 * π ∨ z = π ∨ z = β + 2 * π ∨ z = 0 := by
    intro z
    rw [List.mem_map]
    have g1 := fneg α (by linarith) dα
    have g2 := fpos π hpi.le (by linarith)
    have g3 := fneg β (by linarith) dβ
    have g4 := fpos 0 le_rfl (by linarith)
    constructor
    · rintro ⟨w, hw, rfl⟩
      rcases (hmem w).1 hw with rfl | rfl | rfl | rfl
      · exact .inl g1
      · exact .inr (.inl g2)
      · exact .inr (.inr (.inl g3))
      · exact .inr (.inr (.inr g4))
    · rintro (rfl | rfl | rfl | rfl)
      · exact ⟨_, (hmem _).2 (.inl rfl), g1⟩
      · exact ⟨_, (hmem _).2 (.inr (.inl rfl)), g2⟩
      · exact ⟨_, (hmem _).2 (.inr (.inr (.inl rfl))), g3⟩
      · exact ⟨_, (hmem _).2 (.inr (.inr (.inr rfl))), g4⟩
  have emax : maxList A = π := maxList_eq A π ((hmem _).2 (by simp)) fun z hz => by
    rcases (hmem z).1 hz with rfl | rfl | rfl | rfl <;> linarith
  have emin : minList A = α := minList_eq A _ ((hmem _).2 (by simp)) fun z hz => by
    rcases (hmem z).1 hz with rfl | rfl | rfl | rfl <;> linarith
  have gmax : maxList (A.map (fun a => fmod a (2 * π))) = β + 2 * π := maxList_eq _ _ ((hmods _).2 (by simp)) fun z hz => by
    rcases (hmods z).1 hz with rfl | rfl | rfl | rfl <;> linarith
  have gmin : minList (A.map (fun a => fmod a (2 * π))) = 0 := minList_eq _ _ ((hmods _).2 (by simp)) fun z hz => by
    rcases (hmods z).1 hz with rfl | rfl | rfl | rfl <;> linarith
  have espan : spanOf π A = (0, β) := by
    unfold spanOf
    dsimp only
    rw [emax, emin, if_neg (by linarith), gmax, gmin, if_neg (by linarith), if_pos (by linarith)]
    simp
  have ebet : spanBetween π arctan2 ⟨0, 0, 0, 0⟩ ⟨x1, x2, y1, 0⟩ = (0, β) := by
    unfold spanBetween
    rw [if_neg (by rintro (⟨h, h', -⟩ | ⟨-, -, -, h⟩) <;> dsimp only at * <;> linarith), ← hA, espan]
  unfold spanRectParser
  rw [ebet]
  dsimp only
  rw [if_neg (by linarith)]
  rintro ⟨iv, hiv, hh⟩
  simp only [ABound.parts, List.mem_cons, List.not_mem_nil, or_false] at hiv
  rcases hiv with rfl | rfl <;> dsimp only at hh <;> linarith [hh.1, hh.2]

/-- Two crossing segments: the horizontal one from `-1` to `1` and the vertical one from `-1` to `1`. -/
def exSpanH : RectXY ℝ := ⟨-1, 1, 0, 0⟩
def exSpanV : RectXY ℝ := ⟨0, 0, -1, 1⟩

/-- **C65 is violated** for rectangles that cross: between a horizontal and a vertical segment that cross,
`angular_span_between_rects` returns `(π/4, -π/4)`, that is `[π/4, π]` and `[-π, -π/4]`; the direction zero,
of the vector from `(-1, 0)` to `(0, 0)`, is lost. -/
theorem C65_between_violated : ∃ (r1 r2 : RectXY ℝ) (q1 q2 : ℝ × ℝ) (θ : ℝ), InRect r1 q1 ∧ InRect r2 q2 ∧
    IsDirection (q2.1 - q1.1) (q2.2 - q1.2) θ ∧ ¬ (ABound.one (spanBetween π arctan2 r1 r2).1 (spanBetween π arctan2 r1 r2).2).Has π θ := by
  have hpi := pi_pos
  refine ⟨exSpanH, exSpanV, (-1, 0), (0, 0), 0, ?_, ?_, ⟨1, by norm_num, by norm_num, by norm_num, by linarith, hpi.le⟩, ?_⟩
  · norm_num [InRect, exSpanH]
  · norm_num [InRect, exSpanV]
  have hs2 : √2 * √2 = 2 := mul_self_sqrt (by norm_num)
  have hs0 : (0 : ℝ) < √2 := sqrt_pos.2 (by norm_num)
  have c34 : cos (3 * π / 4) = -(√2 / 2) := by
    rw [show 3 * π / 4 = π - π / 4 by ring, cos_pi_sub, cos_pi_div_four]
  have s34 : sin (3 * π / 4) = √2 / 2 := by
    rw [show 3 * π / 4 = π - π / 4 by ring, sin_pi_sub, sin_pi_div_four]
  have d1 : arctan2 1 1 = π / 4 := arctan2_of_direction ⟨√2, hs0, by rw [cos_pi_div_four]; linarith, by rw [sin_pi_div_four]; linarith, by linarith, by linarith⟩
  have d2 : arctan2 (-1) 1 = -(π / 4) := arctan2_of_direction
    ⟨√2, hs0, by rw [cos_neg, cos_pi_div_four]; linarith, by rw [sin_neg, sin_pi_div_four]; linarith, by linarith, by linarith⟩
  have d3 : arctan2 1 (-1) = 3 * π / 4 := arctan2_of_direction ⟨√2, hs0, by rw [c34]; linarith, by rw [s34]; linarith, by linarith, by linarith⟩
  have d4 : arctan2 (-1) (-1) = -(3 * π / 4) := arctan2_of_direction
    ⟨√2, hs0, by rw [cos_neg, c34]; linarith, by rw [sin_neg, s34]; linarith, by linarith, by linarith⟩
  obtain ⟨A, hA⟩ : ∃ A, A = (cornerVecs exSpanH exSpanV).map fun v => arctan2 v.2 v.1 := ⟨_, rfl⟩
  have hmem : ∀ z, z ∈ A ↔ z = π / 4 ∨ z = -(π / 4) ∨ z = 3 * π / 4 ∨ z = -(3 * π / 4) := by
    intro z
    rw [hA]
    simp only [cornerVecs, exSpanH, exSpanV, RectXY.corners, List.flatMap_cons, List.flatMap_nil, List.map_cons, List.map_nil, List.cons_append,
      List.nil_append, List.append_nil, List.mem_cons, List.not_mem_nil, or_false]
    norm_num [d1, d2, d3, d4]
    tauto
  have fneg : ∀ z, -π < z → z < 0 → fmod z (2 * π) = z + 2 * π := fun z z1 z2 => by
    obtain ⟨k, hk⟩ := fmod_congr z (2 * π)
    obtain ⟨r1, r2⟩ := fmod_range z (2 * π) (by linarith)
    exact turns_unique π hpi _ _ (k - 1) (by rw [hk]; push_cast; ring) (by linarith) (by linarith)
  have fpos : ∀ z, 0 ≤ z → z < 2 * π → fmod z (2 * π) = z := fun z z1 z2 => by
    obtain ⟨k, hk⟩ := fmod_congr z (2 * π)
    obtain ⟨r1, r2⟩ := fmod_range z (2 * π) (by linarith)
    exact turns_unique π hpi _ _ k hk (by linarith) (by linarith)
  have g1 := fpos (π / 4) (by linarith) (by linarith)
  have g2 := fneg (-(π / 4)) (by linarith) (by linarith)
  have g3 := fpos (3 * π / 4) (by linarith) (by linarith)
  have g4 := fneg (-(3 * π / 4)) (by linarith) (by linarith)
  have hmods : ∀ z, z ∈ A.map (fun a => fmod a (2 * π)) ↔ z = π / 4 ∨ z = -(π / 4) + 2 * π ∨ z = 3 * π / 4 ∨ z = -(3 * π / 4) + 2 * π := by
    intro z
    rw [List.mem_map]
    constructor
    · rintro ⟨w, hw, rfl⟩
      rcases (hmem w).1 hw with rfl | rfl | rfl | rfl
      · exact .inl g1
      · exact .inr (.inl g2)
      · exact .inr (.inr (.inl g3))
      · exact .inr (.inr (.inr g4))
    · rintro (rfl | rfl | rfl | rfl)
      · exact ⟨_, (hmem _).2 (.inl rfl), g1⟩
      · exact ⟨_, (hmem _).2 (.inr (.inl rfl)), g2⟩
      · exact ⟨_, (hmem _).2 (.inr (.inr (.inl rfl))), g3⟩
      · exact ⟨_, (hmem _).2 (.inr (.inr (.inr rfl))), g4⟩
  have emax : maxList A = 3 * π / 4 := maxList_eq A _ ((hmem _).2 (by simp)) fun z hz => by
    rcases (hmem z).1 hz with rfl | rfl | rfl | rfl <;> linarith
  have emin : minList A = -(3 * π / 4) := minList_eq A _ ((hmem _).2 (by simp)) fun z hz => by
    rcases (hmem z).1 hz with rfl | rfl | rfl | rfl <;> linarith
  have gmax : maxList (A.map (fun a => fmod a (2 * π))) = -(π / 4) + 2 * π := maxList_eq _ _ ((hmods _).2 (by simp)) fun z hz => by
    rcases (hmods z).1 hz with rfl | rfl | rfl | rfl <;> linarith
  have gmin : minList (A.map (fun a => fmod a (2 * π))) = π / 4 := minList_eq _ _ ((hmods _).2 (by simp)) fun z hz => by
    rcases (hmods z).1 hz with rfl | rfl | rfl | rfl <;> linarith
  have espan : spanOf π A = (π / 4, -(π / 4)) := by
    unfold spanOf
    dsimp only
    rw [emax, emin, if_neg (by linarith), gmax, gmin, if_neg (by linarith), if_pos (by linarith)]
    simp
  have ebet : spanBetween π arctan2 exSpanH exSpanV = (π / 4, -(π / 4)) := by
    unfold spanBetween
    rw [if_neg (by norm_num [exSpanH, exSpanV]), ← hA, espan]
  rw [ebet]
  rintro ⟨iv, hiv, hh⟩
  simp only [ABound.parts, gt_iff_lt, if_pos (show -(π / 4) < π / 4 by linarith), List.mem_cons, List.not_mem_nil, or_false] at hiv
  rcases hiv with rfl | rfl <;> dsimp only at hh <;> linarith [hh.1, hh.2]

/-! ### Directions to the origin -/

/-- **C65 (partial), directions to the origin.** `angular_bounds_rectangle` contains the direction of the
vector from every point of the rectangle to the origin, provided that the origin is strictly inside the
rectangle, or the rectangle lies strictly above the x-axis, or does not reach above it, or does not
reach right of the y-axis, or lies strictly right of the y-axis and crosses the x-axis. Missing: the
remaining rectangles, which touch an axis (`C65_origin_violated`). -/
theorem C65_origin_partial (x1 x2 y1 y2 : ℝ)
    (hbox : (x1 < 0 ∧ 0 < x2 ∧ y1 < 0 ∧ 0 < y2) ∨ x2 ≤ 0 ∨ y2 ≤ 0 ∨ 0 < y1 ∨ (0 < x1 ∧ y1 < 0 ∧ 0 < y2))
    (x y θ : ℝ) (hx1 : x1 ≤ x) (hx2 : x ≤ x2) (hy1 : y1 ≤ y) (hy2 : y ≤ y2) (h : IsDirection (0 - x) (0 - y) θ) :
    (ABound.one (boundsRectangle π arctan2 (x1, x2) (y1, y2)).1 (boundsRectangle π arctan2 (x1, x2) (y1, y2)).2).Has π θ := by
  have hpi := pi_pos
  have hθ : -π < θ ∧ θ ≤ π := by obtain ⟨_, _, _, _, h1, h2⟩ := h; exact ⟨h1, h2⟩
  rw [zero_sub, zero_sub] at h
  unfold boundsRectangle
  dsimp only
  split
  · exact has_full θ hθ.1 hθ.2
  next hfull =>
  obtain ⟨A, hA⟩ : ∃ A, A = ((⟨-x2, -x1, -y2, -y1⟩ : RectXY ℝ).corners).map fun c => arctan2 c.2 c.1 := ⟨_, rfl⟩
  rw [← hA]
  have hAm : ∀ z, z ∈ A ↔ ∃ v ∈ [(-x2, -y2), (-x2, -y1), (-x1, -y2), (-x1, -y1)], arctan2 v.2 v.1 = z := by
    intro z; rw [hA]; simp only [RectXY.corners, List.mem_map]
  have hin : ∀ v ∈ [(-x2, -y2), (-x2, -y1), (-x1, -y2), (-x1, -y1)], -x2 ≤ v.1 ∧ v.1 ≤ -x1 ∧ -y2 ≤ v.2 ∧ v.2 ≤ -y1 := by
    intro v hv
    simp only [List.mem_cons, List.not_mem_nil, or_false] at hv
    rcases hv with rfl | rfl | rfl | rfl <;> dsimp only <;> refine ⟨?_, ?_, ?_, ?_⟩ <;> linarith
  have hAne : A ≠ [] := by rw [hA]; simp [RectXY.corners]
  have hmin := minList_mem A hAne
  have hmax := maxList_mem A hAne
  obtain ⟨v1, hv1, e1⟩ := (hAm _).1 hmin
  obtain ⟨v2, hv2, e2⟩ := (hAm _).1 hmax
  have i1 := hin v1 hv1
  have i2 := hin v2 hv2
  split
  · next hno =>
    have hw : maxList A - minList A ≤ π := by
      rcases hbox with h | h | h | h | h
      · exact absurd ⟨⟨by linarith, by linarith⟩, by linarith, by linarith⟩ hfull
      · have q1 := arctan2_right v1.2 v1.1 (by linarith)
        have q2 := arctan2_right v2.2 v2.1 (by linarith)
        rw [e1] at q1; rw [e2] at q2; linarith
      · have q1 := arctan2_up v1.2 v1.1 (by linarith)
        have q2 := (arctan2_range v2.2 v2.1).2
        rw [e1] at q1; rw [e2] at q2; linarith
      · have q1 := arctan2_down v2.2 v2.1 (by linarith)
        have q2 := (arctan2_range v1.2 v1.1).1
        rw [e2] at q1; rw [e1] at q2; linarith
      · exact absurd ⟨by linarith, by linarith, by linarith⟩ hno
    obtain ⟨k, k1, k2⟩ := rect_angle (-x2) (-x1) (-y2) (-y1) (minList A) (maxList A) hw (minList_le A _ hmax)
      (fun v hv _ => ⟨0, by simpa using minList_le A _ ((hAm _).2 ⟨v, hv, rfl⟩), by simpa using le_maxList A _ ((hAm _).2 ⟨v, hv, rfl⟩)⟩)
      (-x) (-y) θ (by linarith) (by linarith) (by linarith) (by linarith) h
    have r1 := (arctan2_range v1.2 v1.1).1
    have r2 := (arctan2_range v2.2 v2.1).2
    rw [e1] at r1
    rw [e2] at r2
    have : θ + 2 * π * k = θ := turns_unique π hpi _ _ k rfl (by linarith) (by linarith)
    rw [this] at k1 k2
    exact has_one _ _ _ k1 k2
  · next hyes =>
    have hyes := not_not.1 hyes
    obtain ⟨M, hM⟩ : ∃ M, M = A.map fun z => fmod z (2 * π) := ⟨_, rfl⟩
    rw [← hM]
    have hMm : ∀ v ∈ [(-x2, -y2), (-x2, -y1), (-x1, -y2), (-x1, -y1)], fmod (arctan2 v.2 v.1) (2 * π) ∈ M := fun v hv => by
      rw [hM]; exact List.mem_map.2 ⟨_, (hAm _).2 ⟨v, hv, rfl⟩, rfl⟩
    have hMne : M ≠ [] := by rw [hM]; simpa using hAne
    have hMr : ∀ z ∈ M, π / 2 < z ∧ z < 3 * π / 2 := by
      intro z hz
      rw [hM] at hz
      obtain ⟨w, hw, rfl⟩ := List.mem_map.1 hz
      obtain ⟨v, hv, rfl⟩ := (hAm w).1 hw
      have hvx : v.1 < 0 := lt_of_le_of_lt (hin v hv).2.1 hyes.1
      obtain ⟨r1, r2⟩ := arctan2_range v.2 v.1
      rw [fmod_arctan2]
      split
      · next hn => rcases arctan2_left v.2 v.1 hvx with q | q <;> constructor <;> linarith
      · next hn => rcases arctan2_left v.2 v.1 hvx with q | q <;> constructor <;> linarith
    have m1 := hMr _ (minList_mem M hMne)
    have m2 := hMr _ (maxList_mem M hMne)
    -- a corner below the axis and one above
    have hlow : π < maxList M := by
      have hd := arctan2_down (-y2) (-x2) hyes.2.1
      have hr := arctan2_range (-y2) (-x2)
      have := le_maxList M _ (hMm (-x2, -y2) (by simp))
      rw [fmod_arctan2, if_pos hd] at this
      linarith
    have hup : minList M < π := by
      have hd := arctan2_up (-y1) (-x2) (by linarith [hyes.2.2])
      have hr := arctan2_range (-y1) (-x2)
      have hne : arctan2 (-y1) (-x2) ≠ π := by
        intro e
        have := (Complex.arg_eq_pi_iff (z := ⟨-x2, -y1⟩)).1 e
        have h0 : -y1 = 0 := this.2
        linarith [hyes.2.2]
      have := minList_le M _ (hMm (-x2, -y1) (by simp))
      rw [fmod_arctan2, if_neg (not_lt.2 hd)] at this
      have := lt_of_le_of_ne hr.2 hne
      linarith
    obtain ⟨k, k1, k2⟩ := rect_angle (-x2) (-x1) (-y2) (-y1) (minList M) (maxList M) (by linarith) (minList_le M _ (maxList_mem M hMne))
      (fun v hv _ => by
        obtain ⟨k, hk⟩ := fmod_congr (arctan2 v.2 v.1) (2 * π)
        exact ⟨k, by rw [← hk]; exact minList_le M _ (hMm v hv), by rw [← hk]; exact le_maxList M _ (hMm v hv)⟩)
      (-x) (-y) θ (by linarith) (by linarith) (by linarith) (by linarith) h
    have s1 : fmod (minList M + π) (2 * π) - π = if minList M > π then minList M - 2 * π else minList M := by
      rw [if_neg (by linarith)]
      obtain ⟨k, hk⟩ := fmod_congr (minList M + π) (2 * π)
      obtain ⟨r1, r2⟩ := fmod_range (minList M + π) (2 * π) (by linarith)
      exact turns_unique π hpi _ _ k (by rw [hk]; ring) (by linarith) (by linarith)
    have s2 : fmod (maxList M + π) (2 * π) - π = if maxList M > π then maxList M - 2 * π else maxList M := by
      rw [if_pos hlow]
      obtain ⟨k, hk⟩ := fmod_congr (maxList M + π) (2 * π)
      obtain ⟨r1, r2⟩ := fmod_range (maxList M + π) (2 * π) (by linarith)
      exact turns_unique π hpi _ _ (k + 1) (by rw [hk]; push_cast; ring) (by linarith) (by linarith)
    rw [s1, s2]
    exact has_shifted _ _ _ k (by linarith) (by linarith) hθ.1 hθ.2 k1 k2

/-- **C65 is violated** by every rectangle with the origin inside its left edge: the direction `π`, of the
vectors from the points right of the origin, is not in the result of `angular_bounds_rectangle`. -/
theorem C65_origin_violated (x2 y1 y2 : ℝ) (h1 : 0 < x2) (h2 : y1 < 0) (h3 : 0 < y2) :
    ∃ x y θ, 0 ≤ x ∧ x ≤ x2 ∧ y1 ≤ y ∧ y ≤ y2 ∧ IsDirection (0 - x) (0 - y) θ ∧
      ¬ (ABound.one (boundsRectangle π arctan2 (0, x2) (y1, y2)).1 (boundsRectangle π arctan2 (0, x2) (y1, y2)).2).Has π θ := by
  have hpi := pi_pos
  refine ⟨x2, 0, π, h1.le, le_refl _, h2.le, h3.le, ⟨x2, h1, by simp, by simp, by linarith, le_refl _⟩, ?_⟩
  unfold boundsRectangle
  dsimp only
  rw [if_neg (by norm_num), if_pos (by norm_num)]
  obtain ⟨A, hA⟩ : ∃ A, A = ((⟨-x2, -0, -y2, -y1⟩ : RectXY ℝ).corners).map fun c => arctan2 c.2 c.1 := ⟨_, rfl⟩
  rw [← hA]
  have hlt : ∀ z ∈ A, z < π := by
    intro z hz
    rw [hA] at hz
    simp only [RectXY.corners, List.mem_map, List.mem_cons, List.not_mem_nil, or_false] at hz
    obtain ⟨v, hv, rfl⟩ := hz
    refine lt_of_le_of_ne (arctan2_range v.2 v.1).2 fun e => ?_
    have := ((Complex.arg_eq_pi_iff (z := ⟨v.1, v.2⟩)).1 e).2
    have h0 : v.2 = 0 := this
    rcases hv with rfl | rfl | rfl | rfl <;> dsimp only at h0 <;> linarith
  have hAne : A ≠ [] := by rw [hA]; simp [RectXY.corners]
  have hmax := hlt _ (maxList_mem A hAne)
  have hle := minList_le A _ (maxList_mem A hAne)
  rintro ⟨iv, hiv, hh⟩
  simp only [ABound.parts, gt_iff_lt, if_neg (not_lt.2 hle), List.mem_singleton] at hiv
  subst hiv
  dsimp only at hh
  linarith [hh.2]

/-- **C65 is violated** by every rectangle that stands on the x-axis and reaches right of the y-axis: the
direction of the vector from the middle of its right edge is lost. (The corners on the x-axis are given the
direction `π`, although the directions of the rectangle begin at `-π`.) Together with
`C65_origin_violated` this is every rectangle left out of the partial theorem. -/
theorem C65_origin_bottom_violated (x1 x2 y2 : ℝ) (h0 : x1 ≤ x2) (h1 : 0 < x2) (h3 : 0 < y2) :
    ∃ x y θ, x1 ≤ x ∧ x ≤ x2 ∧ 0 ≤ y ∧ y ≤ y2 ∧ IsDirection (0 - x) (0 - y) θ ∧
      ¬ (ABound.one (boundsRectangle π arctan2 (x1, x2) (0, y2)).1 (boundsRectangle π arctan2 (x1, x2) (0, y2)).2).Has π θ := by
  have hpi := pi_pos
  obtain ⟨θ, hθ⟩ : ∃ θ, θ = arctan2 (0 - y2 / 2) (0 - x2) := ⟨_, rfl⟩
  have hd : IsDirection (0 - x2) (0 - y2 / 2) θ := by rw [hθ]; exact direction_arctan2 _ _ (.inl (by linarith))
  have hθ0 : θ < 0 := by rw [hθ]; exact arctan2_down _ _ (by linarith)
  refine ⟨x2, y2 / 2, θ, h0, le_refl _, by linarith, by linarith, hd, ?_⟩
  unfold boundsRectangle
  dsimp only
  rw [if_neg (by norm_num), if_pos (by norm_num)]
  obtain ⟨A, hA⟩ : ∃ A, A = ((⟨-x2, -x1, -y2, -0⟩ : RectXY ℝ).corners).map fun c => arctan2 c.2 c.1 := ⟨_, rfl⟩
  rw [← hA]
  have low : ∀ x, x ≤ x2 → θ < arctan2 (-y2) (-x) := by
    intro x hx
    obtain ⟨r, hr, ex, ey, a1, a2⟩ := hd
    obtain ⟨s, hs, fx, fy, b1, b2⟩ := direction_arctan2 (-x) (-y2) (.inr (by linarith))
    have hz := arctan2_down (-y2) (-x) (by linarith)
    generalize arctan2 (-y2) (-x) = z at *
    by_contra hc
    have hc := not_lt.1 hc
    have hsin : sin (z - θ) * (r * s) = (0 - x2) * (-y2) - (0 - y2 / 2) * (-x) := by
      rw [sin_sub, ex, ey, fx, fy]; ring
    have hpos : 0 < (0 - x2) * (-y2) - (0 - y2 / 2) * (-x) := by nlinarith
    have : sin (z - θ) ≤ 0 := sin_nonpos_of_nonpos_of_neg_pi_le (by linarith) (by linarith)
    have hrs := mul_pos hr hs
    nlinarith
  have hlt : ∀ z ∈ A, θ < z := by
    intro z hz
    rw [hA] at hz
    simp only [RectXY.corners, List.mem_map, List.mem_cons, List.not_mem_nil, or_false] at hz
    obtain ⟨v, hv, rfl⟩ := hz
    rcases hv with rfl | rfl | rfl | rfl
    · exact low x2 (le_refl _)
    · exact lt_of_lt_of_le hθ0 (arctan2_up _ _ (by simp))
    · exact low x1 h0
    · exact lt_of_lt_of_le hθ0 (arctan2_up _ _ (by simp))
  have hAne : A ≠ [] := by rw [hA]; simp [RectXY.corners]
  have hmin := hlt _ (minList_mem A hAne)
  have hle := minList_le A _ (maxList_mem A hAne)
  rintro ⟨iv, hiv, hh⟩
  simp only [ABound.parts, gt_iff_lt, if_neg (not_lt.2 hle), List.mem_singleton] at hiv
  subst hiv
  dsimp only at hh
  linarith [hh.1]

/-- Boxes of the theorems, with points: one right of the origin, one left of it across the branch cut, and
two rectangles one above the other. -/
example : ¬ ((-2 : ℝ) < 0 ∧ (0 : ℝ) < -1 ∧ (-1 : ℝ) < 0 ∧ (1 : ℝ) = 0) ∧ IsDirection (-1) 0 π ∧ IsDirection (-3/2) 0 π := by
  refine ⟨by norm_num, ⟨1, by norm_num, by simp, by simp, by linarith [pi_pos], le_refl _⟩, ⟨3/2, by norm_num, by simp; norm_num, by simp, by linarith [pi_pos], le_refl _⟩⟩
example : InRect ⟨0, 1, 0, 1⟩ (0, 1) ∧ InRect ⟨0, 1, 1, 2⟩ (0, 2) ∧ IsDirection (0 - 0) (2 - 1) (π / 2) := by
  refine ⟨by norm_num [InRect], by norm_num [InRect], 1, by norm_num, by norm_num, by norm_num, by linarith [pi_pos], by linarith [pi_pos]⟩

end Verif.Props
