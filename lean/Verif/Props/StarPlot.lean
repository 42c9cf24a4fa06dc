import Verif.Proofs.StarPlot
import Verif.Props.Star

/-! C110: pictures of star sets. -/

set_option autoImplicit false

namespace Verif.Props
open Verif Verif.Spec Verif.ATree Verif.Stars Verif.StarPlot Finset

/-- **C110**: the outline is a closed curve through points of the star set, and nothing outside of the star set is inside it, for every star
set that can be drawn. -/
theorem C110_inside (lp : Bool → Vec ℝ → Mat ℝ → Vec ℝ → LPRes ℝ) (hlp : LPCorrect lp) (s : StarSet ℝ) (hs : Built s) (dims : Option (Nat × Nat)) (a b : Nat)
    (hd : dims.getD (0, 1) = (a, b)) (hab : a ≠ b) (l : List (ℝ × ℝ)) (h : getVerts lp s dims = .ok l) :
    l.length = 101 ∧ l.head? = l.getLast? ∧ ∀ p ∈ Plot.Spec.hull l, StarPlot.Spec.Shadow s a b p := by
  obtain ⟨q0, l', h1, h2⟩ := vertsOf_ok h
  have hlen := ((mapM_ok_iff _ _ _).1 h1).length_eq
  refine ⟨?_, ?_, ?_⟩
  · rw [h2]
    simp only [compass, List.length_map, List.length_range] at hlen
    simp only [List.length_append, List.length_cons, List.length_nil] at hlen ⊢
    omega
  · rw [h2, List.getLast?_concat]; rfl
  · have hconv : Convex ℝ {p : ℝ × ℝ | StarPlot.Spec.Shadow s a b p} := by
      rintro p ⟨x, ⟨α, hα, hx⟩, rfl⟩ q ⟨y, ⟨β, hβ, hy⟩, rfl⟩ u v hu hv huv
      refine ⟨fun d => u * x d + v * y d, ⟨fun j => u * α j + v * β j, ?_, ?_⟩, ?_⟩
      · intro i hi
        have e : ∑ j ∈ range s.basis.rows, s.C.at_ i j * (u * α j + v * β j) = u * (∑ j ∈ range s.basis.rows, s.C.at_ i j * α j) + v * ∑ j ∈ range s.basis.rows, s.C.at_ i j * β j := by
          rw [mul_sum, mul_sum, ← sum_add_distrib]
          exact sum_congr rfl (fun j _ => by ring)
        rw [e]
        have e2 := mul_le_mul_of_nonneg_left (hα i hi) hu
        have e3 := mul_le_mul_of_nonneg_left (hβ i hi) hv
        have e4 : s.g.at_ i = u * s.g.at_ i + v * s.g.at_ i := by rw [← add_mul, huv, one_mul]
        linarith
      · intro d hdn
        dsimp only
        rw [hx d hdn, hy d hdn]
        have e : ∑ j ∈ range s.basis.rows, (u * α j + v * β j) * s.basis.at_ j d = u * (∑ j ∈ range s.basis.rows, α j * s.basis.at_ j d) + v * ∑ j ∈ range s.basis.rows, β j * s.basis.at_ j d := by
          rw [mul_sum, mul_sum, ← sum_add_distrib]
          exact sum_congr rfl (fun j _ => by ring)
        rw [e]
        have e4 : s.center.at_ d = u * s.center.at_ d + v * s.center.at_ d := by rw [← add_mul, huv, one_mul]
        linarith
      · simp
    intro p hp
    refine convexHull_min (s := {v | v ∈ l}) ?_ hconv hp
    intro q hq
    obtain ⟨c, _, hc⟩ := (vertsOf_mem h).1 q hq
    obtain ⟨ha, hb, _, α, hα, hq', _⟩ := vert_spec lp hlp s hs dims a b hd hab c q hc
    exact ⟨fun d => s.center.at_ d + ∑ j ∈ range s.basis.rows, α j * s.basis.at_ j d, ⟨α, hα, fun d _ => rfl⟩, hq'⟩

/-- **C110**: if the rows of the basis for the two dimensions equal its columns (for example if the star set was made from a polytope or a
rectangle), the star set is within the outline, but for a margin of π/99 of its size.

Missing: other bases (`C110_skew_violated`), fewer or more vectors than dimensions (`C110_generators_violated`). -/
theorem C110_outline_partial (lp : Bool → Vec ℝ → Mat ℝ → Vec ℝ → LPRes ℝ) (hlp : LPCorrect lp) (s : StarSet ℝ) (hs : Built s) (dims : Option (Nat × Nat)) (a b : Nat)
    (hd : dims.getD (0, 1) = (a, b)) (hab : a ≠ b)
    (hsym : ∀ j < s.center.len, s.basis.at_ a j = s.basis.at_ j a ∧ s.basis.at_ b j = s.basis.at_ j b)
    (l : List (ℝ × ℝ)) (h : getVerts lp s dims = .ok l) (D : ℝ) (hD : StarPlot.Spec.Across s a b D) (p : ℝ × ℝ) (hp : StarPlot.Spec.Shadow s a b p) :
    StarPlot.Spec.Near l (Real.pi / 99 * D) p := by
  have hpi := Real.pi_pos
  have hne : l ≠ [] := by
    obtain ⟨q0, l', _, rfl⟩ := vertsOf_ok h
    simp
  refine near_of_support l hne _ (mul_nonneg (by positivity) hD.1) p ?_
  intro u v huv
  obtain ⟨c, hc, hcd⟩ := compass_near u v huv
  obtain ⟨q, hq, hv⟩ := (vertsOf_mem h).2 c hc
  refine ⟨q, hq, ?_⟩
  obtain ⟨ha, hb, hrow, α, hα, hq', hopt⟩ := vert_spec lp hlp s hs dims a b hd hab c q hv
  have hqs : StarPlot.Spec.Shadow s a b q := ⟨fun d => s.center.at_ d + ∑ j ∈ range s.basis.rows, α j * s.basis.at_ j d, ⟨α, hα, fun d _ => rfl⟩, hq'⟩
  have hdist := hD.2 p q hp hqs
  obtain ⟨x, ⟨β, hβ, hx⟩, rfl⟩ := hp
  have e : ∀ γ : Nat → ℝ, ∑ j ∈ range s.basis.rows, (c.1 * s.basis.at_ a j + c.2 * s.basis.at_ b j) * γ j =
      c.1 * (∑ j ∈ range s.basis.rows, γ j * s.basis.at_ j a) + c.2 * ∑ j ∈ range s.basis.rows, γ j * s.basis.at_ j b := by
    intro γ
    rw [mul_sum, mul_sum, ← sum_add_distrib]
    refine sum_congr rfl (fun j hj => ?_)
    have := hsym j (by rw [← hrow]; exact mem_range.1 hj)
    rw [this.1, this.2]; ring
  have ho := hopt β hβ
  rw [e, e] at ho
  have hxa := hx a ha
  have hxb := hx b hb
  have q1 : q.1 = s.center.at_ a + ∑ j ∈ range s.basis.rows, α j * s.basis.at_ j a := by rw [hq']
  have q2 : q.2 = s.center.at_ b + ∑ j ∈ range s.basis.rows, α j * s.basis.at_ j b := by rw [hq']
  have hle : c.1 * (x a - q.1) + c.2 * (x b - q.2) ≤ 0 := by
    rw [hxa, hxb, q1, q2]; linarith
  have hcs : (u - c.1) * (x a - q.1) + (v - c.2) * (x b - q.2) ≤ Real.pi / 99 * D := by
    have h1 : ((u - c.1) * (x a - q.1) + (v - c.2) * (x b - q.2)) ^ 2 ≤ ((u - c.1) ^ 2 + (v - c.2) ^ 2) * ((x a - q.1) ^ 2 + (x b - q.2) ^ 2) := by
      nlinarith [sq_nonneg ((u - c.1) * (x b - q.2) - (v - c.2) * (x a - q.1))]
    have h2 : ((u - c.1) ^ 2 + (v - c.2) ^ 2) * ((x a - q.1) ^ 2 + (x b - q.2) ^ 2) ≤ (Real.pi / 99) ^ 2 * D ^ 2 :=
      mul_le_mul hcd hdist (by positivity) (by positivity)
    refine le_of_sq_le_sq (by rw [mul_pow]; linarith) (mul_nonneg (by positivity) hD.1)
  have : u * x a + v * x b - (u * q.1 + v * q.2) = (c.1 * (x a - q.1) + c.2 * (x b - q.2)) + ((u - c.1) * (x a - q.1) + (v - c.2) * (x b - q.2)) := by ring
  show u * x a + v * x b ≤ _
  linarith

/-- **C110**: `plot_reachtube_stars` draws, for every agent and every node, the outlines in the first two dimensions of the star sets at the
positions 0, `filter`, 2 `filter`, …, and nothing else. The seven colours are used in turn.

Missing: other dimensions than the first two (`C110_dims_violated`); the tree is left as it was only if `filter` is 1 (`C110_filter_violated`). -/
theorem C110_tree_partial (lp : Bool → Vec ℝ → Mat ℝ → Vec ℝ → LPRes ℝ) (agents : List String) (x y filter : Nat) (t t' : RTree SNode) (curves : List (Nat × List (ℝ × ℝ)))
    (hall : ∀ u k, RTree.Below t u k → ∀ a ∈ agents, ∃ tr, Dict.get? u.label.trace a = some tr)
    (h : plotStars lp agents x y filter t = .ok (curves, t')) (c : Nat × List (ℝ × ℝ)) :
    c ∈ curves ↔ ∃ (i : Nat) (a : String), agents[i]? = some a ∧ c.1 = i % 7 ∧ ∃ u k tr, RTree.Below t u k ∧ Dict.get? u.label.trace a = some tr ∧
      ∃ (j : Nat) (e : ℝ × StarSet ℝ), tr[j]? = some e ∧ j % filter = 0 ∧ getVerts lp e.2 none = .ok c.2 := by
  obtain ⟨t1, ht, h⟩ := (bind_ok_iff _ _ _).1 h
  obtain ⟨ss, hss, h⟩ := (map_ok_iff _ _ _).1 h
  cases h
  unfold thin at ht
  split at ht
  · cases ht
  cases ht
  have hf := (mapM_ok_iff _ _ _).1 hss
  have hsome : ∀ a ∈ agents, ∀ u ∈ bfs [RTree.map (thinNode filter) t], ∃ tr, Dict.get? u.label.trace a = some tr := by
    intro a ha u hu
    obtain ⟨k, hk⟩ := mem_bfs_one.1 hu
    obtain ⟨v, hv, rfl⟩ := below_of_map _ _ _ _ hk t rfl
    obtain ⟨tr, htr⟩ := hall v k hv a ha
    exact ⟨every filter tr, by rw [label_map, thinNode_get, htr]; rfl⟩
  rw [List.mem_flatten]
  constructor
  · rintro ⟨r, hr, hc⟩
    obtain ⟨⟨a, i⟩, ha, hrun⟩ := forall₂_mem_right hf hr
    have hi : agents[i]? = some a := List.mem_zipIdx_iff_getElem?.1 ha
    have ham : a ∈ agents := List.mem_of_getElem? hi
    obtain ⟨u, hu, tr, htr, e, he, h1, h2⟩ := (drawAgent_mem lp a x y (i % 7) _ r hrun (hsome a ham) c).1 hc
    obtain ⟨k, hk⟩ := mem_bfs_one.1 hu
    obtain ⟨v, hv, rfl⟩ := below_of_map _ _ _ _ hk t rfl
    rw [label_map, thinNode_get] at htr
    obtain ⟨tr0, htr0, rfl⟩ := Option.map_eq_some_iff.1 htr
    obtain ⟨j, hj, hje⟩ := (mem_every _ _ _).1 he
    exact ⟨i, a, hi, h1, v, k, tr0, hv, htr0, j, e, hje, hj, h2⟩
  · rintro ⟨i, a, hi, h1, v, k, tr0, hv, htr0, j, e, hje, hj, h2⟩
    obtain ⟨r, hr, hrun⟩ := forall₂_mem_left hf (List.mem_zipIdx_iff_getElem?.2 hi : (a, i) ∈ agents.zipIdx)
    refine ⟨r, hr, (drawAgent_mem lp a x y (i % 7) _ r hrun (hsome a (List.mem_of_getElem? hi)) c).2
      ⟨RTree.map (thinNode filter) v, mem_bfs_one.2 ⟨k, below_map _ _ _ _ hv⟩, every filter tr0, ?_, e, (mem_every _ _ _).2 ⟨j, hj, hje⟩, h1, h2⟩⟩
    rw [label_map, thinNode_get, htr0]; rfl

/-- **C110**: with `filter=1` the tree is left as it was. -/
theorem C110_kept (lp : Bool → Vec ℝ → Mat ℝ → Vec ℝ → LPRes ℝ) (agents : List String) (x y : Nat) (t t' : RTree SNode) (curves : List (Nat × List (ℝ × ℝ)))
    (h : plotStars lp agents x y 1 t = .ok (curves, t')) : t' = t := by
  obtain ⟨t1, ht, h⟩ := (bind_ok_iff _ _ _).1 h
  obtain ⟨ss, hss, h⟩ := (map_ok_iff _ _ _).1 h
  cases h
  rw [thin_one] at ht
  cases ht; rfl

/-- **C110 fails** for star sets with fewer or more vectors than dimensions: they cannot be drawn. -/
theorem C110_generators_violated (lp : Bool → Vec ℝ → Mat ℝ → Vec ℝ → LPRes ℝ) (s : StarSet ℝ) (hn : 2 ≤ s.center.len) (hm : s.basis.rows ≠ s.center.len) :
    getVerts lp s none = .error "ValueError" := by
  have : compass ≠ [] := by simp [compass]
  unfold getVerts vertsOf
  obtain ⟨c, cs, e⟩ := List.exists_cons_of_ne_nil this
  have hv : vert lp s none c = .error "ValueError" := by
    unfold vert direction maximize
    simp only [Except.bind]
    rw [if_neg]
    show ¬ 2 + (s.center.len - 2) = s.basis.rows
    omega
  rw [e, List.mapM_cons, hv]
  rfl

namespace StarPlotEx

/-- The star set of the points `x 0 * v 0 + x 1 * v 1 + x 2 * v 2` with coefficients in `[0, 1]`, `[0, 1]` and `[0, w]`. -/
def box (B : Nat → Nat → ℝ) (w : ℝ) : StarSet ℝ :=
  ⟨⟨3, fun _ => 0⟩, ⟨3, 3, B⟩, ⟨6, 3, fun i j => if i = j then 1 else if i = j + 3 then -1 else 0⟩, ⟨6, fun i => if i < 2 then 1 else if i = 2 then w else 0⟩⟩

theorem box_built (B : Nat → Nat → ℝ) (w : ℝ) : Built (box B w) := by rw [built_iff]; exact ⟨Or.inr rfl, rfl, rfl⟩

theorem box_sat (B : Nat → Nat → ℝ) (w : ℝ) (α : Nat → ℝ) : Sat (box B w).C.rows (box B w).basis.rows (box B w).C.at_ (box B w).g.at_ α ↔
    (0 ≤ α 0 ∧ α 0 ≤ 1) ∧ (0 ≤ α 1 ∧ α 1 ≤ 1) ∧ 0 ≤ α 2 ∧ α 2 ≤ w := by
  unfold Sat
  simp only [box, sum_range_succ, sum_range_zero]
  constructor
  · intro h
    have a := h 0 (by omega)
    have b := h 1 (by omega)
    have c := h 2 (by omega)
    have d := h 3 (by omega)
    have e := h 4 (by omega)
    have f := h 5 (by omega)
    simp at a b c d e f
    exact ⟨⟨d, a⟩, ⟨e, b⟩, f, c⟩
  · rintro ⟨⟨a, b⟩, ⟨c, d⟩, e, f⟩ i hi
    interval_cases i <;> simp <;> linarith

/-- The outline exists. -/
theorem box_verts (B : Nat → Nat → ℝ) (w : ℝ) (hw : 0 ≤ w) : ∃ l, getVerts idealLP (box B w) none = .ok l := by
  have hv : ∀ c : ℝ × ℝ, ∃ q, vert idealLP (box B w) none c = .ok q := by
    intro c
    set co : Vec ℝ := ⟨(box B w).basis.cols, fun j => ∑ k ∈ range 3, (-1 * (if k = 0 then c.1 else if k = 1 then c.2 else 0)) * B k j⟩ with hco
    obtain ⟨z, hz, hzl⟩ := ideal_some false co (box B w).C (box B w).g
      (fun j => if co.at_ j ≤ 0 then (if j = 2 then w else 1) else 0) ⟨(box_sat B w _).2 (by
        refine ⟨⟨?_, ?_⟩, ⟨?_, ?_⟩, ?_, ?_⟩ <;> split <;> norm_num <;> exact hw), by simp⟩ (by
        intro y hy
        have hy := (box_sat B w y).1 hy.1
        have key : ∀ (a u v : ℝ), 0 ≤ u → u ≤ v → a * (if a ≤ 0 then v else 0) ≤ a * u := by
          intro a u v h0 h1
          split
          · next h => nlinarith
          · next h => rw [mul_zero]; exact mul_nonneg (le_of_lt (not_le.1 h)) h0
        rw [show co.len = 3 from rfl]
        simp only [sum_range_succ, sum_range_zero, zero_add]
        have k0 := key (co.at_ 0) (y 0) 1 hy.1.1 hy.1.2
        have k1 := key (co.at_ 1) (y 1) 1 hy.2.1.1 hy.2.1.2
        have k2 := key (co.at_ 2) (y 2) w hy.2.2.1 hy.2.2.2
        simp only [show (0 : Nat) ≠ 2 from by decide, show (1 : Nat) ≠ 2 from by decide, if_false, if_true] at k0 k1 k2 ⊢
        linarith)
    have e : direction (box B w).center.len none c.1 c.2 = .ok ⟨3, fun i => if i = 0 then c.1 else if i = 1 then c.2 else 0⟩ := rfl
    have hm : ∃ v, maximize idealLP (box B w) ⟨3, fun i => if i = 0 then c.1 else if i = 1 then c.2 else 0⟩ = .ok v ∧ v.len = 3 := by
      unfold maximize callLP
      rw [if_pos (by rfl), if_pos (by exact ⟨rfl, rfl⟩)]
      simp only [Except.bind]
      split
      · next h => have := h.symm.trans hz; cases this
      · next x h =>
        have hx : x = z := Option.some.inj (h.symm.trans hz)
        rw [if_pos (by rw [hx, hzl]; rfl)]
        unfold vadd
        rw [if_pos (by rfl)]
        exact ⟨_, rfl, rfl⟩
    obtain ⟨v, hv, hvl⟩ := hm
    unfold vert
    rw [e]
    simp only [Except.bind, hv]
    unfold pick
    dsimp only [Option.getD]
    rw [if_pos (by rw [hvl]; decide)]
    exact ⟨_, rfl⟩
  obtain ⟨r, hr⟩ := mapM_ok_ex (vert idealLP (box B w) none) compass (fun c _ => hv c)
  unfold getVerts vertsOf
  rw [hr]
  cases r with
  | nil =>
    have := ((mapM_ok_iff _ _ _).1 hr).length_eq
    simp [compass] at this
  | cons q l => exact ⟨_, rfl⟩

/-- unit vectors -/
def unit (i j : Nat) : ℝ := if i = j then 1 else 0

/-- the vectors `(1, 0, -1)`, `(0, 1, 0)`, `(1, 0, 1)` -/
def skew (i j : Nat) : ℝ := if i = 1 then (if j = 1 then 1 else 0) else if j = 0 then 1 else if j = 1 then 0 else if i = 0 then -1 else 1

theorem cos_angle_ne (i : Nat) : Real.cos (angle i) ≠ 0 := by
  intro h
  obtain ⟨k, hk⟩ := Real.cos_eq_zero_iff.1 h
  have hpi := Real.pi_pos
  have h1 : (4 * i : ℝ) = 99 * (2 * k + 1) := by
    have : (i : ℝ) * (2 * Real.pi / 99) = (2 * k + 1) * Real.pi / 2 := hk
    field_simp at this
    linarith
  have h2 : (4 * i : Int) = 99 * (2 * k + 1) := by exact_mod_cast h1
  omega

theorem compass_ne (c : ℝ × ℝ) (hc : c ∈ compass) : c.1 ≠ 0 := by
  obtain ⟨i, _, rfl⟩ := List.mem_map.1 hc
  exact cos_angle_ne i

theorem hull_half (l : List (ℝ × ℝ)) (a b c : ℝ) (h : ∀ v ∈ l, a * v.1 + b * v.2 ≤ c) (p : ℝ × ℝ) (hp : p ∈ Plot.Spec.hull l) : a * p.1 + b * p.2 ≤ c := by
  have hc : Convex ℝ {v : ℝ × ℝ | a * v.1 + b * v.2 ≤ c} := by
    apply convex_halfSpace_le
    constructor
    · intro v w; simp; ring
    · intro k v; simp; ring
  exact convexHull_min (s := {v | v ∈ l}) (fun v hv => h v hv) hc hp

theorem skew_shadow (p : ℝ × ℝ) (h : StarPlot.Spec.Shadow (box skew 1) 0 1 p) : (0 ≤ p.1 ∧ p.1 ≤ 2) ∧ 0 ≤ p.2 ∧ p.2 ≤ 1 := by
  obtain ⟨x, ⟨α, hα, hx⟩, rfl⟩ := h
  have hα := (box_sat skew 1 α).1 hα
  have h0 := hx 0 (by decide)
  have h1 := hx 1 (by decide)
  simp [box, skew, sum_range_succ] at h0 h1
  dsimp only
  refine ⟨⟨?_, ?_⟩, ?_, ?_⟩ <;> linarith [hα.1.1, hα.1.2, hα.2.1.1, hα.2.1.2, hα.2.2.1, hα.2.2.2]

theorem unit_shadow (w : ℝ) (a b : Nat) (ha : a < 3) (hb : b < 3) (p : ℝ × ℝ) (h : StarPlot.Spec.Shadow (box unit w) a b p) :
    (0 ≤ p.1 ∧ p.1 ≤ if a = 2 then w else 1) ∧ 0 ≤ p.2 ∧ p.2 ≤ if b = 2 then w else 1 := by
  obtain ⟨x, ⟨α, hα, hx⟩, rfl⟩ := h
  have hα := (box_sat unit w α).1 hα
  have key : ∀ d < 3, 0 ≤ x d ∧ x d ≤ if d = 2 then w else 1 := by
    intro d hd
    have := hx d hd
    simp only [box, unit, sum_range_succ, sum_range_zero] at this
    interval_cases d <;> simp at this ⊢ <;> rw [this]
    · exact hα.1
    · exact hα.2.1
    · exact hα.2.2
  exact ⟨key a ha, key b hb⟩

end StarPlotEx

/-- the hypotheses of `C110_outline_partial` hold for a box: all of it is within the outline, up to a margin of less than 1/10 -/
example : ∃ l, getVerts idealLP (StarPlotEx.box StarPlotEx.unit 5) none = .ok l ∧ ∀ p, StarPlot.Spec.Shadow (StarPlotEx.box StarPlotEx.unit 5) 0 1 p → StarPlot.Spec.Near l (Real.pi / 99 * 2) p := by
  obtain ⟨l, hl⟩ := StarPlotEx.box_verts StarPlotEx.unit 5 (by norm_num)
  refine ⟨l, hl, fun p hp => C110_outline_partial idealLP idealLP_correct _ (StarPlotEx.box_built _ _) none 0 1 rfl (by decide) ?_ l hl 2 ⟨by norm_num, ?_⟩ p hp⟩
  · intro j _
    constructor <;> exact if_congr eq_comm rfl rfl
  · intro p q hp hq
    have h1 := StarPlotEx.unit_shadow 5 0 1 (by decide) (by decide) p hp
    have h2 := StarPlotEx.unit_shadow 5 0 1 (by decide) (by decide) q hq
    norm_num at h1 h2
    nlinarith [h1.1.1, h1.1.2, h1.2.1, h1.2.2, h2.1.1, h2.1.2, h2.2.1, h2.2.2]

/-- **C110 fails** for other bases: the star set reaches from 0 to 2 in the first dimension, but whatever the solver does, all points of the
outline have the value 1. -/
theorem C110_skew_violated : ∃ s : StarSet ℝ, Built s ∧ s.basis.rows = s.center.len ∧ (∃ l, getVerts idealLP s none = .ok l) ∧
    StarPlot.Spec.Shadow s 0 1 (2, 0) ∧ StarPlot.Spec.Across s 0 1 3 ∧
    ∀ lp, LPCorrect lp → ∀ l, getVerts lp s none = .ok l → (∀ q ∈ l, q.1 = 1) ∧ ¬ StarPlot.Spec.Near l (1 / 2) (2, 0) := by
  refine ⟨StarPlotEx.box StarPlotEx.skew 1, StarPlotEx.box_built _ _, rfl, StarPlotEx.box_verts _ _ (by norm_num), ?_, ?_, ?_⟩
  · refine ⟨fun d => if d = 0 then 2 else 0, ⟨fun j => if j = 1 then 0 else 1, (StarPlotEx.box_sat _ _ _).2 (by norm_num), ?_⟩, by simp⟩
    intro d hd
    have hd : d < 3 := hd
    simp only [StarPlotEx.box, StarPlotEx.skew, sum_range_succ, sum_range_zero]
    interval_cases d <;> norm_num
  · refine ⟨by norm_num, fun p q hp hq => ?_⟩
    have h1 := StarPlotEx.skew_shadow p hp
    have h2 := StarPlotEx.skew_shadow q hq
    nlinarith [h1.1.1, h1.1.2, h1.2.1, h1.2.2, h2.1.1, h2.1.2, h2.2.1, h2.2.2]
  · intro lp hlp l hl
    have hall : ∀ q ∈ l, q.1 = 1 := by
      intro q hq
      obtain ⟨c, hc, hv⟩ := (vertsOf_mem hl).1 q hq
      obtain ⟨_, _, _, α, hα, hq', hopt⟩ := vert_spec lp hlp _ (StarPlotEx.box_built _ _) none 0 1 rfl (by decide) c q hv
      have hα' := (StarPlotEx.box_sat _ _ _).1 hα
      have hq1 : q.1 = α 0 + α 2 := by
        rw [hq']; simp [StarPlotEx.box, StarPlotEx.skew, sum_range_succ]
      rcases lt_or_gt_of_ne (StarPlotEx.compass_ne c hc) with hneg | hpos
      · have := hopt (fun j => if j = 0 then 0 else if j = 1 then α 1 else 1) ((StarPlotEx.box_sat _ _ _).2 (by
          norm_num; exact hα'.2.1))
        simp [StarPlotEx.box, StarPlotEx.skew, sum_range_succ] at this
        have h3 : α 0 - α 2 ≤ -1 := by nlinarith
        linarith [hα'.1.1, hα'.2.2.2]
      · have := hopt (fun j => if j = 0 then 1 else if j = 1 then α 1 else 0) ((StarPlotEx.box_sat _ _ _).2 (by
          norm_num; exact hα'.2.1))
        simp [StarPlotEx.box, StarPlotEx.skew, sum_range_succ] at this
        have h3 : 1 ≤ α 0 - α 2 := by nlinarith
        linarith [hα'.1.2, hα'.2.2.1]
    refine ⟨hall, ?_⟩
    rintro ⟨q, hq, hd⟩
    have := StarPlotEx.hull_half l 1 0 1 (fun v hv => by rw [hall v hv]; norm_num) q hq
    dsimp only at hd
    nlinarith [sq_nonneg (0 - q.2)]

/-- a segment in the plane has points, and is rejected -/
example : ∃ s : StarSet ℝ, Built s ∧ 2 ≤ s.center.len ∧ s.basis.rows ≠ s.center.len ∧ InStar s (fun _ => 1) :=
  ⟨⟨⟨2, fun _ => 0⟩, ⟨1, 2, fun _ _ => 1⟩, ⟨2, 1, fun i _ => if i = 0 then 1 else -1⟩, ⟨2, fun i => if i = 0 then 1 else 0⟩⟩,
    by rw [built_iff]; exact ⟨Or.inr rfl, rfl, rfl⟩, le_refl 2, by decide, ⟨fun _ => 1, by
      intro i hi
      have hi : i < 2 := hi
      interval_cases i <;> simp, by intro d _; simp⟩⟩

namespace StarPlotEx

/-- a tree of one node -/
def one (tr : List (ℝ × StarSet ℝ)) : RTree SNode := .node ⟨[("a", tr)]⟩ []

theorem one_run (x y : Nat) (s : StarSet ℝ) (rest : List (ℝ × StarSet ℝ)) (f : Nat) (hf : f ≠ 0) (hr : every f ((0, s) :: rest) = [(0, s)]) (l : List (ℝ × ℝ)) (h : getVerts idealLP s none = .ok l) :
    plotStars idealLP ["a"] x y f (one ((0, s) :: rest)) = .ok ([(0, l)], one [(0, s)]) := by
  have ht : thin f (one ((0, s) :: rest)) = .ok (one [(0, s)]) := by
    unfold thin
    rw [if_neg hf, ← hr]
    rfl
  have hd : drawAgent idealLP "a" x y 0 [one [(0, s)]] = .ok [(0, l)] := by
    rw [drawAgent_cons]
    have hg : Dict.get? (one [(0, s)]).label.trace "a" = some [(0, s)] := by
      simp [one, RTree.label, Dict.get?]
    rw [hg]
    dsimp only
    have hdt : drawTrace idealLP 0 [(0, s)] = .ok [(0, l)] := by
      unfold drawTrace
      rw [List.mapM_cons, List.mapM_nil, h]
      rfl
    rw [hdt]
    simp only [Except.bind]
    have hk : (one [(0, s)]).kids = [] := rfl
    rw [hk, List.nil_append, drawAgent]
    rfl
  unfold plotStars
  rw [ht]
  simp only [Except.bind, List.zipIdx, List.mapM_cons, List.mapM_nil]
  rw [hd]
  rfl

end StarPlotEx

/-- **C110 fails** for the arguments `x_dim` and `y_dim`: they are not used. The star set reaches up to 5 in the third dimension, which is
asked for, but not in the picture. -/
theorem C110_dims_violated : (∀ lp agents x y x' y' filter t, plotStars lp agents x y filter t = plotStars lp agents x' y' filter t) ∧
    ∃ (s : StarSet ℝ) (t : RTree SNode) (curves : List (Nat × List (ℝ × ℝ))), Dict.get? t.label.trace "a" = some [(0, s)] ∧ plotStars idealLP ["a"] 1 2 1 t = .ok (curves, t) ∧
      StarPlot.Spec.Shadow s 1 2 (1, 5) ∧ ∀ c ∈ curves, ¬ StarPlot.Spec.Near c.2 3 (1, 5) := by
  constructor
  · intro lp agents x y x' y' filter t
    have : ∀ a color q, drawAgent lp a x y color q = drawAgent lp a x' y' color q := by
      intro a color q
      have key : ∀ n (q : List (RTree SNode)), sizeL q ≤ n → drawAgent lp a x y color q = drawAgent lp a x' y' color q := by
        intro n
        induction n with
        | zero =>
          intro q hq
          cases q with
          | nil => rw [drawAgent, drawAgent]
          | cons t q => simp only [sizeL] at hq; rw [size_eq t] at hq; omega
        | succ n ih =>
          intro q hq
          cases q with
          | nil => rw [drawAgent, drawAgent]
          | cons t q =>
            simp only [sizeL] at hq; rw [size_eq t] at hq
            rw [drawAgent_cons, drawAgent_cons, ih (q ++ t.kids) (by rw [sizeL_append]; omega), ih q (by omega)]
      exact key _ q le_rfl
    unfold plotStars
    simp only [this]
  · obtain ⟨l, hl⟩ := StarPlotEx.box_verts StarPlotEx.unit 5 (by norm_num)
    refine ⟨StarPlotEx.box StarPlotEx.unit 5, StarPlotEx.one [(0, StarPlotEx.box StarPlotEx.unit 5)], [(0, l)], by simp [StarPlotEx.one, RTree.label, Dict.get?],
      StarPlotEx.one_run 1 2 _ [] 1 (by decide) (every_one _) l hl, ?_, ?_⟩
    · refine ⟨fun d => if d = 2 then 5 else 1, ⟨fun d => if d = 2 then 5 else 1, (StarPlotEx.box_sat _ _ _).2 (by norm_num), ?_⟩, by simp⟩
      intro d hd
      have hd : d < 3 := hd
      simp only [StarPlotEx.box, StarPlotEx.unit, sum_range_succ, sum_range_zero]
      interval_cases d <;> norm_num
    · intro c hc
      rw [List.mem_singleton.1 hc]
      rintro ⟨q, hq, hd⟩
      have h1 := (C110_inside idealLP idealLP_correct _ (StarPlotEx.box_built _ _) none 0 1 rfl (by decide) l hl).2.2 q hq
      have h2 := StarPlotEx.unit_shadow 5 0 1 (by decide) (by decide) q h1
      norm_num at h2
      dsimp only at hd
      nlinarith [sq_nonneg (1 - q.1)]

/-- **C110 fails** with `filter=2`: the picture is taken of every other star set, and the others are gone from the tree. -/
theorem C110_filter_violated (s s' : StarSet ℝ) (l : List (ℝ × ℝ)) (h : getVerts idealLP s none = .ok l) :
    ∃ t t' curves, Dict.get? t.label.trace "a" = some [(0, s), (1, s')] ∧ plotStars idealLP ["a"] 0 1 2 t = .ok (curves, t') ∧ Dict.get? t'.label.trace "a" = some [(0, s)] :=
  ⟨StarPlotEx.one [(0, s), (1, s')], _, _, by simp [StarPlotEx.one, RTree.label, Dict.get?], StarPlotEx.one_run 0 1 s [(1, s')] 2 (by decide) (by rfl) l h,
    by simp [StarPlotEx.one, RTree.label, Dict.get?]⟩

/-- there are star sets to which it applies -/
example : ∃ l, getVerts idealLP (StarPlotEx.box StarPlotEx.unit 5) none = .ok l := StarPlotEx.box_verts _ _ (by norm_num)

end Verif.Props
