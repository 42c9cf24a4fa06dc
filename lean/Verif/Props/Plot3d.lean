import Verif.Proofs.Plot3d
import Verif.Proofs.Lane3dB
import Mathlib.Analysis.SpecialFunctions.Trigonometric.Bounds

/-!
C112: pictures in space show the tubes, the simulations and the lanes.
-/

set_option autoImplicit false
set_option linter.unusedSectionVars false

namespace Verif.Props
open Verif Verif.Spec Verif.ATree Verif.Plot Verif.Plot3d

variable {K : Type} [Field K] [LinearOrder K] [IsStrictOrderedRing K]

private theorem tree3_ok {agents : List String} {x y z rate : Nat} {c : Bool} {t t' : RTree (PNode K)} {items : List (String × Item K)}
    (h : reachtubeTree3 agents x y z rate c t = .ok (items, t')) :
    sampleTrace rate t = .ok t' ∧ ∃ s, agents.mapM (fun a => tube3 a x y z c [t']) = .ok s ∧ items = s.flatten := by
  unfold reachtubeTree3 at h
  obtain ⟨u, hu, h⟩ := (bind_ok_iff _ _ _).1 h
  obtain ⟨_, _, h⟩ := (bind_ok_iff _ _ _).1 h
  obtain ⟨s, hs, h⟩ := (map_ok_iff _ _ _).1 h
  injection h with h1 h2
  subst h1 h2
  exact ⟨hu, s, hs, rfl⟩

private theorem sim3_ok {agents : List String} {x y z rate : Nat} {t t' : RTree (PNode K)} {items : List (String × Item K)}
    (h : simulationTree3 agents x y z rate t = .ok (items, t')) :
    sampleTrace rate t = .ok t' ∧ ∃ s, agents.mapM (fun a => line3 a x y z [t']) = .ok s ∧ items = s.flatten := by
  unfold simulationTree3 at h
  obtain ⟨u, hu, h⟩ := (bind_ok_iff _ _ _).1 h
  obtain ⟨_, _, h⟩ := (bind_ok_iff _ _ _).1 h
  obtain ⟨s, hs, h⟩ := (map_ok_iff _ _ _).1 h
  injection h with h1 h2
  subst h1 h2
  exact ⟨hu, s, hs, rfl⟩

/-- The rows of a rectangle and the corners of its box. -/
private theorem rect_pairs {x y z : Nat} {tr : List (Row K)} {ps : List (P3 K)} (hf : List.Forall₂ (Plot3d.Spec.At x y z) tr ps) (a b : P3 K) :
    (a, b) ∈ pairs3 ps ↔ ∃ j lo hi, Plot.Spec.Rect tr j lo hi ∧ Plot3d.Spec.At x y z lo a ∧ Plot3d.Spec.At x y z hi b := by
  rw [pairs3_iff]
  constructor
  · rintro ⟨k, h1, h2⟩
    obtain ⟨lo, hlo, ha⟩ := (Plot.forall₂_getElem hf _).2 a h1
    obtain ⟨hi, hhi, hb⟩ := (Plot.forall₂_getElem hf _).2 b h2
    exact ⟨k, lo, hi, ⟨hlo, hhi⟩, ha, hb⟩
  · rintro ⟨k, lo, hi, ⟨h1, h2⟩, ha, hb⟩
    obtain ⟨p, hp, ha'⟩ := (Plot.forall₂_getElem hf _).1 lo h1
    obtain ⟨q, hq, hb'⟩ := (Plot.forall₂_getElem hf _).1 hi h2
    rw [at3_unique ha ha', at3_unique hb hb']
    exact ⟨k, hp, hq⟩

/-- The surface that is drawn for an agent consists of the surfaces of the boxes of its rectangles, in all nodes of the tree as it is after the call; with the default
`sample_rate` the tree is as before. Missing: `combine_rect` (`C112_combine_violated`), other values of `sample_rate` (`C112_sampled_violated`), trees with nodes
without the agent (`C112_missing_violated`). -/
theorem C112_tubes_partial (agents : List String) (x y z rate : Nat) (t t' : RTree (PNode K)) (items : List (String × Item K))
    (hall : ∀ u k, RTree.Below t' u k → ∀ a ∈ agents, ∃ tr, Dict.get? u.label.trace a = some tr)
    (h : reachtubeTree3 agents x y z rate false t = .ok (items, t')) :
    (rate = 1 → t' = t) ∧ ∀ a p, Plot3d.Spec.Drawn items a p ↔ a ∈ agents ∧ ∃ u k tr j lo hi P Q, RTree.Below t' u k ∧ Dict.get? u.label.trace a = some tr ∧
      Plot.Spec.Rect tr j lo hi ∧ Plot3d.Spec.At x y z lo P ∧ Plot3d.Spec.At x y z hi Q ∧ Plot3d.Spec.Surface P Q p := by
  obtain ⟨hs, s, hm, rfl⟩ := tree3_ok h
  have hm' := (mapM_ok_iff _ _ _).1 hm
  have hsome : ∀ a ∈ agents, ∀ u ∈ bfs [t'], ∃ tr, Dict.get? u.label.trace a = some tr := fun a ha u hu => by
    obtain ⟨k, hk⟩ := mem_bfs_root.1 hu; exact hall u k hk a ha
  refine ⟨fun hr => ?_, fun a p => ⟨?_, ?_⟩⟩
  · subst hr
    rw [sampleTrace_one t] at hs
    injection hs with hs
    exact hs.symm
  · rintro ⟨vs, tris, hmem, hon⟩
    obtain ⟨r, hr, hsr⟩ := List.mem_flatten.1 hmem
    obtain ⟨b, hb, hra⟩ := forall₂_mem_right hm' hr
    obtain ⟨hab, u, hu, ss, ⟨tr, ps, m, h1, h2, h3, rfl⟩, hin⟩ := (tube3_spec b x y z [t'] r hra (hsome b hb)).2 _ hsr
    simp only at hab hin
    subst hab
    obtain ⟨k, hk⟩ := mem_bfs_root.1 hu
    rcases List.mem_append.1 hin with hin | hin
    · unfold nodeItems at hin
      rcases List.mem_append.1 hin with hin | hin
      · obtain ⟨e, _, he⟩ := List.mem_map.1 hin
        exact absurd he (by simp)
      · have e := List.mem_singleton.1 hin
        injection e with e1 e2
        subst e1 e2
        obtain ⟨e, he, hsurf⟩ := (mesh_iff _ p).1 hon
        obtain ⟨j, lo, hi, hrect, ha, hb'⟩ := (rect_pairs (project3_spec x y z _ _ h2) e.1 e.2).1 he
        exact ⟨hb, u, k, tr, j, lo, hi, e.1, e.2, hk, h1, hrect, ha, hb', hsurf⟩
    · obtain ⟨_, _, _, _, _, _, e⟩ := (nodeMark_spec h3 _).1 hin
      exact absurd e (by simp)
  · rintro ⟨ha, u, k, tr, j, lo, hi, P, Q, hk, htr, hrect, hP, hQ, hsurf⟩
    obtain ⟨r, hr, hra⟩ := forall₂_mem_left hm' ha
    obtain ⟨ss, ⟨tr', ps, m, h1, h2, h3, rfl⟩, hin⟩ := (tube3_spec a x y z [t'] r hra (hsome a ha)).1 u (mem_bfs_root.2 ⟨k, hk⟩)
    rw [htr] at h1
    injection h1 with h1
    subst h1
    refine ⟨_, _, List.mem_flatten.2 ⟨r, hr, hin _ (List.mem_append_left _ (List.mem_append_right _ (List.mem_singleton.2 rfl)))⟩, (mesh_iff _ p).2 ?_⟩
    exact ⟨(P, Q), (rect_pairs (project3_spec x y z _ _ h2) P Q).2 ⟨j, lo, hi, hrect, hP, hQ⟩, hsurf⟩

/-- The lines that are drawn for an agent are the edges of the boxes of its rectangles: every line shows the twelve edges of one box, and every box has its line. -/
theorem C112_edges_partial (agents : List String) (x y z rate : Nat) (t t' : RTree (PNode K)) (items : List (String × Item K))
    (hall : ∀ u k, RTree.Below t' u k → ∀ a ∈ agents, ∃ tr, Dict.get? u.label.trace a = some tr)
    (h : reachtubeTree3 agents x y z rate false t = .ok (items, t')) :
    (∀ a ps, (a, Item.line ps) ∈ items → a ∈ agents ∧ ∃ u k tr j lo hi P Q, RTree.Below t' u k ∧ Dict.get? u.label.trace a = some tr ∧
      Plot.Spec.Rect tr j lo hi ∧ Plot3d.Spec.At x y z lo P ∧ Plot3d.Spec.At x y z hi Q ∧ ∀ p, Plot3d.Spec.OnLine ps p ↔ Plot3d.Spec.Edges P Q p) ∧
    (∀ a ∈ agents, ∀ u k tr j lo hi, RTree.Below t' u k → Dict.get? u.label.trace a = some tr → Plot.Spec.Rect tr j lo hi →
      ∃ P Q ps, Plot3d.Spec.At x y z lo P ∧ Plot3d.Spec.At x y z hi Q ∧ (a, Item.line ps) ∈ items ∧ ∀ p, Plot3d.Spec.OnLine ps p ↔ Plot3d.Spec.Edges P Q p) := by
  obtain ⟨hs, s, hm, rfl⟩ := tree3_ok h
  have hm' := (mapM_ok_iff _ _ _).1 hm
  have hsome : ∀ a ∈ agents, ∀ u ∈ bfs [t'], ∃ tr, Dict.get? u.label.trace a = some tr := fun a ha u hu => by
    obtain ⟨k, hk⟩ := mem_bfs_root.1 hu; exact hall u k hk a ha
  refine ⟨?_, ?_⟩
  · intro a ps' hmem
    obtain ⟨r, hr, hsr⟩ := List.mem_flatten.1 hmem
    obtain ⟨b, hb, hra⟩ := forall₂_mem_right hm' hr
    obtain ⟨hab, u, hu, ss, ⟨tr, ps, m, h1, h2, h3, rfl⟩, hin⟩ := (tube3_spec b x y z [t'] r hra (hsome b hb)).2 _ hsr
    simp only at hab hin
    subst hab
    obtain ⟨k, hk⟩ := mem_bfs_root.1 hu
    rcases List.mem_append.1 hin with hin | hin
    · unfold nodeItems at hin
      rcases List.mem_append.1 hin with hin | hin
      · obtain ⟨e, he, hw⟩ := List.mem_map.1 hin
        injection hw with hw
        subst hw
        obtain ⟨j, lo, hi, hrect, ha, hb'⟩ := (rect_pairs (project3_spec x y z _ _ h2) e.1 e.2).1 he
        exact ⟨hb, u, k, tr, j, lo, hi, e.1, e.2, hk, h1, hrect, ha, hb', fun p => wire_iff _ _ p⟩
      · exact absurd (List.mem_singleton.1 hin) (by simp)
    · obtain ⟨_, _, _, _, _, _, e⟩ := (nodeMark_spec h3 _).1 hin
      exact absurd e (by simp)
  · intro a ha u k tr j lo hi hk htr hrect
    obtain ⟨r, hr, hra⟩ := forall₂_mem_left hm' ha
    obtain ⟨ss, ⟨tr', ps, m, h1, h2, h3, rfl⟩, hin⟩ := (tube3_spec a x y z [t'] r hra (hsome a ha)).1 u (mem_bfs_root.2 ⟨k, hk⟩)
    rw [htr] at h1
    injection h1 with h1
    subst h1
    have hf := project3_spec x y z _ _ h2
    obtain ⟨P, hP, haP⟩ := (Plot.forall₂_getElem hf _).1 lo hrect.1
    obtain ⟨Q, hQ, haQ⟩ := (Plot.forall₂_getElem hf _).1 hi hrect.2
    refine ⟨P, Q, wire P Q, haP, haQ, List.mem_flatten.2 ⟨r, hr, hin _ (List.mem_append_left _ (List.mem_append_left _ (List.mem_map.2 ⟨(P, Q), ?_, rfl⟩)))⟩,
      fun p => wire_iff _ _ p⟩
    exact (rect_pairs hf P Q).2 ⟨j, lo, hi, hrect, haP, haQ⟩

/-- Violated assertions are marked at the end of the trace of the agent, and nothing else is. -/
theorem C112_hits_partial (agents : List String) (x y z rate : Nat) (t t' : RTree (PNode K)) (items : List (String × Item K))
    (hall : ∀ u k, RTree.Below t' u k → ∀ a ∈ agents, ∃ tr, Dict.get? u.label.trace a = some tr)
    (h : reachtubeTree3 agents x y z rate false t = .ok (items, t') ∨ simulationTree3 agents x y z rate t = .ok (items, t')) (a : String) (p : P3 K) (as : List String) :
    (a, Item.mark p as) ∈ items ↔ a ∈ agents ∧ ∃ u k tr r hits, RTree.Below t' u k ∧ Dict.get? u.label.trace a = some tr ∧ u.label.hits = some hits ∧
      Dict.get? hits a = some as ∧ tr.getLast? = some r ∧ Plot3d.Spec.At x y z r p := by
  have hsome : ∀ a ∈ agents, ∀ u ∈ bfs [t'], ∃ tr, Dict.get? u.label.trace a = some tr := fun a ha u hu => by
    obtain ⟨k, hk⟩ := mem_bfs_root.1 hu; exact hall u k hk a ha
  have key : ∀ (f : List (P3 K) → List (Item K)) (run : String → Except String (List (String × Item K))) (s : List (List (String × Item K))),
      (∀ ps q bs, Item.mark q bs ∉ f ps) → agents.mapM run = .ok s →
      (∀ b ∈ agents, ∀ r, run b = .ok r → (∀ u ∈ bfs [t'], ∃ ss, Adds3 f b x y z u ss ∧ ∀ i ∈ ss, (b, i) ∈ r) ∧
        (∀ i ∈ r, i.1 = b ∧ ∃ u ∈ bfs [t'], ∃ ss, Adds3 f b x y z u ss ∧ i.2 ∈ ss)) →
      ((a, Item.mark p as) ∈ s.flatten ↔ a ∈ agents ∧ ∃ u k tr r hits, RTree.Below t' u k ∧ Dict.get? u.label.trace a = some tr ∧ u.label.hits = some hits ∧
        Dict.get? hits a = some as ∧ tr.getLast? = some r ∧ Plot3d.Spec.At x y z r p) := by
    intro f run s hf hm hrun
    have hm' := (mapM_ok_iff _ _ _).1 hm
    constructor
    · intro hmem
      obtain ⟨r, hr, hsr⟩ := List.mem_flatten.1 hmem
      obtain ⟨b, hb, hra⟩ := forall₂_mem_right hm' hr
      obtain ⟨hab, u, hu, ss, ⟨tr, ps, m, h1, h2, h3, rfl⟩, hin⟩ := (hrun b hb r hra).2 _ hsr
      simp only at hab hin
      subst hab
      obtain ⟨k, hk⟩ := mem_bfs_root.1 hu
      rcases List.mem_append.1 hin with hin | hin
      · exact absurd hin (hf _ _ _)
      · obtain ⟨hs, as', p', e1, e2, e3, e4⟩ := (nodeMark_spec h3 _).1 hin
        injection e4 with e4 e5
        subst e4 e5
        have hfp := project3_spec x y z _ _ h2
        rw [List.getLast?_eq_getElem?] at e3
        obtain ⟨row, hrow, hat⟩ := (Plot.forall₂_getElem hfp _).2 _ e3
        refine ⟨hb, u, k, tr, row, hs, hk, h1, e1, e2, ?_, hat⟩
        rw [List.getLast?_eq_getElem?, hfp.length_eq]
        exact hrow
    · rintro ⟨ha, u, k, tr, row, hits, hk, htr, e1, e2, e3, hat⟩
      obtain ⟨r, hr, hra⟩ := forall₂_mem_left hm' ha
      obtain ⟨ss, ⟨tr', ps, m, h1, h2, h3, rfl⟩, hin⟩ := (hrun a ha r hra).1 u (mem_bfs_root.2 ⟨k, hk⟩)
      rw [htr] at h1
      injection h1 with h1
      subst h1
      have hfp := project3_spec x y z _ _ h2
      rw [List.getLast?_eq_getElem?] at e3
      obtain ⟨q, hq, hat'⟩ := (Plot.forall₂_getElem hfp _).1 _ e3
      refine List.mem_flatten.2 ⟨r, hr, hin _ (List.mem_append_right _ ((nodeMark_spec h3 _).2 ⟨hits, as, p, e1, e2, ?_, rfl⟩))⟩
      rw [at3_unique hat hat', List.getLast?_eq_getElem?, ← hfp.length_eq]
      exact hq
  rcases h with h | h
  · obtain ⟨-, s, hm, rfl⟩ := tree3_ok h
    exact key nodeItems _ s (by intro ps q bs; simp [nodeItems]) hm (fun b hb r hr => tube3_spec b x y z [t'] r hr (hsome b hb))
  · obtain ⟨-, s, hm, rfl⟩ := sim3_ok h
    exact key (fun ps => [.line ps]) _ s (by intro ps q bs; simp) hm (fun b hb r hr => line3_spec b x y z [t'] r hr (hsome b hb))

/-- `simulation_tree_3d`: for every node and agent there is a line through the points of all rows of the trace, in order, and there are no other lines. -/
theorem C112_simulation_partial (agents : List String) (x y z rate : Nat) (t t' : RTree (PNode K)) (items : List (String × Item K))
    (hall : ∀ u k, RTree.Below t' u k → ∀ a ∈ agents, ∃ tr, Dict.get? u.label.trace a = some tr)
    (h : simulationTree3 agents x y z rate t = .ok (items, t')) :
    (rate = 1 → t' = t) ∧ (∀ a vs tris, (a, Item.mesh vs tris) ∉ items) ∧
    ∀ a ps, (a, Item.line ps) ∈ items ↔ a ∈ agents ∧ ∃ u k tr, RTree.Below t' u k ∧ Dict.get? u.label.trace a = some tr ∧ List.Forall₂ (Plot3d.Spec.At x y z) tr ps := by
  obtain ⟨hs, s, hm, rfl⟩ := sim3_ok h
  have hm' := (mapM_ok_iff _ _ _).1 hm
  have hsome : ∀ a ∈ agents, ∀ u ∈ bfs [t'], ∃ tr, Dict.get? u.label.trace a = some tr := fun a ha u hu => by
    obtain ⟨k, hk⟩ := mem_bfs_root.1 hu; exact hall u k hk a ha
  have uniq : ∀ {tr : List (Row K)} {l m : List (P3 K)}, List.Forall₂ (Plot3d.Spec.At x y z) tr l → List.Forall₂ (Plot3d.Spec.At x y z) tr m → l = m := by
    intro tr l m h1
    induction h1 generalizing m with
    | nil => intro h2; cases h2; rfl
    | cons ha _ ih =>
      intro h2
      cases h2 with
      | cons hb h2 => rw [at3_unique ha hb, ih h2]
  refine ⟨fun hr => ?_, fun a vs tris hmem => ?_, fun a ps => ⟨fun hmem => ?_, ?_⟩⟩
  · subst hr
    rw [sampleTrace_one t] at hs
    injection hs with hs
    exact hs.symm
  · obtain ⟨r, hr, hsr⟩ := List.mem_flatten.1 hmem
    obtain ⟨b, hb, hra⟩ := forall₂_mem_right hm' hr
    obtain ⟨hab, u, hu, ss, ⟨tr, ps', m, h1, h2, h3, rfl⟩, hin⟩ := (line3_spec b x y z [t'] r hra (hsome b hb)).2 _ hsr
    rcases List.mem_append.1 hin with hin | hin
    · exact absurd (List.mem_singleton.1 hin) (by simp)
    · obtain ⟨_, _, _, _, _, _, e⟩ := (nodeMark_spec h3 _).1 hin
      exact absurd e (by simp)
  · obtain ⟨r, hr, hsr⟩ := List.mem_flatten.1 hmem
    obtain ⟨b, hb, hra⟩ := forall₂_mem_right hm' hr
    obtain ⟨hab, u, hu, ss, ⟨tr, ps', m, h1, h2, h3, rfl⟩, hin⟩ := (line3_spec b x y z [t'] r hra (hsome b hb)).2 _ hsr
    simp only at hab hin
    subst hab
    obtain ⟨k, hk⟩ := mem_bfs_root.1 hu
    rcases List.mem_append.1 hin with hin | hin
    · have e := List.mem_singleton.1 hin
      injection e with e
      subst e
      exact ⟨hb, u, k, tr, hk, h1, project3_spec x y z _ _ h2⟩
    · obtain ⟨_, _, _, _, _, _, e⟩ := (nodeMark_spec h3 _).1 hin
      exact absurd e (by simp)
  · rintro ⟨ha, u, k, tr, hk, htr, hf⟩
    obtain ⟨r, hr, hra⟩ := forall₂_mem_left hm' ha
    obtain ⟨ss, ⟨tr', ps', m, h1, h2, h3, rfl⟩, hin⟩ := (line3_spec a x y z [t'] r hra (hsome a ha)).1 u (mem_bfs_root.2 ⟨k, hk⟩)
    rw [htr] at h1
    injection h1 with h1
    subst h1
    rw [uniq hf (project3_spec x y z _ _ h2)]
    exact List.mem_flatten.2 ⟨r, hr, hin _ (List.mem_append_left _ (List.mem_singleton.2 rfl))⟩

/-- The faces with which the animation draws a rectangle make up the surface of its box. -/
theorem C112_cuboid (a b p : P3 K) : (∃ f ∈ faces a b, Plot3d.Spec.OnFace f p) ↔ Plot3d.Spec.Surface a b p := faces_iff a b p

/-! ### Maps -/

section
open Verif.Lane3d Verif.Spec.Lane3d

/-- A straight lane is drawn as a line through a hundred points, from its start to its end, evenly spaced. -/
theorem C112_straight {a b : V3} (hab : a ≠ b) : ∃ ps, drawMap3 [[.straight (Straight.new a b)]] = [ps] ∧ ps.length = 100 ∧
    ∀ k (hk : k < ps.length), ps[k] = ⟨a.x + (k : ℝ) / 99 * (b.x - a.x), a.y + (k : ℝ) / 99 * (b.y - a.y), a.z + (k : ℝ) / 99 * (b.z - a.z)⟩ := by
  refine ⟨straightCenter (Straight.new a b) 100, rfl, by simp [straightCenter, grid], fun k hk => ?_⟩
  have h0 : (b.sub a).norm ≠ 0 := (dist_pos (Ne.symm hab)).ne'
  simp only [straightCenter, grid, List.getElem_map, List.getElem_range, Straight.new, V3.add, V3.smul, V3.div, V3.sub] at h0 ⊢
  push_cast
  congr 1 <;> · field_simp; ring

/-- Points of a circle are at most as far apart as along the circle. -/
private theorem coor_chord {n : V3} (hn : IsUnit3 n) (right : Bool) {r : ℝ} (hr : 0 ≤ r) (t u : ℝ) (o : V3) :
    Verif.Spec.Lane3d.dist (coorByRt r t n o right) (coorByRt r u n o right) ≤ r * |t - u| := by
  obtain ⟨p, q, l, h⟩ := framed hn
  rw [dist_coor h right hr t (Real.cos u) (Real.sin u) o (by rw [h.coor]) (by rw [h.coor]) (by rw [h.coor])]
  refine mul_le_mul_of_nonneg_left ?_ hr
  rw [← Real.sqrt_sq_eq_abs]
  apply Real.sqrt_le_sqrt
  have h1 := Real.one_sub_sq_div_two_le_cos (x := t - u)
  rw [Real.cos_sub] at h1
  nlinarith [Real.sin_sq_add_cos_sq t, Real.sin_sq_add_cos_sq u]

/-- A circular lane is drawn as a line through a hundred points of its centre, evenly spaced, from one end to the other; no point of its centre is further than
half their spacing, which is a ninety-ninth of the length of the lane, from the nearest of them. -/
theorem C112_circular {center : V3} {R : ℝ} (hR : 0 < R) {v : V3} (hv : v ≠ ⟨0, 0, 0⟩) {s e : ℝ} {right : Bool} (hs0 : 0 ≤ s) (hs1 : s ≤ 2 * Real.pi) (he0 : 0 ≤ e)
    (he1 : e ≤ 2 * Real.pi) (hse : ¬ (right = true ∧ s = 2 * Real.pi ∧ e = 0)) (hse' : ¬ (right = false ∧ s = 0 ∧ e = 2 * Real.pi)) :
    ∃ c, Circular.new center R v s e right = some c ∧ 0 < c.length ∧ ∃ ps, drawMap3 [[.circular c]] = [ps] ∧ ps.length = 100 ∧
      (∀ k (hk : k < ps.length), ps[k] = c.position (c.length * ((if right = true then (k : ℝ) else 99 - k) / 99)) 0 0) ∧
      ∀ l, 0 ≤ l → l ≤ c.length → ∃ p ∈ ps, Verif.Spec.Lane3d.dist p (c.position l 0 0) ≤ c.length / 99 / 2 := by
  have hpi := Real.pi_pos
  obtain ⟨c, A, h1, -, -, h⟩ := circ_new (center := center) hR hv (s := s) (e := e) (right := right)
    (by cases right
        · have : ¬ (s = 0 ∧ e = 2 * Real.pi) := by simpa using hse'
          simp only [sgn]
          rcases eq_or_lt_of_le hs0 with g | g
          · have : e ≠ 2 * Real.pi := fun g' => this ⟨g.symm, g'⟩
            have := lt_of_le_of_ne he1 this
            simp; linarith
          · simp; linarith
        · have : ¬ (s = 2 * Real.pi ∧ e = 0) := by simpa using hse
          simp only [sgn]
          rcases eq_or_lt_of_le he0 with g | g
          · have : s ≠ 2 * Real.pi := fun g' => this ⟨g', g.symm⟩
            have := lt_of_le_of_ne hs1 this
            simp; linarith
          · simp; linarith)
    (by cases right <;> simp [sgn] <;> linarith)
  have hA := h.A0
  have hlen : 0 < c.length := by rw [h.c_length]; positivity
  have hverts : ∀ k (hk : k < (circularCenter c 100).length), (circularCenter c 100)[k] =
      c.outer (c.length * ((if right = true then (k : ℝ) else 99 - k) / 99)) := by
    intro k hk
    unfold Circular.outer
    have hd := h.c_diff
    have hr := h.c_right
    cases right
    · have hlt : ¬ c.startPhase ≤ c.endPhase := by simp [sgn] at hd; linarith
      simp only [circularCenter, if_neg hlt, hr, Bool.false_eq_true, if_false, List.getElem_map, grid, List.getElem_range]
      congr 1
      push_cast
      field_simp
      ring
    · have hlt : c.startPhase ≤ c.endPhase := by simp [sgn] at hd; linarith
      simp only [circularCenter, if_pos hlt, hr, if_true, List.getElem_map, grid, List.getElem_range]
      congr 1
      push_cast
      field_simp
      ring
  have hl : (circularCenter c 100).length = 100 := by
    unfold circularCenter grid
    simp only [List.length_map]
    split <;> split <;> simp
  refine ⟨c, h1, hlen, circularCenter c 100, rfl, hl, fun k hk => by rw [hverts k hk, Circ.position_zero], fun l l0 l1 => ?_⟩
  -- the nearest vertex
  set x : ℝ := l / c.length * 99 with hx
  have x0 : 0 ≤ x := by positivity
  have x1 : x ≤ 99 := by
    have : l / c.length ≤ 1 := (div_le_one hlen).2 l1
    rw [hx]; linarith
  have hab := abs_sub_round x
  have r0 : 0 ≤ round x := by
    rw [round_eq]; exact Int.floor_nonneg.2 (by linarith)
  have r1 : round x ≤ 99 := by
    rw [round_eq]
    exact Int.lt_add_one_iff.1 (Int.floor_lt.2 (by push_cast; linarith))
  obtain ⟨m, hm⟩ := Int.eq_ofNat_of_zero_le r0
  have hm99 : m ≤ 99 := by omega
  rw [hm] at hab
  have hab : |x - (m : ℝ)| ≤ 1 / 2 := by simpa using hab
  have hn := unit_unit hv
  -- its distance
  have key : Verif.Spec.Lane3d.dist (c.outer (c.length * ((m : ℝ) / 99))) (c.position l 0 0) ≤ c.length / 99 / 2 := by
    rw [Circ.position_zero, h.outer hR, h.outer hR]
    refine (coor_chord hn right hR.le _ _ _).trans ?_
    have e1 : c.startPhase + sgn right * (c.length * ((m : ℝ) / 99) / R) - (c.startPhase + sgn right * (l / R)) = sgn right * (c.length / 99 / R * ((m : ℝ) - x)) := by
      rw [hx]; field_simp; ring
    rw [e1, abs_mul, sgn_abs, one_mul, abs_mul, abs_of_pos (by positivity), abs_sub_comm]
    calc R * (c.length / 99 / R * |x - m|) ≤ R * (c.length / 99 / R * (1 / 2)) := by gcongr
      _ = c.length / 99 / 2 := by field_simp
  cases hright : right with
  | true =>
    refine ⟨(circularCenter c 100)[m]'(by omega), List.getElem_mem _, ?_⟩
    rw [hverts m (by omega), if_pos hright]
    exact key
  | false =>
    refine ⟨(circularCenter c 100)[99 - m]'(by omega), List.getElem_mem _, ?_⟩
    rw [hverts (99 - m) (by omega), if_neg (by simp [hright]), Nat.cast_sub hm99]
    rw [show ((99 : ℝ) - (((99 : ℕ) : ℝ) - m)) = m by push_cast; ring]
    exact key

/-- a lane in the direction (1, 2, 2): its middle vertices -/
example : ∃ ps, drawMap3 [[.straight (Straight.new ⟨0, 0, 0⟩ ⟨99, 198, 198⟩)]] = [ps] ∧ ps[33]? = some ⟨33, 66, 66⟩ ∧ ps[99]? = some ⟨99, 198, 198⟩ := by
  obtain ⟨ps, h1, h2, h3⟩ := C112_straight (a := ⟨0, 0, 0⟩) (b := ⟨99, 198, 198⟩) (by simp)
  refine ⟨ps, h1, ?_, ?_⟩
  · rw [List.getElem?_eq_getElem (by omega), h3]; norm_num
  · rw [List.getElem?_eq_getElem (by omega), h3]; norm_num

/-- three quarters of a circle to the left, across the phase 0 -/
example : ∃ c, Circular.new ⟨0, -20, 0⟩ 20 ⟨0, 0, 2⟩ (Real.pi / 4) Real.pi false = some c ∧ ∃ ps, drawMap3 [[.circular c]] = [ps] ∧ ps.length = 100 := by
  have hpi := Real.pi_pos
  obtain ⟨c, h1, _, ps, h2, h3, _⟩ := C112_circular (center := ⟨0, -20, 0⟩) (R := 20) (by norm_num) (v := ⟨0, 0, 2⟩) (by simp) (s := Real.pi / 4) (e := Real.pi)
    (right := false) (by positivity) (by linarith) (by positivity) (by linarith) (by simp) (by intro h; linarith [h.2.2])
  exact ⟨c, h1, ps, h2, h3⟩

end

/-! ### Examples and violations -/

namespace Plot3dEx

/-- a rectangle from time `t` to `t + 1` -/
def rect (t x0 y0 z0 x1 y1 z1 : ℚ) : List (Row ℚ) := [[t, x0, y0, z0], [t + 1, x1, y1, z1]]

/-- the root -/
def root : PNode ℚ := ⟨[("a", rect 0 0 0 0 1 1 1 ++ rect 1 1 1 1 2 2 3), ("b", rect 0 5 5 5 6 6 6 ++ rect 1 6 5 4 7 6 5)], none⟩
/-- its child, in which the assertion of `b` is violated -/
def kid : PNode ℚ := ⟨[("a", rect 2 2 2 2 3 3 4), ("b", rect 2 7 5 5 8 6 9)], some [("b", ["safe"])]⟩
/-- two nodes -/
def tree : RTree (PNode ℚ) := .node root [.node kid []]

theorem nodes : (bfs [tree]).map RTree.label = [root, kid] := by
  unfold tree
  rw [bfs_cons, RTree.kids, List.nil_append, bfs_cons, RTree.kids, List.nil_append, bfs_nil]
  rfl

theorem all (u : RTree (PNode ℚ)) (k : Nat) (h : RTree.Below tree u k) (a : String) (ha : a ∈ ["a", "b"]) : ∃ tr, Dict.get? u.label.trace a = some tr := by
  have hm : u.label ∈ [root, kid] := by
    rw [← nodes]
    exact List.mem_map_of_mem (mem_bfs_root.2 ⟨k, h⟩)
  have : ∀ n ∈ [root, kid], ∀ a ∈ ["a", "b"], (Dict.get? n.trace a).isSome = true := by decide +kernel
  exact Option.isSome_iff_exists.1 (this _ hm a ha)

end Plot3dEx

/-- the plot of the tubes succeeds; both sides of `C112_tubes_partial` hold for the middle of a face of the box of the child -/
example : ∃ items, reachtubeTree3 ["a", "b"] 1 2 3 1 false Plot3dEx.tree = .ok (items, Plot3dEx.tree) ∧ Plot3d.Spec.Drawn items "b" (15 / 2, 5, 7) ∧
    ¬ Plot3d.Spec.Drawn items "b" (15 / 2, 11 / 2, 7) ∧ ("b", Item.mark (8, 6, 9) ["safe"]) ∈ items := by
  have hrun : ∃ items, reachtubeTree3 ["a", "b"] 1 2 3 1 false Plot3dEx.tree = .ok (items, Plot3dEx.tree) := by
    unfold reachtubeTree3
    rw [sampleTrace_one]
    have hc : checkDims3 ["a", "b"] Plot3dEx.tree.label 1 2 3 = .ok () := by decide +kernel
    simp only [Except.bind, hc]
    have h1 : ∃ r, tube3 "a" 1 2 3 false [Plot3dEx.tree] = .ok r := by
      unfold Plot3dEx.tree
      simp only [tube3_cons, tube3, List.nil_append, RTree.kids, RTree.label]
      exact ⟨_, rfl⟩
    have h2 : ∃ r, tube3 "b" 1 2 3 false [Plot3dEx.tree] = .ok r := by
      unfold Plot3dEx.tree
      simp only [tube3_cons, tube3, List.nil_append, RTree.kids, RTree.label]
      exact ⟨_, rfl⟩
    obtain ⟨r1, h1⟩ := h1
    obtain ⟨r2, h2⟩ := h2
    refine ⟨[r1, r2].flatten, ?_⟩
    have hm : ["a", "b"].mapM (fun a => tube3 a 1 2 3 false [Plot3dEx.tree]) = .ok [r1, r2] := (mapM_ok_iff _ _ _).2 (.cons h1 (.cons h2 .nil))
    rw [hm]
    rfl
  obtain ⟨items, hrun⟩ := hrun
  have hT := (C112_tubes_partial ["a", "b"] 1 2 3 1 _ _ items Plot3dEx.all hrun).2
  refine ⟨items, hrun, (hT _ _).2 ?_, fun hd => ?_, (C112_hits_partial ["a", "b"] 1 2 3 1 _ _ items Plot3dEx.all (Or.inl hrun) _ _ _).2 ?_⟩
  · refine ⟨by decide, .node Plot3dEx.kid [], 1, _, 0, _, _, (7, 5, 5), (8, 6, 9), .step (List.mem_singleton.2 rfl) (.refl _), rfl, ⟨rfl, rfl⟩, ⟨rfl, rfl, rfl⟩,
      ⟨rfl, rfl, rfl⟩, ?_⟩
    simp only [Plot3d.Spec.Surface, Plot3d.Spec.Between, Plot3d.Spec.Either]
    norm_num
  · obtain ⟨_, u, k, tr, j, lo, hi, P, Q, hk, htr, hrect, hP, hQ, hS, hS'⟩ := (hT _ _).1 hd
    have hm : u.label ∈ [Plot3dEx.root, Plot3dEx.kid] := by
      rw [← Plot3dEx.nodes]
      exact List.mem_map_of_mem (mem_bfs_root.2 ⟨k, hk⟩)
    have hx : ∀ n ∈ [Plot3dEx.root, Plot3dEx.kid], ∀ tr ∈ Dict.get? n.trace "b", ∀ r ∈ tr, r[1]? ≠ some (15 / 2) ∧ r[2]? ≠ some (11 / 2) ∧ r[3]? ≠ some 7 := by
      decide +kernel
    have h1 := hx _ hm tr htr lo (List.mem_of_getElem? hrect.1)
    have h2 := hx _ hm tr htr hi (List.mem_of_getElem? hrect.2)
    rw [hP.1, hP.2.1, hP.2.2] at h1
    rw [hQ.1, hQ.2.1, hQ.2.2] at h2
    simp only [Plot3d.Spec.Either] at hS'
    rcases hS' with (g | g) | (g | g) | (g | g)
    · exact h1.1 (by rw [g])
    · exact h2.1 (by rw [g])
    · exact h1.2.1 (by rw [g])
    · exact h2.2.1 (by rw [g])
    · exact h1.2.2 (by rw [g])
    · exact h2.2.2 (by rw [g])
  · exact ⟨by decide, .node Plot3dEx.kid [], 1, _, _, _, .step (List.mem_singleton.2 rfl) (.refl _), rfl, rfl, rfl, rfl, ⟨rfl, rfl, rfl⟩⟩

/-- **C112 fails** with `combine_rect`: nothing is drawn, whatever the tree. -/
theorem C112_combine_violated (agents : List String) (x y z rate : Nat) (t t' : RTree (PNode K)) (items : List (String × Item K))
    (h : reachtubeTree3 agents x y z rate true t = .ok (items, t')) : items = [] := by
  obtain ⟨-, s, hm, rfl⟩ := tree3_ok h
  have hm' := (mapM_ok_iff _ _ _).1 hm
  have key : ∀ (a : String) (q : List (RTree (PNode K))) (r : List (String × Item K)), tube3 a x y z true q = .ok r → r = [] := by
    intro a q
    induction q using tube3.induct (K := K) a with
    | case1 => intro r h; unfold tube3 at h; injection h with h; exact h.symm
    | case2 t q hn ih =>
      intro r h
      rw [tube3_cons, hn] at h
      exact ih r h
    | case3 t q tr hn ih =>
      intro r h
      rw [tube3_cons, hn] at h
      obtain ⟨ps, hp, h⟩ := (bind_ok_iff _ _ _).1 h
      obtain ⟨ss, hss, h⟩ := (bind_ok_iff _ _ _).1 h
      obtain ⟨r', hr', h⟩ := (map_ok_iff _ _ _).1 h
      rw [if_pos rfl] at hss
      injection hss with hss
      rw [← h, ← hss, ih _ hr']
      rfl
  rw [List.flatten_eq_nil_iff]
  intro r hr
  obtain ⟨b, _, hb⟩ := forall₂_mem_right hm' hr
  exact key b [t'] r hb

namespace Plot3dEx

/-- The plot of a tree in which only one node is drawn. -/
theorem drawn {b : String} {t t' : RTree (PNode ℚ)} {rate : Nat} {ps : List (P3 ℚ)} (hs : sampleTrace rate t = .ok t') (hc : checkDims3 [b] t'.label 1 2 3 = .ok ())
    (ht : tube3 b 1 2 3 false [t'] = .ok ((nodeItems ps).map fun i => (b, i))) :
    ∃ items, reachtubeTree3 [b] 1 2 3 rate false t = .ok (items, t') ∧ ∀ p, Plot3d.Spec.Drawn items b p ↔ ∃ e ∈ pairs3 ps, Plot3d.Spec.Surface e.1 e.2 p := by
  have hm : [b].mapM (fun a => tube3 a 1 2 3 false [t']) = .ok [(nodeItems ps).map fun i => (b, i)] := (mapM_ok_iff _ _ _).2 (.cons ht .nil)
  refine ⟨[(nodeItems ps).map fun i => (b, i)].flatten, ?_, fun p => ?_⟩
  · unfold reachtubeTree3
    rw [hs]
    simp only [Except.bind, hc, hm, Except.map]
  · rw [← mesh_iff]
    constructor
    · rintro ⟨vs, tris, hmem, hon⟩
      simp only [List.flatten_cons, List.flatten_nil, List.append_nil] at hmem
      obtain ⟨i, hi, e⟩ := List.mem_map.1 hmem
      injection e with _ e
      subst e
      rcases List.mem_append.1 hi with hi | hi
      · obtain ⟨_, _, e⟩ := List.mem_map.1 hi
        exact absurd e (by simp)
      · have e := List.mem_singleton.1 hi
        injection e with e1 e2
        subst e1 e2
        exact hon
    · intro hon
      refine ⟨_, _, ?_, hon⟩
      simp only [List.flatten_cons, List.flatten_nil, List.append_nil]
      exact List.mem_map.2 ⟨_, List.mem_append_right _ (List.mem_singleton.2 rfl), rfl⟩

/-- the child does not have the agent `b`, the grandchild does -/
def gap : RTree (PNode ℚ) := .node root [.node ⟨[("a", rect 2 2 2 2 3 3 4)], none⟩ [.node ⟨[("b", rect 3 20 20 20 21 21 21)], none⟩ []]]

/-- four rectangles -/
def four : PNode ℚ := ⟨[("a", rect 0 0 0 0 9 1 1 ++ rect 1 1 2 1 2 3 2 ++ rect 2 2 0 2 3 1 3 ++ rect 3 3 1 3 4 2 8)], none⟩

end Plot3dEx

/-- **C112 fails** when an agent is missing in a node: the rectangles of the nodes below are not drawn. -/
theorem C112_missing_violated : ∃ items, reachtubeTree3 ["b"] 1 2 3 1 false Plot3dEx.gap = .ok (items, Plot3dEx.gap) ∧
    (∃ u tr lo hi, RTree.Below Plot3dEx.gap u 2 ∧ Dict.get? u.label.trace "b" = some tr ∧ Plot.Spec.Rect tr 0 lo hi ∧ Plot3d.Spec.At 1 2 3 lo (20, 20, 20) ∧
      Plot3d.Spec.At 1 2 3 hi (21, 21, 21)) ∧ ¬ Plot3d.Spec.Drawn items "b" (20, 20, 20) ∧ ¬ ∃ ps, ("b", Item.line ps) ∈ items ∧ Plot3d.Spec.OnLine ps (20, 20, 20) := by
  have hps : project3 1 2 3 (Plot3dEx.rect 0 5 5 5 6 6 6 ++ Plot3dEx.rect 1 6 5 4 7 6 5) = .ok [(5, 5, 5), (6, 6, 6), (6, 5, 4), (7, 6, 5)] := by decide +kernel
  have ht : tube3 "b" 1 2 3 false [Plot3dEx.gap] = .ok ((nodeItems [(5, 5, 5), (6, 6, 6), (6, 5, 4), (7, 6, 5)]).map fun i => ("b", i)) := by
    unfold Plot3dEx.gap Plot3dEx.root
    have e1 : Dict.get? (K := String) [("a", Plot3dEx.rect 0 0 0 0 1 1 1 ++ Plot3dEx.rect 1 1 1 1 2 2 3), ("b", Plot3dEx.rect 0 5 5 5 6 6 6 ++ Plot3dEx.rect 1 6 5 4 7 6 5)] "b" =
      some (Plot3dEx.rect 0 5 5 5 6 6 6 ++ Plot3dEx.rect 1 6 5 4 7 6 5) := rfl
    have e2 : Dict.get? (K := String) [("a", Plot3dEx.rect 2 2 2 2 3 3 4)] "b" = none := rfl
    simp only [tube3_cons, tube3, List.nil_append, RTree.kids, RTree.label, e1, e2, hps, Except.bind, nodeMark, Except.map, List.append_nil, Bool.false_eq_true, if_false]
  obtain ⟨items, h1, h2⟩ := Plot3dEx.drawn (sampleTrace_one _) (by decide +kernel) ht
  refine ⟨items, h1, ⟨.node ⟨[("b", Plot3dEx.rect 3 20 20 20 21 21 21)], none⟩ [], _, _, _,
    .step (List.mem_singleton.2 rfl) (.step (List.mem_singleton.2 rfl) (.refl _)), rfl, ⟨rfl, rfl⟩, ⟨rfl, rfl, rfl⟩, ⟨rfl, rfl, rfl⟩⟩, ?_, ?_⟩
  · rw [h2]
    rintro ⟨e, he, hS, -⟩
    simp only [pairs3, List.mem_cons, List.not_mem_nil, or_false] at he
    rcases he with rfl | rfl <;> (simp only [Plot3d.Spec.Between] at hS; norm_num at hS)
  · rintro ⟨ps, hmem, hon⟩
    obtain ⟨-, s, hm, rfl⟩ := tree3_ok h1
    have hm' := (mapM_ok_iff _ _ _).1 hm
    obtain ⟨r, hr, hsr⟩ := List.mem_flatten.1 hmem
    obtain ⟨b, hb, hra⟩ := forall₂_mem_right hm' hr
    rw [List.mem_singleton.1 hb, ht] at hra
    injection hra with hra
    subst hra
    obtain ⟨i, hi, e⟩ := List.mem_map.1 hsr
    injection e with _ e
    subst e
    rcases List.mem_append.1 hi with hi | hi
    · obtain ⟨e, he, hw⟩ := List.mem_map.1 hi
      injection hw with hw
      subst hw
      have hE := (wire_iff _ _ _).1 hon
      simp only [pairs3, List.mem_cons, List.not_mem_nil, or_false] at he
      rcases he with rfl | rfl <;> (simp only [Plot3d.Spec.Edges, Plot3d.Spec.Either, Plot3d.Spec.Between] at hE; norm_num at hE)
    · exact absurd (List.mem_singleton.1 hi) (by simp)

/-- **C112 fails** with `sample_rate=2`: of four rectangles only the lower corners are left in the tree, and these are drawn in pairs as if they were the corners of
rectangles. -/
theorem C112_sampled_violated : ∃ items t', reachtubeTree3 ["a"] 1 2 3 2 false (.node Plot3dEx.four []) = .ok (items, t') ∧
    (∀ p, Plot3d.Spec.Drawn items "a" p ↔ Plot3d.Spec.Surface (0, 0, 0) (1, 2, 1) p ∨ Plot3d.Spec.Surface (2, 0, 2) (3, 1, 3) p) ∧
    (∃ tr lo hi, Dict.get? Plot3dEx.four.trace "a" = some tr ∧ Plot.Spec.Rect tr 3 lo hi ∧ Plot3d.Spec.At 1 2 3 lo (3, 1, 3) ∧ Plot3d.Spec.At 1 2 3 hi (4, 2, 8)) ∧
    ¬ Plot3d.Spec.Drawn items "a" (4, 2, 8) := by
  have hs : sampleTrace 2 (.node Plot3dEx.four []) = .ok (.node (sampleNode (sampleSim 2) Plot3dEx.four) []) := by
    unfold sampleTrace
    rw [if_neg (by decide)]
    rfl
  have hg : Dict.get? (sampleNode (sampleSim 2) Plot3dEx.four).trace "a" = some [[0, 0, 0, 0], [1, 1, 2, 1], [2, 2, 0, 2], [3, 3, 1, 3]] := by decide +kernel
  have hp : project3 1 2 3 ([[0, 0, 0, 0], [1, 1, 2, 1], [2, 2, 0, 2], [3, 3, 1, 3]] : List (Row ℚ)) = .ok [(0, 0, 0), (1, 2, 1), (2, 0, 2), (3, 1, 3)] := by
    decide +kernel
  have hh : (sampleNode (sampleSim 2) Plot3dEx.four).hits = none := rfl
  have ht : tube3 "a" 1 2 3 false [.node (sampleNode (sampleSim 2) Plot3dEx.four) []] = .ok ((nodeItems [(0, 0, 0), (1, 2, 1), (2, 0, 2), (3, 1, 3)]).map fun i => ("a", i)) := by
    simp only [tube3_cons, tube3, List.nil_append, RTree.kids, RTree.label, hg, hp, hh, Except.bind, nodeMark, Except.map, List.append_nil, Bool.false_eq_true, if_false]
  obtain ⟨items, h1, h2⟩ := Plot3dEx.drawn hs (by decide +kernel) ht
  have h3 : ∀ p, Plot3d.Spec.Drawn items "a" p ↔ Plot3d.Spec.Surface (0, 0, 0) (1, 2, 1) p ∨ Plot3d.Spec.Surface (2, 0, 2) (3, 1, 3) p := by
    intro p
    rw [h2]
    simp only [pairs3, List.mem_cons, List.not_mem_nil, or_false, exists_eq_or_imp, exists_eq_left]
  refine ⟨items, _, h1, h3, ⟨_, _, _, rfl, ⟨rfl, rfl⟩, ⟨rfl, rfl, rfl⟩, ⟨rfl, rfl, rfl⟩⟩, ?_⟩
  rw [h3]
  rintro (⟨hS, -⟩ | ⟨hS, -⟩) <;> (simp only [Plot3d.Spec.Between] at hS; norm_num at hS)

end Verif.Props
