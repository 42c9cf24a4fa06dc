import Verif.Proofs.Plot
import Mathlib.Analysis.Convex.Combination

/-! C89: plots of trees. -/

set_option autoImplicit false
set_option linter.unusedSectionVars false

namespace Verif.Props
open Verif.Spec Verif.ATree Verif.Plot

section
variable {K : Type} [Field K] [LinearOrder K] [IsStrictOrderedRing K]

theorem reachtubeTree_ok {agents : List String} {x y rate : Nat} {c : Option Int} {labels : Bool} {t t' : RTree (PNode K)} {fig : Figure K}
    (h : reachtubeTree agents x y rate c labels t = .ok (fig, t')) :
    sampleTrace rate t = .ok t' ∧ ∃ s st, agents.mapM (fun a => tubeLoop a x y c [t']) = .ok s ∧
      scan x y labels [t'] ((none, none), []) = .ok st ∧ fig = ⟨s.flatten, st.2, axis st.1.1, axis st.1.2⟩ := by
  obtain ⟨t1, h1, h⟩ := (bind_ok_iff _ _ _).1 h
  obtain ⟨_, _, h⟩ := (bind_ok_iff _ _ _).1 h
  obtain ⟨s, hs, h⟩ := (bind_ok_iff _ _ _).1 h
  obtain ⟨st, hst, h⟩ := (map_ok_iff _ _ _).1 h
  cases h
  exact ⟨h1, s, st, hs, hst, rfl⟩

theorem simulationTree_ok {agents : List String} {x y rate : Nat} {t t' : RTree (PNode K)} {fig : Figure K}
    (h : simulationTree agents x y rate t = .ok (fig, t')) :
    sampleTrace rate t = .ok t' ∧ ∃ s st, agents.mapM (fun a => lineLoop a x y [t']) = .ok s ∧
      scan x y true [t'] ((none, none), []) = .ok st ∧ fig = ⟨s.flatten, st.2, axis st.1.1, axis st.1.2⟩ := by
  obtain ⟨t1, h1, h⟩ := (bind_ok_iff _ _ _).1 h
  obtain ⟨_, _, h⟩ := (bind_ok_iff _ _ _).1 h
  obtain ⟨s, hs, h⟩ := (bind_ok_iff _ _ _).1 h
  obtain ⟨st, hst, h⟩ := (map_ok_iff _ _ _).1 h
  cases h
  exact ⟨h1, s, st, hs, hst, rfl⟩

/-- **C89**, `reachtube_tree` with the default `sample_rate` and `combine_rect`: for every node and every agent each rectangle of
the tube is drawn as a filled polygon, with no exception but for tubes of which all rows but the last show the same point:
of these only that point is drawn. Nothing else is drawn, and the tree is left as it was.

Missing: tubes of a single rectangle (`C89_short_violated`), other values of `combine_rect` (`C89_ribbon_violated`,
`C89_combine_violated`) and of `sample_rate` (`C89_sampled_violated`). -/
theorem C89_tubes_partial (agents : List String) (x y : Nat) (labels : Bool) (t t' : RTree (PNode K)) (fig : Figure K)
    (heven : ∀ u k, RTree.Below t u k → ∀ e ∈ u.label.trace, e.2.length % 2 = 0)
    (hall : ∀ u k, RTree.Below t u k → ∀ a ∈ agents, ∃ tr, Dict.get? u.label.trace a = some tr)
    (h : reachtubeTree agents x y 1 (some 1) labels t = .ok (fig, t')) :
    t' = t ∧
    (∀ u k, RTree.Below t u k → ∀ a ∈ agents, ∀ tr, Dict.get? u.label.trace a = some tr →
      ∀ j lo hi, Spec.Rect tr j lo hi → ∃ p q, Spec.At x y lo p ∧ Spec.At x y hi q ∧
        ((a, Shape.filled (Spec.outline p q)) ∈ fig.shapes ∨ (Spec.Still x y tr p ∧ (a, Shape.marker p) ∈ fig.shapes))) ∧
    (∀ a s, (a, s) ∈ fig.shapes → a ∈ agents ∧ ∃ u k tr, RTree.Below t u k ∧ Dict.get? u.label.trace a = some tr ∧
      ∃ j lo hi p q, Spec.Rect tr j lo hi ∧ Spec.At x y lo p ∧ Spec.At x y hi q ∧ (s = Shape.filled (Spec.outline p q) ∨ (Spec.Still x y tr p ∧ s = Shape.marker p))) := by
  obtain ⟨hs, s, st, hm, _, rfl⟩ := reachtubeTree_ok h
  rw [sampleTrace_one t] at hs
  cases hs
  have hm' := (mapM_ok_iff _ _ _).1 hm
  have hb : ∀ u ∈ bfs [t], ∃ k, RTree.Below t u k := fun u hu => mem_bfs_root.1 hu
  have hsome : ∀ a ∈ agents, ∀ u ∈ bfs [t], ∃ tr, Dict.get? u.label.trace a = some tr := fun a ha u hu => by
    obtain ⟨k, hk⟩ := hb u hu; exact hall u k hk a ha
  refine ⟨rfl, ?_, ?_⟩
  · intro u k hu a ha tr htr j lo hi ⟨hlo, hhi⟩
    obtain ⟨r, hr, hra⟩ := forall₂_mem_left hm' ha
    obtain ⟨ss, ⟨tr', ps, h1, h2, h3⟩, h4⟩ := (tubeLoop_spec a x y (some 1) [t] r hra (hsome a ha)).1 u (mem_bfs_root.2 ⟨k, hu⟩)
    rw [htr] at h1; cases h1
    have hf := project_spec x y _ _ h2
    obtain ⟨p, hp, hap⟩ := (forall₂_getElem hf _).1 lo hlo
    obtain ⟨q, hq, haq⟩ := (forall₂_getElem hf _).1 hi hhi
    refine ⟨p, q, hap, haq, ?_⟩
    unfold nodeShapes at h3
    by_cases hsing : single ps = true
    · rw [if_pos hsing] at h3
      obtain ⟨p0, hp0, hstill⟩ := single_spec hsing
      rw [hp0] at h3
      cases h3
      have hpj : p = p0 := by
        apply hstill
        have hlt : 2 * j + 1 < ps.length := (List.getElem?_eq_some_iff.1 hq).1
        rw [List.mem_iff_getElem?]
        refine ⟨2 * j, ?_⟩
        rw [List.getElem?_dropLast, if_pos (by omega)]
        exact hp
      subst hpj
      right
      refine ⟨?_, List.mem_flatten.2 ⟨r, hr, h4 _ (by simp)⟩⟩
      intro row hrow
      obtain ⟨i, hi⟩ := List.mem_iff_getElem?.1 hrow
      rw [List.getElem?_dropLast] at hi
      split at hi
      · rename_i hlt
        obtain ⟨p', hp', ha'⟩ := (forall₂_getElem hf i).1 row hi
        have : p' = p := hstill p' (List.mem_iff_getElem?.2 ⟨i, by rw [List.getElem?_dropLast, if_pos (by rw [← hf.length_eq]; exact hlt)]; exact hp'⟩)
        exact this ▸ ha'
      · cases hi
    · rw [if_neg hsing] at h3
      left
      simp only [le_refl, if_true] at h3
      exact List.mem_flatten.2 ⟨r, hr, h4 _ ((boxes_spec ps ss h3 _).2 ⟨j, p, q, hp, hq, rfl⟩)⟩
  · intro a s hs
    obtain ⟨r, hr, hsr⟩ := List.mem_flatten.1 hs
    obtain ⟨b, hb', hra⟩ := forall₂_mem_right hm' hr
    obtain ⟨hab, u, hu, ss, ⟨tr, ps, h1, h2, h3⟩, h4⟩ := (tubeLoop_spec b x y (some 1) [t] r hra (hsome b hb')).2 _ hsr
    simp only at hab
    subst hab
    obtain ⟨k, hk⟩ := hb u hu
    have hf := project_spec x y _ _ h2
    refine ⟨hb', u, k, tr, hk, h1, ?_⟩
    unfold nodeShapes at h3
    by_cases hsing : single ps = true
    · rw [if_pos hsing] at h3
      obtain ⟨p0, hp0, hstill⟩ := single_spec hsing
      rw [hp0] at h3
      cases h3
      simp only [Option.toList_some, List.map_cons, List.map_nil, List.mem_singleton] at h4
      subst h4
      cases ps with
      | nil => cases hp0
      | cons p1 ps =>
        cases ps with
        | nil =>
          have := heven u k hk (a, tr) (Dict.mem_of_get? h1)
          rw [hf.length_eq] at this
          simp at this
        | cons p2 ps =>
          simp only [List.head?_cons, Option.some.injEq] at hp0
          subst hp0
          obtain ⟨lo, hlo, halo⟩ := (forall₂_getElem hf 0).2 _ rfl
          obtain ⟨hi, hhi, hahi⟩ := (forall₂_getElem hf 1).2 _ rfl
          refine ⟨0, lo, hi, p1, p2, ⟨hlo, hhi⟩, halo, hahi, Or.inr ⟨?_, rfl⟩⟩
          intro row hrow
          obtain ⟨i, hi'⟩ := List.mem_iff_getElem?.1 hrow
          rw [List.getElem?_dropLast] at hi'
          split at hi'
          · rename_i hlt
            obtain ⟨p', hp', ha'⟩ := (forall₂_getElem hf i).1 row hi'
            have : p' = p1 := hstill p' (List.mem_iff_getElem?.2 ⟨i, by rw [List.getElem?_dropLast, if_pos (by rw [← hf.length_eq]; exact hlt)]; exact hp'⟩)
            exact this ▸ ha'
          · cases hi'
    · rw [if_neg hsing] at h3
      simp only [le_refl, if_true] at h3
      obtain ⟨j, p, q, hp, hq, rfl⟩ := (boxes_spec ps ss h3 _).1 h4
      obtain ⟨lo, hlo, halo⟩ := (forall₂_getElem hf _).2 _ hp
      obtain ⟨hi, hhi, hahi⟩ := (forall₂_getElem hf _).2 _ hq
      exact ⟨j, lo, hi, p, q, ⟨hlo, hhi⟩, halo, hahi, Or.inl rfl⟩

/-- **C89**: whatever the arguments, the axes show all rows that are left in the tree. -/
theorem C89_axes (agents : List String) (x y rate : Nat) (c : Option Int) (labels : Bool) (t t' : RTree (PNode K)) (fig : Figure K)
    (h : reachtubeTree agents x y rate c labels t = .ok (fig, t')) (u : RTree (PNode K)) (k : Nat) (hu : RTree.Below t' u k)
    (a : String) (tr : List (Row K)) (ha : (a, tr) ∈ u.label.trace) (r : Row K) (hr : r ∈ tr) :
    ∃ p, Spec.At x y r p ∧ Spec.Visible fig.xaxis p.1 ∧ Spec.Visible fig.yaxis p.2 := by
  obtain ⟨_, s, st, _, hst, rfl⟩ := reachtubeTree_ok h
  obtain ⟨_, _, h3, _⟩ := scan_spec x y labels [t'] _ st hst
  obtain ⟨p, hp, h1, h2⟩ := h3 u (mem_bfs_root.2 ⟨k, hu⟩) (a, tr) ha r hr
  exact ⟨p, hp, axis_visible h1, axis_visible h2⟩

/-- **C89**, `simulation_tree` with the default `sample_rate`: for every node and every agent there is a line through the points
of all rows of the trace, in order; nothing else is drawn; the axes show all of it; and the tree is left as it was. -/
theorem C89_simulation (agents : List String) (x y : Nat) (t t' : RTree (PNode K)) (fig : Figure K)
    (hall : ∀ u k, RTree.Below t u k → ∀ a ∈ agents, ∃ tr, Dict.get? u.label.trace a = some tr)
    (h : simulationTree agents x y 1 t = .ok (fig, t')) :
    t' = t ∧
    (∀ u k, RTree.Below t u k → ∀ a ∈ agents, ∀ tr, Dict.get? u.label.trace a = some tr →
      ∃ ps, List.Forall₂ (Spec.At x y) tr ps ∧ (a, Shape.line ps) ∈ fig.shapes) ∧
    (∀ a s, (a, s) ∈ fig.shapes → a ∈ agents ∧ ∃ u k tr ps, RTree.Below t u k ∧ Dict.get? u.label.trace a = some tr ∧
      List.Forall₂ (Spec.At x y) tr ps ∧ s = Shape.line ps) ∧
    (∀ u k, RTree.Below t u k → ∀ e ∈ u.label.trace, ∀ r ∈ e.2, ∃ p, Spec.At x y r p ∧ Spec.Visible fig.xaxis p.1 ∧ Spec.Visible fig.yaxis p.2) := by
  obtain ⟨hs, s, st, hm, hst, rfl⟩ := simulationTree_ok h
  rw [sampleTrace_one t] at hs
  cases hs
  have hm' := (mapM_ok_iff _ _ _).1 hm
  have hsome : ∀ a ∈ agents, ∀ u ∈ bfs [t], ∃ tr, Dict.get? u.label.trace a = some tr := fun a ha u hu => by
    obtain ⟨k, hk⟩ := mem_bfs_root.1 hu; exact hall u k hk a ha
  refine ⟨rfl, ?_, ?_, ?_⟩
  · intro u k hu a ha tr htr
    obtain ⟨r, hr, hra⟩ := forall₂_mem_left hm' ha
    obtain ⟨tr', ps, h1, h2, h3⟩ := (lineLoop_spec a x y [t] r hra (hsome a ha)).1 u (mem_bfs_root.2 ⟨k, hu⟩)
    rw [htr] at h1; cases h1
    exact ⟨ps, project_spec x y _ _ h2, List.mem_flatten.2 ⟨r, hr, h3⟩⟩
  · intro a s hs
    obtain ⟨r, hr, hsr⟩ := List.mem_flatten.1 hs
    obtain ⟨b, hb', hra⟩ := forall₂_mem_right hm' hr
    obtain ⟨hab, u, hu, tr, ps, h1, h2, h3⟩ := (lineLoop_spec b x y [t] r hra (hsome b hb')).2 _ hsr
    simp only at hab h3
    subst hab
    obtain ⟨k, hk⟩ := mem_bfs_root.1 hu
    exact ⟨hb', u, k, tr, ps, hk, h1, project_spec x y _ _ h2, h3⟩
  · intro u k hu e he r hr
    obtain ⟨_, _, h3, _⟩ := scan_spec x y true [t] _ st hst
    obtain ⟨p, hp, h1, h2⟩ := h3 u (mem_bfs_root.2 ⟨k, hu⟩) e he r hr
    exact ⟨p, hp, axis_visible h1, axis_visible h2⟩

/-- **C89**: `simulation_tree` marks the violated assertions of each agent at the end of the trace, and nothing else. -/
theorem C89_simulation_hits (agents : List String) (x y rate : Nat) (t t' : RTree (PNode K)) (fig : Figure K)
    (h : simulationTree agents x y rate t = .ok (fig, t')) (a : String) (p : K × K) (as : List String) :
    (a, p, as) ∈ fig.marks ↔ ∃ u k tr r hits, RTree.Below t' u k ∧ (a, tr) ∈ u.label.trace ∧ u.label.hits = some hits ∧ Dict.get? hits a = some as ∧
      tr.getLast? = some r ∧ Spec.At x y r p := by
  obtain ⟨_, s, st, _, hst, rfl⟩ := simulationTree_ok h
  obtain ⟨_, _, _, h4⟩ := scan_spec x y true [t'] _ st hst
  simp only [h4, List.not_mem_nil, false_or, true_and, Mark]
  constructor
  · rintro ⟨u, hu, e, he, hits, as', r, p', h1, h2, h3, h5, h6⟩
    obtain ⟨k, hk⟩ := mem_bfs_root.1 hu
    cases h6
    exact ⟨u, k, e.2, r, hits, hk, he, h1, h2, h3, h5⟩
  · rintro ⟨u, k, tr, r, hits, hk, he, h1, h2, h3, h5⟩
    exact ⟨u, mem_bfs_root.2 ⟨k, hk⟩, (a, tr), he, hits, as, r, p, h1, h2, h3, h5, rfl⟩

/-- **C89**: with labels, `reachtube_tree` marks the violated assertions in the same way. -/
theorem C89_reach_hits_partial (agents : List String) (x y rate : Nat) (c : Option Int) (t t' : RTree (PNode K)) (fig : Figure K)
    (h : reachtubeTree agents x y rate c true t = .ok (fig, t')) (a : String) (p : K × K) (as : List String) :
    (a, p, as) ∈ fig.marks ↔ ∃ u k tr r hits, RTree.Below t' u k ∧ (a, tr) ∈ u.label.trace ∧ u.label.hits = some hits ∧ Dict.get? hits a = some as ∧
      tr.getLast? = some r ∧ Spec.At x y r p := by
  obtain ⟨_, s, st, _, hst, rfl⟩ := reachtubeTree_ok h
  obtain ⟨_, _, _, h4⟩ := scan_spec x y true [t'] _ st hst
  simp only [h4, List.not_mem_nil, false_or, true_and, Mark]
  constructor
  · rintro ⟨u, hu, e, he, hits, as', r, p', h1, h2, h3, h5, h6⟩
    obtain ⟨k, hk⟩ := mem_bfs_root.1 hu
    cases h6
    exact ⟨u, k, e.2, r, hits, hk, he, h1, h2, h3, h5⟩
  · rintro ⟨u, k, tr, r, hits, hk, he, h1, h2, h3, h5⟩
    exact ⟨u, mem_bfs_root.2 ⟨k, hk⟩, (a, tr), he, hits, as, r, p, h1, h2, h3, h5, rfl⟩

/-- **C89 fails** for violated assertions: with the default `label_mode`, `reachtube_tree` marks none of them. -/
theorem C89_reach_hits_violated (agents : List String) (x y rate : Nat) (c : Option Int) (t t' : RTree (PNode K)) (fig : Figure K)
    (h : reachtubeTree agents x y rate c false t = .ok (fig, t')) : fig.marks = [] := by
  obtain ⟨_, s, st, _, hst, rfl⟩ := reachtubeTree_ok h
  obtain ⟨_, _, _, h4⟩ := scan_spec x y false [t'] _ st hst
  rw [List.eq_nil_iff_forall_not_mem]
  intro m hm
  have := (h4 m).1 hm
  simp at this

/-- **C89 fails** for tubes with a single rectangle: whatever `combine_rect` is, only its lower corner is drawn. -/
theorem C89_short_violated (a : String) (x y : Nat) (c : Option Int) (lo hi : Row K) (p q : K × K) (hp : Spec.At x y lo p) (hq : Spec.At x y hi q)
    (rest : Dict String (List (Row K))) (hits : Option (Dict String (List String))) :
    tubeLoop a x y c [RTree.node ⟨(a, [lo, hi]) :: rest, hits⟩ []] = .ok [(a, Shape.marker p)] := by
  rw [tubeLoop_cons]
  have hproj : project x y [lo, hi] = .ok [p, q] := by
    apply (mapM_ok_iff _ _ _).2
    refine .cons ?_ (.cons ?_ .nil)
    · simp only [hp.1, hp.2]
    · simp only [hq.1, hq.2]
  have hg : Dict.get? ((a, [lo, hi]) :: rest) a = some [lo, hi] := by rw [Dict.get?_cons, if_pos rfl]
  simp only [RTree.label, RTree.kids, hg, hproj, Except.bind, nodeShapes, single_pair, if_true, List.append_nil]
  rw [tubeLoop]
  rfl

end

/-- The region of the polygon of a rectangle is the rectangle. -/
theorem C89_outline_region {K : Type} [Field K] [LinearOrder K] [IsStrictOrderedRing K] (lo hi : K × K) (h : lo ≤ hi) : Spec.hull (Spec.outline lo hi) = {v | lo.1 ≤ v.1 ∧ v.1 ≤ hi.1 ∧ lo.2 ≤ v.2 ∧ v.2 ≤ hi.2} := by
  have h1 : {v : K × K | v ∈ Spec.outline lo hi} = ({lo.1, hi.1} : Set K) ×ˢ ({lo.2, hi.2} : Set K) := by
    ext v
    simp only [Spec.outline, List.mem_cons, List.not_mem_nil, or_false, Set.mem_ofPred_eq, Set.mem_prod, Set.mem_insert_iff, Set.mem_singleton_iff, Prod.ext_iff]
    tauto
  unfold Spec.hull
  rw [h1, convexHull_prod, convexHull_pair, convexHull_pair, segment_eq_Icc h.1, segment_eq_Icc h.2]
  ext v
  simp only [Set.mem_prod, Set.mem_Icc, Set.mem_ofPred_eq]
  tauto

namespace PlotEx

/-- a rectangle from time `t` to `t + 1` -/
def rect (t x0 y0 x1 y1 : ℚ) : List (Row ℚ) := [[t, x0, y0], [t + 1, x1, y1]]

/-- two nodes; in the child the assertion of `b` is violated -/
def tree : RTree (PNode ℚ) := .node ⟨[("a", rect 0 0 0 1 1 ++ rect 1 1 1 2 2), ("b", rect 0 5 5 6 6 ++ rect 1 6 5 7 6)], none⟩
  [.node ⟨[("a", rect 2 2 2 3 3 ++ rect 3 3 3 4 4), ("b", rect 2 7 5 8 6 ++ rect 3 7 5 9 6)], some [("b", ["safe"])]⟩ []]

/-- the figure -/
def fig : Figure ℚ :=
  ⟨[("a", .filled [(0, 0), (1, 0), (1, 1), (0, 1), (0, 0)]), ("a", .filled [(1, 1), (2, 1), (2, 2), (1, 2), (1, 1)]),
    ("a", .filled [(2, 2), (3, 2), (3, 3), (2, 3), (2, 2)]), ("a", .filled [(3, 3), (4, 3), (4, 4), (3, 4), (3, 3)]),
    ("b", .filled [(5, 5), (6, 5), (6, 6), (5, 6), (5, 5)]), ("b", .filled [(6, 5), (7, 5), (7, 6), (6, 6), (6, 5)]),
    ("b", .filled [(7, 5), (8, 5), (8, 6), (7, 6), (7, 5)]), ("b", .filled [(7, 5), (9, 5), (9, 6), (7, 6), (7, 5)])],
    [("b", (9, 6), ["safe"])], some (-9 / 4, 45 / 4), some (-3 / 2, 15 / 2)⟩

end PlotEx

/-- the nodes -/
def PlotEx.nodes : List (PNode ℚ) := [PlotEx.tree.label, (PlotEx.tree.kids.head (by decide)).label]

theorem PlotEx.tree_nodes : (bfs [PlotEx.tree]).map RTree.label = PlotEx.nodes := by
  unfold PlotEx.tree
  rw [bfs_cons, RTree.kids, List.nil_append, bfs_cons, RTree.kids, List.nil_append, bfs_nil]
  rfl

theorem PlotEx.below {u : RTree (PNode ℚ)} {k : Nat} (h : RTree.Below PlotEx.tree u k) : u.label ∈ PlotEx.nodes := by
  rw [← PlotEx.tree_nodes]
  exact List.mem_map_of_mem (mem_bfs_root.2 ⟨k, h⟩)

theorem PlotEx.even (u : RTree (PNode ℚ)) (k : Nat) (h : RTree.Below PlotEx.tree u k) : ∀ e ∈ u.label.trace, e.2.length % 2 = 0 := by
  have : ∀ n ∈ PlotEx.nodes, ∀ e ∈ n.trace, e.2.length % 2 = 0 := by decide +kernel
  exact this _ (PlotEx.below h)

theorem PlotEx.run : reachtubeTree ["a", "b"] 1 2 1 (some 1) true PlotEx.tree = .ok (PlotEx.fig, PlotEx.tree) := by
  rw [reachtubeTree_list _ 1 2 1 (some 1) true PlotEx.tree PlotEx.tree PlotEx.nodes (sampleTrace_one _) PlotEx.tree_nodes]
  have h1 : checkDims ["a", "b"] PlotEx.tree.label 1 2 = .ok () := by decide +kernel
  have h2 : (["a", "b"].mapM (fun a => tubeList a 1 2 (some 1) PlotEx.nodes)).bind (fun s =>
      (scanList 1 2 true PlotEx.nodes ((none, none), [])).map fun st => (⟨s.flatten, st.2, axis st.1.1, axis st.1.2⟩ : Figure ℚ)) = .ok PlotEx.fig := by decide +kernel
  rw [h1]
  obtain ⟨s, hs, h2⟩ := (bind_ok_iff _ _ _).1 h2
  obtain ⟨st, hst, h2⟩ := (map_ok_iff _ _ _).1 h2
  simp only [Except.bind, hs, hst, Except.map, h2]

/-- the hypotheses of `C89_tubes_partial` hold for this tree: its eight rectangles are drawn -/
example : ∀ u k, RTree.Below PlotEx.tree u k → ∀ a ∈ ["a", "b"], ∃ tr, Dict.get? u.label.trace a = some tr := by
  have : ∀ n ∈ PlotEx.nodes, ∀ a ∈ ["a", "b"], (Dict.get? n.trace a).isSome = true := by decide +kernel
  intro u k h a ha
  exact Option.isSome_iff_exists.1 (this _ (PlotEx.below h) a ha)

/-- the plot of a tree with one node -/
theorem PlotEx.one (agents : List String) (x y rate : Nat) (hr : rate ≠ 0) (c : Option Int) (labels : Bool) (n : PNode ℚ) (fig : Figure ℚ)
    (h : ((checkDims agents (sampleNode (sampleSim rate) n) x y).bind fun _ => (agents.mapM (fun a => tubeList a x y c [sampleNode (sampleSim rate) n])).bind (fun s =>
      (scanList x y labels [sampleNode (sampleSim rate) n] ((none, none), [])).map fun st => (⟨s.flatten, st.2, axis st.1.1, axis st.1.2⟩ : Figure ℚ))) = .ok fig) :
    reachtubeTree agents x y rate c labels (.node n []) = .ok (fig, .node (sampleNode (sampleSim rate) n) []) := by
  have hs : sampleTrace rate (.node n []) = .ok (.node (sampleNode (sampleSim rate) n) []) := by
    unfold sampleTrace
    rw [if_neg hr]
    rfl
  rw [reachtubeTree_list agents x y rate c labels _ _ [sampleNode (sampleSim rate) n] hs (by rw [bfs_cons, RTree.kids, List.nil_append, bfs_nil]; rfl)]
  obtain ⟨u, hu, h⟩ := (bind_ok_iff _ _ _).1 h
  obtain ⟨s, hs, h⟩ := (bind_ok_iff _ _ _).1 h
  obtain ⟨st, hst, h⟩ := (map_ok_iff _ _ _).1 h
  simp only [RTree.label, hu, Except.bind, hs, hst, Except.map, h]

/-- a half plane that contains the corners contains the region -/
theorem PlotEx.hull_sub (vs : List (ℚ × ℚ)) (a b c : ℚ) (h : ∀ v ∈ vs, a * v.1 + b * v.2 ≤ c) (p : ℚ × ℚ) (hp : ¬ a * p.1 + b * p.2 ≤ c) : p ∉ Spec.hull vs := by
  intro hmem
  have hc : Convex ℚ {v : ℚ × ℚ | a * v.1 + b * v.2 ≤ c} := by
    apply convex_halfSpace_le
    constructor
    · intro v w; simp; ring
    · intro k v; simp; ring
  exact hp (convexHull_min (fun v hv => h v hv) hc hmem)

namespace PlotEx

/-- one rectangle -/
def short : PNode ℚ := ⟨[("a", rect 0 0 0 4 4)], none⟩
/-- two rectangles along the diagonal -/
def diag : PNode ℚ := ⟨[("a", rect 0 0 0 1 1 ++ rect 1 1 1 2 2)], none⟩
/-- four rectangles -/
def four : PNode ℚ := ⟨[("a", rect 0 0 0 9 1 ++ rect 1 1 2 2 3 ++ rect 2 2 0 3 1 ++ rect 3 3 1 4 2)], none⟩
/-- three rectangles -/
def three : PNode ℚ := ⟨[("a", rect 0 0 0 1 1 ++ rect 1 1 1 2 2 ++ rect 2 2 2 3 3)], none⟩

end PlotEx

/-- **C89 fails** for a tube with a single rectangle: only its lower corner is drawn. -/
theorem C89_short_plot_violated : ∃ fig t', reachtubeTree ["a"] 1 2 1 (some 1) false (.node PlotEx.short []) = .ok (fig, t') ∧ Spec.Unseen fig (2, 2) := by
  refine ⟨⟨[("a", .marker (0, 0))], [], some (-1, 5), some (-1, 5)⟩, _, PlotEx.one ["a"] 1 2 1 (by decide) (some 1) false PlotEx.short _ (by decide +kernel), ?_⟩
  intro s hs
  rw [List.mem_singleton.1 hs]
  exact PlotEx.hull_sub _ 1 0 0 (by decide +kernel) _ (by decide +kernel)

/-- **C89 fails** with `combine_rect=None`, the default of the animation: of two squares along the diagonal the polygon is the diagonal. -/
theorem C89_ribbon_violated : ∃ fig t', reachtubeTree ["a"] 1 2 1 none false (.node PlotEx.diag []) = .ok (fig, t') ∧
    fig.shapes = [("a", .filled [(0, 0), (1, 1), (2, 2), (1, 1), (0, 0)])] ∧ Spec.Unseen fig (1, 0) ∧ Spec.Unseen fig (0, 1) := by
  refine ⟨⟨[("a", .filled [(0, 0), (1, 1), (2, 2), (1, 1), (0, 0)])], [], some (-1 / 2, 5 / 2), some (-1 / 2, 5 / 2)⟩, _,
    PlotEx.one ["a"] 1 2 1 (by decide) none false PlotEx.diag _ (by decide +kernel), rfl, ?_, ?_⟩
  · intro s hs
    rw [List.mem_singleton.1 hs]
    exact PlotEx.hull_sub _ 1 (-1) 0 (by decide +kernel) _ (by decide +kernel)
  · intro s hs
    rw [List.mem_singleton.1 hs]
    exact PlotEx.hull_sub _ (-1) 1 0 (by decide +kernel) _ (by decide +kernel)

/-- **C89 fails** with `combine_rect=2`: of the same two squares a corner is missing. -/
theorem C89_combine_violated : ∃ fig t', reachtubeTree ["a"] 1 2 1 (some 2) false (.node PlotEx.diag []) = .ok (fig, t') ∧
    fig.shapes = [("a", .filled [(0, 0), (1, 1), (1, 2), (2, 2), (1, 1), (1, 0), (0, 0)])] ∧ Spec.Unseen fig (0, 1) := by
  refine ⟨⟨[("a", .filled [(0, 0), (1, 1), (1, 2), (2, 2), (1, 1), (1, 0), (0, 0)])], [], some (-1 / 2, 5 / 2), some (-1 / 2, 5 / 2)⟩, _,
    PlotEx.one ["a"] 1 2 1 (by decide) (some 2) false PlotEx.diag _ (by decide +kernel), rfl, ?_⟩
  intro s hs
  rw [List.mem_singleton.1 hs]
  exact PlotEx.hull_sub _ (-2) 1 0 (by decide +kernel) _ (by decide +kernel)

/-- **C89 fails** with `sample_rate=2`: of four rectangles only the lower corners are left in the tree, and these are drawn in pairs as if they
were the corners of rectangles. Parts of the first rectangle and the whole last one are not drawn. -/
theorem C89_sampled_violated : ∃ fig, reachtubeTree ["a"] 1 2 2 (some 1) false (.node PlotEx.four []) =
      .ok (fig, .node ⟨[("a", [[0, 0, 0], [1, 1, 2], [2, 2, 0], [3, 3, 1]])], none⟩ []) ∧
    fig.shapes = [("a", .filled (Spec.outline (0, 0) (1, 2))), ("a", .filled (Spec.outline (2, 0) (3, 1)))] ∧
    Spec.Unseen fig (8, 1) ∧ Spec.Unseen fig (4, 2) := by
  have hn : sampleNode (sampleSim 2) PlotEx.four = ⟨[("a", [[0, 0, 0], [1, 1, 2], [2, 2, 0], [3, 3, 1]])], none⟩ := by decide +kernel
  refine ⟨⟨[("a", .filled (Spec.outline (0, 0) (1, 2))), ("a", .filled (Spec.outline (2, 0) (3, 1)))], [], some (-3 / 4, 15 / 4), some (-1 / 2, 5 / 2)⟩,
    hn ▸ PlotEx.one ["a"] 1 2 2 (by decide) (some 1) false PlotEx.four _ (by decide +kernel), rfl, ?_, ?_⟩
  all_goals
    intro s hs
    have hs : s = ("a", .filled (Spec.outline (0, 0) (1, 2))) ∨ s = ("a", .filled (Spec.outline (2, 0) (3, 1))) := by simpa using hs
    rcases hs with rfl | rfl <;> exact PlotEx.hull_sub _ 1 0 3 (by decide +kernel) _ (by decide +kernel)

/-- **C89 fails** with `sample_rate=2` for three rectangles: one row is left without a partner, and nothing is drawn. -/
theorem C89_odd_violated : reachtubeTree ["a"] 1 2 2 (some 1) false (.node PlotEx.three []) = .error "IndexError" := by
  have hs : sampleTrace 2 (.node PlotEx.three []) = .ok (.node (sampleNode (sampleSim 2) PlotEx.three) []) := by
    unfold sampleTrace
    rw [if_neg (by decide)]
    rfl
  rw [reachtubeTree_list ["a"] 1 2 2 (some 1) false _ _ [sampleNode (sampleSim 2) PlotEx.three] hs (by rw [bfs_cons, RTree.kids, List.nil_append, bfs_nil]; rfl)]
  have h1 : checkDims ["a"] (sampleNode (sampleSim 2) PlotEx.three) 1 2 = .ok () := by decide +kernel
  have h2 : ["a"].mapM (fun a => tubeList a 1 2 (some 1) [sampleNode (sampleSim 2) PlotEx.three]) = .error "IndexError" := by decide +kernel
  simp only [RTree.label, h1, Except.bind, h2]

namespace PlotEx

/-- a simulation with a violated assertion -/
def sim : PNode ℚ := ⟨[("a", [[0, 0, 0], [1, 2, 1], [2, 4, 0], [3, 6, 1]])], some [("a", ["safe"])]⟩

theorem simOne (agents : List String) (x y rate : Nat) (hr : rate ≠ 0) (n : PNode ℚ) (fig : Figure ℚ)
    (h : ((checkDims agents (sampleNode (sampleSim rate) n) x y).bind fun _ => (agents.mapM (fun a => lineList a x y [sampleNode (sampleSim rate) n])).bind (fun s =>
      (scanList x y true [sampleNode (sampleSim rate) n] ((none, none), [])).map fun st => (⟨s.flatten, st.2, axis st.1.1, axis st.1.2⟩ : Figure ℚ))) = .ok fig) :
    simulationTree agents x y rate (.node n []) = .ok (fig, .node (sampleNode (sampleSim rate) n) []) := by
  have hs : sampleTrace rate (.node n []) = .ok (.node (sampleNode (sampleSim rate) n) []) := by
    unfold sampleTrace
    rw [if_neg hr]
    rfl
  rw [simulationTree_list agents x y rate _ _ [sampleNode (sampleSim rate) n] hs (by rw [bfs_cons, RTree.kids, List.nil_append, bfs_nil]; rfl)]
  obtain ⟨u, hu, h⟩ := (bind_ok_iff _ _ _).1 h
  obtain ⟨s, hs, h⟩ := (bind_ok_iff _ _ _).1 h
  obtain ⟨st, hst, h⟩ := (map_ok_iff _ _ _).1 h
  simp only [RTree.label, hu, Except.bind, hs, hst, Except.map, h]

end PlotEx

/-- a line through four points, and the mark at the last one -/
example : ∃ t', simulationTree ["a"] 1 2 1 (.node PlotEx.sim []) =
    .ok (⟨[("a", .line [(0, 0), (2, 1), (4, 0), (6, 1)])], [("a", (6, 1), ["safe"])], some (-3 / 2, 15 / 2), some (-1 / 4, 5 / 4)⟩, t') :=
  ⟨_, PlotEx.simOne ["a"] 1 2 1 (by decide) PlotEx.sim _ (by decide +kernel)⟩

/-- **C89 fails** with `sample_rate=2`: the end of the simulation is neither drawn nor left in the tree, and the violated assertion is
marked where it was not violated. -/
theorem C89_sim_sampled_violated : ∃ fig, simulationTree ["a"] 1 2 2 (.node PlotEx.sim []) = .ok (fig, .node ⟨[("a", [[0, 0, 0], [2, 4, 0]])], some [("a", ["safe"])]⟩ []) ∧
    Spec.Unseen fig (6, 1) ∧ fig.marks = [("a", (4, 0), ["safe"])] := by
  have hn : sampleNode (sampleSim 2) PlotEx.sim = ⟨[("a", [[0, 0, 0], [2, 4, 0]])], some [("a", ["safe"])]⟩ := by decide +kernel
  refine ⟨⟨[("a", .line [(0, 0), (4, 0)])], [("a", (4, 0), ["safe"])], some (-1, 5), some (0, 0)⟩,
    hn ▸ PlotEx.simOne ["a"] 1 2 2 (by decide) PlotEx.sim _ (by decide +kernel), ?_, rfl⟩
  intro s hs
  rw [List.mem_singleton.1 hs]
  exact PlotEx.hull_sub _ 1 0 4 (by decide +kernel) _ (by decide +kernel)

end Verif.Props
