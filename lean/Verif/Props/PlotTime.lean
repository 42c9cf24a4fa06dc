import Verif.Proofs.Plot2
import Verif.Props.Plot

/-! C90: slices of plots and animations. -/

set_option autoImplicit false
set_option linter.unusedSectionVars false

namespace Verif.Props
open Verif.Spec Verif.ATree Verif.Plot

section
variable {K : Type} [Field K] [LinearOrder K] [IsStrictOrderedRing K]

theorem zip_getElem? {α β : Type} (l : List α) (m : List β) (i : Nat) (a : α) (b : β) (h1 : l[i]? = some a) (h2 : m[i]? = some b) : (l.zip m)[i]? = some (a, b) := by
  rw [List.getElem?_zip_eq_some]
  exact ⟨h1, h2⟩

/-- **C90**, `reachtube_tree_slice` with the other arguments at their defaults: of every tube that moves, the rectangles that are
drawn are those whose time interval lies in the slice.

Missing: rectangles whose interval is only partly in the slice (`C90_slice_cut_violated`), and tubes of which all rows but the
last show one point (`C90_slice_still_violated`). -/
theorem C90_slice_partial (agents : List String) (x y : Nat) (tl tu : Option K) (t : RTree (PNode K)) (shapes : List (String × Shape K))
    (h : reachtubeSlice agents x y tl tu t = .ok shapes) :
    (∀ u k, RTree.Below t u k → ∀ a ∈ agents, ∀ tr : List (Row K), Dict.get? u.label.trace a = some tr → (∀ p, ¬ Spec.Still x y tr p) →
      (∀ (i j : Nat) (r s : Row K) (tr0 ts0 : K), i ≤ j → tr[i]? = some r → tr[j]? = some s → r[0]? = some tr0 → s[0]? = some ts0 → tr0 ≤ ts0) →
      ∀ (j : Nat) (lo hi : Row K) (t0 t1 : K), Spec.Rect tr j lo hi → lo[0]? = some t0 → hi[0]? = some t1 → tl.getD 0 ≤ t0 → Spec.Before tu t1 →
        ∃ p q, Spec.At x y lo p ∧ Spec.At x y hi q ∧ (a, Shape.filled (Spec.outline p q)) ∈ shapes) ∧
    (∀ a vs, (a, Shape.filled vs) ∈ shapes → a ∈ agents ∧ ∃ u k tr, RTree.Below t u k ∧ Dict.get? u.label.trace a = some tr ∧
      ∃ j lo hi t0 t1 p q, Spec.Rect tr j lo hi ∧ lo[0]? = some t0 ∧ hi[0]? = some t1 ∧ tl.getD 0 ≤ t0 ∧ Spec.Before tu t1 ∧
        Spec.At x y lo p ∧ Spec.At x y hi q ∧ vs = Spec.outline p q) := by
  obtain ⟨t', hs, h⟩ := (bind_ok_iff _ _ _).1 h
  rw [sampleTrace_one t] at hs
  cases hs
  obtain ⟨_, _, h⟩ := (bind_ok_iff _ _ _).1 h
  obtain ⟨s, hm, rfl⟩ := (map_ok_iff _ _ _).1 h
  have hm' := (mapM_ok_iff _ _ _).1 hm
  constructor
  · intro u k hu a ha tr htr hstill hsorted j lo hi t0 t1 ⟨hlo, hhi⟩ ht0 ht1 h0 h1
    obtain ⟨r, hr, hra⟩ := forall₂_mem_left hm' ha
    obtain ⟨ss, ⟨tr', ps, ts, g1, g2, g3, g4⟩, g5⟩ := (sliceLoop_spec a x y _ tu [t] r hra).1 u (mem_bfs_root.2 ⟨k, hu⟩)
    rw [htr] at g1; cases g1
    have hf := project_spec x y _ _ g2
    have hft := times_spec _ _ g3
    obtain ⟨p, hp, hap⟩ := (forall₂_getElem hf _).1 lo hlo
    obtain ⟨q, hq, haq⟩ := (forall₂_getElem hf _).1 hi hhi
    obtain ⟨t0', ht0', e0⟩ := (forall₂_getElem hft _).1 lo hlo
    obtain ⟨t1', ht1', e1⟩ := (forall₂_getElem hft _).1 hi hhi
    rw [ht0] at e0; cases e0
    rw [ht1] at e1; cases e1
    refine ⟨p, q, hap, haq, ?_⟩
    have hns : ¬ single ps = true := by
      intro hsing
      obtain ⟨p0, hp0, hst⟩ := single_spec hsing
      apply hstill p0
      intro row hrow
      obtain ⟨i, hi⟩ := List.mem_iff_getElem?.1 hrow
      rw [List.getElem?_dropLast] at hi
      split at hi
      · rename_i hlt
        obtain ⟨p', hp', ha'⟩ := (forall₂_getElem hf i).1 row hi
        have : p' = p0 := hst p' (List.mem_iff_getElem?.2 ⟨i, by rw [List.getElem?_dropLast, if_pos (by rw [← hf.length_eq]; exact hlt)]; exact hp'⟩)
        exact this ▸ ha'
      · cases hi
    rw [if_neg hns] at g4
    obtain ⟨_, i2⟩ := sliceBoxes_spec (tl.getD 0) tu _ ss g4
    have hpw : ((ts.zip ps).map Prod.fst).Pairwise (· ≤ ·) := by
      have : (ts.zip ps).map Prod.fst = ts := by
        apply List.map_fst_zip
        rw [← hf.length_eq, ← hft.length_eq]
      rw [this, List.pairwise_iff_getElem]
      intro i j hi hj hij
      obtain ⟨r1, hr1, e1⟩ := (forall₂_getElem hft i).2 ts[i] (List.getElem?_eq_getElem hi)
      obtain ⟨r2, hr2, e2⟩ := (forall₂_getElem hft j).2 ts[j] (List.getElem?_eq_getElem hj)
      exact hsorted i j r1 r2 _ _ (le_of_lt hij) hr1 hr2 e1 e2
    exact List.mem_flatten.2 ⟨r, hr, g5 _ (i2 hpw j (t0, p) (t1, q) (zip_getElem? _ _ _ _ _ ht0' hp) (zip_getElem? _ _ _ _ _ ht1' hq) h0 h1)⟩
  · intro a vs hmem
    obtain ⟨r, hr, hsr⟩ := List.mem_flatten.1 hmem
    obtain ⟨b, hb, hra⟩ := forall₂_mem_right hm' hr
    obtain ⟨hab, u, hu, ss, ⟨tr, ps, ts, g1, g2, g3, g4⟩, g5⟩ := (sliceLoop_spec b x y _ tu [t] r hra).2 _ hsr
    simp only at hab
    subst hab
    obtain ⟨k, hk⟩ := mem_bfs_root.1 hu
    refine ⟨hb, u, k, tr, hk, g1, ?_⟩
    have hf := project_spec x y _ _ g2
    have hft := times_spec _ _ g3
    by_cases hsing : single ps = true
    · rw [if_pos hsing] at g4
      cases g4
      simp at g5
    · rw [if_neg hsing] at g4
      obtain ⟨j, c, d, e1, e2, e3, e4, e5⟩ := (sliceBoxes_spec (tl.getD 0) tu _ ss g4).1 _ g5
      rw [List.getElem?_zip_eq_some] at e1 e2
      obtain ⟨lo, hlo, hat⟩ := (forall₂_getElem hft _).2 _ e1.1
      obtain ⟨hi, hhi, hbt⟩ := (forall₂_getElem hft _).2 _ e2.1
      obtain ⟨lo', hlo', hap⟩ := (forall₂_getElem hf _).2 _ e1.2
      obtain ⟨hi', hhi', hbp⟩ := (forall₂_getElem hf _).2 _ e2.2
      rw [hlo] at hlo'; cases hlo'
      rw [hhi] at hhi'; cases hhi'
      cases e5
      exact ⟨j, lo, hi, c.1, d.1, c.2, d.2, ⟨hlo, hhi⟩, hat, hbt, e3, e4, hap, hbp, rfl⟩

/-- **C90 fails** for tubes of which all rows but the last show one point: that point is drawn whatever the slice is. -/
theorem C90_slice_still_violated (a : String) (x y : Nat) (tl : K) (tu : Option K) (lo hi : Row K) (t0 t1 : K) (p q : K × K)
    (h0 : lo[0]? = some t0) (h1 : hi[0]? = some t1) (hp : Spec.At x y lo p) (hq : Spec.At x y hi q) (hits : Option (Dict String (List String))) :
    sliceLoop a x y tl tu [RTree.node ⟨[(a, [lo, hi])], hits⟩ []] = .ok [(a, Shape.marker p)] := by
  rw [sliceLoop_cons]
  have hproj : project x y [lo, hi] = .ok [p, q] := by
    apply (mapM_ok_iff _ _ _).2
    refine .cons ?_ (.cons ?_ .nil)
    · simp only [hp.1, hp.2]
    · simp only [hq.1, hq.2]
  have ht : times [lo, hi] = .ok [t0, t1] := by
    apply (mapM_ok_iff _ _ _).2
    refine .cons ?_ (.cons ?_ .nil)
    · simp only [h0]
    · simp only [h1]
  have hg : Dict.get? [(a, [lo, hi])] a = some [lo, hi] := by rw [Dict.get?_cons, if_pos rfl]
  simp only [RTree.label, RTree.kids, hg, hproj, ht, Except.bind, single_pair, if_true, List.append_nil]
  rw [sliceLoop]
  rfl

/-- **C90**, `reachtube_anime` with the default `sample_rate`: the frame of a time shows, of an agent, the rectangles of its tubes that
start at that time (rounded), in all nodes, and nothing else; but of tubes that start after time 0 the first four rectangles
are in no frame (`C90_anime_violated`). -/
theorem C90_anime_partial (rnd : K → K) (t : RTree (PNode K)) (fr : Frames K (Row K × Row K))
    (h : reachtubeAnime rnd 1 t = .ok fr) (time : K) (a : String) (lo hi : Row K) :
    Spec.Shown fr time a (lo, hi) ↔ ∃ u k tr, RTree.Below t u k ∧ (a, tr) ∈ u.label.trace ∧
      ∃ j t0 r0 start, Spec.Rect tr j lo hi ∧ lo[0]? = some t0 ∧ time = rnd t0 ∧ tr.head? = some r0 ∧ r0[0]? = some start ∧ (start ≤ 0 ∨ 4 ≤ j) := by
  obtain ⟨t', hs, h⟩ := (bind_ok_iff _ _ _).1 h
  rw [sampleTrace_one t] at hs
  cases hs
  obtain ⟨fr', h1, h⟩ := (bind_ok_iff _ _ _).1 h
  split at h
  · cases h
  · cases h
    rw [frameLoop_spec rnd [t] [] fr h1 time a (lo, hi)]
    have hno : ¬ Spec.Shown ([] : Frames K (Row K × Row K)) time a (lo, hi) := by
      rintro ⟨d, l, h, _⟩; simp [Dict.get?] at h
    simp only [hno, false_or]
    constructor
    · rintro ⟨u, hu, tr, htr, j, t0, r0, start, h1, h2, h3, h4, h5, h6⟩
      obtain ⟨k, hk⟩ := below_iff_mem_subs.2 (show u ∈ RTree.subs t by simpa [RTree.subsL] using hu)
      exact ⟨u, k, tr, hk, htr, j, t0, r0, start, h3, h4, h5, h1, h2, h6⟩
    · rintro ⟨u, k, tr, hk, htr, j, t0, r0, start, h3, h4, h5, h1, h2, h6⟩
      refine ⟨u, ?_, tr, htr, j, t0, r0, start, h1, h2, h3, h4, h5, h6⟩
      have := below_iff_mem_subs.1 ⟨k, hk⟩
      simpa [RTree.subsL] using this

/-- **C90**, `simulation_anime` in its normal mode with the default `sample_rate`: the frame of a time shows, of an agent, the rows of
its traces at that time (rounded), in all nodes, and nothing else. -/
theorem C90_sim_anime_partial (rnd : K → K) (t : RTree (PNode K)) (fr : Frames K (Row K)) (h : simulationAnime rnd 1 t = .ok fr) (time : K) (a : String) (r : Row K) :
    Spec.Shown fr time a r ↔ ∃ u k tr, RTree.Below t u k ∧ (a, tr) ∈ u.label.trace ∧ r ∈ tr ∧ ∃ t0, r[0]? = some t0 ∧ time = rnd t0 := by
  obtain ⟨t', hs, h⟩ := (bind_ok_iff _ _ _).1 h
  rw [sampleTrace_one t] at hs
  cases hs
  obtain ⟨fr', h1, h⟩ := (bind_ok_iff _ _ _).1 h
  split at h
  · cases h
  · split at h
    · cases h
    · cases h
      rw [rowLoop_spec rnd [t] [] fr h1 time a r]
      have hno : ¬ Spec.Shown ([] : Frames K (Row K)) time a r := by
        rintro ⟨d, l, h, _⟩; simp [Dict.get?] at h
      simp only [hno, false_or]
      constructor
      · rintro ⟨u, hu, tr, rest⟩
        obtain ⟨k, hk⟩ := below_iff_mem_subs.2 (show u ∈ RTree.subs t by simpa [RTree.subsL] using hu)
        exact ⟨u, k, tr, hk, rest⟩
      · rintro ⟨u, k, tr, hk, rest⟩
        refine ⟨u, ?_, tr, rest⟩
        have := below_iff_mem_subs.1 ⟨k, hk⟩
        simpa [RTree.subsL] using this

end

/-- the slice of the example from time 1 to 3: two rectangles of each agent -/
theorem PlotEx.slice_run : reachtubeSlice ["a", "b"] 1 2 (some 1) (some 3) PlotEx.tree =
    .ok [("a", .filled [(1, 1), (2, 1), (2, 2), (1, 2), (1, 1)]), ("a", .filled [(2, 2), (3, 2), (3, 3), (2, 3), (2, 2)]),
      ("b", .filled [(6, 5), (7, 5), (7, 6), (6, 6), (6, 5)]), ("b", .filled [(7, 5), (8, 5), (8, 6), (7, 6), (7, 5)])] := by
  unfold reachtubeSlice
  rw [sampleTrace_one _]
  simp only [Except.bind, sliceLoop_list, PlotEx.tree_nodes]
  have h1 : checkDims ["a", "b"] PlotEx.tree.label 1 2 = .ok () := by decide +kernel
  rw [h1]
  decide +kernel

/-- no tube of the example stands still -/
example : ∀ n ∈ PlotEx.nodes, ∀ e ∈ n.trace, ∀ p, ¬ Spec.Still 1 2 e.2 p := by
  intro n hn e he p hst
  have : ∀ n ∈ PlotEx.nodes, ∀ e ∈ n.trace, ∃ r ∈ e.2.dropLast, ∃ s ∈ e.2.dropLast, r[1]? ≠ s[1]? := by decide +kernel
  obtain ⟨r, hr, s, hs, hne⟩ := this n hn e he
  exact hne ((hst r hr).1.trans (hst s hs).1.symm)

/-- **C90 fails** for slices that cut intervals: of tubes from time 0 to 4 the slice from 1/2 to 3/2 shows nothing, although
the tubes exist at all these times. -/
theorem C90_slice_cut_violated : reachtubeSlice ["a", "b"] 1 2 (some (1 / 2)) (some (3 / 2)) PlotEx.tree = .ok [] := by
  unfold reachtubeSlice
  rw [sampleTrace_one _]
  simp only [Except.bind, sliceLoop_list, PlotEx.tree_nodes]
  have h1 : checkDims ["a", "b"] PlotEx.tree.label 1 2 = .ok () := by decide +kernel
  rw [h1]
  decide +kernel

namespace PlotEx

set_option synthInstance.maxSize 1000 in
theorem anime_run : ∃ fr, reachtubeAnime id 1 tree = .ok fr ∧ fr.map Prod.fst = [0, 1] := by
  have hl : frameLoop (id : ℚ → ℚ) [tree] [] = (tree.label.trace.foldlM (frameAgent id) []).bind fun fr =>
      ((tree.kids.head (by decide)).label.trace.foldlM (frameAgent id) fr).bind fun fr => .ok fr := by
    unfold tree
    rw [frameLoop]
    congr 1
    funext fr
    simp only [RTree.kids, List.reverse_singleton, List.append_nil]
    rw [frameLoop]
    congr 1
    funext fr
    simp only [RTree.kids, List.reverse_nil, List.append_nil]
    rw [frameLoop]
  have hk : ((tree.label.trace.foldlM (frameAgent id) []).bind fun fr =>
      ((tree.kids.head (by decide)).label.trace.foldlM (frameAgent id) fr).bind fun fr => .ok fr) = .ok
      [(0, [("a", [([0, 0, 0], [1, 1, 1])]), ("b", [([0, 5, 5], [1, 6, 6])])]), (1, [("a", [([1, 1, 1], [2, 2, 2])]), ("b", [([1, 6, 5], [2, 7, 6])])])] := by
    decide +kernel
  refine ⟨[(0, [("a", [([0, 0, 0], [1, 1, 1])]), ("b", [([0, 5, 5], [1, 6, 6])])]), (1, [("a", [([1, 1, 1], [2, 2, 2])]), ("b", [([1, 6, 5], [2, 7, 6])])])], ?_, rfl⟩
  unfold reachtubeAnime
  rw [sampleTrace_one _]
  simp only [Except.bind]
  rw [hl, hk]
  rfl

end PlotEx

/-- **C90 fails** for nodes that start after time 0: the animation of tubes from time 0 to 4 has frames for times 0 and 1 only. -/
theorem C90_anime_violated : ∃ fr, reachtubeAnime (id : ℚ → ℚ) 1 PlotEx.tree = .ok fr ∧ fr.map Prod.fst = [0, 1] ∧
    ∃ u k tr lo hi, RTree.Below PlotEx.tree u k ∧ ("a", tr) ∈ u.label.trace ∧ Spec.Rect tr 0 lo hi ∧ lo[0]? = some 2 := by
  obtain ⟨fr, h1, h2⟩ := PlotEx.anime_run
  exact ⟨fr, h1, h2, _, 1, _, [2, 2, 2], [2 + 1, 3, 3], .step List.mem_cons_self (.refl _), List.mem_cons_self, ⟨rfl, rfl⟩, rfl⟩

namespace PlotEx

/-- the simulation of the example, as a node further down in a tree: it starts at time 1 -/
def late : PNode ℚ := ⟨[("a", [[1, 2, 1], [2, 4, 0]])], none⟩

theorem rowLoop_one (n : PNode ℚ) : rowLoop (id : ℚ → ℚ) [.node n []] [] = n.trace.foldlM (rowAgent id) [] := by
  rw [rowLoop]
  simp only [RTree.label, RTree.kids, List.reverse_nil, List.append_nil]
  cases n.trace.foldlM (rowAgent id) [] with
  | error e => rfl
  | ok fr => simp only [Except.bind]; rw [rowLoop]

end PlotEx

/-- an animation of a simulation -/
example : simulationAnime (id : ℚ → ℚ) 1 (.node PlotEx.sim []) =
    .ok [(0, [("a", [[0, 0, 0]])]), (1, [("a", [[1, 2, 1]])]), (2, [("a", [[2, 4, 0]])]), (3, [("a", [[3, 6, 1]])])] := by
  unfold simulationAnime
  rw [sampleTrace_one]
  simp only [Except.bind]
  rw [PlotEx.rowLoop_one]
  decide +kernel

/-- **C90 fails** for a node that starts after time 0: the animation of its part of the tree raises `KeyError`. -/
theorem C90_sim_start_violated : simulationAnime (id : ℚ → ℚ) 1 (.node PlotEx.late []) = .error "KeyError" := by
  unfold simulationAnime
  rw [sampleTrace_one]
  simp only [Except.bind]
  rw [PlotEx.rowLoop_one]
  decide +kernel

end Verif.Props
