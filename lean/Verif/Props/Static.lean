import Verif.Proofs.Static
import Mathlib.Tactic.NormNum

/-!
C115: the static pictures of tubes and simulations and the animation of simulations show every node of the tree, inside the axes.
-/

set_option autoImplicit false
set_option linter.unusedSectionVars false

namespace Verif.Props
open Verif Verif.Spec Verif.ATree Verif.Plot Verif.Static Verif.Static.Spec

variable {K : Type} [Field K] [LinearOrder K] [IsStrictOrderedRing K]

private theorem tube_ok {aid : String} {x : Nat} {ys : List Nat} {lim v : Lim K} {t : RTree (PNode K)} {ps : List (Patch K)}
    (h : plotReachtubeTree aid x ys lim t = .ok (ps, v)) : ∃ ss, List.Forall₂ (fun u s => tubeNode aid x ys u.label = .ok s) (bfs [t]) ss ∧
      ps = ss.flatten.map patch ∧ v = view 1 (ss.flatten.foldl (fun l e => grow l e.2.1 e.2.2) lim) := by
  obtain ⟨ss, hs, e⟩ := (map_ok_iff _ _ _).1 h
  injection e with e1 e2
  exact ⟨ss, (mapM_ok_iff _ _ _).1 hs, e1.symm, e2.symm⟩

private theorem mem_tube {aid : String} {x : Nat} {ys : List Nat} {t : RTree (PNode K)} {ss : List (List (Bool × (K × K) × (K × K)))}
    (hf : List.Forall₂ (fun u s => tubeNode aid x ys u.label = .ok s) (bfs [t]) ss) (bl : Bool) (a b : K × K) : (bl, a, b) ∈ ss.flatten ↔
      ∃ u k tr j lo hi y, RTree.Below t u k ∧ Dict.get? u.label.trace aid = some tr ∧ Plot.Spec.Rect tr j lo hi ∧ y ∈ ys ∧ Plot.Spec.At x y lo a ∧
        Plot.Spec.At x y hi b ∧ (bl = true → Hit u.label ∧ LastRect tr j) := by
  constructor
  · intro h
    obtain ⟨s, hs, h⟩ := List.mem_flatten.1 h
    obtain ⟨u, hu, hn⟩ := forall₂_mem_right hf hs
    obtain ⟨tr, ht, hm⟩ := tubeNode_spec hn
    obtain ⟨j, lo, hi, y, h1, h2, h3, h4, h5⟩ := (hm bl a b).1 h
    obtain ⟨k, hk⟩ := mem_bfs_root.1 hu
    exact ⟨u, k, tr, j, lo, hi, y, hk, ht, h1, h2, h3, h4, h5⟩
  · rintro ⟨u, k, tr, j, lo, hi, y, hk, ht, h⟩
    obtain ⟨s, hs, hn⟩ := forall₂_mem_left hf (mem_bfs_root.2 ⟨k, hk⟩)
    obtain ⟨tr', ht', hm⟩ := tubeNode_spec hn
    rw [ht] at ht'
    cases ht'
    exact List.mem_flatten.2 ⟨s, hs, (hm bl a b).2 ⟨j, lo, hi, y, h⟩⟩

private theorem covers_patch (e : Bool × (K × K) × (K × K)) (p : K × K) : Covers (patch e) p ↔ InBox e.2.1 e.2.2 p := by
  simp [Covers, patch, InBox]

/-- The picture of a tube of an agent in the plane (the old plotter). The area it covers is that of the rectangles of the agent in all nodes of the tree, for each of
the chosen pairs of dimensions; the area in black is that of the last rectangles of the nodes in which some assertion is violated. All of it is within the axes, and so
is what was within the axes before. Missing: trees with nodes without the agent (`C115_missing_violated`), axes as the caller gives them (`C115_limits_violated`), marks of
the agents whose assertions are violated (`C115_blame_violated`). -/
theorem C115_tubes_partial (aid : String) (x : Nat) (ys : List Nat) (lim v : Lim K) (t : RTree (PNode K)) (ps : List (Patch K))
    (h : plotReachtubeTree aid x ys lim t = .ok (ps, v)) :
    (∀ bl p, (∃ s ∈ ps, s.black = bl ∧ Covers s p) ↔ ∃ u k tr j lo hi y a b, RTree.Below t u k ∧ Dict.get? u.label.trace aid = some tr ∧ Plot.Spec.Rect tr j lo hi ∧
      y ∈ ys ∧ Plot.Spec.At x y lo a ∧ Plot.Spec.At x y hi b ∧ InBox a b p ∧ (bl = true → Hit u.label ∧ LastRect tr j)) ∧
    (∀ s ∈ ps, ∀ p, Covers s p → InView v p) ∧ (∀ p, InView lim p → InView v p) := by
  obtain ⟨ss, hf, rfl, rfl⟩ := tube_ok h
  obtain ⟨⟨a1, a2, a3, a4⟩, hm, _⟩ := grow_fold (fun e : Bool × (K × K) × (K × K) => e.2.1) (fun e => e.2.2) ss.flatten lim _ rfl
  refine ⟨fun bl p => ⟨?_, ?_⟩, ?_, ?_⟩
  · rintro ⟨s, hs, rfl, hc⟩
    obtain ⟨⟨bl, a, b⟩, he, rfl⟩ := List.mem_map.1 hs
    obtain ⟨u, k, tr, j, lo, hi, y, h1, h2, h3, h4, h5, h6, h7⟩ := (mem_tube hf bl a b).1 he
    exact ⟨u, k, tr, j, lo, hi, y, a, b, h1, h2, h3, h4, h5, h6, (covers_patch _ _).1 hc, h7⟩
  · rintro ⟨u, k, tr, j, lo, hi, y, a, b, h1, h2, h3, h4, h5, h6, hin, h7⟩
    exact ⟨_, List.mem_map.2 ⟨_, (mem_tube hf bl a b).2 ⟨u, k, tr, j, lo, hi, y, h1, h2, h3, h4, h5, h6, h7⟩, rfl⟩, rfl, (covers_patch (bl, a, b) p).2 hin⟩
  · intro s hs p hc
    obtain ⟨e, he, rfl⟩ := List.mem_map.1 hs
    obtain ⟨c1, c2, c3, c4⟩ := (covers_patch _ _).1 hc
    obtain ⟨m1, m2, m3, m4⟩ := hm e he
    refine ⟨?_, ?_, ?_, ?_⟩ <;> simp only [view] <;> linarith
  · rintro p ⟨c1, c2, c3, c4⟩
    refine ⟨?_, ?_, ?_, ?_⟩ <;> simp only [view] <;> linarith

/-- The axes are no wider than that: each limit is one unit away from the limit before the call or from the side of a rectangle that is drawn. -/
theorem C115_axes (aid : String) (x : Nat) (ys : List Nat) (lim v : Lim K) (t : RTree (PNode K)) (ps : List (Patch K))
    (h : plotReachtubeTree aid x ys lim t = .ok (ps, v)) :
    (v.1.1 + 1 = lim.1.1 ∨ ∃ s ∈ ps, v.1.1 + 1 = s.anchor.1) ∧ (v.1.2 - 1 = lim.1.2 ∨ ∃ s ∈ ps, v.1.2 - 1 = s.anchor.1 + s.width) ∧
      (v.2.1 + 1 = lim.2.1 ∨ ∃ s ∈ ps, v.2.1 + 1 = s.anchor.2) ∧ (v.2.2 - 1 = lim.2.2 ∨ ∃ s ∈ ps, v.2.2 - 1 = s.anchor.2 + s.height) := by
  obtain ⟨ss, hf, rfl, rfl⟩ := tube_ok h
  obtain ⟨_, _, c1, c2, c3, c4⟩ := grow_fold (fun e : Bool × (K × K) × (K × K) => e.2.1) (fun e => e.2.2) ss.flatten lim _ rfl
  simp only [view, sub_add_cancel, add_sub_cancel_right]
  refine ⟨c1.imp_right ?_, c2.imp_right ?_, c3.imp_right ?_, c4.imp_right ?_⟩ <;>
    (rintro ⟨e, he, c⟩; exact ⟨_, List.mem_map.2 ⟨e, he, rfl⟩, by simpa [patch] using c⟩)

/-- The picture is made whenever all nodes have a trace of the agent that consists of rectangles with the chosen dimensions. -/
theorem C115_made (aid : String) (x : Nat) (ys : List Nat) (lim : Lim K) (t : RTree (PNode K))
    (hall : ∀ u k, RTree.Below t u k → ∃ tr, Dict.get? u.label.trace aid = some tr ∧ tr ≠ [] ∧ tr.length % 2 = 0 ∧ ∀ r ∈ tr, x < r.length ∧ ∀ y ∈ ys, y < r.length) :
    ∃ ps v, plotReachtubeTree aid x ys lim t = .ok (ps, v) := by
  obtain ⟨ss, hs⟩ := mapM_ex (fun u : RTree (PNode K) => tubeNode aid x ys u.label) (bfs [t]) (fun u hu => by
    obtain ⟨k, hk⟩ := mem_bfs_root.1 hu
    obtain ⟨tr, h1, h2, h3, h4⟩ := hall u k hk
    exact tubeNode_total h1 h3 h2 h4)
  exact ⟨_, _, (map_ok_iff _ _ _).2 ⟨ss, hs, rfl⟩⟩

private theorem points_unique {x y : Nat} : ∀ {tr : List (Row K)} {l l' : List (K × K)}, List.Forall₂ (Plot.Spec.At x y) tr l → List.Forall₂ (Plot.Spec.At x y) tr l' → l = l'
  | [], _, _, .nil, .nil => rfl
  | _ :: _, _, _, .cons h1 h2, .cons h3 h4 => by rw [at_unique h1 h3, points_unique h2 h4]

/-- The picture of a simulation: for every node of the tree and each chosen dimension the line through the points of the trace of the agent, and no other lines; all
points are within the axes. -/
theorem C115_lines_partial (aid : String) (x : Nat) (ys : List Nat) (lim v : Lim K) (t : RTree (PNode K)) (ls : List (List (K × K)))
    (h : plotSimulationTree aid x ys lim t = .ok (ls, v)) :
    (∀ l, l ∈ ls ↔ ∃ u k tr y, RTree.Below t u k ∧ Dict.get? u.label.trace aid = some tr ∧ y ∈ ys ∧ List.Forall₂ (Plot.Spec.At x y) tr l) ∧
      (∀ l ∈ ls, l ≠ []) ∧ (∀ l ∈ ls, ∀ p ∈ l, InView v p) ∧ (∀ p, InView lim p → InView v p) ∧
      (v.1.1 + 1 = lim.1.1 ∨ ∃ l ∈ ls, ∃ p ∈ l, v.1.1 + 1 = p.1) ∧ (v.1.2 - 1 = lim.1.2 ∨ ∃ l ∈ ls, ∃ p ∈ l, v.1.2 - 1 = p.1) ∧
      (v.2.1 + 1 = lim.2.1 ∨ ∃ l ∈ ls, ∃ p ∈ l, v.2.1 + 1 = p.2) ∧ (v.2.2 - 1 = lim.2.2 ∨ ∃ l ∈ ls, ∃ p ∈ l, v.2.2 - 1 = p.2) := by
  obtain ⟨ss, hs, e⟩ := (map_ok_iff _ _ _).1 h
  injection e with e1 e2
  subst e1 e2
  have hf := (mapM_ok_iff _ _ _).1 hs
  have node : ∀ (n : PNode K) (s : List (List (K × K))), lineNode aid x ys n = .ok s → ∃ tr, Dict.get? n.trace aid = some tr ∧ (ys ≠ [] → tr ≠ []) ∧
      List.Forall₂ (fun y l => List.Forall₂ (Plot.Spec.At x y) tr l) ys s := by
    intro n s hn
    unfold lineNode at hn
    cases ht : Dict.get? n.trace aid with
    | none => rw [ht] at hn; cases hn
    | some tr =>
      rw [ht] at hn
      simp only at hn
      split at hn
      · cases hn
      · next hc =>
        refine ⟨tr, rfl, ?_, ?_⟩
        · rintro hys rfl
          apply hc
          cases ys with
          | nil => exact absurd rfl hys
          | cons y ys => rfl
        · refine List.Forall₂.imp (fun y l hl => ?_) ((mapM_ok_iff _ _ _).1 hn)
          exact List.Forall₂.imp (fun r p hp => (at2_iff x y r p).1 hp) ((mapM_ok_iff _ _ _).1 hl)
  obtain ⟨⟨a1, a2, a3, a4⟩, hm, c1, c2, c3, c4⟩ := grow_fold (fun p : K × K => p) (fun p => p) ss.flatten.flatten lim _ rfl
  have split : ∀ {P : K × K → Prop}, (∃ p ∈ ss.flatten.flatten, P p) → ∃ l ∈ ss.flatten, ∃ p ∈ l, P p := by
    rintro P ⟨p, hp, hP⟩
    obtain ⟨l, hl, hp⟩ := List.mem_flatten.1 hp
    exact ⟨l, hl, p, hp, hP⟩
  have lines : ∀ l, l ∈ ss.flatten ↔ ∃ u k tr y, RTree.Below t u k ∧ Dict.get? u.label.trace aid = some tr ∧ y ∈ ys ∧ List.Forall₂ (Plot.Spec.At x y) tr l := by
    intro l
    constructor
    · intro hl
      obtain ⟨s, hs', hl⟩ := List.mem_flatten.1 hl
      obtain ⟨u, hu, hn⟩ := forall₂_mem_right hf hs'
      obtain ⟨tr, ht, _, hf2⟩ := node _ _ hn
      obtain ⟨y, hy, hl⟩ := forall₂_mem_right hf2 hl
      obtain ⟨k, hk⟩ := mem_bfs_root.1 hu
      exact ⟨u, k, tr, y, hk, ht, hy, hl⟩
    · rintro ⟨u, k, tr, y, hk, ht, hy, hl⟩
      obtain ⟨s, hs', hn⟩ := forall₂_mem_left hf (mem_bfs_root.2 ⟨k, hk⟩)
      obtain ⟨tr', ht', _, hf2⟩ := node _ _ hn
      rw [ht] at ht'
      cases ht'
      obtain ⟨l', hl', hh⟩ := forall₂_mem_left hf2 hy
      have : l = l' := points_unique hl hh
      rw [this]
      exact List.mem_flatten.2 ⟨s, hs', hl'⟩
  simp only [view, sub_add_cancel, add_sub_cancel_right]
  refine ⟨lines, ?_, ?_, ?_, c1.imp_right split, c2.imp_right split, c3.imp_right split, c4.imp_right split⟩
  · rintro l hl rfl
    obtain ⟨s, hs', hl⟩ := List.mem_flatten.1 hl
    obtain ⟨u, hu, hn⟩ := forall₂_mem_right hf hs'
    obtain ⟨tr, ht, hne, hf2⟩ := node _ _ hn
    obtain ⟨y, hy, hl⟩ := forall₂_mem_right hf2 hl
    exact hne (List.ne_nil_of_mem hy) (by cases hl; rfl)
  · intro l hl p hp
    obtain ⟨m1, m2, m3, m4⟩ := hm p (List.mem_flatten.2 ⟨l, hl, hp⟩)
    refine ⟨?_, ?_, ?_, ?_⟩ <;> simp only <;> linarith
  · rintro p ⟨b1, b2, b3, b4⟩
    refine ⟨?_, ?_, ?_, ?_⟩ <;> simp only <;> linarith

/-- The animation of a simulation: the frame of a time shows, for each row of each agent in each node whose rounded time it is, the position and an arrow in the direction
of the agent that is as long as its speed, in red for `car2`; nothing else is shown, every frame shows something, and all positions are within the axes. -/
theorem C115_animation (cos sin rnd : K → K) (ylim : K × K) (t : RTree (PNode K)) (fr : Dict K (List (Dot K))) (xl : Option (K × K)) (yl : K × K)
    (h : Static.simulationAnime cos sin rnd ylim t = .ok (fr, xl, yl)) :
    (∀ τ d, (∃ l, Dict.get? fr τ = some l ∧ d ∈ l) ↔ ∃ u k a tr r time x y θ v, RTree.Below t u k ∧ (a, tr) ∈ u.label.trace ∧ r ∈ tr ∧ Reads r time x y θ v ∧
      τ = rnd time ∧ d = ⟨(x, y), (cos θ * v, sin θ * v), decide (a = "car2")⟩) ∧
    (∀ τ l, Dict.get? fr τ = some l → l ≠ []) ∧
    (∀ τ l d, Dict.get? fr τ = some l → d ∈ l → Plot.Spec.Visible xl d.pos.1 ∧ yl.1 ≤ d.pos.2 ∧ d.pos.2 ≤ yl.2) ∧ yl.1 ≤ ylim.1 - 2 ∧ ylim.2 + 2 ≤ yl.2 := by
  obtain ⟨ds, hd, e⟩ := (map_ok_iff _ _ _).1 h
  injection e with e1 e2
  injection e2 with e2 e3
  subst e1 e2 e3
  have hf := (mapM_ok_iff _ _ _).1 hd
  have frame : ∀ τ l, Dict.get? (ds.foldl addDot []) τ = some l ↔ l ≠ [] ∧ l = (ds.filter fun e => e.1 = τ).map Prod.snd := by
    intro τ l
    rw [addDots_spec]
    by_cases hn : (ds.filter fun e => e.1 = τ) = []
    · rw [if_pos hn, hn]
      constructor
      · intro h; cases h
      · rintro ⟨h1, h2⟩; exact absurd h2 h1
    · rw [if_neg hn]
      have : (Dict.get? ([] : Dict K (List (Dot K))) τ).getD [] = [] := rfl
      rw [this, List.nil_append]
      constructor
      · intro h; injection h with h; subst h; exact ⟨by simpa using hn, rfl⟩
      · rintro ⟨_, rfl⟩; rfl
  have shown : ∀ τ d, (∃ l, Dict.get? (ds.foldl addDot []) τ = some l ∧ d ∈ l) ↔ (τ, d) ∈ ds := by
    intro τ d
    constructor
    · rintro ⟨l, hl, hdl⟩
      obtain ⟨_, rfl⟩ := (frame τ l).1 hl
      obtain ⟨e, he, rfl⟩ := List.mem_map.1 hdl
      obtain ⟨h1, h2⟩ := List.mem_filter.1 he
      have : e.1 = τ := by simpa using h2
      rw [← this]; exact h1
    · intro hm
      have : d ∈ (ds.filter fun e => e.1 = τ).map Prod.snd := List.mem_map.2 ⟨(τ, d), List.mem_filter.2 ⟨hm, by simp⟩, rfl⟩
      exact ⟨_, (frame τ _).2 ⟨List.ne_nil_of_mem this, rfl⟩, this⟩
  obtain ⟨n1, n2, _⟩ := foldl_min_spec (ds.map fun d => d.2.pos.2) ylim.1
  obtain ⟨x1, x2, _⟩ := foldl_max_spec (ds.map fun d => d.2.pos.2) ylim.2
  refine ⟨fun τ d => ?_, fun τ l hl => ((frame τ l).1 hl).1, fun τ l d hl hdl => ?_, sub_le_sub_right n1 2, add_le_add_left x1 2⟩
  · rw [shown]
    constructor
    · intro hm
      obtain ⟨⟨a, r⟩, hr, hdr⟩ := forall₂_mem_right hf hm
      obtain ⟨u, k, tr, hk, he, hrt⟩ := (mem_rows t a r).1 hr
      obtain ⟨time, x, y, θ, v, h1, h2, h3⟩ := (dot_iff _ _ _ _ _ _).1 hdr
      exact ⟨u, k, a, tr, r, time, x, y, θ, v, hk, he, hrt, h1, h2, h3⟩
    · rintro ⟨u, k, a, tr, r, time, x, y, θ, v, hk, he, hrt, h1, h2, h3⟩
      obtain ⟨e, hem, hdr⟩ := forall₂_mem_left hf ((mem_rows t a r).2 ⟨u, k, tr, hk, he, hrt⟩)
      rw [(dot_iff cos sin rnd (a, r) τ d).2 ⟨time, x, y, θ, v, h1, h2, h3⟩] at hdr
      cases hdr
      exact hem
  · have hm := (shown τ d).1 ⟨l, hl, hdl⟩
    refine ⟨?_, ?_, ?_⟩
    · obtain ⟨a, b, hab, h1, h2⟩ := widen_mem (ds.map fun d => d.2.pos.1) none d.pos.1 (List.mem_map.2 ⟨(τ, d), hm, rfl⟩)
      rw [hab]
      exact ⟨a - 2, b + 2, rfl, by linarith, by linarith⟩
    · have := n2 d.pos.2 (List.mem_map.2 ⟨(τ, d), hm, rfl⟩)
      simp only
      linarith
    · have := x2 d.pos.2 (List.mem_map.2 ⟨(τ, d), hm, rfl⟩)
      simp only
      linarith

/-- The picture of a tube in space (the pyvista plotter): the polytopes that are drawn are the boxes of the rectangles of the agent in all nodes of the tree for which the
library finds a shell. -/
theorem C115_boxes_partial (shell : Poly K → Bool) (aid : String) (x y z : Nat) (t : RTree (PNode K)) (Ps : List (Poly K))
    (h : plot3dReachtube shell aid x y z t = .ok Ps) :
    (∀ P ∈ Ps, ∃ u k tr j lo hi a b, RTree.Below t u k ∧ Dict.get? u.label.trace aid = some tr ∧ Plot.Spec.Rect tr j lo hi ∧ Plot3d.Spec.At x y z lo a ∧
      Plot3d.Spec.At x y z hi b ∧ ∀ p, InPoly P p ↔ InBox3 a b p) ∧
    ((∀ P, shell P = true) → ∀ p u k tr j lo hi a b, RTree.Below t u k → Dict.get? u.label.trace aid = some tr → Plot.Spec.Rect tr j lo hi →
      Plot3d.Spec.At x y z lo a → Plot3d.Spec.At x y z hi b → InBox3 a b p → ∃ P ∈ Ps, InPoly P p) := by
  obtain ⟨ss, hs, rfl⟩ := (map_ok_iff _ _ _).1 h
  have hf := (mapM_ok_iff _ _ _).1 hs
  refine ⟨fun P hP => ?_, fun hsh p u k tr j lo hi a b hk ht hr ha hb hin => ?_⟩
  · obtain ⟨s, hs', hP⟩ := List.mem_flatten.1 (List.mem_filter.1 hP).1
    obtain ⟨u, hu, hn⟩ := forall₂_mem_right hf hs'
    obtain ⟨tr, ht, hm⟩ := boxNode_spec hn
    obtain ⟨j, lo, hi, a, b, hr, ha, hb, rfl⟩ := (hm P).1 hP
    obtain ⟨k, hk⟩ := mem_bfs_root.1 hu
    exact ⟨u, k, tr, j, lo, hi, a, b, hk, ht, hr, ha, hb, inPoly_box a b⟩
  · obtain ⟨s, hs', hn⟩ := forall₂_mem_left hf (mem_bfs_root.2 ⟨k, hk⟩)
    obtain ⟨tr', ht', hm⟩ := boxNode_spec hn
    rw [ht] at ht'
    cases ht'
    exact ⟨_, List.mem_filter.2 ⟨List.mem_flatten.2 ⟨s, hs', (hm _).2 ⟨j, lo, hi, a, b, hr, ha, hb, rfl⟩⟩, hsh _⟩, (inPoly_box a b p).2 hin⟩

/-! ### what goes wrong -/

/-- A tree that is not expanded everywhere gets no picture: if one node lacks the agent, then all three plotters raise. -/
theorem C115_missing_violated (aid : String) (x y z : Nat) (ys : List Nat) (lim : Lim K) (shell : Poly K → Bool) (t u : RTree (PNode K)) (k : Nat)
    (hu : RTree.Below t u k) (hn : Dict.get? u.label.trace aid = none) :
    (¬ ∃ r, plotReachtubeTree aid x ys lim t = .ok r) ∧ (¬ ∃ r, plotSimulationTree aid x ys lim t = .ok r) ∧ ¬ ∃ r, plot3dReachtube shell aid x y z t = .ok r := by
  refine ⟨?_, ?_, ?_⟩
  all_goals
    rintro ⟨r, h⟩
    obtain ⟨ss, hs, _⟩ := (map_ok_iff _ _ _).1 h
    obtain ⟨s, _, hs'⟩ := forall₂_mem_left ((mapM_ok_iff _ _ _).1 hs) (mem_bfs_root.2 ⟨k, hu⟩)
    first
      | (unfold tubeNode at hs'; rw [hn] at hs'; cases hs')
      | (unfold lineNode at hs'; rw [hn] at hs'; cases hs')
      | (unfold boxNode at hs'; rw [hn] at hs'; cases hs')

/-- The axes are never those the caller asks for: they are wider by at least one unit on each side. -/
theorem C115_limits_violated (aid : String) (x : Nat) (ys : List Nat) (lim v : Lim K) (t : RTree (PNode K)) (ps : List (Patch K))
    (h : plotReachtubeTree aid x ys lim t = .ok (ps, v)) : v.1.1 < lim.1.1 ∧ lim.1.2 < v.1.2 ∧ v.2.1 < lim.2.1 ∧ lim.2.2 < v.2.2 := by
  obtain ⟨ss, hf, rfl, rfl⟩ := tube_ok h
  obtain ⟨⟨a1, a2, a3, a4⟩, _⟩ := grow_fold (fun e : Bool × (K × K) × (K × K) => e.2.1) (fun e => e.2.2) ss.flatten lim _ rfl
  refine ⟨?_, ?_, ?_, ?_⟩ <;> simp only [view] <;> linarith

/-! ### concrete cases -/

/-- A tree of two nodes; in the second an assertion of the first car is violated. -/
def staticTree : RTree (PNode ℚ) :=
  .node ⟨[("car1", [[0, 1, 2, 0, 1], [1, 3, 4, 0, 1]]), ("car2", [[0, 7, 7, 0, 1], [1, 8, 8, 0, 1]])], none⟩
    [.node ⟨[("car1", [[1, 3, 4, 0, 2], [2, 5, 6, 0, 2], [2, 5, 6, 0, 2], [3, 9, 9, 0, 2]]), ("car2", [[1, 8, 8, 0, 1], [2, 9, 9, 0, 1]])], some [("car1", ["safe"])]⟩ []]

/-- The second car is marked in black although only an assertion of the first one is violated. -/
theorem C115_blame_violated : ∃ ps v, plotReachtubeTree "car2" 1 [2] ((0, 1), (0, 1)) staticTree = .ok (ps, v) ∧ (∃ s ∈ ps, s.black = true) ∧
    ∀ u ∈ RTree.subs staticTree, ∀ d, u.label.hits = some d → Dict.get? d "car2" = none := by
  refine ⟨[⟨false, (7, 7), 1, 1⟩, ⟨false, (8, 8), 1, 1⟩, ⟨true, (8, 8), 1, 1⟩], ((-1, 10), (-1, 10)), ?_, ⟨⟨true, (8, 8), 1, 1⟩, by simp, rfl⟩, ?_⟩
  · unfold plotReachtubeTree
    simp only [staticTree, bfs_cons, bfs_nil, RTree.kids, List.nil_append, List.append_nil]
    decide +kernel
  · intro u hu d hd
    simp only [staticTree, RTree.subs, RTree.subsL, List.mem_cons, List.append_nil, List.not_mem_nil, or_false] at hu
    rcases hu with rfl | rfl
    · cases hd
    · cases hd; decide

/-- Three rectangles are drawn for the first car, and the last one again in black. -/
example : plotReachtubeTree "car1" 1 [2] ((0, 1), (0, 1)) staticTree =
    .ok ([⟨false, (1, 2), 2, 2⟩, ⟨false, (3, 4), 2, 2⟩, ⟨false, (5, 6), 4, 3⟩, ⟨true, (5, 6), 4, 3⟩], ((-1, 10), (-1, 10))) := by
  unfold plotReachtubeTree
  simp only [staticTree, bfs_cons, bfs_nil, RTree.kids, List.nil_append, List.append_nil]
  decide +kernel

/-- The same tree meets the conditions of `C115_made`. -/
example : ∃ ps v, plotReachtubeTree "car1" 1 [2] ((0, 1), (0, 1)) staticTree = .ok (ps, v) := by
  refine C115_made _ _ _ _ _ fun u k hk => ?_
  have hu : u ∈ RTree.subs staticTree := below_iff_mem_subs.1 ⟨k, hk⟩
  simp only [staticTree, RTree.subs, RTree.subsL, List.mem_cons, List.append_nil, List.not_mem_nil, or_false] at hu
  rcases hu with rfl | rfl
  · exact ⟨_, rfl, by simp, by simp, by simp⟩
  · exact ⟨_, rfl, by simp, by simp, by simp⟩

/-- Lines of a simulation, with two dimensions. -/
example : plotSimulationTree "car1" 0 [1, 2] ((0, 1), (0, 1)) staticTree =
    .ok ([[(0, 1), (1, 3)], [(0, 2), (1, 4)], [(1, 3), (2, 5), (2, 5), (3, 9)], [(1, 4), (2, 6), (2, 6), (3, 9)]], ((-1, 4), (-1, 10))) := by
  unfold plotSimulationTree
  simp only [staticTree, bfs_cons, bfs_nil, RTree.kids, List.nil_append, List.append_nil]
  decide +kernel

/-- Boxes in space. -/
example : plot3dReachtube (fun _ => true) "car2" 0 1 2 staticTree = .ok [box2poly (0, 7, 7) (1, 8, 8), box2poly (1, 8, 8) (2, 9, 9)] := by
  unfold plot3dReachtube
  simp only [staticTree, bfs_cons, bfs_nil, RTree.kids, List.nil_append, List.append_nil]
  decide +kernel

/-- The frames of the first seconds. -/
example : ∃ fr xl yl, Static.simulationAnime (fun _ => 1) (fun _ => 0) id (0, 1) staticTree = .ok (fr, xl, yl) ∧
    Dict.get? fr 0 = some [⟨(1, 2), (1, 0), false⟩, ⟨(7, 7), (1, 0), true⟩] ∧ fr.map Prod.fst = [0, 1, 2, 3] ∧ xl = some (-1, 11) ∧ yl = (-2, 11) := by
  unfold Static.simulationAnime rows
  simp only [staticTree, stackLoop, RTree.kids, List.reverse_cons, List.reverse_nil, List.nil_append, List.append_nil]
  exact ⟨_, _, _, rfl, by decide +kernel, by decide +kernel, by decide +kernel, by decide +kernel⟩

/-- A node that is not expanded. -/
example : Dict.get? (RTree.label (.node ⟨[], none⟩ [] : RTree (PNode ℚ))).trace "car1" = none := rfl

end Verif.Props
