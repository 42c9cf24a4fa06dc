import Verif.Proofs.OpenDrive

/-!
C96: lane maps from OpenDRIVE files.
-/

set_option autoImplicit false

namespace Verif.Props
open Verif.ODrive Verif.Lane Verif.Spec Real

theorem foldl_set2_get {A B C : Type} [DecidableEq A] (g g' : C → A) (f f' : C → B) : ∀ (l : List C) (d : Dict A B), (l.map g).Nodup →
    (l.map g').Nodup → (∀ x ∈ l, ∀ y ∈ l, g x ≠ g' y) →
    (∀ x ∈ l, Dict.get? (l.foldl (fun d x => Dict.set (Dict.set d (g x) (f x)) (g' x) (f' x)) d) (g x) = some (f x) ∧
      Dict.get? (l.foldl (fun d x => Dict.set (Dict.set d (g x) (f x)) (g' x) (f' x)) d) (g' x) = some (f' x)) ∧
    ∀ k, k ∉ l.map g → k ∉ l.map g' →
      Dict.get? (l.foldl (fun d x => Dict.set (Dict.set d (g x) (f x)) (g' x) (f' x)) d) k = Dict.get? d k
  | [], d, _, _, _ => ⟨by simp, by simp⟩
  | c :: l, d, h, h', hd => by
    rw [List.map_cons, List.nodup_cons] at h h'
    obtain ⟨h1, h2⟩ := foldl_set2_get g g' f f' l (Dict.set (Dict.set d (g c) (f c)) (g' c) (f' c)) h.2 h'.2
      (fun x hx y hy => hd x (by simp [hx]) y (by simp [hy]))
    refine ⟨?_, ?_⟩
    · intro x hx
      rcases List.mem_cons.1 hx with rfl | hx
      · constructor
        · rw [List.foldl_cons, h2 _ h.1, Dict.get?_set_ne _ _ _ _ (Ne.symm (hd x (by simp) x (by simp))), Dict.get?_set_self]
          intro hm
          obtain ⟨y, hy, e⟩ := List.mem_map.1 hm
          exact hd x (by simp) y (by simp [hy]) e.symm
        · rw [List.foldl_cons, h2 _ _ h'.1, Dict.get?_set_self]
          intro hm
          obtain ⟨y, hy, e⟩ := List.mem_map.1 hm
          exact hd y (by simp [hy]) x (by simp) e
      · exact h1 x hx
    · intro k hk hk'
      rw [List.map_cons, List.mem_cons, not_or] at hk hk'
      rw [List.foldl_cons, h2 k hk.2 hk'.2, Dict.get?_set_ne _ _ _ _ (Ne.symm hk'.1), Dict.get?_set_ne _ _ _ _ (Ne.symm hk.1)]

/-- The names of the lanes of a map without lanes on the right. -/
def names (n : Nat) : List String := ((List.range n).map laneName).reverse

theorem pairs_eq (n : Nat) : (names n).zip ((names n).drop 1) = ((List.range (n - 1)).map fun k => (laneName (k + 1), laneName k)).reverse := by
  apply List.ext_getElem
  · simp [names]
  · intro i h1 h2
    simp only [names, List.length_reverse, List.length_map, List.length_range] at h2
    simp only [names, List.getElem_zip, List.getElem_drop, List.getElem_reverse, List.getElem_map, List.getElem_range, List.length_map,
      List.length_range, Prod.mk.injEq]
    exact ⟨by congr 1; omega, by congr 1; omega⟩

theorem nodup_laneName (n c : Nat) : ((List.range n).map fun k => laneName (k + c)).Nodup :=
  List.Nodup.map_on (fun _ _ _ _ e => by simpa using laneName_inj _ _ e) List.nodup_range

theorem hDict_get (n : Nat) (hn : n ≤ 10) (k : Nat) (hk : k + 1 < n) :
    Dict.get? (hDict (names n)) (laneName k, "Normal", "SwitchLeft") = some (between (laneName k) (laneName (k + 1))) ∧
    Dict.get? (hDict (names n)) (between (laneName k) (laneName (k + 1)), "SwitchLeft", "Normal") = some (laneName (k + 1)) ∧
    Dict.get? (hDict (names n)) (laneName (k + 1), "Normal", "SwitchRight") = some (between (laneName (k + 1)) (laneName k)) ∧
    Dict.get? (hDict (names n)) (between (laneName (k + 1)) (laneName k), "SwitchRight", "Normal") = some (laneName k) := by
  have nd : ∀ (l : List Nat) (f : Nat → String × String × String), l.Nodup → (∀ x ∈ l, ∀ y ∈ l, f x = f y → x = y) → (l.map f).Nodup :=
    fun l f hl hf => List.Nodup.map_on (fun x hx y hy e => hf x hx y hy e) hl
  unfold hDict
  simp only [pairs_eq, List.reverse_reverse, List.foldl_map]
  rw [← List.map_reverse, List.foldl_map]
  have hmem : k ∈ List.range (n - 1) := List.mem_range.2 (by omega)
  obtain ⟨a1, a2⟩ := foldl_set2_get (fun k : Nat => (laneName k, "Normal", "SwitchLeft"))
    (fun k : Nat => (between (laneName k) (laneName (k + 1)), "SwitchLeft", "Normal"))
    (fun k : Nat => between (laneName k) (laneName (k + 1))) (fun k : Nat => laneName (k + 1)) (List.range (n - 1)) []
    (nd _ _ List.nodup_range (fun x _ y _ e => laneName_inj _ _ (congrArg Prod.fst e)))
    (nd _ _ List.nodup_range (fun x hx y hy e => by
      have hx := List.mem_range.1 hx
      have hy := List.mem_range.1 hy
      exact (between_inj _ _ _ _ (by omega) (by omega) (by omega) (by omega) (congrArg Prod.fst e)).1))
    (fun x _ y _ e => by simp at e)
  obtain ⟨b1, b2⟩ := foldl_set2_get (fun k : Nat => (laneName (k + 1), "Normal", "SwitchRight"))
    (fun k : Nat => (between (laneName (k + 1)) (laneName k), "SwitchRight", "Normal"))
    (fun k : Nat => between (laneName (k + 1)) (laneName k)) (fun k : Nat => laneName k) (List.range (n - 1)).reverse
    ((List.range (n - 1)).foldl (fun d k => Dict.set (Dict.set d (laneName k, "Normal", "SwitchLeft") (between (laneName k) (laneName (k + 1))))
      (between (laneName k) (laneName (k + 1)), "SwitchLeft", "Normal") (laneName (k + 1))) [])
    (nd _ _ (List.nodup_reverse.2 List.nodup_range) (fun x _ y _ e => by simpa using laneName_inj _ _ (congrArg Prod.fst e)))
    (nd _ _ (List.nodup_reverse.2 List.nodup_range) (fun x hx y hy e => by
      have hx := List.mem_range.1 (List.mem_reverse.1 hx)
      have hy := List.mem_range.1 (List.mem_reverse.1 hy)
      exact (between_inj _ _ _ _ (by omega) (by omega) (by omega) (by omega) (congrArg Prod.fst e)).2))
    (fun x _ y _ e => by simp at e)
  have b := b1 k (List.mem_reverse.2 hmem)
  refine ⟨?_, ?_, b.1, b.2⟩
  · rw [b2 _ (by simp) (by simp)]
    exact (a1 k hmem).1
  · rw [b2 _ (by simp) (by simp)]
    exact (a1 k hmem).2

theorem init_get (n k : Nat) (hk : k < n) : Dict.get? ((names n).foldl (fun d x => Dict.set d x ([] : List String)) []) (laneName k) = some [] := by
  have hn : ((names n).map id).Nodup := by
    rw [List.map_id]
    exact List.nodup_reverse.2 (nodup_laneName n 0)
  exact (Simple.foldl_set_get (fun x : String => x) (fun _ => ([] : List String)) (names n) [] hn).1 (laneName k)
    (List.mem_reverse.2 (List.mem_map.2 ⟨k, List.mem_range.2 hk, rfl⟩))

theorem leftDict_get (n k : Nat) (hk : k < n) :
    Dict.get? (leftDict (names n)) (laneName k) = some (if k + 1 < n then [laneName (k + 1)] else []) := by
  unfold leftDict
  rw [pairs_eq, List.reverse_reverse, List.foldl_map]
  obtain ⟨h1, h2⟩ := Simple.foldl_set_get (fun k : Nat => laneName k) (fun k : Nat => [laneName (k + 1)]) (List.range (n - 1))
    ((names n).foldl (fun d x => Dict.set d x ([] : List String)) []) (nodup_laneName (n - 1) 0)
  by_cases h : k + 1 < n
  · rw [if_pos h]
    exact h1 k (List.mem_range.2 (by omega))
  · rw [if_neg h, ← init_get n k hk]
    apply h2
    intro hm
    obtain ⟨j, hj, e⟩ := List.mem_map.1 hm
    have := List.mem_range.1 hj
    have := laneName_inj _ _ e
    omega

theorem rightDict_get (n k : Nat) (hk : k < n) :
    Dict.get? (rightDict (names n)) (laneName k) = some (if 0 < k then [laneName (k - 1)] else []) := by
  unfold rightDict
  rw [pairs_eq, ← List.map_reverse, List.foldl_map]
  obtain ⟨h1, h2⟩ := Simple.foldl_set_get (fun k : Nat => laneName (k + 1)) (fun k : Nat => [laneName k]) (List.range (n - 1)).reverse
    ((names n).foldl (fun d x => Dict.set d x ([] : List String)) []) (by
      rw [List.map_reverse]
      exact List.nodup_reverse.2 (nodup_laneName (n - 1) 1))
  by_cases h : 0 < k
  · rw [if_pos h]
    have := h1 (k - 1) (List.mem_reverse.2 (List.mem_range.2 (by omega)))
    rwa [show k - 1 + 1 = k by omega] at this
  · rw [if_neg h, ← init_get n k hk]
    apply h2
    intro hm
    obtain ⟨j, hj, e⟩ := List.mem_map.1 hm
    have := laneName_inj _ _ e
    omega

theorem mapM_exists {α β ε : Type} (f : α → Except ε β) (P : α → β → Prop) (l : List α) (h : ∀ x ∈ l, ∃ y, f x = .ok y ∧ P x y) :
    ∃ r, l.mapM f = .ok r ∧ List.Forall₂ P l r := by
  induction l with
  | nil => exact ⟨[], rfl, .nil⟩
  | cons a l ih =>
    obtain ⟨r, hr, hp⟩ := ih (fun x hx => h x (by simp [hx]))
    obtain ⟨y, hy, hq⟩ := h a (by simp)
    refine ⟨y :: r, ?_, .cons hq hp⟩
    rw [List.mapM_cons, hy, hr]
    rfl

theorem columns {α : Type} (P : α → Piece → Prop) (i : Nat) (l : List α) (rows : List (List Piece))
    (h : List.Forall₂ (fun x q => ∃ p, q[i]? = some p ∧ P x p) l rows) : List.Forall₂ P l (rows.filterMap fun q => q[i]?) := by
  induction h with
  | nil => exact .nil
  | cons h _ ih =>
    obtain ⟨p, hp, hq⟩ := h
    rw [List.filterMap_cons_some (f := fun q : List Piece => q[i]?) hp]
    exact .cons hq ih

/-- The geometries of the roads of a map, with their roads. -/
def geometries (roads : List Road) : List (Geometry × Road) := roads.flatMap fun r => r.geometry.map fun g => (g, r)

/-- **C96**, lanes to the left (partial: the lanes are listed from the reference line outwards and are all to drive or walk on, and the sum of their widths is less than the
radius of the curve). Each lane to drive on gets a segment, of its width, that follows the reference line at the distance of the middle of the lane. -/
theorem C96_left_partial (g : Geometry) (left right : List LaneEl) (hg : Known g) (hp : PlainSide left) (hf : Fits g left) :
    ∃ P Q, geometryPieces g left right = .ok (P, Q) ∧
      List.Forall₂ (fun e p => Follows g (laneOffset left e) e.a p) (driving left) P :=
  left_follows g left right hg hp hf

/-- **C96**, lanes to the right (partial: as above, on lines and curves to the left). -/
theorem C96_right_partial (g : Geometry) (left right : List LaneEl) (hg : Known g) (hp : PlainSide right) (hf : ∀ k, g.shape = .arc k → 0 < k) :
    ∃ P Q, geometryPieces g left right = .ok (P, Q) ∧
      List.Forall₂ (fun e p => Follows g (-laneOffset right e) e.a p) (driving right) Q :=
  right_follows g left right hg hp hf

theorem map_full (roads : List Road) (n : Nat) (hne : ∃ r ∈ roads.dropLast, r.geometry ≠ [])
    (h : ∀ r ∈ roads.dropLast, PlainSide r.left ∧ (driving r.left).length = n ∧ driving r.right = [] ∧ ∀ g ∈ r.geometry, Known g ∧ Fits g r.left) :
    ∃ m, openDriveMap roads = .ok m ∧ m.lanes.map Prod.fst = ((List.range n).map fun k => "T" ++ toString k).reverse ∧
      (∀ k < n, (∃ segs, Dict.get? m.lanes ("T" ++ toString k) = some segs ∧
          List.Forall₂ (fun gr p => ∃ e, (driving gr.2.left)[k]? = some e ∧ Follows gr.1 (laneOffset gr.2.left e) e.a p)
            (geometries roads.dropLast) segs) ∧
        Dict.get? m.left ("T" ++ toString k) = some (if k + 1 < n then ["T" ++ toString (k + 1)] else []) ∧
        Dict.get? m.right ("T" ++ toString k) = some (if 0 < k then ["T" ++ toString (k - 1)] else [])) ∧
      (n ≤ 10 → ∀ k, k + 1 < n →
        (∃ v, Dict.get? m.h ("T" ++ toString k, "Normal", "SwitchLeft") = some v ∧
          Dict.get? m.h (v, "SwitchLeft", "Normal") = some ("T" ++ toString (k + 1))) ∧
        ∃ v, Dict.get? m.h ("T" ++ toString (k + 1), "Normal", "SwitchRight") = some v ∧
          Dict.get? m.h (v, "SwitchRight", "Normal") = some ("T" ++ toString k)) ∧ m.h = hDict (names n) := by
  have hit : ∀ x ∈ geometries roads.dropLast, ∃ y, geometryPieces x.1 x.2.left x.2.right = .ok y ∧ (y.1.length = n ∧ y.2 = []) ∧
      List.Forall₂ (fun e p => Follows x.1 (laneOffset x.2.left e) e.a p) (driving x.2.left) y.1 := by
    intro x hx
    obtain ⟨r, hr, hx'⟩ := List.mem_flatMap.1 hx
    obtain ⟨g, hg, rfl⟩ := List.mem_map.1 hx'
    obtain ⟨h1, h2, h3, h4⟩ := h r hr
    obtain ⟨P, Q, hpq, hf⟩ := left_follows g r.left r.right (h4 g hg).1 h1 (h4 g hg).2
    have hl := geometryPieces_length g _ _ P Q hpq
    refine ⟨(P, Q), hpq, ⟨hl.1.trans h2, ?_⟩, hf⟩
    rw [h3] at hl
    exact List.eq_nil_of_length_eq_zero hl.2
  obtain ⟨rows, hrows, hF⟩ := mapM_exists (fun gr : Geometry × Road => geometryPieces gr.1 gr.2.left gr.2.right) _ _ hit
  have hrn : rows ≠ [] := by
    obtain ⟨r, hr, hg⟩ := hne
    obtain ⟨g, hg⟩ := List.exists_mem_of_ne_nil _ hg
    intro h0
    subst h0
    have : (g, r) ∈ geometries roads.dropLast := List.mem_flatMap.2 ⟨r, hr, List.mem_map.2 ⟨g, hg, rfl⟩⟩
    rw [List.forall₂_nil_right_iff.1 hF] at this
    simp at this
  have hlen : ∀ y ∈ rows, y.1.length = n ∧ y.2 = [] := by
    intro y hy
    obtain ⟨x, _, hx⟩ := forall₂_mem_right hF hy
    exact hx.1
  have hL : condense (rows.map Prod.fst) true = .ok ((List.range n).map fun i => (rows.map Prod.fst).filterMap fun q => q[i]?) := by
    obtain ⟨y, ys, rfl⟩ := List.exists_cons_of_ne_nil hrn
    have hy := (hlen y (by simp)).1
    have hall : (ys.map Prod.fst).all (fun q => decide (q.length = n)) = true := by
      rw [List.all_eq_true]
      intro q hq
      obtain ⟨z, hz, rfl⟩ := List.mem_map.1 hq
      simpa using (hlen z (by simp [hz])).1
    unfold condense
    simp only [List.map_cons, hy, hall, if_true]
    by_cases h0 : n = 0
    · simp [h0]
    · simp only [h0, if_false]
  have hR : condense (rows.map Prod.snd) false = .ok [] := by
    obtain ⟨y, ys, rfl⟩ := List.exists_cons_of_ne_nil hrn
    have hy := (hlen y (by simp)).2
    have hall : (ys.map Prod.snd).all (fun q => decide (q.length = 0)) = true := by
      rw [List.all_eq_true]
      intro q hq
      obtain ⟨z, hz, rfl⟩ := List.mem_map.1 hq
      simpa using (hlen z (by simp [hz])).2
    unfold condense
    simp only [List.map_cons, hy, List.length_nil, hall, if_true]
  set cols := (List.range n).map fun i => (rows.map Prod.fst).filterMap fun q => q[i]? with hcols
  have hcl : cols.length = n := by simp [hcols]
  set named := ((List.range cols.length).zip cols).map fun x => (laneName x.1, x.2) with hnamed
  have hnf : named.map Prod.fst = (List.range n).map laneName := by
    rw [hnamed, List.map_map, show (Prod.fst ∘ fun x : Nat × List Piece => (laneName x.1, x.2)) = laneName ∘ Prod.fst from rfl, ← List.map_map,
      List.map_fst_zip (by simp), hcl]
  have hnr : (named.reverse).map Prod.fst = names n := by rw [List.map_reverse, hnf, names]
  have hnd : ((named.reverse).map Prod.fst).Nodup := by
    rw [hnr]
    exact List.nodup_reverse.2 (nodup_laneName n 0)
  refine ⟨⟨named.reverse, hDict (names n), leftDict (names n), rightDict (names n)⟩, ?_, ?_, ?_, ?_, rfl⟩
  · unfold openDriveMap roadTraverser
    have hrows' : ((roads.dropLast.flatMap fun r => r.geometry.map fun g => (g, r)).mapM
      fun gr => geometryPieces gr.1 gr.2.left gr.2.right) = .ok rows := hrows
    rw [hrows']
    simp only [Except.bind, hL, hR]
    simp only [List.length_nil, List.range_zero, List.zip_nil_right, List.map_nil, List.append_nil, ← hnamed, hnr]
    rw [Simple.foldl_set_nodup _ _ (by simpa using hnd), List.nil_append]
  · rw [hnr]
    rfl
  · intro k hk
    refine ⟨⟨(rows.map Prod.fst).filterMap fun q => q[k]?, ?_, ?_⟩, leftDict_get n k hk, rightDict_get n k hk⟩
    · apply Dict.get?_of_mem hnd
      rw [List.mem_reverse, hnamed, List.mem_map]
      refine ⟨(k, (rows.map Prod.fst).filterMap fun q => q[k]?), ?_, rfl⟩
      rw [List.mem_iff_getElem]
      refine ⟨k, by simp [hcl, hk], ?_⟩
      simp [hcols]
    · apply columns
      rw [List.forall₂_map_right_iff]
      refine hF.imp ?_
      intro x y hxy
      obtain ⟨⟨hy, _⟩, hf⟩ := hxy
      have hk' : k < y.1.length := hy ▸ hk
      have hk'' : k < (driving x.2.left).length := by
        rw [hf.length_eq]
        exact hk'
      exact ⟨y.1[k], List.getElem?_eq_getElem hk', _, List.getElem?_eq_getElem hk'', hf.get hk'' hk'⟩
  · intro hn k hk
    obtain ⟨h1, h2, h3, h4⟩ := hDict_get n hn k hk
    exact ⟨⟨_, h1, h2⟩, _, h3, h4⟩

/-- **C96**, the map (partial: no lanes to drive on to the right, the same number of lanes to drive on to the left of all roads but the last, which is ignored). The map has
these lanes, numbered outwards, and each consists of one segment for each geometry, in order, that follows it in the middle of that lane. Their neighbours in the
map are their neighbours on the road, and (with at most ten lanes) so are the lanes that changing lanes leads to. -/
theorem C96_map_partial (roads : List Road) (n : Nat) (hne : ∃ r ∈ roads.dropLast, r.geometry ≠ [])
    (h : ∀ r ∈ roads.dropLast, PlainSide r.left ∧ (driving r.left).length = n ∧ driving r.right = [] ∧ ∀ g ∈ r.geometry, Known g ∧ Fits g r.left) :
    ∃ m, openDriveMap roads = .ok m ∧ m.lanes.map Prod.fst = ((List.range n).map fun k => "T" ++ toString k).reverse ∧
      (∀ k < n, (∃ segs, Dict.get? m.lanes ("T" ++ toString k) = some segs ∧
          List.Forall₂ (fun gr p => ∃ e, (driving gr.2.left)[k]? = some e ∧ Follows gr.1 (laneOffset gr.2.left e) e.a p)
            (geometries roads.dropLast) segs) ∧
        Dict.get? m.left ("T" ++ toString k) = some (if k + 1 < n then ["T" ++ toString (k + 1)] else []) ∧
        Dict.get? m.right ("T" ++ toString k) = some (if 0 < k then ["T" ++ toString (k - 1)] else [])) ∧
      (n ≤ 10 → ∀ k, k + 1 < n →
        (∃ v, Dict.get? m.h ("T" ++ toString k, "Normal", "SwitchLeft") = some v ∧
          Dict.get? m.h (v, "SwitchLeft", "Normal") = some ("T" ++ toString (k + 1))) ∧
        ∃ v, Dict.get? m.h ("T" ++ toString (k + 1), "Normal", "SwitchRight") = some v ∧
          Dict.get? m.h (v, "SwitchRight", "Normal") = some ("T" ++ toString k)) := by
  obtain ⟨m, h1, h2, h3, h4, _⟩ := map_full roads n hne h
  exact ⟨m, h1, h2, h3, h4⟩

/-- **C96**, segments join (partial: the lanes of both geometries are equally far from the reference line). Where the reference line goes on, at the end of a geometry, in the
same direction, the segments of a lane join, with their whole widths. -/
theorem C96_joined_partial (g g' : Geometry) (hj : Joined g g') (d w w' : ℝ) (p p' : Piece) (hp : Follows g d w p)
    (hp' : Follows g' d w' p') (r : ℝ) : p.position p.length r = p'.position 0 r := by
  have h1 := hp.2.2 1 r
  have h2 := hp'.2.2 0 r
  rw [one_mul, one_mul] at h1
  rw [zero_mul, zero_mul] at h2
  rw [h1, h2]
  obtain ⟨hxy, n, hh⟩ := hj
  have hs : sin g'.hdg = sin (refHeading g g.length) := by
    rw [hh, show 2 * π * n = n * (2 * π) by ring, Real.sin_add_int_mul_two_pi]
  have hc : cos g'.hdg = cos (refHeading g g.length) := by
    rw [hh, show 2 * π * n = n * (2 * π) by ring, Real.cos_add_int_mul_two_pi]
  have h0 : refPoint g' 0 = (g'.x, g'.y) ∧ refHeading g' 0 = g'.hdg := by
    unfold refPoint refHeading
    cases g'.shape <;> simp
  unfold besideRef
  rw [h0.1, h0.2, hs, hc, hxy]

/-- A road with a line, a curve to the left and a curve to the right, a sidewalk and two lanes. -/
noncomputable def someRoad : Road where
  geometry := [⟨0, 0, 0, 10, .line⟩, ⟨10, 0, 0, 5, .arc (1 / 50)⟩, ⟨20, 1, 1, 5, .arc (-1 / 50)⟩]
  left := [⟨1, "sidewalk", 2⟩, ⟨2, "driving", 3⟩, ⟨3, "driving", 4⟩]
  right := []

theorem someRoad_plain : PlainSide someRoad.left := by
  refine ⟨by simp [someRoad], ?_⟩
  intro e he
  simp only [someRoad, List.mem_cons, List.not_mem_nil, or_false] at he
  rcases he with rfl | rfl | rfl <;> norm_num

theorem someRoad_known : ∀ g ∈ someRoad.geometry, Known g ∧ Fits g someRoad.left := by
  intro g hg
  simp only [someRoad, List.mem_cons, List.not_mem_nil, or_false] at hg
  rcases hg with rfl | rfl | rfl
  · exact ⟨⟨by norm_num, trivial⟩, fun k hk => by simp at hk⟩
  · refine ⟨⟨by norm_num, by norm_num⟩, fun k hk => ?_⟩
    simp only [Shape.arc.injEq] at hk
    subst hk
    norm_num [someRoad, abs_of_pos]
  · refine ⟨⟨by norm_num, by norm_num⟩, fun k hk => ?_⟩
    simp only [Shape.arc.injEq] at hk
    subst hk
    norm_num [someRoad, abs_of_neg]

example : ∃ r ∈ [someRoad, someRoad].dropLast, r.geometry ≠ [] := ⟨someRoad, by simp, by simp [someRoad]⟩

example : ∀ r ∈ [someRoad, someRoad].dropLast, PlainSide r.left ∧ (driving r.left).length = 2 ∧ driving r.right = [] ∧
    ∀ g ∈ r.geometry, Known g ∧ Fits g r.left := by
  intro r hr
  simp only [List.dropLast_cons₂, List.dropLast_singleton, List.mem_cons, List.not_mem_nil, or_false] at hr
  subst hr
  exact ⟨someRoad_plain, by simp [someRoad, driving], rfl, someRoad_known⟩

/-- The two lanes of that road are 3.5 and 7 to the left of the reference line. -/
example : (driving someRoad.left).map (laneOffset someRoad.left) = [7 / 2, 7] := by
  have hd : driving someRoad.left = [⟨2, "driving", 3⟩, ⟨3, "driving", 4⟩] := by simp [someRoad, driving]
  rw [hd]
  norm_num [someRoad, laneOffset]

example : Spec.Joined ⟨0, 0, 0, 10, .line⟩ ⟨10, 0, 0, 5, .arc (1 / 50)⟩ := ⟨by simp [refPoint], 0, by simp [refHeading]⟩

/-- **C96**, lanes to the right, violated: no map is made from roads with a lane to drive on to the right. -/
theorem C96_right_violated : (∀ roads m, openDriveMap roads = .ok m → ∀ r ∈ roads.dropLast, r.geometry ≠ [] → driving r.right = []) ∧
    ∃ r : Road, r.geometry ≠ [] ∧ (∀ g ∈ r.geometry, Known g ∧ Fits g r.left ∧ Fits g r.right) ∧ PlainSide r.left ∧ PlainSide r.right ∧
      ∀ m, openDriveMap [r, r] ≠ .ok m := by
  have key : ∀ roads m, openDriveMap roads = .ok m → ∀ r ∈ roads.dropLast, r.geometry ≠ [] → driving r.right = [] := by
    intro roads m hm r hr hg
    obtain ⟨rows, h1, h2⟩ := (bind_ok_iff _ _ _).1 hm
    obtain ⟨L, _, h4⟩ := (bind_ok_iff _ _ _).1 h2
    obtain ⟨R, h5, _⟩ := (bind_ok_iff _ _ _).1 h4
    have hF := (mapM_ok_iff _ _ _).1 h1
    obtain ⟨g, hg⟩ := List.exists_mem_of_ne_nil _ hg
    have hmem : (g, r) ∈ roads.dropLast.flatMap fun r => r.geometry.map fun g => (g, r) :=
      List.mem_flatMap.2 ⟨r, hr, List.mem_map.2 ⟨g, hg, rfl⟩⟩
    obtain ⟨y, hy, hgp⟩ := forall₂_mem_left hF hmem
    have hlen := (geometryPieces_length g _ _ y.1 y.2 hgp).2
    have hy2 : y.2 ∈ rows.map Prod.snd := List.mem_map.2 ⟨y, hy, rfl⟩
    have h0 : y.2.length = 0 := by
      revert h5 hy2
      generalize rows.map Prod.snd = q
      intro h5 hy2
      unfold condense at h5
      cases q with
      | nil => simp at h5
      | cons a q =>
        simp only at h5
        split at h5
        · rename_i hall
          split at h5
          · rename_i ha
            rcases List.mem_cons.1 hy2 with e | e
            · rw [e, ha]
            · have := List.all_eq_true.1 hall y.2 e
              rw [of_decide_eq_true this, ha]
          · simp at h5
        · simp at h5
    exact List.eq_nil_of_length_eq_zero (hlen ▸ h0)
  refine ⟨key, ⟨[⟨0, 0, 0, 10, .line⟩], [⟨1, "driving", 3⟩], [⟨-1, "driving", 3⟩]⟩, by simp, ?_, ?_, ?_, ?_⟩
  · intro g hg
    simp only [List.mem_singleton] at hg
    subst hg
    exact ⟨⟨by norm_num, trivial⟩, fun k hk => by simp at hk, fun k hk => by simp at hk⟩
  · exact ⟨by simp, by simp⟩
  · exact ⟨by simp, by simp⟩
  · intro m hm
    have := key _ m hm ⟨[⟨0, 0, 0, 10, .line⟩], [⟨1, "driving", 3⟩], [⟨-1, "driving", 3⟩]⟩ (by simp) (by simp)
    simp [driving] at this

/-- **C96**, lanes to the right of a curve to the right, violated: all their segments have negative lengths. -/
theorem C96_curve_violated (g : Geometry) (k : ℝ) (hs : g.shape = .arc k) (hk : k < 0) (hL : 0 < g.length) (left right : List LaneEl)
    (hp : PlainSide right) (hf : Fits g right) :
    ∃ P Q, geometryPieces g left right = .ok (P, Q) ∧ Q.length = (driving right).length ∧ ∀ p ∈ Q, p.length < 0 := by
  obtain ⟨s, _, _, hgp⟩ := arc_right g k hs hk hL left right
  refine ⟨_, _, hgp, arcSide_length _ _ _ _ _ _ _, ?_⟩
  intro p hm
  have h1 := arcSide_eq (g.x - sin g.hdg / k, g.y + cos g.hdg / k) s (s + g.length * k) false (-1) (-(1 / k)) 0 right (fun e he => (hp.2 e he).2)
  have h2 := offs_eq [] right (by simpa using hp.1)
  simp only [List.map_nil, List.sum_nil, List.nil_append] at h2
  rw [mul_zero, add_zero] at h1
  rw [h1, h2, List.map_map] at hm
  obtain ⟨e, he, rfl⟩ := List.mem_map.1 hm
  have hb := (laneOffset_bounds right hp e (List.mem_of_mem_filter he)).2
  have hF := hf k hs
  rw [abs_of_neg hk, one_div_neg_eq_neg_one_div] at hF
  simp only [Function.comp, Piece.length, Circular.length, Circular.direction, Bool.false_eq_true, if_false, add_sub_cancel_left, mul_one]
  have h3 : g.length * k < 0 := mul_neg_of_pos_of_neg hL hk
  have h4 : 0 < -(1 / k) + -1 * laneOffset right e := by linarith
  exact mul_neg_of_pos_of_neg h4 h3

example : PlainSide [⟨-1, "driving", 3⟩] ∧ Fits ⟨20, 1, 1, 5, .arc (-1 / 50)⟩ [⟨-1, "driving", 3⟩] := by
  refine ⟨⟨by simp, by simp⟩, fun k hk => ?_⟩
  simp only [Shape.arc.injEq] at hk
  subst hk
  norm_num [abs_of_neg]

/-- **C96**, roads, violated: the last road has no influence on the map, and a file with one road makes no map. -/
theorem C96_last_violated : (∀ roads r r', openDriveMap (roads ++ [r]) = openDriveMap (roads ++ [r'])) ∧ ∀ r m, openDriveMap [r] ≠ .ok m := by
  refine ⟨fun roads r r' => by unfold openDriveMap; rw [List.dropLast_concat, List.dropLast_concat], ?_⟩
  intro r m h
  obtain ⟨rows, h1, h2⟩ := (bind_ok_iff _ _ _).1 h
  obtain ⟨L, h3, _⟩ := (bind_ok_iff _ _ _).1 h2
  have := List.forall₂_nil_left_iff.1 ((mapM_ok_iff _ _ _).1 h1)
  subst this
  simp [condense] at h3

theorem line_piece (L : List LaneEl) (e : LaneEl) (es : List LaneEl) (acc : ℝ) (he : e.typ = "driving")
    (h : straightSide (0, 0) (1, 0) (0, 1) 0 L = straightSide (0, 0) (1, 0) (0, 1) acc (e :: es)) :
    ∃ P Q p, geometryPieces ⟨0, 0, 0, 1, .line⟩ L [] = .ok (p :: P, Q) ∧ (p.position 0 0).2 = acc + e.a / 2 := by
  have hn : ((-((0 : ℝ) + sin 0 * 1 - 0)) / sqrt ((0 + cos 0 * 1 - 0) ^ 2 + (0 + sin 0 * 1 - 0) ^ 2),
      (0 + cos 0 * 1 - 0) / sqrt ((0 + cos 0 * 1 - 0) ^ 2 + (0 + sin 0 * 1 - 0) ^ 2)) = ((0 : ℝ), (1 : ℝ)) := by
    simp
  have hf : ((0 : ℝ) + cos 0 * 1, (0 : ℝ) + sin 0 * 1) = (1, 0) := by simp
  refine ⟨straightSide (0, 0) (1, 0) (0, 1) (acc + 1 / 2 * e.a - 1 / 2 * e.a + e.a) es, [], .straight (Straight.new
    (0 + (acc + 1 / 2 * e.a) * 0, 0 + (acc + 1 / 2 * e.a) * 1) (1 + (acc + 1 / 2 * e.a) * 0, 0 + (acc + 1 / 2 * e.a) * 1)) e.a, ?_, ?_⟩
  · unfold geometryPieces
    simp only [hn, hf, h]
    conv_lhs => unfold straightSide
    simp only [he, String.reduceEq, if_false, if_true]
  · simp only [Piece.position, Straight.position, Straight.new]
    ring

/-- **C96**, other lanes, violated: the width of a shoulder is not counted, so that the lane beside it is made 1 instead of 3 away from the reference
line. -/
theorem C96_shoulder_violated : ∃ P Q p, geometryPieces ⟨0, 0, 0, 1, .line⟩ [⟨1, "shoulder", 2⟩, ⟨2, "driving", 2⟩] [] = .ok (p :: P, Q) ∧
    (p.position 0 0).2 = 1 ∧ laneOffset [⟨1, "shoulder", 2⟩, ⟨2, "driving", 2⟩] ⟨2, "driving", 2⟩ = 3 := by
  obtain ⟨P, Q, p, h1, h2⟩ := line_piece [⟨1, "shoulder", 2⟩, ⟨2, "driving", 2⟩] ⟨2, "driving", 2⟩ [] 0 rfl (by
    conv_lhs => unfold straightSide
    simp)
  exact ⟨P, Q, p, h1, by rw [h2]; norm_num, by norm_num [laneOffset]⟩

/-- **C96**, the order of lanes, violated: where the outermost lane is listed first, as in the files that are part of the repository, it is taken for the innermost. -/
theorem C96_order_violated : ∃ P Q p, geometryPieces ⟨0, 0, 0, 1, .line⟩ [⟨2, "driving", 2⟩, ⟨1, "driving", 4⟩] [] = .ok (p :: P, Q) ∧
    (p.position 0 0).2 = 1 ∧ laneOffset [⟨2, "driving", 2⟩, ⟨1, "driving", 4⟩] ⟨2, "driving", 2⟩ = 5 := by
  obtain ⟨P, Q, p, h1, h2⟩ := line_piece [⟨2, "driving", 2⟩, ⟨1, "driving", 4⟩] ⟨2, "driving", 2⟩ [⟨1, "driving", 4⟩] 0 rfl rfl
  exact ⟨P, Q, p, h1, by rw [h2]; norm_num, by norm_num [laneOffset]⟩

/-- **C96**, changing lanes, violated: with twelve lanes, changing to the left from the first leads to the last. -/
theorem C96_switch_violated : ∃ roads m, openDriveMap roads = .ok m ∧ (m.lanes.map Prod.fst).length = 12 ∧
    ∃ v, Dict.get? m.h ("T0", "Normal", "SwitchLeft") = some v ∧ Dict.get? m.h (v, "SwitchLeft", "Normal") = some "T11" := by
  have hpl : PlainSide ((List.range 12).map fun i : Nat => ⟨(i : Int) + 1, "driving", 1⟩) := by
    refine ⟨?_, ?_⟩
    · rw [List.pairwise_map]
      refine List.pairwise_lt_range.imp ?_
      intro a b hab
      simp only
      rw [abs_of_nonneg (by omega), abs_of_nonneg (by omega)]
      omega
    · intro e he
      obtain ⟨i, _, rfl⟩ := List.mem_map.1 he
      simp
  have hd : (driving ((List.range 12).map fun i : Nat => ⟨(i : Int) + 1, "driving", 1⟩)).length = 12 := by
    rw [driving, List.filter_eq_self.2]
    · simp
    · intro e he
      obtain ⟨i, _, rfl⟩ := List.mem_map.1 he
      simp
  let r : Road := ⟨[⟨0, 0, 0, 1, .line⟩], (List.range 12).map fun i : Nat => ⟨(i : Int) + 1, "driving", 1⟩, []⟩
  obtain ⟨m, h1, h2, _, _, h5⟩ := map_full [r, r] 12 ⟨r, by simp, by simp [r]⟩ (by
    intro q hq
    simp only [List.dropLast_cons₂, List.dropLast_singleton, List.mem_cons, List.not_mem_nil, or_false] at hq
    subst hq
    refine ⟨hpl, hd, rfl, ?_⟩
    intro g hg
    simp only [r, List.mem_singleton] at hg
    subst hg
    exact ⟨⟨by norm_num, trivial⟩, fun k hk => by simp at hk⟩)
  refine ⟨[r, r], m, h1, by rw [h2]; simp, "M01", ?_, ?_⟩
  · rw [h5]
    decide +kernel
  · rw [h5]
    decide +kernel

end Verif.Props
