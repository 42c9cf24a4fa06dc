import Verif.Proofs.DrawMap

/-! C109: pictures of maps. -/

set_option autoImplicit false

namespace Verif.Props
open Verif.Lane Verif.DrawMap Verif.DrawMap.Spec

private theorem segs_spec (f : Fill) (limit : Option ℝ) (c : Option Int) : ∀ (segs : List Seg) (p p' : Pic), segs.foldlM (drawSeg f limit c) p = .ok p' →
    (∀ a, a ∈ p'.areas ↔ a ∈ p.areas ∨ ∃ s ∈ segs, ∃ cs, trace s = some cs ∧ a ∈ area f limit c s cs) ∧
    (∀ s ∈ segs, ∃ cs, trace s = some cs ∧ ∀ q ∈ cs, Plot.Spec.Visible p'.xr q.1 ∧ Plot.Spec.Visible p'.yr q.2) ∧
    (∀ v, Plot.Spec.Visible p.xr v → Plot.Spec.Visible p'.xr v) ∧ (∀ v, Plot.Spec.Visible p.yr v → Plot.Spec.Visible p'.yr v) := by
  intro segs
  induction segs with
  | nil =>
    intro p p' h
    cases h
    exact ⟨fun a => by simp, by simp, fun v h => h, fun v h => h⟩
  | cons s segs ih =>
    intro p p' h
    obtain ⟨p1, h1, h2⟩ := (foldlM_cons_ok _ _ _ _ _).1 h
    obtain ⟨i1, i2, i3, i4⟩ := ih p1 p' h2
    unfold drawSeg at h1
    cases ht : trace s with
    | none => rw [ht] at h1; cases h1
    | some cs =>
      rw [ht] at h1
      cases h1
      refine ⟨?_, ?_, fun v hv => i3 v (Plot.widen_mono _ _ _ hv), fun v hv => i4 v (Plot.widen_mono _ _ _ hv)⟩
      · intro a
        rw [i1]
        simp only [List.mem_append, List.mem_cons, exists_eq_or_imp, ht, Option.some.injEq, exists_eq_left', or_assoc]
      · intro s' hs'
        rcases List.mem_cons.1 hs' with rfl | hs'
        · exact ⟨cs, ht, fun q hq => ⟨i3 _ (Plot.widen_mem _ _ _ (List.mem_map_of_mem hq)), i4 _ (Plot.widen_mem _ _ _ (List.mem_map_of_mem hq))⟩⟩
        · exact i2 s' hs'

private theorem lanes_spec (f : Fill) (lo hi : ℝ) : ∀ (lanes : List DLane) (p p' : Pic), lanes.foldlM (drawLane f lo hi) p = .ok p' →
    (∀ a, a ∈ p'.areas ↔ a ∈ p.areas ∨ ∃ l ∈ lanes, ∃ c, laneShade f lo hi l.limit = .ok c ∧ ∃ s ∈ l.segs, ∃ cs, trace s = some cs ∧ a ∈ area f l.limit c s cs) ∧
    (∀ l ∈ lanes, (∃ c, laneShade f lo hi l.limit = .ok c) ∧ ∀ s ∈ l.segs, ∃ cs, trace s = some cs ∧ ∀ q ∈ cs, Plot.Spec.Visible p'.xr q.1 ∧ Plot.Spec.Visible p'.yr q.2) ∧
    (∀ v, Plot.Spec.Visible p.xr v → Plot.Spec.Visible p'.xr v) ∧ (∀ v, Plot.Spec.Visible p.yr v → Plot.Spec.Visible p'.yr v) := by
  intro lanes
  induction lanes with
  | nil =>
    intro p p' h
    cases h
    exact ⟨fun a => by simp, by simp, fun v h => h, fun v h => h⟩
  | cons l lanes ih =>
    intro p p' h
    obtain ⟨p1, h1, h2⟩ := (foldlM_cons_ok _ _ _ _ _).1 h
    obtain ⟨i1, i2, i3, i4⟩ := ih p1 p' h2
    obtain ⟨c, hc, h1⟩ := (bind_ok_iff _ _ _).1 h1
    obtain ⟨j1, j2, j3, j4⟩ := segs_spec f l.limit c l.segs p p1 h1
    refine ⟨?_, ?_, fun v hv => i3 v (j3 v hv), fun v hv => i4 v (j4 v hv)⟩
    · intro a
      rw [i1, j1]
      simp only [List.mem_cons, exists_eq_or_imp, hc, Except.ok.injEq, exists_eq_left', or_assoc]
    · intro l' hl'
      rcases List.mem_cons.1 hl' with rfl | hl'
      · refine ⟨⟨c, hc⟩, fun s hs => ?_⟩
        obtain ⟨cs, g1, g2⟩ := j2 s hs
        exact ⟨cs, g1, fun q hq => ⟨i3 _ (g2 q hq).1, i4 _ (g2 q hq).2⟩⟩
      · exact i2 l' hl'

private theorem drawMap_lanes (f : Fill) (lanes : List DLane) (pic : Pic) (h : drawMap f lanes = .ok pic) :
    ∃ lo hi, lanes.foldlM (drawLane f lo hi) ⟨[], none, none⟩ = .ok pic ∧
      (f = .detailed → ∃ s l, limits lanes = s :: l ∧ lo = l.foldl min s ∧ hi = l.foldl max s) := by
  unfold drawMap at h
  split at h
  · cases h
  · rename_i s l hl
    exact ⟨_, _, h, fun _ => ⟨s, l, hl, rfl, rfl⟩⟩
  · rename_i h1 h2
    refine ⟨0, 0, h, ?_⟩
    rintro rfl
    cases hl : limits lanes with
    | nil => exact absurd hl (h1 rfl)
    | cons s l => exact absurd hl (h2 s l rfl)

private theorem area_corners {f : Fill} {limit : Option ℝ} {c : Option Int} {s : Seg} {cs : List (ℝ × ℝ)} {a : Area} (h : a ∈ area f limit c s cs) : a.corners = cs := by
  unfold area at h
  split at h <;> simp only [List.mem_singleton, List.not_mem_nil] at h <;> subst h <;> rfl

/-- **C109**: a picture of a map with lines or filled areas shows every segment of every lane: a straight one by the rectangle of its points, a circular one by a line that follows
its edges; and nothing else, and all of it is within the ranges of the axes. With `"detailed"` this holds for lanes with a speed limit and for straight segments.

Missing: circular segments of lanes without speed limit (`C109_arc_violated`). -/
theorem C109_shown_partial (f : Fill) (lanes : List DLane) (pic : Pic) (h : drawMap f lanes = .ok pic) :
    (∀ l ∈ lanes, ∀ s ∈ l.segs, f = .lines ∨ f = .fill ∨ (f = .detailed ∧ (l.limit ≠ none ∨ ∃ a b w, s = .straight a b w)) → ∃ a ∈ pic.areas, Shows s a.corners) ∧
    (∀ a ∈ pic.areas, (∃ l ∈ lanes, ∃ s ∈ l.segs, Shows s a.corners) ∧ ∀ q ∈ a.corners, Plot.Spec.Visible pic.xr q.1 ∧ Plot.Spec.Visible pic.yr q.2) := by
  obtain ⟨lo, hi, hf, _⟩ := drawMap_lanes f lanes pic h
  obtain ⟨i1, i2, _⟩ := lanes_spec f lo hi lanes _ _ hf
  constructor
  · intro l hl s hs hcase
    obtain ⟨⟨c, hc⟩, g⟩ := i2 l hl
    obtain ⟨cs, ht, _⟩ := g s hs
    have hex : ∃ a, a ∈ area f l.limit c s cs := by
      rcases hcase with rfl | rfl | ⟨rfl, hcase⟩
      · exact ⟨_, List.mem_singleton.2 rfl⟩
      · exact ⟨_, List.mem_singleton.2 rfl⟩
      · cases hlim : l.limit with
        | some v => exact ⟨⟨cs, true, c⟩, by simp [area]⟩
        | none =>
          rcases hcase with hn | ⟨a, b, w, rfl⟩
          · exact absurd hlim hn
          · exact ⟨⟨cs, false, none⟩, by simp [area]⟩
    obtain ⟨a, ha⟩ := hex
    refine ⟨a, (i1 a).2 (Or.inr ⟨l, hl, c, hc, s, hs, cs, ht, ha⟩), ?_⟩
    rw [area_corners ha]
    exact trace_shows s cs ht
  · intro a ha
    rcases (i1 a).1 ha with ha | ⟨l, hl, c, hc, s, hs, cs, ht, ha⟩
    · cases ha
    · obtain ⟨cs', ht', g⟩ := (i2 l hl).2 s hs
      rw [ht] at ht'; cases ht'
      rw [area_corners ha]
      exact ⟨⟨l, hl, s, hs, trace_shows s cs ht⟩, g⟩

private theorem foldl_min_spec (l : List ℝ) : ∀ s : ℝ, (l.foldl min s ∈ s :: l) ∧ ∀ v ∈ s :: l, l.foldl min s ≤ v := by
  induction l with
  | nil => intro s; simp
  | cons a l ih =>
    intro s
    obtain ⟨i1, i2⟩ := ih (min s a)
    rw [List.foldl_cons]
    refine ⟨?_, ?_⟩
    · rcases List.mem_cons.1 i1 with h | h
      · rw [h]
        rcases min_choice s a with h | h <;> rw [h] <;> simp
      · exact List.mem_cons_of_mem _ (List.mem_cons_of_mem _ h)
    · intro v hv
      rcases List.mem_cons.1 hv with rfl | hv
      · exact (i2 _ List.mem_cons_self).trans (min_le_left _ _)
      · rcases List.mem_cons.1 hv with rfl | hv
        · exact (i2 _ List.mem_cons_self).trans (min_le_right _ _)
        · exact i2 v (List.mem_cons_of_mem _ hv)

private theorem foldl_max_spec (l : List ℝ) : ∀ s : ℝ, (l.foldl max s ∈ s :: l) ∧ ∀ v ∈ s :: l, v ≤ l.foldl max s := by
  induction l with
  | nil => intro s; simp
  | cons a l ih =>
    intro s
    obtain ⟨i1, i2⟩ := ih (max s a)
    rw [List.foldl_cons]
    refine ⟨?_, ?_⟩
    · rcases List.mem_cons.1 i1 with h | h
      · rw [h]
        rcases max_choice s a with h | h <;> rw [h] <;> simp
      · exact List.mem_cons_of_mem _ (List.mem_cons_of_mem _ h)
    · intro v hv
      rcases List.mem_cons.1 hv with rfl | hv
      · exact (le_max_left _ _).trans (i2 _ List.mem_cons_self)
      · rcases List.mem_cons.1 hv with rfl | hv
        · exact (le_max_right _ _).trans (i2 _ List.mem_cons_self)
        · exact i2 v (List.mem_cons_of_mem _ hv)

private theorem mem_limits (lanes : List DLane) (v : ℝ) : v ∈ limits lanes ↔ v ≠ 0 ∧ ∃ l ∈ lanes, l.limit = some v := by
  unfold limits
  rw [List.mem_filter, List.mem_filterMap]
  constructor
  · rintro ⟨h1, h2⟩
    exact ⟨by simpa using h2, h1⟩
  · rintro ⟨h1, h2⟩
    exact ⟨h2, by simpa using h1⟩

private theorem trunc_mono {x y : ℝ} (h : x ≤ y) : trunc x ≤ trunc y := by
  unfold trunc
  split
  · rw [if_pos (by linarith)]
    exact Int.floor_mono h
  · rename_i hx
    split
    · rename_i hy
      exact (Int.ceil_le.2 (by push_cast; linarith : x ≤ ((0 : Int) : ℝ))).trans (Int.le_floor.2 (by push_cast; exact hy))
    · exact Int.ceil_mono h

private theorem trunc_int (n : Int) : trunc (n : ℝ) = n := by
  unfold trunc
  split
  · exact Int.floor_intCast n
  · exact Int.ceil_intCast n

/-- **C109**: in a detailed picture a lane with a higher speed limit is not lighter than one with a lower one; the lanes with the lowest limit are white and those with the highest
are black.

Missing: a speed limit of 0 (`C109_zero_violated`), and speed limits that are all equal (`C109_equal_violated`). -/
theorem C109_colours_partial (lanes : List DLane) (pic : Pic) (h : drawMap .detailed lanes = .ok pic) (h0 : ∀ l ∈ lanes, l.limit ≠ some 0) :
    ∃ shade : ℝ → Int, (∀ a b, a ≤ b → shade b ≤ shade a) ∧ ∀ l ∈ lanes, ∀ v, l.limit = some v →
      (∀ s ∈ l.segs, ∃ a ∈ pic.areas, Shows s a.corners ∧ a.filled = true ∧ a.shade = some (shade v)) ∧ 0 ≤ shade v ∧ shade v ≤ 255 ∧
      ((∀ l' ∈ lanes, ∀ v', l'.limit = some v' → v ≤ v') → shade v = 255) ∧ ((∀ l' ∈ lanes, ∀ v', l'.limit = some v' → v' ≤ v) → shade v = 0) := by
  obtain ⟨lo, hi, hf, hlim⟩ := drawMap_lanes _ lanes pic h
  obtain ⟨s0, ls, hl, rfl, rfl⟩ := hlim rfl
  obtain ⟨i1, i2, _⟩ := lanes_spec _ _ _ lanes _ _ hf
  obtain ⟨m1, m2⟩ := foldl_min_spec ls s0
  obtain ⟨M1, M2⟩ := foldl_max_spec ls s0
  rw [← hl] at m1 m2 M1 M2
  generalize hlo : ls.foldl min s0 = lo at *
  generalize hhi : ls.foldl max s0 = hi at *
  have hle : lo ≤ hi := m2 _ M1
  have hne : hi - lo ≠ 0 := by
    obtain ⟨_, l, hl, hv⟩ := (mem_limits lanes lo).1 m1
    obtain ⟨⟨c, hc⟩, _⟩ := i2 l hl
    intro he
    rw [hv] at hc
    simp only [laneShade, he, if_true] at hc
    cases hc
  have hpos : 0 < hi - lo := lt_of_le_of_ne (sub_nonneg.2 hle) (Ne.symm hne)
  refine ⟨fun v => trunc (255 + (v - lo) / (hi - lo) * (0 - 255)), ?_, ?_⟩
  · intro a b hab
    apply trunc_mono
    have : (a - lo) / (hi - lo) ≤ (b - lo) / (hi - lo) := div_le_div_of_nonneg_right (by linarith) hpos.le
    linarith
  · intro l hl v hv
    have hmem : v ∈ limits lanes := (mem_limits lanes v).2 ⟨fun h => h0 l hl (by rw [hv, h]), l, hl, hv⟩
    have q0 : 0 ≤ (v - lo) / (hi - lo) := div_nonneg (by linarith [m2 v hmem]) hpos.le
    have q1 : (v - lo) / (hi - lo) ≤ 1 := (div_le_one hpos).2 (by linarith [M2 v hmem])
    refine ⟨?_, ?_, ?_, ?_, ?_⟩
    · intro s hs
      obtain ⟨_, g⟩ := i2 l hl
      obtain ⟨cs, ht, _⟩ := g s hs
      refine ⟨⟨cs, true, some (trunc (255 + (v - lo) / (hi - lo) * (0 - 255)))⟩, (i1 _).2 (Or.inr ⟨l, hl, _, by rw [hv]; simp only [laneShade]; rw [if_neg hne], s, hs, cs, ht, ?_⟩),
        trace_shows s cs ht, rfl, rfl⟩
      rw [hv]
      simp [area]
    · have := trunc_mono (show ((0 : Int) : ℝ) ≤ 255 + (v - lo) / (hi - lo) * (0 - 255) by push_cast; linarith)
      rwa [trunc_int] at this
    · have := trunc_mono (show 255 + (v - lo) / (hi - lo) * (0 - 255) ≤ ((255 : Int) : ℝ) by push_cast; linarith)
      rwa [trunc_int] at this
    · intro hleast
      obtain ⟨_, l', hl', hv'⟩ := (mem_limits lanes lo).1 m1
      have : v = lo := le_antisymm (hleast l' hl' lo hv') (m2 v hmem)
      have e : 255 + (v - lo) / (hi - lo) * (0 - 255) = ((255 : Int) : ℝ) := by rw [this]; simp
      exact (congrArg trunc e).trans (trunc_int 255)
    · intro hgreat
      obtain ⟨_, l', hl', hv'⟩ := (mem_limits lanes hi).1 M1
      have : v = hi := le_antisymm (M2 v hmem) (hgreat l' hl' hi hv')
      have e : 255 + (v - lo) / (hi - lo) * (0 - 255) = ((0 : Int) : ℝ) := by rw [this, div_self hne]; simp
      exact (congrArg trunc e).trans (trunc_int 0)

/-- **C109**, disagreement: there is no detailed picture of a map whose lanes all have the same speed limit, or have none: the program divides by the difference of the limits, or
takes the minimum of nothing. -/
theorem C109_equal_violated (lanes : List DLane) (v : ℝ) (hall : ∀ l ∈ lanes, ∀ v', l.limit = some v' → v' = v) (pic : Pic) : drawMap .detailed lanes ≠ .ok pic := by
  intro h
  obtain ⟨lo, hi, hf, hlim⟩ := drawMap_lanes _ lanes pic h
  obtain ⟨s0, ls, hl, rfl, rfl⟩ := hlim rfl
  obtain ⟨_, i2, _⟩ := lanes_spec _ _ _ lanes _ _ hf
  obtain ⟨m1, m2⟩ := foldl_min_spec ls s0
  obtain ⟨M1, _⟩ := foldl_max_spec ls s0
  rw [← hl] at m1 M1
  obtain ⟨_, l, hl, hv⟩ := (mem_limits lanes _).1 m1
  obtain ⟨_, l', hl', hv'⟩ := (mem_limits lanes _).1 M1
  obtain ⟨⟨c, hc⟩, _⟩ := i2 l hl
  rw [hv] at hc
  simp only [laneShade] at hc
  rw [if_pos (by rw [hall l hl _ hv, hall l' hl' _ hv', sub_self])] at hc
  cases hc

/-! ### Examples -/

namespace MapEx

/-- a road to the east, ten long and four wide, at height `y` -/
noncomputable def road (y : ℝ) : Seg := .straight (0, y) (10, y) 4

/-- a half circle far above, with radius 10 -/
noncomputable def bow : Seg := .circular ⟨(0, 1000), 10, 0, Real.pi, false, 0⟩ 4

/-- three lanes: limits of 10 and 20, and no limit for the half circle -/
noncomputable def lanes : List DLane := [⟨[road 0], some 10⟩, ⟨[road 4], some 20⟩, ⟨[bow], none⟩]

theorem proper : ProperArc ⟨(0, 1000), 10, 0, Real.pi, false, 0⟩ 4 := by
  have := Real.pi_pos
  refine ⟨by norm_num, ?_, ?_, by norm_num, by norm_num⟩
  · simp only [Circular.length, Circular.direction]; norm_num; linarith
  · simp only [Circular.length, Circular.direction]; norm_num; linarith

/-- lanes without segments of unknown type can be drawn -/
theorem drawn (f : Fill) (lo hi : ℝ) (hf : f ≠ .detailed ∨ hi - lo ≠ 0) : ∀ (ls : List DLane) (p : Pic), (∀ l ∈ ls, ∀ s ∈ l.segs, s ≠ .unknown) →
    ∃ p', ls.foldlM (drawLane f lo hi) p = .ok p' := by
  have hseg : ∀ (segs : List Seg) (limit : Option ℝ) (c : Option Int) (p : Pic), (∀ s ∈ segs, s ≠ .unknown) → ∃ p', segs.foldlM (drawSeg f limit c) p = .ok p' := by
    intro segs
    induction segs with
    | nil => intro _ _ p _; exact ⟨p, rfl⟩
    | cons s segs ih =>
      intro limit c p hs
      obtain ⟨cs, hcs⟩ : ∃ cs, trace s = some cs := by
        cases s with
        | straight a b w => exact ⟨_, rfl⟩
        | circular l w => exact ⟨_, rfl⟩
        | unknown => exact absurd rfl (hs _ List.mem_cons_self)
      obtain ⟨p', hp'⟩ := ih limit c _ (fun s' h' => hs s' (List.mem_cons_of_mem _ h'))
      exact ⟨p', (foldlM_cons_ok _ _ _ _ _).2 ⟨_, by unfold drawSeg; rw [hcs], hp'⟩⟩
  intro ls
  induction ls with
  | nil => intro p _; exact ⟨p, rfl⟩
  | cons l ls ih =>
    intro p hl
    obtain ⟨c, hc⟩ : ∃ c, laneShade f lo hi l.limit = .ok c := by
      unfold laneShade
      split
      · rw [if_neg (hf.resolve_left (fun h => h rfl))]
        exact ⟨_, rfl⟩
      · exact ⟨_, rfl⟩
    obtain ⟨p1, hp1⟩ := hseg l.segs l.limit c p (hl l List.mem_cons_self)
    obtain ⟨p', hp'⟩ := ih p1 (fun l' h' => hl l' (List.mem_cons_of_mem _ h'))
    exact ⟨p', (foldlM_cons_ok _ _ _ _ _).2 ⟨p1, (bind_ok_iff _ _ _).2 ⟨c, hc, hp1⟩, hp'⟩⟩

end MapEx

/-- `C109_shown_partial` for the three lanes drawn with lines: the half circle is shown, and its arc is proper -/
example : ∃ pic, drawMap .lines MapEx.lanes = .ok pic ∧ (∃ a ∈ pic.areas, Shows MapEx.bow a.corners) ∧ ProperArc ⟨(0, 1000), 10, 0, Real.pi, false, 0⟩ 4 := by
  obtain ⟨pic, h⟩ : ∃ pic, drawMap .lines MapEx.lanes = .ok pic := MapEx.drawn .lines 0 0 (Or.inl (by decide)) MapEx.lanes _ (by simp [MapEx.lanes, MapEx.road, MapEx.bow])
  exact ⟨pic, h, (C109_shown_partial .lines MapEx.lanes pic h).1 ⟨[MapEx.bow], none⟩ (by simp [MapEx.lanes]) MapEx.bow (by simp) (Or.inl rfl), MapEx.proper⟩

private theorem limits_lanes : limits MapEx.lanes = [10, 20] := by
  unfold limits MapEx.lanes
  simp

/-- **C109**, disagreement: a detailed picture does not show circular segments of lanes without a speed limit: nothing of this picture is above 10, the half circle is above 900. -/
theorem C109_arc_violated : ∃ pic, drawMap .detailed MapEx.lanes = .ok pic ∧ (∀ a ∈ pic.areas, ∀ c ∈ a.corners, c.2 ≤ 10) ∧
    ∃ (l : Circular) (w : ℝ), MapEx.bow = .circular l w ∧ ProperArc l w ∧ ∀ s r : ℝ, |r| ≤ w / 2 → 900 ≤ (l.position s r).2 := by
  have hdraw : ∃ pic, drawMap .detailed MapEx.lanes = .ok pic := by
    unfold drawMap
    rw [limits_lanes]
    simp only [List.foldl_cons, List.foldl_nil]
    rw [min_eq_left (by norm_num : (10 : ℝ) ≤ 20), max_eq_right (by norm_num : (10 : ℝ) ≤ 20)]
    exact MapEx.drawn .detailed 10 20 (Or.inr (by norm_num)) MapEx.lanes _ (by simp [MapEx.lanes, MapEx.road, MapEx.bow])
  obtain ⟨pic, h⟩ := hdraw
  refine ⟨pic, h, ?_, _, _, rfl, MapEx.proper, ?_⟩
  · obtain ⟨lo, hi, hf, _⟩ := drawMap_lanes _ _ pic h
    obtain ⟨i1, _, _⟩ := lanes_spec _ lo hi _ _ _ hf
    have hroad : ∀ y : ℝ, y ≤ 4 → ∀ cs, trace (MapEx.road y) = some cs → ∀ c ∈ cs, c.2 ≤ 10 := by
      intro y hy cs hcs c hc
      have hcs := (Option.some.inj hcs).symm
      rw [hcs] at hc
      have hn : norm2 ((10 : ℝ) - 0, y - y) = 10 := by
        unfold norm2
        rw [sub_self, sub_zero, mul_zero, add_zero]
        exact Real.sqrt_mul_self (by norm_num)
      simp only [Straight.latDir, Straight.new, hn, List.mem_cons, List.not_mem_nil, or_false] at hc
      rcases hc with rfl | rfl | rfl | rfl | rfl <;> norm_num <;> linarith
    intro a ha c hc
    rcases (i1 a).1 ha with ha | ⟨l, hl, sh, hsh, s, hs, cs, ht, ha⟩
    · cases ha
    · rw [area_corners ha] at hc
      simp only [MapEx.lanes, List.mem_cons, List.not_mem_nil, or_false] at hl
      rcases hl with rfl | rfl | rfl
      · rw [List.mem_singleton.1 hs] at ht
        exact hroad 0 (by norm_num) cs ht c hc
      · rw [List.mem_singleton.1 hs] at ht
        exact hroad 4 (by norm_num) cs ht c hc
      · rw [List.mem_singleton.1 hs] at ha
        cases ha
  · intro s r hr
    obtain ⟨r1, r2⟩ := abs_le.1 hr
    unfold Circular.position Circular.direction
    simp only
    have h1 := Real.neg_one_le_sin ((if false = true then (-1 : ℝ) else 1) * s / 10 + 0)
    have h2 := Real.sin_le_one ((if false = true then (-1 : ℝ) else 1) * s / 10 + 0)
    simp only [Bool.false_eq_true, if_false] at h1 h2 ⊢
    nlinarith

/-- `C109_colours_partial` for the three lanes -/
example : ∃ pic, drawMap .detailed MapEx.lanes = .ok pic ∧ ∀ l ∈ MapEx.lanes, l.limit ≠ some 0 := by
  obtain ⟨pic, h, _⟩ := C109_arc_violated
  refine ⟨pic, h, ?_⟩
  simp [MapEx.lanes]

/-- **C109**, disagreement: a lane with speed limit 0 is left out when the lowest limit is computed, and its colour is not in the range from 0 to 255. -/
theorem C109_zero_violated : ∃ (lanes : List DLane) (pic : Pic), drawMap .detailed lanes = .ok pic ∧ ∃ a ∈ pic.areas, a.filled = true ∧ a.shade = some 510 := by
  refine ⟨[⟨[MapEx.road 0], some 0⟩, ⟨[MapEx.road 4], some 10⟩, ⟨[MapEx.road 8], some 20⟩], ?_⟩
  have hlim : limits [⟨[MapEx.road 0], some 0⟩, ⟨[MapEx.road 4], some 10⟩, ⟨[MapEx.road 8], some 20⟩] = [10, 20] := by
    unfold limits
    simp
  have hdraw : ∃ pic, drawMap .detailed [⟨[MapEx.road 0], some 0⟩, ⟨[MapEx.road 4], some 10⟩, ⟨[MapEx.road 8], some 20⟩] = .ok pic := by
    unfold drawMap
    rw [hlim]
    simp only [List.foldl_cons, List.foldl_nil]
    rw [min_eq_left (by norm_num : (10 : ℝ) ≤ 20), max_eq_right (by norm_num : (10 : ℝ) ≤ 20)]
    exact MapEx.drawn .detailed 10 20 (Or.inr (by norm_num)) _ _ (by simp [MapEx.road])
  obtain ⟨pic, h⟩ := hdraw
  refine ⟨pic, h, ?_⟩
  obtain ⟨lo, hi, hf, hl⟩ := drawMap_lanes _ _ pic h
  obtain ⟨s0, ls, e, rfl, rfl⟩ := hl rfl
  rw [hlim] at e
  cases e
  obtain ⟨i1, _⟩ := lanes_spec _ _ _ _ _ _ hf
  refine ⟨⟨_, true, some 510⟩, (i1 _).2 (Or.inr ⟨⟨[MapEx.road 0], some 0⟩, by simp, some 510, ?_, MapEx.road 0, by simp, _, rfl, List.mem_singleton.2 rfl⟩), rfl, rfl⟩
  have e1 : [(20 : ℝ)].foldl min 10 = 10 := min_eq_left (by norm_num : (10 : ℝ) ≤ 20)
  have e2 : [(20 : ℝ)].foldl max 10 = 20 := max_eq_right (by norm_num : (10 : ℝ) ≤ 20)
  rw [e1, e2]
  simp only [laneShade]
  rw [if_neg (by norm_num)]
  have e : (255 : ℝ) + (0 - 10) / (20 - 10) * (0 - 255) = ((510 : Int) : ℝ) := by norm_num
  rw [e, trunc_int]

end Verif.Props
