import Verif.Proofs.Video
import Verif.Props.Plot
import Mathlib.Algebra.Order.Round
import Mathlib.Tactic.Linarith
import Mathlib.Tactic.Positivity
import Mathlib.Tactic.FieldSimp

/-! C108: videos of reachtubes. -/

set_option autoImplicit false
set_option linter.unusedSectionVars false

namespace Verif.Props
open Verif.Spec Verif.ATree Verif.Plot

section
variable {K : Type} [Field K] [LinearOrder K] [IsStrictOrderedRing K]

/-- what is known of a video -/
private theorem video_run (rnd : K → K) (agents : List String) (x y : Nat) (cap : Option Nat) (t : RTree (PNode K)) (v : Video K)
    (h : video rnd agents x y 1 cap t = .ok (some v)) :
    ∃ (st : Timed K) (steps : List (K × List (Item K))), Scanned x y st ∧
      (∀ (time : K) (a : String) (lo hi : Row K), KeptAt st.timed time (a, (lo, hi)) ↔ ∃ t0, Plot.Spec.InTree t a lo hi t0 ∧ time = rnd t0) ∧
      (steps.map Prod.fst).Pairwise (· ≤ ·) ∧
      (∀ time it, KeptAt st.timed time it ↔ ∃ s ∈ steps, s.1 = time ∧ it ∈ s.2) ∧
      (∀ s ∈ steps, s.2 ≠ []) ∧ v.data = steps.flatMap Prod.snd ∧ v.times = thin cap (steps.map Prod.fst) ∧ v.times ≠ [] ∧
      v.visible = htmlFrames (List.replicate v.data.length false) v.times (number 0 steps) ∧ v.painted = newIndices v.times (number 0 steps) ∧
      v.xaxis = axis st.xr ∧ v.yaxis = axis st.yr := by
  obtain ⟨t', hs, h⟩ := (bind_ok_iff _ _ _).1 h
  rw [sampleTrace_one t] at hs
  cases hs
  obtain ⟨_, _, h⟩ := (bind_ok_iff _ _ _).1 h
  obtain ⟨st, hst, h⟩ := (bind_ok_iff _ _ _).1 h
  obtain ⟨k1, k2⟩ := videoNodes_spec rnd x y _ _ _ hst
  have hsc : Scanned x y st := k2 ⟨by intro time l hl; simp at hl, by rintro time a lo hi ⟨l, hl, _⟩; simp at hl⟩
  simp only at h
  split at h
  · cases h
  · split at h
    · cases h
    · rename_i hf
      split at h
      · cases h
        have hmap : ((((Dict.keys st.timed).insertionSort (· ≤ ·)).map (fun t => (t, (Dict.get? st.timed t).getD []))).map Prod.fst) =
            (Dict.keys st.timed).insertionSort (· ≤ ·) := by
          rw [List.map_map]
          exact List.map_id _
        refine ⟨st, _, hsc, ?_, ?_, ?_, ?_, rfl, ?_, ?_, rfl, rfl, rfl, rfl⟩
        · intro time a lo hi
          rw [k1]
          constructor
          · rintro (⟨l, hl, _⟩ | ⟨u, hu, tr, j, t0, h1, h2, h3, h4⟩)
            · simp at hl
            · obtain ⟨k, hk⟩ := mem_bfs_root.1 hu
              exact ⟨t0, ⟨u, k, tr, j, hk, h1, h2, h3⟩, h4⟩
          · rintro ⟨t0, ⟨u, k, tr, j, hk, h1, h2, h3⟩, h4⟩
            exact Or.inr ⟨u, mem_bfs_root.2 ⟨k, hk⟩, tr, j, t0, h1, h2, h3, h4⟩
        · rw [hmap]
          exact sorted_keys _
        · intro time it
          constructor
          · rintro ⟨l, hl, hit⟩
            refine ⟨(time, l), List.mem_map.2 ⟨time, ?_, by rw [hl]; rfl⟩, rfl, hit⟩
            rw [List.mem_insertionSort]
            exact (Dict.isSome_get?_iff st.timed time).1 (by rw [hl]; rfl)
          · rintro ⟨s, hs, rfl, hit⟩
            obtain ⟨t1, ht1, rfl⟩ := List.mem_map.1 hs
            cases hg : Dict.get? st.timed t1 with
            | none => rw [hg] at hit; cases hit
            | some l => rw [hg] at hit; exact ⟨l, hg, hit⟩
        · intro s hs
          obtain ⟨t1, ht1, rfl⟩ := List.mem_map.1 hs
          rw [List.mem_insertionSort] at ht1
          obtain ⟨l, hl⟩ := Option.isSome_iff_exists.1 ((Dict.isSome_get?_iff st.timed t1).2 ht1)
          simp only [hl, Option.getD_some]
          exact hsc.full t1 l hl
        · rw [hmap]
        · exact hf
      · cases h

/-- **C108**: in the frame of a time exactly the rectangles that begin, with times rounded, at this time or before it are to be seen, of all agents in all nodes of the
tree; on a page in HTML as in a GIF or MP4.

Missing: the tree must not be sampled (`C89_sampled_violated`). -/
theorem C108_frames_partial (rnd : K → K) (agents : List String) (x y : Nat) (cap : Option Nat) (t : RTree (PNode K)) (v : Video K)
    (h : video rnd agents x y 1 cap t = .ok (some v)) (k : Nat) (time : K) (hk : v.times[k]? = some time) (a : String) (lo hi : List K) :
    (Plot.Spec.OnPage v k a lo hi ↔ ∃ t0, Plot.Spec.InTree t a lo hi t0 ∧ rnd t0 ≤ time) ∧
    (Plot.Spec.Painted v k a lo hi ↔ ∃ t0, Plot.Spec.InTree t a lo hi t0 ∧ rnd t0 ≤ time) := by
  obtain ⟨st, steps, _, h1, h2, h3, _, h4, h5, _, h6, h7, _⟩ := video_run rnd agents x y cap t v h
  have hts : v.times.Pairwise (· ≤ ·) := by rw [h5]; exact thin_sorted cap _ h2
  have hnum : ((number 0 steps).map Prod.fst).Pairwise (· ≤ ·) := by rw [number_fst]; exact h2
  have hnew := newIndices_spec v.times (number 0 steps) hts hnum k time hk
  have hitem := number_spec (fun s => s ≤ time) (a, (lo, hi)) steps 0
  have hkept : (∃ s ∈ steps, s.1 ≤ time ∧ (a, (lo, hi)) ∈ s.2) ↔ ∃ t0, Plot.Spec.InTree t a lo hi t0 ∧ rnd t0 ≤ time := by
    constructor
    · rintro ⟨s, hs, g1, g2⟩
      obtain ⟨t0, g3, g4⟩ := (h1 s.1 a lo hi).1 ((h3 s.1 _).2 ⟨s, hs, rfl, g2⟩)
      exact ⟨t0, g3, g4 ▸ g1⟩
    · rintro ⟨t0, g1, g2⟩
      obtain ⟨s, hs, g3, g4⟩ := (h3 (rnd t0) _).1 ((h1 (rnd t0) a lo hi).2 ⟨t0, g1, rfl⟩)
      exact ⟨s, hs, g3 ▸ g2, g4⟩
  have hpaint : Plot.Spec.Painted v k a lo hi ↔ ∃ t0, Plot.Spec.InTree t a lo hi t0 ∧ rnd t0 ≤ time := by
    rw [← hkept, ← hitem]
    unfold Plot.Spec.Painted
    rw [h4, h7]
    constructor
    · rintro ⟨i, j, new, g1, g2, g3, g4⟩
      refine ⟨i, g1, ?_⟩
      rw [Nat.zero_add]
      exact (hnew i).1 ⟨j, new, g2, g3, g4⟩
    · rintro ⟨i, g1, g2⟩
      rw [Nat.zero_add] at g2
      obtain ⟨j, new, g3, g4, g5⟩ := (hnew i).2 g2
      exact ⟨i, j, new, g1, g3, g4, g5⟩
  refine ⟨?_, hpaint⟩
  rw [← hpaint]
  unfold Plot.Spec.OnPage Plot.Spec.Painted
  rw [h6, h7]
  constructor
  · rintro ⟨i, vis, g1, g2, g3⟩
    rcases (htmlFrames_spec _ _ _ k vis g2 i).1 g3 with g | ⟨_, j, new, g4, g5, g6⟩
    · rw [List.getElem?_replicate] at g
      split at g <;> cases g
    · exact ⟨i, j, new, g1, g4, g5, g6⟩
  · rintro ⟨i, j, new, g1, g4, g5, g6⟩
    have hlt : k < (htmlFrames (List.replicate v.data.length false) v.times (number 0 steps)).length := by
      rw [htmlFrames_length]
      exact (List.getElem?_eq_some_iff.1 hk).1
    refine ⟨i, _, g1, List.getElem?_eq_getElem hlt, (htmlFrames_spec _ _ _ k _ (List.getElem?_eq_getElem hlt) i).2 (Or.inr ⟨?_, j, new, g4, g5, g6⟩)⟩
    rw [List.length_replicate]
    exact (List.getElem?_eq_some_iff.1 g1).1

/-- **C108**: the frames go forward in time, each of them is for the time at which some rectangle begins, and there are no more of them than the bound that was given; without
a bound there is a frame for each rectangle. -/
theorem C108_times (rnd : K → K) (agents : List String) (x y : Nat) (cap : Option Nat) (t : RTree (PNode K)) (v : Video K)
    (h : video rnd agents x y 1 cap t = .ok (some v)) :
    v.times.Pairwise (· ≤ ·) ∧ (∀ time ∈ v.times, ∃ a lo hi t0, Plot.Spec.InTree t a lo hi t0 ∧ time = rnd t0) ∧
    (∀ m, cap = some m → v.times.length ≤ m) ∧ v.visible.length = v.times.length ∧ v.times ≠ [] ∧
    (cap = none → ∀ a lo hi t0, Plot.Spec.InTree t a lo hi t0 → rnd t0 ∈ v.times) := by
  obtain ⟨st, steps, _, h1, h2, h3, hne, h4, h5, h6, h7, _⟩ := video_run rnd agents x y cap t v h
  refine ⟨by rw [h5]; exact thin_sorted cap _ h2, ?_, ?_, by rw [h7, htmlFrames_length], h6, ?_⟩
  · intro time ht
    rw [h5] at ht
    obtain ⟨s, hs, rfl⟩ := List.mem_map.1 (thin_subset cap _ _ ht)
    obtain ⟨⟨a, lo, hi⟩, hit⟩ := List.exists_mem_of_ne_nil _ (hne s hs)
    obtain ⟨t0, g⟩ := (h1 s.1 a lo hi).1 ((h3 s.1 _).2 ⟨s, hs, rfl, hit⟩)
    exact ⟨a, lo, hi, t0, g⟩
  · rintro m rfl
    rw [h5]
    exact thin_length m _
  · rintro rfl a lo hi t0 hin
    obtain ⟨s, hs, g, _⟩ := (h3 (rnd t0) _).1 ((h1 (rnd t0) a lo hi).2 ⟨t0, hin, rfl⟩)
    rw [h5]
    exact List.mem_map.2 ⟨s, hs, g⟩

/-- **C108**: with no bound on the frames, or a bound of two at least, the last frame shows all rectangles of the tree.

Missing: with a bound of one there is only the frame of the first time (`C108_one_violated`). -/
theorem C108_last_partial (rnd : K → K) (agents : List String) (x y : Nat) (cap : Option Nat) (t : RTree (PNode K)) (v : Video K)
    (hcap : ∀ m, cap = some m → 2 ≤ m)
    (h : video rnd agents x y 1 cap t = .ok (some v)) (a : String) (lo hi : List K) (t0 : K) (hin : Plot.Spec.InTree t a lo hi t0) :
    Plot.Spec.OnPage v (v.times.length - 1) a lo hi ∧ Plot.Spec.Painted v (v.times.length - 1) a lo hi := by
  obtain ⟨st, steps, _, h1, h2, h3, _, h4, h5, hne, _⟩ := video_run rnd agents x y cap t v h
  obtain ⟨s, hs, g, _⟩ := (h3 (rnd t0) _).1 ((h1 (rnd t0) a lo hi).2 ⟨t0, hin, rfl⟩)
  have hmem : rnd t0 ∈ steps.map Prod.fst := List.mem_map.2 ⟨s, hs, g⟩
  have hne' : steps.map Prod.fst ≠ [] := List.ne_nil_of_mem hmem
  have hlast := thin_last cap _ (fun m hm => Or.inl (hcap m hm)) _ (List.getLast?_eq_getLast_of_ne_nil hne')
  rw [← h5] at hlast
  have hts : v.times.Pairwise (· ≤ ·) := by rw [h5]; exact thin_sorted cap _ h2
  have hle : ∀ (l : List K), l.Pairwise (· ≤ ·) → ∀ (hl : l ≠ []) (b : K), b ∈ l → b ≤ l.getLast hl := by
    intro l hl hn b hb
    obtain ⟨i, hi, rfl⟩ := List.mem_iff_getElem.1 hb
    rw [List.getLast_eq_getElem]
    rcases Nat.eq_or_lt_of_le (show i ≤ l.length - 1 by omega) with hlt | hlt
    · subst hlt; exact le_refl _
    · exact List.pairwise_iff_getElem.1 hl _ _ hi (by omega) hlt
  have hk : v.times[v.times.length - 1]? = some (v.times.getLast hne) := by
    rw [← List.getLast?_eq_getElem?]
    exact List.getLast?_eq_getLast_of_ne_nil hne
  have := C108_frames_partial rnd agents x y cap t v h _ _ hk a lo hi
  have hb : ∃ t0, Plot.Spec.InTree t a lo hi t0 ∧ rnd t0 ≤ v.times.getLast hne :=
    ⟨t0, hin, (hle _ h2 hne' _ hmem).trans (hle _ hts hne _ hlast)⟩
  exact ⟨this.1.2 hb, this.2.2 hb⟩

/-- **C108**, disagreement: with a bound of 0 frames there is no video: the program divides by the number of frames. -/
theorem C108_zero (rnd : K → K) (agents : List String) (x y rate : Nat) (t : RTree (PNode K)) (v : Video K) : video rnd agents x y rate (some 0) t ≠ .ok (some v) := by
  intro h
  obtain ⟨t', hs, h⟩ := (bind_ok_iff _ _ _).1 h
  obtain ⟨_, _, h⟩ := (bind_ok_iff _ _ _).1 h
  obtain ⟨st, hst, h⟩ := (bind_ok_iff _ _ _).1 h
  simp only at h
  split at h
  · cases h
  · rename_i hne
    rw [if_pos (by
      unfold thin
      simp only
      rw [if_pos (List.length_pos_of_ne_nil hne)]
      rfl)] at h
    cases h

private theorem affine_between (rd : K → Int) (hrd : ∀ a b : K, a ≤ b → rd a ≤ rd b) (c m : K) (a b p : K) (h1 : a ≤ p) (h2 : p ≤ b) :
    min (rd (c + p * m)) (rd (c + p * m)) = rd (c + p * m) ∧
    min (rd (c + a * m)) (rd (c + b * m)) ≤ rd (c + p * m) ∧ rd (c + p * m) ≤ max (rd (c + a * m)) (rd (c + b * m)) := by
  refine ⟨min_self _, ?_⟩
  rcases le_total 0 m with hm | hm
  · exact ⟨(min_le_left _ _).trans (hrd _ _ (by nlinarith)), (hrd _ _ (by nlinarith)).trans (le_max_right _ _)⟩
  · exact ⟨(min_le_right _ _).trans (hrd _ _ (by nlinarith)), (hrd _ _ (by nlinarith)).trans (le_max_left _ _)⟩

/-- **C108**: the pixel of any point of a rectangle is in the rectangle of pixels that is painted, for any ranges of the axes. -/
theorem C108_pixels (rd : K → Int) (hrd : Plot.Spec.Rounds rd) (w : Window K) (a b p : K × K) (hp : Plot.Spec.Between a b p) :
    Plot.Spec.Covers (rectPixels rd w a b) (toPx rd w p) := by
  have hx : min a.1 b.1 ≤ p.1 ∧ p.1 ≤ max a.1 b.1 := by
    rcases hp.1 with ⟨h1, h2⟩ | ⟨h1, h2⟩
    · exact ⟨(min_le_left _ _).trans h1, h2.trans (le_max_right _ _)⟩
    · exact ⟨(min_le_right _ _).trans h1, h2.trans (le_max_left _ _)⟩
  have hy : min a.2 b.2 ≤ p.2 ∧ p.2 ≤ max a.2 b.2 := by
    rcases hp.2 with ⟨h1, h2⟩ | ⟨h1, h2⟩
    · exact ⟨(min_le_left _ _).trans h1, h2.trans (le_max_right _ _)⟩
    · exact ⟨(min_le_right _ _).trans h1, h2.trans (le_max_left _ _)⟩
  unfold Plot.Spec.Covers rectPixels toPx
  simp only
  have e1 : ∀ (q d : K), (w.left : K) + (q - w.xlo) * ((w.w : K) - 1) / d = ((w.left : K) - w.xlo * (((w.w : K) - 1) / d)) + q * (((w.w : K) - 1) / d) := by
    intro q d; ring
  have e2 : ∀ (q d : K), (w.top : K) + ((w.h : K) - 1) - (q - w.ylo) * ((w.h : K) - 1) / d =
      ((w.top : K) + ((w.h : K) - 1) + w.ylo * (((w.h : K) - 1) / d)) + q * (-(((w.h : K) - 1) / d)) := by
    intro q d; ring
  simp only [e1, e2]
  exact ⟨(affine_between rd hrd.mono _ _ _ _ _ hx.1 hx.2).2.1, (affine_between rd hrd.mono _ _ _ _ _ hx.1 hx.2).2.2,
    (affine_between rd hrd.mono _ _ _ _ _ hy.1 hy.2).2.1, (affine_between rd hrd.mono _ _ _ _ _ hy.1 hy.2).2.2⟩

private theorem grow_spec (r : K × K) (v : K) (h1 : r.1 ≤ v) (h2 : v ≤ r.2) : (grow r).1 < (grow r).2 ∧ (grow r).1 ≤ v ∧ v ≤ (grow r).2 := by
  unfold grow
  split
  · rename_i h
    exact ⟨lt_add_one _, h1, (h2.trans (le_of_eq h)).trans (le_of_lt (lt_add_one _))⟩
  · rename_i h
    exact ⟨lt_of_le_of_ne (h1.trans h2) (Ne.symm h), h1, h2⟩

private theorem frac_bounds (lo hi v n : K) (h : lo < hi) (h1 : lo ≤ v) (h2 : v ≤ hi) (hn : 0 ≤ n) : 0 ≤ (v - lo) * n / (hi - lo) ∧ (v - lo) * n / (hi - lo) ≤ n := by
  have hd : 0 < hi - lo := sub_pos.2 h
  refine ⟨div_nonneg (mul_nonneg (sub_nonneg.2 h1) hn) hd.le, ?_⟩
  rw [div_le_iff₀ hd]
  nlinarith

/-- **C108**: in a GIF or MP4 with the default axes, every point of a rectangle of the tree has a pixel inside the drawing area, and when the rectangle is painted this
pixel is. -/
theorem C108_area_partial (rnd : K → K) (rd : K → Int) (hrd : Plot.Spec.Rounds rd) (agents : List String) (x y : Nat) (cap : Option Nat) (t : RTree (PNode K)) (v : Video K)
    (h : video rnd agents x y 1 cap t = .ok (some v)) (left top wd ht : Int) (hw : 1 ≤ wd) (hh : 1 ≤ ht)
    (a : String) (lo hi : List K) (t0 : K) (hin : Plot.Spec.InTree t a lo hi t0) :
    ∃ xr yr p q, v.xaxis = some xr ∧ v.yaxis = some yr ∧ Plot.Spec.At x y lo p ∧ Plot.Spec.At x y hi q ∧
      ∀ c : K × K, Plot.Spec.Between p q c →
        Plot.Spec.Covers (rectPixels rd (window left top wd ht xr yr) p q) (toPx rd (window left top wd ht xr yr) c) ∧
        left ≤ (toPx rd (window left top wd ht xr yr) c).1 ∧ (toPx rd (window left top wd ht xr yr) c).1 ≤ left + wd - 1 ∧
        top ≤ (toPx rd (window left top wd ht xr yr) c).2 ∧ (toPx rd (window left top wd ht xr yr) c).2 ≤ top + ht - 1 := by
  obtain ⟨st, steps, hsc, h1, _, _, _, _, _, _, _, _, h8, h9⟩ := video_run rnd agents x y cap t v h
  obtain ⟨p, q, hp, hq, x1, x2, y1, y2⟩ := hsc.range _ a lo hi ((h1 (rnd t0) a lo hi).2 ⟨t0, hin, rfl⟩)
  obtain ⟨xa, xb, ex, gx1, gx2⟩ := axis_visible x1
  obtain ⟨xa', xb', ex', gx3, gx4⟩ := axis_visible x2
  rw [ex] at ex'; cases ex'
  obtain ⟨ya, yb, ey, gy1, gy2⟩ := axis_visible y1
  obtain ⟨ya', yb', ey', gy3, gy4⟩ := axis_visible y2
  rw [ey] at ey'; cases ey'
  refine ⟨(xa, xb), (ya, yb), p, q, by rw [h8, ex], by rw [h9, ey], hp, hq, fun c hc => ⟨C108_pixels rd hrd _ p q c hc, ?_⟩⟩
  have cx : xa ≤ c.1 ∧ c.1 ≤ xb := by
    rcases hc.1 with ⟨g1, g2⟩ | ⟨g1, g2⟩
    · exact ⟨gx1.trans g1, g2.trans gx4⟩
    · exact ⟨gx3.trans g1, g2.trans gx2⟩
  have cy : ya ≤ c.2 ∧ c.2 ≤ yb := by
    rcases hc.2 with ⟨g1, g2⟩ | ⟨g1, g2⟩
    · exact ⟨gy1.trans g1, g2.trans gy4⟩
    · exact ⟨gy3.trans g1, g2.trans gy2⟩
  obtain ⟨g1, g2, g3⟩ := grow_spec (xa, xb) c.1 cx.1 cx.2
  obtain ⟨g4, g5, g6⟩ := grow_spec (ya, yb) c.2 cy.1 cy.2
  have hw' : (0 : K) ≤ (wd : K) - 1 := by
    have : ((1 : Int) : K) ≤ (wd : K) := Int.cast_le.2 hw
    push_cast at this; linarith
  have hh' : (0 : K) ≤ (ht : K) - 1 := by
    have : ((1 : Int) : K) ≤ (ht : K) := Int.cast_le.2 hh
    push_cast at this; linarith
  obtain ⟨f1, f2⟩ := frac_bounds _ _ _ _ g1 g2 g3 hw'
  obtain ⟨f3, f4⟩ := frac_bounds _ _ _ _ g4 g5 g6 hh'
  unfold toPx window
  simp only
  rw [if_neg (ne_of_gt (sub_pos.2 g1)), if_neg (ne_of_gt (sub_pos.2 g4))]
  refine ⟨?_, ?_, ?_, ?_⟩
  · exact (hrd.int left).symm.le.trans (hrd.mono _ _ (by linarith))
  · exact (hrd.mono _ _ (by push_cast; linarith)).trans (hrd.int (left + wd - 1)).le
  · exact (hrd.int top).symm.le.trans (hrd.mono _ _ (by linarith))
  · exact (hrd.mono _ _ (by push_cast; linarith)).trans (hrd.int (top + ht - 1)).le

end

namespace PlotEx

/-- the video of `tree`, with bounds on the number of frames -/
def movie (times : List ℚ) (visible : List (List Bool)) (painted : List (List Nat)) : Video ℚ :=
  ⟨[("a", ([0, 0, 0], [1, 1, 1])), ("b", ([0, 5, 5], [1, 6, 6])), ("a", ([1, 1, 1], [2, 2, 2])), ("b", ([1, 6, 5], [2, 7, 6])),
    ("a", ([2, 2, 2], [3, 3, 3])), ("b", ([2, 7, 5], [3, 8, 6])), ("a", ([3, 3, 3], [4, 4, 4])), ("b", ([3, 7, 5], [4, 9, 6]))],
    times, visible, painted, some (-9 / 4, 45 / 4), some (-3 / 2, 15 / 2)⟩

theorem movie_run (cap : Option Nat) (v : Video ℚ)
    (h : ([tree, tree.kids.head (by decide)].foldlM (videoNode id 1 2) ⟨[], none, none⟩).bind (fun st =>
      let times := (Dict.keys st.timed).insertionSort (· ≤ ·)
      if times = [] then (.ok none : Except String (Option (Video ℚ)))
      else
        let frames := thin cap times
        if frames = [] then .error "ZeroDivisionError"
        else
          let steps := times.map (fun t => (t, (Dict.get? st.timed t).getD []))
          let data := steps.flatMap Prod.snd
          if data.all (fun it => decide (it.1 ∈ ["a", "b"])) then
            .ok (some ⟨data, frames, htmlFrames (List.replicate data.length false) frames (number 0 steps), newIndices frames (number 0 steps), axis st.xr, axis st.yr⟩)
          else .error "ValueError") = .ok (some v)) : video id ["a", "b"] 1 2 1 cap tree = .ok (some v) := by
  have h1 : checkDims ["a", "b"] tree.label 1 2 = .ok () := by decide +kernel
  have h2 : bfs [tree] = [tree, tree.kids.head (by decide)] := by
    rw [bfs_cons]
    show tree :: bfs [tree.kids.head (by decide)] = _
    rw [bfs_cons]
    show tree :: (tree.kids.head (by decide) :: bfs []) = _
    rw [bfs_nil]
  unfold video
  rw [sampleTrace_one _]
  simp only [Except.bind, h1]
  rw [h2]
  exact h

/-- with a bound of two: the first and the last time -/
theorem movie_two : video id ["a", "b"] 1 2 1 (some 2) tree = .ok (some (movie [0, 3]
    [[true, true, false, false, false, false, false, false], [true, true, true, true, true, true, true, true]] [[0, 1], [2, 3, 4, 5, 6, 7]])) :=
  movie_run _ _ (by decide +kernel)

/-- without a bound: four frames -/
theorem movie_all : video id ["a", "b"] 1 2 1 none tree = .ok (some (movie [0, 1, 2, 3]
    [[true, true, false, false, false, false, false, false], [true, true, true, true, false, false, false, false],
      [true, true, true, true, true, true, false, false], [true, true, true, true, true, true, true, true]] [[0, 1], [2, 3], [4, 5], [6, 7]])) :=
  movie_run _ _ (by decide +kernel)

/-- with a bound of one: the first time only -/
theorem movie_one : video id ["a", "b"] 1 2 1 (some 1) tree = .ok (some (movie [0] [[true, true, false, false, false, false, false, false]] [[0, 1]])) :=
  movie_run _ _ (by decide +kernel)

/-- the last rectangle of `a` -/
theorem last_rect : Plot.Spec.InTree tree "a" [3, 3, 3] [4, 4, 4] 3 := by
  refine ⟨tree.kids.head (by decide), 1, rect 2 2 2 3 3 ++ rect 3 3 3 4 4, 1, ?_, ?_, ⟨?_, ?_⟩, rfl⟩
  · exact RTree.Below.step (t := tree.kids.head (by decide)) (List.head_mem _) (RTree.Below.refl _)
  · decide +kernel
  · decide +kernel
  · decide +kernel

end PlotEx

/-- `C108_frames_partial` for the tree of the example and the third of four frames: the rectangles of `b` from time 2 are shown -/
example : ∃ t0 : ℚ, Plot.Spec.InTree PlotEx.tree "b" [2, 7, 5] [3, 8, 6] t0 ∧ id t0 ≤ 2 :=
  (C108_frames_partial id ["a", "b"] 1 2 none PlotEx.tree _ PlotEx.movie_all 2 2 rfl "b" [2, 7, 5] [3, 8, 6]).1.1 ⟨5, _, rfl, rfl, rfl⟩

/-- `C108_last_partial` with a bound of two -/
example : Plot.Spec.OnPage (PlotEx.movie [0, 3] [[true, true, false, false, false, false, false, false], [true, true, true, true, true, true, true, true]]
    [[0, 1], [2, 3, 4, 5, 6, 7]]) 1 "a" [3, 3, 3] [4, 4, 4] :=
  (C108_last_partial id ["a", "b"] 1 2 (some 2) PlotEx.tree _ (by simp) PlotEx.movie_two "a" _ _ 3 PlotEx.last_rect).1

/-- **C108**, disagreement: with `max_frame_steps=1` the video has one frame, for the first time; what the agents do later is never shown. -/
theorem C108_one_violated : ∃ (t : RTree (PNode ℚ)) (v : Video ℚ) (lo hi : List ℚ) (t0 : ℚ), video id ["a", "b"] 1 2 1 (some 1) t = .ok (some v) ∧
    Plot.Spec.InTree t "a" lo hi t0 ∧ ∀ k, ¬ Plot.Spec.OnPage v k "a" lo hi ∧ ¬ Plot.Spec.Painted v k "a" lo hi := by
  refine ⟨PlotEx.tree, _, _, _, _, PlotEx.movie_one, PlotEx.last_rect, fun k => ?_⟩
  have hk : ∀ time, (PlotEx.movie [0] [[true, true, false, false, false, false, false, false]] [[0, 1]]).data[time]? = some ("a", (([3, 3, 3] : List ℚ), ([4, 4, 4] : List ℚ))) → time = 6 := by
    intro i hi
    have hlt := (List.getElem?_eq_some_iff.1 hi).1
    have : ∀ i < 8, (PlotEx.movie [0] [[true, true, false, false, false, false, false, false]] [[0, 1]]).data[i]? = some ("a", (([3, 3, 3] : List ℚ), ([4, 4, 4] : List ℚ))) → i = 6 := by decide +kernel
    exact this i hlt hi
  constructor
  · rintro ⟨i, vis, h1, h2, h3⟩
    obtain rfl := hk i h1
    cases k with
    | zero => cases h2; cases h3
    | succ k => cases h2
  · rintro ⟨i, j, new, h1, _, h2, h3⟩
    obtain rfl := hk i h1
    cases j with
    | zero => cases h2; revert h3; decide
    | succ j => cases h2

/-- rounding of rational numbers -/
theorem rounds_round : Plot.Spec.Rounds (round : ℚ → Int) := ⟨fun a b h => by rw [round_eq, round_eq]; exact Int.floor_mono (by linarith), fun n => round_intCast n⟩

/-- `C108_area_partial` for the example, in a picture of 1280 by 720 with the default margins: 1140 by 600 pixels -/
example : ∃ xr yr p q, (PlotEx.movie [0, 3] [[true, true, false, false, false, false, false, false], [true, true, true, true, true, true, true, true]]
    [[0, 1], [2, 3, 4, 5, 6, 7]]).xaxis = some xr ∧ (PlotEx.movie [0, 3] [[true, true, false, false, false, false, false, false], [true, true, true, true, true, true, true, true]]
    [[0, 1], [2, 3, 4, 5, 6, 7]]).yaxis = some yr ∧ Plot.Spec.At 1 2 [3, 3, 3] p ∧ Plot.Spec.At 1 2 [4, 4, 4] q ∧ ∀ c : ℚ × ℚ, Plot.Spec.Between p q c →
      Plot.Spec.Covers (rectPixels round (window 100 40 1140 600 xr yr) p q) (toPx round (window 100 40 1140 600 xr yr) c) ∧
      100 ≤ (toPx round (window 100 40 1140 600 xr yr) c).1 ∧ (toPx round (window 100 40 1140 600 xr yr) c).1 ≤ 100 + 1140 - 1 ∧
      40 ≤ (toPx round (window 100 40 1140 600 xr yr) c).2 ∧ (toPx round (window 100 40 1140 600 xr yr) c).2 ≤ 40 + 600 - 1 :=
  C108_area_partial id round rounds_round ["a", "b"] 1 2 (some 2) PlotEx.tree _ PlotEx.movie_two 100 40 1140 600 (by decide) (by decide) "a" _ _ 3 PlotEx.last_rect

end Verif.Props
