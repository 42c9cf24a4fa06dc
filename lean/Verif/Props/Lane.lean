import Verif.Proofs.Lane
import Verif.Spec.Lane
import Verif.Proofs.Basic
import Mathlib.Tactic.NormNum
import Mathlib.Data.Rat.Defs
import Mathlib.Algebra.Order.Ring.Rat

/-!
Properties of lanes: C24, C25, C36, C37, C38.
-/

set_option autoImplicit false

namespace Verif.Props

open Verif.Lane Verif.Lane.Spec

section
variable {K : Type} [Field K] [LinearOrder K] [IsStrictOrderedRing K]

/-- **C24**. On a straight lane segment the intervals that the guard evaluation computes for a rectangle are the exact ranges of the
longitudinal position and of the lateral distance over the rectangle. -/
theorem C24_straight_lane_enclosures (l : Straight K) (lo hi : K × K) (h1 : lo.1 ≤ hi.1) (h2 : lo.2 ≤ hi.2) :
    IsRange (l.encloseLong lo hi) lo hi (fun p => (l.coords p).1 + l.longStart) ∧
    IsRange (l.encloseLat lo hi) lo hi (fun p => (l.coords p).2) := by
  have key : ∀ d : K × K, ∀ c : K, IsRange
      (min ((lo.1 - l.start.1) * d.1) ((hi.1 - l.start.1) * d.1) + min ((lo.2 - l.start.2) * d.2) ((hi.2 - l.start.2) * d.2) + c,
        max ((lo.1 - l.start.1) * d.1) ((hi.1 - l.start.1) * d.1) + max ((lo.2 - l.start.2) * d.2) ((hi.2 - l.start.2) * d.2) + c)
      lo hi (fun p => (p.1 - l.start.1) * d.1 + (p.2 - l.start.2) * d.2 + c) := by
    intro d c
    refine ⟨?_, ?_, ?_⟩
    · rintro p ⟨a1, a2, a3, a4⟩
      have k1 := mul_between (lo.1 - l.start.1) (hi.1 - l.start.1) (p.1 - l.start.1) d.1 (by linarith) (by linarith)
      have k2 := mul_between (lo.2 - l.start.2) (hi.2 - l.start.2) (p.2 - l.start.2) d.2 (by linarith) (by linarith)
      exact ⟨by simp only; linarith [k1.1, k2.1], by simp only; linarith [k1.2, k2.2]⟩
    · obtain ⟨x, x1, x2, x3⟩ := (mul_attained (lo.1 - l.start.1) (hi.1 - l.start.1) d.1 (by linarith)).1
      obtain ⟨y, y1, y2, y3⟩ := (mul_attained (lo.2 - l.start.2) (hi.2 - l.start.2) d.2 (by linarith)).1
      refine ⟨(x + l.start.1, y + l.start.2), ⟨by simp only; linarith, by simp only; linarith, by simp only; linarith, by simp only; linarith⟩, ?_⟩
      simp only [add_sub_cancel_right, x3, y3]
    · obtain ⟨x, x1, x2, x3⟩ := (mul_attained (lo.1 - l.start.1) (hi.1 - l.start.1) d.1 (by linarith)).2
      obtain ⟨y, y1, y2, y3⟩ := (mul_attained (lo.2 - l.start.2) (hi.2 - l.start.2) d.2 (by linarith)).2
      refine ⟨(x + l.start.1, y + l.start.2), ⟨by simp only; linarith, by simp only; linarith, by simp only; linarith, by simp only; linarith⟩, ?_⟩
      simp only [add_sub_cancel_right, x3, y3]
  refine ⟨key l.dir l.longStart, ?_⟩
  have := key l.latDir 0
  simp only [add_zero] at this
  exact this

/-- A rectangle beside a sloped segment: the intervals. -/
example : (⟨(10, 0), (4/5, 3/5), 5, 10⟩ : Straight ℚ).encloseLong (5, -2) (20, 3) = (24/5, 99/5) ∧
    (⟨(10, 0), (4/5, 3/5), 5, 10⟩ : Straight ℚ).encloseLat (5, -2) (20, 3) = (-38/5, 27/5) := by decide +kernel

/-- **C37**, violated: a lane with two segments next to each other, and a point that is nearer to the first one; the lane measures
the lateral distance to the second one, because it compares signed lateral distances (verse/map/lane.py:32). -/
theorem C37_nearest_segment_violated : ∃ (a b : Straight ℚ) (p : ℚ × ℚ), isOn straightOps p a = true ∧ isOn straightOps p b = true ∧
    |(a.coords p).2| < |(b.coords p).2| ∧ getSegment straightOps [a, b] p = some (1, b) ∧
    lateral straightOps [a, b] p = .ok (-4) := by
  refine ⟨⟨(0, 0), (1, 0), 10, 0⟩, ⟨(0, 5), (1, 0), 10, 10⟩, (5, 1), ?_⟩
  decide +kernel

omit [IsStrictOrderedRing K] in
theorem pickSegment_spec {Seg : Type} (O : SegOps K Seg) (p : K × K) (all : List Seg) : ∀ (ss : List Seg) (i : Nat)
    (best : Option (Nat × Seg × K)), all.drop i = ss →
    (match best with
      | none => ∀ s ∈ all.take i, isOn O p s = false
      | some b => all[b.1]? = some b.2.1 ∧ isOn O p b.2.1 = true ∧ b.2.2 = (O.coords b.2.1 p).2 ∧
        ∀ s ∈ all.take i, isOn O p s = true → b.2.2 ≤ (O.coords s p).2) →
    match pickSegment O p ss i best with
      | none => ∀ s ∈ all, isOn O p s = false
      | some b => all[b.1]? = some b.2.1 ∧ isOn O p b.2.1 = true ∧ b.2.2 = (O.coords b.2.1 p).2 ∧
        ∀ s ∈ all, isOn O p s = true → b.2.2 ≤ (O.coords s p).2 := by
  intro ss
  induction ss with
  | nil =>
    intro i best hd hb
    have : all.take i = all := List.take_of_length_le (by simpa using List.drop_eq_nil_iff.1 hd)
    rw [this] at hb
    simpa only [pickSegment] using hb
  | cons s ss ih =>
    intro i best hd hb
    have hi : i < all.length := by
      by_contra hc
      rw [List.drop_of_length_le (by omega)] at hd
      cases hd
    have hg : all[i]? = some s := by
      have := congrArg List.head? hd
      simpa [List.head?_drop] using this
    have hd' : all.drop (i + 1) = ss := by
      have := congrArg List.tail hd
      simpa [List.tail_drop] using this
    have ht : all.take (i + 1) = all.take i ++ [s] := by
      rw [List.take_add_one, hg]; rfl
    have mem : ∀ x, x ∈ all.take (i + 1) ↔ x ∈ all.take i ∨ x = s := fun x => by rw [ht]; simp
    simp only [pickSegment]
    by_cases ho : isOn O p s = true
    · simp only [ho, if_true]
      cases best with
      | none =>
        refine ih (i + 1) (some (i, s, (O.coords s p).2)) hd' ⟨hg, ho, rfl, fun x hx hxo => ?_⟩
        rcases (mem x).1 hx with h | h
        · have := hb x h; rw [this] at hxo; cases hxo
        · rw [h]
      | some b =>
        simp only at hb ⊢
        obtain ⟨b1, b2, b3, b4⟩ := hb
        by_cases hlt : (O.coords s p).2 < b.2.2
        · rw [if_pos hlt]
          refine ih (i + 1) (some (i, s, (O.coords s p).2)) hd' ⟨hg, ho, rfl, fun x hx hxo => ?_⟩
          rcases (mem x).1 hx with h | h
          · exact le_of_lt (lt_of_lt_of_le hlt (b4 x h hxo))
          · rw [h]
        · rw [if_neg hlt]
          refine ih (i + 1) (some b) hd' ⟨b1, b2, b3, fun x hx hxo => ?_⟩
          rcases (mem x).1 hx with h | h
          · exact b4 x h hxo
          · rw [h]; exact not_lt.1 hlt
    · simp only [ho]
      cases best with
      | none =>
        refine ih (i + 1) none hd' (fun x hx => ?_)
        rcases (mem x).1 hx with h | h
        · exact hb x h
        · rw [h]; simpa using ho
      | some b =>
        obtain ⟨b1, b2, b3, b4⟩ := hb
        refine ih (i + 1) (some b) hd' ⟨b1, b2, b3, fun x hx hxo => ?_⟩
        rcases (mem x).1 hx with h | h
        · exact b4 x h hxo
        · rw [h] at hxo; exact absurd hxo ho

/-- **C37** (partial: right if no segment the point projects onto has the point on its right, that is, a negative lateral distance).
A lane uses a segment the point projects onto, and none if there is none; under the condition it is a nearest one, and the lateral
distance reported is the one to it. -/
theorem C37_nearest_segment_partial {Seg : Type} (O : SegOps K Seg) (segs : List Seg) (p : K × K) :
    (getSegment O segs p = none ↔ ∀ s ∈ segs, isOn O p s = false) ∧
    ∀ i s, getSegment O segs p = some (i, s) → segs[i]? = some s ∧ isOn O p s = true ∧
      lateral O segs p = .ok (O.coords s p).2 ∧
      (∀ s' ∈ segs, isOn O p s' = true → (O.coords s p).2 ≤ (O.coords s' p).2) ∧
      ((∀ s' ∈ segs, isOn O p s' = true → 0 ≤ (O.coords s' p).2) →
        ∀ s' ∈ segs, isOn O p s' = true → |(O.coords s p).2| ≤ |(O.coords s' p).2|) := by
  have key := pickSegment_spec O p segs segs 0 none (by simp) (by simp)
  cases hb : pickSegment O p segs 0 none with
  | none =>
    simp only [hb] at key
    refine ⟨by simp [getSegment, hb]; simpa using key, fun i s h => by simp [getSegment, hb] at h⟩
  | some b =>
    simp only [hb] at key
    obtain ⟨k1, k2, k3, k4⟩ := key
    have hm : b.2.1 ∈ segs := List.mem_of_getElem? k1
    refine ⟨⟨fun h => by simp [getSegment, hb] at h, fun h => by rw [h _ hm] at k2; cases k2⟩, fun i s h => ?_⟩
    have hl : getSegment O segs p = some (i, s) := h
    simp only [getSegment, hb, Option.map_some, Option.some.injEq, Prod.mk.injEq] at h
    obtain ⟨rfl, rfl⟩ := h
    refine ⟨k1, k2, by simp [lateral, hl], fun s' h' ho => k3 ▸ k4 s' h' ho, fun hpos s' h' ho => ?_⟩
    rw [abs_of_nonneg (hpos _ hm k2), abs_of_nonneg (hpos s' h' ho)]
    exact k3 ▸ k4 s' h' ho

/-- Two segments, and a point to the left of both: the nearer one is used. -/
example : getSegment straightOps [(⟨(0, 0), (1, 0), 10, 0⟩ : Straight ℚ), ⟨(0, 5), (1, 0), 10, 10⟩] (5, 7) =
    some (1, ⟨(0, 5), (1, 0), 10, 10⟩) := by decide +kernel

/-- **C36**, positions on a lane. On a lane of straight segments whose starts were set by the constructor, the longitudinal position of a
point is its position on its segment plus the total length of the segments before, which is the start stored in the segment. -/
theorem C36_lane_position (segs : List (Straight K)) (p : K × K) (i : Nat) (s : Straight K)
    (h : getSegment straightOps (setStarts straightOps (fun (s : Straight K) a => { s with longStart := a }) segs 0) p = some (i, s)) :
    s.longStart = ((segs.take i).map Straight.length).sum ∧
    longitudinal straightOps (setStarts straightOps (fun (s : Straight K) a => { s with longStart := a }) segs 0) p =
      .ok ((s.coords p).1 + s.longStart) := by
  have key : ∀ (segs : List (Straight K)) (a : K) (i : Nat) (s : Straight K),
      (setStarts straightOps (fun (s : Straight K) a => { s with longStart := a }) segs a)[i]? = some s →
      s.longStart = a + ((segs.take i).map Straight.length).sum := by
    intro segs
    induction segs with
    | nil => intro a i s h; simp [setStarts] at h
    | cons x xs ih =>
      intro a i s h
      cases i with
      | zero =>
        simp only [setStarts, List.getElem?_cons_zero, Option.some.injEq] at h
        subst h; simp
      | succ i =>
        simp only [setStarts, List.getElem?_cons_succ] at h
        rw [ih _ i s h]
        simp only [List.take_succ_cons, List.map_cons, List.sum_cons, straightOps]
        ring
  have lens : ∀ (segs : List (Straight K)) (a : K) (i : Nat),
      ((setStarts straightOps (fun (s : Straight K) a => { s with longStart := a }) segs a).take i).map Straight.length =
        (segs.take i).map Straight.length := by
    intro segs
    induction segs with
    | nil => intro a i; simp [setStarts]
    | cons x xs ih =>
      intro a i
      cases i with
      | zero => simp
      | succ i => simp [setStarts, ih]
  have hs := ((C37_nearest_segment_partial straightOps _ p).2 i s h).1
  have h1 := key segs 0 i s hs
  rw [zero_add] at h1
  refine ⟨h1, ?_⟩
  simp only [longitudinal, h, h1]
  rw [show straightOps.length = Straight.length (K := K) from rfl, lens]
  rfl

example : getSegment straightOps (setStarts straightOps (fun (s : Straight ℚ) a => { s with longStart := a })
    [⟨(0, 0), (1, 0), 10, 0⟩, ⟨(10, 0), (4/5, 3/5), 5, 0⟩, ⟨(14, 3), (1, 0), 10, 0⟩] 0) (18, 3) =
      some (2, ⟨(14, 3), (1, 0), 10, 15⟩) := by decide +kernel

end

/-! ### Circular lanes -/

/-- **C25**, lateral distance. On a circular lane segment the interval computed for the lateral distance over a rectangle contains the
lateral distance of every point of the rectangle. -/
theorem C25_circular_lateral (l : Circular) (lo hi p : ℝ × ℝ) (hp : InRect lo hi p) : InIv (l.encloseLat lo hi) (l.coords p).2 := by
  obtain ⟨a1, a2, a3, a4⟩ := hp
  have low : norm2 (max (max (lo.1 - l.center.1) 0) (l.center.1 - hi.1), max (max (lo.2 - l.center.2) 0) (l.center.2 - hi.2)) ≤
      norm2 (p.1 - l.center.1, p.2 - l.center.2) := by
    apply norm2_mono
    · rw [abs_of_nonneg (le_max_of_le_left (le_max_right _ _))]
      refine max_le (max_le ?_ (abs_nonneg _)) ?_
      · exact le_trans (by linarith) (le_abs_self _)
      · exact le_trans (by linarith) (neg_le_abs _)
    · rw [abs_of_nonneg (le_max_of_le_left (le_max_right _ _))]
      refine max_le (max_le ?_ (abs_nonneg _)) ?_
      · exact le_trans (by linarith) (le_abs_self _)
      · exact le_trans (by linarith) (neg_le_abs _)
  have high : norm2 (p.1 - l.center.1, p.2 - l.center.2) ≤
      norm2 (max |lo.1 - l.center.1| |hi.1 - l.center.1|, max |lo.2 - l.center.2| |hi.2 - l.center.2|) := by
    apply norm2_mono
    · rw [abs_of_nonneg (le_max_of_le_left (abs_nonneg _))]
      exact abs_le_max_abs_abs (by linarith) (by linarith)
    · rw [abs_of_nonneg (le_max_of_le_left (abs_nonneg _))]
      exact abs_le_max_abs_abs (by linarith) (by linarith)
  have := mul_between _ _ _ l.direction (sub_le_sub_left high l.radius) (sub_le_sub_left low l.radius)
  simp only [InIv, Circular.encloseLat, Circular.coords]
  rw [mul_comm l.direction, mul_comm l.direction, mul_comm l.direction]
  exact this

/-- A rectangle around the center is a case. -/
example : InRect (K := ℝ) (-1, -1) (2, 1) (1, 0) := by norm_num [InRect]

/-- **C25**, longitudinal position (partial: the rectangle lies in the open upper, lower or right half plane of the center, and no angle at
which the longitudinal position wraps around lies between the smallest and the largest angle of its corners). The interval computed for
the longitudinal position over the rectangle contains that of every point of the rectangle. -/
theorem C25_circular_longitudinal_partial (l : Circular) (lo hi p : ℝ × ℝ) (hp : InRect lo hi p)
    (hhalf : l.center.1 < lo.1 ∨ l.center.2 < lo.2 ∨ hi.2 < l.center.2)
    (hwrap : ∀ a b, a ∈ [arctan2 (lo.2 - l.center.2) (lo.1 - l.center.1), arctan2 (lo.2 - l.center.2) (hi.1 - l.center.1),
        arctan2 (hi.2 - l.center.2) (lo.1 - l.center.1), arctan2 (hi.2 - l.center.2) (hi.1 - l.center.1)] →
      b ∈ [arctan2 (lo.2 - l.center.2) (lo.1 - l.center.1), arctan2 (lo.2 - l.center.2) (hi.1 - l.center.1),
        arctan2 (hi.2 - l.center.2) (lo.1 - l.center.1), arctan2 (hi.2 - l.center.2) (hi.1 - l.center.1)] →
      ⌊(a - l.startPhase + Real.pi) / (2 * Real.pi)⌋ = ⌊(b - l.startPhase + Real.pi) / (2 * Real.pi)⌋) :
    InIv (l.encloseLong lo hi) ((l.coords p).1 + l.longStart) := by
  obtain ⟨a1, a2, a3, a4⟩ := hp
  have hb := arctan2_between (lo.1 - l.center.1, lo.2 - l.center.2) (hi.1 - l.center.1, hi.2 - l.center.2)
    (p.1 - l.center.1, p.2 - l.center.2) (by simp only; linarith) (by simp only; linarith) (by simp only; linarith)
    (by simp only; linarith) (by
      simp only
      rcases hhalf with h | h | h
      · exact .inl (by linarith)
      · exact .inr (.inl (by linarith))
      · exact .inr (.inr (by linarith)))
  simp only at hb
  have hw := wrap_between l.startPhase _ _ _ hb.1 hb.2 (by
    apply hwrap
    · rcases min_choice (min (arctan2 (lo.2 - l.center.2) (lo.1 - l.center.1)) (arctan2 (lo.2 - l.center.2) (hi.1 - l.center.1)))
        (min (arctan2 (hi.2 - l.center.2) (lo.1 - l.center.1)) (arctan2 (hi.2 - l.center.2) (hi.1 - l.center.1))) with e | e
      · rw [e]
        rcases min_choice (arctan2 (lo.2 - l.center.2) (lo.1 - l.center.1)) (arctan2 (lo.2 - l.center.2) (hi.1 - l.center.1)) with e | e <;>
          simp [e]
      · rw [e]
        rcases min_choice (arctan2 (hi.2 - l.center.2) (lo.1 - l.center.1)) (arctan2 (hi.2 - l.center.2) (hi.1 - l.center.1)) with e | e <;>
          simp [e]
    · rcases max_choice (max (arctan2 (lo.2 - l.center.2) (lo.1 - l.center.1)) (arctan2 (lo.2 - l.center.2) (hi.1 - l.center.1)))
        (max (arctan2 (hi.2 - l.center.2) (lo.1 - l.center.1)) (arctan2 (hi.2 - l.center.2) (hi.1 - l.center.1))) with e | e
      · rw [e]
        rcases max_choice (arctan2 (lo.2 - l.center.2) (lo.1 - l.center.1)) (arctan2 (lo.2 - l.center.2) (hi.1 - l.center.1)) with e | e <;>
          simp [e]
      · rw [e]
        rcases max_choice (arctan2 (hi.2 - l.center.2) (lo.1 - l.center.1)) (arctan2 (hi.2 - l.center.2) (hi.1 - l.center.1)) with e | e <;>
          simp [e])
  have hm := mul_between _ _ _ (l.direction * l.radius) hw.1 hw.2
  simp only [InIv, Circular.encloseLong, Circular.coords, add_sub_cancel_left]
  have r : ∀ x, l.direction * x * l.radius = x * (l.direction * l.radius) := fun x => by ring
  simp only [r]
  exact ⟨by linarith [hm.1], by linarith [hm.2]⟩

/-- Every rectangle to the right of the center meets the conditions, if the lane starts to the right. -/
example (a b c d : ℝ) (h : 0 < a) (h' : 0 < b) : ∀ x y, x ∈ [arctan2 c a, arctan2 c b, arctan2 d a, arctan2 d b] →
    y ∈ [arctan2 c a, arctan2 c b, arctan2 d a, arctan2 d b] →
    ⌊(x - 0 + Real.pi) / (2 * Real.pi)⌋ = ⌊(y - 0 + Real.pi) / (2 * Real.pi)⌋ := by
  have hp := Real.pi_pos
  have key : ∀ x, x ∈ [arctan2 c a, arctan2 c b, arctan2 d a, arctan2 d b] → ⌊(x - 0 + Real.pi) / (2 * Real.pi)⌋ = 0 := by
    intro x hx
    have hx' : -(Real.pi / 2) < x ∧ x < Real.pi / 2 := by
      simp only [List.mem_cons, List.not_mem_nil, or_false] at hx
      rcases hx with rfl | rfl | rfl | rfl <;>
        (rw [arctan2_right _ _ (by assumption)]; exact ⟨Real.neg_pi_div_two_lt_arctan _, Real.arctan_lt_pi_div_two _⟩)
    rw [Int.floor_eq_zero_iff]
    constructor
    · apply div_nonneg <;> linarith
    · rw [div_lt_one (by linarith)]; linarith
  intro x y hx hy
  rw [key x hx, key y hy]

/-- **C25**, longitudinal position, violated: a rectangle to the left of the center, crossing the ray where `arctan2` jumps. The point in the
middle of it has longitudinal position `-π`, outside of the computed interval. -/
theorem C25_branch_cut_violated : ∃ (l : Circular) (lo hi p : ℝ × ℝ), InRect lo hi p ∧ 0 < l.radius ∧
    ¬ InIv (l.encloseLong lo hi) ((l.coords p).1 + l.longStart) := by
  refine ⟨⟨(0, 0), 1, 0, Real.pi, false, 0⟩, (-1, -1), (-1, 1), (-1, 0), by norm_num [InRect], by norm_num, ?_⟩
  have hpi := Real.pi_pos
  have e1 : arctan2 (-1) (-1) = -(3 * Real.pi / 4) := by
    rw [arctan2_down _ _ (by norm_num)]; norm_num [Real.arctan_one]; ring
  have e2 : arctan2 1 (-1) = 3 * Real.pi / 4 := by
    rw [arctan2_up _ _ (by norm_num)]; norm_num [Real.arctan_neg, Real.arctan_one]; ring
  have e3 : arctan2 0 (-1) = Real.pi :=
    arctan2_of Real.pi 1 _ _ one_pos (by simp) (by simp) (by linarith) (le_refl _)
  have w1 : wrapToPi (-(3 * Real.pi / 4)) = -(3 * Real.pi / 4) := wrapToPi_unique _ _ 0 (by simp) (by linarith) (by linarith)
  have w2 : wrapToPi (3 * Real.pi / 4) = 3 * Real.pi / 4 := wrapToPi_unique _ _ 0 (by simp) (by linarith) (by linarith)
  have w3 : wrapToPi Real.pi = -Real.pi := wrapToPi_unique _ _ (-1) (by push_cast; ring) (le_refl _) (by linarith)
  have h1 : min (-(3 * Real.pi / 4)) (3 * Real.pi / 4) = -(3 * Real.pi / 4) := min_eq_left (by linarith)
  have h2 : max (-(3 * Real.pi / 4)) (3 * Real.pi / 4) = 3 * Real.pi / 4 := max_eq_right (by linarith)
  simp only [InIv, Circular.encloseLong, Circular.coords, Circular.direction, sub_zero, e1, e2, e3, min_self, max_self, h1, h2, w1, w2, w3]
  norm_num
  intro h
  rcases h with h | h <;> linarith

/-- **C36**, straight lanes. Converting lane coordinates to a position and back gives the same coordinates, and the other way round;
moving along the direction of the lane keeps the lateral distance. -/
theorem C36_straight_round_trip (start fin : ℝ × ℝ) (hne : start ≠ fin) (a b t : ℝ) (p : ℝ × ℝ) :
    (Straight.new start fin).coords ((Straight.new start fin).position a b) = (a, b) ∧
    (Straight.new start fin).position ((Straight.new start fin).coords p).1 ((Straight.new start fin).coords p).2 = p ∧
    ((Straight.new start fin).coords (p.1 + t * (Straight.new start fin).dir.1, p.2 + t * (Straight.new start fin).dir.2)).2 =
      ((Straight.new start fin).coords p).2 := by
  set l := Straight.new start fin with hl
  have hn : norm2 (fin.1 - start.1, fin.2 - start.2) ≠ 0 := by
    intro h
    have := norm2_sq (fin.1 - start.1, fin.2 - start.2)
    rw [h] at this
    simp only [mul_zero] at this
    have h1 : fin.1 - start.1 = 0 := by nlinarith [mul_self_nonneg (fin.1 - start.1), mul_self_nonneg (fin.2 - start.2)]
    have h2 : fin.2 - start.2 = 0 := by nlinarith [mul_self_nonneg (fin.1 - start.1), mul_self_nonneg (fin.2 - start.2)]
    exact hne (Prod.ext (by linarith) (by linarith))
  have hu : l.dir.1 * l.dir.1 + l.dir.2 * l.dir.2 = 1 := by
    simp only [hl, Straight.new]
    have := norm2_sq (fin.1 - start.1, fin.2 - start.2)
    simp only at this
    field_simp
    linarith [this]
  refine ⟨?_, ?_, ?_⟩
  · simp only [Straight.coords, Straight.position, Straight.latDir, Prod.mk.injEq]
    exact ⟨by linear_combination a * hu, by linear_combination b * hu⟩
  · simp only [Straight.coords, Straight.position, Straight.latDir]
    refine Prod.ext ?_ ?_
    · simp only; linear_combination (p.1 - l.start.1) * hu
    · simp only; linear_combination (p.2 - l.start.2) * hu
  · simp only [Straight.coords, Straight.latDir]
    ring

/-- A lane with different end points. -/
example : ((0 : ℝ), (0 : ℝ)) ≠ (4, 3) := by norm_num

/-- **C36**, circular lanes (partial: up to half a turn from the start of the lane in either direction). Converting lane coordinates to a
position and back gives the same coordinates. -/
theorem C36_circular_round_trip_partial (l : Circular) (a b : ℝ) (hr : 0 < l.radius) (hb : b * l.direction < l.radius)
    (h1 : -Real.pi ≤ l.direction * a / l.radius) (h2 : l.direction * a / l.radius < Real.pi) :
    l.coords (l.position a b) = (a, b) := by
  set φ := l.direction * a / l.radius + l.startPhase with hφ
  set ρ := l.radius - b * l.direction with hρ
  have hρ0 : 0 < ρ := by linarith
  have hd : l.direction * l.direction = 1 := by unfold Circular.direction; split <;> norm_num
  -- the angle
  obtain ⟨k, hk⟩ : ∃ k : ℤ, arctan2 (ρ * Real.sin φ) (ρ * Real.cos φ) = φ + 2 * Real.pi * k := by
    have hp := Real.pi_pos
    by_cases he : wrapToPi φ = -Real.pi
    · obtain ⟨k, hk⟩ := wrapToPi_congr φ
      refine ⟨k + 1, ?_⟩
      have e : φ = Real.pi + ((-(k + 1) : ℤ) : ℝ) * (2 * Real.pi) := by push_cast; linarith
      have hc : Real.cos φ = Real.cos Real.pi := by rw [e]; exact Real.cos_add_int_mul_two_pi _ _
      have hs : Real.sin φ = Real.sin Real.pi := by rw [e]; exact Real.sin_add_int_mul_two_pi _ _
      rw [hc, hs, arctan2_of Real.pi ρ _ _ hρ0 rfl rfl (by linarith) (le_refl _)]
      push_cast; linarith
    · obtain ⟨k, hk⟩ := wrapToPi_congr φ
      obtain ⟨r1, r2⟩ := wrapToPi_range φ
      refine ⟨k, ?_⟩
      have e : wrapToPi φ = φ + (k : ℝ) * (2 * Real.pi) := by rw [hk]; ring
      have hc : Real.cos φ = Real.cos (wrapToPi φ) := by rw [e]; exact (Real.cos_add_int_mul_two_pi _ _).symm
      have hs : Real.sin φ = Real.sin (wrapToPi φ) := by rw [e]; exact (Real.sin_add_int_mul_two_pi _ _).symm
      rw [hc, hs, arctan2_of (wrapToPi φ) ρ _ _ hρ0 rfl rfl (lt_of_le_of_ne r1 (Ne.symm he)) (le_of_lt r2), hk]
  have hw : wrapToPi (arctan2 (ρ * Real.sin φ) (ρ * Real.cos φ) - l.startPhase) = l.direction * a / l.radius :=
    wrapToPi_unique _ _ (-k) (by rw [hk, hφ]; push_cast; ring) h1 h2
  have hn : norm2 (ρ * Real.cos φ, ρ * Real.sin φ) = ρ := by
    unfold norm2
    have : ρ * Real.cos φ * (ρ * Real.cos φ) + ρ * Real.sin φ * (ρ * Real.sin φ) = ρ * ρ := by
      linear_combination ρ * ρ * Real.sin_sq_add_cos_sq φ
    simp only [this]
    exact Real.sqrt_mul_self (le_of_lt hρ0)
  have hx : ∀ c x : ℝ, c + x - c = x := fun c x => by ring
  simp only [Circular.coords, Circular.position, ← hφ, ← hρ, hx, hw, hn, Prod.mk.injEq]
  constructor
  · field_simp
    linear_combination a * hd
  · rw [hρ]; linear_combination b * hd

/-- A quarter turn on a circle is a case. -/
example : -Real.pi ≤ (⟨(0, 0), 2, 0, Real.pi, false, 0⟩ : Circular).direction * 1 / 2 ∧
    (⟨(0, 0), 2, 0, Real.pi, false, 0⟩ : Circular).direction * 1 / 2 < Real.pi := by
  have := Real.two_le_pi
  simp only [Circular.direction]
  norm_num
  exact ⟨by linarith, by linarith⟩

/-- **C36**, circular lanes, violated: on a lane of three quarters of a turn, the point after half a turn gets a negative longitudinal
position. -/
theorem C36_long_arc_violated : ∃ (l : Circular) (a b : ℝ), 0 < l.radius ∧ 0 ≤ a ∧ a ≤ l.length ∧ l.coords (l.position a b) ≠ (a, b) := by
  have hpi := Real.pi_pos
  refine ⟨⟨(0, 0), 1, 0, 3 * Real.pi / 2, false, 0⟩, Real.pi, 0, by norm_num, le_of_lt hpi, ?_, ?_⟩
  · simp only [Circular.length, Circular.direction]; norm_num; linarith
  · have e3 : arctan2 0 (-1) = Real.pi :=
      arctan2_of Real.pi 1 _ _ one_pos (by simp) (by simp) (by linarith) (le_refl _)
    have w3 : wrapToPi Real.pi = -Real.pi := wrapToPi_unique _ _ (-1) (by push_cast; ring) (le_refl _) (by linarith)
    intro h
    have h := congrArg Prod.fst h
    simp [Circular.coords, Circular.position, Circular.direction, e3, w3] at h
    linarith

/-! ### Names -/

/-- **C38**, existence. `h_exist` answers true exactly if `h` yields a lane mode. -/
theorem C38_exists_iff_switchable (d : Dict (String × String × String) String) (lane src dest : String) :
    hExist d lane src dest = true ↔ ∃ m, h d lane src dest = .ok (some m) := by
  unfold hExist
  rw [Dict.mem_iff]
  unfold h
  cases hg : Dict.get? d (lane, src, dest) with
  | none => cases hd : d.isEmpty <;> simp
  | some m =>
    have : d.isEmpty = false := by
      cases d with
      | nil => simp at hg
      | cons => rfl
    simp [this]

/-- A map with one lane change. -/
example : hExist [(("T0", "Normal", "SwitchLeft"), "M01")] "T0" "Normal" "SwitchLeft" = true ∧
    hExist [(("T0", "Normal", "SwitchLeft"), "M01")] "T1" "Normal" "SwitchLeft" = false := by decide +kernel

/-- **C38**, lanes of composite modes. The lane between track `a` and track `b` lies physically on track `a`; a lane mode of an
intersection, direction, number and turn, lies on the lane with the direction and number; physical lanes are their own. -/
theorem C38_physical_lane (a b : Char) (ha : isDigit a = true) (hb : isDigit b = true)
    (u d e : List Char) (hu : u ≠ [] ∧ ∀ c ∈ u, isUpper c = true) (hd : d ≠ [] ∧ ∀ c ∈ d, isDigit c = true)
    (he : e ≠ [] ∧ ∀ c ∈ e, isDigit c = true) :
    physLane ['M', a, b] = ['T', a] ∧ physLane ['T', a] = ['T', a] ∧
    physLane (u ++ '_' :: d ++ '_' :: e) = u ++ '_' :: d ∧ physLane (u ++ '_' :: d) = u ++ '_' :: d := by
  have dU : ∀ c, isDigit c = true → c ≠ '_' := fun c hc e => by subst e; simp [isDigit] at hc
  have hU : isUpper '_' = false := by decide
  have hD : isDigit '_' = false := by decide
  have tw : ∀ (f : Char → Bool) (s r : List Char) (c : Char), (∀ c ∈ s, f c = true) → f c = false →
      (s ++ c :: r).takeWhile f = s ∧ (s ++ c :: r).dropWhile f = c :: r := by
    intro f s r c hs hc
    induction s with
    | nil => simp [hc]
    | cons x s ih =>
      have hx := hs x (by simp)
      have := ih (fun c h => hs c (by simp [h]))
      simp [hx, this]
  have tw' : ∀ (f : Char → Bool) (s : List Char), (∀ c ∈ s, f c = true) → s.takeWhile f = s ∧ s.dropWhile f = [] := by
    intro f s hs
    induction s with
    | nil => simp
    | cons x s ih =>
      have hx := hs x (by simp)
      have := ih (fun c h => hs c (by simp [h]))
      simp [hx, this]
  have nv : ∀ r, isVirt (u ++ '_' :: r) = false := by
    intro r
    obtain ⟨hne, hall⟩ := hu
    rcases u with _ | ⟨x, _ | ⟨y, _ | ⟨z, u⟩⟩⟩
    · exact absurd rfl hne
    · unfold isVirt
      split
      · rename_i a' b' t heq
        simp only [List.cons_append, List.nil_append, List.cons.injEq] at heq
        obtain ⟨_, rfl, _⟩ := heq
        simp [hD]
      · rfl
    · unfold isVirt
      split
      · rename_i a' b' t heq
        simp only [List.cons_append, List.nil_append, List.cons.injEq] at heq
        obtain ⟨_, _, rfl, _⟩ := heq
        simp [hD]
      · rfl
    · unfold isVirt
      split
      · rename_i a' b' t heq
        simp only [List.cons_append, List.cons.injEq] at heq
        obtain ⟨_, h1, _, _⟩ := heq
        have := hall y (by simp)
        rw [h1] at this
        have : isDigit a' = false := by
          simp only [isUpper, isDigit, Bool.and_eq_true, decide_eq_true_eq, Bool.and_eq_false_iff, decide_eq_false_iff_not] at this ⊢
          right
          intro hc
          exact absurd (Char.le_trans this.1 hc) (by decide)
        simp [this]
      · rfl
  have eatU : ∀ r, eat isUpper (u ++ '_' :: r) = some ('_' :: r) := fun r => by
    obtain ⟨t1, t2⟩ := tw isUpper u r '_' hu.2 hU
    unfold eat; rw [t1, t2]; simp [hu.1]
  have eatD : ∀ r, eat isDigit (d ++ '_' :: r) = some ('_' :: r) := fun r => by
    obtain ⟨t1, t2⟩ := tw isDigit d r '_' hd.2 hD
    unfold eat; rw [t1, t2]; simp [hd.1]
  have eatD' : ∀ s : List Char, s ≠ [] → (∀ c ∈ s, isDigit c = true) → eat isDigit s = some [] := fun s hs h => by
    obtain ⟨t1, t2⟩ := tw' isDigit s h
    unfold eat; rw [t1, t2]; simp [hs]
  refine ⟨by simp [physLane, isVirt, ha, hb], ?_, ?_, ?_⟩
  · have : isIntersectVirt ['T', a] = false := by
      have hna : isUpper a = false := by
        simp only [isUpper, isDigit, Bool.and_eq_true, decide_eq_true_eq, Bool.and_eq_false_iff, decide_eq_false_iff_not] at ha ⊢
        left
        intro hc
        exact absurd (Char.le_trans hc ha.2) (by decide)
      have hua : a ≠ '_' := dU a ha
      have hT : isUpper 'T' = true := by decide
      simp only [isIntersectVirt, eat, List.takeWhile_cons, List.dropWhile_cons, hT, hna, if_true]
      simp [eatUnderscore]
      split <;> simp_all
    simp [physLane, isVirt, this]
  · have h1 : isIntersectVirt (u ++ '_' :: d ++ '_' :: e) = true := by
      have : u ++ '_' :: d ++ '_' :: e = u ++ '_' :: (d ++ '_' :: e) := by simp
      rw [this]
      simp only [isIntersectVirt, eatU, Option.bind_some, eatUnderscore, eatD, eatD' e he.1 he.2, Option.isSome_some]
    have h2 : isVirt (u ++ '_' :: d ++ '_' :: e) = false := by
      have : u ++ '_' :: d ++ '_' :: e = u ++ '_' :: (d ++ '_' :: e) := by simp
      rw [this]; exact nv _
    have h3 : beforeLastUnderscore (u ++ '_' :: d ++ '_' :: e) = u ++ '_' :: d := by
      have hr : (u ++ '_' :: d ++ '_' :: e).reverse = e.reverse ++ '_' :: (u ++ '_' :: d).reverse := by simp
      have := (tw (fun c => c != '_') e.reverse (u ++ '_' :: d).reverse '_'
        (fun c hc => by simpa using dU c (he.2 c (by simpa using hc))) (by simp)).2
      unfold beforeLastUnderscore
      rw [if_pos (by simp), hr, this]
      simp
    simp only [physLane, h1, h2, h3, if_true]
    simp
  · have h1 : isIntersectVirt (u ++ '_' :: d) = false := by
      simp only [isIntersectVirt, eatU, Option.bind_some, eatUnderscore, eatD' d hd.1 hd.2, Option.bind_none]
      rfl
    simp [physLane, h1, nv]

/-- `N_0_1` is a lane mode of an intersection. -/
example : (['N'] ≠ [] ∧ ∀ c ∈ ['N'], isUpper c = true) ∧ (['0'] ≠ [] ∧ ∀ c ∈ ['0'], isDigit c = true) := by decide

end Verif.Props
