import Verif.Proofs.Angular
import Verif.Proofs.Basic
import Mathlib.Tactic.NormNum

/-!
C45, C46 and C66: wrapped differences of angles, merging of angular bounds and the membership test for
wrapped intervals. `p` is half a turn.
-/

set_option autoImplicit false

namespace Verif.Props

open Verif.Spec Verif.Ang

variable {K : Type} [Field K] [LinearOrder K] [IsStrictOrderedRing K]

/-! ### C45 -/

/-- **C45 (partial).** `angular_bounds_diff_correct` on two intervals of angles contains the wrapped
difference of every pair of angles of the two, provided that one of the intervals is the full turn, or
that the two widths together are below a turn, or that the difference of the lower end of the first and
the upper end of the second is outside `(-p, 0)`. Missing: the remaining case, where the claim is false
for every pair of intervals (`C45_diff_violated`). -/
theorem C45_diff_partial [FloorRing K] (p : K) (hp : 0 < p) (a1 a2 b1 b2 : K) (ha : -p ≤ a1) (ha' : a1 ≤ a2) (ha2 : a2 ≤ p)
    (hb : -p ≤ b1) (hb' : b1 ≤ b2) (hb2 : b2 ≤ p)
    (hw : (a1 = -p ∧ a2 = p) ∨ (b1 = -p ∧ b2 = p) ∨ (a2 - a1) + (b2 - b1) < 2 * p ∨ a1 - b2 ≤ -p ∨ 0 ≤ a1 - b2)
    (a b y : K) (h1 : a1 ≤ a) (h2 : a ≤ a2) (h3 : b1 ≤ b) (h4 : b ≤ b2) (hy : IsWrap p (a - b) y) :
    (angDiff p (a1, a2) (b1, b2)).Has p y := by
  obtain ⟨⟨k, hk⟩, hy1, hy2⟩ := hy
  unfold angDiff
  dsimp only
  split
  · simp only [ABound.Has, ABound.parts, gt_iff_lt, show ¬ p < -p by linarith, if_false]
    exact ⟨_, List.mem_singleton_self _, by linarith, hy2⟩
  next hfull =>
  generalize hr : raiseLoop p ⌈-(a1 - b2) / (2 * p)⌉₊ (a1 - b2) 0 = r
  obtain ⟨r0, r1, r2, r3, r4⟩ := angDiff_normal p hp (a1 - b2) (a2 - b1) r hr
  -- the difference, shifted like the two ends
  obtain ⟨d, hd⟩ : ∃ d, d = (a - b) + 2 * p * r.2 := ⟨_, rfl⟩
  have hd1 : r.1 ≤ d := by rw [r1, hd]; linarith
  have hd2 : d ≤ (a2 - b1) + 2 * p * r.2 := by rw [hd]; linarith
  have hyd : y = d + 2 * p * ((k - r.2 : ℤ) : K) := by rw [hk, hd]; push_cast; ring
  have hr2p : r.1 ≤ 2 * p := by
    by_cases h0 : a1 - b2 < 0
    · exact le_of_lt (r2 h0)
    · rw [r3 (not_lt.1 h0)]; dsimp only; linarith
  generalize hm : (k - r.2 : ℤ) = m at hyd
  generalize hM : (a2 - b1) + 2 * p * (r.2 : K) = D at hd2 r4 ⊢
  split
  · next hc =>
    simp only [ABound.Has, ABound.parts]
    by_cases hdp : d ≤ p
    · have : y = d := turns_unique p hp d y m hyd (by linarith) (by linarith)
      rw [this]
      exact ⟨(r.1, p), by simp, hd1, hdp⟩
    · by_cases hyp : y < d - 2 * p ∨ y = d - 2 * p
      · exact ⟨(-p, D - 2 * p), by simp, le_of_lt hy1, by rcases hyp with h | h <;> dsimp only <;> linarith⟩
      · -- the difference passes half a turn a second time
        have hlt : d - 2 * p < y := lt_of_le_of_ne (not_lt.1 (fun h => hyp (.inl h))) (fun h => hyp (.inr h.symm))
        by_cases hyD : y ≤ D - 2 * p
        · exact ⟨(-p, D - 2 * p), by simp, le_of_lt hy1, hyD⟩
        · exfalso
          have : y = d - 2 * p := turns_unique p hp (d - 2 * p) y (m + 1) (by rw [hyd]; push_cast; ring)
            (by linarith [not_le.1 hdp]) (by linarith)
          linarith
  · next hc =>
    rcases le_or_gt r.1 p with hrp | hrp
    · have hDp : D < p := by
        by_contra h
        exact hc ⟨hrp, not_lt.1 h⟩
      have e1 : wrapAngle p r.1 = r.1 := wrapAngle_eq p _ _ hp ⟨⟨0, by simp⟩, by linarith, hrp⟩
      have e2 : wrapAngle p D = D := wrapAngle_eq p _ _ hp ⟨⟨0, by simp⟩, by linarith, le_of_lt hDp⟩
      have : y = d := turns_unique p hp d y m hyd (by linarith) (by linarith)
      rw [e1, e2, if_neg (by linarith : ¬ r.1 > D)]
      simp only [ABound.Has, ABound.parts, gt_iff_lt, not_lt.2 (hd1.trans hd2), if_false]
      rw [this]
      exact ⟨_, List.mem_singleton_self _, hd1, hd2⟩
    · have hwid : D - r.1 < 2 * p := by
        rw [r4]
        rcases hw with h | h | h | h | h
        · exact absurd (.inl h) hfull
        · exact absurd (.inr h) hfull
        · linarith
        · exfalso
          have h0 : a1 - b2 < 0 := by linarith
          have hlt := r2 h0
          have : r.1 = a1 - b2 + 2 * p := by
            refine turns_unique p hp _ _ (r.2 - 1) ?_ (by linarith) (by linarith)
            rw [r1]; push_cast; ring
          linarith
        · have hh := r3 h
          rw [hh] at hrp; dsimp only at hrp
          linarith
      have hr2p' : r.1 < 2 * p ∨ r.1 = 2 * p := lt_or_eq_of_le hr2p
      have e1 : wrapAngle p r.1 = r.1 - 2 * p := wrapAngle_eq p _ _ hp ⟨⟨-1, by push_cast; ring⟩, by linarith, by linarith⟩
      rcases le_or_gt D (3 * p) with hD | hD
      · have e2 : wrapAngle p D = D - 2 * p := wrapAngle_eq p _ _ hp ⟨⟨-1, by push_cast; ring⟩, by linarith, by linarith⟩
        have : y = d - 2 * p := turns_unique p hp (d - 2 * p) y (m + 1) (by rw [hyd]; push_cast; ring) (by linarith) (by linarith)
        rw [e1, e2, if_neg (by linarith : ¬ r.1 - 2 * p > D - 2 * p)]
        simp only [ABound.Has, ABound.parts, gt_iff_lt, not_lt.2 (by linarith : r.1 - 2 * p ≤ D - 2 * p), if_false]
        rw [this]
        exact ⟨_, List.mem_singleton_self _, by dsimp only; linarith, by dsimp only; linarith⟩
      · have e2 : wrapAngle p D = D - 4 * p := wrapAngle_eq p _ _ hp ⟨⟨-2, by push_cast; ring⟩, by linarith, by linarith⟩
        rw [e1, e2, if_pos (by linarith : r.1 - 2 * p > D - 4 * p)]
        simp only [ABound.Has, ABound.parts]
        rcases le_or_gt d (3 * p) with hd3 | hd3
        · have : y = d - 2 * p := turns_unique p hp (d - 2 * p) y (m + 1) (by rw [hyd]; push_cast; ring) (by linarith) (by linarith)
          rw [this]
          exact ⟨(r.1 - 2 * p, p), by simp, by dsimp only; linarith, by dsimp only; linarith⟩
        · have : y = d - 4 * p := turns_unique p hp (d - 4 * p) y (m + 2) (by rw [hyd]; push_cast; ring) (by linarith) (by linarith)
          rw [this]
          exact ⟨(-p, D - 4 * p), by simp, by dsimp only; linarith, by dsimp only; linarith⟩

/-- **C45, no slack.** Every angle in the result of `angular_bounds_diff_correct` is the wrapped
difference of some pair of angles of the two intervals. -/
theorem C45_diff_tight [FloorRing K] (p : K) (hp : 0 < p) (a1 a2 b1 b2 : K) (ha : -p ≤ a1) (ha' : a1 ≤ a2) (ha2 : a2 ≤ p)
    (hb : -p ≤ b1) (hb' : b1 ≤ b2) (hb2 : b2 ≤ p) (y : K) (hy1 : -p < y) (hy2 : y ≤ p)
    (h : (angDiff p (a1, a2) (b1, b2)).Has p y) :
    ∃ a b, a1 ≤ a ∧ a ≤ a2 ∧ b1 ≤ b ∧ b ≤ b2 ∧ IsWrap p (a - b) y := by
  -- a number between the raw ends is a difference
  have key : ∀ x, a1 - b2 ≤ x → x ≤ a2 - b1 → ∀ k : ℤ, y = x + 2 * p * k →
      ∃ a b, a1 ≤ a ∧ a ≤ a2 ∧ b1 ≤ b ∧ b ≤ b2 ∧ IsWrap p (a - b) y := by
    intro x hx1 hx2 k hk
    by_cases hc : x + b2 ≤ a2
    · exact ⟨x + b2, b2, by linarith, hc, hb', le_refl _, ⟨k, by rw [hk]; ring⟩, hy1, hy2⟩
    · exact ⟨a2, a2 - x, ha', le_refl _, by linarith, by linarith [not_le.1 hc], ⟨k, by rw [hk]; ring⟩, hy1, hy2⟩
  unfold angDiff at h
  dsimp only at h
  split at h
  · next hfull =>
    rcases hfull with ⟨h1, h2⟩ | ⟨h1, h2⟩
    · by_cases hc : y + b2 ≤ p
      · by_cases hc' : -p ≤ y + b2
        · exact key y (by linarith) (by linarith) 0 (by simp)
        · exact key (y + 2 * p) (by linarith) (by linarith [not_le.1 hc']) (-1) (by push_cast; ring)
      · exact key (y - 2 * p) (by linarith [not_le.1 hc]) (by linarith) 1 (by push_cast; ring)
    · by_cases hc : a1 - p ≤ y ∧ y ≤ a2 + p
      · exact key y (by linarith) (by linarith) 0 (by simp)
      · by_cases hc1 : a1 - p ≤ y
        · exact key (y - 2 * p) (by have := not_le.1 (fun h => hc ⟨hc1, h⟩); linarith) (by linarith) 1 (by push_cast; ring)
        · exact key (y + 2 * p) (by linarith) (by have := not_le.1 hc1; linarith) (-1) (by push_cast; ring)
  next hfull =>
  generalize hr : raiseLoop p ⌈-(a1 - b2) / (2 * p)⌉₊ (a1 - b2) 0 = r at h
  obtain ⟨r0, r1, r2, r3, r4⟩ := angDiff_normal p hp (a1 - b2) (a2 - b1) r hr
  have hr2p : r.1 ≤ 2 * p := by
    by_cases h0 : a1 - b2 < 0
    · exact le_of_lt (r2 h0)
    · rw [r3 (not_lt.1 h0)]; dsimp only; linarith
  -- the same for the shifted ends
  have key' : ∀ x, r.1 ≤ x → x ≤ (a2 - b1) + 2 * p * r.2 → ∀ k : ℤ, y = x + 2 * p * k →
      ∃ a b, a1 ≤ a ∧ a ≤ a2 ∧ b1 ≤ b ∧ b ≤ b2 ∧ IsWrap p (a - b) y := by
    intro x hx1 hx2 k hk
    refine key (x - 2 * p * r.2) (by rw [r1] at hx1; linarith) (by linarith) (k + r.2) ?_
    rw [hk]; push_cast; ring
  generalize hM : (a2 - b1) + 2 * p * (r.2 : K) = D at h r4 key'
  have hrD : r.1 ≤ D := by linarith
  split at h
  · next hc =>
    obtain ⟨iv, hiv, hy⟩ := h
    simp only [ABound.parts, List.mem_cons, List.not_mem_nil, or_false] at hiv
    rcases hiv with rfl | rfl
    · exact key' y hy.1 (hy.2.trans hc.2) 0 (by simp)
    · dsimp only at hy
      exact key' (y + 2 * p) (by linarith) (by linarith) (-1) (by push_cast; ring)
  · next hc =>
    obtain ⟨⟨k1, hk1⟩, w1, w2⟩ := wrapAngle_isWrap p r.1 hp
    obtain ⟨⟨k2, hk2⟩, w3, w4⟩ := wrapAngle_isWrap p D hp
    generalize wrapAngle p r.1 = m1 at *
    generalize wrapAngle p D = m2 at *
    have hw : (m1 = r.1 ∧ r.1 ≤ p) ∨ (m1 = r.1 - 2 * p ∧ p < r.1) := by
      rcases le_or_gt r.1 p with h | h
      · exact .inl ⟨turns_unique p hp _ _ k1 hk1 (by linarith) (by linarith), h⟩
      · refine .inr ⟨turns_unique p hp _ _ (k1 + 1) (by rw [hk1]; push_cast; ring) (by linarith) (by linarith), h⟩
    have hDr : r.1 ≤ p → D < p := fun h => by
      by_contra hc'
      exact hc ⟨h, not_lt.1 hc'⟩
    have hD4 : D ≤ 5 * p := by
      by_cases h0 : a1 - b2 < 0
      · have hlt := r2 h0
        have : r.1 ≤ a1 - b2 + 2 * p := by
          by_contra hc'
          have hc' := not_le.1 hc'
          have : r.1 = a1 - b2 + 2 * p := turns_unique p hp _ _ (r.2 - 1) (by rw [r1]; push_cast; ring) (by linarith) (by linarith)
          linarith
        linarith
      · have e := r3 (not_lt.1 h0)
        rw [e] at r4; dsimp only at r4
        linarith
    split at h
    · next hgt =>
      obtain ⟨iv, hiv, hy⟩ := h
      simp only [ABound.parts, List.mem_cons, List.not_mem_nil, or_false] at hiv
      rcases hw with ⟨e, hle⟩ | ⟨e, hle⟩
      · exfalso
        have := hDr hle
        have : m2 = D := turns_unique p hp _ _ k2 hk2 (by linarith) (by linarith)
        linarith
      · -- `D` passes three half turns
        have hD3 : 3 * p < D := by
          by_contra hc'
          have : m2 = D - 2 * p := turns_unique p hp _ _ (k2 + 1) (by rw [hk2]; push_cast; ring) (by linarith) (by linarith [not_lt.1 hc'])
          linarith
        rcases hiv with rfl | rfl
        · dsimp only at hy
          exact key' (y + 2 * p) (by linarith) (by linarith) (-1) (by push_cast; ring)
        · dsimp only at hy
          have : m2 = D - 4 * p ∨ (m2 = p ∧ D = 5 * p) := by
            rcases lt_or_eq_of_le hD4 with h | h
            · exact .inl (turns_unique p hp _ _ (k2 + 2) (by rw [hk2]; push_cast; ring) (by linarith) (by linarith))
            · exact .inl (turns_unique p hp _ _ (k2 + 2) (by rw [hk2]; push_cast; ring) (by linarith) (by linarith))
          rcases this with h | h
          · exact key' (y + 4 * p) (by linarith) (by linarith) (-2) (by push_cast; ring)
          · linarith
    · next hgt =>
      obtain ⟨iv, hiv, hy⟩ := h
      simp only [ABound.parts, if_neg hgt, List.mem_singleton] at hiv
      subst hiv
      dsimp only at hy
      rcases hw with ⟨e, hle⟩ | ⟨e, hle⟩
      · have := hDr hle
        have e2 : m2 = D := turns_unique p hp _ _ k2 hk2 (by linarith) (by linarith)
        exact key' y (by linarith) (by linarith) 0 (by simp)
      · rcases le_or_gt D (3 * p) with hD | hD
        · have e2 : m2 = D - 2 * p := turns_unique p hp _ _ (k2 + 1) (by rw [hk2]; push_cast; ring) (by linarith) (by linarith)
          exact key' (y + 2 * p) (by linarith) (by linarith) (-1) (by push_cast; ring)
        · have e2 : m2 = D - 4 * p := turns_unique p hp _ _ (k2 + 2) (by rw [hk2]; push_cast; ring) (by linarith) (by linarith)
          exact key' (y + 2 * p) (by linarith) (by linarith) (-1) (by push_cast; ring)

/-- **C45 is violated** by every pair of intervals that the partial theorem leaves out: neither is the
full turn, the widths add up to a turn or more, and the difference of the lower end of the first and
the upper end of the second lies in `(-p, 0)`. -/
theorem C45_diff_violated [FloorRing K] (p : K) (hp : 0 < p) (a1 a2 b1 b2 : K) (ha : -p ≤ a1) (ha' : a1 ≤ a2) (ha2 : a2 ≤ p)
    (hb : -p ≤ b1) (hb' : b1 ≤ b2) (hb2 : b2 ≤ p) (hfa : ¬ (a1 = -p ∧ a2 = p)) (hfb : ¬ (b1 = -p ∧ b2 = p))
    (hw : 2 * p ≤ (a2 - a1) + (b2 - b1)) (h1 : -p < a1 - b2) (h2 : a1 - b2 < 0) :
    ∃ a b y, a1 ≤ a ∧ a ≤ a2 ∧ b1 ≤ b ∧ b ≤ b2 ∧ IsWrap p (a - b) y ∧ ¬ (angDiff p (a1, a2) (b1, b2)).Has p y := by
  -- the angle half way between `-p` and the lower end
  obtain ⟨y, hy⟩ : ∃ y, y = (-p + (a1 - b2)) / 2 := ⟨_, rfl⟩
  have hya : -p < y := by rw [hy]; linarith
  have hyb : y < a1 - b2 := by rw [hy]; linarith
  have hex : ∃ a b, a1 ≤ a ∧ a ≤ a2 ∧ b1 ≤ b ∧ b ≤ b2 ∧ IsWrap p (a - b) y := by
    by_cases hc : y + 2 * p + b2 ≤ a2
    · exact ⟨y + 2 * p + b2, b2, by linarith, hc, hb', le_refl _, ⟨-1, by push_cast; ring⟩, hya, by linarith⟩
    · exact ⟨a2, a2 - (y + 2 * p), ha', le_refl _, by linarith, by linarith [not_le.1 hc], ⟨-1, by push_cast; ring⟩, hya, by linarith⟩
  obtain ⟨a, b, q1, q2, q3, q4, q5⟩ := hex
  refine ⟨a, b, y, q1, q2, q3, q4, q5, ?_⟩
  unfold angDiff
  dsimp only
  rw [if_neg (by rintro (h | h); exacts [hfa h, hfb h])]
  generalize hr : raiseLoop p ⌈-(a1 - b2) / (2 * p)⌉₊ (a1 - b2) 0 = r
  obtain ⟨r0, r1, r2, r3, r4⟩ := angDiff_normal p hp (a1 - b2) (a2 - b1) r hr
  have hlt := r2 h2
  have hr1 : r.1 = a1 - b2 + 2 * p := by
    refine turns_unique p hp _ _ (r.2 - 1) ?_ (by linarith) (by linarith)
    rw [r1]; push_cast; ring
  generalize hM : (a2 - b1) + 2 * p * (r.2 : K) = D at r4 ⊢
  rw [if_neg (by rintro ⟨h, -⟩; linarith)]
  have e1 : wrapAngle p r.1 = r.1 - 2 * p := wrapAngle_eq p _ _ hp ⟨⟨-1, by push_cast; ring⟩, by linarith, by linarith⟩
  have e2 : wrapAngle p D = D - 4 * p := wrapAngle_eq p _ _ hp ⟨⟨-2, by push_cast; ring⟩, by linarith, by linarith⟩
  have hle : r.1 - 2 * p ≤ D - 4 * p := by linarith
  rw [e1, e2, if_neg (not_lt.2 hle)]
  rintro ⟨iv, hiv, hy'⟩
  simp only [ABound.parts, gt_iff_lt, not_lt.2 hle, if_false, List.mem_singleton] at hiv
  subst hiv
  dsimp only at hy'
  linarith [hy'.1]

/-- A pair of intervals of the theorem: angles in `[3/4, 1]` and `[-1, -3/4]` of half a turn differ by
`[3/2, 2]`, which is `[-1/2, 0]`. -/
example : angDiff (1 : ℚ) (3/4, 1) (-1, -3/4) = .one (-1/2) 0 := by decide +kernel

/-- A difference across half a turn. -/
example : angDiff (1 : ℚ) (1/2, 3/4) (-1/2, -1/4) = .many [(3/4, 1), (-1, -3/4)] := by decide +kernel

/-- Intervals as in the violation, and the result. -/
example : angDiff (1 : ℚ) (-1/3, 1) (-1, 0) = .one (-1/3) 0 := by decide +kernel
example : ¬ (angDiff (1 : ℚ) (-1/3, 1) (-1, 0)).Has 1 1 ∧ IsWrap (1 : ℚ) (1 - 0) 1 := by
  have e : angDiff (1 : ℚ) (-1/3, 1) (-1, 0) = .one (-1/3) 0 := by decide +kernel
  rw [e]
  refine ⟨?_, ⟨0, by norm_num⟩, by norm_num, by norm_num⟩
  rintro ⟨iv, hiv, h⟩
  norm_num [ABound.parts] at hiv
  subst hiv
  norm_num at h

/-! ### C46 -/

/-- **C46, no excess.** Every angle in the combination of angular bounds is in one of the bounds. -/
theorem C46_no_excess (p : K) (bounds : List (ABound K)) (r : List (K × K)) (hr : combineBounds p bounds = .ok r)
    (y : K) (hy : InSome r y) : ∃ b ∈ bounds, b.Has p y := by
  obtain ⟨parts, hparts, e⟩ := (map_ok_iff _ _ _).1 hr
  have hf := (mapM_ok_iff _ _ _).1 hparts
  have hsome : InSome parts.flatten y := by
    have hperm := List.perm_insertionSort (r := keyLe) parts.flatten
    revert e
    generalize hs : parts.flatten.insertionSort keyLe = srt
    rw [hs] at hperm
    intro e
    cases srt with
    | nil => dsimp only at e; rw [← e] at hy; simp [InSome] at hy
    | cons first rest =>
      dsimp only at e
      rw [← e] at hy
      obtain ⟨iv, hiv, hy⟩ := hy
      have h1 := formatBounds_sub _ _ hiv
      have h2 : InSome (mergeFrom first rest) y := by
        split at h1
        · exact joinWrapped_sub _ _ ⟨iv, h1, hy⟩
        · exact ⟨iv, h1, hy⟩
      obtain ⟨iv', hiv', hy'⟩ := (mergeFrom_mem y rest first).1 h2
      exact ⟨iv', hperm.mem_iff.1 hiv', hy'⟩
  obtain ⟨iv, hiv, hy⟩ := hsome
  obtain ⟨l, hl, hiv⟩ := List.mem_flatten.1 hiv
  obtain ⟨b, hb, hbl⟩ := forall₂_mem_right hf hl
  rw [normBound_parts p b l hbl] at hiv
  exact ⟨b, hb, iv, hiv, hy⟩

/-- **C46 (partial).** The combination of angular bounds covers every angle of every bound, provided that
the plain intervals the bounds consist of
* all lie on the positive side, or all on the negative side, or
* all have a point in common, or
* those on the positive side have a point in common and the others lie on the negative side and have a
  point in common.
Missing: other arrangements, where angles are lost (`C46_straddle_violated`, `C46_three_violated`). -/
theorem C46_covers_partial (p : K) (bounds : List (ABound K)) (r : List (K × K)) (hr : combineBounds p bounds = .ok r)
    (hshape :
      (∀ b ∈ bounds, ∀ iv ∈ b.parts p, 0 ≤ iv.1 ∧ 0 < iv.2) ∨
      (∀ b ∈ bounds, ∀ iv ∈ b.parts p, iv.1 < 0 ∧ iv.2 ≤ 0) ∨
      (∃ x, ∀ b ∈ bounds, ∀ iv ∈ b.parts p, iv.1 ≤ x ∧ x ≤ iv.2) ∨
      (∃ x z, ∀ b ∈ bounds, ∀ iv ∈ b.parts p,
        ((0 ≤ iv.1 ∧ 0 < iv.2) ∧ iv.1 ≤ x ∧ x ≤ iv.2) ∨ ((iv.1 < 0 ∧ iv.2 ≤ 0) ∧ iv.1 ≤ z ∧ z ≤ iv.2)))
    (y : K) (b : ABound K) (hb : b ∈ bounds) (hy : b.Has p y) : InSome r y := by
  obtain ⟨parts, hparts, e⟩ := (map_ok_iff _ _ _).1 hr
  have hf := (mapM_ok_iff _ _ _).1 hparts
  have hback : ∀ iv ∈ parts.flatten, ∃ b ∈ bounds, iv ∈ b.parts p := by
    intro iv hiv
    obtain ⟨l, hl, hiv⟩ := List.mem_flatten.1 hiv
    obtain ⟨b, hb, hbl⟩ := forall₂_mem_right hf hl
    rw [normBound_parts p b l hbl] at hiv
    exact ⟨b, hb, hiv⟩
  have hsome : InSome parts.flatten y := by
    obtain ⟨iv, hiv, hy⟩ := hy
    obtain ⟨l, hl, hbl⟩ := forall₂_mem_left hf hb
    exact ⟨iv, List.mem_flatten.2 ⟨l, hl, by rw [normBound_parts p b l hbl]; exact hiv⟩, hy⟩
  have hperm := List.perm_insertionSort (r := keyLe) parts.flatten
  have hsort : (parts.flatten.insertionSort keyLe).Pairwise keyLe := List.pairwise_insertionSort keyLe parts.flatten
  revert e
  generalize hs : parts.flatten.insertionSort keyLe = srt
  rw [hs] at hperm hsort
  have hmem : ∀ iv ∈ srt, ∃ b ∈ bounds, iv ∈ b.parts p := fun iv hiv => hback iv (hperm.mem_iff.1 hiv)
  have hsrt : InSome srt y := by
    obtain ⟨iv, hiv, h⟩ := hsome
    exact ⟨iv, hperm.mem_iff.2 hiv, h⟩
  intro e
  cases srt with
  | nil => simp [InSome] at hsrt
  | cons first rest =>
    dsimp only at e
    have hm : InSome (mergeFrom first rest) y := (mergeFrom_mem y rest first).2 hsrt
    rw [← e]
    rcases hshape with h | h | ⟨x, h⟩ | ⟨x, z, h⟩
    · have hall : ∀ iv ∈ mergeFrom first rest, 0 ≤ iv.1 ∧ 0 < iv.2 := by
        refine mergeFrom_all (fun iv => 0 ≤ iv.1 ∧ 0 < iv.2) ?_ rest first ?_ ?_
        · rintro a b ⟨a1, a2⟩ ⟨b1, b2⟩
          exact ⟨le_min a1 b1, lt_max_of_lt_left a2⟩
        · obtain ⟨b, hb, hiv⟩ := hmem first (by simp)
          exact h b hb first hiv
        · intro c hc
          obtain ⟨b, hb, hiv⟩ := hmem c (by simp [hc])
          exact h b hb c hiv
      have : (if (mergeFrom first rest).length > 1 then joinWrapped (mergeFrom first rest) else mergeFrom first rest) = mergeFrom first rest := by
        split
        · exact joinWrapped_same _ (.inl fun iv hiv => (hall iv hiv).1)
        · rfl
      rw [this, formatBounds_pos _ (fun iv hiv => (hall iv hiv).1) (fun iv hiv => (hall iv hiv).2)]
      exact hm
    · have hall : ∀ iv ∈ mergeFrom first rest, iv.1 < 0 ∧ iv.2 ≤ 0 := by
        refine mergeFrom_all (fun iv => iv.1 < 0 ∧ iv.2 ≤ 0) ?_ rest first ?_ ?_
        · rintro a b ⟨a1, a2⟩ ⟨b1, b2⟩
          exact ⟨min_lt_of_left_lt a1, max_le a2 b2⟩
        · obtain ⟨b, hb, hiv⟩ := hmem first (by simp)
          exact h b hb first hiv
        · intro c hc
          obtain ⟨b, hb, hiv⟩ := hmem c (by simp [hc])
          exact h b hb c hiv
      have : (if (mergeFrom first rest).length > 1 then joinWrapped (mergeFrom first rest) else mergeFrom first rest) = mergeFrom first rest := by
        split
        · exact joinWrapped_same _ (.inr fun iv hiv => (hall iv hiv).1)
        · rfl
      rw [this, formatBounds_neg _ hall]
      exact hm
    · have hx : ∀ c ∈ first :: rest, c.1 ≤ x ∧ x ≤ c.2 := fun c hc => by
        obtain ⟨b, hb, hiv⟩ := hmem c hc
        exact h b hb c hiv
      obtain ⟨iv, h1, h2, -⟩ := mergeFrom_common x rest [] first (hx first (by simp)) (fun c hc => hx c (by simp [hc]))
      rw [List.append_nil] at h1
      rw [h1] at hm ⊢
      simp only [mergeFrom, List.length_singleton, gt_iff_lt, lt_irrefl, if_false] at hm ⊢
      exact (formatBounds_single iv y).2 hm
    · obtain ⟨P, N, hPN, hP, hN⟩ := sorted_split _ hsort
      have hPx : ∀ c ∈ P, (0 ≤ c.1 ∧ 0 < c.2) ∧ c.1 ≤ x ∧ x ≤ c.2 := fun c hc => by
        obtain ⟨b, hb, hiv⟩ := hmem c (by rw [hPN]; simp [hc])
        rcases h b hb c hiv with h | h
        · exact h
        · exact absurd (hP c hc) (not_le.2 h.1.1)
      have hNz : ∀ c ∈ N, (c.1 < 0 ∧ c.2 ≤ 0) ∧ c.1 ≤ z ∧ z ≤ c.2 := fun c hc => by
        obtain ⟨b, hb, hiv⟩ := hmem c (by rw [hPN]; simp [hc])
        rcases h b hb c hiv with h | h
        · exact absurd h.1.1 (not_le.2 (hN c hc))
        · exact h
      -- a list with one common point becomes one interval
      have single : ∀ (w : K) (l : List (K × K)) (a : K × K), (a.1 ≤ w ∧ w ≤ a.2) → (∀ c ∈ l, c.1 ≤ w ∧ w ≤ c.2) →
          ∃ iv, mergeFrom a l = [iv] ∧ (∀ Q : K × K → Prop, (∀ a b : K × K, Q a → Q b → Q (min a.1 b.1, max a.2 b.2)) →
            Q a → (∀ c ∈ l, Q c) → Q iv) := by
        intro w l a ha hl
        obtain ⟨iv, h1, h2, h3⟩ := mergeFrom_common w l [] a ha hl
        rw [List.append_nil] at h1
        exact ⟨iv, by rw [h1]; rfl, h3⟩
      cases P with
      | nil =>
        have hN' : first :: rest = N := hPN
        obtain ⟨iv, h1, -⟩ := single z rest first (hNz first (by rw [← hN']; simp)).2 (fun c hc => (hNz c (by rw [← hN']; simp [hc])).2)
        rw [h1] at hm ⊢
        simp only [List.length_singleton, gt_iff_lt, lt_irrefl, if_false] at hm ⊢
        exact (formatBounds_single iv y).2 hm
      | cons a P =>
        rw [List.cons_append] at hPN
        injection hPN with e1 e2
        subst e1
        obtain ⟨iv, h1, h2, h3⟩ := mergeFrom_common x P N first (hPx first (by simp)).2 (fun c hc => (hPx c (by simp [hc])).2)
        rw [← e2] at h1
        obtain ⟨iv0, iv1⟩ := h3 (fun iv => 0 ≤ iv.1 ∧ 0 < iv.2) (fun a b ha hb => ⟨le_min ha.1 hb.1, lt_max_of_lt_left ha.2⟩)
          (hPx first (by simp)).1 (fun c hc => (hPx c (by simp [hc])).1)
        rw [h1] at hm ⊢
        cases N with
        | nil =>
          simp only [mergeFrom, List.length_singleton, gt_iff_lt, lt_irrefl, if_false] at hm ⊢
          exact (formatBounds_single iv y).2 hm
        | cons n N =>
          have hn := hNz n (by simp)
          unfold mergeFrom at hm ⊢
          split at hm
          · next ho =>
            rw [if_pos ho]
            obtain ⟨jv, j1, -⟩ := single z N (min iv.1 n.1, max iv.2 n.2) ⟨min_le_of_right_le hn.2.1, le_max_of_le_right hn.2.2⟩
              (fun c hc => (hNz c (by simp [hc])).2)
            rw [j1] at hm ⊢
            simp only [List.length_singleton, gt_iff_lt, lt_irrefl, if_false] at hm ⊢
            exact (formatBounds_single jv y).2 hm
          · next ho =>
            rw [if_neg ho]
            obtain ⟨jv, j1, j2⟩ := single z N n hn.2 (fun c hc => (hNz c (by simp [hc])).2)
            obtain ⟨j3, j4⟩ := j2 (fun iv => iv.1 < 0 ∧ iv.2 ≤ 0) (fun a b ha hb => ⟨min_lt_of_left_lt ha.1, max_le ha.2 hb.2⟩)
              hn.1 (fun c hc => (hNz c (by simp [hc])).1)
            rw [j1] at hm ⊢
            have e : joinWrapped [iv, jv] = [iv, jv] := joinWrapped_last _ jv rfl j4
            have e' : (if [iv, jv].length > 1 then joinWrapped [iv, jv] else [iv, jv]) = [iv, jv] := by rw [e]; split <;> rfl
            rw [e', formatBounds_pair iv jv iv0 iv1 j3 j4]
            exact hm

/-- Cases of the theorem, with half a turn equal to 4: bounds around half a turn, and bounds on the
positive side. -/
example : combineBounds (4 : ℚ) [.many [(3, 4), (-4, -3)], .one (7/2) (-2), .one 3 4] = .ok [(3, 4), (-4, -2)] := by decide +kernel
example : combineBounds (4 : ℚ) [.one 2 3, .one 0 1, .one (5/2) (7/2)] = .ok [(0, 1), (2, 7/2)] := by decide +kernel

/-- **C46 is violated**: a bound containing the angle zero is lost next to a bound on the positive side. -/
theorem C46_straddle_violated (p : K) (hp : 0 < p) :
    ∃ bounds r y b, combineBounds p bounds = .ok r ∧ b ∈ bounds ∧ b.Has p y ∧ ¬ InSome r y := by
  refine ⟨[.one (-p / 4) (p / 4), .one (p / 2) (3 * p / 4)], [(p / 2, 3 * p / 4)], 0, .one (-p / 4) (p / 4), ?_, by simp, ?_, ?_⟩
  · have a1 : ¬ (-p / 4 > p / 4) := by linarith
    have a2 : ¬ (p / 2 > 3 * p / 4) := by linarith
    have a3 : ¬ (0 ≤ -p / 4) := by linarith
    have a4 : 0 ≤ p / 2 := by linarith
    have a5 : ¬ (p / 2 ≤ p / 4) := by linarith
    have a6 : ¬ (p / 4 ≤ 0) := by linarith
    have a7 : ¬ (3 * p / 4 < p / 4) := by linarith
    have a8 : ¬ (3 * p / 4 ≤ 0) := by linarith
    have e : ([(-p / 4, p / 4), (p / 2, 3 * p / 4)] : List (K × K)).insertionSort keyLe = [(p / 2, 3 * p / 4), (-p / 4, p / 4)] := by
      simp [List.insertionSort, List.orderedInsert, keyLe, a3, a4]
    have ho : overlap ((p / 2, 3 * p / 4) : K × K) (-p / 4, p / 4) = false := by
      simp [overlap, a5]
    have hj : joinWrapped ([(p / 2, 3 * p / 4), (-p / 4, p / 4)] : List (K × K)) = [(p / 2, 3 * p / 4), (-p / 4, p / 4)] := by
      simp [joinWrapped, lastIdx, List.range_succ, a3, a4, a6, a7]
    unfold combineBounds
    simp only [List.mapM_cons, List.mapM_nil, normBound, if_neg a1, if_neg a2]
    simp only [bind, Except.bind, pure, Except.pure, Except.map, List.flatten_cons, List.flatten_nil, List.singleton_append, List.append_nil]
    rw [e]
    simp only [mergeFrom, ho, Bool.false_eq_true, if_false, List.length_cons, List.length_nil]
    rw [if_pos (by decide), hj]
    simp [formatBounds, a3, a4, a6, a8]
  · refine ⟨(-p / 4, p / 4), ?_, by dsimp only; linarith, by dsimp only; linarith⟩
    simp [ABound.parts, show ¬ (p / 4 < -p / 4) by linarith]
  · rintro ⟨iv, hiv, h⟩
    rw [List.mem_singleton.1 hiv] at h
    dsimp only at h
    linarith [h.1]

/-- **C46 is violated**: of three separate bounds one is lost. -/
theorem C46_three_violated : ∃ (bounds : List (ABound ℚ)) (r : List (ℚ × ℚ)) (y : ℚ) (b : ABound ℚ),
    combineBounds 4 bounds = .ok r ∧ b ∈ bounds ∧ b.Has 4 y ∧ ¬ InSome r y := by
  refine ⟨[.one (1/2) 1, .one 2 3, .one (-2) (-1)], [(1/2, 1), (-2, -1)], 2, .one 2 3, by decide +kernel, by simp, ?_, ?_⟩
  · exact ⟨(2, 3), by norm_num [ABound.parts], by norm_num, by norm_num⟩
  · rintro ⟨iv, hiv, h⟩
    simp only [List.mem_cons, List.not_mem_nil, or_false] at hiv
    rcases hiv with rfl | rfl <;> norm_num at h

/-! ### C66 -/

/-- **C66.** `angle_in_wrapped_interval` decides whether some number of turns takes the angle into the
interval, for every interval shorter than a turn, wherever its ends lie. -/
theorem C66_in_wrapped [FloorRing K] (p : K) (hp : 0 < p) (x lo hi : K) (hle : lo ≤ hi) (hlt : hi - lo < 2 * p) :
    inWrapped p x lo hi = true ↔ ∃ k : ℤ, lo ≤ x + 2 * p * k ∧ x + 2 * p * k ≤ hi := by
  obtain ⟨⟨kx, hkx⟩, x1, x2⟩ := wrapAngle_isWrap p x hp
  obtain ⟨⟨kl, hkl⟩, l1, l2⟩ := wrapAngle_isWrap p lo hp
  obtain ⟨⟨kh, hkh⟩, h1, h2⟩ := wrapAngle_isWrap p hi hp
  unfold inWrapped
  dsimp only
  generalize wrapAngle p x = X at *
  generalize wrapAngle p lo = L at *
  generalize wrapAngle p hi = H at *
  -- the upper end, shifted like the lower end, is `H` or `H` plus a turn
  have hshift : hi + 2 * p * kl = H ∧ L ≤ H ∨ hi + 2 * p * kl = H + 2 * p ∧ H < L := by
    by_cases hc : hi + 2 * p * kl ≤ p
    · have : H = hi + 2 * p * kl := turns_unique p hp _ _ (kh - kl) (by rw [hkh]; push_cast; ring) (by linarith) (by linarith)
      exact .inl ⟨this.symm, by linarith⟩
    · have : H = hi + 2 * p * kl - 2 * p := turns_unique p hp _ _ (kh - kl + 1) (by rw [hkh]; push_cast; ring)
        (by linarith [not_le.1 hc]) (by linarith)
      exact .inr ⟨by linarith, by linarith⟩
  rcases hshift with ⟨e, hLH⟩ | ⟨e, hLH⟩
  · rw [if_pos hLH]
    simp only [Bool.and_eq_true, decide_eq_true_eq]
    constructor
    · rintro ⟨a, b⟩
      refine ⟨kx - kl, ?_, ?_⟩ <;> push_cast <;> linarith
    · rintro ⟨k, a, b⟩
      have : X = x + 2 * p * k + 2 * p * kl := by
        refine turns_unique p hp _ _ (kx - k - kl) (by rw [hkx]; push_cast; ring) (by linarith) (by linarith)
      constructor <;> linarith
  · rw [if_neg (not_le.2 hLH)]
    simp only [ge_iff_le, Bool.or_eq_true, decide_eq_true_eq]
    constructor
    · rintro (a | a)
      · refine ⟨kx - kl, ?_, ?_⟩ <;> push_cast <;> linarith
      · refine ⟨kx - kl + 1, ?_, ?_⟩ <;> push_cast <;> linarith
    · rintro ⟨k, a, b⟩
      by_cases hc : x + 2 * p * k + 2 * p * kl ≤ p
      · have : X = x + 2 * p * k + 2 * p * kl := by
          refine turns_unique p hp _ _ (kx - k - kl) (by rw [hkx]; push_cast; ring) (by linarith) (by linarith)
        left; linarith
      · have : X = x + 2 * p * k + 2 * p * kl - 2 * p := by
          refine turns_unique p hp _ _ (kx - k - kl + 1) (by rw [hkx]; push_cast; ring) (by linarith [not_le.1 hc]) (by linarith)
        right; linarith

example : inWrapped (1 : ℚ) (-9/10) (3/4) (5/4) = true ∧ inWrapped (1 : ℚ) (1/2) (3/4) (5/4) = false := by decide +kernel

/-- The bound on the length is needed: of the full turn only half a turn is accepted. -/
theorem C66_full_turn_violated : ∃ x : ℚ, (-1 ≤ x ∧ x ≤ 1) ∧ inWrapped (1 : ℚ) x (-1) 1 = false :=
  ⟨0, by norm_num, by decide +kernel⟩

end Verif.Props
