import Verif.Spec.Plot3d
import Verif.Proofs.Plot
import Mathlib.Tactic.Linarith
import Mathlib.Tactic.Ring
import Mathlib.Tactic.FieldSimp
import Mathlib.Tactic.Positivity
import Mathlib.Tactic.IntervalCases

set_option autoImplicit false
set_option linter.unusedSectionVars false

namespace Verif.Plot3d
open Verif.Spec Verif.ATree Verif.Plot Verif.Plot3d.Spec

variable {K : Type} [Field K] [LinearOrder K] [IsStrictOrderedRing K]

theorem between_param {a b v : K} (h : Between a b v) : ∃ s : K, 0 ≤ s ∧ s ≤ 1 ∧ v = a + s * (b - a) := by
  by_cases hab : a = b
  · subst hab
    refine ⟨0, le_refl _, zero_le_one, ?_⟩
    rcases h with ⟨h1, h2⟩ | ⟨h1, h2⟩ <;> simp <;> exact le_antisymm (by assumption) (by assumption)
  · refine ⟨(v - a) / (b - a), ?_, ?_, ?_⟩
    · rcases h with ⟨h1, h2⟩ | ⟨h1, h2⟩
      · exact div_nonneg (by linarith) (by linarith)
      · exact div_nonneg_of_nonpos (by linarith) (by linarith)
    · rcases h with ⟨h1, h2⟩ | ⟨h1, h2⟩
      · have : 0 < b - a := sub_pos.2 (lt_of_le_of_ne (h1.trans h2) hab)
        rw [div_le_one this]; linarith
      · have : b - a < 0 := sub_neg.2 (lt_of_le_of_ne (h1.trans h2) (Ne.symm hab))
        rw [div_le_one_of_neg this]; linarith
    · have : b - a ≠ 0 := sub_ne_zero.2 (Ne.symm hab)
      field_simp
      ring

theorem between_left (a b : K) : Between a b a := by
  rcases le_total a b with h | h
  · exact .inl ⟨le_refl _, h⟩
  · exact .inr ⟨h, le_refl _⟩

theorem between_right (a b : K) : Between a b b := by
  rcases le_total a b with h | h
  · exact .inl ⟨h, le_refl _⟩
  · exact .inr ⟨le_refl _, h⟩

theorem between_of_either {a b v : K} (h : Either a b v) : Between a b v := by
  rcases h with rfl | rfl
  · exact between_left _ _
  · exact between_right _ _

/-- Between two values: a weighted mean of two values between them. -/
theorem between_mix {a b p q u v : K} (hp : Between a b p) (hq : Between a b q) (hu : 0 ≤ u) (hv : 0 ≤ v) (h : u + v = 1) : Between a b (u * p + v * q) := by
  obtain ⟨s, s0, s1, rfl⟩ := between_param hp
  obtain ⟨t, t0, t1, rfl⟩ := between_param hq
  have e : u * (a + s * (b - a)) + v * (a + t * (b - a)) = a + (u * s + v * t) * (b - a) := by
    have : v = 1 - u := by linarith
    subst this; ring
  rw [e]
  have h0 : 0 ≤ u * s + v * t := by positivity
  have h1 : u * s + v * t ≤ 1 := by nlinarith [mul_le_mul_of_nonneg_left s1 hu, mul_le_mul_of_nonneg_left t1 hv]
  rcases le_total a b with hab | hab
  · exact .inl ⟨by nlinarith [mul_nonneg h0 (sub_nonneg.2 hab)], by nlinarith [mul_nonneg (sub_nonneg.2 h1) (sub_nonneg.2 hab)]⟩
  · exact .inr ⟨by nlinarith [mul_nonneg (sub_nonneg.2 h1) (sub_nonneg.2 hab)], by nlinarith [mul_nonneg h0 (sub_nonneg.2 hab)]⟩

theorem between_mix3 {a b p q r u v w : K} (hp : Between a b p) (hq : Between a b q) (hr : Between a b r) (hu : 0 ≤ u) (hv : 0 ≤ v) (hw : 0 ≤ w)
    (h : u + v + w = 1) : Between a b (u * p + v * q + w * r) := by
  by_cases hz : u + v = 0
  · have h1 : u = 0 := by linarith
    have h2 : v = 0 := by linarith
    have h3 : w = 1 := by linarith
    subst h1 h2 h3
    simpa using hr
  · have hpos : 0 < u + v := lt_of_le_of_ne (by positivity) (Ne.symm hz)
    have m := between_mix hp hq (div_nonneg hu hpos.le) (div_nonneg hv hpos.le) (by field_simp)
    have m2 := between_mix m hr hpos.le hw h
    have e : (u + v) * (u / (u + v) * p + v / (u + v) * q) + w * r = u * p + v * q + w * r := by field_simp
    rwa [e] at m2

theorem between_mix4 {a b p q r t u v w o : K} (hp : Between a b p) (hq : Between a b q) (hr : Between a b r) (ht : Between a b t) (hu : 0 ≤ u) (hv : 0 ≤ v) (hw : 0 ≤ w)
    (ho : 0 ≤ o) (h : u + v + w + o = 1) : Between a b (u * p + v * q + w * r + o * t) := by
  by_cases hz : u + v + w = 0
  · have h1 : u = 0 := by linarith
    have h2 : v = 0 := by linarith
    have h3 : w = 0 := by linarith
    have h4 : o = 1 := by linarith
    subst h1 h2 h3 h4
    simpa using ht
  · have hpos : 0 < u + v + w := lt_of_le_of_ne (by positivity) (Ne.symm hz)
    have m := between_mix3 hp hq hr (div_nonneg hu hpos.le) (div_nonneg hv hpos.le) (div_nonneg hw hpos.le) (by field_simp)
    have m2 := between_mix m ht hpos.le ho h
    have e : (u + v + w) * (u / (u + v + w) * p + v / (u + v + w) * q + w / (u + v + w) * r) + o * t = u * p + v * q + w * r + o * t := by field_simp
    rwa [e] at m2

/-! ### one box -/

/-- The triangles of the box number `n`. -/
theorem tris_eq (n : Nat) : (List.range 12).map (fun m => (triI.getD m 0 + n * 8, triJ.getD m 0 + n * 8, triK.getD m 0 + n * 8)) =
    [(0 + n * 8, 1 + n * 8, 3 + n * 8), (3 + n * 8, 2 + n * 8, 0 + n * 8), (4 + n * 8, 5 + n * 8, 7 + n * 8), (7 + n * 8, 6 + n * 8, 4 + n * 8),
      (0 + n * 8, 2 + n * 8, 6 + n * 8), (6 + n * 8, 4 + n * 8, 0 + n * 8), (1 + n * 8, 3 + n * 8, 7 + n * 8), (7 + n * 8, 5 + n * 8, 1 + n * 8),
      (0 + n * 8, 4 + n * 8, 5 + n * 8), (5 + n * 8, 1 + n * 8, 0 + n * 8), (2 + n * 8, 6 + n * 8, 7 + n * 8), (7 + n * 8, 3 + n * 8, 2 + n * 8)] := rfl

/-- The corners. -/
theorem corners_eq (a b : P3 K) : corners8 a b = [(a.1, a.2.1, a.2.2), (b.1, a.2.1, a.2.2), (a.1, b.2.1, a.2.2), (b.1, b.2.1, a.2.2), (a.1, a.2.1, b.2.2),
    (b.1, a.2.1, b.2.2), (a.1, b.2.1, b.2.2), (b.1, b.2.1, b.2.2)] := rfl

theorem surface_onMesh {a b p : P3 K} {vs : List (P3 K)} {n : Nat} (hv : ∀ i, i < 8 → vs[i + n * 8]? = (corners8 a b)[i]?) (h : Surface a b p) :
    OnMesh vs ((List.range 12).map (fun m => (triI.getD m 0 + n * 8, triJ.getD m 0 + n * 8, triK.getD m 0 + n * 8))) p := by
  obtain ⟨⟨hx, hy, hz⟩, he⟩ := h
  obtain ⟨r, r0, r1, er⟩ := between_param hx
  obtain ⟨s, s0, s1, es⟩ := between_param hy
  obtain ⟨t, t0, t1, et⟩ := between_param hz
  obtain ⟨px, py, pz⟩ := p
  simp only at er es et he
  have v0 := hv 0 (by norm_num)
  have v1 := hv 1 (by norm_num)
  have v2 := hv 2 (by norm_num)
  have v3 := hv 3 (by norm_num)
  have v4 := hv 4 (by norm_num)
  have v5 := hv 5 (by norm_num)
  have v6 := hv 6 (by norm_num)
  have v7 := hv 7 (by norm_num)
  rw [corners_eq] at v0 v1 v2 v3 v4 v5 v6 v7
  rw [tris_eq]
  rcases he with (rfl | rfl) | (rfl | rfl) | (rfl | rfl)
  · rcases le_total t s with h | h
    · exact ⟨(0 + n * 8, 2 + n * 8, 6 + n * 8), by simp, _, _, _, v0, v2, v6, 1 - s, s - t, t, by linarith, by linarith, t0, by ring, by rw [es, et]; ext <;> simp <;> ring⟩
    · exact ⟨(6 + n * 8, 4 + n * 8, 0 + n * 8), by simp, _, _, _, v6, v4, v0, s, t - s, 1 - t, s0, by linarith, by linarith, by ring, by rw [es, et]; ext <;> simp <;> ring⟩
  · rcases le_total t s with h | h
    · exact ⟨(1 + n * 8, 3 + n * 8, 7 + n * 8), by simp, _, _, _, v1, v3, v7, 1 - s, s - t, t, by linarith, by linarith, t0, by ring, by rw [es, et]; ext <;> simp <;> ring⟩
    · exact ⟨(7 + n * 8, 5 + n * 8, 1 + n * 8), by simp, _, _, _, v7, v5, v1, s, t - s, 1 - t, s0, by linarith, by linarith, by ring, by rw [es, et]; ext <;> simp <;> ring⟩
  · rcases le_total r t with h | h
    · exact ⟨(0 + n * 8, 4 + n * 8, 5 + n * 8), by simp, _, _, _, v0, v4, v5, 1 - t, t - r, r, by linarith, by linarith, r0, by ring, by rw [er, et]; ext <;> simp <;> ring⟩
    · exact ⟨(5 + n * 8, 1 + n * 8, 0 + n * 8), by simp, _, _, _, v5, v1, v0, t, r - t, 1 - r, t0, by linarith, by linarith, by ring, by rw [er, et]; ext <;> simp <;> ring⟩
  · rcases le_total r t with h | h
    · exact ⟨(2 + n * 8, 6 + n * 8, 7 + n * 8), by simp, _, _, _, v2, v6, v7, 1 - t, t - r, r, by linarith, by linarith, r0, by ring, by rw [er, et]; ext <;> simp <;> ring⟩
    · exact ⟨(7 + n * 8, 3 + n * 8, 2 + n * 8), by simp, _, _, _, v7, v3, v2, t, r - t, 1 - r, t0, by linarith, by linarith, by ring, by rw [er, et]; ext <;> simp <;> ring⟩
  · rcases le_total s r with h | h
    · exact ⟨(0 + n * 8, 1 + n * 8, 3 + n * 8), by simp, _, _, _, v0, v1, v3, 1 - r, r - s, s, by linarith, by linarith, s0, by ring, by rw [er, es]; ext <;> simp <;> ring⟩
    · exact ⟨(3 + n * 8, 2 + n * 8, 0 + n * 8), by simp, _, _, _, v3, v2, v0, r, s - r, 1 - s, r0, by linarith, by linarith, by ring, by rw [er, es]; ext <;> simp <;> ring⟩
  · rcases le_total s r with h | h
    · exact ⟨(4 + n * 8, 5 + n * 8, 7 + n * 8), by simp, _, _, _, v4, v5, v7, 1 - r, r - s, s, by linarith, by linarith, s0, by ring, by rw [er, es]; ext <;> simp <;> ring⟩
    · exact ⟨(7 + n * 8, 6 + n * 8, 4 + n * 8), by simp, _, _, _, v7, v6, v4, r, s - r, 1 - s, r0, by linarith, by linarith, by ring, by rw [er, es]; ext <;> simp <;> ring⟩

/-- A triangle of corners that share a coordinate. -/
theorem tri_surface {a b A B C p : P3 K} (hA : Surface a b A) (hB : Surface a b B) (hC : Surface a b C)
    (h : (A.1 = B.1 ∧ B.1 = C.1 ∧ Either a.1 b.1 C.1) ∨ (A.2.1 = B.2.1 ∧ B.2.1 = C.2.1 ∧ Either a.2.1 b.2.1 C.2.1) ∨
      (A.2.2 = B.2.2 ∧ B.2.2 = C.2.2 ∧ Either a.2.2 b.2.2 C.2.2)) (hp : InTriangle A B C p) : Surface a b p := by
  obtain ⟨u, v, w, hu, hv, hw, hs, rfl⟩ := hp
  refine ⟨⟨between_mix3 hA.1.1 hB.1.1 hC.1.1 hu hv hw hs, between_mix3 hA.1.2.1 hB.1.2.1 hC.1.2.1 hu hv hw hs, between_mix3 hA.1.2.2 hB.1.2.2 hC.1.2.2 hu hv hw hs⟩, ?_⟩
  rcases h with ⟨h1, h2, h3⟩ | ⟨h1, h2, h3⟩ | ⟨h1, h2, h3⟩
  · refine .inl ?_
    simp only [h1, h2]
    rwa [← add_mul, ← add_mul, hs, one_mul]
  · refine .inr (.inl ?_)
    simp only [h1, h2]
    rwa [← add_mul, ← add_mul, hs, one_mul]
  · refine .inr (.inr ?_)
    simp only [h1, h2]
    rwa [← add_mul, ← add_mul, hs, one_mul]

theorem corner_surface {a b c : P3 K} (h1 : Either a.1 b.1 c.1) (h2 : Either a.2.1 b.2.1 c.2.1) (h3 : Either a.2.2 b.2.2 c.2.2) : Surface a b c :=
  ⟨⟨between_of_either h1, between_of_either h2, between_of_either h3⟩, .inl h1⟩

theorem onMesh_surface {a b p : P3 K} {vs : List (P3 K)} {n : Nat} (hv : ∀ i, i < 8 → vs[i + n * 8]? = (corners8 a b)[i]?)
    (h : OnMesh vs ((List.range 12).map (fun m => (triI.getD m 0 + n * 8, triJ.getD m 0 + n * 8, triK.getD m 0 + n * 8))) p) : Surface a b p := by
  obtain ⟨t, ht, A, B, C, hA, hB, hC, hp⟩ := h
  have v0 := hv 0 (by norm_num)
  have v1 := hv 1 (by norm_num)
  have v2 := hv 2 (by norm_num)
  have v3 := hv 3 (by norm_num)
  have v4 := hv 4 (by norm_num)
  have v5 := hv 5 (by norm_num)
  have v6 := hv 6 (by norm_num)
  have v7 := hv 7 (by norm_num)
  rw [corners_eq] at v0 v1 v2 v3 v4 v5 v6 v7
  rw [tris_eq] at ht
  simp only [List.mem_cons, List.not_mem_nil, or_false] at ht
  rcases ht with rfl | rfl | rfl | rfl | rfl | rfl | rfl | rfl | rfl | rfl | rfl | rfl <;>
  · simp only [v0, v1, v2, v3, v4, v5, v6, v7, List.getElem?_cons_zero, List.getElem?_cons_succ, Option.some.injEq] at hA hB hC
    subst hA hB hC
    exact tri_surface (corner_surface (by simp [Either]) (by simp [Either]) (by simp [Either])) (corner_surface (by simp [Either]) (by simp [Either]) (by simp [Either]))
      (corner_surface (by simp [Either]) (by simp [Either]) (by simp [Either])) (by simp [Either]) hp

/-! ### all boxes of a node -/

theorem corners_length (a b : P3 K) : (corners8 a b).length = 8 := rfl

theorem flat_get : ∀ (l : List (P3 K × P3 K)) (n i : Nat), i < 8 → (l.flatMap fun e => corners8 e.1 e.2)[i + n * 8]? = (l[n]?).bind fun e => (corners8 e.1 e.2)[i]?
  | [], n, i, _ => by simp
  | e :: l, 0, i, hi => by
    rw [List.flatMap_cons, List.getElem?_append_left (by rw [corners_length]; omega)]
    simp
  | e :: l, n + 1, i, hi => by
    rw [List.flatMap_cons, List.getElem?_append_right (by rw [corners_length]; omega), corners_length]
    have : i + (n + 1) * 8 - 8 = i + n * 8 := by omega
    rw [this, flat_get l n i hi]
    simp

theorem mem_triangles : ∀ (l : List (P3 K × P3 K)) (n : Nat) (t : Nat × Nat × Nat), t ∈ triangles n l ↔
    ∃ m, m < l.length ∧ t ∈ (List.range 12).map (fun k => (triI.getD k 0 + (n + m) * 8, triJ.getD k 0 + (n + m) * 8, triK.getD k 0 + (n + m) * 8))
  | [], n, t => by simp [triangles]
  | e :: l, n, t => by
    rw [triangles, List.mem_append, mem_triangles l (n + 1) t]
    constructor
    · rintro (h | ⟨m, hm, h⟩)
      · exact ⟨0, by simp, by simpa using h⟩
      · refine ⟨m + 1, by simpa using hm, ?_⟩
        have e : n + (m + 1) = n + 1 + m := by omega
        rw [e]; exact h
    · rintro ⟨m, hm, h⟩
      cases m with
      | zero => exact .inl (by simpa using h)
      | succ m =>
        refine .inr ⟨m, by simpa using hm, ?_⟩
        have e : n + 1 + m = n + (m + 1) := by omega
        rw [e]; exact h

/-- The mesh of a node shows the surfaces of its boxes, and nothing else. -/
theorem mesh_iff (l : List (P3 K × P3 K)) (p : P3 K) :
    OnMesh (l.flatMap fun e => corners8 e.1 e.2) (triangles 0 l) p ↔ ∃ e ∈ l, Surface e.1 e.2 p := by
  constructor
  · rintro ⟨t, ht, h⟩
    obtain ⟨m, hm, ht⟩ := (mem_triangles l 0 t).1 ht
    rw [Nat.zero_add] at ht
    have hl : l[m]? = some l[m] := List.getElem?_eq_getElem hm
    exact ⟨l[m], List.getElem_mem hm, onMesh_surface (n := m) (fun i hi => by rw [flat_get l m i hi, hl]; rfl) ⟨t, ht, h⟩⟩
  · rintro ⟨e, he, h⟩
    obtain ⟨m, hm, rfl⟩ := List.getElem_of_mem he
    have hl : l[m]? = some l[m] := List.getElem?_eq_getElem hm
    obtain ⟨t, ht, h⟩ := surface_onMesh (n := m) (fun i hi => by rw [flat_get l m i hi, hl]; rfl) h
    exact ⟨t, (mem_triangles l 0 t).2 ⟨m, hm, by rw [Nat.zero_add]; exact ht⟩, h⟩

theorem pairs3_iff : ∀ (ps : List (P3 K)) (a b : P3 K), (a, b) ∈ pairs3 ps ↔ ∃ k, ps[2 * k]? = some a ∧ ps[2 * k + 1]? = some b
  | [], a, b => by simp [pairs3]
  | [c], a, b => by
    simp only [pairs3, List.not_mem_nil, false_iff]
    rintro ⟨k, _, h⟩
    simp at h
  | c :: d :: l, a, b => by
    rw [pairs3, List.mem_cons, pairs3_iff l a b]
    constructor
    · rintro (h | ⟨k, h1, h2⟩)
      · injection h with h1 h2
        subst h1 h2
        exact ⟨0, rfl, rfl⟩
      · exact ⟨k + 1, by rw [show 2 * (k + 1) = 2 * k + 2 by ring]; simpa using h1, by rw [show 2 * (k + 1) + 1 = 2 * k + 1 + 2 by ring]; simpa using h2⟩
    · rintro ⟨k, h1, h2⟩
      cases k with
      | zero =>
        simp at h1 h2
        exact .inl (by rw [h1, h2])
      | succ k =>
        rw [show 2 * (k + 1) = 2 * k + 2 by ring] at h1
        rw [show 2 * (k + 1) + 1 = 2 * k + 1 + 2 by ring] at h2
        exact .inr ⟨k, by simpa using h1, by simpa using h2⟩

/-! ### edges and faces -/

theorem wire_eq (a b : P3 K) : wire a b = [(a.1, a.2.1, a.2.2), (b.1, a.2.1, a.2.2), (b.1, b.2.1, a.2.2), (a.1, b.2.1, a.2.2), (a.1, a.2.1, a.2.2), (a.1, a.2.1, b.2.2),
    (b.1, a.2.1, b.2.2), (b.1, a.2.1, a.2.2), (b.1, a.2.1, b.2.2), (b.1, b.2.1, b.2.2), (b.1, b.2.1, a.2.2), (b.1, b.2.1, b.2.2), (a.1, b.2.1, b.2.2), (a.1, b.2.1, a.2.2),
    (a.1, b.2.1, b.2.2), (a.1, a.2.1, b.2.2)] := rfl

theorem between_line {a b s : K} (s0 : 0 ≤ s) (s1 : s ≤ 1) : Between a b (a + s * (b - a)) := by
  have := between_mix (between_left a b) (between_right a b) (sub_nonneg.2 s1) s0 (by ring)
  have e : (1 - s) * a + s * b = a + s * (b - a) := by ring
  rwa [e] at this

theorem between_swap {a b v : K} (h : Between a b v) : Between b a v := h.symm

theorem wire_iff (a b p : P3 K) : OnLine (wire a b) p ↔ Edges a b p := by
  rw [wire_eq]
  constructor
  · rintro ⟨m, A, B, hA, hB, s, s0, s1, rfl⟩
    have hm : m < 15 := by
      by_contra hm
      rw [List.getElem?_eq_none (by simp; omega)] at hB
      exact absurd hB (by simp)
    interval_cases m <;> simp at hA hB <;> subst hA hB <;>
      simp only [Edges, sub_self, mul_zero, add_zero] <;>
      first
        | exact .inl ⟨between_line s0 s1, by simp [Either], by simp [Either]⟩
        | exact .inl ⟨between_swap (between_line s0 s1), by simp [Either], by simp [Either]⟩
        | exact .inr (.inl ⟨by simp [Either], between_line s0 s1, by simp [Either]⟩)
        | exact .inr (.inl ⟨by simp [Either], between_swap (between_line s0 s1), by simp [Either]⟩)
        | exact .inr (.inr ⟨by simp [Either], by simp [Either], between_line s0 s1⟩)
        | exact .inr (.inr ⟨by simp [Either], by simp [Either], between_swap (between_line s0 s1)⟩)
  · obtain ⟨px, py, pz⟩ := p
    rintro (⟨h, h1, h2⟩ | ⟨h1, h, h2⟩ | ⟨h1, h2, h⟩) <;> simp only at h h1 h2
    · obtain ⟨s, s0, s1, rfl⟩ := between_param h
      rcases h1 with rfl | rfl <;> rcases h2 with rfl | rfl
      · exact ⟨0, _, _, rfl, rfl, s, s0, s1, by simp⟩
      · exact ⟨5, _, _, rfl, rfl, s, s0, s1, by simp⟩
      · exact ⟨2, _, _, rfl, rfl, 1 - s, by linarith, by linarith, by ext <;> simp; ring⟩
      · exact ⟨11, _, _, rfl, rfl, 1 - s, by linarith, by linarith, by ext <;> simp; ring⟩
    · obtain ⟨s, s0, s1, rfl⟩ := between_param h
      rcases h1 with rfl | rfl <;> rcases h2 with rfl | rfl
      · exact ⟨3, _, _, rfl, rfl, 1 - s, by linarith, by linarith, by ext <;> simp; ring⟩
      · exact ⟨14, _, _, rfl, rfl, 1 - s, by linarith, by linarith, by ext <;> simp; ring⟩
      · exact ⟨1, _, _, rfl, rfl, s, s0, s1, by simp⟩
      · exact ⟨8, _, _, rfl, rfl, s, s0, s1, by simp⟩
    · obtain ⟨s, s0, s1, rfl⟩ := between_param h
      rcases h1 with rfl | rfl <;> rcases h2 with rfl | rfl
      · exact ⟨4, _, _, rfl, rfl, s, s0, s1, by simp⟩
      · exact ⟨13, _, _, rfl, rfl, s, s0, s1, by simp⟩
      · exact ⟨7, _, _, rfl, rfl, s, s0, s1, by simp⟩
      · exact ⟨10, _, _, rfl, rfl, s, s0, s1, by simp⟩

/-- The faces of a cuboid make up its surface. -/
theorem faces_iff (a b p : P3 K) : (∃ f ∈ faces a b, OnFace f p) ↔ Surface a b p := by
  constructor
  · rintro ⟨f, hf, u, v, w, o, hu, hv, hw, ho, hs, rfl⟩
    simp only [faces, List.mem_cons, List.not_mem_nil, or_false] at hf
    have one : ∀ c : K, u * c + v * c + w * c + o * c = c := fun c => by rw [← add_mul, ← add_mul, ← add_mul, hs, one_mul]
    rcases hf with rfl | rfl | rfl | rfl | rfl | rfl <;>
      refine ⟨⟨between_mix4 (between_of_either (by simp [Either])) (between_of_either (by simp [Either])) (between_of_either (by simp [Either])) (between_of_either (by simp [Either])) hu hv hw ho hs,
        between_mix4 (between_of_either (by simp [Either])) (between_of_either (by simp [Either])) (between_of_either (by simp [Either])) (between_of_either (by simp [Either])) hu hv hw ho hs,
        between_mix4 (between_of_either (by simp [Either])) (between_of_either (by simp [Either])) (between_of_either (by simp [Either])) (between_of_either (by simp [Either])) hu hv hw ho hs⟩, ?_⟩ <;>
      simp only [one, Either, true_or, or_true]
  · rintro ⟨⟨hx, hy, hz⟩, he⟩
    obtain ⟨px, py, pz⟩ := p
    simp only at hx hy hz he
    obtain ⟨r, r0, r1, er⟩ := between_param hx
    obtain ⟨s, s0, s1, es⟩ := between_param hy
    obtain ⟨t, t0, t1, et⟩ := between_param hz
    have r2 := sub_nonneg.2 r1
    have s2 := sub_nonneg.2 s1
    have t2 := sub_nonneg.2 t1
    rcases he with (rfl | rfl) | (rfl | rfl) | (rfl | rfl)
    · exact ⟨_, List.mem_of_getElem? (i := 5) rfl, (1 - s) * (1 - t), s * (1 - t), s * t, (1 - s) * t, by positivity, by positivity, by positivity, by positivity, by ring,
        by rw [es, et]; ext <;> simp <;> ring⟩
    · exact ⟨_, List.mem_of_getElem? (i := 4) rfl, (1 - s) * (1 - t), s * (1 - t), s * t, (1 - s) * t, by positivity, by positivity, by positivity, by positivity, by ring,
        by rw [es, et]; ext <;> simp <;> ring⟩
    · exact ⟨_, List.mem_of_getElem? (i := 2) rfl, (1 - r) * (1 - t), r * (1 - t), r * t, (1 - r) * t, by positivity, by positivity, by positivity, by positivity, by ring,
        by rw [er, et]; ext <;> simp <;> ring⟩
    · exact ⟨_, List.mem_of_getElem? (i := 3) rfl, r * (1 - t), (1 - r) * (1 - t), (1 - r) * t, r * t, by positivity, by positivity, by positivity, by positivity, by ring,
        by rw [er, et]; ext <;> simp <;> ring⟩
    · exact ⟨_, List.mem_of_getElem? (i := 0) rfl, (1 - r) * (1 - s), r * (1 - s), r * s, (1 - r) * s, by positivity, by positivity, by positivity, by positivity, by ring,
        by rw [er, es]; ext <;> simp <;> ring⟩
    · exact ⟨_, List.mem_of_getElem? (i := 1) rfl, (1 - r) * (1 - s), r * (1 - s), r * s, (1 - r) * s, by positivity, by positivity, by positivity, by positivity, by ring,
        by rw [er, es]; ext <;> simp <;> ring⟩

/-! ### the loops -/

theorem project3_spec (x y z : Nat) : ∀ (tr : List (Row K)) (ps : List (P3 K)), project3 x y z tr = .ok ps → List.Forall₂ (Spec.At x y z) tr ps := by
  intro tr ps h
  have h' := (mapM_ok_iff _ _ _).1 h
  refine h'.imp ?_
  intro r p hp
  split at hp
  · rename_i a b c ha hb hc
    injection hp with hp
    subst hp
    exact ⟨ha, hb, hc⟩
  · exact absurd hp (by simp)

theorem at3_unique {x y z : Nat} {r : List K} {p q : P3 K} (hp : Spec.At x y z r p) (hq : Spec.At x y z r q) : p = q := by
  obtain ⟨a, b, c⟩ := p
  obtain ⟨a', b', c'⟩ := q
  obtain ⟨h1, h2, h3⟩ := hp
  obtain ⟨g1, g2, g3⟩ := hq
  simp only at h1 h2 h3 g1 g2 g3
  rw [h1] at g1; rw [h2] at g2; rw [h3] at g3
  injection g1 with g1; injection g2 with g2; injection g3 with g3
  rw [g1, g2, g3]

theorem tube3_cons (aid : String) (x y z : Nat) (c : Bool) (t : RTree (PNode K)) (q : List (RTree (PNode K))) :
    tube3 aid x y z c (t :: q) = match Dict.get? t.label.trace aid with
    | none => tube3 aid x y z c q
    | some tr => (project3 x y z tr).bind fun ps => (if c then .ok [] else (nodeMark aid t.label.hits ps).map fun m => nodeItems ps ++ m).bind fun s =>
        (tube3 aid x y z c (q ++ t.kids)).map fun r => s.map (fun s => (aid, s)) ++ r := by
  rw [tube3]; cases Dict.get? t.label.trace aid <;> rfl

theorem line3_cons (aid : String) (x y z : Nat) (t : RTree (PNode K)) (q : List (RTree (PNode K))) :
    line3 aid x y z (t :: q) = match Dict.get? t.label.trace aid with
    | none => .ok []
    | some [] => .error "IndexError"
    | some tr => (project3 x y z tr).bind fun ps => (nodeMark aid t.label.hits ps).bind fun m =>
        (line3 aid x y z (q ++ t.kids)).map fun r => (.line ps :: m).map (fun s => (aid, s)) ++ r := by
  rw [line3]
  rcases Dict.get? t.label.trace aid with _ | (_ | _) <;> rfl

/-- What a node adds to a picture, apart from the mark `m`: `f` is `nodeItems` or a line. -/
def Adds3 (f : List (P3 K) → List (Item K)) (aid : String) (x y z : Nat) (u : RTree (PNode K)) (ss : List (Item K)) : Prop :=
  ∃ tr ps m, Dict.get? u.label.trace aid = some tr ∧ project3 x y z tr = .ok ps ∧ nodeMark aid u.label.hits ps = .ok m ∧ ss = f ps ++ m

theorem tube3_spec (aid : String) (x y z : Nat) (q : List (RTree (PNode K))) :
    ∀ r, tube3 aid x y z false q = .ok r → (∀ u ∈ bfs q, ∃ tr, Dict.get? u.label.trace aid = some tr) →
      (∀ u ∈ bfs q, ∃ ss, Adds3 nodeItems aid x y z u ss ∧ ∀ s ∈ ss, (aid, s) ∈ r) ∧
      (∀ s ∈ r, s.1 = aid ∧ ∃ u ∈ bfs q, ∃ ss, Adds3 nodeItems aid x y z u ss ∧ s.2 ∈ ss) := by
  induction q using bfs_ind with
  | h0 =>
    intro r h _
    rw [tube3] at h; cases h
    rw [bfs_nil]; simp
  | h1 t q ih =>
    intro r h hall
    rw [bfs_cons] at hall ⊢
    obtain ⟨tr, htr⟩ := hall t List.mem_cons_self
    rw [tube3_cons, htr] at h
    obtain ⟨ps, hps, h⟩ := (bind_ok_iff _ _ _).1 h
    obtain ⟨ss, hss, h⟩ := (bind_ok_iff _ _ _).1 h
    simp only [Bool.false_eq_true, if_false] at hss
    obtain ⟨m, hm, rfl⟩ := (map_ok_iff _ _ _).1 hss
    obtain ⟨r', hr', rfl⟩ := (map_ok_iff _ _ _).1 h
    obtain ⟨i1, i2⟩ := ih r' hr' (fun u hu => hall u (List.mem_cons_of_mem _ hu))
    constructor
    · intro u hu
      rcases List.mem_cons.1 hu with rfl | hu
      · exact ⟨_, ⟨tr, ps, m, htr, hps, hm, rfl⟩, fun s hs => List.mem_append_left _ (List.mem_map.2 ⟨s, hs, rfl⟩)⟩
      · obtain ⟨ss', h1, h2⟩ := i1 u hu
        exact ⟨ss', h1, fun s hs => List.mem_append_right _ (h2 s hs)⟩
    · intro s hs
      rcases List.mem_append.1 hs with hs | hs
      · obtain ⟨s', hs', rfl⟩ := List.mem_map.1 hs
        exact ⟨rfl, t, List.mem_cons_self, _, ⟨tr, ps, m, htr, hps, hm, rfl⟩, hs'⟩
      · obtain ⟨h1, u, hu, ss', h2, h3⟩ := i2 s hs
        exact ⟨h1, u, List.mem_cons_of_mem _ hu, ss', h2, h3⟩

theorem line3_spec (aid : String) (x y z : Nat) (q : List (RTree (PNode K))) :
    ∀ r, line3 aid x y z q = .ok r → (∀ u ∈ bfs q, ∃ tr, Dict.get? u.label.trace aid = some tr) →
      (∀ u ∈ bfs q, ∃ ss, Adds3 (fun ps => [.line ps]) aid x y z u ss ∧ ∀ s ∈ ss, (aid, s) ∈ r) ∧
      (∀ s ∈ r, s.1 = aid ∧ ∃ u ∈ bfs q, ∃ ss, Adds3 (fun ps => [.line ps]) aid x y z u ss ∧ s.2 ∈ ss) := by
  induction q using bfs_ind with
  | h0 =>
    intro r h _
    rw [line3] at h; cases h
    rw [bfs_nil]; simp
  | h1 t q ih =>
    intro r h hall
    rw [bfs_cons] at hall ⊢
    obtain ⟨tr, htr⟩ := hall t List.mem_cons_self
    rw [line3_cons, htr] at h
    cases tr with
    | nil => exact absurd h (by simp)
    | cons row tr =>
      obtain ⟨ps, hps, h⟩ := (bind_ok_iff _ _ _).1 h
      obtain ⟨m, hm, h⟩ := (bind_ok_iff _ _ _).1 h
      obtain ⟨r', hr', rfl⟩ := (map_ok_iff _ _ _).1 h
      obtain ⟨i1, i2⟩ := ih r' hr' (fun u hu => hall u (List.mem_cons_of_mem _ hu))
      constructor
      · intro u hu
        rcases List.mem_cons.1 hu with rfl | hu
        · exact ⟨_, ⟨_, ps, m, htr, hps, hm, rfl⟩, fun s hs => List.mem_append_left _ (List.mem_map.2 ⟨s, hs, rfl⟩)⟩
        · obtain ⟨ss', h1, h2⟩ := i1 u hu
          exact ⟨ss', h1, fun s hs => List.mem_append_right _ (h2 s hs)⟩
      · intro s hs
        rcases List.mem_append.1 hs with hs | hs
        · obtain ⟨s', hs', rfl⟩ := List.mem_map.1 hs
          exact ⟨rfl, t, List.mem_cons_self, _, ⟨_, ps, m, htr, hps, hm, rfl⟩, hs'⟩
        · obtain ⟨h1, u, hu, ss', h2, h3⟩ := i2 s hs
          exact ⟨h1, u, List.mem_cons_of_mem _ hu, ss', h2, h3⟩

/-- A mark is at the last row of a trace whose agent has violated assertions. -/
theorem nodeMark_spec {aid : String} {hits : Option (Dict String (List String))} {ps : List (P3 K)} {m : List (Item K)} (h : nodeMark aid hits ps = .ok m) (i : Item K) :
    i ∈ m ↔ ∃ hs as p, hits = some hs ∧ Dict.get? hs aid = some as ∧ ps.getLast? = some p ∧ i = .mark p as := by
  unfold nodeMark at h
  cases hits with
  | none => injection h with h; subst h; simp
  | some hs =>
    simp only at h
    cases hg : Dict.get? hs aid with
    | none => rw [hg] at h; injection h with h; subst h; simp [hg]
    | some as =>
      rw [hg] at h
      cases hl : ps.getLast? with
      | none => rw [hl] at h; exact absurd h (by simp)
      | some p => rw [hl] at h; injection h with h; subst h; simp [hg]

end Verif.Plot3d
