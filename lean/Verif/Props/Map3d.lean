import Verif.Proofs.Map3d

/-!
C76: lanes of several segments in space. C77: waypoints. C78: neighbours.
-/

set_option autoImplicit false

namespace Verif.Props

open Verif.Lane3d Verif.Spec.Lane3d

/-- A lane of straight segments, each given by its identity, its start and its end. -/
noncomputable def straightLane (xs : List (Nat × V3 × V3)) : List Obj := xs.map fun x => ⟨x.1, .straight (Straight.new x.2.1 x.2.2)⟩

theorem mem_straightLane {xs : List (Nat × V3 × V3)} {o : Obj} : o ∈ straightLane xs ↔ ∃ x ∈ xs, straightObj x = o := List.mem_map

theorem straight_total {rnd : Nat → ℝ → ℝ} (hr : Rounding rnd) {xs : List (Nat × V3 × V3)} (hx : ∀ x ∈ xs, x.2.1 ≠ x.2.2) (p : V3) :
    ∃ f, getLaneSegment rnd (straightLane xs) p = some f := by
  refine scan_total _ ?_ 0 none []
  intro o ho
  obtain ⟨x, hxs, rfl⟩ := mem_straightLane.1 ho
  obtain ⟨l, θ, h, _, _⟩ := coords_foot hr (hx x hxs) p
  exact ⟨_, h⟩

theorem straight_on {rnd : Nat → ℝ → ℝ} (hr : Rounding rnd) {x : Nat × V3 × V3} (hx : x.2.1 ≠ x.2.2) {p : V3} {c : ℝ × ℝ × ℝ} (h : On rnd p (straightObj x) c) :
    Onto x.2.1 x.2.2 p c.1 ∧ Verif.Spec.Lane3d.dist p (along x.2.1 x.2.2 c.1) = c.2.1 :=
  (on_straight hr hx p c.1 c.2.1).1 ⟨c.2.2, h⟩

/-! ### C76 -/

/-- **C76.** Any lane and any point for which the segments give coordinates: the segments in question are those onto which the point projects; the one that is found is
nearest among them, the first of these; none is found only if there is none in question. -/
theorem C76_segment {rnd : Nat → ℝ → ℝ} {segs : List Obj} {p : V3} {found : Option (Nat × Obj × ℝ)} {possible : List Obj} (h : getLaneSegment rnd segs p = some (found, possible)) :
    (∀ o, o ∈ possible ↔ o ∈ segs ∧ ∃ l r θ, o.seg.coords rnd p = some (l, r, θ) ∧ -1 ≤ l ∧ l < o.seg.length) ∧
    (found = none ↔ possible = []) ∧
    ∀ i o r, found = some (i, o, r) → segs[i]? = some o ∧ o ∈ possible ∧ (∃ l θ, o.seg.coords rnd p = some (l, r, θ)) ∧
      ∀ j o' l' r' θ', segs[j]? = some o' → o' ∈ possible → o'.seg.coords rnd p = some (l', r', θ') → r ≤ r' ∧ (j < i → r < r') := by
  have S := getLaneSegment_spec h
  have hposs : ∀ o, o ∈ possible ↔ o ∈ segs ∧ ∃ l r θ, o.seg.coords rnd p = some (l, r, θ) ∧ -1 ≤ l ∧ l < o.seg.length := by
    intro o
    rw [S.poss]
    constructor
    · rintro ⟨h1, ⟨l, r, θ⟩, h2, h3⟩
      unfold isOn at h3
      exact ⟨h1, l, r, θ, h2, by simpa using h3.1, h3.2⟩
    · rintro ⟨h1, l, r, θ, h2, h3, h4⟩
      exact ⟨h1, (l, r, θ), h2, by simpa using h3, h4⟩
  have hsome : ∀ i o r, found = some (i, o, r) → ∃ c, segs[i]? = some o ∧ On rnd p o c ∧ c.2.1 = r ∧
      (∀ o' ∈ segs, ∀ c', On rnd p o' c' → r ≤ c'.2.1) ∧ ∀ j o' c', j < i → segs[j]? = some o' → On rnd p o' c' → r < c'.2.1 := by
    intro i o r hf
    obtain ⟨s1, _, s3⟩ := S.some i o r hf
    rcases s1 with s1 | ⟨k, c, e1, e2, e3, e4, _, e6⟩
    · simp at s1
    · simp only [zero_add] at e1
      subst e1
      exact ⟨c, e2, e3, e4, s3, e6⟩
  refine ⟨hposs, ⟨fun hf => (S.none hf).2, ?_⟩, ?_⟩
  · intro hp
    by_contra hne
    obtain ⟨⟨i, o, r⟩, hf⟩ := Option.ne_none_iff_exists'.1 hne
    obtain ⟨c, h1, h2, _⟩ := hsome i o r hf
    have : o ∈ possible := (S.poss o).2 ⟨List.mem_of_getElem? h1, c, h2⟩
    rw [hp] at this
    simp at this
  · intro i o r hf
    obtain ⟨⟨l, r', θ⟩, h1, h2, h3, h4, h5⟩ := hsome i o r hf
    simp only at h3
    subst h3
    refine ⟨h1, (S.poss o).2 ⟨List.mem_of_getElem? h1, _, h2⟩, ⟨l, θ, h2.1⟩, ?_⟩
    intro j o' l' r'' θ' hj ho' hc
    obtain ⟨_, c', hc'⟩ := (S.poss o').1 ho'
    have hcc : c' = (l', r'', θ') := Option.some.inj (hc'.1.symm.trans hc)
    subst hcc
    exact ⟨h4 o' (List.mem_of_getElem? hj) _ hc', fun hlt => h5 j o' _ hlt hj hc'⟩

/-- The found segment of a lane of straight segments. -/
theorem straight_found {rnd : Nat → ℝ → ℝ} (hr : Rounding rnd) {xs : List (Nat × V3 × V3)} (hx : ∀ x ∈ xs, x.2.1 ≠ x.2.2) {p : V3} {found : Option (Nat × Obj × ℝ)} {P : List Obj}
    (h : getLaneSegment rnd (straightLane xs) p = some (found, P)) :
    (∀ o, o ∈ P ↔ ∃ x ∈ xs, straightObj x = o ∧ ∃ l, Onto x.2.1 x.2.2 p l) ∧ (found = none ↔ ∀ x ∈ xs, ∀ l, ¬ Onto x.2.1 x.2.2 p l) ∧
    ∀ i o r, found = some (i, o, r) → ∃ x l θ, xs[i]? = some x ∧ o = straightObj x ∧ o.seg.coords rnd p = some (l, r, θ) ∧
      Onto x.2.1 x.2.2 p l ∧ Verif.Spec.Lane3d.dist p (along x.2.1 x.2.2 l) = r ∧
      ∀ (j : Nat) y l', xs[j]? = some y → Onto y.2.1 y.2.2 p l' → r ≤ Verif.Spec.Lane3d.dist p (along y.2.1 y.2.2 l') ∧ (j < i → r < Verif.Spec.Lane3d.dist p (along y.2.1 y.2.2 l')) := by
  have S := getLaneSegment_spec h
  have hposs : ∀ o, o ∈ P ↔ ∃ x ∈ xs, straightObj x = o ∧ ∃ l, Onto x.2.1 x.2.2 p l := by
    intro o
    rw [S.poss, mem_straightLane]
    constructor
    · rintro ⟨⟨x, h1, rfl⟩, c, hc⟩
      exact ⟨x, h1, rfl, c.1, (straight_on hr (hx x h1) hc).1⟩
    · rintro ⟨x, h1, rfl, l, hl⟩
      obtain ⟨θ, hθ⟩ := (on_straight hr (hx x h1) p l _).2 ⟨hl, rfl⟩
      exact ⟨⟨x, h1, rfl⟩, _, hθ⟩
  obtain ⟨_, C2, C3⟩ := C76_segment h
  refine ⟨hposs, ?_, ?_⟩
  · rw [C2]
    constructor
    · intro hP x hxs l hl
      have := (hposs (straightObj x)).2 ⟨x, hxs, rfl, l, hl⟩
      rw [hP] at this
      simp at this
    · intro hno
      rw [List.eq_nil_iff_forall_not_mem]
      intro o ho
      obtain ⟨x, h1, _, l, hl⟩ := (hposs o).1 ho
      exact hno x h1 l hl
  · intro i o r hf
    obtain ⟨h1, h2, ⟨l, θ, h3⟩, h4⟩ := C3 i o r hf
    unfold straightLane at h1
    rw [List.getElem?_map] at h1
    obtain ⟨x, hxi, rfl⟩ := Option.map_eq_some_iff.1 h1
    have hxs := List.mem_of_getElem? hxi
    obtain ⟨_, c, hc⟩ := (S.poss _).1 h2
    have hcc : c = (l, r, θ) := Option.some.inj (hc.1.symm.trans h3)
    subst hcc
    obtain ⟨o1, o2⟩ := straight_on hr (hx x hxs) hc
    refine ⟨x, l, θ, hxi, rfl, h3, o1, o2, ?_⟩
    intro j y l' hj hy
    have hys := List.mem_of_getElem? hj
    obtain ⟨θ', hθ'⟩ := (on_straight hr (hx y hys) p l' _).2 ⟨hy, rfl⟩
    refine h4 j (straightObj y) l' _ θ' ?_ ((hposs _).2 ⟨y, hys, rfl, l', hy⟩) hθ'.1
    unfold straightLane
    rw [List.getElem?_map, hj]
    rfl

/-- **C76, lateral distance.** On a lane of straight segments the lateral distance is the least distance to a segment onto which the point projects; the call raises
exactly if there is none. -/
theorem C76_lateral {rnd : Nat → ℝ → ℝ} (hr : Rounding rnd) {xs : List (Nat × V3 × V3)} (hx : ∀ x ∈ xs, x.2.1 ≠ x.2.2) (p : V3) :
    (lateralDistance rnd (straightLane xs) p = none ↔ ∀ x ∈ xs, ∀ l, ¬ Onto x.2.1 x.2.2 p l) ∧
    ∀ r, lateralDistance rnd (straightLane xs) p = some r ↔
      (∃ x ∈ xs, ∃ l, Onto x.2.1 x.2.2 p l ∧ Verif.Spec.Lane3d.dist p (along x.2.1 x.2.2 l) = r) ∧
      ∀ x ∈ xs, ∀ l, Onto x.2.1 x.2.2 p l → r ≤ Verif.Spec.Lane3d.dist p (along x.2.1 x.2.2 l) := by
  obtain ⟨⟨found, P⟩, hf⟩ := straight_total hr hx p
  obtain ⟨_, F2, F3⟩ := straight_found hr hx hf
  cases found with
  | none =>
    have hno := F2.1 rfl
    have e : lateralDistance rnd (straightLane xs) p = none := by simp [lateralDistance, hf]
    rw [e]
    refine ⟨⟨fun _ => hno, fun _ => rfl⟩, ?_⟩
    intro r
    constructor
    · intro h; simp at h
    · rintro ⟨⟨x, h1, l, h2, _⟩, _⟩
      exact absurd h2 (hno x h1 l)
  | some b =>
    obtain ⟨i, o, r0⟩ := b
    obtain ⟨x, l, θ, h1, h2, h3, h4, h5, h6⟩ := F3 i o r0 rfl
    have e : lateralDistance rnd (straightLane xs) p = some r0 := by simp [lateralDistance, hf, h3]
    have hxs := List.mem_of_getElem? h1
    have hle : ∀ x ∈ xs, ∀ l, Onto x.2.1 x.2.2 p l → r0 ≤ Verif.Spec.Lane3d.dist p (along x.2.1 x.2.2 l) := by
      intro y hy l' hl'
      obtain ⟨j, hj⟩ := List.mem_iff_getElem?.1 hy
      exact (h6 j y l' hj hl').1
    rw [e]
    refine ⟨⟨fun h => by simp at h, fun h => absurd h4 (h x hxs l)⟩, ?_⟩
    intro r
    rw [Option.some.injEq]
    constructor
    · rintro rfl
      exact ⟨⟨x, hxs, l, h4, h5⟩, hle⟩
    · rintro ⟨⟨y, hy, l', hl', rfl⟩, hm⟩
      exact le_antisymm (hle y hy l' hl') (h5 ▸ hm x hxs l h4)

theorem foldl_lengths (os : List Obj) : ∀ z : ℝ, os.foldl (fun acc o => acc + o.seg.length) z = (os.map fun o => o.seg.length).sum + z := by
  induction os with
  | nil => intro z; simp
  | cons o os ih =>
    intro z
    rw [List.foldl_cons, ih, List.map_cons, List.sum_cons]
    ring

/-- **C76, longitudinal position.** It is the length of the segments before the nearest one (the first of these), and the place of the projection on that. -/
theorem C76_longitudinal {rnd : Nat → ℝ → ℝ} (hr : Rounding rnd) {xs : List (Nat × V3 × V3)} (hx : ∀ x ∈ xs, x.2.1 ≠ x.2.2) (p : V3) (L : ℝ) :
    longitudinalPosition rnd (straightLane xs) p = some L ↔ ∃ (i : Nat) (x : Nat × V3 × V3) (l : ℝ), xs[i]? = some x ∧ Onto x.2.1 x.2.2 p l ∧
      (∀ (j : Nat) (y : Nat × V3 × V3) (l' : ℝ), xs[j]? = some y → Onto y.2.1 y.2.2 p l' →
        Verif.Spec.Lane3d.dist p (along x.2.1 x.2.2 l) ≤ Verif.Spec.Lane3d.dist p (along y.2.1 y.2.2 l') ∧
        (j < i → Verif.Spec.Lane3d.dist p (along x.2.1 x.2.2 l) < Verif.Spec.Lane3d.dist p (along y.2.1 y.2.2 l'))) ∧
      L = ((xs.take i).map fun y => Verif.Spec.Lane3d.dist y.2.1 y.2.2).sum + l := by
  obtain ⟨⟨found, P⟩, hf⟩ := straight_total hr hx p
  obtain ⟨_, F2, F3⟩ := straight_found hr hx hf
  have hlen : ∀ i z, ((straightLane xs).take i).foldl (fun acc o => acc + o.seg.length) z = ((xs.take i).map fun y => Verif.Spec.Lane3d.dist y.2.1 y.2.2).sum + z := by
    intro i z
    rw [foldl_lengths]
    congr 2
    unfold straightLane
    rw [← List.map_take, List.map_map]
    refine List.map_congr_left fun y _ => ?_
    exact straight_length y.2.1 y.2.2
  cases found with
  | none =>
    have hno := F2.1 rfl
    have e : longitudinalPosition rnd (straightLane xs) p = none := by simp [longitudinalPosition, hf]
    rw [e]
    constructor
    · intro h; simp at h
    · rintro ⟨i, x, l, h1, h2, _⟩
      exact absurd h2 (hno x (List.mem_of_getElem? h1) l)
  | some b =>
    obtain ⟨i, o, r0⟩ := b
    obtain ⟨x, l, θ, h1, h2, h3, h4, h5, h6⟩ := F3 i o r0 rfl
    subst h5
    have e : longitudinalPosition rnd (straightLane xs) p = some (((xs.take i).map fun y => Verif.Spec.Lane3d.dist y.2.1 y.2.2).sum + l) := by
      simp [longitudinalPosition, hf, h3, hlen]
    rw [e, Option.some.injEq]
    constructor
    · rintro rfl
      exact ⟨i, x, l, h1, h4, h6, rfl⟩
    · rintro ⟨j, y, l', g1, g2, g3, rfl⟩
      have hij : j = i := by
        rcases lt_trichotomy j i with hlt | heq | hgt
        · exact absurd ((h6 j y l' g1 g2).2 hlt) (not_lt.2 (g3 i x l h1 h4).1)
        · exact heq
        · exact absurd ((g3 i x l h1 h4).2 hgt) (not_lt.2 (h6 j y l' g1 g2).1)
      subst hij
      rw [h1] at g1
      injection g1 with g1
      subst g1
      rw [foot_unique (hx x (List.mem_of_getElem? h1)) h4.1 g2.1]

/-- A corner. -/
def corner : List (Nat × V3 × V3) := [(1, ⟨0, 0, 0⟩, ⟨10, 0, 0⟩), (2, ⟨10, 0, 0⟩, ⟨10, 10, 0⟩)]

theorem corner_ne : ∀ x ∈ corner, x.2.1 ≠ x.2.2 := by
  intro x hx
  simp only [corner, List.mem_cons, List.not_mem_nil, or_false] at hx
  rcases hx with rfl | rfl <;> simp

theorem dist_ten {p q : V3} (h : (p.x - q.x) ^ 2 + (p.y - q.y) ^ 2 + (p.z - q.z) ^ 2 = 10 ^ 2) : Verif.Spec.Lane3d.dist p q = 10 := by
  unfold Verif.Spec.Lane3d.dist
  rw [h]
  exact Real.sqrt_sq (by norm_num)

theorem corner_onto1 (p : V3) (l : ℝ) : Onto ⟨0, 0, 0⟩ ⟨10, 0, 0⟩ p l ↔ l = p.x ∧ -1 ≤ p.x ∧ p.x < 10 := by
  unfold Onto
  rw [foot_iff (by simp), dist_ten (by norm_num)]
  simp only [inner, vec, sub_zero, mul_zero, add_zero]
  constructor
  · rintro ⟨h1, h2, h3⟩
    have : l = p.x := by linarith
    subst this
    exact ⟨rfl, h2, h3⟩
  · rintro ⟨rfl, h2, h3⟩
    exact ⟨rfl, h2, h3⟩

theorem corner_onto2 (p : V3) (l : ℝ) : Onto ⟨10, 0, 0⟩ ⟨10, 10, 0⟩ p l ↔ l = p.y ∧ -1 ≤ p.y ∧ p.y < 10 := by
  unfold Onto
  rw [foot_iff (by simp), dist_ten (by norm_num)]
  simp only [inner, vec, sub_zero, sub_self, mul_zero, add_zero, zero_add]
  constructor
  · rintro ⟨h1, h2, h3⟩
    have : l = p.y := by linarith
    subst this
    exact ⟨rfl, h2, h3⟩
  · rintro ⟨rfl, h2, h3⟩
    exact ⟨rfl, h2, h3⟩

/-- A point beside the second segment. -/
example : longitudinalPosition (fun d x => (round (x * 10 ^ d) : ℝ) * (1 / 10) ^ d) (straightLane corner) ⟨12, 4, 3⟩ = some 14 := by
  rw [C76_longitudinal rounding_round corner_ne]
  refine ⟨1, (2, ⟨10, 0, 0⟩, ⟨10, 10, 0⟩), 4, rfl, (corner_onto2 _ _).2 (by norm_num), ?_, ?_⟩
  · intro j y l' hj hy
    match j, hj with
    | 0, hj =>
      simp only [corner, List.getElem?_cons_zero, Option.some.injEq] at hj
      subst hj
      have := (corner_onto1 _ _).1 hy
      norm_num at this
    | 1, hj =>
      simp only [corner, List.getElem?_cons_succ, List.getElem?_cons_zero, Option.some.injEq] at hj
      subst hj
      have := (corner_onto2 _ _).1 hy
      rw [this.1]
      exact ⟨le_refl _, fun h => absurd h (lt_irrefl _)⟩
    | j + 2, hj => simp [corner] at hj
  · simp only [corner, List.take_succ_cons, List.take_zero, List.map_cons, List.map_nil, List.sum_cons, List.sum_nil]
    rw [dist_ten (by norm_num)]
    norm_num

/-- **Violation.** Points of which the lane is near have no place on it: its own end, and a point on the outer side of a corner. -/
theorem C76_place_violated {rnd : Nat → ℝ → ℝ} (hr : Rounding rnd) : ∃ xs : List (Nat × V3 × V3), (∀ x ∈ xs, x.2.1 ≠ x.2.2) ∧
    (∃ x ∈ xs, lateralDistance rnd (straightLane xs) x.2.2 = none ∧ longitudinalPosition rnd (straightLane xs) x.2.2 = none) ∧
    ∃ p, ∃ x ∈ xs, ∃ y ∈ xs, x.2.2 = y.2.1 ∧ Verif.Spec.Lane3d.dist p x.2.2 ≤ 2 ∧ lateralDistance rnd (straightLane xs) p = none := by
  have hno : ∀ p : V3, 10 ≤ p.x → (p.y < -1 ∨ 10 ≤ p.y) → ∀ x ∈ corner, ∀ l, ¬ Onto x.2.1 x.2.2 p l := by
    intro p h1 h2 x hx l hl
    simp only [corner, List.mem_cons, List.not_mem_nil, or_false] at hx
    rcases hx with rfl | rfl
    · have := (corner_onto1 _ _).1 hl
      linarith [this.2.2]
    · obtain ⟨_, g1, g2⟩ := (corner_onto2 _ _).1 hl
      rcases h2 with h2 | h2 <;> linarith
  refine ⟨corner, corner_ne, ⟨(2, ⟨10, 0, 0⟩, ⟨10, 10, 0⟩), by simp [corner], ?_, ?_⟩, ⟨10, -2, 0⟩, (1, ⟨0, 0, 0⟩, ⟨10, 0, 0⟩), by simp [corner],
    (2, ⟨10, 0, 0⟩, ⟨10, 10, 0⟩), by simp [corner], rfl, ?_, ?_⟩
  · exact (C76_lateral hr corner_ne _).1.2 (hno _ (by norm_num) (Or.inr (by norm_num)))
  · rw [Option.eq_none_iff_forall_ne_some]
    intro L hL
    obtain ⟨i, x, l, h1, h2, _⟩ := (C76_longitudinal hr corner_ne _ L).1 hL
    exact hno ⟨10, 10, 0⟩ (by norm_num) (Or.inr (by norm_num)) x (List.mem_of_getElem? h1) l h2
  · unfold Verif.Spec.Lane3d.dist
    rw [show (((10:ℝ) - 10) ^ 2 + (-2 - 0) ^ 2 + (0 - 0) ^ 2 : ℝ) = 2 ^ 2 by norm_num, Real.sqrt_sq (by norm_num)]
  · exact (C76_lateral hr corner_ne _).1.2 (hno _ (by norm_num) (Or.inl (by norm_num)))

/-! ### C77 -/

/-- **C77, guard.** The guard holds exactly if in every coordinate the state is within half the side of the end of the waypoint. -/
theorem C77_guard (dest state side : List ℝ) (h1 : dest.length ≤ state.length) (h2 : dest.length ≤ side.length) :
    (guardBox dest state side = some true ↔ ∀ (i : Nat) (d s b : ℝ), dest[i]? = some d → state[i]? = some s → side[i]? = some b → |s - d| ≤ b / 2) ∧
    (guardBox dest state side = some true ∨ guardBox dest state side = some false) := by
  induction dest generalizing state side with
  | nil => simp [guardBox]
  | cons d ds ih =>
    cases state with
    | nil => simp at h1
    | cons s ss =>
      cases side with
      | nil => simp at h2
      | cons b bs =>
        simp only [List.length_cons, Nat.add_le_add_iff_right] at h1 h2
        obtain ⟨ih1, ih2⟩ := ih ss bs h1 h2
        have habs : |s - d| ≤ b / 2 ↔ ¬ (s < d - b / 2 ∨ d + b / 2 < s) := by
          rw [abs_le, not_or, not_lt, not_lt]
          constructor <;> rintro ⟨a, c⟩ <;> constructor <;> linarith
        simp only [guardBox]
        by_cases hc : s < d - b / 2 ∨ d + b / 2 < s
        · rw [if_pos hc]
          refine ⟨⟨fun h => by simp at h, fun h => ?_⟩, Or.inr rfl⟩
          exact absurd hc (habs.1 (h 0 d s b rfl rfl rfl))
        · rw [if_neg hc]
          refine ⟨?_, ih2⟩
          rw [ih1]
          constructor
          · intro h i d' s' b' e1 e2 e3
            cases i with
            | zero =>
              simp only [List.getElem?_cons_zero, Option.some.injEq] at e1 e2 e3
              subst e1; subst e2; subst e3
              exact habs.2 hc
            | succ i => exact h i d' s' b' (by simpa using e1) (by simpa using e2) (by simpa using e3)
          · intro h i d' s' b' e1 e2 e3
            exact h (i + 1) d' s' b' (by simpa using e1) (by simpa using e2) (by simpa using e3)

example : guardBox [1, 2, 3] [1.5, 2, 2.5, 7] [1, 1, 1] = some true := by
  refine (C77_guard _ _ _ (by simp) (by simp)).1.2 ?_
  intro i d s b e1 e2 e3
  match i, e1, e2, e3 with
  | 0, e1, e2, e3 => simp at e1 e2 e3; subst e1; subst e2; subst e3; norm_num [abs_le]
  | 1, e1, e2, e3 => simp at e1 e2 e3; subst e1; subst e2; subst e3; norm_num
  | 2, e1, e2, e3 => simp at e1 e2 e3; subst e1; subst e2; subst e3; norm_num [abs_le]
  | i + 3, e1, e2, e3 => simp at e1

theorem nextPoint_some {rnd : Nat → ℝ → ℝ} {lane : List Obj} {pos : Option V3} {v : V3} {est : ℝ} {s s' : Track} {w : V3 × V3} (h : nextPoint rnd lane pos v est s = some (w, s')) :
    ∃ f seg c stored', currPoint pos s = some w.1 ∧ getLaneSegment rnd lane w.1 = some f ∧ (currentSegment (foundSeg f) f.2 s.seg).1 = some seg ∧
      seg.seg.coords rnd w.1 = some c ∧ target rnd lane w.1 v est seg (currentSegment (foundSeg f) f.2 s.seg).2 c = some (w.2, stored') ∧
      s' = ⟨some w, stored', s.wps ++ [w]⟩ := by
  unfold nextPoint at h
  obtain ⟨curr, h1, h⟩ := Option.bind_eq_some_iff.1 h
  obtain ⟨f, h2, h⟩ := Option.bind_eq_some_iff.1 h
  obtain ⟨seg, h3, h⟩ := Option.bind_eq_some_iff.1 h
  obtain ⟨c, h4, h⟩ := Option.bind_eq_some_iff.1 h
  obtain ⟨r, h5, h⟩ := Option.map_eq_some_iff.1 h
  injection h with e1 e2
  subst e1; subst e2
  exact ⟨f, seg, c, r.2, h1, h2, h3, h4, h5, rfl⟩

/-- Calls without a position, one after another. -/
noncomputable def callAll (rnd : Nat → ℝ → ℝ) (lane : List Obj) : List (V3 × ℝ) → Track → Option Track
  | [], s => some s
  | (v, est) :: cs, s => (nextPoint rnd lane none v est s).bind fun r => callAll rnd lane cs r.2

/-- **C77, chain.** The waypoints of calls of which only the first gives a position (on any lane, with any velocities and lengths) start at that position, and each starts where
the one before ends; there is one for each call, and the last one is the current one. -/
theorem C77_chain {rnd : Nat → ℝ → ℝ} {lane : List Obj} {pos v : V3} {est : ℝ} {w : V3 × V3} {s1 s : Track} {cs : List (V3 × ℝ)}
    (h1 : nextPoint rnd lane (some pos) v est ⟨none, none, []⟩ = some (w, s1)) (h : callAll rnd lane cs s1 = some s) :
    (s.wps.head?.map Prod.fst) = some pos ∧ Chained s.wps ∧ s.wps.length = cs.length + 1 ∧ s.wp = s.wps.getLast? := by
  obtain ⟨f, seg, c, st, e1, _, _, _, _, rfl⟩ := nextPoint_some h1
  simp only [currPoint, Option.some.injEq] at e1
  have key : ∀ (cs : List (V3 × ℝ)) (t s : Track), callAll rnd lane cs t = some s → t.wps ≠ [] → t.wp = t.wps.getLast? → Chained t.wps →
      s.wps.head? = t.wps.head? ∧ Chained s.wps ∧ s.wps.length = cs.length + t.wps.length ∧ s.wp = s.wps.getLast? := by
    intro cs
    induction cs with
    | nil =>
      intro t s h hne hl hc
      simp only [callAll, Option.some.injEq] at h
      subst h
      exact ⟨rfl, hc, by simp, hl⟩
    | cons a cs ih =>
      intro t s h hne hl hc
      obtain ⟨v, est⟩ := a
      simp only [callAll] at h
      obtain ⟨⟨u, t'⟩, h2, h⟩ := Option.bind_eq_some_iff.1 h
      obtain ⟨f, seg, c, st, g1, _, _, _, _, rfl⟩ := nextPoint_some h2
      simp only [currPoint] at g1
      rw [hl] at g1
      obtain ⟨z, hz, hzu⟩ := Option.map_eq_some_iff.1 g1
      have hch : ∀ ws : List (V3 × V3), ws.getLast? = some z → Chained ws → Chained (ws ++ [u]) := by
        intro ws
        induction ws with
        | nil => intro hz; simp at hz
        | cons a ws ihw =>
          intro hz hc
          cases ws with
          | nil =>
            simp only [List.getLast?_singleton, Option.some.injEq] at hz
            subst hz
            exact ⟨hzu, trivial⟩
          | cons b ws =>
            exact ⟨hc.1, ihw (by simpa using hz) hc.2⟩
      obtain ⟨i1, i2, i3, i4⟩ := ih ⟨some u, st, t.wps ++ [u]⟩ s h (by simp) (by simp) (hch t.wps hz hc)
      refine ⟨?_, i2, ?_, i4⟩
      · rw [i1]
        cases hw : t.wps with
        | nil => exact absurd hw hne
        | cons a l => rfl
      · rw [i3]; simp only [List.length_append, List.length_cons, List.length_nil]; omega
  obtain ⟨i1, i2, i3, i4⟩ := key cs _ s h (by simp) (by simp) (by simp [Chained])
  refine ⟨?_, i2, ?_, i4⟩
  · rw [i1]; simp [e1]
  · rw [i3]; simp

theorem found_mem {rnd : Nat → ℝ → ℝ} {segs : List Obj} {p : V3} {f : Option (Nat × Obj × ℝ) × List Obj} (h : getLaneSegment rnd segs p = some f) {o : Obj} (ho : foundSeg f = some o) : o ∈ f.2 := by
  obtain ⟨⟨i, o', r⟩, h1, rfl⟩ := Option.map_eq_some_iff.1 ho
  exact ((C76_segment (found := f.1) (possible := f.2) h).2.2 i o' r h1).2.1

theorem straight_coords_of {rnd : Nat → ℝ → ℝ} (hr : Rounding rnd) {a b : V3} (hab : a ≠ b) (p : V3) {κ : ℝ} (hκ0 : 0 ≤ κ)
    (hκ : a.y = b.y ∨ |(b.x - a.x) * (b.z - a.z)| ≤ κ * (|b.y - a.y| * Verif.Spec.Lane3d.dist a b)) {c : ℝ × ℝ × ℝ} (hc : (Straight.new a b).coords rnd p = some c) :
    Verif.Spec.Lane3d.dist ((Straight.new a b).position c.1 c.2.1 c.2.2) p ≤ max (1 / 1000) (c.2.1 * (2 + κ) / 100000) := by
  obtain ⟨l, r, θ, h1, _, _, _, _, h6⟩ := straight_coords hr hab p hκ0 hκ
  rw [hc] at h1
  injection h1 with h1
  subst h1
  exact h6

/-- **C77, one waypoint.** A lane of straight segments. The segment that is used is one onto which the start of the waypoint projects; it is the stored one if that is among them, a nearest one
otherwise. With `l` and `r` the place of the start along and beside it:
* either the end of the waypoint is on the same segment, not before `l`, closer to the axis by 7/10 of the length (or on the axis), and its distance from the start is the length up to rounding;
* or the point that would follow is beyond the end of the segment. Then the end of the waypoint is at distance `r` beside the start of a segment onto which the point that would follow projects; among
these the one that is most in the direction of the velocity. -/
theorem C77_step {rnd : Nat → ℝ → ℝ} (hr : Rounding rnd) {xs : List (Nat × V3 × V3)} (hx : ∀ x ∈ xs, x.2.1 ≠ x.2.2) {κ : ℝ} (hκ0 : 0 ≤ κ)
    (hκ : ∀ x ∈ xs, x.2.1.y = x.2.2.y ∨ |(x.2.2.x - x.2.1.x) * (x.2.2.z - x.2.1.z)| ≤ κ * (|x.2.2.y - x.2.1.y| * Verif.Spec.Lane3d.dist x.2.1 x.2.2))
    {pos : Option V3} {v : V3} {est : ℝ} (hest : 0 ≤ est) {s s' : Track} {w : V3 × V3} (h : nextPoint rnd (straightLane xs) pos v est s = some (w, s')) :
    (∀ p, pos = some p → w.1 = p) ∧ (pos = none → ∃ u, s.wp = some u ∧ w.1 = u.2) ∧ s'.wp = some w ∧ s'.wps = s.wps ++ [w] ∧
    ∃ x ∈ xs, ∃ l r, Onto x.2.1 x.2.2 w.1 l ∧ Verif.Spec.Lane3d.dist w.1 (along x.2.1 x.2.2 l) = r ∧
      (∀ o, s.seg = some o → (∃ y ∈ xs, y.1 = o.id ∧ ∃ l', Onto y.2.1 y.2.2 w.1 l') → x.1 = o.id) ∧
      ((∀ o, s.seg = some o → ¬ ∃ y ∈ xs, y.1 = o.id ∧ ∃ l', Onto y.2.1 y.2.2 w.1 l') →
        ∀ y ∈ xs, ∀ l', Onto y.2.1 y.2.2 w.1 l' → r ≤ Verif.Spec.Lane3d.dist w.1 (along y.2.1 y.2.2 l')) ∧
      ((∃ l', l ≤ l' ∧ l' ≤ l + est ∧ l' ≤ Verif.Spec.Lane3d.dist x.2.1 x.2.2 ∧ Foot x.2.1 x.2.2 w.2 l' ∧ Verif.Spec.Lane3d.dist w.2 (along x.2.1 x.2.2 l') = max 0 (r - 7 / 10 * est) ∧
          |Verif.Spec.Lane3d.dist w.1 w.2 - est| ≤ max (1 / 1000) (r * (2 + κ) / 100000) ∧
          (s.seg = none → s'.seg.map Obj.id = some x.1) ∧ (∀ o, s.seg = some o → s'.seg = some o)) ∨
       (∃ l' q, Verif.Spec.Lane3d.dist x.2.1 x.2.2 < l' ∧ l' ≤ l + est ∧ Foot x.2.1 x.2.2 q l' ∧ Verif.Spec.Lane3d.dist q (along x.2.1 x.2.2 l') = max 0 (r - 7 / 10 * est) ∧
          |Verif.Spec.Lane3d.dist w.1 q - est| ≤ max (1 / 1000) (r * (2 + κ) / 100000) ∧
          ∃ f : Nat × V3 × V3 → V3, (∀ y ∈ xs, Verif.Spec.Lane3d.dist (f y) y.2.1 = r ∧ inner (vec y.2.1 (f y)) (vec y.2.1 y.2.2) = 0) ∧
          ∃ y ∈ xs, (∃ l'', Onto y.2.1 y.2.2 q l'') ∧ w.2 = f y ∧ s'.seg.map Obj.id = some y.1 ∧
            ∀ z ∈ xs, (∃ l'', Onto z.2.1 z.2.2 q l'') → inner (unit (vec w.1 (f z))) v ≤ inner (unit (vec w.1 (f y))) v)) := by
  obtain ⟨f, seg, c, st, e1, e2, e3, e4, e5, rfl⟩ := nextPoint_some h
  obtain ⟨F1, F2, F3⟩ := straight_found (found := f.1) (P := f.2) hr hx e2
  refine ⟨?_, ?_, rfl, rfl, ?_⟩
  · rintro p rfl
    simpa [currPoint] using e1.symm
  · rintro rfl
    simp only [currPoint] at e1
    obtain ⟨u, hu, hu'⟩ := Option.map_eq_some_iff.1 e1
    exact ⟨u, hu, hu'.symm⟩
  -- the segment in use
  have huse : seg ∈ f.2 ∧ (∀ o, s.seg = some o → (∃ y ∈ xs, y.1 = o.id ∧ ∃ l', Onto y.2.1 y.2.2 w.1 l') → seg.id = o.id) ∧
      ((∀ o, s.seg = some o → ¬ ∃ y ∈ xs, y.1 = o.id ∧ ∃ l', Onto y.2.1 y.2.2 w.1 l') → foundSeg f = some seg) ∧
      (s.seg = none → (currentSegment (foundSeg f) f.2 s.seg).2 = some seg) ∧ (∀ o, s.seg = some o → (currentSegment (foundSeg f) f.2 s.seg).2 = some o) := by
    cases hs : s.seg with
    | none =>
      rw [hs] at e3
      simp only [currentSegment] at e3 ⊢
      exact ⟨found_mem e2 e3, by simp, fun _ => e3, fun _ => e3, by simp⟩
    | some o =>
      rw [hs] at e3
      simp only [currentSegment] at e3 ⊢
      cases hfind : f.2.find? fun o' => o'.id == o.id with
      | some o' =>
        rw [hfind] at e3
        simp only [Option.some.injEq] at e3
        subst e3
        have hm := List.mem_of_find?_eq_some hfind
        have hid : o'.id = o.id := by
          have := List.find?_some hfind
          simpa using this
        refine ⟨hm, ?_, ?_, by simp, by simp⟩
        · intro o'' ho _
          injection ho with ho
          rw [← ho]; exact hid
        · intro hno
          obtain ⟨y, hy, rfl, l', hl'⟩ := (F1 o').1 hm
          exact absurd ⟨y, hy, hid, l', hl'⟩ (hno o rfl)
      | none =>
        rw [hfind] at e3
        simp only at e3
        refine ⟨found_mem e2 e3, ?_, fun _ => e3, by simp, by simp⟩
        intro o'' ho hy
        injection ho with ho
        subst ho
        obtain ⟨y, hy, hid, l', hl'⟩ := hy
        rw [List.find?_eq_none] at hfind
        have := hfind (straightObj y) ((F1 _).2 ⟨y, hy, rfl, l', hl'⟩)
        exact absurd (by simpa [straightObj] using hid) this
  obtain ⟨hmem, hst, hnear, hs0, hs1⟩ := huse
  obtain ⟨x, hxs, rfl, l0, hl0⟩ := (F1 seg).1 hmem
  obtain ⟨θ0, hθ0⟩ := (on_straight hr (hx x hxs) w.1 l0 _).2 ⟨hl0, rfl⟩
  have hc := Option.some.inj (hθ0.1.symm.trans e4)
  obtain ⟨l, r, θ⟩ := c
  simp only [Prod.mk.injEq] at hc
  obtain ⟨rfl, hr0, rfl⟩ := hc
  have hrn : 0 ≤ r := hr0 ▸ dist_nonneg _ _
  have hbound := straight_coords_of hr (hx x hxs) w.1 hκ0 (hκ x hxs) e4
  simp only at hbound
  refine ⟨x, hxs, l0, r, hl0, hr0, hst, ?_, ?_⟩
  · intro hno y hy l' hl'
    have hfo := hnear hno
    obtain ⟨⟨i, o', r'⟩, hf1, hf2⟩ := Option.map_eq_some_iff.1 hfo
    obtain ⟨x', lx, θx, g1, g2, g3, g4, g5, g6⟩ := F3 i o' r' hf1
    simp only at hf2
    subst hf2
    rw [e4] at g3
    simp only [Option.some.injEq, Prod.mk.injEq] at g3
    obtain ⟨j, hj⟩ := List.mem_iff_getElem?.1 hy
    rw [g3.2.1]
    exact (g6 j y l' hj hl').1
  · obtain ⟨a1, a2, a4, a3⟩ := aim_spec (l := l0) hest hrn
    have ha0 : 0 ≤ (aim est l0 r).2 := by rw [a1]; exact le_max_left _ _
    obtain ⟨P1, P2⟩ := position_foot (hx x hxs) (aim est l0 r).1 θ0 ha0
    have hd := position_dist (hx x hxs) l0 r (aim est l0 r).1 (aim est l0 r).2 θ0
    have hde : Verif.Spec.Lane3d.dist ((Straight.new x.2.1 x.2.2).position l0 r θ0) ((Straight.new x.2.1 x.2.2).position (aim est l0 r).1 (aim est l0 r).2 θ0) = est := by
      refine (pow_left_inj₀ (dist_nonneg _ _) hest two_ne_zero).1 ?_
      rw [hd, ← a3]; ring
    have habs : |Verif.Spec.Lane3d.dist w.1 ((Straight.new x.2.1 x.2.2).position (aim est l0 r).1 (aim est l0 r).2 θ0) - est| ≤ max (1 / 1000) (r * (2 + κ) / 100000) := by
      rw [abs_le]
      have t1 := dist_triangle w.1 ((Straight.new x.2.1 x.2.2).position l0 r θ0) ((Straight.new x.2.1 x.2.2).position (aim est l0 r).1 (aim est l0 r).2 θ0)
      have t2 := dist_triangle ((Straight.new x.2.1 x.2.2).position l0 r θ0) w.1 ((Straight.new x.2.1 x.2.2).position (aim est l0 r).1 (aim est l0 r).2 θ0)
      rw [Verif.Lane3d.dist_comm w.1 ((Straight.new x.2.1 x.2.2).position l0 r θ0)] at t1
      constructor <;> linarith
    unfold target at e5
    simp only at e5
    by_cases hlen : (straightObj x).seg.length < (aim est l0 r).1
    · rw [if_pos hlen] at e5
      have hlen' : Verif.Spec.Lane3d.dist x.2.1 x.2.2 < (aim est l0 r).1 := by
        rw [← straight_length]; exact hlen
      obtain ⟨g, hg, e5⟩ := Option.bind_eq_some_iff.1 e5
      obtain ⟨o, ho, e5⟩ := Option.map_eq_some_iff.1 e5
      simp only [Prod.mk.injEq] at e5
      obtain ⟨e6, rfl⟩ := e5
      obtain ⟨G1, _, _⟩ := straight_found (found := g.1) (P := g.2) hr hx hg
      have hpick : o ∈ g.2 ∧ ∀ o' ∈ g.2, toward w.1 v r θ0 o' ≤ toward w.1 v r θ0 o := by
        rcases pickNext_none _ ho with ⟨h1, h2⟩ | h2
        · have := found_mem hg h2
          rw [h1] at this
          simp at this
        · exact h2
      obtain ⟨y, hy, rfl, l'', hl''⟩ := (G1 o).1 hpick.1
      refine Or.inr ⟨(aim est l0 r).1, _, hlen', a4, P1, by rw [P2, a1], habs, fun z => (Straight.new z.2.1 z.2.2).position 0 r θ0,
        fun z hz => position_start (hx z hz) θ0 hrn, y, hy, ⟨l'', hl''⟩, e6.symm, rfl, ?_⟩
      rintro z hz ⟨lz, hlz⟩
      have := hpick.2 (straightObj z) ((G1 _).2 ⟨z, hz, rfl, lz, hlz⟩)
      rw [toward_eq, toward_eq] at this
      exact this
    · rw [if_neg hlen] at e5
      have hlen' : (aim est l0 r).1 ≤ Verif.Spec.Lane3d.dist x.2.1 x.2.2 := by
        rw [← straight_length]; exact not_lt.1 hlen
      simp only [Option.some.injEq, Prod.mk.injEq] at e5
      obtain ⟨e6, e7⟩ := e5
      have e6' : (Straight.new x.2.1 x.2.2).position (aim est l0 r).1 (aim est l0 r).2 θ0 = w.2 := e6
      rw [e6'] at P1 P2 habs
      refine Or.inl ⟨(aim est l0 r).1, a2, a4, hlen', P1, by rw [P2, a1], habs, ?_, ?_⟩
      · intro hn
        rw [← e7, hs0 hn]
        rfl
      · intro o ho
        rw [← e7, hs1 o ho]

/-- **C77, no exception.** There is a waypoint if the start projects onto a segment and is far enough from the end of each segment onto which it projects. -/
theorem C77_go {rnd : Nat → ℝ → ℝ} (hr : Rounding rnd) {xs : List (Nat × V3 × V3)} (hx : ∀ x ∈ xs, x.2.1 ≠ x.2.2) (p v : V3) {est : ℝ} (hest : 0 ≤ est) (s : Track)
    (hp : ∃ x ∈ xs, ∃ l, Onto x.2.1 x.2.2 p l) (hfar : ∀ x ∈ xs, ∀ l, Onto x.2.1 x.2.2 p l → l + est ≤ Verif.Spec.Lane3d.dist x.2.1 x.2.2) :
    ∃ w s', nextPoint rnd (straightLane xs) (some p) v est s = some (w, s') := by
  obtain ⟨f, hf⟩ := straight_total hr hx p
  obtain ⟨F1, F2, F3⟩ := straight_found (found := f.1) (P := f.2) hr hx hf
  have hfound : ∃ o, foundSeg f = some o := by
    obtain ⟨x, hxs, l, hl⟩ := hp
    have : f.1 ≠ none := fun hn => F2.1 hn x hxs l hl
    obtain ⟨b, hb⟩ := Option.ne_none_iff_exists'.1 this
    exact ⟨b.2.1, by simp [foundSeg, hb]⟩
  obtain ⟨o0, ho0⟩ := hfound
  have huse : ∃ seg ∈ f.2, (currentSegment (foundSeg f) f.2 s.seg).1 = some seg := by
    have hm := found_mem hf ho0
    cases hs : s.seg with
    | none => exact ⟨o0, hm, ho0⟩
    | some o =>
      simp only [currentSegment]
      cases hfind : f.2.find? fun o' => o'.id == o.id with
      | some o' => exact ⟨o', List.mem_of_find?_eq_some hfind, rfl⟩
      | none => exact ⟨o0, hm, ho0⟩
  obtain ⟨seg, hmem, hseg⟩ := huse
  obtain ⟨x, hxs, rfl, l, hl⟩ := (F1 seg).1 hmem
  obtain ⟨θ, hθ⟩ := (on_straight hr (hx x hxs) p l _).2 ⟨hl, rfl⟩
  have hlen : ¬ (straightObj x).seg.length < (aim est l (Verif.Spec.Lane3d.dist p (along x.2.1 x.2.2 l))).1 := by
    have h1 := (aim_spec (l := l) hest (dist_nonneg p (along x.2.1 x.2.2 l))).2.2.1
    have h2 := hfar x hxs l hl
    have h3 : (straightObj x).seg.length = Verif.Spec.Lane3d.dist x.2.1 x.2.2 := straight_length _ _
    rw [h3]
    exact not_lt.2 (by linarith)
  have ht : ∃ r, target rnd (straightLane xs) p v est (straightObj x) (currentSegment (foundSeg f) f.2 s.seg).2 (l, Verif.Spec.Lane3d.dist p (along x.2.1 x.2.2 l), θ) = some r := by
    unfold target
    simp only [hlen, if_false]
    exact ⟨_, rfl⟩
  obtain ⟨r, hr'⟩ := ht
  unfold nextPoint
  simp only [currPoint, Option.bind_some, hf, hseg, hθ.1, hr', Option.map_some]
  exact ⟨_, _, rfl⟩

/-- Two parallel segments. -/
def twin : List (Nat × V3 × V3) := [(1, ⟨0, 0, 0⟩, ⟨10, 0, 0⟩), (2, ⟨0, 1, 0⟩, ⟨10, 1, 0⟩)]

theorem twin_ne : ∀ x ∈ twin, x.2.1 ≠ x.2.2 := by
  intro x hx
  simp only [twin, List.mem_cons, List.not_mem_nil, or_false] at hx
  rcases hx with rfl | rfl <;> simp

theorem onto_x {a b : V3} (hy : a.y = b.y) (hz : a.z = b.z) (hx : b.x = a.x + 10) (p : V3) (l : ℝ) : Onto a b p l ↔ l = p.x - a.x ∧ a.x - 1 ≤ p.x ∧ p.x < b.x := by
  have hab : a ≠ b := by
    rintro rfl
    linarith
  unfold Onto
  rw [foot_iff hab, dist_ten (by rw [hy, hz, hx]; ring)]
  simp only [inner, vec, ← hy, ← hz, sub_self, mul_zero, add_zero, hx, add_sub_cancel_left]
  constructor
  · rintro ⟨h1, h2, h3⟩
    have : l = p.x - a.x := by linarith
    subst this
    exact ⟨rfl, by linarith, by linarith⟩
  · rintro ⟨rfl, h2, h3⟩
    exact ⟨rfl, by linarith, by linarith⟩

theorem along_x {a b : V3} (hy : a.y = b.y) (hz : a.z = b.z) (hx : b.x = a.x + 10) (t : ℝ) : along a b t = ⟨a.x + t, a.y, a.z⟩ := by
  unfold along
  rw [dist_ten (by rw [hy, hz, hx]; ring), hy, hz, hx]
  simp

theorem eq_of_zero {p q : V3} (h : Verif.Spec.Lane3d.dist p q = 0) : p = q := by
  by_contra hne
  exact absurd h (dist_pos hne).ne'

theorem dist_y {p q : V3} (hx : p.x = q.x) (hz : p.z = q.z) : Verif.Spec.Lane3d.dist p q = |p.y - q.y| := by
  unfold Verif.Spec.Lane3d.dist
  rw [hx, hz, ← Real.sqrt_sq_eq_abs]
  congr 1
  ring

/-- The hypotheses of `C77_go` and `C77_step` hold beside the first of the two segments. -/
example (v : V3) : ∃ w s', nextPoint (fun d x => (round (x * 10 ^ d) : ℝ) * (1 / 10) ^ d) (straightLane twin) (some ⟨3, 0, 4⟩) v 5 ⟨none, none, []⟩ = some (w, s') ∧
    |Verif.Spec.Lane3d.dist w.1 w.2 - 5| ≤ 1 / 1000 := by
  have hon : ∀ x ∈ twin, ∀ l, Onto x.2.1 x.2.2 ⟨3, 0, 4⟩ l → l = 3 ∧ Verif.Spec.Lane3d.dist x.2.1 x.2.2 = 10 ∧ Verif.Spec.Lane3d.dist ⟨3, 0, 4⟩ (along x.2.1 x.2.2 l) ≤ 5 := by
    intro x hx l hl
    simp only [twin, List.mem_cons, List.not_mem_nil, or_false] at hx
    rcases hx with rfl | rfl
    · have h1 := ((onto_x (by norm_num) (by norm_num) (by norm_num) _ _).1 hl).1
      refine ⟨by rw [h1]; norm_num, dist_ten (by norm_num), ?_⟩
      simp only
      rw [along_x (by norm_num) (by norm_num) (by norm_num), h1]
      unfold Verif.Spec.Lane3d.dist
      exact (Real.sqrt_le_left (by norm_num)).2 (by norm_num)
    · have h1 := ((onto_x (by norm_num) (by norm_num) (by norm_num) _ _).1 hl).1
      refine ⟨by rw [h1]; norm_num, dist_ten (by norm_num), ?_⟩
      simp only
      rw [along_x (by norm_num) (by norm_num) (by norm_num), h1]
      unfold Verif.Spec.Lane3d.dist
      exact (Real.sqrt_le_left (by norm_num)).2 (by norm_num)
  obtain ⟨w, s', h⟩ := C77_go rounding_round twin_ne ⟨3, 0, 4⟩ v (est := 5) (by norm_num) ⟨none, none, []⟩
    ⟨(1, ⟨0, 0, 0⟩, ⟨10, 0, 0⟩), by simp [twin], 3, (onto_x (by norm_num) (by norm_num) (by norm_num) _ _).2 (by norm_num)⟩
    (by intro x hx l hl; obtain ⟨h1, h2, _⟩ := hon x hx l hl; rw [h1, h2]; norm_num)
  refine ⟨w, s', h, ?_⟩
  obtain ⟨h1, _, _, _, x, hx, l, r, h2, h3, _, _, h4⟩ := C77_step rounding_round twin_ne (κ := 0) (le_refl 0)
    (by intro x hx; simp only [twin, List.mem_cons, List.not_mem_nil, or_false] at hx; rcases hx with rfl | rfl <;> exact Or.inl rfl) (by norm_num) h
  rw [h1 _ rfl] at h2 h3
  obtain ⟨g1, g2, g3⟩ := hon x hx l h2
  rcases h4 with ⟨l', _, _, _, _, _, g, _⟩ | ⟨l', q, g4, g5, _⟩
  · refine le_trans g (max_le (le_refl _) ?_)
    rw [← h3]; linarith
  · rw [g2] at g4; rw [g1] at g5; linarith

/-- **Violation.** The same call on the same map gives different waypoints, depending on the calls before it: the segment that was found by an earlier call is preferred to the nearest. -/
theorem C77_history_violated {rnd : Nat → ℝ → ℝ} (hr : Rounding rnd) (v : V3) : ∃ xs : List (Nat × V3 × V3), (∀ x ∈ xs, x.2.1 ≠ x.2.2) ∧ ∃ p₀ p : V3, ∃ w₀ s w w' s' s'',
    nextPoint rnd (straightLane xs) (some p₀) v 2 ⟨none, none, []⟩ = some (w₀, s) ∧
    nextPoint rnd (straightLane xs) (some p) v 2 s = some (w, s') ∧ nextPoint rnd (straightLane xs) (some p) v 2 ⟨none, none, []⟩ = some (w', s'') ∧
    w.2.y = 1 ∧ w'.2.y = 0 := by
  have hon1 : ∀ p : V3, ∀ l, Onto ⟨0, 0, 0⟩ ⟨10, 0, 0⟩ p l ↔ l = p.x - 0 ∧ 0 - 1 ≤ p.x ∧ p.x < 10 := fun p l => onto_x (by norm_num) (by norm_num) (by norm_num) p l
  have hon2 : ∀ p : V3, ∀ l, Onto ⟨0, 1, 0⟩ ⟨10, 1, 0⟩ p l ↔ l = p.x - 0 ∧ 0 - 1 ≤ p.x ∧ p.x < 10 := fun p l => onto_x (by norm_num) (by norm_num) (by norm_num) p l
  have hal1 : ∀ t, along ⟨0, 0, 0⟩ ⟨10, 0, 0⟩ t = ⟨0 + t, 0, 0⟩ := along_x (by norm_num) (by norm_num) (by norm_num)
  have hal2 : ∀ t, along ⟨0, 1, 0⟩ ⟨10, 1, 0⟩ t = ⟨0 + t, 1, 0⟩ := along_x (by norm_num) (by norm_num) (by norm_num)
  have hd : ∀ y y' : ℝ, Verif.Spec.Lane3d.dist ⟨5, y, 0⟩ ⟨0 + 5, y', 0⟩ = |y - y'| := fun y y' => dist_y (by norm_num) rfl
  have hlen : ∀ x ∈ twin, Verif.Spec.Lane3d.dist x.2.1 x.2.2 = 10 := by
    intro x hx
    simp only [twin, List.mem_cons, List.not_mem_nil, or_false] at hx
    rcases hx with rfl | rfl <;> exact dist_ten (by norm_num)
  have hl : ∀ x ∈ twin, ∀ y l, Onto x.2.1 x.2.2 ⟨5, y, 0⟩ l → l = 5 := by
    intro x hx y l h
    simp only [twin, List.mem_cons, List.not_mem_nil, or_false] at hx
    rcases hx with rfl | rfl
    · have := ((hon1 _ _).1 h).1; simpa using this
    · have := ((hon2 _ _).1 h).1; simpa using this
  have go : ∀ y s, ∃ w s', nextPoint rnd (straightLane twin) (some ⟨5, y, 0⟩) v 2 s = some (w, s') := by
    intro y s
    refine C77_go hr twin_ne ⟨5, y, 0⟩ v (by norm_num) s ⟨(1, ⟨0, 0, 0⟩, ⟨10, 0, 0⟩), by simp [twin], 5, (hon1 _ _).2 (by norm_num)⟩ ?_
    intro x hx l h
    rw [hl x hx y l h, hlen x hx]; norm_num
  have step := fun (y : ℝ) (s s' : Track) (w : V3 × V3) => C77_step hr twin_ne (κ := 0) (le_refl 0)
    (by intro x hx; simp only [twin, List.mem_cons, List.not_mem_nil, or_false] at hx; rcases hx with rfl | rfl <;> exact Or.inl rfl) (pos := some ⟨5, y, 0⟩) (v := v) (est := 2) (by norm_num) (s := s) (s' := s') (w := w)
  obtain ⟨w₀, s, h0⟩ := go 1 ⟨none, none, []⟩
  obtain ⟨w, s', h1⟩ := go 0 s
  obtain ⟨w', s'', h2⟩ := go 0 ⟨none, none, []⟩
  refine ⟨twin, twin_ne, ⟨5, 1, 0⟩, ⟨5, 0, 0⟩, w₀, s, w, w', s', s'', h0, h1, h2, ?_⟩
  -- the first call stores the second segment
  have hs : ∃ o, s.seg = some o ∧ o.id = 2 := by
    obtain ⟨a1, _, _, _, x, hx, l, r, a2, a3, _, a4, a5⟩ := step 1 _ s w₀ h0
    rw [a1 _ rfl] at a2 a3 a4
    have a6 := a4 (by simp) (2, ⟨0, 1, 0⟩, ⟨10, 1, 0⟩) (by simp [twin]) 5 ((hon2 _ _).2 (by norm_num))
    simp only at a6
    rw [hal2, hd, sub_self, abs_zero] at a6
    have hlx := hl x hx 1 l a2
    subst hlx
    have hx2 : x.1 = 2 := by
      have hx' := hx
      simp only [twin, List.mem_cons, List.not_mem_nil, or_false] at hx'
      rcases hx' with rfl | rfl
      · simp only at a3
        rw [hal1, hd] at a3
        rw [← a3] at a6
        norm_num at a6
      · rfl
    rcases a5 with ⟨l', _, _, _, _, _, _, b1, _⟩ | ⟨l', q, b1, b2, _⟩
    · have := b1 rfl
      obtain ⟨o, ho, hid⟩ := Option.map_eq_some_iff.1 this
      exact ⟨o, ho, hid.trans hx2⟩
    · rw [hlen x hx] at b1; linarith
  obtain ⟨o, ho, hid⟩ := hs
  constructor
  · obtain ⟨a1, _, _, _, x, hx, l, r, a2, a3, a4, _, a5⟩ := step 0 s s' w h1
    rw [a1 _ rfl] at a2 a3 a4
    have hx2 := (a4 o ho ⟨(2, ⟨0, 1, 0⟩, ⟨10, 1, 0⟩), by simp [twin], hid.symm, 5, (hon2 _ _).2 (by norm_num)⟩).trans hid
    have hlx := hl x hx 0 l a2
    subst hlx
    have hx' := hx
    simp only [twin, List.mem_cons, List.not_mem_nil, or_false] at hx'
    rcases hx' with rfl | rfl
    · simp at hx2
    · simp only at a3
      rw [hal2, hd] at a3
      norm_num at a3
      rcases a5 with ⟨l', _, _, _, _, b1, _⟩ | ⟨l', q, b1, b2, _⟩
      · rw [← a3] at b1
        simp only at b1
        rw [hal2, max_eq_left (by norm_num)] at b1
        rw [eq_of_zero b1]
      · rw [hlen _ hx] at b1; linarith
  · obtain ⟨a1, _, _, _, x, hx, l, r, a2, a3, _, a4, a5⟩ := step 0 _ s'' w' h2
    rw [a1 _ rfl] at a2 a3 a4
    have a6 := a4 (by simp) (1, ⟨0, 0, 0⟩, ⟨10, 0, 0⟩) (by simp [twin]) 5 ((hon1 _ _).2 (by norm_num))
    simp only at a6
    rw [hal1, hd, sub_self, abs_zero] at a6
    have hlx := hl x hx 0 l a2
    subst hlx
    have hx' := hx
    simp only [twin, List.mem_cons, List.not_mem_nil, or_false] at hx'
    rcases hx' with rfl | rfl
    · simp only at a3
      rw [hal1, hd] at a3
      norm_num at a3
      rcases a5 with ⟨l', _, _, _, _, b1, _⟩ | ⟨l', q, b1, b2, _⟩
      · rw [← a3] at b1
        simp only at b1
        rw [hal1, max_eq_left (by norm_num)] at b1
        rw [eq_of_zero b1]
      · rw [hlen _ hx] at b1; linarith
    · simp only at a3
      rw [hal2, hd] at a3
      rw [← a3] at a6
      norm_num at a6

/-- A position on the axis of the only segment onto which it projects. -/
theorem nextPoint_axis {rnd : Nat → ℝ → ℝ} (hr : Rounding rnd) {xs : List (Nat × V3 × V3)} (hx : ∀ x ∈ xs, x.2.1 ≠ x.2.2) {p : V3} (v : V3) {est : ℝ} (hest : 0 ≤ est)
    {x : Nat × V3 × V3} (hxs : x ∈ xs) {l : ℝ} (hl : Onto x.2.1 x.2.2 p l) (hd : Verif.Spec.Lane3d.dist p (along x.2.1 x.2.2 l) = 0)
    (hu : ∀ y ∈ xs, ∀ l', Onto y.2.1 y.2.2 p l' → y = x) :
    ∃ θ, nextPoint rnd (straightLane xs) (some p) v est ⟨none, none, []⟩ =
      (if Verif.Spec.Lane3d.dist x.2.1 x.2.2 < l + est then
        (getLaneSegment rnd (straightLane xs) (along x.2.1 x.2.2 (l + est))).bind fun g =>
          (pickNext p v 0 θ g.2 none (foundSeg g)).map fun o => (o.seg.position 0 0 θ, some o)
      else some (along x.2.1 x.2.2 (l + est), some (straightObj x))).map fun r => ((p, r.1), ⟨some (p, r.1), r.2, [(p, r.1)]⟩) := by
  obtain ⟨f, hf⟩ := straight_total hr hx p
  obtain ⟨F1, F2, F3⟩ := straight_found (found := f.1) (P := f.2) hr hx hf
  have hne : f.1 ≠ none := fun hn => F2.1 hn x hxs l hl
  obtain ⟨⟨i, o, r⟩, hb⟩ := Option.ne_none_iff_exists'.1 hne
  obtain ⟨x', l', θ, h1, h2, h3, h4, h5, _⟩ := F3 i o r hb
  have hxx := hu x' (List.mem_of_getElem? h1) l' h4
  subst hxx
  have hll := foot_unique (hx x' hxs) h4.1 hl.1
  subst hll
  rw [hd] at h5
  subst h5
  subst h2
  have hfo : foundSeg f = some (straightObj x') := by simp [foundSeg, hb]
  refine ⟨θ, ?_⟩
  have haim : aim est l' 0 = (l' + est, 0) := by
    unfold aim
    rw [zero_div, if_pos hest]
    simp [Real.sqrt_sq hest]
  unfold nextPoint
  simp only [currPoint, Option.bind_some, hf, hfo, currentSegment, h3]
  congr 1
  unfold target
  simp only [haim]
  have e1 : (straightObj x').seg.position (l' + est) 0 θ = along x'.2.1 x'.2.2 (l' + est) := position_axis _ _ _ _
  have e2 : (straightObj x').seg.length = Verif.Spec.Lane3d.dist x'.2.1 x'.2.2 := straight_length _ _
  rw [e1, e2]

/-- A straight road of one or two segments. -/
def road1 : List (Nat × V3 × V3) := [(1, ⟨0, 0, 0⟩, ⟨10, 0, 0⟩)]
def road2 : List (Nat × V3 × V3) := [(1, ⟨0, 0, 0⟩, ⟨10, 0, 0⟩), (2, ⟨10, 0, 0⟩, ⟨20, 0, 0⟩)]

/-- **Violation.** Less than the length from the end of a lane the call raises, although the agent is on the lane. -/
theorem C77_end_violated {rnd : Nat → ℝ → ℝ} (hr : Rounding rnd) (v : V3) : ∃ xs : List (Nat × V3 × V3), (∀ x ∈ xs, x.2.1 ≠ x.2.2) ∧ ∃ p,
    lateralDistance rnd (straightLane xs) p = some 0 ∧ nextPoint rnd (straightLane xs) (some p) v 5 ⟨none, none, []⟩ = none := by
  have hon1 : ∀ p : V3, ∀ l, Onto ⟨0, 0, 0⟩ ⟨10, 0, 0⟩ p l ↔ l = p.x - 0 ∧ 0 - 1 ≤ p.x ∧ p.x < 10 := fun p l => onto_x (by norm_num) (by norm_num) (by norm_num) p l
  have hal1 : ∀ t, along ⟨0, 0, 0⟩ ⟨10, 0, 0⟩ t = ⟨0 + t, 0, 0⟩ := along_x (by norm_num) (by norm_num) (by norm_num)
  have hx : ∀ x ∈ road1, x.2.1 ≠ x.2.2 := by
    intro x hx
    simp only [road1, List.mem_cons, List.not_mem_nil, or_false] at hx
    subst hx; simp
  have hd0 : Verif.Spec.Lane3d.dist ⟨8, 0, 0⟩ ⟨0 + 8, 0, 0⟩ = 0 := by rw [zero_add]; simp [Verif.Spec.Lane3d.dist]
  have hmem : (1, (⟨0, 0, 0⟩ : V3), (⟨10, 0, 0⟩ : V3)) ∈ road1 := by simp [road1]
  have hl : Onto ⟨0, 0, 0⟩ ⟨10, 0, 0⟩ ⟨8, 0, 0⟩ 8 := (hon1 _ _).2 (by norm_num)
  refine ⟨road1, hx, ⟨8, 0, 0⟩, ?_, ?_⟩
  · refine ((C76_lateral hr hx _).2 0).2 ⟨⟨_, hmem, 8, hl, ?_⟩, fun _ _ _ _ => dist_nonneg _ _⟩
    simp only
    rw [hal1]; exact hd0
  · obtain ⟨θ, h⟩ := nextPoint_axis hr hx v (est := 5) (by norm_num) hmem hl (by simp only; rw [hal1]; exact hd0)
      (by intro y hy _ _; simp only [road1, List.mem_cons, List.not_mem_nil, or_false] at hy; exact hy)
    rw [h]
    simp only
    rw [dist_ten (by norm_num), if_pos (by norm_num)]
    obtain ⟨g, hg⟩ := straight_total hr hx (along ⟨0, 0, 0⟩ ⟨10, 0, 0⟩ (8 + 5))
    obtain ⟨G1, G2, _⟩ := straight_found (found := g.1) (P := g.2) hr hx hg
    have hno : ∀ x ∈ road1, ∀ l, ¬ Onto x.2.1 x.2.2 (along ⟨0, 0, 0⟩ ⟨10, 0, 0⟩ (8 + 5)) l := by
      intro x hx l hl
      simp only [road1, List.mem_cons, List.not_mem_nil, or_false] at hx
      subst hx
      have := ((hon1 _ _).1 hl).2.2
      rw [hal1] at this
      norm_num at this
    have hn : g.1 = none := G2.2 hno
    have hP : g.2 = [] := by
      rw [List.eq_nil_iff_forall_not_mem]
      intro o ho
      obtain ⟨x, h1, _, l, hl⟩ := (G1 o).1 ho
      exact hno x h1 l hl
    rw [hg]
    simp [hP, foundSeg, hn, pickNext]

/-- **Violation.** A waypoint of the length 2 for an agent that asked for 5: at a joint the waypoint ends at the start of the next segment. -/
theorem C77_length_violated {rnd : Nat → ℝ → ℝ} (hr : Rounding rnd) (v : V3) : ∃ xs : List (Nat × V3 × V3), (∀ x ∈ xs, x.2.1 ≠ x.2.2) ∧ ∃ p w s',
    nextPoint rnd (straightLane xs) (some p) v 5 ⟨none, none, []⟩ = some (w, s') ∧ Verif.Spec.Lane3d.dist w.1 w.2 = 2 := by
  have hon1 : ∀ p : V3, ∀ l, Onto ⟨0, 0, 0⟩ ⟨10, 0, 0⟩ p l ↔ l = p.x - 0 ∧ 0 - 1 ≤ p.x ∧ p.x < 10 := fun p l => onto_x (by norm_num) (by norm_num) (by norm_num) p l
  have hon2 : ∀ p : V3, ∀ l, Onto ⟨10, 0, 0⟩ ⟨20, 0, 0⟩ p l ↔ l = p.x - 10 ∧ 10 - 1 ≤ p.x ∧ p.x < 20 := fun p l => onto_x (by norm_num) (by norm_num) (by norm_num) p l
  have hal1 : ∀ t, along ⟨0, 0, 0⟩ ⟨10, 0, 0⟩ t = ⟨0 + t, 0, 0⟩ := along_x (by norm_num) (by norm_num) (by norm_num)
  have hx : ∀ x ∈ road2, x.2.1 ≠ x.2.2 := by
    intro x hx
    simp only [road2, List.mem_cons, List.not_mem_nil, or_false] at hx
    rcases hx with rfl | rfl <;> simp
  have hd0 : Verif.Spec.Lane3d.dist ⟨8, 0, 0⟩ ⟨0 + 8, 0, 0⟩ = 0 := by rw [zero_add]; simp [Verif.Spec.Lane3d.dist]
  have hmem : (1, (⟨0, 0, 0⟩ : V3), (⟨10, 0, 0⟩ : V3)) ∈ road2 := by simp [road2]
  have hmem2 : (2, (⟨10, 0, 0⟩ : V3), (⟨20, 0, 0⟩ : V3)) ∈ road2 := by simp [road2]
  have hl : Onto ⟨0, 0, 0⟩ ⟨10, 0, 0⟩ ⟨8, 0, 0⟩ 8 := (hon1 _ _).2 (by norm_num)
  obtain ⟨θ, h⟩ := nextPoint_axis hr hx v (est := 5) (by norm_num) hmem hl (by simp only; rw [hal1]; exact hd0)
    (by
      intro y hy l' hl'
      simp only [road2, List.mem_cons, List.not_mem_nil, or_false] at hy
      rcases hy with rfl | rfl
      · rfl
      · have := ((hon2 _ _).1 hl').2.1
        norm_num at this)
  simp only at h
  rw [dist_ten (by norm_num), if_pos (by norm_num)] at h
  obtain ⟨g, hg⟩ := straight_total hr hx (along ⟨0, 0, 0⟩ ⟨10, 0, 0⟩ (8 + 5))
  obtain ⟨G1, G2, _⟩ := straight_found (found := g.1) (P := g.2) hr hx hg
  have hne : g.2 ≠ [] := by
    intro he
    have := (G1 _).2 ⟨_, hmem2, rfl, 3, (hon2 _ _).2 (by rw [hal1]; norm_num)⟩
    rw [he] at this
    simp at this
  obtain ⟨o, ho⟩ := pickNext_ne (curr := ⟨8, 0, 0⟩) (velocity := v) (r := 0) (θ := θ) hne (foundSeg g)
  rw [hg] at h
  simp only [Option.bind_some, ho, Option.map_some] at h
  refine ⟨road2, hx, ⟨8, 0, 0⟩, _, _, h, ?_⟩
  have hom : o ∈ g.2 := by
    rcases pickNext_none _ ho with ⟨h1, _⟩ | h1
    · exact absurd h1 hne
    · exact h1.1
  obtain ⟨y, hy, rfl, l', hl'⟩ := (G1 o).1 hom
  have hy' := hy
  simp only [road2, List.mem_cons, List.not_mem_nil, or_false] at hy'
  rcases hy' with rfl | rfl
  · have := ((hon1 _ _).1 hl').2.2
    rw [hal1] at this
    norm_num at this
  · have e : (straightObj (2, (⟨10, 0, 0⟩ : V3), (⟨20, 0, 0⟩ : V3))).seg.position 0 0 θ = along ⟨10, 0, 0⟩ ⟨20, 0, 0⟩ 0 := position_axis _ _ _ _
    simp only
    rw [e, along_x (by norm_num) (by norm_num) (by norm_num)]
    unfold Verif.Spec.Lane3d.dist
    rw [show (((8:ℝ) - (10 + 0)) ^ 2 + (0 - 0) ^ 2 + (0 - 0) ^ 2 : ℝ) = 2 ^ 2 by norm_num, Real.sqrt_sq (by norm_num)]

end Verif.Props
