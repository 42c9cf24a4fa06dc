import Verif.Spec.Map3d
import Verif.Proofs.Lane3dB

/-!
Lanes of several segments and waypoints in space.
-/

set_option autoImplicit false

namespace Verif.Lane3d

open Verif.Spec.Lane3d

/-! ### The scan over segments -/

/-- The segment has coordinates for the point and contains its projection. -/
def On (rnd : Nat → ℝ → ℝ) (p : V3) (o : Obj) (c : ℝ × ℝ × ℝ) : Prop := o.seg.coords rnd p = some c ∧ isOn c.1 o.seg.length

theorem On.unique {rnd : Nat → ℝ → ℝ} {p : V3} {o : Obj} {c c' : ℝ × ℝ × ℝ} (h : On rnd p o c) (h' : On rnd p o c') : c = c' :=
  Option.some.inj (h.1.symm.trans h'.1)

/-- What the scan returns. -/
structure Scanned (rnd : Nat → ℝ → ℝ) (p : V3) (os : List Obj) (i : Nat) (best b : Option (Nat × Obj × ℝ)) (Q : List Obj) : Prop where
  all : ∀ o ∈ os, ∃ c, o.seg.coords rnd p = some c
  poss : ∀ o, o ∈ Q ↔ o ∈ os ∧ ∃ c, On rnd p o c
  none : b = none → best = none ∧ Q = []
  some : ∀ j o r, b = some (j, o, r) →
    (best = some (j, o, r) ∨ ∃ k c, j = i + k ∧ os[k]? = some o ∧ On rnd p o c ∧ c.2.1 = r ∧ (∀ x, best = some x → r < x.2.2) ∧
      ∀ k' o' c', k' < k → os[k']? = some o' → On rnd p o' c' → r < c'.2.1) ∧
    (∀ x, best = some x → r ≤ x.2.2) ∧ ∀ o' ∈ os, ∀ c', On rnd p o' c' → r ≤ c'.2.1

theorem scan_spec {rnd : Nat → ℝ → ℝ} {p : V3} (os : List Obj) : ∀ {i : Nat} {best b : Option (Nat × Obj × ℝ)} {poss P : List Obj},
    scanSegments rnd p os i best poss = some (b, P) → ∃ Q, P = poss ++ Q ∧ Scanned rnd p os i best b Q := by
  induction os with
  | nil =>
    intro i best b poss P h
    simp only [scanSegments, Option.some.injEq, Prod.mk.injEq] at h
    obtain ⟨rfl, rfl⟩ := h
    refine ⟨[], by simp, ⟨by simp, by simp, fun h => ⟨h, rfl⟩, ?_⟩⟩
    intro j o r hb
    refine ⟨Or.inl hb, ?_, by simp⟩
    intro x hx
    rw [hb] at hx
    injection hx with hx
    rw [← hx]
  | cons a os ih =>
    intro i best b poss P h
    simp only [scanSegments] at h
    obtain ⟨c, hc, h⟩ := Option.bind_eq_some_iff.1 h
    by_cases hon : isOn c.1 a.seg.length
    · rw [if_pos hon] at h
      have haon : On rnd p a c := ⟨hc, hon⟩
      cases best with
      | none =>
        obtain ⟨Q, rfl, S⟩ := ih h
        refine ⟨a :: Q, by simp, ⟨?_, ?_, ?_, ?_⟩⟩
        · intro o ho
          rcases List.mem_cons.1 ho with rfl | ho
          · exact ⟨c, hc⟩
          · exact S.all o ho
        · intro o
          rw [List.mem_cons, List.mem_cons, S.poss]
          constructor
          · rintro (rfl | ⟨h1, h2⟩)
            · exact ⟨Or.inl rfl, c, haon⟩
            · exact ⟨Or.inr h1, h2⟩
          · rintro ⟨rfl | h1, h2⟩
            · exact Or.inl rfl
            · exact Or.inr ⟨h1, h2⟩
        · intro hb; exact absurd (S.none hb).1 (by simp)
        · intro j o r hb
          obtain ⟨s1, s2, s3⟩ := S.some j o r hb
          have hra : r ≤ c.2.1 := s2 _ rfl
          refine ⟨Or.inr ?_, by simp, ?_⟩
          · rcases s1 with s1 | ⟨k, d, e1, e2, e3, e4, e5, e6⟩
            · simp only [Option.some.injEq, Prod.mk.injEq] at s1
              obtain ⟨rfl, rfl, rfl⟩ := s1
              exact ⟨0, c, rfl, rfl, haon, rfl, by simp, by simp⟩
            · refine ⟨k + 1, d, by omega, by simpa using e2, e3, e4, by simp, ?_⟩
              intro k' o' c' hk ho hon'
              cases k' with
              | zero =>
                simp only [List.getElem?_cons_zero, Option.some.injEq] at ho
                subst ho
                rw [hon'.unique haon]
                exact e5 _ rfl
              | succ k' => exact e6 k' o' c' (by omega) (by simpa using ho) hon'
          · intro o' ho' c' hon'
            rcases List.mem_cons.1 ho' with rfl | ho'
            · rw [hon'.unique haon]; exact hra
            · exact s3 o' ho' c' hon'
      | some x =>
        by_cases hlt : c.2.1 < x.2.2
        · simp only [hlt, if_true] at h
          obtain ⟨Q, rfl, S⟩ := ih h
          refine ⟨a :: Q, by simp, ⟨?_, ?_, ?_, ?_⟩⟩
          · intro o ho
            rcases List.mem_cons.1 ho with rfl | ho
            · exact ⟨c, hc⟩
            · exact S.all o ho
          · intro o
            rw [List.mem_cons, List.mem_cons, S.poss]
            constructor
            · rintro (rfl | ⟨h1, h2⟩)
              · exact ⟨Or.inl rfl, c, haon⟩
              · exact ⟨Or.inr h1, h2⟩
            · rintro ⟨rfl | h1, h2⟩
              · exact Or.inl rfl
              · exact Or.inr ⟨h1, h2⟩
          · intro hb; exact absurd (S.none hb).1 (by simp)
          · intro j o r hb
            obtain ⟨s1, s2, s3⟩ := S.some j o r hb
            have hra : r ≤ c.2.1 := s2 _ rfl
            refine ⟨Or.inr ?_, ?_, ?_⟩
            · rcases s1 with s1 | ⟨k, d, e1, e2, e3, e4, e5, e6⟩
              · simp only [Option.some.injEq, Prod.mk.injEq] at s1
                obtain ⟨rfl, rfl, rfl⟩ := s1
                refine ⟨0, c, rfl, rfl, haon, rfl, ?_, by simp⟩
                intro y hy
                injection hy with hy
                rw [← hy]; exact hlt
              · refine ⟨k + 1, d, by omega, by simpa using e2, e3, e4, ?_, ?_⟩
                · intro y hy
                  injection hy with hy
                  rw [← hy]; exact lt_trans (e5 _ rfl) hlt
                · intro k' o' c' hk ho hon'
                  cases k' with
                  | zero =>
                    simp only [List.getElem?_cons_zero, Option.some.injEq] at ho
                    subst ho
                    rw [hon'.unique haon]
                    exact e5 _ rfl
                  | succ k' => exact e6 k' o' c' (by omega) (by simpa using ho) hon'
            · intro y hy
              injection hy with hy
              rw [← hy]; exact le_trans hra hlt.le
            · intro o' ho' c' hon'
              rcases List.mem_cons.1 ho' with rfl | ho'
              · rw [hon'.unique haon]; exact hra
              · exact s3 o' ho' c' hon'
        · simp only [hlt, if_false] at h
          obtain ⟨Q, rfl, S⟩ := ih h
          refine ⟨a :: Q, by simp, ⟨?_, ?_, ?_, ?_⟩⟩
          · intro o ho
            rcases List.mem_cons.1 ho with rfl | ho
            · exact ⟨c, hc⟩
            · exact S.all o ho
          · intro o
            rw [List.mem_cons, List.mem_cons, S.poss]
            constructor
            · rintro (rfl | ⟨h1, h2⟩)
              · exact ⟨Or.inl rfl, c, haon⟩
              · exact ⟨Or.inr h1, h2⟩
            · rintro ⟨rfl | h1, h2⟩
              · exact Or.inl rfl
              · exact Or.inr ⟨h1, h2⟩
          · intro hb; exact absurd (S.none hb).1 (by simp)
          · intro j o r hb
            obtain ⟨s1, s2, s3⟩ := S.some j o r hb
            have hrx : r ≤ x.2.2 := s2 _ rfl
            refine ⟨?_, s2, ?_⟩
            · rcases s1 with s1 | ⟨k, d, e1, e2, e3, e4, e5, e6⟩
              · exact Or.inl s1
              · refine Or.inr ⟨k + 1, d, by omega, by simpa using e2, e3, e4, e5, ?_⟩
                intro k' o' c' hk ho hon'
                cases k' with
                | zero =>
                  simp only [List.getElem?_cons_zero, Option.some.injEq] at ho
                  subst ho
                  rw [hon'.unique haon]
                  exact lt_of_lt_of_le (e5 _ rfl) (not_lt.1 hlt)
                | succ k' => exact e6 k' o' c' (by omega) (by simpa using ho) hon'
            · intro o' ho' c' hon'
              rcases List.mem_cons.1 ho' with rfl | ho'
              · rw [hon'.unique haon]; exact le_trans hrx (not_lt.1 hlt)
              · exact s3 o' ho' c' hon'
    · rw [if_neg hon] at h
      have hnot : ∀ c', ¬ On rnd p a c' := by
        intro c' hc'
        have := Option.some.inj (hc.symm.trans hc'.1)
        rw [this] at hon
        exact hon hc'.2
      obtain ⟨Q, rfl, S⟩ := ih h
      refine ⟨Q, rfl, ⟨?_, ?_, S.none, ?_⟩⟩
      · intro o ho
        rcases List.mem_cons.1 ho with rfl | ho
        · exact ⟨c, hc⟩
        · exact S.all o ho
      · intro o
        rw [List.mem_cons, S.poss]
        constructor
        · rintro ⟨h1, h2⟩
          exact ⟨Or.inr h1, h2⟩
        · rintro ⟨rfl | h1, c', h2⟩
          · exact absurd h2 (hnot c')
          · exact ⟨h1, c', h2⟩
      · intro j o r hb
        obtain ⟨s1, s2, s3⟩ := S.some j o r hb
        refine ⟨?_, s2, ?_⟩
        · rcases s1 with s1 | ⟨k, d, e1, e2, e3, e4, e5, e6⟩
          · exact Or.inl s1
          · refine Or.inr ⟨k + 1, d, by omega, by simpa using e2, e3, e4, e5, ?_⟩
            intro k' o' c' hk ho hon'
            cases k' with
            | zero =>
              simp only [List.getElem?_cons_zero, Option.some.injEq] at ho
              subst ho
              exact absurd hon' (hnot c')
            | succ k' => exact e6 k' o' c' (by omega) (by simpa using ho) hon'
        · intro o' ho' c' hon'
          rcases List.mem_cons.1 ho' with rfl | ho'
          · exact absurd hon' (hnot c')
          · exact s3 o' ho' c' hon'

theorem scan_total {rnd : Nat → ℝ → ℝ} {p : V3} (os : List Obj) (h : ∀ o ∈ os, ∃ c, o.seg.coords rnd p = some c) :
    ∀ (i : Nat) (best : Option (Nat × Obj × ℝ)) (poss : List Obj), ∃ f, scanSegments rnd p os i best poss = some f := by
  induction os with
  | nil => intro i best poss; exact ⟨_, rfl⟩
  | cons a os ih =>
    intro i best poss
    obtain ⟨c, hc⟩ := h a (List.mem_cons_self ..)
    have ih' := ih fun o ho => h o (List.mem_cons_of_mem _ ho)
    simp only [scanSegments, hc, Option.bind_some]
    split
    · exact ih' _ _ _
    · exact ih' _ _ _

theorem getLaneSegment_spec {rnd : Nat → ℝ → ℝ} {p : V3} {os : List Obj} {b : Option (Nat × Obj × ℝ)} {P : List Obj} (h : getLaneSegment rnd os p = some (b, P)) :
    Scanned rnd p os 0 none b P := by
  obtain ⟨Q, hQ, S⟩ := scan_spec os h
  simp only [List.nil_append] at hQ
  rw [hQ]; exact S

/-! ### Straight segments -/

/-- A straight segment from one point to another. -/
noncomputable def straightObj (x : Nat × V3 × V3) : Obj := ⟨x.1, .straight (Straight.new x.2.1 x.2.2)⟩

theorem dist_comm (p q : V3) : Verif.Spec.Lane3d.dist p q = Verif.Spec.Lane3d.dist q p := by
  unfold Verif.Spec.Lane3d.dist
  congr 1
  ring

theorem straight_length (a b : V3) : (Straight.new a b).length = Verif.Spec.Lane3d.dist a b := by
  rw [dist_comm]; rfl

/-- The constant that bounds the amplification of rounding for a lane. -/
noncomputable def amp (a b : V3) : ℝ := if a.y = b.y then 0 else |(b.x - a.x) * (b.z - a.z)| / (|b.y - a.y| * Verif.Spec.Lane3d.dist a b)

theorem amp_nonneg (a b : V3) : 0 ≤ amp a b := by
  unfold amp
  split
  · exact le_refl 0
  · exact div_nonneg (abs_nonneg _) (mul_nonneg (abs_nonneg _) (dist_nonneg _ _))

theorem amp_spec {a b : V3} (hab : a ≠ b) : a.y = b.y ∨ |(b.x - a.x) * (b.z - a.z)| ≤ amp a b * (|b.y - a.y| * Verif.Spec.Lane3d.dist a b) := by
  by_cases hy : a.y = b.y
  · exact Or.inl hy
  · right
    have h1 : 0 < |b.y - a.y| := abs_pos.2 (sub_ne_zero.2 (Ne.symm hy))
    unfold amp
    rw [if_neg hy, div_mul_cancel₀ _ (mul_pos h1 (dist_pos hab)).ne']

theorem foot_unique {a b : V3} (hab : a ≠ b) {p : V3} {l l' : ℝ} (h : Foot a b p l) (h' : Foot a b p l') : l = l' := by
  have hn := Straight.unit hab
  have key : ∀ l, Foot a b p l → l = (p.sub (Straight.new a b).start).dot (Straight.new a b).dir := by
    intro l hl
    have h1 := hl ((p.sub (Straight.new a b).start).dot (Straight.new a b).dir)
    rw [along_eq, along_eq, dist_foot hn] at h1
    have h2 := dist_line hn (Straight.new a b).start p l
    have h3 := pow_le_pow_left₀ (dist_nonneg _ _) h1 2
    rw [h2] at h3
    have h4 : (l - (p.sub (Straight.new a b).start).dot (Straight.new a b).dir) ^ 2 = 0 := by
      nlinarith [sq_nonneg (l - (p.sub (Straight.new a b).start).dot (Straight.new a b).dir)]
    exact sub_eq_zero.1 (pow_eq_zero_iff two_ne_zero |>.1 h4)
  rw [key l h, key l' h']

theorem foot_iff {a b : V3} (hab : a ≠ b) (p : V3) (l : ℝ) : Foot a b p l ↔ inner (vec a p) (vec a b) = l * Verif.Spec.Lane3d.dist a b := by
  have hn := Straight.unit hab
  have hk := dist_pos (Ne.symm hab)
  have hdot : (p.sub (Straight.new a b).start).dot (Straight.new a b).dir = inner (vec a p) (vec a b) / Verif.Spec.Lane3d.dist a b := by
    rw [dist_comm, dist_eq_norm]
    simp only [Straight.new, inner, vec, V3.dot, V3.div, V3.sub]
    ring
  have hF : Foot a b p ((p.sub (Straight.new a b).start).dot (Straight.new a b).dir) := by
    intro t
    rw [along_eq, along_eq, dist_foot hn]
    exact foot_le hn _ _ t
  rw [dist_comm] at hk
  constructor
  · intro h
    rw [foot_unique hab h hF, hdot, div_mul_cancel₀ _ hk.ne']
  · intro h
    rw [hdot, h, mul_div_cancel_right₀ _ hk.ne'] at hF
    exact hF

theorem coords_foot {rnd : Nat → ℝ → ℝ} (hr : Rounding rnd) {a b : V3} (hab : a ≠ b) (p : V3) : ∃ l θ,
    (Straight.new a b).coords rnd p = some (l, Verif.Spec.Lane3d.dist p (along a b l), θ) ∧ Foot a b p l ∧
      Verif.Spec.Lane3d.dist ((Straight.new a b).position l (Verif.Spec.Lane3d.dist p (along a b l)) θ) p ≤
        max (1 / 1000) (Verif.Spec.Lane3d.dist p (along a b l) * (2 + amp a b) / 100000) := by
  obtain ⟨l, r, θ, h1, _, _, h4, h5, h6⟩ := straight_coords hr hab p (amp_nonneg a b) (amp_spec hab)
  subst h4
  exact ⟨l, θ, h1, h5, h6⟩

theorem on_straight {rnd : Nat → ℝ → ℝ} (hr : Rounding rnd) {x : Nat × V3 × V3} (hx : x.2.1 ≠ x.2.2) (p : V3) (l r : ℝ) :
    (∃ θ, On rnd p (straightObj x) (l, r, θ)) ↔ Onto x.2.1 x.2.2 p l ∧ Verif.Spec.Lane3d.dist p (along x.2.1 x.2.2 l) = r := by
  obtain ⟨l', θ', h1, h2, _⟩ := coords_foot hr hx p
  constructor
  · rintro ⟨θ, h3, h4⟩
    have h3' : (Straight.new x.2.1 x.2.2).coords rnd p = some (l, r, θ) := h3
    rw [h1] at h3'
    simp only [Option.some.injEq, Prod.mk.injEq] at h3'
    obtain ⟨rfl, e, _⟩ := h3'
    refine ⟨⟨h2, ?_⟩, e⟩
    have : isOn l' (Straight.new x.2.1 x.2.2).length := h4
    rw [straight_length] at this
    unfold isOn at this
    simpa using this
  · rintro ⟨⟨f, o1, o2⟩, e⟩
    have := foot_unique hx f h2
    subst this
    refine ⟨θ', ?_, ?_⟩
    · rw [← e]; exact h1
    · show isOn l (Straight.new x.2.1 x.2.2).length
      rw [straight_length]
      exact ⟨by simpa using o1, o2⟩

/-! ### Distances -/

theorem dist_sq (p q : V3) : Verif.Spec.Lane3d.dist p q ^ 2 = (p.x - q.x) ^ 2 + (p.y - q.y) ^ 2 + (p.z - q.z) ^ 2 := by
  unfold Verif.Spec.Lane3d.dist
  rw [Real.sq_sqrt (by positivity)]

theorem dist_triangle (p q s : V3) : Verif.Spec.Lane3d.dist p s ≤ Verif.Spec.Lane3d.dist p q + Verif.Spec.Lane3d.dist q s := by
  have h1 := dist_sq p q
  have h2 := dist_sq q s
  have h3 := dist_sq p s
  have a1 := dist_nonneg p q
  have a2 := dist_nonneg q s
  refine (pow_le_pow_iff_left₀ (dist_nonneg _ _) (add_nonneg a1 a2) two_ne_zero).1 ?_
  rw [h3]
  have hcs := cross_norm_sq (p.sub q) (q.sub s)
  have e1 : inner (p.sub q) (p.sub q) = Verif.Spec.Lane3d.dist p q ^ 2 := by rw [h1]; simp only [inner, V3.sub]; ring
  have e2 : inner (q.sub s) (q.sub s) = Verif.Spec.Lane3d.dist q s ^ 2 := by rw [h2]; simp only [inner, V3.sub]; ring
  rw [e1, e2, ← mul_pow] at hcs
  have hle : inner (p.sub q) (q.sub s) ≤ Verif.Spec.Lane3d.dist p q * Verif.Spec.Lane3d.dist q s := by
    refine (abs_le_of_sq_le_sq' (a := inner (p.sub q) (q.sub s)) ?_ (mul_nonneg a1 a2)).2
    nlinarith [sq_nonneg (((p.sub q).cross (q.sub s)).norm)]
  have e3 : (p.x - s.x) ^ 2 + (p.y - s.y) ^ 2 + (p.z - s.z) ^ 2 = Verif.Spec.Lane3d.dist p q ^ 2 + Verif.Spec.Lane3d.dist q s ^ 2 + 2 * inner (p.sub q) (q.sub s) := by
    rw [h1, h2]; simp only [inner, V3.sub]; ring
  rw [e3]
  nlinarith

theorem coor_linear {n : V3} (hn : IsUnit3 n) (right : Bool) (r t : ℝ) (o : V3) :
    coorByRt r t n o right = o.add ((coorByRt 1 t n ⟨0, 0, 0⟩ right).smul r) := by
  obtain ⟨p, q, k, h⟩ := framed hn
  rw [h.coor, h.coor]
  simp only [V3.add, V3.smul, V3.mk.injEq]
  refine ⟨?_, ?_, ?_⟩ <;> ring

/-- Two points at the same angle around the axis. -/
theorem position_dist {a b : V3} (hab : a ≠ b) (l r l' r' θ : ℝ) :
    Verif.Spec.Lane3d.dist ((Straight.new a b).position l r θ) ((Straight.new a b).position l' r' θ) ^ 2 = (l - l') ^ 2 + (r - r') ^ 2 := by
  have hn := Straight.unit hab
  obtain ⟨h1, h2⟩ := coor_dist hn true zero_le_one θ ⟨0, 0, 0⟩
  rw [dist_sq]
  unfold Straight.position
  rw [coor_linear hn true r, coor_linear hn true r']
  have h3 := dist_sq (coorByRt 1 θ (Straight.new a b).dir ⟨0, 0, 0⟩ true) ⟨0, 0, 0⟩
  rw [h1] at h3
  unfold IsUnit3 at hn
  simp only [inner, vec, V3.add, V3.smul, sub_zero] at *
  generalize (coorByRt 1 θ (Straight.new a b).dir ⟨0, 0, 0⟩ true) = w at *
  generalize (Straight.new a b).dir = n at *
  linear_combination (l - l') ^ 2 * hn - (r - r') ^ 2 * h3 + 2 * (l - l') * (r - r') * h2

theorem aim_spec {est l r : ℝ} (he : 0 ≤ est) (hr : 0 ≤ r) : (aim est l r).2 = max 0 (r - 7 / 10 * est) ∧ l ≤ (aim est l r).1 ∧ (aim est l r).1 ≤ l + est ∧
    ((aim est l r).1 - l) ^ 2 + ((aim est l r).2 - r) ^ 2 = est ^ 2 := by
  unfold aim
  by_cases h : r / 0.7 ≤ est
  · rw [if_pos h]
    have h' : r ≤ 7 / 10 * est := by
      rw [div_le_iff₀ (by norm_num)] at h
      norm_num at h
      linarith
    have h2 : 0 ≤ est ^ 2 - r ^ 2 := by nlinarith
    refine ⟨(max_eq_left (by linarith)).symm, by simp only; linarith [Real.sqrt_nonneg (est ^ 2 - r ^ 2)], ?_, ?_⟩
    · have := Real.sqrt_le_sqrt (show est ^ 2 - r ^ 2 ≤ est ^ 2 by nlinarith)
      rw [Real.sqrt_sq he] at this
      simp only
      linarith
    simp only [add_sub_cancel_left]
    rw [Real.sq_sqrt h2]; ring
  · rw [if_neg h]
    have h' : 7 / 10 * est ≤ r := by
      rw [div_le_iff₀ (by norm_num)] at h
      norm_num at h
      linarith
    refine ⟨?_, ?_, ?_, ?_⟩
    · rw [max_eq_right (by linarith)]; norm_num
    · simp only
      have := mul_nonneg he (Real.sqrt_nonneg (1 - 0.7 ^ 2))
      linarith
    · have h1 : Real.sqrt (1 - 0.7 ^ 2) ≤ 1 := Real.sqrt_le_one.2 (by norm_num)
      have := mul_le_mul_of_nonneg_left h1 he
      simp only
      linarith
    · simp only [add_sub_cancel_left]
      rw [mul_pow, Real.sq_sqrt (by norm_num)]
      norm_num
      ring

/-! ### The choice of the next segment -/

/-- How much the way to the start of a segment goes along the velocity. -/
noncomputable def toward (curr velocity : V3) (lateral theta : ℝ) (o : Obj) : ℝ :=
  (((o.seg.position 0 lateral theta).sub curr).div ((o.seg.position 0 lateral theta).sub curr).norm).dot velocity

theorem pickNext_some {curr velocity : V3} {r θ : ℝ} (os : List Obj) : ∀ {m : ℝ} {next : Option Obj} {o : Obj}, pickNext curr velocity r θ os (some m) next = some o →
    (next = some o ∧ ∀ o' ∈ os, toward curr velocity r θ o' ≤ m) ∨
      (o ∈ os ∧ m < toward curr velocity r θ o ∧ ∀ o' ∈ os, toward curr velocity r θ o' ≤ toward curr velocity r θ o) := by
  induction os with
  | nil => intro m next o h; exact Or.inl ⟨h, by simp⟩
  | cons a os ih =>
    intro m next o h
    simp only [pickNext] at h
    by_cases hlt : m < toward curr velocity r θ a
    · rw [if_pos (by exact hlt)] at h
      rcases ih h with ⟨h1, h2⟩ | ⟨h1, h2, h3⟩
      · simp only [Option.some.injEq] at h1
        subst h1
        refine Or.inr ⟨List.mem_cons_self .., hlt, ?_⟩
        intro o' ho'
        rcases List.mem_cons.1 ho' with rfl | ho'
        · exact le_refl _
        · exact h2 o' ho'
      · refine Or.inr ⟨List.mem_cons_of_mem _ h1, lt_trans hlt h2, ?_⟩
        intro o' ho'
        rcases List.mem_cons.1 ho' with rfl | ho'
        · exact le_of_lt h2
        · exact h3 o' ho'
    · rw [if_neg (by exact hlt)] at h
      rcases ih h with ⟨h1, h2⟩ | ⟨h1, h2, h3⟩
      · refine Or.inl ⟨h1, ?_⟩
        intro o' ho'
        rcases List.mem_cons.1 ho' with rfl | ho'
        · exact not_lt.1 hlt
        · exact h2 o' ho'
      · refine Or.inr ⟨List.mem_cons_of_mem _ h1, h2, ?_⟩
        intro o' ho'
        rcases List.mem_cons.1 ho' with rfl | ho'
        · exact le_trans (not_lt.1 hlt) h2.le
        · exact h3 o' ho'

theorem pickNext_none {curr velocity : V3} {r θ : ℝ} (os : List Obj) {next : Option Obj} {o : Obj} (h : pickNext curr velocity r θ os none next = some o) :
    (os = [] ∧ next = some o) ∨ (o ∈ os ∧ ∀ o' ∈ os, toward curr velocity r θ o' ≤ toward curr velocity r θ o) := by
  cases os with
  | nil => exact Or.inl ⟨rfl, h⟩
  | cons a os =>
    simp only [pickNext] at h
    rcases pickNext_some os h with ⟨h1, h2⟩ | ⟨h1, h2, h3⟩
    · simp only [Option.some.injEq] at h1
      subst h1
      refine Or.inr ⟨List.mem_cons_self .., ?_⟩
      intro o' ho'
      rcases List.mem_cons.1 ho' with rfl | ho'
      · exact le_refl _
      · exact h2 o' ho'
    · refine Or.inr ⟨List.mem_cons_of_mem _ h1, ?_⟩
      intro o' ho'
      rcases List.mem_cons.1 ho' with rfl | ho'
      · exact h2.le
      · exact h3 o' ho'

theorem pickNext_isSome {curr velocity : V3} {r θ : ℝ} (os : List Obj) : ∀ (m : ℝ) (o : Obj), ∃ o', pickNext curr velocity r θ os (some m) (some o) = some o' := by
  induction os with
  | nil => intro m o; exact ⟨o, rfl⟩
  | cons a os ih =>
    intro m o
    simp only [pickNext]
    split
    · exact ih _ _
    · exact ih _ _

theorem pickNext_ne {curr velocity : V3} {r θ : ℝ} {os : List Obj} (h : os ≠ []) (next : Option Obj) : ∃ o, pickNext curr velocity r θ os none next = some o := by
  cases os with
  | nil => exact absurd rfl h
  | cons a os => exact pickNext_isSome os _ _

theorem toward_eq (curr velocity : V3) (r θ : ℝ) (o : Obj) :
    toward curr velocity r θ o = inner (unit (vec curr (o.seg.position 0 r θ))) velocity := by
  unfold toward unit vec inner V3.dot V3.div V3.sub V3.norm
  simp only [← sq]

/-! ### The position as a point beside the axis -/

theorem position_foot {a b : V3} (hab : a ≠ b) (l θ : ℝ) {r : ℝ} (h0 : 0 ≤ r) :
    Foot a b ((Straight.new a b).position l r θ) l ∧ Verif.Spec.Lane3d.dist ((Straight.new a b).position l r θ) (along a b l) = r := by
  have hn := Straight.unit hab
  obtain ⟨h1, h2⟩ := coor_dist hn true h0 θ ((Straight.new a b).start.add ((Straight.new a b).dir.smul l))
  have hd : Verif.Spec.Lane3d.dist ((Straight.new a b).position l r θ) (along a b l) = r := by rw [along_eq]; exact h1
  refine ⟨?_, hd⟩
  have hl : l = (((Straight.new a b).position l r θ).sub (Straight.new a b).start).dot (Straight.new a b).dir := by
    unfold Straight.position
    generalize coorByRt r θ (Straight.new a b).dir ((Straight.new a b).start.add ((Straight.new a b).dir.smul l)) true = q at *
    unfold IsUnit3 at hn
    simp only [inner, vec, V3.add, V3.smul, V3.sub, V3.dot] at *
    linear_combination (-1) * h2 - l * hn
  intro t
  rw [along_eq, along_eq]
  have e := dist_foot hn (Straight.new a b).start ((Straight.new a b).position l r θ)
  rw [← hl] at e
  rw [e]
  exact foot_le hn _ _ t

theorem position_start {a b : V3} (hab : a ≠ b) (θ : ℝ) {r : ℝ} (h0 : 0 ≤ r) :
    Verif.Spec.Lane3d.dist ((Straight.new a b).position 0 r θ) a = r ∧ inner (vec a ((Straight.new a b).position 0 r θ)) (vec a b) = 0 := by
  have hn := Straight.unit hab
  obtain ⟨h1, h2⟩ := coor_dist hn true h0 θ ((Straight.new a b).start.add ((Straight.new a b).dir.smul 0))
  have e : (Straight.new a b).start.add ((Straight.new a b).dir.smul 0) = a := by
    simp only [V3.add, V3.smul, zero_mul, add_zero]; rfl
  unfold Straight.position
  rw [e] at h1 h2 ⊢
  refine ⟨h1, ?_⟩
  have hL : (b.sub a).norm ≠ 0 := by
    have := dist_pos (Ne.symm hab)
    rw [dist_eq_norm] at this
    exact this.ne'
  generalize coorByRt r θ (Straight.new a b).dir a true = q at *
  simp only [Straight.new, inner, vec, V3.div] at *
  generalize hk : (b.sub a).norm = k at *
  have h3 : (q.x - a.x) * (b.sub a).x + (q.y - a.y) * (b.sub a).y + (q.z - a.z) * (b.sub a).z = 0 := by
    field_simp at h2
    linarith
  exact h3

theorem position_axis (a b : V3) (l θ : ℝ) : (Straight.new a b).position l 0 θ = along a b l := by
  rw [along_eq]; exact coor_zero _ _ _ _

end Verif.Lane3d
