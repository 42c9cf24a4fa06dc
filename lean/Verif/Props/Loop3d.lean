import Verif.Proofs.Loop3d

/-!
C106: the closed loops of the example maps in space.
-/

set_option autoImplicit false

namespace Verif.Props

open Verif.Lane3d Verif.Spec.Lane3d

section
variable {n : V3} {p q l : ℝ}

/-- The vectors of the frame. -/
def av (p q : ℝ) : V3 := ⟨p, -q, 0⟩
def bv (n : V3) (p q l : ℝ) : V3 := ⟨q * n.z, p * n.z, -l⟩

theorem av_unit (h : Framed n p q l) : IsUnit3 (av p q) := by
  have := h.pq
  unfold IsUnit3 inner av
  simp only
  linarith

theorem bv_unit (h : Framed n p q l) : IsUnit3 (bv n p q l) := by
  have e1 := h.pq
  have e2 := h.lz
  unfold IsUnit3 inner bv
  simp only
  linear_combination n.z ^ 2 * e1 + e2

theorem cross_av (h : Framed n p q l) : n.cross (av p q) = bv n p q l := by
  have e1 := h.pq
  unfold V3.cross av bv
  rw [h.x, h.y]
  ext <;> simp only
  · ring
  · ring
  · linear_combination (-l) * e1

theorem cross_bv (h : Framed n p q l) : n.cross (bv n p q l) = (av p q).neg := by
  have e2 := h.lz
  unfold V3.cross av bv V3.neg
  rw [h.x, h.y]
  ext <;> simp only
  · linear_combination (-p) * e2
  · linear_combination q * e2
  · ring

theorem av_orth (h : Framed n p q l) : inner (av p q) n = 0 := by
  unfold inner av
  rw [h.x, h.y]
  ring

theorem bv_orth (h : Framed n p q l) : inner (bv n p q l) n = 0 := by
  have e1 := h.pq
  unfold inner bv
  rw [h.x, h.y]
  linear_combination n.z * l * e1

theorem av_bv : inner (av p q) (bv n p q l) = 0 := by
  unfold inner av bv
  simp only
  ring

end

theorem unit_neg (v : V3) : unit v.neg = (unit v).neg := by
  unfold unit V3.neg inner
  simp only [neg_mul_neg, neg_div]

theorem neg_ne {v : V3} (hv : v ≠ ⟨0, 0, 0⟩) : v.neg ≠ ⟨0, 0, 0⟩ := by
  intro h
  injection h with h1 h2 h3
  exact hv (V3.ext (neg_eq_zero.1 h1) (neg_eq_zero.1 h2) (neg_eq_zero.1 h3))

theorem smul_unit {v : V3} (hv : v ≠ ⟨0, 0, 0⟩) : (unit v).smul v.norm = v := by
  have := (norm_pos hv).ne'
  rw [unit_eq]
  unfold V3.smul V3.div
  ext <;> simp only <;> field_simp

/-- The frames of opposite vectors. -/
theorem framed_neg {n : V3} {p q l p' q' l' : ℝ} (h : Framed n p q l) (h' : Framed n.neg p' q' l') : ∃ e : ℝ, e * e = 1 ∧ p' = e * p ∧ q' = e * q := by
  have hl : l' = l := by
    have e1 := h.lz
    have e2 := h'.lz
    have : l' ^ 2 = l ^ 2 := by
      have hz : n.neg.z = -n.z := rfl
      rw [hz] at e2
      linarith [show (-n.z) ^ 2 = n.z ^ 2 by ring]
    exact (pow_left_inj₀ h'.l0 h.l0 two_ne_zero).1 this
  subst hl
  by_cases h0 : l' = 0
  · obtain ⟨a1, a2⟩ := h.vert h0
    obtain ⟨b1, b2⟩ := h'.vert h0
    exact ⟨1, by norm_num, by rw [a1, b1]; ring, by rw [a2, b2]; ring⟩
  · refine ⟨-1, by norm_num, ?_, ?_⟩
    · have := h'.y
      rw [show n.neg.y = -n.y from rfl, h.y] at this
      exact mul_right_cancel₀ h0 (by linarith)
    · have := h'.x
      rw [show n.neg.x = -n.x from rfl, h.x] at this
      exact mul_right_cancel₀ h0 (by linarith)

theorem cos_15 : Real.cos (1.5 * Real.pi) = 0 := by
  rw [show (1.5 : ℝ) * Real.pi = Real.pi / 2 + Real.pi by ring, Real.cos_add_pi, Real.cos_pi_div_two, neg_zero]

theorem sin_15 : Real.sin (1.5 * Real.pi) = -1 := by
  rw [show (1.5 : ℝ) * Real.pi = Real.pi / 2 + Real.pi by ring, Real.sin_add_pi, Real.sin_pi_div_two]

/-- The last segment of a loop. -/
theorem arc_new {v : V3} (hv : v ≠ ⟨0, 0, 0⟩) {p q l : ℝ} (h : Framed (unit v) p q l) {r : ℝ} (hr : 0 < r) (o : V3) :
    ∃ c, Circular.fromEnds (fun _ x => x) (o.add ((bv (unit v) p q l).smul r)) (o.sub ((av p q).smul r)) v.neg (1.5 * Real.pi) true = some c ∧
      c.outer 0 = o.add ((bv (unit v) p q l).smul r) ∧ c.outer c.length = o.sub ((av p q).smul r) ∧ c.length = r * (3 * Real.pi / 2) ∧
      Circles (fun t => c.position t 0 0) o (unit v.neg) r := by
  have hpi := Real.pi_pos
  have hk := norm_pos hv
  have hu := unit_unit hv
  have hm : IsUnit3 (unit v.neg) := unit_unit (neg_ne hv)
  obtain ⟨p', q', l', h'⟩ := framed hm
  have hvk : v.neg = (unit v.neg).smul v.norm := by
    rw [unit_neg]
    nth_rewrite 1 [← smul_unit hv]
    unfold V3.neg V3.smul
    ext <;> simp only <;> ring
  have hA := av_unit h
  have hB := bv_unit h
  have hAB := av_bv (n := unit v) (p := p) (q := q) (l := l)
  have hcA := cross_av h
  have hcB := cross_bv h
  have oA := av_orth h
  have oB := bv_orth h
  obtain ⟨e, he, hp', hq'⟩ := framed_neg h (by rw [unit_neg] at h'; exact h')
  have cB : cosOf p' q' (bv (unit v) p q l) = 0 := by
    unfold cosOf bv; rw [hp', hq']; simp only; ring
  have sA : sinOf (unit v.neg) p' q' l' true (av p q).neg = 0 := by
    unfold sinOf av V3.neg; rw [hp', hq']; simp only; ring
  have oA' : inner (av p q).neg (unit v.neg) = 0 := by
    rw [unit_neg]; unfold inner V3.neg at *; simp only at *; linarith
  have oB' : inner (bv (unit v) p q l) (unit v.neg) = 0 := by
    rw [unit_neg]; unfold inner V3.neg at *; simp only at *; linarith
  have hmB : (unit v.neg).cross (bv (unit v) p q l) = av p q := by
    rw [unit_neg]
    have e1 := congrArg V3.x hcB
    have e2 := congrArg V3.y hcB
    have e3 := congrArg V3.z hcB
    unfold V3.cross V3.neg at *
    ext <;> simp only at * <;> linarith
  generalize av p q = a at *
  generalize bv (unit v) p q l = b at *
  have hab : o.add (b.smul r) ≠ o.sub (a.smul r) := by
    intro hc
    injection hc with h1 h2 h3
    simp only [V3.smul] at h1 h2 h3
    have : r * inner b b = 0 := by
      unfold inner at hAB ⊢
      linear_combination b.x * h1 + b.y * h2 + b.z * h3 - r * hAB
    rw [show inner b b = 1 from hB] at this
    linarith
  unfold IsUnit3 at hA hB
  have hs2 : (0 : ℝ) < Real.sqrt 2 := by positivity
  have hs22 : Real.sqrt 2 ^ 2 = 2 := Real.sq_sqrt (by norm_num)
  have hcr : centerRadius (o.add (b.smul r)) (o.sub (a.smul r)) v.neg (1.5 * Real.pi) true = some (o, r) := by
    unfold centerRadius
    rw [if_pos ⟨by linarith, by linarith, hab⟩]
    have c1 : ¬ (1.5 : ℝ) * Real.pi = Real.pi := by intro hc; linarith
    have c2 : Real.pi < 1.5 * Real.pi := by linarith
    simp only [c1, c2, if_false, if_true]
    rw [show (1.5 * Real.pi - Real.pi) / 2 = Real.pi / 4 by ring, Real.tan_pi_div_four, Real.sin_pi_div_four]
    have n1 : ((o.sub (a.smul r)).sub (o.add (b.smul r))).norm = r * Real.sqrt 2 := by
      refine norm_of_sq (by positivity) ?_
      rw [mul_pow, hs22]
      unfold inner at *
      simp only [V3.sub, V3.add, V3.smul]
      linear_combination r ^ 2 * hA + r ^ 2 * hB + 2 * r ^ 2 * hAB
    have n2 : v.neg.cross ((o.add (b.smul r)).sub (o.sub (a.smul r))) = (a.sub b).smul (v.norm * r) := by
      have e1 := congrArg V3.x hcB
      have e2 := congrArg V3.y hcB
      have e3 := congrArg V3.z hcB
      have f1 := congrArg V3.x hcA
      have f2 := congrArg V3.y hcA
      have f3 := congrArg V3.z hcA
      rw [hvk, unit_neg]
      generalize v.norm = k at *
      generalize unit v = u at *
      simp only [V3.cross, V3.neg, V3.sub, V3.add, V3.smul] at *
      ext <;> simp only
      · linear_combination (-(k * r)) * e1 - k * r * f1
      · linear_combination (-(k * r)) * e2 - k * r * f2
      · linear_combination (-(k * r)) * e3 - k * r * f3
    have n3 : ((a.sub b).smul (v.norm * r)).norm = v.norm * r * Real.sqrt 2 := by
      refine norm_of_sq (by positivity) ?_
      rw [mul_pow, hs22]
      unfold inner at *
      simp only [V3.sub, V3.smul]
      linear_combination (v.norm * r) ^ 2 * hA + (v.norm * r) ^ 2 * hB - 2 * (v.norm * r) ^ 2 * hAB
    rw [n1, n2, n3]
    congr 1
    generalize v.norm = k at *
    refine Prod.ext ?_ ?_
    · simp only [V3.add, V3.div, V3.smul, V3.sub]
      ext <;> simp only <;> field_simp <;> ring
    · simp only
      field_simp
  have d1 : ((o.add (b.smul r)).sub o).div r = b := by
    unfold V3.sub V3.add V3.smul V3.div
    ext <;> simp only <;> field_simp <;> ring
  have d2 : ((o.sub (a.smul r)).sub o).div r = a.neg := by
    unfold V3.sub V3.smul V3.div V3.neg
    ext <;> simp only <;> field_simp <;> ring
  obtain ⟨sp, s1, s2, s3, s4⟩ := theta_exact hm true (pt := o.add (b.smul r)) (o := o) (r := r)
    (by unfold inner at oB' ⊢; simp only [vec, V3.add, V3.smul]; linear_combination r * oB')
    (by
      rw [dist_eq_norm]
      refine norm_of_sq hr.le ?_
      unfold inner at hB ⊢
      simp only [V3.sub, V3.add, V3.smul]
      linear_combination r ^ 2 * hB)
  obtain ⟨ep, e1, e2, e3, e4⟩ := theta_exact hm true (pt := o.sub (a.smul r)) (o := o) (r := r)
    (by unfold inner at oA' ⊢; simp only [vec, V3.sub, V3.smul, V3.neg] at oA' ⊢; linear_combination r * oA')
    (by
      rw [dist_eq_norm]
      refine norm_of_sq hr.le ?_
      unfold inner at hA ⊢
      simp only [V3.sub, V3.smul]
      linear_combination r ^ 2 * hA)
  rw [← theta_scale h' hk (by rw [d1]; exact oB') (by rw [d1]; exact Or.inl cB), ← hvk] at s1
  rw [← theta_scale h' hk (by rw [d2]; exact oA') (by rw [d2]; exact Or.inr sA), ← hvk] at e1
  obtain ⟨c, A, hc, _, _, H⟩ := circ_new (center := o) hr (neg_ne hv) (s := sp) (e := ep) (right := true) (by simp [sgn]; linarith) (by simp [sgn]; linarith)
  have g0 : c.outer 0 = o.add (b.smul r) := (H.start_eq hr).trans s4
  have g1 : c.outer c.length = o.sub (a.smul r) := (H.fin_eq hr).trans e4
  have hA1 : A = 3 * Real.pi / 2 := by
    refine angle_three_quarters H.A0 H.A1 ?_
    have t := H.turned hm hr 0 c.length
    rw [zero_add, g0, g1, H.c_length, mul_div_cancel_left₀ _ hr.ne'] at t
    obtain ⟨t1, t2, t3⟩ := t
    have m1 := congrArg V3.x hmB
    have m2 := congrArg V3.y hmB
    have m3 := congrArg V3.z hmB
    simp only [V3.cross] at m1 m2 m3
    simp only [V3.add, V3.sub, V3.smul] at t1 t2 t3
    have : r * (Real.sin A + 1) = 0 := by
      unfold inner at hA hAB
      linear_combination (-a.x) * t1 - a.y * t2 - a.z * t3 - r * (Real.sin A + 1) * hA - r * Real.cos A * hAB
        - r * Real.sin A * (a.x * m1 + a.y * m2 + a.z * m3)
    rcases mul_eq_zero.1 this with h0 | h0
    · exact absurd h0 hr.ne'
    · linarith
  refine ⟨c, ?_, g0, g1, by rw [H.c_length, hA1], fun t => ?_, fun t x => ?_⟩
  · unfold Circular.fromEnds
    rw [hcr, Option.bind_some, s1, Option.bind_some, e1, Option.bind_some, hc]
  · simp only [Circ.position_zero]; exact H.on hm hr t
  · simp only [Circ.position_zero]; exact H.turned hm hr t x

/-- The first segment of a loop. -/
theorem arc_first {v : V3} (hv : v ≠ ⟨0, 0, 0⟩) {p q l : ℝ} (h : Framed (unit v) p q l) {R : ℝ} (hR : 0 < R) (center : V3) :
    ∃ c, Circular.new center R v 0 (1.5 * Real.pi) true = some c ∧ c.n = unit v ∧ c.center = center ∧
      c.outer 0 = center.add ((av p q).smul R) ∧ c.outer c.length = center.sub ((bv (unit v) p q l).smul R) ∧ c.length = R * (3 * Real.pi / 2) ∧
      Circles (fun t => c.position t 0 0) center (unit v) R := by
  have hpi := Real.pi_pos
  have hu := unit_unit hv
  obtain ⟨c, A, hc, hs, he, H⟩ := circ_new (center := center) hR hv (s := 0) (e := 1.5 * Real.pi) (right := true) (by simp [sgn]; linarith) (by simp [sgn]; linarith)
  have hadj : adjust 0 (1.5 * Real.pi) true = (0, 1.5 * Real.pi) := by
    unfold adjust
    have c1 : ¬ (1.5 : ℝ) * Real.pi ≤ 0 := by intro hc; linarith
    simp only [true_and, c1, if_false, Bool.true_eq_false, false_and]
    rw [if_neg]
    rw [max_eq_right (by linarith)]
    linarith
  rw [hadj] at hs he
  have hA : A = 3 * Real.pi / 2 := by
    have := H.c_diff
    rw [hs, he] at this
    simp only [sgn, if_true] at this
    linarith
  refine ⟨c, hc, H.c_n, H.c_center, ?_, ?_, by rw [H.c_length, hA], fun t => ?_, fun t x => ?_⟩
  · rw [H.start_eq hR, h.coor, Real.cos_zero, Real.sin_zero]
    unfold av V3.add V3.smul
    ext <;> simp only <;> ring
  · rw [H.fin_eq hR, h.coor, cos_15, sin_15]
    unfold bv V3.sub V3.smul sgn
    ext <;> simp only [if_true] <;> ring
  · simp only [Circ.position_zero]; exact H.on hu hR t
  · simp only [Circ.position_zero]; exact H.turned hu hR t x

theorem velocity_start {f : ℝ → V3} {o n : V3} {R : ℝ} (hR : R ≠ 0) (h : Circles f o n R) {d : V3} (hd : n.cross ((f 0).sub o) = d.smul R) : Velocity f 0 d := by
  have hv := turned_velocity (f := f) (o := o) (n := n) (R := R) (fun x => by have := h.2 0 x; rwa [zero_add] at this) 0
  rw [zero_div, Real.sin_zero, Real.cos_zero] at hv
  have e1 := congrArg V3.x hd
  have e2 := congrArg V3.y hd
  have e3 := congrArg V3.z hd
  simp only [V3.cross, V3.sub, V3.smul] at e1 e2 e3
  simp only [neg_zero, zero_mul, zero_add, one_mul, e1, e2, e3, mul_div_cancel_left₀ _ hR] at hv
  exact hv

theorem velocity_fin {f : ℝ → V3} {o n : V3} {R : ℝ} (hR : R ≠ 0) (h : Circles f o n R) {d : V3} (hd : (f 0).sub o = d.smul R) : Velocity f (R * (3 * Real.pi / 2)) d := by
  have hv := turned_velocity (f := f) (o := o) (n := n) (R := R) (fun x => by have := h.2 0 x; rwa [zero_add] at this) (R * (3 * Real.pi / 2))
  rw [mul_div_cancel_left₀ _ hR, show 3 * Real.pi / 2 = 1.5 * Real.pi by ring, sin_15, cos_15] at hv
  have e1 := congrArg V3.x hd
  have e2 := congrArg V3.y hd
  have e3 := congrArg V3.z hd
  simp only [V3.sub, V3.smul] at e1 e2 e3
  simp only [neg_neg, zero_mul, add_zero, one_mul, e1, e2, e3, mul_div_cancel_left₀ _ hR] at hv
  rw [show 3 * Real.pi / 2 = 1.5 * Real.pi by ring]
  exact hv

theorem loop_new (center : V3) {radius lens : ℝ} (h0 : 0 < radius) (h1 : radius < lens) {n : V3} (hn : n ≠ ⟨0, 0, 0⟩) :
    ∃ lp other, Loop.new (fun _ x => x) center radius n lens = some lp ∧
      Smooth (fun t => lp.seg0.position t 0 0) lp.seg0.length (fun t => lp.seg2.position t 0 0) ∧
      Smooth (fun t => lp.seg2.position t 0 0) lp.seg2.length (fun t => lp.seg3.position t 0 0) ∧
      Smooth (fun t => lp.seg3.position t 0 0) lp.seg3.length (fun t => lp.seg1.position t 0 0) ∧
      Smooth (fun t => lp.seg1.position t 0 0) lp.seg1.length (fun t => lp.seg0.position t 0 0) ∧
      Circles (fun t => lp.seg0.position t 0 0) center (unit n) radius ∧ lp.seg0.length = radius * (3 * Real.pi / 2) ∧
      Runs (fun t => lp.seg1.position t 0 0) ∧ lp.seg1.length = lens ∧
      Runs (fun t => lp.seg2.position t 0 0) ∧ lp.seg2.length = lens ∧
      Circles (fun t => lp.seg3.position t 0 0) other (unit n.neg) (lens - radius) ∧ lp.seg3.length = (lens - radius) * (3 * Real.pi / 2) ∧
      lp.seg0.position lp.seg0.length 0 0 ≠ lp.seg1.position 0 0 0 := by
  rw [unit_neg]
  have hu := unit_unit hn
  obtain ⟨p, q, l, h⟩ := framed hu
  obtain ⟨c, hc, hcn, hcc, s0, s1, sl, sc⟩ := arc_first hn h h0 center
  have hA := av_unit h
  have hB := bv_unit h
  have hcA := cross_av h
  have hcB := cross_bv h
  have hAB := av_bv (n := unit n) (p := p) (q := q) (l := l)
  have hr : 0 < lens - radius := by linarith
  have hL : 0 < lens := by linarith
  obtain ⟨c3, hc3, t0, t1, tl, tc⟩ := arc_new hn h hr ((center.add ((av p q).smul lens)).sub ((bv (unit n) p q l).smul lens))
  rw [unit_neg] at tc
  generalize av p q = a at *
  generalize bv (unit n) p q l = b at *
  generalize unit n = u at *
  have x1 := congrArg V3.x hcA
  have x2 := congrArg V3.y hcA
  have x3 := congrArg V3.z hcA
  have y1 := congrArg V3.x hcB
  have y2 := congrArg V3.y hcB
  have y3 := congrArg V3.z hcB
  simp only [V3.cross, V3.neg] at x1 x2 x3 y1 y2 y3
  have hnB : IsUnit3 b.neg := by unfold IsUnit3 inner at hB ⊢; simp only [V3.neg]; linarith
  -- the ends of the straight parts
  have k1 : getEnd (c.outer 0) (c.n.cross ((c.outer 0).sub c.center)).neg lens = (c.outer 0).add (b.neg.smul lens) := by
    refine getEnd_unit hnB h0 ?_ lens
    rw [hcn, hcc, s0]
    simp only [V3.cross, V3.neg, V3.add, V3.sub, V3.smul]
    ext <;> simp only
    · linear_combination (-radius) * x1
    · linear_combination (-radius) * x2
    · linear_combination (-radius) * x3
  have k2 : getEnd (c.outer c.length) (c.n.cross ((c.outer c.length).sub c.center)) lens = (c.outer c.length).add (a.smul lens) := by
    refine getEnd_unit hA h0 ?_ lens
    rw [hcn, hcc, s1]
    simp only [V3.cross, V3.sub, V3.smul]
    ext <;> simp only
    · linear_combination (-radius) * y1
    · linear_combination (-radius) * y2
    · linear_combination (-radius) * y3
  have m1 : (c.outer 0).add (b.neg.smul lens) = ((center.add (a.smul lens)).sub (b.smul lens)).sub (a.smul (lens - radius)) := by
    rw [s0]; simp only [V3.add, V3.sub, V3.smul, V3.neg]; ext <;> simp only <;> ring
  have m2 : (c.outer c.length).add (a.smul lens) = ((center.add (a.smul lens)).sub (b.smul lens)).add (b.smul (lens - radius)) := by
    rw [s1]; simp only [V3.add, V3.sub, V3.smul]; ext <;> simp only <;> ring
  have g1 : Straight.new ((c.outer 0).add (b.neg.smul lens)) (c.outer 0) = ⟨(c.outer 0).add (b.neg.smul lens), b, lens⟩ := by
    refine straight_new hB hL ?_
    simp only [V3.add, V3.smul, V3.neg]; ext <;> simp only <;> ring
  have g2 : Straight.new (c.outer c.length) ((c.outer c.length).add (a.smul lens)) = ⟨c.outer c.length, a, lens⟩ := straight_new hA hL rfl
  refine ⟨⟨c, ⟨(c.outer 0).add (b.neg.smul lens), b, lens⟩, ⟨c.outer c.length, a, lens⟩, c3⟩, (center.add (a.smul lens)).sub (b.smul lens), ?_, ⟨?_, a, hA, ?_, ?_⟩, ⟨?_, a, hA, ?_, ?_⟩, ⟨?_, b, hB, ?_, ?_⟩,
    ⟨?_, b, hB, ?_, ?_⟩, sc, sl, ⟨b, hB, fun t => ?_⟩, rfl, ⟨a, hA, fun t => ?_⟩, rfl, tc, tl, ?_⟩
  · unfold Loop.new
    rw [hc, Option.bind_some]
    simp only [Circular.startEndTang, k1, k2, g1, g2]
    rw [m1, m2, hc3]
    rfl
  · simp only [Circ.position_zero, straight_position]
    simp [V3.add, V3.smul]
  · simp only
    rw [sl]
    refine velocity_fin h0.ne' sc ?_
    simp only [Circ.position_zero, s0, V3.add, V3.sub, V3.smul]
    ext <;> simp only <;> ring
  · exact straight_velocity _ _
  · simp only [Circ.position_zero, straight_position, t0]
    rw [m2]
  · exact straight_velocity _ _
  · refine velocity_start hr.ne' tc ?_
    simp only [Circ.position_zero, t0, V3.add, V3.sub, V3.smul, V3.cross, V3.neg]
    ext <;> simp only
    · linear_combination (-(lens - radius)) * y1
    · linear_combination (-(lens - radius)) * y2
    · linear_combination (-(lens - radius)) * y3
  · simp only [Circ.position_zero, straight_position, t1, ← m1]
    simp [V3.add, V3.smul]
  · simp only
    rw [tl]
    refine velocity_fin hr.ne' tc ?_
    simp only [Circ.position_zero, t0, V3.add, V3.sub, V3.smul]
    ext <;> simp only <;> ring
  · exact straight_velocity _ _
  · simp only [Circ.position_zero, straight_position]
    simp only [V3.add, V3.smul, V3.neg]; ext <;> simp only <;> ring
  · exact straight_velocity _ _
  · refine velocity_start h0.ne' sc ?_
    simp only [Circ.position_zero, s0, V3.add, V3.sub, V3.smul, V3.cross]
    ext <;> simp only
    · linear_combination radius * x1
    · linear_combination radius * x2
    · linear_combination radius * x3
  · simp only [straight_position, V3.add, V3.smul]
    ext <;> simp only <;> ring
  · simp only [straight_position, V3.add, V3.smul]
    ext <;> simp only <;> ring
  · simp only [Circ.position_zero, straight_position, s0, s1]
    intro he
    injection he with e1 e2 e3
    simp only [V3.add, V3.smul, V3.neg] at e1 e2 e3
    unfold IsUnit3 inner at hA
    unfold inner at hAB
    have : radius = 0 := by linear_combination (-a.x) * e1 - a.y * e2 - a.z * e3 - radius * hA + (lens - radius) * hAB
    linarith

/-- For every centre, radius, normal vector and length of the straight parts beyond the radius, the constructors of the four segments succeed, and the segments make a
closed curve without corners: three quarters of the circle around the centre, a straight part, three quarters of a circle the other way around with the radius
`lens - radius`, and a straight part back to the start. What is missing: rounding is ignored, and the lane lists the segments in another order
(`C106_order_violated`). -/
theorem C106_loop_partial (center : V3) {radius lens : ℝ} (h0 : 0 < radius) (h1 : radius < lens) {n : V3} (hn : n ≠ ⟨0, 0, 0⟩) :
    ∃ lp other, Loop.new (fun _ x => x) center radius n lens = some lp ∧
      Smooth (fun t => lp.seg0.position t 0 0) lp.seg0.length (fun t => lp.seg2.position t 0 0) ∧
      Smooth (fun t => lp.seg2.position t 0 0) lp.seg2.length (fun t => lp.seg3.position t 0 0) ∧
      Smooth (fun t => lp.seg3.position t 0 0) lp.seg3.length (fun t => lp.seg1.position t 0 0) ∧
      Smooth (fun t => lp.seg1.position t 0 0) lp.seg1.length (fun t => lp.seg0.position t 0 0) ∧
      Circles (fun t => lp.seg0.position t 0 0) center (unit n) radius ∧ lp.seg0.length = radius * (3 * Real.pi / 2) ∧
      Runs (fun t => lp.seg1.position t 0 0) ∧ lp.seg1.length = lens ∧
      Runs (fun t => lp.seg2.position t 0 0) ∧ lp.seg2.length = lens ∧
      Circles (fun t => lp.seg3.position t 0 0) other (unit n.neg) (lens - radius) ∧ lp.seg3.length = (lens - radius) * (3 * Real.pi / 2) := by
  obtain ⟨lp, o, h, j02, j23, j31, j10, c0, l0, r1, l1, r2, l2, c3, l3, _⟩ := loop_new center h0 h1 hn
  exact ⟨lp, o, h, j02, j23, j31, j10, c0, l0, r1, l1, r2, l2, c3, l3⟩

/-- The loop of `SimpleMap3`. -/
example : ∃ lp, Loop.new (fun _ x => x) ⟨0, -20, 0⟩ 20 ⟨1, 1, 1⟩ 40 = some lp ∧ lp.seg0.length + lp.seg1.length + lp.seg2.length + lp.seg3.length = 60 * Real.pi + 80 := by
  obtain ⟨lp, o, h, _, _, _, _, _, l0, _, l1, _, l2, _, l3⟩ := C106_loop_partial ⟨0, -20, 0⟩ (radius := 20) (lens := 40) (by norm_num) (by norm_num) (n := ⟨1, 1, 1⟩) (by simp)
  refine ⟨lp, h, ?_⟩
  rw [l0, l1, l2, l3]
  ring

/-- **Violation.** The second segment of the lane does not begin where the first one ends: it ends where the first one begins. So the longitudinal coordinate jumps by the
length of a straight part at the end of the first segment, and at the end of the last segment, where the lane carries on, it falls back. -/
theorem C106_order_violated (center : V3) {radius lens : ℝ} (h0 : 0 < radius) (h1 : radius < lens) {n : V3} (hn : n ≠ ⟨0, 0, 0⟩) :
    ∃ lp S0 S1 S2 S3, Loop.new (fun _ x => x) center radius n lens = some lp ∧ lp.lane = [.circular lp.seg0, .straight lp.seg1, .straight lp.seg2, .circular lp.seg3] ∧
      longitudinalStarts lp.lane 0 = [S0, S1, S2, S3] ∧
      lp.seg0.position lp.seg0.length 0 0 ≠ lp.seg1.position 0 0 0 ∧ lp.seg1.position lp.seg1.length 0 0 = lp.seg0.position 0 0 0 ∧
      lp.seg0.position lp.seg0.length 0 0 = lp.seg2.position 0 0 0 ∧ S2 = S0 + lp.seg0.length + lens ∧
      lp.seg3.position lp.seg3.length 0 0 = lp.seg1.position 0 0 0 ∧ S1 + (lens + lens + lp.seg3.length) = S3 + lp.seg3.length := by
  obtain ⟨lp, o, h, j02, j23, j31, j10, c0, l0, r1, l1, r2, l2, c3, l3, hne⟩ := loop_new center h0 h1 hn
  refine ⟨lp, 0, 0 + lp.seg0.length, 0 + lp.seg0.length + lp.seg1.length, 0 + lp.seg0.length + lp.seg1.length + lp.seg2.length, h, rfl, rfl, hne, j10.1, j02.1,
    by rw [l1], j31.1, by rw [l1, l2]; ring⟩

/-! ### Parallel loops -/

def shiftC (d : V3) (c : Circular) : Circular := { c with center := c.center.add d }
def shiftS (d : V3) (s : Straight) : Straight := { s with start := s.start.add d }
def shiftL (d : V3) (l : Loop) : Loop := ⟨shiftC d l.seg0, shiftS d l.seg1, shiftS d l.seg2, shiftC d l.seg3⟩

theorem sub_shift (p o d : V3) : (p.add d).sub (o.add d) = p.sub o := by
  unfold V3.sub V3.add; ext <;> simp only <;> ring

theorem add_shift (p o d : V3) : (p.add d).add o = (p.add o).add d := by
  unfold V3.add; ext <;> simp only <;> ring

theorem coor_shift (r t : ℝ) (n o d : V3) (right : Bool) : coorByRt r t n (o.add d) right = (coorByRt r t n o right).add d := by
  unfold coorByRt; simp only [add_shift]

theorem outer_shift (d : V3) (c : Circular) (t : ℝ) : (shiftC d c).outer t = (c.outer t).add d := coor_shift _ _ _ _ _ _

theorem position_shift (d : V3) (c : Circular) (t r θ : ℝ) : (shiftC d c).position t r θ = (c.position t r θ).add d := by
  unfold Circular.position
  simp only [outer_shift]
  rw [show (shiftC d c).center = c.center.add d from rfl, show (shiftC d c).n = c.n from rfl]
  rw [sub_shift, coor_shift]

theorem straight_shift (d : V3) (s : Straight) (t r θ : ℝ) : (shiftS d s).position t r θ = (s.position t r θ).add d := by
  unfold Straight.position shiftS
  simp only
  rw [add_shift, coor_shift]

theorem straight_new_shift (a b d : V3) : Straight.new (a.add d) (b.add d) = shiftS d (Straight.new a b) := by
  unfold Straight.new shiftS; simp only [sub_shift]

theorem new_shift (o d : V3) (R : ℝ) (v : V3) (s e : ℝ) (right : Bool) : Circular.new (o.add d) R v s e right = (Circular.new o R v s e right).map (shiftC d) := by
  unfold Circular.new
  simp only
  split <;> rfl

theorem theta_shift (rnd : Nat → ℝ → ℝ) (p n o d : V3) (r : ℝ) (right : Bool) : thetaByCoor rnd (p.add d) n (o.add d) r right = thetaByCoor rnd p n o r right := by
  unfold thetaByCoor; simp only [sub_shift]

theorem add_cancel {a b d : V3} : a.add d = b.add d ↔ a = b := by
  constructor
  · intro h
    injection h with h1 h2 h3
    exact V3.ext (add_right_cancel h1) (add_right_cancel h2) (add_right_cancel h3)
  · rintro rfl; rfl

theorem centerRadius_shift (a b d n : V3) (φ : ℝ) (right : Bool) :
    centerRadius (a.add d) (b.add d) n φ right = (centerRadius a b n φ right).map fun cr => (cr.1.add d, cr.2) := by
  have hmid : ((b.add d).add (a.add d)).div 2 = ((b.add a).div 2).add d := by
    unfold V3.add V3.div; ext <;> simp only <;> ring
  unfold centerRadius
  simp only [sub_shift, hmid]
  by_cases h : 0 < φ ∧ φ < 2 * Real.pi ∧ a ≠ b
  · rw [if_pos h, if_pos ⟨h.1, h.2.1, fun hc => h.2.2 (add_cancel.1 hc)⟩]
    split
    · rfl
    · rw [Option.map_some, add_shift]
  · rw [if_neg h, if_neg fun hc => h ⟨hc.1, hc.2.1, fun he => hc.2.2 (add_cancel.2 he)⟩]
    rfl

theorem fromEnds_shift (rnd : Nat → ℝ → ℝ) (a b d n : V3) (φ : ℝ) (right : Bool) :
    Circular.fromEnds rnd (a.add d) (b.add d) n φ right = (Circular.fromEnds rnd a b n φ right).map (shiftC d) := by
  unfold Circular.fromEnds
  rw [centerRadius_shift]
  cases centerRadius a b n φ right with
  | none => rfl
  | some cr =>
    simp only [Option.map_some, Option.bind_some, theta_shift, new_shift]
    cases thetaByCoor rnd a n cr.1 cr.2 right with
    | none => rfl
    | some sp =>
      simp only [Option.bind_some]
      cases thetaByCoor rnd b n cr.1 cr.2 right <;> rfl

theorem loop_shift (rnd : Nat → ℝ → ℝ) (center d : V3) (radius : ℝ) (n : V3) (lens : ℝ) :
    Loop.new rnd (center.add d) radius n lens = (Loop.new rnd center radius n lens).map (shiftL d) := by
  unfold Loop.new
  rw [new_shift]
  cases Circular.new center radius n 0 (1.5 * Real.pi) true with
  | none => rfl
  | some c =>
    simp only [Option.map_some, Option.bind_some]
    have ht : (shiftC d c).startEndTang = (c.startEndTang.1.add d, c.startEndTang.2.1, c.startEndTang.2.2.1.add d, c.startEndTang.2.2.2) := by
      unfold Circular.startEndTang
      simp only [outer_shift]
      rw [show (shiftC d c).length = c.length from rfl, show (shiftC d c).center = c.center.add d from rfl, show (shiftC d c).n = c.n from rfl]
      simp only [sub_shift]
    have hg : ∀ s m : V3, getEnd (s.add d) m lens = (getEnd s m lens).add d := by
      intro s m; unfold getEnd; rw [add_shift]
    rw [ht]
    simp only [hg, fromEnds_shift, straight_new_shift, Option.map_map]
    rfl

/-- The loops of a map that are given by centres apart by `d` (in the maps `2 * width * n`) are parallel: one exists if the other does, and every point of one, on or beside
its axis, is the point of the other with the same coordinates, moved by `d`. -/
theorem C106_parallel (rnd : Nat → ℝ → ℝ) (center d : V3) (radius : ℝ) (n : V3) (lens : ℝ) :
    (Loop.new rnd (center.add d) radius n lens = none ↔ Loop.new rnd center radius n lens = none) ∧
    ∀ lp lp', Loop.new rnd center radius n lens = some lp → Loop.new rnd (center.add d) radius n lens = some lp' →
      List.Forall₂ (fun s s' : Segment => s'.length = s.length ∧ ∀ t r θ : ℝ, s'.position t r θ =
        ⟨(s.position t r θ).x + d.x, (s.position t r θ).y + d.y, (s.position t r θ).z + d.z⟩) lp.lane lp'.lane := by
  rw [loop_shift]
  constructor
  · simp
  · intro lp lp' h h'
    rw [h] at h'
    injection h' with h'
    subst h'
    refine .cons ⟨rfl, fun t r θ => position_shift d lp.seg0 t r θ⟩ (.cons ⟨rfl, fun t r θ => straight_shift d lp.seg1 t r θ⟩
      (.cons ⟨rfl, fun t r θ => straight_shift d lp.seg2 t r θ⟩ (.cons ⟨rfl, fun t r θ => position_shift d lp.seg3 t r θ⟩ .nil)))

/-- The lanes T1 and T0 of `SimpleMap6`: T0 exists and is four above T1. -/
example : ∃ lp lp', Loop.new (fun _ x => x) ⟨0, 0, 0⟩ 10 ⟨0, 0, 1⟩ 20 = some lp ∧ Loop.new (fun _ x => x) ⟨0, 0, 4⟩ 10 ⟨0, 0, 1⟩ 20 = some lp' ∧
    ∀ t, (lp'.seg3.position t 0 0).z = (lp.seg3.position t 0 0).z + 4 := by
  obtain ⟨lp, _, h, _⟩ := C106_loop_partial ⟨0, 0, 0⟩ (radius := 10) (lens := 20) (by norm_num) (by norm_num) (n := ⟨0, 0, 1⟩) (by simp)
  obtain ⟨lp', _, h', _⟩ := C106_loop_partial ⟨0, 0, 4⟩ (radius := 10) (lens := 20) (by norm_num) (by norm_num) (n := ⟨0, 0, 1⟩) (by simp)
  refine ⟨lp, lp', h, h', fun t => ?_⟩
  have e : (⟨0, 0, 4⟩ : V3) = V3.add ⟨0, 0, 0⟩ ⟨0, 0, 4⟩ := by simp [V3.add]
  rw [e] at h'
  have := (C106_parallel (fun _ x => x) ⟨0, 0, 0⟩ ⟨0, 0, 4⟩ 10 ⟨0, 0, 1⟩ 20).2 lp lp' h h'
  cases this with
  | cons _ h1 => cases h1 with
    | cons _ h2 => cases h2 with
      | cons _ h3 => cases h3 with
        | cons h4 _ => exact congrArg V3.z (h4.2 t 0 0)

/-- **Violation.** Around (1, 1, 1), lanes of the width `w` are not `2 w` apart: the factor is the square root of 12. -/
theorem C106_distance_violated {w : ℝ} (hw : 0 < w) (center : V3) :
    Verif.Spec.Lane3d.dist (center.add (V3.smul (2 * w) ⟨1, 1, 1⟩)) center = Real.sqrt 12 * w ∧ 2 * w < Real.sqrt 12 * w := by
  constructor
  · unfold Verif.Spec.Lane3d.dist
    simp only [V3.add, V3.smul]
    rw [show (center.x + 2 * w * 1 - center.x) ^ 2 + (center.y + 2 * w * 1 - center.y) ^ 2 + (center.z + 2 * w * 1 - center.z) ^ 2 = 12 * w ^ 2 by ring,
      Real.sqrt_mul (by norm_num), Real.sqrt_sq hw.le]
  · refine mul_lt_mul_of_pos_right ?_ hw
    rw [Real.lt_sqrt (by norm_num)]
    norm_num

end Verif.Props
