import Verif.Spec.OpenDrive
import Verif.Proofs.Lane
import Verif.Proofs.SimSimple

set_option autoImplicit false

namespace Verif.ODrive
open Verif.Lane Verif.Spec Real

/-- The lanes to drive on with the distances of their middles. -/
noncomputable def offs : ℝ → List LaneEl → List (LaneEl × ℝ)
  | _, [] => []
  | acc, e :: es => if e.typ = "driving" then (e, acc + e.a / 2) :: offs (acc + e.a) es else offs (acc + e.a) es

theorem offs_eq (pre es : List LaneEl) (h : (pre ++ es).Pairwise (fun a b => |a.id| < |b.id|)) :
    offs (pre.map LaneEl.a).sum es = (driving es).map fun e => (e, laneOffset (pre ++ es) e) := by
  induction es generalizing pre with
  | nil => rfl
  | cons e es ih =>
    have hi := ih (pre ++ [e]) (by simpa using h)
    simp only [List.map_append, List.sum_append, List.map_cons, List.map_nil, List.sum_cons, List.sum_nil, add_zero,
      List.append_assoc, List.singleton_append] at hi
    have ho : laneOffset (pre ++ e :: es) e = (pre.map LaneEl.a).sum + e.a / 2 := by
      rw [List.pairwise_append, List.pairwise_cons] at h
      unfold laneOffset
      rw [List.filter_append, List.filter_cons, List.filter_eq_self.2, List.filter_eq_nil_iff.2]
      · simp
      · intro a ha
        simpa using (h.2.1.1 a ha).le
      · intro a ha
        simpa using h.2.2 a ha e (by simp)
    unfold offs
    by_cases hd : e.typ = "driving"
    · rw [if_pos hd, hi, show driving (e :: es) = e :: driving es by simp [driving, hd], List.map_cons, ho]
    · rw [if_neg hd, hi, show driving (e :: es) = driving es by simp [driving, hd]]

theorem straightSide_eq (i f n : ℝ × ℝ) (acc : ℝ) (es : List LaneEl) (h : ∀ e ∈ es, e.typ = "driving" ∨ e.typ = "sidewalk") :
    straightSide i f n acc es = (offs acc es).map fun x =>
      .straight (Straight.new (i.1 + x.2 * n.1, i.2 + x.2 * n.2) (f.1 + x.2 * n.1, f.2 + x.2 * n.2)) x.1.a := by
  induction es generalizing acc with
  | nil => rfl
  | cons e es ih =>
    unfold straightSide offs
    have hi := fun acc => ih acc (fun e' he => h e' (by simp [he]))
    rcases h e (by simp) with hd | hd
    · have e1 : acc + 1 / 2 * e.a = acc + e.a / 2 := by ring
      have e2 : acc + e.a / 2 - 1 / 2 * e.a + e.a = acc + e.a := by ring
      simp only [hd, String.reduceEq, if_false, if_true, hi, e1, e2, List.map_cons]
    · simp [hd, hi]

theorem arcSide_eq (c : ℝ × ℝ) (s f : ℝ) (cw : Bool) (sgn R acc : ℝ) (es : List LaneEl) (h : ∀ e ∈ es, e.typ = "driving" ∨ e.typ = "sidewalk") :
    arcSide c s f cw sgn (R + sgn * acc) es = (offs acc es).map fun x => .circular ⟨c, R + sgn * x.2, s, f, cw, 0⟩ x.1.a := by
  induction es generalizing acc with
  | nil => rfl
  | cons e es ih =>
    unfold arcSide offs
    have hi := fun acc => ih acc (fun e' he => h e' (by simp [he]))
    rcases h e (by simp) with hd | hd
    · have e1 : R + sgn * acc + sgn * (1 / 2 * e.a) = R + sgn * (acc + e.a / 2) := by ring
      have e2 : R + sgn * (acc + e.a / 2) - sgn * (1 / 2 * e.a) + sgn * e.a = R + sgn * (acc + e.a) := by ring
      simp only [hd, if_true, e1, e2, hi, List.map_cons]
    · have e2 : R + sgn * acc + sgn * e.a = R + sgn * (acc + e.a) := by ring
      simp only [hd, String.reduceEq, if_false, if_true, e2, hi]

theorem laneOffset_bounds (side : List LaneEl) (h : PlainSide side) (e : LaneEl) (he : e ∈ side) :
    0 ≤ laneOffset side e ∧ laneOffset side e ≤ (side.map LaneEl.a).sum := by
  unfold laneOffset
  have hnn : ∀ l : List LaneEl, (∀ o ∈ l, o ∈ side) → 0 ≤ (l.map LaneEl.a).sum := by
    intro l hl
    apply List.sum_nonneg
    intro x hx
    obtain ⟨o, ho, rfl⟩ := List.mem_map.1 hx
    exact (h.2 o (hl o ho)).1
  have ha := (h.2 e he).1
  refine ⟨by have := hnn (side.filter fun o => decide (|o.id| < |e.id|)) (fun o ho => (List.mem_filter.1 ho).1); linarith, ?_⟩
  obtain ⟨pre, post, rfl⟩ := List.append_of_mem he
  have hp := h.1
  rw [List.pairwise_append, List.pairwise_cons] at hp
  rw [List.filter_append, List.filter_cons, List.filter_eq_self.2, List.filter_eq_nil_iff.2]
  · have := hnn post (fun o ho => by simp [ho])
    simp only [lt_self_iff_false, decide_false, Bool.false_eq_true, if_false, List.append_nil, List.map_append, List.map_cons, List.sum_append,
      List.sum_cons]
    linarith
  · intro a ha
    simpa using (hp.2.1.1 a ha).le
  · intro a ha
    simpa using hp.2.2 a ha e (by simp)

theorem cos_sin_arctan2 (R c s : ℝ) (hR : 0 < R) (h : c ^ 2 + s ^ 2 = 1) :
    cos (Lane.arctan2 (R * s) (R * c)) = c ∧ sin (Lane.arctan2 (R * s) (R * c)) = s := by
  have hn : ‖(⟨R * c, R * s⟩ : ℂ)‖ = R := by
    rw [Complex.norm_def, Complex.normSq_mk]
    rw [show R * c * (R * c) + R * s * (R * s) = R * R * (c ^ 2 + s ^ 2) by ring, h, mul_one, Real.sqrt_mul_self hR.le]
  have h0 : (⟨R * c, R * s⟩ : ℂ) ≠ 0 := by
    intro h0
    rw [h0, norm_zero] at hn
    linarith
  unfold Lane.arctan2
  rw [Complex.cos_arg h0, Complex.sin_arg, hn]
  exact ⟨by simp only []; field_simp, by simp only []; field_simp⟩

theorem follows_line (g : Geometry) (hg : g.shape = .line) (hL : 0 < g.length) (d sg w : ℝ) (n : ℝ × ℝ)
    (hn : n = (sg * -sin g.hdg, sg * cos g.hdg)) :
    Follows g (sg * d) w (.straight (Straight.new (g.x + d * n.1, g.y + d * n.2)
      (g.x + cos g.hdg * g.length + d * n.1, g.y + sin g.hdg * g.length + d * n.2)) w) := by
  subst hn
  have h1 : norm2 (g.x + cos g.hdg * g.length + d * (sg * -sin g.hdg) - (g.x + d * (sg * -sin g.hdg)),
      g.y + sin g.hdg * g.length + d * (sg * cos g.hdg) - (g.y + d * (sg * cos g.hdg))) = g.length := by
    have := Real.sin_sq_add_cos_sq g.hdg
    unfold norm2
    rw [← Real.sqrt_mul_self hL.le]
    congr 1
    simp only []
    rw [Real.sqrt_mul_self hL.le]
    linear_combination g.length ^ 2 * this
  refine ⟨rfl, by simp only [Piece.length, Straight.new, h1]; exact hL, ?_⟩
  intro t r
  simp only [Piece.position, Piece.length, Straight.position, Straight.latDir, Straight.new, h1, besideRef, refPoint, refHeading, hg, Prod.mk.injEq]
  constructor <;> field_simp <;> ring

theorem follows_left_turn (g : Geometry) (k : ℝ) (hg : g.shape = .arc k) (hk : 0 < k) (hL : 0 < g.length) (d w : ℝ) (hd : d < 1 / k)
    (s : ℝ) (hc : cos s = sin g.hdg) (hs : sin s = -cos g.hdg) :
    Follows g d w (.circular ⟨(g.x - sin g.hdg / k, g.y + cos g.hdg / k), 1 / k - d, s, s + g.length * k, false, 0⟩ w) := by
  have hr : 0 < 1 / k - d := by linarith
  refine ⟨rfl, ?_, ?_⟩
  · simp only [Piece.length, Circular.length, Circular.direction]
    have : 0 < g.length * k := mul_pos hL hk
    simp only [Bool.false_eq_true, if_false, mul_one, add_sub_cancel_left]
    positivity
  · intro t r
    have hphi : (1 : ℝ) * (t * ((1 / k - d) * (s + g.length * k - s) * 1)) / (1 / k - d) + s = s + k * (t * g.length) := by
      have := hr.ne'
      rw [add_comm s (k * _), add_left_inj, div_eq_iff this]
      ring
    simp only [Piece.position, Piece.length, Circular.position, Circular.length, Circular.direction, Bool.false_eq_true, if_false, hphi,
      besideRef, refPoint, refHeading, hg, Prod.mk.injEq]
    rw [cos_add s, sin_add s, hc, hs, sin_add g.hdg, cos_add g.hdg]
    constructor <;> field_simp <;> ring

theorem follows_right_turn (g : Geometry) (k : ℝ) (hg : g.shape = .arc k) (hk : k < 0) (hL : 0 < g.length) (d w : ℝ) (hd : 1 / k < d)
    (s : ℝ) (hc : cos s = -sin g.hdg) (hs : sin s = cos g.hdg) :
    Follows g d w (.circular ⟨(g.x - sin g.hdg / k, g.y + cos g.hdg / k), -(1 / k) + d, s, s + g.length * k, true, 0⟩ w) := by
  have hr : 0 < -(1 / k) + d := by linarith
  have hk0 : k ≠ 0 := hk.ne
  refine ⟨rfl, ?_, ?_⟩
  · simp only [Piece.length, Circular.length, Circular.direction]
    have : 0 < -(g.length * k) := by nlinarith
    simp only [if_true, add_sub_cancel_left]
    nlinarith
  · intro t r
    have hphi : (-1 : ℝ) * (t * ((-(1 / k) + d) * (s + g.length * k - s) * -1)) / (-(1 / k) + d) + s = s + k * (t * g.length) := by
      have := hr.ne'
      rw [add_comm s (k * _), add_left_inj, div_eq_iff this]
      ring
    simp only [Piece.position, Piece.length, Circular.position, Circular.length, Circular.direction, if_true, hphi,
      besideRef, refPoint, refHeading, hg, Prod.mk.injEq]
    rw [cos_add s, sin_add s, hc, hs, sin_add g.hdg, cos_add g.hdg]
    constructor <;> field_simp <;> ring

end Verif.ODrive

namespace Verif.ODrive
open Verif.Lane Verif.Spec Real

theorem forall₂_driving (g : Geometry) (side : List LaneEl) (h : PlainSide side) (sg : ℝ) (mk : LaneEl × ℝ → Piece)
    (hm : ∀ e ∈ side, Follows g (sg * laneOffset side e) e.a (mk (e, laneOffset side e))) :
    List.Forall₂ (fun e p => Follows g (sg * laneOffset side e) e.a p) (driving side) ((offs 0 side).map mk) := by
  have ho := offs_eq [] side (by simpa using h.1)
  simp only [List.map_nil, List.sum_nil, List.nil_append] at ho
  rw [ho, List.map_map, List.forall₂_map_right_iff, List.forall₂_same]
  intro e he
  exact hm e (List.mem_of_mem_filter he)

theorem line_normal (g : Geometry) (hL : 0 < g.length) :
    sqrt ((g.x + cos g.hdg * g.length - g.x) ^ 2 + (g.y + sin g.hdg * g.length - g.y) ^ 2) = g.length := by
  have := Real.sin_sq_add_cos_sq g.hdg
  conv_rhs => rw [← Real.sqrt_mul_self hL.le]
  congr 1
  linear_combination g.length ^ 2 * this

/-- What is computed for a turn to the left. -/
theorem arc_left (g : Geometry) (k : ℝ) (hg : g.shape = .arc k) (hk : 0 < k) (hL : 0 < g.length) (left right : List LaneEl) :
    ∃ s, cos s = sin g.hdg ∧ sin s = -cos g.hdg ∧ geometryPieces g left right =
      .ok (arcSide (g.x - sin g.hdg / k, g.y + cos g.hdg / k) s (s + g.length * k) false (-1) (1 / k) left,
        arcSide (g.x - sin g.hdg / k, g.y + cos g.hdg / k) s (s + g.length * k) false 1 (1 / k) right) := by
  have hR : 0 < 1 / k := by positivity
  have h := cos_sin_arctan2 (1 / k) (sin g.hdg) (-cos g.hdg) hR (by rw [neg_sq]; exact Real.sin_sq_add_cos_sq _)
  refine ⟨_, h.1, h.2, ?_⟩
  have e1 : (g.x + -sin g.hdg * (1 / k), g.y + cos g.hdg * (1 / k)) = (g.x - sin g.hdg / k, g.y + cos g.hdg / k) := by
    simp only [Prod.mk.injEq]
    constructor <;> ring
  have e2 : g.y - (g.y + cos g.hdg / k) = 1 / k * -cos g.hdg := by ring
  have e3 : g.x - (g.x - sin g.hdg / k) = 1 / k * sin g.hdg := by ring
  have e4 : |g.length / (1 / k)| = g.length * k := by
    rw [abs_of_pos (by positivity)]
    field_simp
  unfold geometryPieces
  simp only [hg, hk.ne', if_false, not_lt.2 hk.le, abs_of_pos hR, e1, e2, e3, e4]

/-- What is computed for a turn to the right. -/
theorem arc_right (g : Geometry) (k : ℝ) (hg : g.shape = .arc k) (hk : k < 0) (hL : 0 < g.length) (left right : List LaneEl) :
    ∃ s, cos s = -sin g.hdg ∧ sin s = cos g.hdg ∧ geometryPieces g left right =
      .ok (arcSide (g.x - sin g.hdg / k, g.y + cos g.hdg / k) s (s + g.length * k) true 1 (-(1 / k)) left,
        arcSide (g.x - sin g.hdg / k, g.y + cos g.hdg / k) s (s + g.length * k) false (-1) (-(1 / k)) right) := by
  have hR : 0 < -(1 / k) := by
    have := one_div_neg.2 hk
    linarith
  have h := cos_sin_arctan2 (-(1 / k)) (-sin g.hdg) (cos g.hdg) hR (by rw [neg_sq]; exact Real.sin_sq_add_cos_sq _)
  refine ⟨_, h.1, h.2, ?_⟩
  have e1 : (g.x - -sin g.hdg * -(1 / k), g.y - cos g.hdg * -(1 / k)) = (g.x - sin g.hdg / k, g.y + cos g.hdg / k) := by
    simp only [Prod.mk.injEq]
    constructor <;> ring
  have e2 : g.y - (g.y + cos g.hdg / k) = -(1 / k) * cos g.hdg := by ring
  have e3 : g.x - (g.x - sin g.hdg / k) = -(1 / k) * -sin g.hdg := by ring
  have e4 : |g.length / -(1 / k)| = -(g.length * k) := by
    rw [abs_of_pos (by positivity)]
    have := hk.ne
    field_simp
  unfold geometryPieces
  simp only [hg, hk.ne, if_false, hk, if_true, abs_of_neg (one_div_neg.2 hk), e1, e2, e3, e4, sub_neg_eq_add]

theorem left_follows (g : Geometry) (left right : List LaneEl) (hg : Known g) (hp : PlainSide left) (hf : Fits g left) :
    ∃ P Q, geometryPieces g left right = .ok (P, Q) ∧
      List.Forall₂ (fun e p => Follows g (laneOffset left e) e.a p) (driving left) P := by
  obtain ⟨hL, hs⟩ := hg
  cases hsh : g.shape with
  | other => simp [hsh] at hs
  | line =>
    refine ⟨_, _, by unfold geometryPieces; simp only [hsh]; rfl, ?_⟩
    rw [straightSide_eq _ _ _ _ _ (fun e he => (hp.2 e he).2)]
    suffices h : List.Forall₂ (fun e p => Follows g (1 * laneOffset left e) e.a p) (driving left) _ by simpa only [one_mul] using h
    apply forall₂_driving g left hp 1
    intro e he
    refine follows_line g hsh hL _ 1 _ (_, _) ?_
    rw [line_normal g hL]
    simp only [Prod.mk.injEq]
    constructor <;> field_simp <;> ring
  | arc k =>
    have hk0 : k ≠ 0 := by simpa [hsh] using hs
    have hF := hf k hsh
    rcases lt_or_gt_of_ne hk0 with hk | hk
    · obtain ⟨s, hc, hsn, hgp⟩ := arc_right g k hsh hk hL left right
      refine ⟨_, _, hgp, ?_⟩
      have := arcSide_eq (g.x - sin g.hdg / k, g.y + cos g.hdg / k) s (s + g.length * k) true 1 (-(1 / k)) 0 left (fun e he => (hp.2 e he).2)
      rw [mul_zero, add_zero] at this
      rw [this]
      suffices h : List.Forall₂ (fun e p => Follows g (1 * laneOffset left e) e.a p) (driving left) _ by simpa only [one_mul] using h
      apply forall₂_driving g left hp 1
      intro e he
      simp only [one_mul]
      have := (laneOffset_bounds left hp e he).1
      exact follows_right_turn g k hsh hk hL _ _ (by have := one_div_neg.2 hk; linarith) s hc hsn
    · obtain ⟨s, hc, hsn, hgp⟩ := arc_left g k hsh hk hL left right
      refine ⟨_, _, hgp, ?_⟩
      have := arcSide_eq (g.x - sin g.hdg / k, g.y + cos g.hdg / k) s (s + g.length * k) false (-1) (1 / k) 0 left (fun e he => (hp.2 e he).2)
      rw [mul_zero, add_zero] at this
      rw [this]
      suffices h : List.Forall₂ (fun e p => Follows g (1 * laneOffset left e) e.a p) (driving left) _ by simpa only [one_mul] using h
      apply forall₂_driving g left hp 1
      intro e he
      simp only [one_mul, neg_one_mul, ← sub_eq_add_neg]
      have := (laneOffset_bounds left hp e he).2
      rw [abs_of_pos hk] at hF
      exact follows_left_turn g k hsh hk hL _ _ (by linarith) s hc hsn

theorem right_follows (g : Geometry) (left right : List LaneEl) (hg : Known g) (hp : PlainSide right) (hf : ∀ k, g.shape = .arc k → 0 < k) :
    ∃ P Q, geometryPieces g left right = .ok (P, Q) ∧
      List.Forall₂ (fun e p => Follows g (-laneOffset right e) e.a p) (driving right) Q := by
  obtain ⟨hL, hs⟩ := hg
  cases hsh : g.shape with
  | other => simp [hsh] at hs
  | line =>
    refine ⟨_, _, by unfold geometryPieces; simp only [hsh]; rfl, ?_⟩
    rw [straightSide_eq _ _ _ _ _ (fun e he => (hp.2 e he).2)]
    suffices h : List.Forall₂ (fun e p => Follows g (-1 * laneOffset right e) e.a p) (driving right) _ by simpa only [neg_one_mul] using h
    apply forall₂_driving g right hp (-1)
    intro e he
    refine follows_line g hsh hL _ (-1) _ (_, _) ?_
    rw [line_normal g hL]
    simp only [Prod.mk.injEq]
    constructor <;> field_simp <;> ring
  | arc k =>
    have hk := hf k hsh
    obtain ⟨s, hc, hsn, hgp⟩ := arc_left g k hsh hk hL left right
    refine ⟨_, _, hgp, ?_⟩
    have := arcSide_eq (g.x - sin g.hdg / k, g.y + cos g.hdg / k) s (s + g.length * k) false 1 (1 / k) 0 right (fun e he => (hp.2 e he).2)
    rw [mul_zero, add_zero] at this
    rw [this]
    suffices h : List.Forall₂ (fun e p => Follows g (-1 * laneOffset right e) e.a p) (driving right) _ by simpa only [neg_one_mul] using h
    apply forall₂_driving g right hp (-1)
    intro e he
    have h0 := (laneOffset_bounds right hp e he).1
    have hk' : 0 < 1 / k := by positivity
    have := follows_left_turn g k hsh hk hL (-1 * laneOffset right e) e.a (by linarith) s hc hsn
    have e1 : 1 / k - -1 * laneOffset right e = 1 / k + 1 * laneOffset right e := by ring
    rw [e1] at this
    exact this

theorem straightSide_length (i f n : ℝ × ℝ) (acc : ℝ) (es : List LaneEl) : (straightSide i f n acc es).length = (driving es).length := by
  induction es generalizing acc with
  | nil => rfl
  | cons e es ih =>
    unfold straightSide
    by_cases h1 : e.typ = "sidewalk"
    · rw [if_pos h1, ih]
      simp [driving, h1]
    · by_cases h2 : e.typ = "driving"
      · rw [if_neg h1, if_pos h2, List.length_cons, ih]
        simp [driving, h2]
      · rw [if_neg h1, if_neg h2, ih]
        simp [driving, h2]

theorem arcSide_length (c : ℝ × ℝ) (s f : ℝ) (cw : Bool) (sgn R : ℝ) (es : List LaneEl) :
    (arcSide c s f cw sgn R es).length = (driving es).length := by
  induction es generalizing R with
  | nil => rfl
  | cons e es ih =>
    unfold arcSide
    by_cases h2 : e.typ = "driving"
    · rw [if_pos h2, List.length_cons, ih]
      simp [driving, h2]
    · by_cases h1 : e.typ = "sidewalk"
      · rw [if_neg h2, if_pos h1, ih]
        simp [driving, h1]
      · rw [if_neg h2, if_neg h1, ih]
        simp [driving, h2]

theorem geometryPieces_length (g : Geometry) (left right : List LaneEl) (P Q : List Piece) (h : geometryPieces g left right = .ok (P, Q)) :
    P.length = (driving left).length ∧ Q.length = (driving right).length := by
  unfold geometryPieces at h
  cases hsh : g.shape with
  | other => simp [hsh] at h
  | line =>
    simp only [hsh, Except.ok.injEq, Prod.mk.injEq] at h
    rw [← h.1, ← h.2]
    exact ⟨straightSide_length _ _ _ _ _, straightSide_length _ _ _ _ _⟩
  | arc k =>
    simp only [hsh] at h
    split at h
    · simp at h
    · by_cases hk : k < 0
      · rw [if_pos hk] at h
        simp only [Except.ok.injEq, Prod.mk.injEq] at h
        rw [← h.1, ← h.2]
        exact ⟨arcSide_length _ _ _ _ _ _ _, arcSide_length _ _ _ _ _ _ _⟩
      · rw [if_neg hk] at h
        simp only [Except.ok.injEq, Prod.mk.injEq] at h
        rw [← h.1, ← h.2]
        exact ⟨arcSide_length _ _ _ _ _ _ _, arcSide_length _ _ _ _ _ _ _⟩

theorem laneName_inj (i j : Nat) (h : laneName i = laneName j) : i = j := by
  have := congrArg String.toList h
  simp only [laneName, String.toList_append, List.append_cancel_left_eq] at this
  have h2 : ∀ n : Nat, (toString n).toList = Nat.toDigits 10 n := fun n => Nat.toList_repr
  rw [h2, h2] at this
  have := congrArg (fun l => Nat.ofDigitChars 10 l 0) this
  simpa using this

theorem lastChar_laneName (k : Nat) (h : k < 10) : lastChar (laneName k) = String.ofList [Nat.digitChar k] := by
  have h2 : (toString k).toList = Nat.toDigits 10 k := Nat.toList_repr
  unfold lastChar laneName
  rw [String.toList_append, h2, Nat.toDigits_of_lt_base h]
  simp

theorem digitChar_inj (i j : Nat) (hi : i < 10) (hj : j < 10) (h : Nat.digitChar i = Nat.digitChar j) : i = j := by
  have hd : ∀ a b : Fin 10, Nat.digitChar a = Nat.digitChar b → a = b := by decide
  exact Fin.mk.inj_iff.1 (hd ⟨i, hi⟩ ⟨j, hj⟩ h)

theorem between_inj (a b a' b' : Nat) (h1 : a < 10) (h2 : b < 10) (h3 : a' < 10) (h4 : b' < 10)
    (h : between (laneName a) (laneName b) = between (laneName a') (laneName b')) : a = a' ∧ b = b' := by
  unfold between at h
  rw [lastChar_laneName a h1, lastChar_laneName b h2, lastChar_laneName a' h3, lastChar_laneName b' h4] at h
  have := congrArg String.toList h
  simp only [String.toList_append, String.toList_ofList, List.append_assoc, List.append_cancel_left_eq, List.singleton_append, List.cons.injEq,
    and_true] at this
  exact ⟨digitChar_inj _ _ h1 h3 this.1, digitChar_inj _ _ h2 h4 this.2⟩

end Verif.ODrive
