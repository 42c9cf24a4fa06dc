import Verif.Model.RayDist
import Verif.Spec.RayDist

/-!
C105: distances along rays and segments.
-/

set_option autoImplicit false

namespace Verif.Props
open Verif.Ray Verif.Ray.Spec

/-! ### Circles -/

theorem norm2_sq (v : V2) : norm2 v ^ 2 = v.1 ^ 2 + v.2 ^ 2 := Real.sq_sqrt (by positivity)

/-- The polynomial of `distance_to_circle` at `t` is non-positive exactly where the ray is in the disk. -/
theorem circle_poly (center : V2) (radius : ℝ) (hr : 0 < radius) (w : V2) (t : ℝ) :
    InDisk center radius (along (0, 0) w t) ↔ norm2 (w.1 / radius, w.2 / radius) ^ 2 * t ^ 2 + -2 * dot center (w.1 / radius ^ 2, w.2 / radius ^ 2) * t +
      (norm2 (center.1 / radius, center.2 / radius) ^ 2 - 1) ≤ 0 := by
  unfold InDisk dist2 along dot
  rw [norm2_sq, norm2_sq, Real.sqrt_le_left hr.le]
  have h2 : (0 : ℝ) < radius ^ 2 := by positivity
  have : ((w.1 / radius) ^ 2 + (w.2 / radius) ^ 2) * t ^ 2 + -2 * (center.1 * (w.1 / radius ^ 2) + center.2 * (w.2 / radius ^ 2)) * t +
      ((center.1 / radius) ^ 2 + (center.2 / radius) ^ 2 - 1) = ((t * w.1 - center.1) ^ 2 + (t * w.2 - center.2) ^ 2 - radius ^ 2) / radius ^ 2 := by
    field_simp
    ring
  dsimp only
  rw [this, div_nonpos_iff]
  constructor
  · intro h
    exact .inr ⟨by simpa using h, h2.le⟩
  · rintro (h | h)
    · linarith [h.2]
    · simpa using h.1

/-- The sign of a polynomial of degree 2 between and outside the roots. -/
theorem trinom_spec (a b c : ℝ) (ha : 0 < a) : match solveTrinom a b c with
    | some (x, y) => x ≤ y ∧ ∀ t, a * t ^ 2 + b * t + c ≤ 0 ↔ x ≤ t ∧ t ≤ y
    | none => ∀ t, 0 < a * t ^ 2 + b * t + c := by
  unfold solveTrinom
  by_cases h : 0 ≤ b ^ 2 - 4 * a * c
  · simp only [if_pos h]
    have hs := Real.sq_sqrt h
    have hn := Real.sqrt_nonneg (b ^ 2 - 4 * a * c)
    set s := Real.sqrt (b ^ 2 - 4 * a * c)
    refine ⟨by gcongr; linarith, fun t => ?_⟩
    rw [div_le_iff₀ (by positivity), le_div_iff₀ (by positivity)]
    have e : 4 * a * (a * t ^ 2 + b * t + c) = (2 * a * t + b) ^ 2 - s ^ 2 := by rw [hs]; ring
    constructor
    · intro ht
      have h1 : (2 * a * t + b) ^ 2 ≤ s ^ 2 := by nlinarith
      have := abs_le_of_sq_le_sq' h1 hn
      constructor <;> linarith [this.1, this.2]
    · rintro ⟨h1, h2⟩
      have h3 : (2 * a * t + b) ^ 2 ≤ s ^ 2 := by nlinarith
      have h4 : 4 * a * (a * t ^ 2 + b * t + c) ≤ 0 := by linarith
      by_contra hc
      have : 0 < 4 * a * (a * t ^ 2 + b * t + c) := by
        have := not_le.1 hc
        positivity
      linarith
  · simp only [if_neg h]
    intro t
    have : 0 < 4 * a * (a * t ^ 2 + b * t + c) := by nlinarith [sq_nonneg (2 * a * t + b)]
    by_contra hc
    nlinarith [not_lt.1 hc]

/-- **C105.** `distance_to_circle`: infinity if the ray is not in the disk at any positive time; 0 if the start is in the disk; otherwise the first time at which the ray
is in the disk. -/
theorem C105_circle_partial (center : V2) (radius : ℝ) (hr : 0 < radius) (w : V2) (hw : w ≠ (0, 0)) :
    match distanceToCircle center radius w with
    | none => ∀ t, 0 < t → ¬ InDisk center radius (along (0, 0) w t)
    | some t => 0 ≤ t ∧ InDisk center radius (along (0, 0) w t) ∧ ∀ s, 0 ≤ s → s < t → ¬ InDisk center radius (along (0, 0) w s) := by
  have ha : 0 < norm2 (w.1 / radius, w.2 / radius) ^ 2 := by
    rw [norm2_sq]
    by_contra hc
    have h1 : (w.1 / radius) ^ 2 = 0 := by nlinarith [sq_nonneg (w.1 / radius), sq_nonneg (w.2 / radius)]
    have h2 : (w.2 / radius) ^ 2 = 0 := by nlinarith [sq_nonneg (w.1 / radius), sq_nonneg (w.2 / radius)]
    have h3 := (div_eq_zero_iff.1 (pow_eq_zero_iff (two_ne_zero)|>.1 h1)).resolve_right hr.ne'
    have h4 := (div_eq_zero_iff.1 (pow_eq_zero_iff (two_ne_zero)|>.1 h2)).resolve_right hr.ne'
    exact hw (Prod.ext h3 h4)
  have key := trinom_spec _ (-2 * dot center (w.1 / radius ^ 2, w.2 / radius ^ 2)) (norm2 (center.1 / radius, center.2 / radius) ^ 2 - 1) ha
  unfold distanceToCircle
  simp only [circle_poly center radius hr w]
  cases hS : solveTrinom (norm2 (w.1 / radius, w.2 / radius) ^ 2) (-2 * dot center (w.1 / radius ^ 2, w.2 / radius ^ 2))
      (norm2 (center.1 / radius, center.2 / radius) ^ 2 - 1) with
  | none =>
    rw [hS] at key
    intro t _
    exact not_le.2 (key t)
  | some p =>
    obtain ⟨x, y⟩ := p
    rw [hS] at key
    obtain ⟨hxy, key⟩ := key
    simp only [key]
    by_cases h1 : x ≠ 0 ∧ 0 < x
    · rw [if_pos h1]
      exact ⟨h1.2.le, ⟨le_refl _, hxy⟩, fun s _ hs h => absurd h.1 (not_le.2 hs)⟩
    · rw [if_neg h1]
      have hx : x ≤ 0 := by
        by_contra hc
        exact h1 ⟨(not_le.1 hc).ne', not_le.1 hc⟩
      by_cases h2 : y ≠ 0 ∧ 0 < y
      · rw [if_pos h2]
        exact ⟨le_refl _, ⟨hx, h2.2.le⟩, fun s h0 hs => absurd h0 (not_le.2 hs)⟩
      · rw [if_neg h2]
        intro t ht h
        exact h2 ⟨(lt_of_lt_of_le ht h.2).ne', lt_of_lt_of_le ht h.2⟩

/-! ### Rectangles -/

/-- The forms of the intervals of times: bounds, all times, no times. -/
def Kind (lo hi : Fl) (S : ℝ → Prop) : Prop :=
  (∃ l h : ℝ, l ≤ h ∧ lo = some (l : EReal) ∧ hi = some (h : EReal) ∧ ∀ t, S t ↔ l ≤ t ∧ t ≤ h) ∨
  (lo = some ⊥ ∧ hi = some ⊤ ∧ ∀ t, S t) ∨ (lo = some ⊤ ∧ hi = some ⊤ ∧ ∀ t, ¬ S t) ∨ (lo = some ⊥ ∧ hi = some ⊥ ∧ ∀ t, ¬ S t)

theorem fdiv_scale (x y k : ℝ) (hk : 0 < k) : fdiv (x / k) (y / k) = fdiv x y := by
  unfold fdiv
  have h1 : y / k = 0 ↔ y = 0 := by rw [div_eq_zero_iff]; simp [hk.ne']
  have h2 : x / k = 0 ↔ x = 0 := by rw [div_eq_zero_iff]; simp [hk.ne']
  have h3 : 0 < x / k ↔ 0 < x := div_pos_iff_of_pos_right hk
  simp only [h1, h2, h3]
  rw [div_div_div_cancel_right₀ hk.ne']

/-- The times at which a strip is met. -/
theorem strip_kind (α β m : ℝ) (hαβ : α < β) (hm : m = 0 → α ≠ 0 ∧ β ≠ 0) :
    Kind (if 0 ≤ m then (fdiv α m, fdiv β m) else (fdiv β m, fdiv α m)).1 (if 0 ≤ m then (fdiv α m, fdiv β m) else (fdiv β m, fdiv α m)).2
      (fun t => α ≤ t * m ∧ t * m ≤ β) := by
  rcases lt_trichotomy m 0 with h | h | h
  · rw [if_neg (not_le.2 h)]
    refine .inl ⟨β / m, α / m, ?_, ?_, ?_, fun t => ?_⟩
    · rw [div_le_div_right_of_neg h]; exact hαβ.le
    · simp [fdiv, h.ne]
    · simp [fdiv, h.ne]
    · rw [div_le_iff_of_neg h, le_div_iff_of_neg h]
      exact and_comm
  · subst h
    obtain ⟨h1, h2⟩ := hm rfl
    rw [if_pos (le_refl _)]
    simp only [fdiv, if_true, if_neg h1, if_neg h2, mul_zero]
    rcases lt_or_gt_of_ne h1 with h3 | h3
    · rw [if_neg (not_lt.2 h3.le)]
      rcases lt_or_gt_of_ne h2 with h4 | h4
      · rw [if_neg (not_lt.2 h4.le)]
        exact .inr (.inr (.inr ⟨rfl, rfl, fun t h => absurd h.2 (not_le.2 h4)⟩))
      · rw [if_pos h4]
        exact .inr (.inl ⟨rfl, rfl, fun t => ⟨h3.le, h4.le⟩⟩)
    · rw [if_pos h3, if_pos (h3.trans hαβ)]
      exact .inr (.inr (.inl ⟨rfl, rfl, fun t h => absurd h.1 (not_le.2 h3)⟩))
  · rw [if_pos h.le]
    refine .inl ⟨α / m, β / m, ?_, ?_, ?_, fun t => ?_⟩
    · gcongr
    · simp [fdiv, h.ne']
    · simp [fdiv, h.ne']
    · rw [div_le_iff₀ h, le_div_iff₀ h]

theorem flt_some (a b : EReal) : FLt (some a) (some b) ↔ a < b := by
  constructor
  · rintro ⟨x, y, h1, h2, h⟩
    cases h1; cases h2; exact h
  · exact fun h => ⟨a, b, rfl, rfl, h⟩

theorem fnonpos_some (a : EReal) : FNonpos (some a) ↔ a ≤ 0 := by
  constructor
  · rintro ⟨x, h1, h⟩
    cases h1; exact h
  · exact fun h => ⟨a, rfl, h⟩

theorem fsub_real (a b : ℝ) : fsub (some (a : EReal)) (some (b : EReal)) = some ((a - b : ℝ) : EReal) := by
  unfold fsub
  simp

/-- Bounded intervals. -/
theorem fid_real (a b c d : ℝ) (h1 : a ≤ b) (h2 : c ≤ d) :
    FNonpos (fIntervalDistance (some (a : EReal)) (some (b : EReal)) (some (c : EReal)) (some (d : EReal))) ↔ c ≤ b ∧ a ≤ d := by
  unfold fIntervalDistance
  rw [flt_some, EReal.coe_lt_coe_iff]
  split_ifs with h
  · rw [fsub_real, fnonpos_some, EReal.coe_nonpos]
    constructor
    · intro h3; constructor <;> linarith
    · intro h3; linarith [h3.1]
  · rw [fsub_real, fnonpos_some, EReal.coe_nonpos]
    constructor
    · intro h3; constructor <;> linarith
    · intro h3; linarith [h3.2]

/-- Which intervals meet the segment. -/
theorem unit_kind (lo hi : Fl) (S : ℝ → Prop) (h : Kind lo hi S) :
    FNonpos (fIntervalDistance (some 0) (some 1) lo hi) ↔ ∃ t, 0 ≤ t ∧ t ≤ 1 ∧ S t := by
  rcases h with ⟨l, h, hlh, rfl, rfl, hS⟩ | ⟨rfl, rfl, hS⟩ | ⟨rfl, rfl, hS⟩ | ⟨rfl, rfl, hS⟩
  · rw [show (some (0 : EReal) : Fl) = some ((0 : ℝ) : EReal) from rfl, show (some (1 : EReal) : Fl) = some ((1 : ℝ) : EReal) from rfl,
      fid_real 0 1 l h zero_le_one hlh]
    constructor
    · rintro ⟨h1, h2⟩
      exact ⟨max 0 l, le_max_left _ _, max_le zero_le_one h1, (hS _).2 ⟨le_max_right _ _, max_le h2 hlh⟩⟩
    · rintro ⟨t, h1, h2, h3⟩
      have := (hS t).1 h3
      exact ⟨this.1.trans h2, h1.trans this.2⟩
  · refine iff_of_true ?_ ⟨0, le_refl _, zero_le_one, hS 0⟩
    unfold fIntervalDistance
    rw [flt_some, if_neg (by simp)]
    simp only [fsub]
    rw [if_neg (by simp), fnonpos_some]
    simp
  · refine iff_of_false ?_ (fun ⟨t, _, _, h⟩ => hS t h)
    unfold fIntervalDistance
    rw [flt_some, if_pos (by simp)]
    simp only [fsub]
    have : (⊤ : EReal) - 1 = ⊤ := EReal.top_sub_coe 1
    have h1 : (1 : EReal) ≠ ⊤ := EReal.coe_ne_top 1
    rw [if_neg (by simp [h1]), fnonpos_some, this]
    simp
  · refine iff_of_false ?_ (fun ⟨t, _, _, h⟩ => hS t h)
    unfold fIntervalDistance
    rw [flt_some, if_neg (by simp)]
    simp only [fsub]
    rw [if_neg (by simp), fnonpos_some]
    simp

theorem fmax_real (a b : ℝ) : fmax (some (a : EReal)) (some (b : EReal)) = some ((max a b : ℝ) : EReal) := by
  unfold fmax
  rw [flt_some, EReal.coe_lt_coe_iff]
  split_ifs with h
  · rw [max_eq_right h.le]
  · rw [max_eq_left (not_lt.1 h)]

open Classical in
/-- Two strips, one of them bounded: three intervals that meet each other have a common time. -/
theorem two_kinds (lo1 hi1 lo2 hi2 : Fl) (S1 S2 : ℝ → Prop) (h1 : Kind lo1 hi1 S1) (h2 : Kind lo2 hi2 S2) (hb : (∃ t, ¬ S1 t) ∨ ∃ t, ¬ S2 t) :
    if FNonpos (fIntervalDistance lo1 hi1 lo2 hi2) ∧ FNonpos (fIntervalDistance (some 0) (some 1) lo1 hi1) ∧ FNonpos (fIntervalDistance (some 0) (some 1) lo2 hi2) then
      ∃ t : ℝ, fmax lo1 lo2 = some (t : EReal) ∧ t ≤ 1 ∧ S1 t ∧ S2 t ∧ (∀ s < t, ¬ (S1 s ∧ S2 s)) ∧ (t < 0 → S1 0 ∧ S2 0)
    else ∀ t, 0 ≤ t → t ≤ 1 → ¬ (S1 t ∧ S2 t) := by
  rw [unit_kind _ _ _ h1, unit_kind _ _ _ h2]
  by_cases hu : (∃ t, 0 ≤ t ∧ t ≤ 1 ∧ S1 t) ∧ ∃ t, 0 ≤ t ∧ t ≤ 1 ∧ S2 t
  · have hu' := hu
    obtain ⟨⟨t1, a1, b1, c1⟩, t2, a2, b2, c2⟩ := hu
    rcases h1 with ⟨l, h, hlh, rfl, rfl, hS⟩ | ⟨rfl, rfl, hS⟩ | ⟨rfl, rfl, hS⟩ | ⟨rfl, rfl, hS⟩
    · rcases h2 with ⟨l', h', hlh', rfl, rfl, hS'⟩ | ⟨rfl, rfl, hS'⟩ | ⟨rfl, rfl, hS'⟩ | ⟨rfl, rfl, hS'⟩
      · rw [fid_real l h l' h' hlh hlh']
        have r1 := (hS t1).1 c1
        have r2 := (hS' t2).1 c2
        split_ifs with hc
        · obtain ⟨⟨g1, g2⟩, _⟩ := hc
          refine ⟨max l l', fmax_real l l', max_le (r1.1.trans b1) (r2.1.trans b2), (hS _).2 ⟨le_max_left _ _, max_le hlh g1⟩,
            (hS' _).2 ⟨le_max_right _ _, max_le g2 hlh'⟩, ?_, ?_⟩
          · rintro s hs ⟨k1, k2⟩
            rcases lt_max_iff.1 hs with h3 | h3
            · exact absurd ((hS s).1 k1).1 (not_le.2 h3)
            · exact absurd ((hS' s).1 k2).1 (not_le.2 h3)
          · intro hneg
            rw [max_lt_iff] at hneg
            exact ⟨(hS 0).2 ⟨hneg.1.le, a1.trans r1.2⟩, (hS' 0).2 ⟨hneg.2.le, a2.trans r2.2⟩⟩
        · rintro t _ _ ⟨k1, k2⟩
          have k1 := (hS t).1 k1
          have k2 := (hS' t).1 k2
          exact hc ⟨⟨k2.1.trans k1.2, k1.1.trans k2.2⟩, hu'⟩
      · have hd : FNonpos (fIntervalDistance (some (l : EReal)) (some (h : EReal)) (some ⊥) (some ⊤)) := by
          unfold fIntervalDistance
          rw [flt_some, if_neg (by simp)]
          simp only [fsub]
          rw [if_neg (by simp), fnonpos_some]
          simp
        rw [if_pos ⟨hd, hu'⟩]
        have hm : fmax (some (l : EReal)) (some ⊥) = some (l : EReal) := by
          unfold fmax
          rw [flt_some, if_neg (by simp)]
        have r1 := (hS t1).1 c1
        exact ⟨l, hm, r1.1.trans b1, (hS l).2 ⟨le_refl _, hlh⟩, hS' l, fun s hs k => absurd ((hS s).1 k.1).1 (not_le.2 hs),
          fun hneg => ⟨(hS 0).2 ⟨hneg.le, a1.trans r1.2⟩, hS' 0⟩⟩
      · exact absurd c2 (hS' t2)
      · exact absurd c2 (hS' t2)
    · rcases h2 with ⟨l', h', hlh', rfl, rfl, hS'⟩ | ⟨rfl, rfl, hS'⟩ | ⟨rfl, rfl, hS'⟩ | ⟨rfl, rfl, hS'⟩
      · have hd : FNonpos (fIntervalDistance (some ⊥) (some ⊤) (some (l' : EReal)) (some (h' : EReal))) := by
          unfold fIntervalDistance
          rw [flt_some, if_pos (by simp)]
          simp only [fsub]
          rw [if_neg (by simp), fnonpos_some]
          simp
        rw [if_pos ⟨hd, hu'⟩]
        have hm : fmax (some ⊥) (some (l' : EReal)) = some (l' : EReal) := by
          unfold fmax
          rw [flt_some, if_pos (by simp)]
        have r2 := (hS' t2).1 c2
        exact ⟨l', hm, r2.1.trans b2, hS l', (hS' l').2 ⟨le_refl _, hlh'⟩, fun s hs k => absurd ((hS' s).1 k.2).1 (not_le.2 hs),
          fun hneg => ⟨hS 0, (hS' 0).2 ⟨hneg.le, a2.trans r2.2⟩⟩⟩
      · rcases hb with ⟨t, ht⟩ | ⟨t, ht⟩
        · exact absurd (hS t) ht
        · exact absurd (hS' t) ht
      · exact absurd c2 (hS' t2)
      · exact absurd c2 (hS' t2)
    · exact absurd c1 (hS t1)
    · exact absurd c1 (hS t1)
  · rw [if_neg (fun h => hu h.2)]
    exact fun t a1 b1 c => hu ⟨⟨t, a1, b1, c.1⟩, t, a1, b1, c.2⟩

theorem norm2_pos (v : V2) (h : v ≠ (0, 0)) : 0 < norm2 v := by
  unfold norm2
  apply Real.sqrt_pos.2
  by_contra hc
  have h1 : v.1 ^ 2 = 0 := by nlinarith [sq_nonneg v.1, sq_nonneg v.2]
  have h2 : v.2 ^ 2 = 0 := by nlinarith [sq_nonneg v.1, sq_nonneg v.2]
  exact h (Prod.ext (pow_eq_zero_iff two_ne_zero |>.1 h1) (pow_eq_zero_iff two_ne_zero |>.1 h2))

theorem dot_div (w u : V2) (k : ℝ) : dot w (u.1 / k, u.2 / k) = dot w u / k := by
  unfold dot
  ring

theorem dot_self_pos (v : V2) (h : v ≠ (0, 0)) : 0 < dot v v := by
  have := norm2_pos v h
  have h2 := norm2_sq v
  have : 0 < norm2 v ^ 2 := by positivity
  unfold dot
  nlinarith

/-- The strip of one side. -/
theorem side_kind (r q a b : V2) (hba : b - a ≠ (0, 0)) (hm : dot (q - r) (b - a) = 0 → dot (a - r) (b - a) ≠ 0 ∧ dot (b - r) (b - a) ≠ 0) :
    Kind (sideInterval r q a b).1 (sideInterval r q a b).2
      (fun t => dot (a - r) (b - a) ≤ t * dot (q - r) (b - a) ∧ t * dot (q - r) (b - a) ≤ dot (b - r) (b - a)) := by
  have hn := norm2_pos _ hba
  have hs : ∀ x : ℝ, 0 ≤ x / norm2 (b - a) ↔ 0 ≤ x := fun x => by rw [le_div_iff₀ hn, zero_mul]
  unfold sideInterval
  simp only [dot_div, fdiv_scale _ _ _ hn, hs]
  refine strip_kind _ _ _ ?_ hm
  have := dot_self_pos _ hba
  unfold dot at this ⊢
  simp only [Prod.fst_sub, Prod.snd_sub] at this ⊢
  nlinarith

/-- A point of the plane is in the rectangle if it is in both strips. -/
theorem in_rect_iff (a b d p : V2) (h : IsRect a b d) :
    InRect a b d p ↔ (0 ≤ dot (p - a) (b - a) ∧ dot (p - a) (b - a) ≤ dot (b - a) (b - a)) ∧ (0 ≤ dot (p - a) (d - a) ∧ dot (p - a) (d - a) ≤ dot (d - a) (d - a)) := by
  obtain ⟨hb, hd, ho⟩ := h
  have hU := dot_self_pos (b - a) (fun h => hb (sub_eq_zero.1 h))
  have hV := dot_self_pos (d - a) (fun h => hd (sub_eq_zero.1 h))
  constructor
  · rintro ⟨s, t, s0, s1, t0, t1, rfl⟩
    have e1 : dot ((a.1 + s * (b.1 - a.1) + t * (d.1 - a.1), a.2 + s * (b.2 - a.2) + t * (d.2 - a.2)) - a) (b - a) = s * dot (b - a) (b - a) := by
      unfold dot
      simp only [Prod.fst_sub, Prod.snd_sub]
      linear_combination t * ho
    have e2 : dot ((a.1 + s * (b.1 - a.1) + t * (d.1 - a.1), a.2 + s * (b.2 - a.2) + t * (d.2 - a.2)) - a) (d - a) = t * dot (d - a) (d - a) := by
      unfold dot
      simp only [Prod.fst_sub, Prod.snd_sub]
      linear_combination s * ho
    rw [e1, e2]
    exact ⟨⟨by positivity, by nlinarith⟩, by positivity, by nlinarith⟩
  · rintro ⟨⟨h1, h2⟩, h3, h4⟩
    refine ⟨dot (p - a) (b - a) / dot (b - a) (b - a), dot (p - a) (d - a) / dot (d - a) (d - a), by positivity, (div_le_one hU).2 h2, by positivity,
      (div_le_one hV).2 h4, ?_⟩
    unfold dot at hU hV ⊢
    simp only [Prod.fst_sub, Prod.snd_sub] at hU hV ⊢
    generalize hu1 : b.1 - a.1 = u1 at *
    generalize hu2 : b.2 - a.2 = u2 at *
    generalize hv1 : d.1 - a.1 = v1 at *
    generalize hv2 : d.2 - a.2 = v2 at *
    have hD : (u1 * v2 - u2 * v1) ^ 2 = (u1 * u1 + u2 * u2) * (v1 * v1 + v2 * v2) := by linear_combination -(u1 * v1 + u2 * v2) * ho
    have hD0 : u1 * v2 - u2 * v1 ≠ 0 := by
      intro h0
      rw [h0] at hD
      nlinarith [mul_pos hU hV]
    -- both sides have the same products with the two sides
    have key : ∀ x y : ℝ, x * u1 + y * u2 = 0 → x * v1 + y * v2 = 0 → x = 0 ∧ y = 0 := by
      intro x y e1 e2
      constructor
      · have : x * (u1 * v2 - u2 * v1) = 0 := by linear_combination v2 * e1 - u2 * e2
        exact (mul_eq_zero.1 this).resolve_right hD0
      · have : y * (u1 * v2 - u2 * v1) = 0 := by linear_combination -v1 * e1 + u1 * e2
        exact (mul_eq_zero.1 this).resolve_right hD0
    set A := ((p.1 - a.1) * u1 + (p.2 - a.2) * u2) / (u1 * u1 + u2 * u2) with hA
    set B := ((p.1 - a.1) * v1 + (p.2 - a.2) * v2) / (v1 * v1 + v2 * v2) with hB
    have eA : A * (u1 * u1 + u2 * u2) = (p.1 - a.1) * u1 + (p.2 - a.2) * u2 := div_mul_cancel₀ _ hU.ne'
    have eB : B * (v1 * v1 + v2 * v2) = (p.1 - a.1) * v1 + (p.2 - a.2) * v2 := div_mul_cancel₀ _ hV.ne'
    obtain ⟨k1, k2⟩ := key (p.1 - (a.1 + A * u1 + B * v1)) (p.2 - (a.2 + A * u2 + B * v2))
      (by linear_combination -eA - B * ho) (by linear_combination -eB - A * ho)
    exact Prod.ext (by linarith) (by linarith)

/-- The segment does not run along the line of a side. -/
def NotAlong (r q a b d : V2) : Prop :=
  (dot (q - r) (b - a) = 0 → dot (a - r) (b - a) ≠ 0 ∧ dot (b - r) (b - a) ≠ 0) ∧ (dot (q - r) (d - a) = 0 → dot (a - r) (d - a) ≠ 0 ∧ dot (d - r) (d - a) ≠ 0)

/-- The result in terms of the times at which the line is in the rectangle. -/
theorem rect_result (r q a b d : V2) (h : IsRect a b d) (hqr : q ≠ r) (hna : NotAlong r q a b d) :
    match distanceToRect r q a b d with
    | .inf => ∀ t, 0 ≤ t → t ≤ 1 → ¬ InRect a b d (along r (q - r) t)
    | .scaled x len => len = norm2 (q - r) ∧ ∃ t : ℝ, x = some (t : EReal) ∧ t ≤ 1 ∧ InRect a b d (along r (q - r) t) ∧
        (∀ s < t, ¬ InRect a b d (along r (q - r) s)) ∧ (t < 0 → InRect a b d (along r (q - r) 0)) := by
  have hb : b - a ≠ (0, 0) := fun e => h.1 (sub_eq_zero.1 e)
  have hd : d - a ≠ (0, 0) := fun e => h.2.1 (sub_eq_zero.1 e)
  have hIn : ∀ t, InRect a b d (along r (q - r) t) ↔
      (dot (a - r) (b - a) ≤ t * dot (q - r) (b - a) ∧ t * dot (q - r) (b - a) ≤ dot (b - r) (b - a)) ∧
      (dot (a - r) (d - a) ≤ t * dot (q - r) (d - a) ∧ t * dot (q - r) (d - a) ≤ dot (d - r) (d - a)) := by
    intro t
    rw [in_rect_iff a b d _ h]
    have e1 : ∀ u : V2, dot (along r (q - r) t - a) u = t * dot (q - r) u - dot (a - r) u := by
      intro u
      unfold dot along
      simp only [Prod.fst_sub, Prod.snd_sub]
      ring
    have e2 : ∀ c u : V2, dot (c - a) u = dot (c - r) u - dot (a - r) u := by
      intro c u
      unfold dot
      simp only [Prod.fst_sub, Prod.snd_sub]
      ring
    rw [e1, e1, e2 b, e2 d]
    constructor
    · rintro ⟨⟨h1, h2⟩, h3, h4⟩
      exact ⟨⟨by linarith, by linarith⟩, by linarith, by linarith⟩
    · rintro ⟨⟨h1, h2⟩, h3, h4⟩
      exact ⟨⟨by linarith, by linarith⟩, by linarith, by linarith⟩
  have k1 := side_kind r q a b hb hna.1
  have k2 := side_kind r q a d hd hna.2
  have hout : (∃ t, ¬ (dot (a - r) (b - a) ≤ t * dot (q - r) (b - a) ∧ t * dot (q - r) (b - a) ≤ dot (b - r) (b - a))) ∨
      ∃ t, ¬ (dot (a - r) (d - a) ≤ t * dot (q - r) (d - a) ∧ t * dot (q - r) (d - a) ≤ dot (d - r) (d - a)) := by
    by_contra hc
    rw [not_or] at hc
    simp only [not_exists, not_not] at hc
    have big : ∀ m β : ℝ, (∀ t : ℝ, t * m ≤ β) → m = 0 := by
      intro m β hm
      by_contra h0
      have := hm ((β + 1) / m)
      rw [div_mul_cancel₀ _ h0] at this
      linarith
    have m1 := big _ _ (fun t => (hc.1 t).2)
    have m2 := big _ _ (fun t => (hc.2 t).2)
    obtain ⟨_, _, ho⟩ := h
    apply hqr
    have hU := dot_self_pos _ hb
    have hV := dot_self_pos _ hd
    unfold dot at m1 m2 hU hV
    simp only [Prod.fst_sub, Prod.snd_sub] at m1 m2 hU hV
    generalize b.1 - a.1 = u1 at *
    generalize b.2 - a.2 = u2 at *
    generalize d.1 - a.1 = v1 at *
    generalize d.2 - a.2 = v2 at *
    have hD : (u1 * v2 - u2 * v1) ^ 2 = (u1 * u1 + u2 * u2) * (v1 * v1 + v2 * v2) := by linear_combination -(u1 * v1 + u2 * v2) * ho
    have hD0 : u1 * v2 - u2 * v1 ≠ 0 := by
      intro h0
      rw [h0] at hD
      nlinarith [mul_pos hU hV]
    have e1 : (q.1 - r.1) * (u1 * v2 - u2 * v1) = 0 := by linear_combination v2 * m1 - u2 * m2
    have e2 : (q.2 - r.2) * (u1 * v2 - u2 * v1) = 0 := by linear_combination -v1 * m1 + u1 * m2
    exact Prod.ext (sub_eq_zero.1 ((mul_eq_zero.1 e1).resolve_right hD0)) (sub_eq_zero.1 ((mul_eq_zero.1 e2).resolve_right hD0))
  have key := two_kinds _ _ _ _ _ _ k1 k2 hout
  unfold distanceToRect
  simp only [hIn]
  split_ifs at key with hc
  · simp only [if_pos hc]
    obtain ⟨t, h1, h2, h3, h4, h5, h6⟩ := key
    exact ⟨trivial, t, h1, h2, ⟨h3, h4⟩, h5, h6⟩
  · simp only [if_neg hc]
    exact key

/-- **C105.** `distance_to_rect` returns infinity exactly if the segment does not meet the rectangle. -/
theorem C105_rect_inf_partial (r q a b d : V2) (h : IsRect a b d) (hqr : q ≠ r) (hna : NotAlong r q a b d) :
    distanceToRect r q a b d = .inf ↔ ∀ t, 0 ≤ t → t ≤ 1 → ¬ InRect a b d (along r (q - r) t) := by
  have key := rect_result r q a b d h hqr hna
  constructor
  · intro e
    rw [e] at key
    exact key
  · intro hn
    cases e : distanceToRect r q a b d with
    | inf => rfl
    | scaled x len =>
      rw [e] at key
      obtain ⟨_, t, _, h1, h2, _, h4⟩ := key
      rcases lt_or_ge t 0 with h0 | h0
      · exact absurd (h4 h0) (hn 0 (le_refl _) zero_le_one)
      · exact absurd h2 (hn t h0 h1)

/-- **C105.** For a segment that starts outside, `distance_to_rect` returns the distance from the start to the first point in the rectangle. -/
theorem C105_rect_partial (r q a b d : V2) (h : IsRect a b d) (hqr : q ≠ r) (hna : NotAlong r q a b d) (hout : ¬ InRect a b d r) (x : Fl) (len : ℝ)
    (hres : distanceToRect r q a b d = .scaled x len) :
    ∃ t : ℝ, 0 ≤ t ∧ t ≤ 1 ∧ x = some (t : EReal) ∧ t * len = dist2 (along r (q - r) t) r ∧ InRect a b d (along r (q - r) t) ∧
      ∀ s, 0 ≤ s → s < t → ¬ InRect a b d (along r (q - r) s) := by
  have key := rect_result r q a b d h hqr hna
  rw [hres] at key
  obtain ⟨hl, t, h1, h2, h3, h4, h5⟩ := key
  have h0 : 0 ≤ t := by
    by_contra hc
    have := h5 (not_le.1 hc)
    have e : along r (q - r) 0 = r := by unfold along; simp
    rw [e] at this
    exact hout this
  refine ⟨t, h0, h2, h1, ?_, h3, fun s _ hs => h4 s hs⟩
  rw [hl]
  unfold norm2 dist2 along
  have : ∀ y z : ℝ, (r.1 + t * y - r.1) ^ 2 + (r.2 + t * z - r.2) ^ 2 = t ^ 2 * (y ^ 2 + z ^ 2) := by intro y z; ring
  dsimp only
  rw [this, Real.sqrt_mul (sq_nonneg t), Real.sqrt_sq h0]

/-- **C105.** `point_in_ellipse` for any angle: it decides about the ellipse that is rotated by the opposite angle. -/
theorem C105_ellipse_opposite (p center : V2) (length width c s : ℝ) (hcs : c ^ 2 + s ^ 2 = 1) :
    pointInEllipse p center length width c s ↔ InEllipse center length width c (-s) p := by
  unfold pointInEllipse InEllipse
  constructor
  · intro h
    refine ⟨_, _, h, Prod.ext ?_ ?_⟩
    · simp only; linear_combination (-(p.1 - center.1)) * hcs
    · simp only; linear_combination (-(p.2 - center.2)) * hcs
  · rintro ⟨x, y, h, rfl⟩
    have e1 : c * (center.1 + x * c - y * -s - center.1) - s * (center.2 + x * -s + y * c - center.2) = x := by linear_combination x * hcs
    have e2 : s * (center.1 + x * c - y * -s - center.1) + c * (center.2 + x * -s + y * c - center.2) = y := by linear_combination y * hcs
    simp only [e1, e2]
    exact h

/-- **C105.** `point_in_ellipse` for ellipses that are not rotated. -/
theorem C105_ellipse_partial (p center : V2) (length width : ℝ) : pointInEllipse p center length width 1 0 ↔ InEllipse center length width 1 0 p := by
  unfold pointInEllipse InEllipse
  constructor
  · intro h
    refine ⟨p.1 - center.1, p.2 - center.2, by simpa using h, Prod.ext (by simp) (by simp)⟩
  · rintro ⟨x, y, h, rfl⟩
    simpa using h

/-! ### Examples -/

namespace RayEx

/-- The square with the corners (0, 0) and (4, 4). -/
theorem square : IsRect (0, 0) (4, 0) (0, 4) := by refine ⟨by simp, by simp, by norm_num⟩

theorem not_along_out : NotAlong (-1, -1) (2, 5) (0, 0) (4, 0) (0, 4) := by
  unfold NotAlong dot
  norm_num

theorem in_square (p : V2) : InRect (0, 0) (4, 0) (0, 4) p ↔ (0 ≤ p.1 ∧ p.1 ≤ 4) ∧ (0 ≤ p.2 ∧ p.2 ≤ 4) := by
  rw [in_rect_iff _ _ _ _ square]
  unfold dot
  simp only [Prod.fst_sub, Prod.snd_sub]
  norm_num
  constructor <;> rintro ⟨⟨h1, h2⟩, h3, h4⟩ <;> exact ⟨⟨by linarith, by linarith⟩, by linarith, by linarith⟩

example : distanceToRect (-1, -1) (2, 5) (0, 0) (4, 0) (0, 4) ≠ .inf := by
  rw [Ne, C105_rect_inf_partial _ _ _ _ _ square (by norm_num) not_along_out]
  intro h
  refine h (1 / 2) (by norm_num) (by norm_num) ((in_square _).2 ?_)
  unfold along
  norm_num

example : ¬ InRect (0, 0) (4, 0) (0, 4) (-1, -1) := by
  rw [in_square]
  norm_num

/-- A circle in front: the first hit is at 2. -/
example : InDisk (3, 0) 1 (along (0, 0) (1, 0) 2) ∧ (0 : ℝ) < 1 ∧ ((1, 0) : V2) ≠ (0, 0) := by
  refine ⟨?_, by norm_num, by simp⟩
  unfold InDisk dist2 along
  norm_num

end RayEx

open RayEx in
/-- **A segment that starts inside has a negative distance**; and a segment along the line of a side does not meet the rectangle according to `distance_to_rect`. -/
theorem C105_rect_violated :
    (InRect (0, 0) (4, 0) (0, 4) (1, 1) ∧ ∃ t len : ℝ, distanceToRect (1, 1) (2, 3) (0, 0) (4, 0) (0, 4) = .scaled (some (t : EReal)) len ∧ t * len < 0) ∧
    InRect (0, 0) (4, 0) (0, 4) (1, 4) ∧ distanceToRect (-1, 4) (1, 4) (0, 0) (4, 0) (0, 4) = .inf := by
  refine ⟨⟨(in_square _).2 (by norm_num), ?_⟩, (in_square _).2 (by norm_num), ?_⟩
  · have hna : NotAlong (1, 1) (2, 3) (0, 0) (4, 0) (0, 4) := by unfold NotAlong dot; norm_num
    have hne : ((2, 3) : V2) ≠ (1, 1) := by simp
    have key := rect_result (1, 1) (2, 3) (0, 0) (4, 0) (0, 4) square hne hna
    have hin : ∀ t, InRect (0, 0) (4, 0) (0, 4) (along (1, 1) ((2, 3) - (1, 1)) t) ↔ (0 ≤ 1 + t ∧ 1 + t ≤ 4) ∧ (0 ≤ 1 + t * 2 ∧ 1 + t * 2 ≤ 4) := by
      intro t
      rw [in_square]
      unfold along
      norm_num
    cases e : distanceToRect (1, 1) (2, 3) (0, 0) (4, 0) (0, 4) with
    | inf =>
      rw [e] at key
      exact absurd ((hin 0).2 (by norm_num)) (key 0 (le_refl _) zero_le_one)
    | scaled x len =>
      rw [e] at key
      obtain ⟨hl, t, rfl, h2, h3, h4, h5⟩ := key
      refine ⟨t, len, rfl, ?_⟩
      have ht : t < 0 := by
        by_contra hc
        exact h4 (-(1 / 4)) (by linarith [not_lt.1 hc]) ((hin _).2 (by norm_num))
      have : 0 < len := by rw [hl]; exact norm2_pos _ (fun h => hne (sub_eq_zero.1 h))
      exact mul_neg_of_neg_of_pos ht this
  · have h4 : 0 < norm2 ((0, 4) - (0, 0)) := norm2_pos _ (by simp)
    have hn : (sideInterval (-1, 4) (1, 4) (0, 0) (0, 4)) = (some ⊥, none) := by
      unfold sideInterval
      simp only [dot_div]
      unfold dot
      have : ¬ 0 < (0 - 4 : ℝ) * 4 / norm2 ((0, 4) - (0, 0)) := not_lt.2 (div_nonpos_of_nonpos_of_nonneg (by norm_num) h4.le)
      have h5 : (0 - 4 : ℝ) * 4 / norm2 ((0, 4) - (0, 0)) ≠ 0 := div_ne_zero (by norm_num) h4.ne'
      unfold fdiv
      simp at this h5 ⊢
      simp [this, h5]
    unfold distanceToRect
    rw [if_neg]
    rintro ⟨h, _⟩
    unfold fIntervalDistance at h
    have hlt : ∀ x : Fl, ¬ FLt x (some ⊥) := by
      rintro x ⟨a, b, _, h, h'⟩
      cases h
      simp at h'
    rw [hn, if_neg (hlt _)] at h
    have e : ∀ x : Fl, fsub x none = none := by intro x; cases x <;> rfl
    rw [e] at h
    obtain ⟨a, h, _⟩ := h
    cases h

/-- **A rotated ellipse**: a point on the main axis is not found. -/
theorem C105_ellipse_violated : InEllipse (0, 0) 4 1 (4 / 5) (3 / 5) (8 / 5, 6 / 5) ∧ ¬ pointInEllipse (8 / 5, 6 / 5) (0, 0) 4 1 (4 / 5) (3 / 5) := by
  refine ⟨⟨2, 0, by norm_num, by norm_num⟩, ?_⟩
  unfold pointInEllipse
  norm_num

/-- **The result of `distance_to_circle` is no distance if the direction has not the length 1**; and on the circle the start is not seen. -/
theorem C105_circle_violated : distanceToCircle (3, 0) 1 (2, 0) = some 1 ∧ dist2 (along (0, 0) (2, 0) 1) (0, 0) = 2 ∧
    InDisk (1, 0) 1 (0, 0) ∧ distanceToCircle (1, 0) 1 (-1, 0) = none := by
  have e4 : (Real.sqrt 4) = 2 := by rw [show (4 : ℝ) = 2 ^ 2 by norm_num]; exact Real.sqrt_sq (by norm_num)
  refine ⟨?_, ?_, ?_, ?_⟩
  · have e : (Real.sqrt 16) = 4 := by rw [show (16 : ℝ) = 4 ^ 2 by norm_num]; exact Real.sqrt_sq (by norm_num)
    unfold distanceToCircle solveTrinom
    simp only [norm2_sq]
    unfold dot
    norm_num [e]
  · unfold dist2 along
    norm_num [e4]
  · unfold InDisk dist2
    norm_num
  · unfold distanceToCircle solveTrinom
    simp only [norm2_sq]
    unfold dot
    norm_num [e4]

end Verif.Props
