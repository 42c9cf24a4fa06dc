import Verif.Model.RangeError
import Verif.Proofs.Span
import Verif.Props.Angular
import Verif.Proofs.Lane

/-! Lemmas about the extreme values of sine and cosine over intervals of angles. -/

set_option autoImplicit false

namespace Verif.RangeErr
open Verif.Ang Verif.Lane Verif.Spec Real

theorem cos_turns (x : ℝ) (k : ℤ) : cos (x + 2 * π * k) = cos x := by
  rw [show x + 2 * π * (k : ℝ) = x + k * (2 * π) by ring]; exact cos_add_int_mul_two_pi x k

theorem sin_turns (x : ℝ) (k : ℤ) : sin (x + 2 * π * k) = sin x := by
  rw [show x + 2 * π * (k : ℝ) = x + k * (2 * π) by ring]; exact sin_add_int_mul_two_pi x k

/-- Without a full number of turns in the interval, the cosine is largest at one of its ends. -/
theorem cos_le_ends (lo hi x : ℝ) (h1 : lo ≤ x) (h2 : x ≤ hi) (hn : ¬ ∃ k : ℤ, lo ≤ 0 + 2 * π * k ∧ 0 + 2 * π * k ≤ hi) :
    cos x ≤ cos lo ∨ cos x ≤ cos hi := by
  have hp := pi_pos
  have hp2 : 0 < 2 * π := by linarith
  set m : ℤ := ⌊lo / (2 * π)⌋ with hm
  have f1 : (m : ℝ) * (2 * π) ≤ lo := by
    have := Int.floor_le (lo / (2 * π)); rw [le_div_iff₀ hp2] at this; exact this
  have f2 : lo < ((m : ℝ) + 1) * (2 * π) := by
    have := Int.lt_floor_add_one (lo / (2 * π)); rw [div_lt_iff₀ hp2] at this; exact this
  have f3 : hi < ((m : ℝ) + 1) * (2 * π) := by
    by_contra hc
    exact hn ⟨m + 1, by push_cast; linarith, by push_cast; linarith [not_lt.1 hc]⟩
  have ex := cos_turns x (-m)
  have el := cos_turns lo (-m)
  have eh := cos_turns hi (-m)
  push_cast at ex el eh
  rw [← ex, ← el, ← eh]
  by_cases hc : x + 2 * π * -(m : ℝ) ≤ π
  · left
    exact cos_le_cos_of_nonneg_of_le_pi (by linarith) hc (by linarith)
  · right
    rw [← cos_two_pi_sub (x + _), ← cos_two_pi_sub (hi + _)]
    exact cos_le_cos_of_nonneg_of_le_pi (by linarith) (by linarith [not_le.1 hc]) (by linarith)

/-- The candidates of an interval bound a function from above and from below. -/
def Brackets (f : ℝ → ℝ) (l : List ℝ) (x : ℝ) : Prop := (∃ c ∈ l, f x ≤ f c) ∧ ∃ c ∈ l, f c ≤ f x

/-- All candidates are in the interval, up to full turns. -/
def Inside (lo hi : ℝ) (l : List ℝ) : Prop := ∀ c ∈ l, ∃ k : ℤ, lo ≤ c + 2 * π * k ∧ c + 2 * π * k ≤ hi

theorem wrap_turns (x : ℝ) : ∃ k : ℤ, wrapAngle π x = x + 2 * π * k := (wrapAngle_isWrap π x pi_pos).1

theorem wrap_wrap (x : ℝ) : wrapAngle π (wrapAngle π x) = wrapAngle π x :=
  wrapAngle_eq π _ _ pi_pos ⟨⟨0, by simp⟩, (wrapAngle_isWrap π x pi_pos).2⟩

theorem inWrapped_iff (x lo hi : ℝ) (hle : lo ≤ hi) (hlt : hi - lo < 2 * π) :
    inWrapped π x (wrapAngle π lo) (wrapAngle π hi) = true ↔ ∃ k : ℤ, lo ≤ x + 2 * π * k ∧ x + 2 * π * k ≤ hi := by
  rw [← Verif.Props.C66_in_wrapped π pi_pos x lo hi hle hlt]
  unfold inWrapped
  simp only [wrap_wrap]

theorem mem_if {b : Bool} {a c : ℝ} : c ∈ (if b = true then [a] else []) ↔ b = true ∧ c = a := by
  cases b <;> simp

/-- Half a turn later the cosine is the negative one. -/
theorem cos_ge_ends (lo hi x : ℝ) (h1 : lo ≤ x) (h2 : x ≤ hi) (hn : ¬ ∃ k : ℤ, lo ≤ π + 2 * π * k ∧ π + 2 * π * k ≤ hi) :
    cos lo ≤ cos x ∨ cos hi ≤ cos x := by
  have := cos_le_ends (lo - π) (hi - π) (x - π) (by linarith) (by linarith)
    (fun ⟨k, a, b⟩ => hn ⟨k, by linarith, by linarith⟩)
  simp only [cos_sub_pi] at this
  rcases this with h | h
  · left; linarith
  · right; linarith

theorem sin_le_ends (lo hi x : ℝ) (h1 : lo ≤ x) (h2 : x ≤ hi) (hn : ¬ ∃ k : ℤ, lo ≤ π / 2 + 2 * π * k ∧ π / 2 + 2 * π * k ≤ hi) :
    sin x ≤ sin lo ∨ sin x ≤ sin hi := by
  have := cos_le_ends (lo - π / 2) (hi - π / 2) (x - π / 2) (by linarith) (by linarith)
    (fun ⟨k, a, b⟩ => hn ⟨k, by linarith, by linarith⟩)
  simpa only [cos_sub_pi_div_two] using this

theorem sin_ge_ends (lo hi x : ℝ) (h1 : lo ≤ x) (h2 : x ≤ hi) (hn : ¬ ∃ k : ℤ, lo ≤ -π / 2 + 2 * π * k ∧ -π / 2 + 2 * π * k ≤ hi) :
    sin lo ≤ sin x ∨ sin hi ≤ sin x := by
  have := cos_le_ends (lo + π / 2) (hi + π / 2) (x + π / 2) (by linarith) (by linarith)
    (fun ⟨k, a, b⟩ => hn ⟨k, by linarith, by linarith⟩)
  simp only [cos_add_pi_div_two] at this
  rcases this with h | h
  · left; linarith
  · right; linarith

theorem cos_wrap (x : ℝ) : cos (wrapAngle π x) = cos x := by
  obtain ⟨k, hk⟩ := wrap_turns x; rw [hk, cos_turns]

theorem sin_wrap (x : ℝ) : sin (wrapAngle π x) = sin x := by
  obtain ⟨k, hk⟩ := wrap_turns x; rw [hk, sin_turns]

/-- Candidates with the ends and, if they are in the interval, 0 and half a turn bound the cosine. -/
theorem brackets_cos (lo hi : ℝ) (hle : lo ≤ hi) (hlt : hi - lo < 2 * π) (l : List ℝ) (e1 : wrapAngle π lo ∈ l) (e2 : wrapAngle π hi ∈ l)
    (e3 : inWrapped π 0 (wrapAngle π lo) (wrapAngle π hi) = true → 0 ∈ l) (e4 : inWrapped π π (wrapAngle π lo) (wrapAngle π hi) = true → π ∈ l)
    (x : ℝ) (h1 : lo ≤ x) (h2 : x ≤ hi) : Brackets cos l x := by
  constructor
  · by_cases hc : ∃ k : ℤ, lo ≤ 0 + 2 * π * k ∧ 0 + 2 * π * k ≤ hi
    · exact ⟨0, e3 ((inWrapped_iff 0 lo hi hle hlt).2 hc), by rw [cos_zero]; exact cos_le_one x⟩
    · rcases cos_le_ends lo hi x h1 h2 hc with h | h
      · exact ⟨_, e1, by rwa [cos_wrap]⟩
      · exact ⟨_, e2, by rwa [cos_wrap]⟩
  · by_cases hc : ∃ k : ℤ, lo ≤ π + 2 * π * k ∧ π + 2 * π * k ≤ hi
    · exact ⟨π, e4 ((inWrapped_iff π lo hi hle hlt).2 hc), by rw [cos_pi]; exact neg_one_le_cos x⟩
    · rcases cos_ge_ends lo hi x h1 h2 hc with h | h
      · exact ⟨_, e1, by rwa [cos_wrap]⟩
      · exact ⟨_, e2, by rwa [cos_wrap]⟩

/-- Candidates with the ends and, if they are in the interval, the two quarters of a turn bound the sine. -/
theorem brackets_sin (lo hi : ℝ) (hle : lo ≤ hi) (hlt : hi - lo < 2 * π) (l : List ℝ) (e1 : wrapAngle π lo ∈ l) (e2 : wrapAngle π hi ∈ l)
    (e3 : inWrapped π (π / 2) (wrapAngle π lo) (wrapAngle π hi) = true → π / 2 ∈ l)
    (e4 : inWrapped π (-π / 2) (wrapAngle π lo) (wrapAngle π hi) = true → -π / 2 ∈ l)
    (x : ℝ) (h1 : lo ≤ x) (h2 : x ≤ hi) : Brackets sin l x := by
  constructor
  · by_cases hc : ∃ k : ℤ, lo ≤ π / 2 + 2 * π * k ∧ π / 2 + 2 * π * k ≤ hi
    · exact ⟨π / 2, e3 ((inWrapped_iff _ lo hi hle hlt).2 hc), by rw [sin_pi_div_two]; exact sin_le_one x⟩
    · rcases sin_le_ends lo hi x h1 h2 hc with h | h
      · exact ⟨_, e1, by rwa [sin_wrap]⟩
      · exact ⟨_, e2, by rwa [sin_wrap]⟩
  · by_cases hc : ∃ k : ℤ, lo ≤ -π / 2 + 2 * π * k ∧ -π / 2 + 2 * π * k ≤ hi
    · refine ⟨-π / 2, e4 ((inWrapped_iff _ lo hi hle hlt).2 hc), ?_⟩
      rw [show -π / 2 = -(π / 2) by ring, sin_neg, sin_pi_div_two]; exact neg_one_le_sin x
    · rcases sin_ge_ends lo hi x h1 h2 hc with h | h
      · exact ⟨_, e1, by rwa [sin_wrap]⟩
      · exact ⟨_, e2, by rwa [sin_wrap]⟩

/-- The ends and the special angles are inside. -/
theorem inside_end_lo (lo hi : ℝ) (hle : lo ≤ hi) : ∃ k : ℤ, lo ≤ wrapAngle π lo + 2 * π * k ∧ wrapAngle π lo + 2 * π * k ≤ hi := by
  obtain ⟨k, hk⟩ := wrap_turns lo
  exact ⟨-k, by rw [hk]; push_cast; linarith, by rw [hk]; push_cast; linarith⟩

theorem inside_end_hi (lo hi : ℝ) (hle : lo ≤ hi) : ∃ k : ℤ, lo ≤ wrapAngle π hi + 2 * π * k ∧ wrapAngle π hi + 2 * π * k ≤ hi := by
  obtain ⟨k, hk⟩ := wrap_turns hi
  exact ⟨-k, by rw [hk]; push_cast; linarith, by rw [hk]; push_cast; linarith⟩

theorem psi_inside (psi eps : ℝ) (h0 : 0 ≤ eps) (h1 : eps < π) (axis : Axis) : Inside (psi - eps) (psi + eps) (psiCandidates psi eps axis) := by
  intro c hc
  have hle : psi - eps ≤ psi + eps := by linarith
  have hlt : psi + eps - (psi - eps) < 2 * π := by linarith
  cases axis <;> simp only [psiCandidates, List.mem_append, List.mem_cons, List.not_mem_nil, or_false, mem_if] at hc <;>
    rcases hc with ((rfl | rfl) | ⟨hi, rfl⟩) | ⟨hi, rfl⟩
  all_goals first
    | exact inside_end_lo _ _ hle
    | exact inside_end_hi _ _ hle
    | exact (inWrapped_iff _ _ _ hle hlt).1 hi

theorem theta_inside (theta eps : ℝ) (h0 : 0 ≤ eps) (h1 : eps < π) (axis : Axis) (hz : axis ≠ .z) :
    Inside (theta - eps) (theta + eps) (thetaCandidates theta eps axis) := by
  intro c hc
  have hle : theta - eps ≤ theta + eps := by linarith
  have hlt : theta + eps - (theta - eps) < 2 * π := by linarith
  cases axis with
  | x =>
    simp only [thetaCandidates, List.mem_append, List.mem_cons, List.not_mem_nil, or_false, mem_if] at hc
    rcases hc with ((((rfl | rfl) | ⟨hi, rfl⟩) | ⟨hi, rfl⟩) | ⟨hi, rfl⟩) | ⟨hi, rfl⟩
    all_goals first
      | exact inside_end_lo _ _ hle
      | exact inside_end_hi _ _ hle
      | exact (inWrapped_iff _ _ _ hle hlt).1 hi
  | y =>
    simp only [thetaCandidates, List.mem_append, List.mem_cons, List.not_mem_nil, or_false, mem_if] at hc
    rcases hc with ((rfl | rfl) | ⟨hi, rfl⟩) | ⟨hi, rfl⟩
    all_goals first
      | exact inside_end_lo _ _ hle
      | exact inside_end_hi _ _ hle
      | exact (inWrapped_iff _ _ _ hle hlt).1 hi
  | z => exact absurd rfl hz

/-- A product is between products of values around its factors. -/
theorem product_brackets (A B : List ℝ) (a b : ℝ) (ha : (∃ c ∈ A, a ≤ c) ∧ ∃ c ∈ A, c ≤ a) (hb : (∃ c ∈ B, b ≤ c) ∧ ∃ c ∈ B, c ≤ b) :
    (∃ c ∈ A, ∃ d ∈ B, a * b ≤ c * d) ∧ ∃ c ∈ A, ∃ d ∈ B, c * d ≤ a * b := by
  obtain ⟨⟨a2, ha2, la2⟩, a1, ha1, la1⟩ := ha
  obtain ⟨⟨b2, hb2, lb2⟩, b1, hb1, lb1⟩ := hb
  have up : ∀ c : ℝ, (∃ d ∈ B, c * b ≤ c * d) ∧ ∃ d ∈ B, c * d ≤ c * b := by
    intro c
    rcases le_total 0 c with h | h
    · exact ⟨⟨b2, hb2, mul_le_mul_of_nonneg_left lb2 h⟩, b1, hb1, mul_le_mul_of_nonneg_left lb1 h⟩
    · exact ⟨⟨b1, hb1, mul_le_mul_of_nonpos_left lb1 h⟩, b2, hb2, mul_le_mul_of_nonpos_left lb2 h⟩
  rcases le_total 0 b with h | h
  · obtain ⟨d, hd, e⟩ := (up a2).1
    obtain ⟨d', hd', e'⟩ := (up a1).2
    exact ⟨⟨a2, ha2, d, hd, (mul_le_mul_of_nonneg_right la2 h).trans e⟩, a1, ha1, d', hd', e'.trans (mul_le_mul_of_nonneg_right la1 h)⟩
  · obtain ⟨d, hd, e⟩ := (up a1).1
    obtain ⟨d', hd', e'⟩ := (up a2).2
    exact ⟨⟨a1, ha1, d, hd, (mul_le_mul_of_nonpos_right la1 h).trans e⟩, a2, ha2, d', hd', e'.trans (mul_le_mul_of_nonpos_right la2 h)⟩

theorem brackets_map {f : ℝ → ℝ} {l : List ℝ} {x : ℝ} (h : Brackets f l x) : (∃ c ∈ l.map f, f x ≤ c) ∧ ∃ c ∈ l.map f, c ≤ f x := by
  obtain ⟨⟨c, hc, e⟩, d, hd, e'⟩ := h
  exact ⟨⟨f c, List.mem_map_of_mem hc, e⟩, f d, List.mem_map_of_mem hd, e'⟩

/-- The projections of all angles in the range are between candidates. -/
theorem projections_bracket (theta psi eps : ℝ) (h0 : 0 ≤ eps) (h1 : eps < π) (axis : Axis) (theta' psi' : ℝ)
    (ht : |theta' - theta| ≤ eps) (hs : |psi' - psi| ≤ eps) :
    (∃ q ∈ projections theta psi eps axis, proj axis psi' theta' ≤ q) ∧ ∃ q ∈ projections theta psi eps axis, q ≤ proj axis psi' theta' := by
  obtain ⟨t1, t2⟩ := abs_le.1 ht
  obtain ⟨s1, s2⟩ := abs_le.1 hs
  have hle : psi - eps ≤ psi + eps := by linarith
  have hlt : psi + eps - (psi - eps) < 2 * π := by linarith
  have hle' : theta - eps ≤ theta + eps := by linarith
  have hlt' : theta + eps - (theta - eps) < 2 * π := by linarith
  have mem : ∀ c ∈ psiCandidates psi eps axis, ∀ d ∈ thetaCandidates theta eps axis, proj axis c d ∈ projections theta psi eps axis := by
    intro c hc d hd
    exact List.mem_flatMap.2 ⟨c, hc, List.mem_map.2 ⟨d, hd, rfl⟩⟩
  cases axis with
  | x =>
    have bp := brackets_map (brackets_cos _ _ hle hlt (psiCandidates psi eps .x) (by simp [psiCandidates]) (by simp [psiCandidates])
      (fun h => by simp [psiCandidates, h]) (fun h => by simp [psiCandidates, h]) psi' (by linarith) (by linarith))
    have bt := brackets_map (brackets_cos _ _ hle' hlt' (thetaCandidates theta eps .x) (by simp [thetaCandidates]) (by simp [thetaCandidates])
      (fun h => by simp [thetaCandidates, h]) (fun h => by simp [thetaCandidates, h]) theta' (by linarith) (by linarith))
    obtain ⟨⟨c, hc, d, hd, e⟩, c', hc', d', hd', e'⟩ := product_brackets _ _ _ _ bp bt
    obtain ⟨c, mc, rfl⟩ := List.mem_map.1 hc
    obtain ⟨d, md, rfl⟩ := List.mem_map.1 hd
    obtain ⟨c', mc', rfl⟩ := List.mem_map.1 hc'
    obtain ⟨d', md', rfl⟩ := List.mem_map.1 hd'
    exact ⟨⟨_, mem c mc d md, e⟩, _, mem c' mc' d' md', e'⟩
  | y =>
    have bp := brackets_map (brackets_cos _ _ hle hlt (psiCandidates psi eps .y) (by simp [psiCandidates]) (by simp [psiCandidates])
      (fun h => by simp [psiCandidates, h]) (fun h => by simp [psiCandidates, h]) psi' (by linarith) (by linarith))
    have bt := brackets_map (brackets_sin _ _ hle' hlt' (thetaCandidates theta eps .y) (by simp [thetaCandidates]) (by simp [thetaCandidates])
      (fun h => by simp [thetaCandidates, h]) (fun h => by simp [thetaCandidates, h]) theta' (by linarith) (by linarith))
    obtain ⟨⟨c, hc, d, hd, e⟩, c', hc', d', hd', e'⟩ := product_brackets _ _ _ _ bp bt
    obtain ⟨c, mc, rfl⟩ := List.mem_map.1 hc
    obtain ⟨d, md, rfl⟩ := List.mem_map.1 hd
    obtain ⟨c', mc', rfl⟩ := List.mem_map.1 hc'
    obtain ⟨d', md', rfl⟩ := List.mem_map.1 hd'
    exact ⟨⟨_, mem c mc d md, e⟩, _, mem c' mc' d' md', e'⟩
  | z =>
    obtain ⟨⟨c, hc, e⟩, c', hc', e'⟩ := brackets_sin _ _ hle hlt (psiCandidates psi eps .z) (by simp [psiCandidates]) (by simp [psiCandidates])
      (fun h => by simp [psiCandidates, h]) (fun h => by simp [psiCandidates, h]) psi' (by linarith) (by linarith)
    exact ⟨⟨_, mem c hc 0 (by simp [thetaCandidates]), e⟩, _, mem c' hc' 0 (by simp [thetaCandidates]), e'⟩

/-- Every candidate projection is that of angles in the range. -/
theorem projections_attained (theta psi eps : ℝ) (h0 : 0 ≤ eps) (h1 : eps < π) (axis : Axis) (q : ℝ) (hq : q ∈ projections theta psi eps axis) :
    ∃ theta' psi', |theta' - theta| ≤ eps ∧ |psi' - psi| ≤ eps ∧ proj axis psi' theta' = q := by
  obtain ⟨c, hc, hd⟩ := List.mem_flatMap.1 hq
  obtain ⟨d, md, rfl⟩ := List.mem_map.1 hd
  obtain ⟨k, k1, k2⟩ := psi_inside psi eps h0 h1 axis c hc
  by_cases hz : axis = .z
  · subst hz
    refine ⟨theta, c + 2 * π * k, by simpa using h0, abs_le.2 ⟨by linarith, by linarith⟩, ?_⟩
    simp only [proj]; exact sin_turns c k
  · obtain ⟨m, m1, m2⟩ := theta_inside theta eps h0 h1 axis hz d md
    refine ⟨d + 2 * π * m, c + 2 * π * k, abs_le.2 ⟨by linarith, by linarith⟩, abs_le.2 ⟨by linarith, by linarith⟩, ?_⟩
    cases axis with
    | x => simp only [proj, cos_turns]
    | y => simp only [proj, cos_turns, sin_turns]
    | z => exact absurd rfl hz

theorem projections_ne_nil (theta psi eps : ℝ) (axis : Axis) : projections theta psi eps axis ≠ [] := by
  cases axis <;> simp [projections, psiCandidates, thetaCandidates]

/-- A distance in the range and a projection between two values: the product is at most the larger of the two extreme products. -/
theorem sensed_le (rho e r q q1 q2 : ℝ) (hr : 0 ≤ rho) (h : |r - rho| ≤ e) (h1 : q1 ≤ q) (h2 : q ≤ q2) :
    (r * q ≤ if 0 ≤ q1 then (rho + e) * q1 else (rho - e) * q1) ∨ (r * q ≤ if 0 ≤ q2 then (rho + e) * q2 else (rho - e) * q2) := by
  obtain ⟨a, b⟩ := abs_le.1 h
  have he : 0 ≤ e := (abs_nonneg _).trans h
  rcases le_or_gt 0 q with hq | hq
  · right
    rw [if_pos (hq.trans h2)]
    nlinarith
  · rcases le_or_gt 0 (rho - e) with hc | hc
    · right
      split_ifs with h3 <;> nlinarith
    · left
      rw [if_neg (by linarith)]
      nlinarith

/-- The least products are the negatives of the largest ones for the negative projections. -/
theorem sensed_ge (rho e r q q1 q2 : ℝ) (hr : 0 ≤ rho) (h : |r - rho| ≤ e) (h1 : q1 ≤ q) (h2 : q ≤ q2) :
    ((if 0 ≤ q1 then (rho - e) * q1 else (rho + e) * q1) ≤ r * q) ∨ ((if 0 ≤ q2 then (rho - e) * q2 else (rho + e) * q2) ≤ r * q) := by
  obtain ⟨a, b⟩ := abs_le.1 h
  have he : 0 ≤ e := (abs_nonneg _).trans h
  rcases le_or_gt 0 q with hq | hq
  · rcases le_or_gt 0 (rho - e) with hc | hc
    · left
      split_ifs with h3 <;> nlinarith
    · right
      rw [if_pos (by linarith)]
      nlinarith
  · left
    rw [if_neg (by linarith)]
    nlinarith

/-- The angles and the distance of a position give its coordinates. -/
theorem coords_true (p : ℝ × ℝ × ℝ) : rhoOf p * proj .x (psiOf p) (thetaOf p) = p.1 ∧ rhoOf p * proj .y (psiOf p) (thetaOf p) = p.2.1 ∧
    rhoOf p * proj .z (psiOf p) (thetaOf p) = p.2.2 := by
  obtain ⟨x, y, z⟩ := p
  have e1 : ‖(⟨x, y⟩ : ℂ)‖ = Real.sqrt (x ^ 2 + y ^ 2) := by
    rw [Complex.norm_def, Complex.normSq_mk]; congr 1; ring
  have e2 : ‖(⟨Real.sqrt (x ^ 2 + y ^ 2), z⟩ : ℂ)‖ = Real.sqrt (x ^ 2 + y ^ 2 + z ^ 2) := by
    rw [Complex.norm_def, Complex.normSq_mk]; congr 1
    rw [Real.mul_self_sqrt (by positivity)]; ring
  have c1 := Complex.norm_mul_cos_arg (⟨x, y⟩ : ℂ)
  have c2 := Complex.norm_mul_sin_arg (⟨x, y⟩ : ℂ)
  have c3 := Complex.norm_mul_cos_arg (⟨Real.sqrt (x ^ 2 + y ^ 2), z⟩ : ℂ)
  have c4 := Complex.norm_mul_sin_arg (⟨Real.sqrt (x ^ 2 + y ^ 2), z⟩ : ℂ)
  rw [e1] at c1 c2
  rw [e2] at c3 c4
  simp only [rhoOf, proj, psiOf, thetaOf, Lane.arctan2]
  refine ⟨?_, ?_, c4⟩
  · rw [← mul_assoc, c3]; exact c1
  · rw [← mul_assoc, c3]; exact c2

end Verif.RangeErr
