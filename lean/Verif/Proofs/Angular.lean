import Verif.Model.Angular
import Mathlib.Tactic.FieldSimp
import Mathlib.Tactic.Ring
import Mathlib.Tactic.LinearCombination

/-! Lemmas about Verif/Model/Angular.lean. -/

set_option autoImplicit false
set_option linter.unusedSectionVars false

namespace Verif.Ang

open Verif.Spec

variable {K : Type} [Field K] [LinearOrder K] [IsStrictOrderedRing K]

section wrap
variable [FloorRing K]

theorem fmod_range (x m : K) (hm : 0 < m) : 0 ≤ fmod x m ∧ fmod x m < m := by
  have h1 := Int.floor_le (x / m)
  have h2 := Int.lt_floor_add_one (x / m)
  rw [le_div_iff₀ hm] at h1
  rw [div_lt_iff₀ hm] at h2
  unfold fmod
  constructor <;> nlinarith

theorem fmod_congr (x m : K) : ∃ k : ℤ, fmod x m = x + m * k :=
  ⟨-⌊x / m⌋, by unfold fmod; push_cast; ring⟩

/-- Two numbers less than a turn apart that differ by whole turns are equal. -/
theorem turns_unique (p : K) (hp : 0 < p) (x y : K) (k : ℤ) (h : y = x + 2 * p * k) (h1 : y - x < 2 * p) (h2 : x - y < 2 * p) :
    y = x := by
  have a : (k : K) < 1 := by
    by_contra hc
    have : (1 : K) ≤ k := not_lt.1 hc
    nlinarith
  have b : (-1 : K) < k := by
    by_contra hc
    have : (k : K) ≤ -1 := not_lt.1 hc
    nlinarith
  have a' : k < 1 := by exact_mod_cast a
  have b' : -1 < k := by exact_mod_cast b
  have : k = 0 := by omega
  rw [h, this]; simp

theorem IsWrap.unique {p x y z : K} (hp : 0 < p) (h1 : IsWrap p x y) (h2 : IsWrap p x z) : y = z := by
  obtain ⟨⟨k, hk⟩, a, b⟩ := h1
  obtain ⟨⟨m, hm⟩, c, d⟩ := h2
  refine turns_unique p hp z y (k - m) ?_ (by linarith) (by linarith)
  rw [hk, hm]; push_cast; ring

theorem wrapAngle_isWrap (p x : K) (hp : 0 < p) : IsWrap p x (wrapAngle p x) := by
  have h2 : 0 < 2 * p := by linarith
  unfold wrapAngle
  split
  · next h =>
    obtain ⟨k, hk⟩ := fmod_congr x (2 * p)
    rw [h] at hk
    exact ⟨⟨k, hk⟩, by linarith, le_refl _⟩
  · next h =>
    obtain ⟨k, hk⟩ := fmod_congr (x + p) (2 * p)
    obtain ⟨a, b⟩ := fmod_range (x + p) (2 * p) h2
    refine ⟨⟨k, by rw [hk]; ring⟩, ?_, by linarith⟩
    rcases lt_or_eq_of_le a with a | a
    · linarith
    · exfalso
      apply h
      obtain ⟨m, hm⟩ := fmod_congr x (2 * p)
      obtain ⟨c, d⟩ := fmod_range x (2 * p) h2
      refine turns_unique p hp _ _ (m - k - 1) ?_ (by linarith) (by linarith)
      rw [hm]
      rw [hk] at a
      push_cast
      linear_combination -a

theorem wrapAngle_eq (p x y : K) (hp : 0 < p) (h : IsWrap p x y) : wrapAngle p x = y :=
  IsWrap.unique hp (wrapAngle_isWrap p x hp) h

/-- The loop stops with a value that is not negative, below a turn if it ran at all, and equal to the start up to `n` turns. -/
theorem raiseLoop_spec (p : K) (hp : 0 < p) : ∀ (fuel : Nat) (d : K) (n : Nat), -d ≤ 2 * p * fuel →
    0 ≤ (raiseLoop p fuel d n).1 ∧ (raiseLoop p fuel d n).1 + 2 * p * n = d + 2 * p * (raiseLoop p fuel d n).2 ∧
      (d < 0 → (raiseLoop p fuel d n).1 < 2 * p) ∧ (0 ≤ d → raiseLoop p fuel d n = (d, n))
  | 0, d, n, h => by
    simp only [raiseLoop]
    have : 0 ≤ d := by simpa using h
    exact ⟨this, trivial, fun h => absurd h (not_lt.2 this), fun _ => trivial⟩
  | fuel + 1, d, n, h => by
    unfold raiseLoop
    split
    · next hd =>
      obtain ⟨a, b, c, e⟩ := raiseLoop_spec p hp fuel (d + 2 * p) (n + 1) (by push_cast at h; nlinarith)
      refine ⟨a, ?_, fun _ => ?_, fun h0 => absurd hd (not_lt.2 h0)⟩
      · push_cast at b; linarith
      · by_cases h0 : d + 2 * p < 0
        · exact c h0
        · rw [e (not_lt.1 h0)]; dsimp only; linarith
    · next hd =>
      exact ⟨not_lt.1 hd, by ring, fun h => absurd h hd, fun _ => rfl⟩

theorem raise_ceil (p : K) (hp : 0 < p) (d : K) : -d ≤ 2 * p * (⌈-d / (2 * p)⌉₊ : K) := by
  have := Nat.le_ceil (-d / (2 * p))
  rw [div_le_iff₀ (by linarith)] at this
  linarith

/-- The two numbers `angular_bounds_diff_correct` works with. -/
theorem angDiff_normal (p : K) (hp : 0 < p) (rawMin rawMax : K) (r : K × Nat) (hr : raiseLoop p ⌈-rawMin / (2 * p)⌉₊ rawMin 0 = r) :
    0 ≤ r.1 ∧ r.1 = rawMin + 2 * p * r.2 ∧ (rawMin < 0 → r.1 < 2 * p) ∧ (0 ≤ rawMin → r = (rawMin, 0)) ∧
      rawMax + 2 * p * r.2 - r.1 = rawMax - rawMin := by
  obtain ⟨a, b, c, d⟩ := raiseLoop_spec p hp _ rawMin 0 (raise_ceil p hp rawMin)
  rw [hr] at a b c d
  have b' : r.1 = rawMin + 2 * p * r.2 := by simpa using b
  exact ⟨a, b', c, d, by rw [b']; ring⟩

end wrap

/-! ### Merging -/

theorem overlap_iff (a b : K × K) : overlap a b = true ↔ (a.1 ≤ a.2 ∧ b.1 ≤ b.2) ∧ a.1 ≤ b.2 ∧ b.1 ≤ a.2 := by
  unfold overlap
  split
  · next h => simp [h]
  · next h => simp [h]

theorem inSome_cons (a : K × K) (l : List (K × K)) (y : K) : InSome (a :: l) y ↔ (a.1 ≤ y ∧ y ≤ a.2) ∨ InSome l y := by
  simp [InSome]

theorem mergeFrom_mem (y : K) : ∀ (cs : List (K × K)) (last : K × K), InSome (mergeFrom last cs) y ↔ InSome (last :: cs) y
  | [], last => Iff.rfl
  | c :: cs, last => by
    unfold mergeFrom
    split
    · next h =>
      rw [mergeFrom_mem y cs, inSome_cons, inSome_cons, inSome_cons, ← or_assoc]
      refine or_congr ?_ Iff.rfl
      obtain ⟨⟨h1, h2⟩, h3, h4⟩ := (overlap_iff last c).1 h
      simp only [min_le_iff, le_max_iff]
      constructor
      · rintro ⟨a | a, b | b⟩
        · exact .inl ⟨a, b⟩
        · by_cases hb : y ≤ last.2
          · exact .inl ⟨a, hb⟩
          · exact .inr ⟨h4.trans (le_of_lt (not_le.1 hb)), b⟩
        · by_cases hb : y ≤ c.2
          · exact .inr ⟨a, hb⟩
          · exact .inl ⟨h3.trans (le_of_lt (not_le.1 hb)), b⟩
        · exact .inr ⟨a, b⟩
      · rintro (⟨a, b⟩ | ⟨a, b⟩)
        · exact ⟨.inl a, .inl b⟩
        · exact ⟨.inr a, .inr b⟩
    · rw [inSome_cons, mergeFrom_mem y cs, inSome_cons last]

theorem mergeFrom_ne_nil : ∀ (cs : List (K × K)) (last : K × K), mergeFrom last cs ≠ []
  | [], last => by simp [mergeFrom]
  | c :: cs, last => by
    unfold mergeFrom
    split
    · exact mergeFrom_ne_nil cs _
    · simp

/-- A property kept by hulls holds of every merged interval. -/
theorem mergeFrom_all (P : K × K → Prop) (hP : ∀ a b : K × K, P a → P b → P (min a.1 b.1, max a.2 b.2)) :
    ∀ (cs : List (K × K)) (last : K × K), P last → (∀ c ∈ cs, P c) → ∀ iv ∈ mergeFrom last cs, P iv
  | [], last, hl, _, iv, h => by
    simp only [mergeFrom, List.mem_singleton] at h
    rw [h]; exact hl
  | c :: cs, last, hl, hc, iv, h => by
    unfold mergeFrom at h
    split at h
    · exact mergeFrom_all P hP cs _ (hP _ _ hl (hc c (by simp))) (fun c hc' => hc c (by simp [hc'])) iv h
    · rcases List.mem_cons.1 h with h | h
      · rw [h]; exact hl
      · exact mergeFrom_all P hP cs c (hc c (by simp)) (fun c hc' => hc c (by simp [hc'])) iv h

/-- Intervals with a common point are merged into one. -/
theorem mergeFrom_common (x : K) : ∀ (cs ds : List (K × K)) (last : K × K), (last.1 ≤ x ∧ x ≤ last.2) → (∀ c ∈ cs, c.1 ≤ x ∧ x ≤ c.2) →
    ∃ iv, mergeFrom last (cs ++ ds) = mergeFrom iv ds ∧ (iv.1 ≤ x ∧ x ≤ iv.2) ∧
      (∀ P : K × K → Prop, (∀ a b : K × K, P a → P b → P (min a.1 b.1, max a.2 b.2)) → P last → (∀ c ∈ cs, P c) → P iv)
  | [], ds, last, hl, _ => ⟨last, rfl, hl, fun _ _ h _ => h⟩
  | c :: cs, ds, last, hl, hc => by
    have hcx := hc c (by simp)
    have ho : overlap last c = true := (overlap_iff _ _).2
      ⟨⟨hl.1.trans hl.2, hcx.1.trans hcx.2⟩, hl.1.trans hcx.2, hcx.1.trans hl.2⟩
    obtain ⟨iv, h1, h2, h3⟩ := mergeFrom_common x cs ds (min last.1 c.1, max last.2 c.2)
      ⟨min_le_iff.2 (.inl hl.1), le_max_iff.2 (.inl hl.2)⟩ (fun d hd => hc d (by simp [hd]))
    refine ⟨iv, ?_, h2, fun P hP a b => h3 P hP (hP _ _ a (b c (by simp))) fun d hd => b d (by simp [hd])⟩
    rw [List.cons_append, mergeFrom, if_pos ho, h1]

theorem lastIdx_some (q : Nat → Bool) (n i : Nat) (h : lastIdx q n = some i) :
    i < n ∧ q i = true ∧ ∀ j, i < j → j < n → q j = false := by
  induction n generalizing i with
  | zero => simp [lastIdx] at h
  | succ n ih =>
    have e : lastIdx q (n + 1) = if q n then some n else lastIdx q n := by
      unfold lastIdx; rw [List.range_succ, List.foldl_append]; rfl
    rw [e] at h
    split at h
    · next hq =>
      injection h with h; subst h
      exact ⟨by omega, hq, fun j a b => by omega⟩
    · next hq =>
      obtain ⟨a, b, c⟩ := ih i h
      refine ⟨by omega, b, fun j h1 h2 => ?_⟩
      by_cases hj : j = n
      · rw [hj]; simpa using hq
      · exact c j h1 (by omega)

theorem lastIdx_none (q : Nat → Bool) (n : Nat) (h : lastIdx q n = none) : ∀ j, j < n → q j = false := by
  induction n with
  | zero => intro j hj; omega
  | succ n ih =>
    have e : lastIdx q (n + 1) = if q n then some n else lastIdx q n := by
      unfold lastIdx; rw [List.range_succ, List.foldl_append]; rfl
    rw [e] at h
    split at h
    · cases h
    · next hq =>
      intro j hj
      by_cases hj' : j = n
      · rw [hj']; simpa using hq
      · exact ih h j (by omega)

/-- `_intervals_overlap_or_adjacent_wrapped` adds no angle. -/
theorem joinWrapped_sub (m : List (K × K)) (y : K) (h : InSome (joinWrapped m) y) : InSome m y := by
  unfold joinWrapped at h
  split at h
  · exact h
  split at h
  · exact h
  next lp hlp =>
  split at h
  · exact h
  split at h
  · exact h
  next lastNeg hl =>
  split at h
  · exact h
  split at h
  · exact h
  next k hk =>
  split at h
  · exact h
  next iv hiv =>
  obtain ⟨-, hq, -⟩ := lastIdx_some _ _ _ hk
  simp only [hiv, decide_eq_true_eq] at hq
  obtain ⟨a, ha, hay⟩ := h
  rcases List.mem_append.1 ha with ha | ha
  · exact ⟨a, List.mem_of_mem_take ha, hay⟩
  · rw [List.mem_singleton.1 ha] at hay
    exact ⟨lastNeg, List.mem_of_getLast? hl, hay.1, hay.2.trans (le_of_lt hq)⟩

theorem formatBounds_sub (m : List (K × K)) (iv : K × K) (h : iv ∈ formatBounds m) : iv ∈ m := by
  unfold formatBounds at h
  dsimp only at h
  split at h
  · next a l b l' h1 h2 =>
    have ha : a ∈ m := List.mem_of_mem_filter (by rw [h1]; simp)
    have hb : b ∈ m := List.mem_of_mem_filter (by rw [h2]; simp)
    simp only [List.mem_cons, List.not_mem_nil, or_false] at h
    rcases h with h | h <;> rw [h] <;> assumption
  · next h1 h2 => exact List.mem_of_mem_filter h
  · next h1 h2 => exact List.mem_of_mem_filter h
  · exact h

/-- Nothing is merged across half a turn when all intervals start on the same side of zero. -/
theorem joinWrapped_same (m : List (K × K)) (h : (∀ iv ∈ m, 0 ≤ iv.1) ∨ (∀ iv ∈ m, iv.1 < 0)) : joinWrapped m = m := by
  unfold joinWrapped
  split
  · rfl
  next hlen =>
  split
  · rfl
  next lp hlp =>
  obtain ⟨h1, h2, h3⟩ := lastIdx_some _ _ _ hlp
  rcases h with h | h
  · have : lp = m.length - 1 := by
      by_contra hne
      have := h3 (m.length - 1) (by omega) (by omega)
      have hlt : m.length - 1 < m.length := by omega
      rw [List.getElem?_eq_getElem hlt] at this
      have h0 := h _ (List.getElem_mem hlt)
      simp [h0] at this
    rw [if_pos this]
  · exfalso
    rw [List.getElem?_eq_getElem h1] at h2
    have := h _ (List.getElem_mem h1)
    simp at h2
    exact absurd this (not_lt.2 h2)

theorem joinWrapped_last (m : List (K × K)) (a : K × K) (hl : m.getLast? = some a) (ha : a.2 ≤ 0) : joinWrapped m = m := by
  unfold joinWrapped
  split
  · rfl
  split
  · rfl
  split
  · rfl
  rw [hl]
  dsimp only
  rw [if_pos ha]

theorem formatBounds_pos (m : List (K × K)) (h : ∀ iv ∈ m, 0 ≤ iv.1) (hz : ∀ iv ∈ m, 0 < iv.2) : formatBounds m = m := by
  unfold formatBounds
  have h1 : m.filter (fun iv => decide (0 ≤ iv.1)) = m := by
    rw [List.filter_eq_self]; intro a ha; simpa using h a ha
  have h2 : m.filter (fun iv => decide (iv.2 ≤ 0)) = [] := by
    rw [List.filter_eq_nil_iff]; intro a ha; simpa using hz a ha
  rw [h1, h2]
  cases m <;> rfl

theorem formatBounds_neg (m : List (K × K)) (h : ∀ iv ∈ m, iv.1 < 0 ∧ iv.2 ≤ 0) : formatBounds m = m := by
  unfold formatBounds
  have h1 : m.filter (fun iv => decide (0 ≤ iv.1)) = [] := by
    rw [List.filter_eq_nil_iff]; intro a ha; simpa using (h a ha).1
  have h2 : m.filter (fun iv => decide (iv.2 ≤ 0)) = m := by
    rw [List.filter_eq_self]; intro a ha; simpa using (h a ha).2
  rw [h1, h2]
  cases m <;> rfl

theorem formatBounds_single (a : K × K) : ∀ y, InSome (formatBounds [a]) y ↔ InSome [a] y := by
  intro y
  unfold formatBounds
  by_cases h1 : 0 ≤ a.1 <;> by_cases h2 : a.2 ≤ 0 <;> simp [h1, h2, InSome]

theorem formatBounds_pair (a b : K × K) (h1 : 0 ≤ a.1) (h2 : 0 < a.2) (h3 : b.1 < 0) (h4 : b.2 ≤ 0) : formatBounds [a, b] = [a, b] := by
  unfold formatBounds
  have e1 : ¬ a.2 ≤ 0 := not_le.2 h2
  have e2 : ¬ (0 : K) ≤ b.1 := not_le.2 h3
  simp [h1, e1, e2, h4]

/-! ### What `combine_angular_bounds` starts from -/

theorem normBound_parts (p : K) (b : ABound K) (l : List (K × K)) (h : normBound p b = .ok l) : l = b.parts p := by
  unfold normBound at h
  split at h
  · cases h
  · injection h with h; subst h; rfl
  · injection h with h; subst h; rfl

instance : Std.Total (α := K × K) keyLe := ⟨fun a b => by
  unfold keyLe
  by_cases h1 : 0 ≤ a.1 <;> by_cases h2 : 0 ≤ b.1 <;> simp [h1, h2, le_total]⟩

instance : IsTrans (K × K) keyLe := ⟨fun a b c => by
  unfold keyLe
  by_cases h1 : 0 ≤ a.1 <;> by_cases h2 : 0 ≤ b.1 <;> by_cases h3 : 0 ≤ c.1 <;> simp [h1, h2, h3] <;> exact le_trans⟩

/-- A sorted list is its intervals starting at zero or later followed by the others. -/
theorem sorted_split (l : List (K × K)) (h : l.Pairwise keyLe) :
    ∃ P N, l = P ++ N ∧ (∀ iv ∈ P, 0 ≤ iv.1) ∧ (∀ iv ∈ N, iv.1 < 0) := by
  induction l with
  | nil => exact ⟨[], [], rfl, by simp, by simp⟩
  | cons a l ih =>
    rw [List.pairwise_cons] at h
    obtain ⟨P, N, e, hP, hN⟩ := ih h.2
    by_cases ha : 0 ≤ a.1
    · refine ⟨a :: P, N, by rw [e]; rfl, ?_, hN⟩
      intro iv hiv
      rcases List.mem_cons.1 hiv with rfl | hiv
      · exact ha
      · exact hP iv hiv
    · refine ⟨[], a :: l, rfl, by simp, ?_⟩
      intro iv hiv
      rcases List.mem_cons.1 hiv with rfl | hiv
      · exact not_le.1 ha
      · have := h.1 iv hiv
        unfold keyLe at this
        by_contra hc
        simp [ha, not_lt.1 hc] at this

end Verif.Ang
