import Verif.Spec.Agents
import Verif.Proofs.Basic
import Verif.Proofs.Lane
import Verif.Proofs.Span
import Mathlib.Analysis.Calculus.MeanValue
import Mathlib.Analysis.SpecialFunctions.Trigonometric.Deriv
import Mathlib.Analysis.SpecialFunctions.ExpDeriv

set_option autoImplicit false

namespace Verif.Agents
open Set

/-! ### The loop -/

theorem loop_length {next : List ℝ → Except String (List ℝ)} {time : Nat → ℝ} {i n : Nat} {init : List ℝ} {rows : List Row}
    (h : loop next time i n init = .ok rows) : rows.length = n := by
  induction n generalizing i init rows with
  | zero => cases h; rfl
  | succ n ih =>
    unfold loop at h
    obtain ⟨res, _, h⟩ := (bind_ok_iff _ _ _).1 h
    obtain ⟨r, h2, rfl⟩ := (map_ok_iff _ _ _).1 h
    simp [ih h2]

theorem loop_time {next : List ℝ → Except String (List ℝ)} {time : Nat → ℝ} {i n : Nat} {init : List ℝ} {rows : List Row}
    (h : loop next time i n init = .ok rows) (k : Nat) (row : Row) (hk : rows[k]? = some row) : row.1 = time (i + k) := by
  induction n generalizing i init rows k with
  | zero => cases h; simp at hk
  | succ n ih =>
    unfold loop at h
    obtain ⟨res, _, h⟩ := (bind_ok_iff _ _ _).1 h
    obtain ⟨r, h2, rfl⟩ := (map_ok_iff _ _ _).1 h
    cases k with
    | zero => simp only [List.getElem?_cons_zero, Option.some.injEq] at hk; rw [← hk]; rfl
    | succ k =>
      rw [List.getElem?_cons_succ] at hk
      rw [ih h2 k hk]
      congr 1
      omega

theorem loop_next {next : List ℝ → Except String (List ℝ)} {time : Nat → ℝ} {i n : Nat} {init : List ℝ} {rows : List Row}
    (h : loop next time i n init = .ok rows) (t : ℝ) (k : Nat) (row row' : Row) (hk : ((t, init) :: rows)[k]? = some row)
    (hk' : ((t, init) :: rows)[k + 1]? = some row') : next row.2 = .ok row'.2 := by
  induction n generalizing i init rows k t with
  | zero => cases h; simp at hk'
  | succ n ih =>
    unfold loop at h
    obtain ⟨res, h1, h⟩ := (bind_ok_iff _ _ _).1 h
    obtain ⟨r, h2, rfl⟩ := (map_ok_iff _ _ _).1 h
    cases k with
    | zero => simp at hk hk'; rw [← hk, ← hk']; exact h1
    | succ k => exact ih h2 (time i) k (by simpa using hk) (by simpa using hk')

/-- The rest of a run of the loop, with other times. -/
theorem loop_rest {next : List ℝ → Except String (List ℝ)} {time time' : Nat → ℝ} {i i' n : Nat} {init : List ℝ} {rows : List Row}
    (h : loop next time i n init = .ok rows) (t : ℝ) (k : Nat) (row : Row) (hk : ((t, init) :: rows)[k]? = some row) :
    ∃ rest, loop next time' i' (n - k) row.2 = .ok rest ∧ rest.map Prod.snd = (rows.drop k).map Prod.snd := by
  induction n generalizing i init rows k t with
  | zero =>
    cases h
    cases k with
    | zero => exact ⟨[], rfl, rfl⟩
    | succ k => simp at hk
  | succ n ih =>
    cases k with
    | zero =>
      simp only [List.getElem?_cons_zero, Option.some.injEq] at hk
      subst hk
      have : ∀ (n i i' : Nat) (init : List ℝ) (rows : List Row), loop next time i n init = .ok rows →
          ∃ rest, loop next time' i' n init = .ok rest ∧ rest.map Prod.snd = rows.map Prod.snd := by
        intro n
        induction n with
        | zero => intro i i' init rows h; cases h; exact ⟨[], rfl, rfl⟩
        | succ n ih =>
          intro i i' init rows h
          unfold loop at h
          obtain ⟨res, h1, h⟩ := (bind_ok_iff _ _ _).1 h
          obtain ⟨r, h2, rfl⟩ := (map_ok_iff _ _ _).1 h
          obtain ⟨rest, h3, h4⟩ := ih (i + 1) (i' + 1) res r h2
          refine ⟨(time' i', res) :: rest, ?_, by simp [h4]⟩
          unfold loop
          rw [h1]
          show (loop next time' (i' + 1) n res).map _ = _
          rw [h3]
          rfl
      simpa using this _ _ i' _ _ h
    | succ k =>
      unfold loop at h
      obtain ⟨res, h1, h⟩ := (bind_ok_iff _ _ _).1 h
      obtain ⟨r, h2, rfl⟩ := (map_ok_iff _ _ _).1 h
      obtain ⟨rest, h3, h4⟩ := ih h2 (time i) k (by simpa using hk)
      exact ⟨rest, by rw [← h3]; congr 1; omega, by simpa using h4⟩

/-- A property of states that every step keeps. -/
theorem loop_total {next : List ℝ → Except String (List ℝ)} {time : Nat → ℝ} (P : List ℝ → Prop) (hP : ∀ s, P s → ∃ s', next s = .ok s' ∧ P s')
    (n i : Nat) (init : List ℝ) (h : P init) : ∃ rows, loop next time i n init = .ok rows := by
  induction n generalizing i init with
  | zero => exact ⟨[], rfl⟩
  | succ n ih =>
    obtain ⟨s', h1, h2⟩ := hP init h
    obtain ⟨rows, h3⟩ := ih (i + 1) s' h2
    refine ⟨(time i, s') :: rows, ?_⟩
    unfold loop
    rw [h1]
    show (loop next time (i + 1) n s').map _ = _
    rw [h3]
    rfl

theorem numPoints_spec {bound step : ℝ} (hs : 0 < step) : bound ≤ numPoints bound step * step ∧ ∀ k : Nat, k < numPoints bound step → k * step < bound := by
  unfold numPoints
  constructor
  · have := Nat.le_ceil (bound / step)
    exact (div_le_iff₀ hs).1 this
  · intro k hk
    have := Nat.lt_ceil.1 hk
    exact (lt_div_iff₀ hs).1 this

theorem stepped_samples {next : List ℝ → Except String (List ℝ)} {time : Nat → ℝ} {init : List ℝ} {bound step : ℝ} {rows : List Row}
    (hs : 0 < step) (ht : ∀ i, time i = (i + 1 : ℕ) * step) (h : stepped next time init bound step = .ok rows) :
    Samples (fun s s' => next s = .ok s') init bound step rows := by
  obtain ⟨r, h1, rfl⟩ := (map_ok_iff _ _ _).1 h
  have htimes : ∀ (k : Nat) (row : Row), ((0, init) :: r : List Row)[k]? = some row → row.1 = k * step := by
    intro k row hk
    cases k with
    | zero => simp only [List.getElem?_cons_zero, Option.some.injEq] at hk; rw [← hk]; simp
    | succ k =>
      rw [List.getElem?_cons_succ] at hk
      rw [loop_time h1 k row hk, ht]
      congr 2
      omega
  have hlen := loop_length h1
  obtain ⟨p1, p2⟩ := numPoints_spec (bound := bound) hs
  have hlast : ((0, init) :: r : List Row)[numPoints bound step]? = ((0, init) :: r : List Row).getLast? := by
    rw [List.getLast?_eq_getElem?]
    simp [hlen]
  refine ⟨rfl, htimes, fun k row row' hk hk' => loop_next h1 0 k row row' hk hk', ?_⟩
  obtain ⟨row, hrow⟩ : ∃ row, ((0, init) :: r : List Row)[numPoints bound step]? = some row :=
    ⟨_, List.getElem?_eq_getElem (by simp [hlen])⟩
  refine ⟨row, by rw [← hlast, hrow], ?_, ?_⟩
  · rw [htimes _ _ hrow]; exact p1
  · intro k row' hk hne
    rw [htimes _ _ hk]
    refine p2 k ?_
    obtain ⟨hlt, _⟩ := List.getElem?_eq_some_iff.1 hk
    simp only [List.length_cons, hlen] at hlt
    rcases Nat.lt_or_ge k (numPoints bound step) with h | h
    · exact h
    · obtain rfl : k = numPoints bound step := by omega
      rw [hrow] at hk
      exact absurd (Option.some.inj hk).symm hne

theorem Samples.imp {P Q : List ℝ → List ℝ → Prop} {init : List ℝ} {bound step : ℝ} {rows : List Row} (h : Samples P init bound step rows)
    (n : List ℝ → Prop) (h0 : n init) (hn : ∀ s s', n s → P s s' → Q s s' ∧ n s') : Samples Q init bound step rows ∧ ∀ (k : Nat) (row : Row), rows[k]? = some row → n row.2 := by
  have hall : ∀ (k : Nat) (row : Row), rows[k]? = some row → n row.2 := by
    intro k
    induction k with
    | zero => intro row hr; rw [h.first] at hr; cases hr; exact h0
    | succ k ih =>
      intro row hr
      obtain ⟨hlt, _⟩ := List.getElem?_eq_some_iff.1 hr
      have hk : rows[k]? = some rows[k] := List.getElem?_eq_getElem (by omega)
      exact (hn _ _ (ih _ hk) (h.next k _ row hk hr)).2
  exact ⟨⟨h.first, h.times, fun k row row' hk hk' => (hn _ _ (hall k row hk) (h.next k row row' hk hk')).1, h.reaches⟩, hall⟩

/-! ### Solutions -/

/-- A component whose derivative is known. -/
theorem comp_eq {n : Nat} {T : ℝ} {f : ℝ → List ℝ → List ℝ} {y : ℝ → List ℝ} (h : Mix.Solves n T f y) {i : Nat} (hi : i < n) (g g' : ℝ → ℝ)
    (hg : ∀ t, HasDerivAt g (g' t) t) (hf : ∀ t ∈ Ico 0 T, (f t (y t)).getD i 0 = g' t) (h0 : g 0 = (y 0).getD i 0) :
    ∀ t ∈ Icc 0 T, (y t).getD i 0 = g t := by
  intro t ht
  have hc : ContinuousOn (fun t => (y t).getD i 0 - g t) (Icc 0 T) :=
    (h.continuous i hi).sub (fun s _ => (hg s).continuousAt.continuousWithinAt)
  have := constant_of_has_deriv_right_zero hc (by
    intro s hs
    have h1 := (h.deriv s hs i hi).sub (hg s).hasDerivWithinAt
    rw [hf s hs, sub_self] at h1
    exact h1) t ht
  simp only [h0, sub_self] at this
  linarith

theorem hasDeriv_lin (a c : ℝ) : ∀ t, HasDerivAt (fun t => a + c * t) c t := by
  intro t
  simpa using ((hasDerivAt_id t).const_mul c).const_add a

theorem hasDeriv_quad (a v c : ℝ) : ∀ t, HasDerivAt (fun t => a + v * t + c / 2 * t ^ 2) (v + c * t) t := by
  intro t
  have h1 := hasDeriv_lin a v t
  have h2 : HasDerivAt (fun t : ℝ => t ^ 2) (2 * t) t := by simpa using hasDerivAt_pow 2 t
  have := h1.add (h2.const_mul (c / 2))
  exact this.congr_deriv (by ring)

/-- A component with a constant derivative. -/
theorem comp_lin {n : Nat} {T : ℝ} {f : ℝ → List ℝ → List ℝ} {y : ℝ → List ℝ} (h : Mix.Solves n T f y) {i : Nat} (hi : i < n) (c : ℝ)
    (hf : ∀ t ∈ Ico 0 T, (f t (y t)).getD i 0 = c) : ∀ t ∈ Icc 0 T, (y t).getD i 0 = (y 0).getD i 0 + c * t :=
  comp_eq h hi _ _ (hasDeriv_lin _ c) hf (by simp)

theorem carDyn_getD (u : ℝ × ℝ) (t : ℝ) (s : List ℝ) :
    (carDyn u t s).getD 0 0 = s.getD 3 0 * Real.cos (s.getD 2 0 + u.1) ∧ (carDyn u t s).getD 1 0 = s.getD 3 0 * Real.sin (s.getD 2 0 + u.1) ∧
    (carDyn u t s).getD 2 0 = s.getD 3 0 / (175 / 100) * Real.sin u.1 ∧ (carDyn u t s).getD 3 0 = u.2 := by
  unfold carDyn
  dsimp only
  split <;> simp

/-- The speed after time `h`. -/
theorem flows_speed {u : ℝ × ℝ} {h : ℝ} (hh : 0 ≤ h) {s s' : List ℝ} (hl : 4 ≤ s.length) (hf : Flows (carDyn u) h s s') :
    s'.length = s.length ∧ s'.getD 3 0 = s.getD 3 0 + u.2 * h := by
  obtain ⟨y, h1, rfl, rfl⟩ := hf
  have hT : h ∈ Icc 0 h := ⟨hh, le_refl _⟩
  exact ⟨h1.length _ hT, comp_lin h1 (by omega) u.2 (fun t _ => (carDyn_getD u t _).2.2.2) h hT⟩

theorem noReverse_eq (s : List ℝ) (hl : 4 ≤ s.length) : noReverse s = s.set 3 (max 0 (s.getD 3 0)) := by
  unfold noReverse
  split
  · rename_i h; rw [max_eq_left h.le]
  · rename_i h
    rw [max_eq_right (not_lt.1 h)]
    refine List.ext_getElem? (fun i => ?_)
    rw [List.getElem?_set]
    split
    · rename_i e
      subst e
      rw [if_pos (by omega), List.getElem?_eq_getElem (by omega)]
      simp [List.getD, List.getElem?_eq_getElem (show 3 < s.length by omega)]
    · rfl

theorem set3_getD (s : List ℝ) (x : ℝ) (hl : 4 ≤ s.length) : (s.set 3 x).getD 3 0 = x ∧ ∀ i, i ≠ 3 → (s.set 3 x).getD i 0 = s.getD i 0 := by
  constructor
  · simp [List.getD, show 3 < s.length by omega]
  · intro i hi
    simp [List.getD, List.getElem?_set_ne (Ne.symm hi)]

/-! ### Steering -/

theorem clip_range (x : ℝ) : |clip x| ≤ 61 / 100 := by
  unfold clip
  rw [abs_le]
  constructor
  · exact le_max_left _ _
  · exact max_le (by norm_num) (min_le_right _ _)

theorem clip_zero : clip 0 = 0 := by unfold clip; norm_num

theorem wrapToPi_turns (k : ℤ) : Lane.wrapToPi (2 * Real.pi * k) = 0 := by
  have hp : (2 * Real.pi) ≠ 0 := by have := Real.pi_pos; positivity
  rw [Lane.wrapToPi_eq]
  have : (2 * Real.pi * k + Real.pi) / (2 * Real.pi) = (k : ℝ) + 1 / 2 := by field_simp
  rw [this]
  have : ⌊(k : ℝ) + 1 / 2⌋ = k := by
    rw [Int.floor_eq_iff]; constructor <;> norm_num
  rw [this]
  ring

theorem arctan2_zero_left {v : ℝ} (hv : 0 ≤ v) : Lane.arctan2 0 v = 0 := by
  unfold Lane.arctan2
  have : (⟨v, 0⟩ : ℂ) = ((v : ℝ) : ℂ) := Complex.ext (by simp) (by simp)
  rw [this, Complex.arg_ofReal_of_nonneg hv]

end Verif.Agents
