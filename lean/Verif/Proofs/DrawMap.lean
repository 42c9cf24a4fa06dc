import Verif.Spec.DrawMap
import Verif.Proofs.Plot
import Verif.Proofs.Basic
import Mathlib.Analysis.SpecialFunctions.Trigonometric.Bounds
import Mathlib.Tactic.Linarith
import Mathlib.Tactic.FieldSimp
import Mathlib.Tactic.LinearCombination

/-! Lemmas on pictures of maps. -/

set_option autoImplicit false

namespace Verif.DrawMap
open Verif.Lane Verif.DrawMap.Spec

/-- A point on a circle. -/
noncomputable def pt (o : ℝ × ℝ) (r p : ℝ) : ℝ × ℝ := (Real.cos p * r + o.1, Real.sin p * r + o.2)

/-- The chord between two points of a circle is near the arc. -/
theorem chord_near (o : ℝ × ℝ) (r m h x : ℝ) (hx : |x| ≤ |h|) (hh : |h| ≤ Real.pi / 2) :
    ∃ u : ℝ, 0 ≤ u ∧ u ≤ 1 ∧ far ((1 - u) * (pt o r (m - h)).1 + u * (pt o r (m + h)).1, (1 - u) * (pt o r (m - h)).2 + u * (pt o r (m + h)).2) (pt o r (m + x)) ≤
      |r| * (1 - Real.cos h) := by
  have hpi := Real.pi_pos
  have hsin : |Real.sin x| ≤ |Real.sin h| := by
    rw [Real.abs_sin_eq_sin_abs_of_abs_le_pi (by linarith), Real.abs_sin_eq_sin_abs_of_abs_le_pi (by linarith)]
    exact Real.sin_le_sin_of_le_of_le_pi_div_two (by linarith [abs_nonneg x]) hh hx
  have hcos : Real.cos h ≤ Real.cos x := by
    rw [← Real.cos_abs h, ← Real.cos_abs x]
    exact Real.cos_le_cos_of_nonneg_of_le_pi (abs_nonneg x) (by linarith) hx
  have hu : ∃ u : ℝ, 0 ≤ u ∧ u ≤ 1 ∧ (2 * u - 1) * Real.sin h = Real.sin x := by
    by_cases h0 : Real.sin h = 0
    · rw [h0, abs_zero] at hsin
      exact ⟨0, le_refl _, zero_le_one, by rw [h0, mul_zero, abs_nonpos_iff.1 hsin]⟩
    · have hq : |Real.sin x / Real.sin h| ≤ 1 := by
        rw [abs_div]
        exact (div_le_one (abs_pos.2 h0)).2 hsin
      obtain ⟨q1, q2⟩ := abs_le.1 hq
      refine ⟨(Real.sin x / Real.sin h + 1) / 2, by linarith, by linarith, ?_⟩
      field_simp
      ring
  obtain ⟨u, u0, u1, he⟩ := hu
  refine ⟨u, u0, u1, ?_⟩
  have hd : far ((1 - u) * (pt o r (m - h)).1 + u * (pt o r (m + h)).1, (1 - u) * (pt o r (m - h)).2 + u * (pt o r (m + h)).2) (pt o r (m + x)) =
      |r * (Real.cos x - Real.cos h)| := by
    unfold far pt
    rw [← Real.sqrt_sq_eq_abs]
    congr 1
    simp only
    rw [Real.cos_sub, Real.cos_add, Real.sin_sub, Real.sin_add, Real.cos_add, Real.sin_add]
    have e1 : (1 - u) * ((Real.cos m * Real.cos h + Real.sin m * Real.sin h) * r + o.1) + u * ((Real.cos m * Real.cos h - Real.sin m * Real.sin h) * r + o.1) -
        ((Real.cos m * Real.cos x - Real.sin m * Real.sin x) * r + o.1) = r * (Real.cos h - Real.cos x) * Real.cos m := by
      linear_combination (-(Real.sin m * r)) * he
    have e2 : (1 - u) * ((Real.sin m * Real.cos h - Real.cos m * Real.sin h) * r + o.2) + u * ((Real.sin m * Real.cos h + Real.cos m * Real.sin h) * r + o.2) -
        ((Real.sin m * Real.cos x + Real.cos m * Real.sin x) * r + o.2) = r * (Real.cos h - Real.cos x) * Real.sin m := by
      linear_combination (Real.cos m * r) * he
    rw [e1, e2]
    linear_combination (r * (Real.cos h - Real.cos x)) ^ 2 * Real.sin_sq_add_cos_sq m
  rw [hd, abs_mul, abs_of_nonneg (sub_nonneg.2 hcos)]
  exact mul_le_mul_of_nonneg_left (by linarith [Real.cos_le_one x]) (abs_nonneg r)

theorem dir_cases (l : Circular) : l.direction = 1 ∨ l.direction = -1 := by
  unfold Circular.direction
  cases l.clockwise
  · exact Or.inl rfl
  · exact Or.inr rfl

theorem span (l : Circular) (hr : 0 < l.radius) : l.endPhase - l.startPhase = l.direction * (l.length / l.radius) := by
  unfold Circular.length
  rcases dir_cases l with h | h <;> rw [h] <;> field_simp

theorem phases_get (a b : ℝ) (i : Nat) (hi : i < 100) : (phases a b)[i]? = some (a + (i : ℝ) * ((b - a) / 99)) := by
  unfold phases
  rw [List.getElem?_map, List.getElem?_range hi]
  rfl

theorem onCircle_get (o : ℝ × ℝ) (r a b : ℝ) (i : Nat) (hi : i < 100) : (onCircle o r (phases a b))[i]? = some (pt o r (a + (i : ℝ) * ((b - a) / 99))) := by
  unfold onCircle
  rw [List.getElem?_map, phases_get a b i hi]
  rfl

theorem onCircle_length (o : ℝ × ℝ) (r a b : ℝ) : (onCircle o r (phases a b)).length = 100 := by
  unfold onCircle phases
  rw [List.length_map, List.length_map, List.length_range]

/-- A number in [0, 99] is in one of 99 intervals. -/
theorem interval (x : ℝ) (h0 : 0 ≤ x) (h1 : x ≤ 99) : ∃ i : Nat, i < 99 ∧ |x - (i : ℝ) - 1 / 2| ≤ 1 / 2 := by
  by_cases h : x = 99
  · exact ⟨98, by norm_num, by rw [h]; norm_num⟩
  · have hlt : x < 99 := lt_of_le_of_ne h1 h
    refine ⟨⌊x⌋₊, (Nat.floor_lt h0).2 (by exact_mod_cast hlt), ?_⟩
    have a1 := Nat.floor_le h0
    have a2 := Nat.lt_floor_add_one x
    rw [abs_le]
    constructor <;> linarith

theorem position_pt (l : Circular) (s r : ℝ) : l.position s r = pt l.center (l.radius - r * l.direction) (l.direction * s / l.radius + l.startPhase) := by
  unfold Circular.position pt
  simp only
  rw [mul_comm (Real.cos _), mul_comm (Real.sin _), add_comm l.center.1, add_comm l.center.2]

/-- The point of an arc in terms of one of the 99 chords. -/
theorem on_arc (l : Circular) (w : ℝ) (hp : ProperArc l w) (s : ℝ) (h0 : 0 ≤ s) (h1 : s ≤ l.length) :
    ∃ (i : Nat) (m h x : ℝ), i < 99 ∧ |x| ≤ |h| ∧ |h| ≤ Real.pi / 2 ∧ l.direction * s / l.radius + l.startPhase = m + x ∧
      l.startPhase + (i : ℝ) * ((l.endPhase - l.startPhase) / 99) = m - h ∧ l.startPhase + ((i + 1 : Nat) : ℝ) * ((l.endPhase - l.startPhase) / 99) = m + h ∧
      Real.cos h = Real.cos (l.length / l.radius / 198) := by
  have hr := hp.radius
  have hx : ∃ x : ℝ, 0 ≤ x ∧ x ≤ 99 ∧ s = x * (l.length / 99) := by
    by_cases hl : l.length = 0
    · refine ⟨0, le_refl _, by norm_num, ?_⟩
      rw [hl] at h1
      rw [zero_mul]
      exact le_antisymm h1 h0
    · have hpos : 0 < l.length := lt_of_le_of_ne hp.forward (Ne.symm hl)
      refine ⟨99 * s / l.length, by positivity, ?_, by field_simp⟩
      rw [div_le_iff₀ hpos]
      linarith
  obtain ⟨x, x0, x1, rfl⟩ := hx
  obtain ⟨i, hi, hix⟩ := interval x x0 x1
  have hspan := span l hr
  have habs : |l.direction| = 1 := by rcases dir_cases l with h | h <;> rw [h] <;> simp
  refine ⟨i, l.startPhase + ((i : ℝ) + 1 / 2) * ((l.endPhase - l.startPhase) / 99), (l.endPhase - l.startPhase) / 198, (x - (i : ℝ) - 1 / 2) * ((l.endPhase - l.startPhase) / 99),
    hi, ?_, ?_, ?_, by ring, by push_cast; ring, ?_⟩
  · rw [abs_mul, show (l.endPhase - l.startPhase) / 198 = 1 / 2 * ((l.endPhase - l.startPhase) / 99) from by ring, abs_mul, abs_of_pos (show (0 : ℝ) < 1 / 2 by norm_num)]
    exact mul_le_mul_of_nonneg_right hix (abs_nonneg _)
  · rw [hspan, abs_div, abs_mul, habs, one_mul, abs_of_nonneg (div_nonneg hp.forward hr.le), abs_of_pos (show (0 : ℝ) < 198 by norm_num), div_div,
      div_le_div_iff₀ (by positivity) (by norm_num)]
    nlinarith [hp.short]
  · rw [hspan]
    field_simp
    ring
  · rw [hspan]
    rcases dir_cases l with h | h
    · rw [h, one_mul]
    · rw [h, ← Real.cos_neg]
      congr 1
      ring

theorem circular_shows (l : Circular) (w : ℝ) (cs : List (ℝ × ℝ)) (h : trace (.circular l w) = some cs) : Shows (.circular l w) cs := by
  intro hp
  have hcs := Option.some.inj h
  have hr := hp.radius
  have hin : ∀ i : Nat, i < 100 → cs[i]? = some (pt l.center (l.radius - w / 2) (l.startPhase + (i : ℝ) * ((l.endPhase - l.startPhase) / 99))) := by
    intro i hi
    rw [← hcs, List.append_assoc, List.getElem?_append_left (by rw [onCircle_length]; exact hi)]
    exact onCircle_get _ _ _ _ i hi
  have hout : ∀ i : Nat, i < 100 → cs[199 - i]? = some (pt l.center (l.radius + w / 2) (l.startPhase + (i : ℝ) * ((l.endPhase - l.startPhase) / 99))) := by
    intro i hi
    rw [← hcs, List.append_assoc, List.getElem?_append_right (by rw [onCircle_length]; omega), onCircle_length,
      List.getElem?_append_left (by rw [List.length_reverse, onCircle_length]; omega), List.getElem?_reverse (by rw [onCircle_length]; omega), onCircle_length,
      show 100 - 1 - (199 - i - 100) = i from by omega]
    exact onCircle_get _ _ _ _ i hi
  refine ⟨?_, ?_, ?_⟩
  · intro s r h0 h1 hr'
    obtain ⟨i, m, hh, x, hi, hx, hpi, e1, e2, e3, e4⟩ := on_arc l w hp s h0 h1
    rw [position_pt, e1, ← e4]
    have hcase : l.radius - r * l.direction = l.radius - w / 2 ∨ l.radius - r * l.direction = l.radius + w / 2 := by
      rcases hr' with rfl | rfl <;> rcases dir_cases l with h | h <;> rw [h]
      · left; ring
      · right; ring
      · right; ring
      · left; ring
    have hmono : ∀ ρ : ℝ, |ρ| ≤ l.radius + w / 2 → |ρ| * (1 - Real.cos hh) ≤ (l.radius + w / 2) * (1 - Real.cos hh) :=
      fun ρ hρ => mul_le_mul_of_nonneg_right hρ (sub_nonneg.2 (Real.cos_le_one _))
    rcases hcase with hc | hc
    · rw [hc]
      obtain ⟨u, u0, u1, hu⟩ := chord_near l.center (l.radius - w / 2) m hh x hx hpi
      refine ⟨i, _, _, u, hin i (by omega), hin (i + 1) (by omega), u0, u1, ?_⟩
      rw [e2, e3]
      exact hu.trans (hmono _ (by rw [abs_le]; constructor <;> linarith [hp.width, hp.narrow]))
    · rw [hc]
      obtain ⟨u, u0, u1, hu⟩ := chord_near l.center (l.radius + w / 2) m hh x hx hpi
      have g1 := hout (i + 1) (by omega)
      have g2 := hout i (by omega)
      rw [show 199 - i = 199 - (i + 1) + 1 from by omega] at g2
      refine ⟨199 - (i + 1), _, _, 1 - u, g1, g2, by linarith, by linarith, ?_⟩
      rw [e2, e3]
      have e5 : ∀ a b : ℝ, (1 - (1 - u)) * b + (1 - u) * a = (1 - u) * a + u * b := by intro a b; ring
      rw [e5, e5]
      exact hu.trans (hmono _ (by rw [abs_le]; constructor <;> linarith [hp.width, hp.narrow]))
  · have hcorner : ∀ (i : Nat), i < 100 → ∀ σ : ℝ, σ = 1 ∨ σ = -1 →
        ∃ s r : ℝ, 0 ≤ s ∧ s ≤ l.length ∧ (r = w / 2 ∨ r = -(w / 2)) ∧ pt l.center (l.radius - σ * (w / 2)) (l.startPhase + (i : ℝ) * ((l.endPhase - l.startPhase) / 99)) = l.position s r := by
      intro i hi σ hσ
      have hi' : (i : ℝ) ≤ 99 := by exact_mod_cast (by omega : i ≤ 99)
      have hi0 : (0 : ℝ) ≤ (i : ℝ) := Nat.cast_nonneg i
      refine ⟨(i : ℝ) / 99 * l.length, σ * l.direction * (w / 2), mul_nonneg (by positivity) hp.forward, ?_, ?_, ?_⟩
      · have : (i : ℝ) / 99 ≤ 1 := by rw [div_le_one (by norm_num)]; exact hi'
        nlinarith [hp.forward]
      · rcases hσ with rfl | rfl <;> rcases dir_cases l with h | h <;> rw [h]
        · left; ring
        · right; ring
        · right; ring
        · left; ring
      · rw [position_pt, span l hr]
        have hdd : l.direction * l.direction = 1 := by rcases dir_cases l with h | h <;> rw [h] <;> norm_num
        have a1 : l.radius - σ * (w / 2) = l.radius - σ * l.direction * (w / 2) * l.direction := by linear_combination (σ * (w / 2)) * hdd
        have a2 : l.startPhase + (i : ℝ) * (l.direction * (l.length / l.radius) / 99) = l.direction * ((i : ℝ) / 99 * l.length) / l.radius + l.startPhase := by
          field_simp
          ring
        rw [← a1, a2]
    have hmem : ∀ (ρ : ℝ), ∀ c ∈ onCircle l.center ρ (phases l.startPhase l.endPhase), ∃ i : Nat, i < 100 ∧
        c = pt l.center ρ (l.startPhase + (i : ℝ) * ((l.endPhase - l.startPhase) / 99)) := by
      intro ρ c hc
      obtain ⟨i, hi⟩ := List.mem_iff_getElem?.1 hc
      have hlt := (List.getElem?_eq_some_iff.1 hi).1
      rw [onCircle_length] at hlt
      rw [onCircle_get _ _ _ _ i hlt] at hi
      exact ⟨i, hlt, (Option.some.inj hi).symm⟩
    have hinner : ∀ c ∈ onCircle l.center (l.radius - w / 2) (phases l.startPhase l.endPhase), ∃ s r : ℝ, 0 ≤ s ∧ s ≤ l.length ∧ (r = w / 2 ∨ r = -(w / 2)) ∧ c = l.position s r := by
      intro c hc
      obtain ⟨i, hi, rfl⟩ := hmem _ c hc
      have := hcorner i hi 1 (Or.inl rfl)
      rwa [one_mul] at this
    intro c hc
    rw [← hcs] at hc
    rcases List.mem_append.1 hc with hc | hc
    · rcases List.mem_append.1 hc with hc | hc
      · exact hinner c hc
      · obtain ⟨i, hi, rfl⟩ := hmem _ c (List.mem_reverse.1 hc)
        have := hcorner i hi (-1) (Or.inr rfl)
        rwa [show l.radius - -1 * (w / 2) = l.radius + w / 2 from by ring] at this
    · exact hinner c (List.mem_of_mem_take hc)
  · rw [← hcs]
    have ht : (onCircle l.center (l.radius - w / 2) (phases l.startPhase l.endPhase)).take 1 = [pt l.center (l.radius - w / 2) (l.startPhase + ((0 : Nat) : ℝ) * ((l.endPhase - l.startPhase) / 99))] := by
      have := onCircle_get l.center (l.radius - w / 2) l.startPhase l.endPhase 0 (by omega)
      cases hl : onCircle l.center (l.radius - w / 2) (phases l.startPhase l.endPhase) with
      | nil => rw [hl] at this; cases this
      | cons a t => rw [hl] at this; rw [List.take_succ_cons, List.take_zero]; exact congrArg (fun x => [x]) (Option.some.inj this)
    rw [ht, List.getLast?_append_of_ne_nil _ (by simp), List.append_assoc, List.head?_append_of_ne_nil _ (by intro h; have := onCircle_length l.center (l.radius - w / 2) l.startPhase l.endPhase; rw [h] at this; cases this),
      List.head?_eq_getElem?, onCircle_get _ _ _ _ 0 (by omega)]
    rfl

theorem new_unit (start fin : ℝ × ℝ) (hne : start ≠ fin) : 0 < (Straight.new start fin).length ∧
    (Straight.new start fin).dir.1 ^ 2 + (Straight.new start fin).dir.2 ^ 2 = 1 ∧
    fin.1 = start.1 + (Straight.new start fin).length * (Straight.new start fin).dir.1 ∧ fin.2 = start.2 + (Straight.new start fin).length * (Straight.new start fin).dir.2 := by
  have hpos : 0 < (fin.1 - start.1) * (fin.1 - start.1) + (fin.2 - start.2) * (fin.2 - start.2) := by
    rcases ne_or_eq fin.1 start.1 with h | h
    · have := mul_self_pos.2 (sub_ne_zero.2 h)
      nlinarith [mul_self_nonneg (fin.2 - start.2)]
    · have h2 : fin.2 ≠ start.2 := fun h2 => hne (Prod.ext h.symm h2.symm)
      have := mul_self_pos.2 (sub_ne_zero.2 h2)
      nlinarith [mul_self_nonneg (fin.1 - start.1)]
  have hl : 0 < (Straight.new start fin).length := Real.sqrt_pos.2 hpos
  have hsq : (Straight.new start fin).length * (Straight.new start fin).length = (fin.1 - start.1) * (fin.1 - start.1) + (fin.2 - start.2) * (fin.2 - start.2) :=
    Real.mul_self_sqrt hpos.le
  have d1 : (Straight.new start fin).dir.1 = (fin.1 - start.1) / (Straight.new start fin).length := rfl
  have d2 : (Straight.new start fin).dir.2 = (fin.2 - start.2) / (Straight.new start fin).length := rfl
  refine ⟨hl, ?_, ?_, ?_⟩
  · rw [d1, d2]
    field_simp
    linear_combination -hsq
  · rw [d1]; field_simp; ring
  · rw [d2]; field_simp; ring

theorem straight_shows (start fin : ℝ × ℝ) (w : ℝ) (cs : List (ℝ × ℝ)) (h : trace (.straight start fin w) = some cs) : Shows (.straight start fin w) cs := by
  intro hne hw
  have hcs := (Option.some.inj h).symm
  obtain ⟨hlen, hu, hf1, hf2⟩ := new_unit start fin hne
  have hstart : (Straight.new start fin).start = start := rfl
  generalize hS : Straight.new start fin = S at *
  simp only [Straight.latDir] at hcs
  refine ⟨Set.Subset.antisymm ?_ ?_, by rw [hcs]; rfl⟩
  · refine convexHull_min ?_ ?_
    · intro c hc
      have hc : c ∈ cs := hc
      rw [hcs] at hc
      unfold Strip
      simp only [hS, Set.mem_ofPred_eq, Straight.coords, Straight.latDir, hstart]
      have hw2 : |w / 2| = w / 2 := abs_of_nonneg (by linarith)
      simp only [List.mem_cons, List.not_mem_nil, or_false] at hc
      have key : ∀ (a σ : ℝ), 0 ≤ a → a ≤ S.length → |σ| ≤ w / 2 → c = (start.1 + a * S.dir.1 + σ * -S.dir.2, start.2 + a * S.dir.2 + σ * S.dir.1) →
          0 ≤ (c.1 - start.1) * S.dir.1 + (c.2 - start.2) * S.dir.2 ∧ (c.1 - start.1) * S.dir.1 + (c.2 - start.2) * S.dir.2 ≤ S.length ∧
          |(c.1 - start.1) * -S.dir.2 + (c.2 - start.2) * S.dir.1| ≤ w / 2 := by
        rintro a σ ha0 ha1 hσ rfl
        have q1 : (start.1 + a * S.dir.1 + σ * -S.dir.2 - start.1) * S.dir.1 + (start.2 + a * S.dir.2 + σ * S.dir.1 - start.2) * S.dir.2 = a := by linear_combination a * hu
        have q2 : (start.1 + a * S.dir.1 + σ * -S.dir.2 - start.1) * -S.dir.2 + (start.2 + a * S.dir.2 + σ * S.dir.1 - start.2) * S.dir.1 = σ := by linear_combination σ * hu
        simp only
        rw [q1, q2]
        exact ⟨ha0, ha1, hσ⟩
      have hneg : |-(w / 2)| ≤ w / 2 := by rw [abs_neg, hw2]
      rcases hc with rfl | rfl | rfl | rfl | rfl
      · exact key 0 (w / 2) le_rfl hlen.le hw2.le (Prod.ext (by simp) (by simp))
      · exact key S.length (w / 2) hlen.le le_rfl hw2.le (Prod.ext (by simp only; rw [hf1]) (by simp only; rw [hf2]))
      · exact key S.length (-(w / 2)) hlen.le le_rfl hneg (Prod.ext (by simp only; rw [hf1]; ring) (by simp only; rw [hf2]; ring))
      · exact key 0 (-(w / 2)) le_rfl hlen.le hneg (Prod.ext (by simp only; ring) (by simp only; ring))
      · exact key 0 (w / 2) le_rfl hlen.le hw2.le (Prod.ext (by simp) (by simp))
    · intro p hp q hq a b ha hb hab
      unfold Strip at *
      simp only [hS, Set.mem_ofPred_eq, Straight.coords, Straight.latDir, hstart] at *
      obtain ⟨p1, p2, p3⟩ := hp
      obtain ⟨q1, q2, q3⟩ := hq
      rw [abs_le] at p3 q3
      have r1 : ((a • p + b • q).1 - start.1) * S.dir.1 + ((a • p + b • q).2 - start.2) * S.dir.2 =
          a * ((p.1 - start.1) * S.dir.1 + (p.2 - start.2) * S.dir.2) + b * ((q.1 - start.1) * S.dir.1 + (q.2 - start.2) * S.dir.2) := by
        simp only [Prod.fst_add, Prod.snd_add, Prod.smul_fst, Prod.smul_snd, smul_eq_mul]
        linear_combination (start.1 * S.dir.1 + start.2 * S.dir.2) * hab
      have r2 : ((a • p + b • q).1 - start.1) * -S.dir.2 + ((a • p + b • q).2 - start.2) * S.dir.1 =
          a * ((p.1 - start.1) * -S.dir.2 + (p.2 - start.2) * S.dir.1) + b * ((q.1 - start.1) * -S.dir.2 + (q.2 - start.2) * S.dir.1) := by
        simp only [Prod.fst_add, Prod.snd_add, Prod.smul_fst, Prod.smul_snd, smul_eq_mul]
        linear_combination (-start.1 * S.dir.2 + start.2 * S.dir.1) * hab
      rw [r1, r2, abs_le]
      have hb' : b = 1 - a := by linarith
      refine ⟨by nlinarith, ?_, ?_, ?_⟩
      · nlinarith [mul_le_mul_of_nonneg_left p2 ha, mul_le_mul_of_nonneg_left q2 hb]
      · nlinarith [mul_le_mul_of_nonneg_left p3.1 ha, mul_le_mul_of_nonneg_left q3.1 hb]
      · nlinarith [mul_le_mul_of_nonneg_left p3.2 ha, mul_le_mul_of_nonneg_left q3.2 hb]
  · intro p hp
    unfold Strip at hp
    simp only [hS, Set.mem_ofPred_eq, Straight.coords, Straight.latDir, hstart] at hp
    obtain ⟨p1, p2, p3⟩ := hp
    set s := (p.1 - start.1) * S.dir.1 + (p.2 - start.2) * S.dir.2 with hs
    set r := (p.1 - start.1) * -S.dir.2 + (p.2 - start.2) * S.dir.1 with hr
    have e1 : p.1 = start.1 + s * S.dir.1 + r * -S.dir.2 := by rw [hs, hr]; linear_combination -(p.1 - start.1) * hu
    have e2 : p.2 = start.2 + s * S.dir.2 + r * S.dir.1 := by rw [hs, hr]; linear_combination -(p.2 - start.2) * hu
    have hconv := convex_convexHull ℝ {v : ℝ × ℝ | v ∈ cs}
    have hm : ∀ c, c ∈ cs → c ∈ convexHull ℝ {v : ℝ × ℝ | v ∈ cs} := fun c hc => subset_convexHull ℝ _ hc
    obtain ⟨b, b0, b1, hb⟩ : ∃ b : ℝ, 0 ≤ b ∧ b ≤ 1 ∧ r = (2 * b - 1) * (w / 2) := by
      obtain ⟨r1, r2⟩ := abs_le.1 p3
      by_cases h0 : w = 0
      · refine ⟨0, le_rfl, zero_le_one, ?_⟩
        rw [h0] at r1 r2 ⊢
        linarith
      · have hpos : 0 < w := lt_of_le_of_ne hw (Ne.symm h0)
        refine ⟨(r + w / 2) / w, div_nonneg (by linarith) hw, by rw [div_le_one hpos]; linarith, ?_⟩
        field_simp
        ring
    have hsl : s = s / S.length * S.length := by field_simp
    have ha0 : 0 ≤ s / S.length := div_nonneg p1 hlen.le
    have ha1 : s / S.length ≤ 1 := (div_le_one hlen).2 p2
    have hedge1 := hconv (hm (start.1 + w / 2 * -S.dir.2, start.2 + w / 2 * S.dir.1) (by rw [hcs]; simp)) (hm (fin.1 + w / 2 * -S.dir.2, fin.2 + w / 2 * S.dir.1) (by rw [hcs]; simp))
      (sub_nonneg.2 ha1) ha0 (by ring)
    have hedge2 := hconv (hm (start.1 - w / 2 * -S.dir.2, start.2 - w / 2 * S.dir.1) (by rw [hcs]; simp)) (hm (fin.1 - w / 2 * -S.dir.2, fin.2 - w / 2 * S.dir.1) (by rw [hcs]; simp))
      (sub_nonneg.2 ha1) ha0 (by ring)
    have hp := hconv hedge1 hedge2 b0 (sub_nonneg.2 b1) (by ring)
    have : p = b • ((1 - s / S.length) • (start.1 + w / 2 * -S.dir.2, start.2 + w / 2 * S.dir.1) + (s / S.length) • (fin.1 + w / 2 * -S.dir.2, fin.2 + w / 2 * S.dir.1)) +
        (1 - b) • ((1 - s / S.length) • (start.1 - w / 2 * -S.dir.2, start.2 - w / 2 * S.dir.1) + (s / S.length) • (fin.1 - w / 2 * -S.dir.2, fin.2 - w / 2 * S.dir.1)) := by
      apply Prod.ext
      · simp only [Prod.fst_add, Prod.smul_fst, smul_eq_mul]
        rw [e1, hf1, hb]
        linear_combination S.dir.1 * hsl
      · simp only [Prod.snd_add, Prod.smul_snd, smul_eq_mul]
        rw [e2, hf2, hb]
        linear_combination S.dir.2 * hsl
    rw [this]
    exact hp

theorem trace_shows (s : Seg) (cs : List (ℝ × ℝ)) (h : trace s = some cs) : Shows s cs := by
  cases s with
  | straight a b w => exact straight_shows a b w cs h
  | circular l w => exact circular_shows l w cs h
  | unknown => cases h

end Verif.DrawMap
