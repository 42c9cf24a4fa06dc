import Verif.Model.Maps
import Verif.Props.Lane
import Mathlib.Analysis.Real.Pi.Bounds

/-!
Properties of the example maps: C38, C39, C52, C53.
-/

set_option autoImplicit false

namespace Verif.Props

open Verif.Lane Verif.Lane.Spec Verif.Maps

/-- Specification of a lane change `sw` that moves by `delta` across the road, for a map with a table and the coordinates of its lanes:
a request that is accepted leads to a mode that lies physically on the old lane and ends on a lane at the distance `delta`; and a request
is accepted whenever there is such a lane. -/
structure LaneChange (d : Table) (coord : Dict String ℚ) (sw : String) (delta : ℚ) : Prop where
  sound : ∀ lane m, h d lane "Normal" sw = .ok (some m) → ∃ lane' x, String.ofList (physLane m.toList) = lane ∧
    h d m sw "Normal" = .ok (some lane') ∧ Dict.get? coord lane = some x ∧ Dict.get? coord lane' = some (x + delta)
  complete : ∀ lane lane' x, Dict.get? coord lane = some x → Dict.get? coord lane' = some (x + delta) →
    ∃ m, h d lane "Normal" sw = .ok (some m)

theorem h_some (d : Table) (a b c m : String) (hh : h d a b c = .ok (some m)) : ((a, b, c), m) ∈ d := by
  unfold h at hh
  split at hh
  · cases hh
  · cases hg : Dict.get? d (a, b, c) with
    | none => simp [hg] at hh
    | some v =>
      simp only [hg, Except.ok.injEq, Option.some.injEq] at hh
      subst hh
      exact Dict.mem_of_get? hg

/-- A table has a lane change if all its entries have it. -/
theorem laneChange_of (d : Table) (coord : Dict String ℚ) (sw : String) (delta : ℚ)
    (h1 : ∀ e ∈ d, e.1.2.1 = "Normal" → e.1.2.2 = sw → String.ofList (physLane e.2.toList) = e.1.1 ∧
      ∃ l ∈ coord, h d e.2 sw "Normal" = .ok (some l.1) ∧ ∃ x ∈ coord, Dict.get? coord e.1.1 = some x.2 ∧ Dict.get? coord l.1 = some (x.2 + delta))
    (h2 : ∀ a ∈ coord, ∀ b ∈ coord, b.2 = a.2 + delta → ∃ e ∈ d, h d a.1 "Normal" sw = .ok (some e.2)) : LaneChange d coord sw delta := by
  constructor
  · intro lane m hh
    obtain ⟨e1, l, _, e2, x, _, e3, e4⟩ := h1 _ (h_some d _ _ _ _ hh) rfl rfl
    exact ⟨l.1, x.2, e1, e2, e3, e4⟩
  · intro lane lane' x g1 g2
    obtain ⟨e, _, he⟩ := h2 _ (Dict.mem_of_get? g1) _ (Dict.mem_of_get? g2) rfl
    exact ⟨e.2, he⟩

/-- **C39**, maps with a table. Lane changes to the left and to the right by one lane (3 units) on `SimpleMap3`, `SimpleMap6`, `M1`, `M3`,
`SimpleMap4` and `M2`; up and down by one lane (8 units) on the maps with three dimensions. -/
theorem C39_table_maps :
    LaneChange table3 offsets3 "SwitchLeft" 3 ∧ LaneChange table3 offsets3 "SwitchRight" (-3) ∧
    LaneChange tableM1 offsets3 "SwitchLeft" 3 ∧ LaneChange tableM1 offsets3 "SwitchRight" (-3) ∧
    LaneChange table4 offsets4 "SwitchLeft" 3 ∧ LaneChange table4 offsets4 "SwitchRight" (-3) ∧
    LaneChange table3d heights3d "MoveUp" 8 ∧ LaneChange table3d heights3d "MoveDown" (-8) := by
  refine ⟨laneChange_of _ _ _ _ ?_ ?_, laneChange_of _ _ _ _ ?_ ?_, laneChange_of _ _ _ _ ?_ ?_, laneChange_of _ _ _ _ ?_ ?_,
    laneChange_of _ _ _ _ ?_ ?_, laneChange_of _ _ _ _ ?_ ?_, laneChange_of _ _ _ _ ?_ ?_, laneChange_of _ _ _ _ ?_ ?_⟩ <;> decide +kernel

/-- **C39**: on `M1` braking is possible on every lane, and only there, and does not change the lane. -/
theorem C39_brake (lane m : String) : Dict.get? tableM1 (lane, "Normal", "Brake") = some m ↔ m = lane ∧ ∃ x, Dict.get? offsets3 lane = some x := by
  have k1 : ∀ e ∈ tableM1, e.1.2.1 = "Normal" → e.1.2.2 = "Brake" → e.2 = e.1.1 ∧ ∃ x ∈ offsets3, Dict.get? offsets3 e.1.1 = some x.2 := by decide +kernel
  have k2 : ∀ x ∈ offsets3, Dict.get? tableM1 (x.1, "Normal", "Brake") = some x.1 := by decide +kernel
  constructor
  · intro h
    obtain ⟨h1, x, _, h2⟩ := k1 _ (Dict.mem_of_get? h) rfl rfl
    exact ⟨h1, x.2, h2⟩
  · rintro ⟨rfl, x, hx⟩
    exact k2 _ (Dict.mem_of_get? hx)

/-- **C39**, `left_lane` and `right_lane` of `SimpleMap4` and `M2` give the lanes at the distance of one lane, if there is one. -/
theorem C39_neighbors (a b : String) :
    (Dict.get? left4 a = some b ↔ ∃ x, Dict.get? offsets4 a = some x ∧ Dict.get? offsets4 b = some (x + 3)) ∧
    (Dict.get? right4 a = some b ↔ ∃ x, Dict.get? offsets4 a = some x ∧ Dict.get? offsets4 b = some (x - 3)) := by
  have l1 : ∀ e ∈ left4, ∃ x ∈ offsets4, Dict.get? offsets4 e.1 = some x.2 ∧ Dict.get? offsets4 e.2 = some (x.2 + 3) := by decide +kernel
  have l2 : ∀ x ∈ offsets4, ∀ y ∈ offsets4, y.2 = x.2 + 3 → Dict.get? left4 x.1 = some y.1 := by decide +kernel
  have r1 : ∀ e ∈ right4, ∃ x ∈ offsets4, Dict.get? offsets4 e.1 = some x.2 ∧ Dict.get? offsets4 e.2 = some (x.2 - 3) := by decide +kernel
  have r2 : ∀ x ∈ offsets4, ∀ y ∈ offsets4, y.2 = x.2 - 3 → Dict.get? right4 x.1 = some y.1 := by decide +kernel
  refine ⟨⟨fun hg => ?_, ?_⟩, ⟨fun hg => ?_, ?_⟩⟩
  · obtain ⟨x, _, h1, h2⟩ := l1 _ (Dict.mem_of_get? hg)
    exact ⟨x.2, h1, h2⟩
  · rintro ⟨x, h1, h2⟩
    exact l2 _ (Dict.mem_of_get? h1) _ (Dict.mem_of_get? h2) rfl
  · obtain ⟨x, _, h1, h2⟩ := r1 _ (Dict.mem_of_get? hg)
    exact ⟨x.2, h1, h2⟩
  · rintro ⟨x, h1, h2⟩
    exact r2 _ (Dict.mem_of_get? h1) _ (Dict.mem_of_get? h2) rfl

/-- **C39**, `SimpleMap4Switch2`, violated: no lane change to the left by one lane is possible, although there are lanes on the left. -/
theorem C39_switch_left_violated : ∀ i < 5, switch2H ('T' :: Nat.toDigits 10 i) "Normal".toList "SwitchLeft".toList = .ok none := by
  decide +kernel

/-- **C39**, `SimpleMap4Switch2` (partial: the other three lane changes). The lanes are `T0` to `T4` from left to right. -/
theorem C39_switch2_partial : ∀ i < 5,
    switch2H ('T' :: Nat.toDigits 10 i) "Normal".toList "SwitchRight".toList =
      (if i + 1 < 5 then .ok (some ('M' :: Nat.toDigits 10 i ++ Nat.toDigits 10 (i + 1))) else .ok none) ∧
    switch2H ('T' :: Nat.toDigits 10 i) "Normal".toList "SwitchRight2".toList =
      (if i + 2 < 5 then .ok (some ('M' :: Nat.toDigits 10 i ++ Nat.toDigits 10 (i + 2))) else .ok none) ∧
    switch2H ('T' :: Nat.toDigits 10 i) "Normal".toList "SwitchLeft2".toList =
      (if 2 ≤ i then .ok (some ('M' :: Nat.toDigits 10 i ++ Nat.toDigits 10 (i - 2))) else .ok none) ∧
    ∀ j < 5, ∀ sw ∈ ["SwitchRight", "SwitchRight2", "SwitchLeft2"],
      switch2H ('M' :: Nat.toDigits 10 i ++ Nat.toDigits 10 j) sw.toList "Normal".toList = .ok (some ('T' :: Nat.toDigits 10 j)) ∧
      physLane ('M' :: Nat.toDigits 10 i ++ Nat.toDigits 10 j) = 'T' :: Nat.toDigits 10 i := by
  have h1 : ∀ i < 5, switch2H ('T' :: Nat.toDigits 10 i) "Normal".toList "SwitchRight".toList =
      (if i + 1 < 5 then .ok (some ('M' :: Nat.toDigits 10 i ++ Nat.toDigits 10 (i + 1))) else .ok none) := by decide +kernel
  have h2 : ∀ i < 5, switch2H ('T' :: Nat.toDigits 10 i) "Normal".toList "SwitchRight2".toList =
      (if i + 2 < 5 then .ok (some ('M' :: Nat.toDigits 10 i ++ Nat.toDigits 10 (i + 2))) else .ok none) := by decide +kernel
  have h3 : ∀ i < 5, switch2H ('T' :: Nat.toDigits 10 i) "Normal".toList "SwitchLeft2".toList =
      (if 2 ≤ i then .ok (some ('M' :: Nat.toDigits 10 i ++ Nat.toDigits 10 (i - 2))) else .ok none) := by decide +kernel
  have h4 : ∀ sw ∈ ["SwitchRight", "SwitchRight2", "SwitchLeft2"], ∀ i < 5, ∀ j < 5,
      switch2H ('M' :: Nat.toDigits 10 i ++ Nat.toDigits 10 j) sw.toList "Normal".toList = .ok (some ('T' :: Nat.toDigits 10 j)) := by
    decide +kernel
  have h5 : ∀ i < 5, ∀ j < 5, physLane ('M' :: Nat.toDigits 10 i ++ Nat.toDigits 10 j) = 'T' :: Nat.toDigits 10 i := by decide +kernel
  exact fun i hi => ⟨h1 i hi, h2 i hi, h3 i hi, fun j hj sw hs => ⟨h4 sw hs i hi j hj, h5 i hi j hj⟩⟩

theorem toDigits_ok (n : Nat) : Nat.toDigits 10 n ≠ [] ∧ ∀ c ∈ Nat.toDigits 10 n, isDigit c = true := by
  constructor
  · intro h
    have := Nat.length_toDigits_pos (b := 10) (n := n)
    rw [h] at this
    simp at this
  · intro c hc
    have := Nat.isDigit_of_mem_toDigits (b := 10) (n := n) (by omega) (by omega) hc
    simpa [Char.isDigit, isDigit, Char.le_def] using this

/-- **C39**, the intersection with any number of lanes per direction. A lane change to the right from lane `i` goes to lane `i + 1`, if there
is one, and one to the left to lane `i - 1`; on the way the agent is physically on lane `i`. -/
theorem C39_intersection (lanes i : Nat) (road : List Char) (hr : road ≠ [] ∧ ∀ c ∈ road, isUpper c = true)
    (mode : List Char) (hm : isSwitch mode = false) :
    (if i + 1 < lanes then
        interH lanes (.phys road i) mode "SwitchRight".toList = .ok (some (.virt road i (i + 1))) ∧
        interH lanes (.virt road i (i + 1)) "SwitchRight".toList mode = .ok (some (.phys road (i + 1))) ∧
        physLane (ILane.virt road i (i + 1)).name = (ILane.phys road i).name
      else interH lanes (.phys road i) mode "SwitchRight".toList = .ok none) ∧
    (if 0 < i then
        interH lanes (.phys road i) mode "SwitchLeft".toList = .ok (some (.virt road i (i - 1))) ∧
        interH lanes (.virt road i (i - 1)) "SwitchLeft".toList mode = .ok (some (.phys road (i - 1))) ∧
        physLane (ILane.virt road i (i - 1)).name = (ILane.phys road i).name
      else interH lanes (.phys road i) mode "SwitchLeft".toList = .ok none) := by
  have s1 : isSwitch "SwitchRight".toList = true := by decide +kernel
  have s2 : isSwitch "SwitchLeft".toList = true := by decide +kernel
  have s3 : hasSub "Left".toList "SwitchRight".toList = false := by decide +kernel
  have s4 : hasSub "Right".toList "SwitchRight".toList = true := by decide +kernel
  have s5 : hasSub "Left".toList "SwitchLeft".toList = true := by decide +kernel
  have s6 : hasSub "Right".toList "SwitchLeft".toList = false := by decide +kernel
  have ph : ∀ j, physLane (ILane.virt road i j).name = (ILane.phys road i).name := fun j =>
    (C38_physical_lane '0' '0' (by decide) (by decide) road (Nat.toDigits 10 i) (Nat.toDigits 10 j) hr (toDigits_ok i) (toDigits_ok j)).2.2.1
  unfold interH
  generalize "SwitchRight".toList = R at *
  generalize "SwitchLeft".toList = L at *
  generalize "Right".toList = r' at *
  generalize "Left".toList = l' at *
  constructor
  · split
    · rename_i hlt
      exact ⟨by simp [hm, s1, s3, s4, hlt], by simp [hm, s1], ph _⟩
    · rename_i hlt
      simp [hm, s1, s3, s4, hlt]
  · split
    · rename_i hlt
      exact ⟨by simp [hm, s2, s5, hlt], by simp [hm, s2], ph _⟩
    · rename_i hlt
      simp [hm, s2, s5, s6, hlt]

/-- The second of three lanes on the road from north to south. -/
example : interH 3 (.phys "NS".toList 1) "Normal".toList "SwitchRight".toList = .ok (some (.virt "NS".toList 1 2)) ∧
    isSwitch "Normal".toList = false ∧ ("NS".toList ≠ [] ∧ ∀ c ∈ "NS".toList, isUpper c = true) := by decide +kernel

/-- **C38**, violated for maps that define `h` by a program and inherit `h_exist`, which looks into the empty table: the lane change exists, and
`h_exist` denies it. -/
theorem C38_intersection_exists_violated : ∃ lane src dest : String,
    hExist [] lane src dest = false ∧ lane.toList = (ILane.phys "NS".toList 0).name ∧
    interH 2 (.phys "NS".toList 0) src.toList dest.toList = .ok (some (.virt "NS".toList 0 1)) :=
  ⟨"NS_0", "Normal", "SwitchRight", by decide +kernel⟩

/-! ### The geometry of the intersection -/

theorem off_succ (w : ℝ) (i : Nat) : off w (i + 1) = off w i + w := by
  unfold off; push_cast; ring

theorem norm2_x (a : ℝ) : norm2 (a, 0) = |a| := by simp [norm2, Real.sqrt_mul_self_eq_abs]

theorem norm2_y (a : ℝ) : norm2 (0, a) = |a| := by simp [norm2, Real.sqrt_mul_self_eq_abs]

/-- **C52**, straight parts. On every straight segment of the intersection the lane with the next number lies at a distance of one width to
the right. -/
theorem C52_next_lane_on_the_right (w s l : ℝ) (hs : 0 < s) (hl : 0 < l) (i : Nat) (x : String) (a b : (ℝ × ℝ) × (ℝ × ℝ))
    (ha : straightEnds w s l i x = some a) (hb : straightEnds w s l (i + 1) x = some b) :
    ((Straight.new a.1 a.2).coords b.1).2 = -w ∧ ((Straight.new a.1 a.2).coords b.2).2 = -w := by
  have o := off_succ w i
  have h2s : |s + s| = s + s := abs_of_pos (by linarith)
  have hll : |l| = l := abs_of_pos hl
  unfold straightEnds at ha
  split at ha <;> simp only [Option.some.injEq, reduceCtorEq] at ha <;> simp only [straightEnds, Option.some.injEq] at hb <;>
    subst ha <;> subst hb <;> simp only [Straight.new, Straight.coords, Straight.latDir, sub_self, o]
  case h_1 => rw [show s - (s + l) = -l by ring, norm2_y, abs_neg, hll]; field_simp; constructor <;> ring
  case h_2 => rw [show -s - -(s + l) = l by ring, norm2_y, hll]; field_simp; constructor <;> ring
  case h_3 => rw [show s - (s + l) = -l by ring, norm2_x, abs_neg, hll]; field_simp; constructor <;> ring
  case h_4 => rw [show -s - -(s + l) = l by ring, norm2_x, hll]; field_simp; constructor <;> ring
  case h_5 => rw [show s + l - s = l by ring, norm2_y, hll]; field_simp; constructor <;> ring
  case h_6 => rw [show s + l - s = l by ring, norm2_x, hll]; field_simp; constructor <;> ring
  case h_7 => rw [show -(s + l) - -s = -l by ring, norm2_y, abs_neg, hll]; field_simp; constructor <;> ring
  case h_8 => rw [show -(s + l) - -s = -l by ring, norm2_x, abs_neg, hll]; field_simp; constructor <;> ring
  case h_9 =>
    have : s + s ≠ 0 := by linarith
    rw [show -s - s = -(s + s) by ring, norm2_y, abs_neg, h2s]; field_simp; constructor <;> ring
  case h_10 =>
    have : s + s ≠ 0 := by linarith
    rw [show s - -s = s + s by ring, norm2_y, h2s]; field_simp; constructor <;> ring
  case h_11 =>
    have : s + s ≠ 0 := by linarith
    rw [show s - -s = s + s by ring, norm2_x, h2s]; field_simp; constructor <;> ring
  case h_12 =>
    have : s + s ≠ 0 := by linarith
    rw [show -s - s = -(s + s) by ring, norm2_x, abs_neg, h2s]; field_simp; constructor <;> ring

/-- **C52**, curves. On every curve of the intersection the lane with the next number lies at a distance of one width to the right. -/
theorem C52_next_curve_on_the_right (w s : ℝ) (i lanes : Nat) (hw : 0 < w) (hsize : (1 + lanes) * w ≤ s) (hi : i + 1 < lanes) (k : String)
    (outer : Bool) (a b : Circular) (ha : curve w s i k outer = some a) (hb : curve w s (i + 1) k outer = some b) (t : ℝ) :
    (a.coords (b.position t 0)).2 = -w := by
  unfold curve at ha hb
  cases hk : curveParams s k with
  | none => simp [hk] at ha
  | some cs =>
    simp only [hk, Option.map_some, Option.some.injEq] at ha hb
    subst ha; subst hb
    simp only [Circular.coords, Circular.position, Circular.direction]
    have hi' : ((i : ℝ) + 1 + 1) ≤ lanes := by exact_mod_cast hi
    have hn : ∀ r φ : ℝ, 0 ≤ r → norm2 (r * Real.cos φ, r * Real.sin φ) = r := by
      intro r φ h
      have : r * Real.cos φ * (r * Real.cos φ) + r * Real.sin φ * (r * Real.sin φ) = r * r := by
        linear_combination r * r * Real.sin_sq_add_cos_sq φ
      simp only [norm2, this]
      exact Real.sqrt_mul_self h
    have hx : ∀ c x : ℝ, c + x - c = x := fun c x => by ring
    simp only [hx, zero_mul, sub_zero]
    rw [hn]
    · cases outer <;> simp <;> ring
    · cases outer
      · push_cast
        simp
        nlinarith
      · push_cast
        simp
        have : (0 : ℝ) ≤ i := Nat.cast_nonneg i
        nlinarith

/-- The default intersection with two lanes. -/
example : ((1 : ℝ) + (2 : ℕ)) * 3 ≤ 20 ∧ (curve 3 20 0 "NW" false).isSome = true ∧ (straightEnds 3 20 300 0 "NSR").isSome = true := by
  refine ⟨by norm_num, rfl, rfl⟩

/-- **C52**, the lanes of the intersection are connected: each segment ends where the next one starts, for every width, size, length and
lane. -/
theorem C52_intersection_connected (w s l : ℝ) (i lanes : Nat) (hw : 0 < w) (hsize : (1 + lanes) * w ≤ s) (hi : i < lanes) :
    (∀ x ∈ straights, ∃ a b c, straightEnds w s l i x.2.1 = some a ∧ straightEnds w s l i x.2.2.1 = some b ∧
      straightEnds w s l i x.2.2.2 = some c ∧ a.2 = b.1 ∧ b.2 = c.1) ∧
    (∀ x ∈ curves, ∃ a b c, straightEnds w s l i x.2.1 = some a ∧ curve w s i x.2.2.1.1 x.2.2.1.2 = some b ∧
      straightEnds w s l i x.2.2.2 = some c ∧ a.2 = b.position 0 0 ∧ b.position b.length 0 = c.1) := by
  constructor
  · intro x hx
    simp only [straights, List.mem_cons, List.not_mem_nil, or_false] at hx
    rcases hx with rfl | rfl | rfl | rfl <;> exact ⟨_, _, _, rfl, rfl, rfl, rfl, rfl⟩
  · have hi' : ((i : ℝ) + 1) ≤ lanes := by exact_mod_cast hi
    have hi0 : (0 : ℝ) ≤ i := Nat.cast_nonneg i
    have p1 : s + w * (i + 1 / 2) ≠ 0 := by
      have : 0 < s + w * (i + 1 / 2) := by
        have : 0 ≤ w * i := mul_nonneg hw.le hi0
        nlinarith
      linarith
    have p2 : s + w * (i + 1 / 2) * (-1) ≠ 0 := by
      have : 0 < s + w * (i + 1 / 2) * (-1) := by nlinarith
      linarith
    have pos : ∀ c : Circular, c.radius ≠ 0 →
        c.position 0 0 = (c.center.1 + c.radius * Real.cos c.startPhase, c.center.2 + c.radius * Real.sin c.startPhase) ∧
        c.position c.length 0 = (c.center.1 + c.radius * Real.cos c.endPhase, c.center.2 + c.radius * Real.sin c.endPhase) := by
      intro c hc
      have hd : c.direction * c.direction = 1 := by unfold Circular.direction; split <;> norm_num
      have : c.direction * (c.radius * (c.endPhase - c.startPhase) * c.direction) / c.radius + c.startPhase = c.endPhase := by
        field_simp
        linear_combination (c.endPhase - c.startPhase) * hd
      simp [Circular.position, Circular.length, this]
    have c0 : Real.cos ((0 : ℝ) * Real.pi / 2) = 1 := by simp
    have s0 : Real.sin ((0 : ℝ) * Real.pi / 2) = 0 := by simp
    have c1 : Real.cos ((1 : ℝ) * Real.pi / 2) = 0 := by simp
    have s1 : Real.sin ((1 : ℝ) * Real.pi / 2) = 1 := by simp
    have c2 : Real.cos ((2 : ℝ) * Real.pi / 2) = -1 := by rw [show (2 : ℝ) * Real.pi / 2 = Real.pi by ring]; simp
    have s2 : Real.sin ((2 : ℝ) * Real.pi / 2) = 0 := by rw [show (2 : ℝ) * Real.pi / 2 = Real.pi by ring]; simp
    have c3 : Real.cos ((3 : ℝ) * Real.pi / 2) = 0 := by
      rw [show (3 : ℝ) * Real.pi / 2 = Real.pi / 2 + Real.pi by ring, Real.cos_add_pi]; simp
    have s3 : Real.sin ((3 : ℝ) * Real.pi / 2) = -1 := by
      rw [show (3 : ℝ) * Real.pi / 2 = Real.pi / 2 + Real.pi by ring, Real.sin_add_pi]; simp
    have c4 : Real.cos ((4 : ℝ) * Real.pi / 2) = 1 := by rw [show (4 : ℝ) * Real.pi / 2 = 2 * Real.pi by ring]; simp
    have s4 : Real.sin ((4 : ℝ) * Real.pi / 2) = 0 := by rw [show (4 : ℝ) * Real.pi / 2 = 2 * Real.pi by ring]; simp
    have n1 : (0 : ℝ) + 1 = 1 := by norm_num
    have n2 : (1 : ℝ) + 1 = 2 := by norm_num
    have n3 : (2 : ℝ) + 1 = 3 := by norm_num
    have n4 : (3 : ℝ) + 1 = 4 := by norm_num
    intro x hx
    simp only [curves, List.mem_cons, List.not_mem_nil, or_false] at hx
    rcases hx with rfl | rfl | rfl | rfl | rfl | rfl | rfl | rfl <;> refine ⟨_, _, _, rfl, rfl, rfl, ?_, ?_⟩ <;>
      first
        | rw [(pos _ (by simpa using p1)).1]
        | rw [(pos _ (by simpa using p2)).1]
        | rw [(pos _ (by simpa using p1)).2]
        | rw [(pos _ (by simpa using p2)).2]
    all_goals
      simp only [Bool.false_eq_true, if_false, if_true, n1, n2, n3, n4, add_zero, c0, c1, c2, c3, c4, s0, s1, s2, s3, s4, off]
      refine Prod.ext ?_ ?_ <;> simp only <;> ring

/-- **C53**: every lane of the intersection has three segments; the first leads towards the middle and the last away from it; where two straight ones follow each other, the
second starts where the first ends. -/
theorem C53_segments (w s l : ℝ) (xs : List String) (h : xs ∈ laneSegments) : xs.length = 3 ∧
    (∃ a ∈ ["NR", "SR", "ER", "WR"], xs.head? = some a) ∧ (∃ b ∈ ["NL", "SL", "EL", "WL"], xs.getLast? = some b) ∧
    ∀ (i : Nat) (a b : String) (e e' : (ℝ × ℝ) × (ℝ × ℝ)), xs[i]? = some a → xs[i + 1]? = some b → straightEnds w s l 0 a = some e → straightEnds w s l 0 b = some e' → e.2 = e'.1 := by
  have k : ∀ xs ∈ laneSegments, xs.length = 3 ∧ (∃ a ∈ ["NR", "SR", "ER", "WR"], xs.head? = some a) ∧ (∃ b ∈ ["NL", "SL", "EL", "WL"], xs.getLast? = some b) := by decide +kernel
  refine ⟨(k xs h).1, (k xs h).2.1, (k xs h).2.2, ?_⟩
  intro i a b e e' ha hb he he'
  simp only [laneSegments, straights, curves, List.map_cons, List.map_nil, List.cons_append, List.nil_append, List.mem_cons, List.not_mem_nil, or_false] at h
  have hi : i = 0 ∨ i = 1 := by
    have := (List.getElem?_eq_some_iff.1 hb).1
    have := (k xs (by simpa [laneSegments, straights, curves] using h)).1
    omega
  rcases h with rfl | rfl | rfl | rfl | rfl | rfl | rfl | rfl | rfl | rfl | rfl | rfl <;> rcases hi with rfl | rfl <;>
    simp at ha hb <;> subst ha hb <;> simp [straightEnds] at he he' <;> (try (subst he he'; rfl))

/-- **C53**, violated: on the intersection, segments are shared between lanes, and each lane overwrites the longitudinal starts stored in
its segments. A point on the last segment of the lane from north to south has the longitudinal position 350, and the verifier computes an
interval around another number for it. -/
theorem C53_shared_segment_violated : ∃ (start : ℝ) (p : ℝ × ℝ), Dict.get? (intersectionStarts 3 20 300) "SL" = some start ∧
    longitudinal straightOps [Straight.new (-(3/2), 320) (-(3/2), 20), Straight.new (-(3/2), 20) (-(3/2), -20),
        Straight.new (-(3/2), -20) (-(3/2), -320)] p = .ok 350 ∧
    straightEnds 3 20 300 0 "SL" = some ((-(3/2), -20), (-(3/2), -320)) ∧
    ¬ InIv ({ Straight.new (-(3/2), -20) (-(3/2), -320) with longStart := start }.encloseLong p p) 350 := by
  have hpi := Real.pi_lt_d2
  have e1 : Dict.get? (intersectionStarts 3 20 300) "SL" = some (0 + segLength 3 20 300 "ER" + segLength 3 20 300 "SEO") := by
    generalize hf : segLength 3 20 300 = f
    unfold intersectionStarts
    rw [hf]
    simp [laneSegments, straights, curves, storeStarts, Dict.set, Dict.get?]
  have l1 : segLength 3 20 300 "ER" = 300 := by
    simp only [segLength, straightEnds, Straight.new, sub_self, norm2_x]
    norm_num
  have l2 : segLength 3 20 300 "SEO" = (43 / 2) * (Real.pi / 2) := by
    have : curve 3 20 0 (String.ofList ("SEO".toList.take 2)) (decide ("SEO".toList.drop 2 = ['O'])) =
        some ⟨(20, -20), 20 + 3 * ((0 : ℕ) + 1 / 2) * 1, (1 + 0) * Real.pi / 2, (1 + 1) * Real.pi / 2, false, 0⟩ := rfl
    have hn : straightEnds 3 20 300 0 "SEO" = none := rfl
    simp only [segLength, hn, this, Circular.length, Circular.direction]
    norm_num
    ring
  have n1 : (Straight.new (-(3/2), 320) (-(3/2), 20)) = ⟨(-(3/2), 320), (0, -1), 300, 0⟩ := by
    simp only [Straight.new, sub_self, norm2_y]; norm_num
  have n2 : (Straight.new (-(3/2), 20) (-(3/2), -20)) = ⟨(-(3/2), 20), (0, -1), 40, 0⟩ := by
    simp only [Straight.new, sub_self, norm2_y]; norm_num
  have n3 : (Straight.new (-(3/2), -20) (-(3/2), -320)) = ⟨(-(3/2), -20), (0, -1), 300, 0⟩ := by
    simp only [Straight.new, sub_self, norm2_y]; norm_num
  refine ⟨_, (-(3/2), -30), e1, ?_, ?_, ?_⟩
  · rw [n1, n2, n3]
    simp [longitudinal, getSegment, pickSegment, isOn, straightOps, Straight.coords, COMPENSATE]
    norm_num
  · simp only [straightEnds, off]; norm_num
  · rw [n3, l1, l2]
    simp only [InIv, Straight.encloseLong]
    norm_num
    intro _
    nlinarith [Real.pi_pos]

end Verif.Props
