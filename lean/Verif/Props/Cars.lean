import Verif.Proofs.Cars
import Verif.Props.Agents

/-!
C86: controls and speeds of cars stay in their limits. C87: cars follow their lanes.
-/

set_option autoImplicit false

namespace Verif.Props
open Verif.Agents Set

variable {integ : Integ} {init : List ℝ} {bound step : ℝ} {rows : List Row} {n : Nat}

/-! ### C86 -/

/-- **C86**: the steering angle of every car is at most 0.61. -/
theorem C86_steering (c : CarClass) (m : LaneMap) (mode : List String) (s : List ℝ) (u : ℝ × ℝ) (h : c.action m mode s = .ok u) : |u.1| ≤ 61 / 100 := by
  have hd : ∀ speed accel c, Driven speed accel c → c.action m mode s = .ok u → |u.1| ≤ 61 / 100 := by
    intro speed accel c hc h
    obtain ⟨x, y, θ, v, rest, ofMode, _, h1, _⟩ := driven_ok hc h
    obtain ⟨_, _, _, _, _, _, _, _, _, _, _, rfl⟩ := carControl_ok h1
    exact clip_range _
  cases c with
  | npc =>
    obtain ⟨_, _, _, _, _, _, _, _, _, _, _, _, _, _, rfl⟩ := npcAction_ok h
    exact clip_range _
  | weird =>
    change weirdAction mode s = .ok u at h
    unfold weirdAction at h
    split at h
    · split at h
      · cases h; norm_num
      · split at h
        · cases h; show |(2 / 10 : ℝ)| ≤ _; rw [abs_of_pos (by norm_num)]; norm_num
        · split at h
          · cases h; show |(-(2 / 10) : ℝ)| ≤ _; rw [abs_neg, abs_of_pos (by norm_num)]; norm_num
          · cases h; norm_num
    · cases h
  | car speed accel => exact hd speed accel _ (.inl rfl) h
  | debounced speed accel => exact hd speed accel _ (.inr (.inl rfl)) h
  | switch2 speed accel => exact hd speed accel _ (.inr (.inr rfl)) h

/-- The speed after a step. -/
theorem step_speed {action : List ℝ → Except String (ℝ × ℝ)} (hs : 0 < step) {s s' : List ℝ} (hl : 4 ≤ s.length) (h : CarStep action step s s') :
    ∃ u, action s = .ok u ∧ s'.getD 3 0 = max 0 (s.getD 3 0 + u.2 * step) := by
  obtain ⟨u, s1, h1, h2, rfl⟩ := h
  obtain ⟨e1, e2⟩ := flows_speed hs.le hl h2
  refine ⟨u, h1, ?_⟩
  rw [(set3_getD s1 _ (by omega)).1, e2]

/-- **C86**: a car never drives backwards. -/
theorem C86_forward (c : CarClass) (m : LaneMap) (mode : List String) (hn : n = 4 ∨ n = 5) (hs : 0 < step) (hI : ∀ u, Exact integ n (carDyn u) step)
    (hl : init.length = n) (h : carTrace integ (c.action m mode) init bound step = .ok rows) (hv : 0 ≤ init.getD 3 0) (k : Nat) (row : Row) (hk : rows[k]? = some row) :
    0 ≤ speedOf row := by
  obtain ⟨hS, hlen⟩ := (C85_cars_partial c m mode n hn hs hI hl).1 rows h
  cases k with
  | zero => rw [hS.first] at hk; cases hk; exact hv
  | succ k =>
    obtain ⟨hlt, _⟩ := List.getElem?_eq_some_iff.1 hk
    have hk' : rows[k]? = some rows[k] := List.getElem?_eq_getElem (by omega)
    obtain ⟨u, _, e⟩ := step_speed hs (by rw [hlen k _ hk']; omega) (hS.next k _ row hk' hk)
    unfold speedOf
    rw [e]
    exact le_max_left _ _

/-- **C86**: in the modes `Normal`, `SwitchLeft`, `SwitchRight` (and `SwitchLeft2`, `SwitchRight2` of `CarAgentSwitch2`), and in all modes of `NPCAgent` and
`WeirdCarAgent`, the speed does not change. -/
theorem C86_cruise (c : CarClass) (m : LaneMap) (vmode lane : String) (hn : n = 4 ∨ n = 5) (hs : 0 < step) (hI : ∀ u, Exact integ n (carDyn u) step)
    (hl : init.length = n) (h : carTrace integ (c.action m [vmode, lane]) init bound step = .ok rows) (hv : 0 ≤ init.getD 3 0) (hc : Cruises c vmode)
    (k : Nat) (row : Row) (hk : rows[k]? = some row) : speedOf row = init.getD 3 0 := by
  obtain ⟨hS, hlen⟩ := (C85_cars_partial c m [vmode, lane] n hn hs hI hl).1 rows h
  have hacc : ∀ s u, c.action m [vmode, lane] s = .ok u → u.2 = 0 := by
    intro s u hu
    cases c with
    | npc =>
      obtain ⟨_, _, _, _, _, _, _, _, _, _, _, _, _, _, rfl⟩ := npcAction_ok (show npcAction m [vmode, lane] s = .ok u from hu)
      rfl
    | weird =>
      change weirdAction [vmode, lane] s = .ok u at hu
      unfold weirdAction at hu
      split at hu
      · split at hu
        · cases hu; rfl
        · split at hu
          · cases hu; rfl
          · split at hu <;> · cases hu; rfl
      · cases hu
    | car speed accel =>
      rw [driven_accel (.inl rfl) hu, if_neg, if_neg]
      · rintro rfl; simp [Cruises] at hc
      · rintro rfl; simp [Cruises] at hc
    | debounced speed accel =>
      rw [driven_accel (.inr (.inl rfl)) hu, if_neg, if_neg]
      · rintro rfl; simp [Cruises] at hc
      · rintro rfl; simp [Cruises] at hc
    | switch2 speed accel =>
      rw [driven_accel (.inr (.inr rfl)) hu, if_neg, if_neg]
      · rintro rfl; simp [Cruises] at hc
      · rintro rfl; simp [Cruises] at hc
  induction k generalizing row with
  | zero => rw [hS.first] at hk; cases hk; rfl
  | succ k ih =>
    obtain ⟨hlt, _⟩ := List.getElem?_eq_some_iff.1 hk
    have hk' : rows[k]? = some rows[k] := List.getElem?_eq_getElem (by omega)
    obtain ⟨u, hu, e⟩ := step_speed hs (by rw [hlen k _ hk']; omega) (hS.next k _ row hk' hk)
    have := ih _ hk'
    unfold speedOf at this ⊢
    rw [e, hacc _ _ hu, zero_mul, add_zero, this, max_eq_right hv]

/-- **C86**, braking, for time steps of at most 1: the speed falls, by `accel` per time or by its own value if that is smaller, and never below 0. -/
theorem C86_brake_partial (speed accel : ℝ) (ha : 0 ≤ accel) (c : CarClass) (hc : Driven speed accel c) (m : LaneMap) (lane : String) (hn : n = 4 ∨ n = 5) (hs : 0 < step)
    (hs1 : step ≤ 1) (hI : ∀ u, Exact integ n (carDyn u) step) (hl : init.length = n) (h : carTrace integ (c.action m ["Brake", lane]) init bound step = .ok rows)
    (hv : 0 ≤ init.getD 3 0) (k : Nat) (row row' : Row) (hk : rows[k]? = some row) (hk' : rows[k + 1]? = some row') :
    speedOf row' = speedOf row - step * min accel (speedOf row) ∧ 0 ≤ speedOf row' ∧ speedOf row' ≤ speedOf row := by
  obtain ⟨hS, hlen⟩ := (C85_cars_partial c m ["Brake", lane] n hn hs hI hl).1 rows h
  have hv0 : 0 ≤ speedOf row := C86_forward c m _ hn hs hI hl h hv k row hk
  obtain ⟨u, hu, e⟩ := step_speed hs (by rw [hlen k _ hk]; omega) (hS.next k _ row' hk hk')
  have hu2 : u.2 = -min accel (speedOf row) := by
    rw [driven_accel hc hu, if_pos rfl, max_neg_neg]
    rfl
  have hmin : 0 ≤ min accel (speedOf row) := le_min ha hv0
  have hle : step * min accel (speedOf row) ≤ speedOf row :=
    (mul_le_of_le_one_left hmin hs1).trans (min_le_right _ _)
  have e2 : speedOf row' = speedOf row - step * min accel (speedOf row) := by
    unfold speedOf at hu2 hle ⊢
    rw [e, hu2, max_eq_right]
    · ring
    · nlinarith
  exact ⟨e2, by rw [e2]; linarith, by rw [e2]; nlinarith⟩

/-- **C86**, accelerating, for time steps of at most 1, from at most the speed `speed`: the speed grows, by at most `accel` per time, and never above `speed`. -/
theorem C86_accel_partial (speed accel : ℝ) (ha : 0 ≤ accel) (c : CarClass) (hc : Driven speed accel c) (m : LaneMap) (lane : String) (hn : n = 4 ∨ n = 5) (hs : 0 < step)
    (hs1 : step ≤ 1) (hI : ∀ u, Exact integ n (carDyn u) step) (hl : init.length = n) (h : carTrace integ (c.action m ["Accel", lane]) init bound step = .ok rows)
    (hv : 0 ≤ init.getD 3 0) (hv' : init.getD 3 0 ≤ speed) (k : Nat) (row row' : Row) (hk : rows[k]? = some row) (hk' : rows[k + 1]? = some row') :
    speedOf row' = speedOf row + step * min accel (speed - speedOf row) ∧ speedOf row ≤ speedOf row' ∧ speedOf row' ≤ speed := by
  obtain ⟨hS, hlen⟩ := (C85_cars_partial c m ["Accel", lane] n hn hs hI hl).1 rows h
  have one : ∀ (k : Nat) (row row' : Row), rows[k]? = some row → rows[k + 1]? = some row' → speedOf row ≤ speed →
      speedOf row' = speedOf row + step * min accel (speed - speedOf row) ∧ speedOf row ≤ speedOf row' ∧ speedOf row' ≤ speed := by
    intro k row row' hk hk' hle
    have hv0 : 0 ≤ speedOf row := C86_forward c m _ hn hs hI hl h hv k row hk
    obtain ⟨u, hu, e⟩ := step_speed hs (by rw [hlen k _ hk]; omega) (hS.next k _ row' hk hk')
    have hu2 : u.2 = min accel (speed - speedOf row) := by
      rw [driven_accel hc hu, if_neg (by decide), if_pos rfl]
      rfl
    have hmin : 0 ≤ min accel (speed - speedOf row) := le_min ha (by linarith)
    have hmul : 0 ≤ step * min accel (speed - speedOf row) := mul_nonneg hs.le hmin
    have hle2 : step * min accel (speed - speedOf row) ≤ speed - speedOf row :=
      (mul_le_of_le_one_left hmin hs1).trans (min_le_right _ _)
    have e2 : speedOf row' = speedOf row + step * min accel (speed - speedOf row) := by
      unfold speedOf at hu2 hle hmul hv0 ⊢
      rw [e, hu2, max_eq_right]
      · ring
      · nlinarith
    exact ⟨e2, by rw [e2]; linarith, by rw [e2]; linarith⟩
  have hall : ∀ (k : Nat) (row : Row), rows[k]? = some row → speedOf row ≤ speed := by
    intro k
    induction k with
    | zero => intro row hk; rw [hS.first] at hk; cases hk; exact hv'
    | succ k ih =>
      intro row hk
      obtain ⟨hlt, _⟩ := List.getElem?_eq_some_iff.1 hk
      have hk' : rows[k]? = some rows[k] := List.getElem?_eq_getElem (by omega)
      exact (one k _ row hk' hk (ih _ hk')).2.2
  exact one k row row' hk hk' (hall k row hk)

namespace CarEx

/-- A map with one lane of width 4, along the x-axis. -/
def road : LaneMap := ⟨fun _ => .ok 4, fun _ p => .ok p.2, fun _ _ => .ok 0⟩

theorem car_defined (speed accel : ℝ) (vmode lane : String) (hm : vmode ∈ ["Normal", "Stop", "SwitchLeft", "SwitchRight", "Brake", "Accel"]) (s : List ℝ) (hs : s.length = 4) :
    ∃ u, (CarClass.car speed accel).action road [vmode, lane] s = .ok u := by
  match s, hs with
  | [x, y, θ, v], _ =>
    have : ∃ da, carMode speed accel vmode v = .ok da := by
      simp only [List.mem_cons, List.not_mem_nil, or_false] at hm
      rcases hm with rfl | rfl | rfl | rfl | rfl | rfl <;> simp [carMode]
    obtain ⟨da, h⟩ := this
    simp [CarClass.action, carAction, carControl, road, h, Except.bind, Except.map]

theorem trace (speed accel : ℝ) (vmode lane : String) (hm : vmode ∈ ["Normal", "Stop", "SwitchLeft", "SwitchRight", "Brake", "Accel"]) (init : List ℝ) (hl : init.length = 4)
    {bound step : ℝ} (hs : 0 < step) (hb : 0 < bound) : ∃ rows row, carTrace solver ((CarClass.car speed accel).action road [vmode, lane]) init bound step = .ok rows ∧
      rows[0]? = some (0, init) ∧ rows[1]? = some row ∧ CarStep ((CarClass.car speed accel).action road [vmode, lane]) step init row.2 := by
  obtain ⟨hC, hE⟩ := C85_cars_partial (bound := bound) (.car speed accel) road [vmode, lane] 4 (.inl rfl) hs (fun u => solver_car u step 4 (.inl rfl)) hl
  obtain ⟨rows, h⟩ := hE (fun s hs => car_defined speed accel vmode lane hm s hs)
  obtain ⟨hS, _⟩ := hC rows h
  obtain ⟨row, hlast, hb', _⟩ := hS.reaches
  have hlen : 1 < rows.length := by
    by_contra hc
    have hne : rows ≠ [] := by rintro rfl; cases hlast
    have h0 := hS.first
    rw [List.getLast?_eq_getElem?, show rows.length - 1 = 0 by omega, h0] at hlast
    cases hlast
    linarith
  exact ⟨rows, rows[1], h, hS.first, List.getElem?_eq_getElem hlen, hS.next 0 _ _ hS.first (List.getElem?_eq_getElem hlen)⟩

end CarEx

/-- The hypotheses of the theorems on speeds hold for a car that brakes from speed 3. -/
example : ∃ rows row row', carTrace solver ((CarClass.car 2 1).action CarEx.road ["Brake", "T0"]) [0, 0, 0, 3] 10 (1 / 10) = .ok rows ∧ rows[0]? = some row ∧ rows[1]? = some row' ∧
    (speedOf row' = speedOf row - 1 / 10 * min 1 (speedOf row) ∧ 0 ≤ speedOf row' ∧ speedOf row' ≤ speedOf row) := by
  obtain ⟨rows, row', h1, h2, h3, _⟩ := CarEx.trace 2 1 "Brake" "T0" (by decide) [0, 0, 0, 3] rfl (bound := 10) (step := 1 / 10) (by norm_num) (by norm_num)
  exact ⟨rows, _, row', h1, h2, h3, C86_brake_partial 2 1 (by norm_num) _ (.inl rfl) CarEx.road "T0" (.inl rfl) (by norm_num) (by norm_num)
    (fun u => solver_car u _ 4 (.inl rfl)) rfl h1 (by simp) 0 _ row' h2 h3⟩

/-- … and for a car that accelerates from standstill. -/
example : ∃ rows row row', carTrace solver ((CarClass.car 2 1).action CarEx.road ["Accel", "T0"]) [0, 0, 0, 0] 10 (1 / 10) = .ok rows ∧ rows[0]? = some row ∧ rows[1]? = some row' ∧
    (speedOf row' = speedOf row + 1 / 10 * min 1 (2 - speedOf row) ∧ speedOf row ≤ speedOf row' ∧ speedOf row' ≤ 2) := by
  obtain ⟨rows, row', h1, h2, h3, _⟩ := CarEx.trace 2 1 "Accel" "T0" (by decide) [0, 0, 0, 0] rfl (bound := 10) (step := 1 / 10) (by norm_num) (by norm_num)
  exact ⟨rows, _, row', h1, h2, h3, C86_accel_partial 2 1 (by norm_num) _ (.inl rfl) CarEx.road "T0" (.inl rfl) (by norm_num) (by norm_num)
    (fun u => solver_car u _ 4 (.inl rfl)) rfl h1 (by simp) (by simp) 0 _ row' h2 h3⟩

/-- **C86 fails** for time steps above 1: the acceleration that is right for one unit of time is held for the whole step. A car with `speed = 2` drives 4 after one step of 2. -/
theorem C86_overshoot_violated : ∃ rows row, carTrace solver ((CarClass.car 2 5).action CarEx.road ["Accel", "T0"]) [0, 0, 0, 0] 10 2 = .ok rows ∧ rows[1]? = some row ∧ speedOf row = 4 := by
  obtain ⟨rows, row, h1, _, h3, h4⟩ := CarEx.trace 2 5 "Accel" "T0" (by decide) [0, 0, 0, 0] rfl (bound := 10) (step := 2) (by norm_num) (by norm_num)
  obtain ⟨u, hu, e⟩ := step_speed (by norm_num) (by simp) h4
  refine ⟨rows, row, h1, h3, ?_⟩
  have := driven_accel (.inl rfl) hu
  rw [if_neg (by decide), if_pos rfl] at this
  unfold speedOf
  rw [e, this]
  norm_num

/-- **C86 fails**: in the mode `Stop` a car does not slow down. -/
theorem C86_stop_violated (v : ℝ) (hv : 0 ≤ v) : ∃ rows row, carTrace solver ((CarClass.car 2 1).action CarEx.road ["Stop", "T0"]) [0, 0, 0, v] 10 1 = .ok rows ∧ rows[1]? = some row ∧
    speedOf row = v := by
  obtain ⟨rows, row, h1, _, h3, h4⟩ := CarEx.trace 2 1 "Stop" "T0" (by decide) [0, 0, 0, v] rfl (bound := 10) (step := 1) (by norm_num) (by norm_num)
  obtain ⟨u, hu, e⟩ := step_speed (by norm_num) (by simp) h4
  refine ⟨rows, row, h1, h3, ?_⟩
  have := driven_accel (.inl rfl) hu
  rw [if_neg (by decide), if_neg (by decide)] at this
  unfold speedOf
  rw [e, this]
  simp [hv]

/-- **C86 fails**: in the mode `Accel`, a car that is faster than `speed` brakes with more than `accel`: here with 8, for `accel = 1`. -/
theorem C86_limit_violated : ∃ u, (CarClass.car 2 1).action CarEx.road ["Accel", "T0"] [0, 0, 0, 10] = .ok u ∧ u.2 = -8 := by
  obtain ⟨u, hu⟩ := CarEx.car_defined 2 1 "Accel" "T0" (by decide) [0, 0, 0, 10] rfl
  refine ⟨u, hu, ?_⟩
  have := driven_accel (.inl rfl) hu
  rw [if_neg (by decide), if_pos rfl] at this
  rw [this]
  norm_num

/-! ### C87 -/

/-- The steering angle of a car. -/
theorem steering_eq {c : CarClass} {m : LaneMap} {vmode lane : String} {w num lat x y θ v φ : ℝ} {rest : List ℝ} {u : ℝ × ℝ} (hline : Line c vmode num)
    (hw : m.width lane = .ok w) (hlat : m.lateral lane (x, y) = .ok lat) (hhead : m.heading lane (x, y) = .ok φ)
    (h : c.action m [vmode, lane] (x :: y :: θ :: v :: rest) = .ok u) :
    (c ≠ .npc ∧ u.1 = clip (Lane.wrapToPi (φ - θ) + Lane.arctan2 (45 / 100 * (num * w - lat)) v)) ∨
    (c = .npc ∧ u.1 = clip (φ - θ + Lane.arctan2 (45 / 100 * (num * w - lat)) v)) := by
  have hdriven : ∀ speed accel, Driven speed accel c → (∀ da, (carMode speed accel vmode v = .ok da ∨ (c = .switch2 speed accel ∧ carMode2 speed accel vmode v = .ok da)) → da.1 = num) →
      (c ≠ .npc ∧ u.1 = clip (Lane.wrapToPi (φ - θ) + Lane.arctan2 (45 / 100 * (num * w - lat)) v)) ∨
    (c = .npc ∧ u.1 = clip (φ - θ + Lane.arctan2 (45 / 100 * (num * w - lat)) v)) := by
    intro speed accel hc hda
    refine .inl ⟨by rcases hc with rfl | rfl | rfl <;> simp, ?_⟩
    obtain ⟨x', y', θ', v', rest', ofMode, e, h1, h2⟩ := driven_ok hc h
    cases e
    obtain ⟨vm, l, width, lat', da, heading, e, k1, k2, k3, k4, rfl⟩ := carControl_ok h1
    cases e
    rw [hw] at k1
    rw [hlat] at k2
    rw [hhead] at k4
    cases k1; cases k2; cases k4
    have hd : da.1 = num := by
      refine hda da ?_
      rcases h2 with rfl | ⟨rfl, e⟩
      · exact .inl k3
      · exact .inr ⟨e, k3⟩
    show clip _ = _
    rw [hd, show -lat + num * w = num * w - lat by ring]
  cases hline with
  | npc =>
    obtain ⟨x', y', θ', v', rest', vm, l, modes, lat', heading, e, e', k1, k2, rfl⟩ := npcAction_ok (show npcAction m [vmode, lane] (x :: y :: θ :: v :: rest) = .ok u from h)
    cases e; cases e'
    rw [hlat] at k1
    rw [hhead] at k2
    cases k1; cases k2
    refine .inr ⟨rfl, ?_⟩
    show clip _ = _
    rw [show 0 * w - lat = -lat by ring]
  | keep hc hm =>
    refine hdriven _ _ hc (fun da hda => ?_)
    simp only [List.mem_cons, List.not_mem_nil, or_false] at hm
    rcases hm with rfl | rfl | rfl <;> rcases hda with hda | ⟨_, hda⟩ <;> simp [carMode, carMode2] at hda <;> rw [← hda]
  | left hc =>
    refine hdriven _ _ hc (fun da hda => ?_)
    rcases hda with hda | ⟨_, hda⟩ <;> simp [carMode, carMode2] at hda <;> rw [← hda]
  | right hc =>
    refine hdriven _ _ hc (fun da hda => ?_)
    rcases hda with hda | ⟨_, hda⟩ <;> simp [carMode, carMode2] at hda <;> rw [← hda]
  | left2 speed accel =>
    refine hdriven speed accel (.inr (.inr rfl)) (fun da hda => ?_)
    rcases hda with hda | ⟨_, hda⟩ <;> simp [carMode, carMode2] at hda
    rw [← hda]
  | right2 speed accel =>
    refine hdriven speed accel (.inr (.inr rfl)) (fun da hda => ?_)
    rcases hda with hda | ⟨_, hda⟩ <;> simp [carMode, carMode2] at hda
    rw [← hda]

/-- The steering angle of a car whose direction is that of its lane. -/
theorem aligned_eq {c : CarClass} {m : LaneMap} {vmode lane : String} {w num lat x y θ v φ : ℝ} {rest : List ℝ} {u : ℝ × ℝ} (hline : Line c vmode num)
    (hw : m.width lane = .ok w) (hlat : m.lateral lane (x, y) = .ok lat) {k : ℤ} (hhead : m.heading lane (x, y) = .ok φ) (hθ : φ = θ + 2 * Real.pi * k)
    (hnpc : c = .npc → k = 0) (h : c.action m [vmode, lane] (x :: y :: θ :: v :: rest) = .ok u) : u.1 = clip (Lane.arctan2 (45 / 100 * (num * w - lat)) v) := by
  rcases steering_eq hline hw hlat hhead h with ⟨_, e⟩ | ⟨hc, e⟩
  · rw [e, hθ, show θ + 2 * Real.pi * k - θ = 2 * Real.pi * k by ring, wrapToPi_turns, zero_add]
  · obtain rfl := hnpc hc
    rw [e, hθ, show θ + 2 * Real.pi * ((0 : ℤ) : ℝ) - θ = 0 by simp, zero_add]

/-- On the line that it follows and in its direction, a car does not steer. -/
theorem no_steering {c : CarClass} {m : LaneMap} {vmode lane : String} {w num x y θ v φ : ℝ} {rest : List ℝ} {u : ℝ × ℝ} (hv : 0 ≤ v) (hline : Line c vmode num)
    (hw : m.width lane = .ok w) (hlat : m.lateral lane (x, y) = .ok (num * w)) {k : ℤ} (hhead : m.heading lane (x, y) = .ok φ) (hθ : φ = θ + 2 * Real.pi * k)
    (hnpc : c = .npc → k = 0) (h : c.action m [vmode, lane] (x :: y :: θ :: v :: rest) = .ok u) : u.1 = 0 := by
  rw [aligned_eq hline hw hlat hhead hθ hnpc h, sub_self, mul_zero, arctan2_zero_left hv, clip_zero]

/-- No car brakes by more than its speed. -/
theorem brakes_le {c : CarClass} {m : LaneMap} {vmode lane : String} {num v : ℝ} {s : List ℝ} {u : ℝ × ℝ} (hs : s.getD 3 0 = v) (hv : 0 ≤ v) (hline : Line c vmode num)
    (hpos : ∀ speed accel, Driven speed accel c → 0 ≤ speed ∧ 0 ≤ accel) (h : c.action m [vmode, lane] s = .ok u) : -v ≤ u.2 := by
  have hd : ∀ speed accel, Driven speed accel c → -v ≤ u.2 := by
    intro speed accel hc
    obtain ⟨h1, h2⟩ := hpos speed accel hc
    rw [driven_accel hc h, hs]
    split
    · exact le_max_right _ _
    · split
      · exact le_min (by linarith) (by linarith)
      · linarith
  cases hline with
  | npc =>
    obtain ⟨x', y', θ', v', rest', vm, l, modes, lat, heading, e, e', k1, k2, rfl⟩ := npcAction_ok (show npcAction m [vmode, lane] s = .ok u from h)
    show -v ≤ 0
    linarith
  | keep hc _ => exact hd _ _ hc
  | left hc => exact hd _ _ hc
  | right hc => exact hd _ _ hc
  | left2 speed accel => exact hd speed accel (.inr (.inr rfl))
  | right2 speed accel => exact hd speed accel (.inr (.inr rfl))

/-- **C87**: a car that starts on the line of its mode (the axis of its lane, or of a neighbour of it), in the direction of the lane, stays on this line as long as the lane is
straight; it travels the distance that its speeds say. -/
theorem C87_keeps_partial (c : CarClass) (m : LaneMap) (vmode lane : String) (num w L x y θ v : ℝ) (rest : List ℝ) (hn : n = 4 ∨ n = 5) (hs : 0 < step) (hs1 : step ≤ 1)
    (hI : ∀ u, Exact integ n (carDyn u) step) (hl : (x :: y :: θ :: v :: rest).length = n) (hv : 0 ≤ v)
    (h : carTrace integ (c.action m [vmode, lane]) (x :: y :: θ :: v :: rest) bound step = .ok rows) (hline : Line c vmode num)
    (hpos : ∀ speed accel, Driven speed accel c → 0 ≤ speed ∧ 0 ≤ accel) (hw : m.width lane = .ok w)
    (hlane : StraightAhead m lane (x, y) θ L (num * w)) (hnpc : c = .npc → ∀ s, 0 ≤ s → s ≤ L → m.heading lane (ahead (x, y) θ s) = .ok θ)
    (k : Nat) (row : Row) (hk : rows[k]? = some row) (hL : ∀ j < k, travelled step rows j ≤ L) :
    (row.2.getD 0 0, row.2.getD 1 0) = ahead (x, y) θ (travelled step rows k) ∧ row.2.getD 2 0 = θ := by
  obtain ⟨hS, hlen⟩ := (C85_cars_partial c m [vmode, lane] n hn hs hI hl).1 rows h
  have hsp : ∀ j row, rows[j]? = some row → 0 ≤ speedOf row := fun j row hj => C86_forward c m _ hn hs hI hl h (by simpa using hv) j row hj
  have hsp' : ∀ j, j < rows.length → 0 ≤ speedOf (rows.getD j (0, [])) := by
    intro j hj
    refine hsp j _ ?_
    rw [List.getD_eq_getElem?_getD, List.getElem?_eq_getElem hj]
    rfl
  have hd : ∀ j, j < rows.length → 0 ≤ travelled step rows j := by
    intro j
    induction j with
    | zero => intro _; exact le_refl _
    | succ j ih =>
      intro hj
      have h1 := hsp' j (by omega)
      have h2 := hsp' (j + 1) hj
      have h3 := mul_nonneg hs.le (add_nonneg h1 h2)
      have h4 := ih (by omega)
      show 0 ≤ travelled step rows j + step * (_ + _) / 2
      linarith
  induction k generalizing row with
  | zero =>
    rw [hS.first] at hk
    cases hk
    simp [travelled, ahead]
  | succ k ih =>
    obtain ⟨hlt, _⟩ := List.getElem?_eq_some_iff.1 hk
    have hk' : rows[k]? = some rows[k] := List.getElem?_eq_getElem (by omega)
    obtain ⟨i1, i2⟩ := ih _ hk' (fun j hj => hL j (by omega))
    have hlk := hlen k _ hk'
    obtain ⟨u, s1, hu, hf, he⟩ := hS.next k _ row hk' hk
    have g1 : rows.getD k (0, []) = rows[k] := by rw [List.getD_eq_getElem?_getD, hk']; rfl
    have g2 : rows.getD (k + 1) (0, []) = row := by rw [List.getD_eq_getElem?_getD, hk]; rfl
    have hvk := hsp k _ hk'
    have hdk := hd k (by omega)
    have hLk := hL k (by omega)
    unfold travelled
    rw [g1, g2]
    unfold speedOf at hvk ⊢
    generalize travelled step rows k = d at *
    generalize rows[k].2 = st at *
    match st, hlk with
    | X :: Y :: Θ :: V :: rest', hlk =>
      simp only [List.getD_cons_zero, List.getD_cons_succ] at i1 i2 hvk ⊢
      subst i2
      obtain ⟨q, hq⟩ := hlane.heading d hdk hLk
      have hlat := hlane.lateral d hdk hLk
      rw [← i1] at hq hlat
      have hu1 : u.1 = 0 := by
        by_cases hc : c = .npc
        · have := hnpc hc d hdk hLk
          rw [← i1] at this
          exact no_steering hvk hline hw hlat (k := 0) this (by simp) (fun _ => rfl) hu
        · exact no_steering hvk hline hw hlat hq rfl (fun e => absurd e hc) hu
      have hu2 : -V ≤ u.2 := brakes_le (by simp) hvk hline hpos hu
      obtain ⟨a1, a2⟩ := u
      cases hu1
      obtain ⟨f1, f2, f3, f4, f5⟩ := flows_straight hs.le hf
      have hV' : 0 ≤ V + a2 * step := by
        simp only at hu2
        nlinarith
      obtain ⟨e3, e0⟩ := set3_getD s1 (max 0 (s1.getD 3 0)) (by omega)
      rw [he, e3, e0 0 (by omega), e0 1 (by omega), e0 2 (by omega), f1, f2, f3, f4, max_eq_right hV']
      simp only [ahead, Prod.mk.injEq] at i1
      refine ⟨?_, rfl⟩
      simp only [ahead, Prod.mk.injEq]
      constructor
      · rw [i1.1]; ring
      · rw [i1.2]; ring
    | [], hlk => simp at hlk; omega
    | [_], hlk => simp at hlk; omega
    | [_, _], hlk => simp at hlk; omega
    | [_, _, _], hlk => simp at hlk; omega

/-- **C87**: a car in the direction of its lane steers to the left if it is to the right of the line of its mode, and to the right if it is to the left of it. -/
theorem C87_turns_partial (c : CarClass) (m : LaneMap) (vmode lane : String) (num w lat x y θ v : ℝ) (rest : List ℝ) (k : ℤ) (u : ℝ × ℝ)
    (h : c.action m [vmode, lane] (x :: y :: θ :: v :: rest) = .ok u) (hline : Line c vmode num) (hw : m.width lane = .ok w) (hlat : m.lateral lane (x, y) = .ok lat)
    (hhead : m.heading lane (x, y) = .ok (θ + 2 * Real.pi * k)) (hnpc : c = .npc → k = 0) :
    (lat < num * w → 0 < u.1) ∧ (num * w < lat → u.1 < 0) := by
  rw [aligned_eq hline hw hlat hhead rfl hnpc h]
  constructor
  · intro hlt
    have h0 : 0 < Lane.arctan2 (45 / 100 * (num * w - lat)) v := by
      refine lt_of_le_of_ne (Complex.arg_nonneg_iff.2 ?_) (fun e => ?_)
      · show 0 ≤ 45 / 100 * (num * w - lat)
        linarith
      · have := (Complex.arg_eq_zero_iff.1 e.symm).2
        change 45 / 100 * (num * w - lat) = 0 at this
        linarith
    exact lt_max_of_lt_right (lt_min h0 (by norm_num))
  · intro hlt
    have h0 : Lane.arctan2 (45 / 100 * (num * w - lat)) v < 0 := by
      refine Complex.arg_neg_iff.2 ?_
      show 45 / 100 * (num * w - lat) < 0
      linarith
    exact max_lt (by norm_num) (min_lt_of_left_lt h0)

namespace CarEx

theorem road_ahead (x v : ℝ) : StraightAhead road "T0" (x, v) 0 100 v := by
  refine ⟨fun s _ _ => ?_, fun s _ _ => ⟨0, ?_⟩⟩
  · simp [road, ahead]
  · simp [road]

end CarEx

/-- The hypotheses of `C87_keeps_partial` hold for a car on the axis of the road, … -/
example (v : ℝ) (hv : 0 ≤ v) : ∃ rows row, carTrace solver ((CarClass.car 2 1).action CarEx.road ["Accel", "T0"]) [0, 0, 0, v] 10 (1 / 10) = .ok rows ∧ rows[1]? = some row ∧
    (row.2.getD 0 0, row.2.getD 1 0) = ahead (0, 0) 0 (travelled (1 / 10) rows 1) ∧ row.2.getD 2 0 = 0 := by
  obtain ⟨rows, row, h1, _, h3, _⟩ := CarEx.trace 2 1 "Accel" "T0" (by decide) [0, 0, 0, v] rfl (bound := 10) (step := 1 / 10) (by norm_num) (by norm_num)
  refine ⟨rows, row, h1, h3, C87_keeps_partial _ CarEx.road "Accel" "T0" 0 4 100 0 0 0 v [] (.inl rfl) (by norm_num) (by norm_num)
    (fun u => solver_car u _ 4 (.inl rfl)) rfl hv h1 (.keep (.inl rfl) (by decide)) ?_ rfl ?_ (fun e => by cases e) 1 row h3 ?_⟩
  · rintro speed accel (h | h | h) <;> cases h
    norm_num
  · have := CarEx.road_ahead 0 0
    rwa [zero_mul]
  · intro j hj
    obtain rfl : j = 0 := by omega
    norm_num [travelled]

/-- … and for one that switches to the lane on the left and has reached its axis. -/
example (v : ℝ) (hv : 0 ≤ v) : ∃ rows row, carTrace solver ((CarClass.car 2 1).action CarEx.road ["SwitchLeft", "T0"]) [0, 4, 0, v] 10 (1 / 10) = .ok rows ∧ rows[1]? = some row ∧
    (row.2.getD 0 0, row.2.getD 1 0) = ahead (0, 4) 0 (travelled (1 / 10) rows 1) ∧ row.2.getD 2 0 = 0 := by
  obtain ⟨rows, row, h1, _, h3, _⟩ := CarEx.trace 2 1 "SwitchLeft" "T0" (by decide) [0, 4, 0, v] rfl (bound := 10) (step := 1 / 10) (by norm_num) (by norm_num)
  refine ⟨rows, row, h1, h3, C87_keeps_partial _ CarEx.road "SwitchLeft" "T0" 1 4 100 0 4 0 v [] (.inl rfl) (by norm_num) (by norm_num)
    (fun u => solver_car u _ 4 (.inl rfl)) rfl hv h1 (.left (.inl rfl)) ?_ rfl ?_ (fun e => by cases e) 1 row h3 ?_⟩
  · rintro speed accel (h | h | h) <;> cases h
    norm_num
  · have := CarEx.road_ahead 0 4
    rwa [one_mul]
  · intro j hj
    obtain rfl : j = 0 := by omega
    norm_num [travelled]

/-- The hypotheses of `C87_turns_partial` hold for a car one unit to the left of the axis. -/
example : ∃ u, (CarClass.car 2 1).action CarEx.road ["Normal", "T0"] [0, 1, 0, 1] = .ok u ∧ u.1 < 0 := by
  obtain ⟨u, hu⟩ := CarEx.car_defined 2 1 "Normal" "T0" (by decide) [0, 1, 0, 1] rfl
  exact ⟨u, hu, (C87_turns_partial (.car 2 1) CarEx.road "Normal" "T0" 0 4 1 0 1 0 1 [] 0 u hu (.keep (.inl rfl) (by decide)) rfl rfl (by simp [CarEx.road])
    (fun e => by cases e)).2 (by norm_num)⟩

/-- **C87 fails** for `NPCAgent`, which does not reduce the difference of the directions to [-π, π): on the axis of a lane along the x-axis and in the direction 2π, it steers with the
largest angle; a `CarAgent` does not steer. -/
theorem C87_npc_turn_violated : CarClass.npc.action CarEx.road ["Normal", "T0"] [0, 0, 2 * Real.pi, 1] = .ok (-(61 / 100), 0) ∧
    (CarClass.car 2 1).action CarEx.road ["Normal", "T0"] [0, 0, 2 * Real.pi, 1] = .ok (0, 0) := by
  constructor
  · show Except.ok (clip _, (0 : ℝ)) = _
    have hp := Real.two_le_pi
    rw [show (45 / 100 : ℝ) * -(0 : ℝ) = 0 by norm_num, arctan2_zero_left (by norm_num), add_zero]
    unfold clip
    rw [min_eq_left (by linarith), max_eq_left (by linarith)]
  · obtain ⟨u, hu⟩ := CarEx.car_defined 2 1 "Normal" "T0" (by decide) [0, 0, 2 * Real.pi, 1] rfl
    rw [hu]
    have h1 : u.1 = 0 := no_steering (c := .car 2 1) (m := CarEx.road) (w := 4) (num := 0) (φ := 0) (k := -1) (by norm_num) (.keep (.inl rfl) (by decide)) rfl
      (by simp [CarEx.road]) rfl (by push_cast; ring) (fun e => by cases e) hu
    have h2 := driven_accel (.inl rfl) hu
    rw [if_neg (by decide), if_neg (by decide)] at h2
    exact congrArg Except.ok (Prod.ext h1 h2)

end Verif.Props
