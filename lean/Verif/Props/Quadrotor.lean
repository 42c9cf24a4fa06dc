import Verif.Proofs.Quadrotor

/-! **C102.** The simulation of the quadrotor that follows waypoints. -/

set_option autoImplicit false

namespace Verif.Props
open Verif.Lane3d Verif.Spec.Lane3d Verif.Quad Verif.Quad.Spec

/-- **C102, the simulation ends.** For a horizon of `N ≥ 1` steps the loops end, and the only exception is the one that `get_next_point` raises. -/
theorem C102_returns {Q : Craft} {dt : ℝ} {m : Nat} (h : Regular Q dt m) {N fuel : Nat} (hN : 1 ≤ N) (hf : N < fuel) (pos vel : V3) (s : Track) {x : String}
    (hx : simulate Q fuel s pos vel (N * dt) dt = .error x) : x = "map" := by
  have := simulate_spec h (P := fun _ _ _ _ => True) (fun _ _ _ _ _ _ => trivial) (G := fun _ _ => False) (fun _ _ _ _ _ hg => hg.elim) hN hf pos vel s
  rw [hx] at this
  exact this.1

/-- **C102, the rows.** A horizon of `N ≥ 1` steps: there is one row for each multiple of the time step up to the horizon, with that time, and the first has the position and the velocity that were given. -/
theorem C102_trace_partial {Q : Craft} {dt : ℝ} {m : Nat} (h : Regular Q dt m) {N fuel : Nat} (hN : 1 ≤ N) (hf : N < fuel) {pos vel : V3} {s s' : Track} {A : List Row}
    (hr : simulate Q fuel s pos vel (N * dt) dt = .ok (A, s')) :
    A.length = N + 1 ∧ A.head? = some ⟨0, pos, vel⟩ ∧ ∀ (k : Nat) (r : Row), A[k]? = some r → r.time = k * dt := by
  have := simulate_spec h (P := fun _ _ _ _ => True) (fun _ _ _ _ _ _ => trivial) (G := fun _ _ => False) (fun _ _ _ _ _ hg => hg.elim) hN hf pos vel s
  rw [hr] at this
  obtain ⟨p, v, wps, -, -, -, -, hu⟩ := this
  exact ⟨hu.length, by rw [List.head?_eq_getElem?]; exact hu.first, hu.time⟩

/-- **C102, the waypoints.** The simulation records one waypoint for each `m` steps (the time between waypoints) and one more. The first starts at the given position and each starts where the one before
ends; waypoints from before stay. -/
theorem C102_waypoints {Q : Craft} {dt : ℝ} {m : Nat} (h : Regular Q dt m) {N fuel : Nat} (hN : 1 ≤ N) (hf : N < fuel) {pos vel : V3} {s s' : Track} {A : List Row}
    (hr : simulate Q fuel s pos vel (N * dt) dt = .ok (A, s')) :
    ∃ wps, s'.wps = s.wps ++ wps ∧ wps.length = (N + m - 1) / m + 1 ∧ wps.head?.map Prod.fst = some pos ∧ Linked wps := by
  have := simulate_spec h (P := fun _ _ _ _ => True) (fun _ _ _ _ _ _ => trivial) (G := fun _ _ => False) (fun _ _ _ _ _ hg => hg.elim) hN hf pos vel s
  rw [hr] at this
  obtain ⟨p, v, wps, h1, h2, h3, h4, -⟩ := this
  exact ⟨wps, h1, h4, h3, h2⟩

/-- **C102, the flight.** With an ideal integrator, the step from row `k` to the next is steered along the waypoint number `k / m` of this simulation: the reference has moved for `k % m` steps from its start
to its end, the network is asked about the differences from it, and the input that is rated best accelerates the craft for the whole step. -/
theorem C102_flight {Q : Craft} {dt : ℝ} {m : Nat} (h : Regular Q dt m) (hi : Ideal Q.integ) {N fuel : Nat} (hN : 1 ≤ N) (hf : N < fuel) {pos vel : V3} {s s' : Track} {A : List Row}
    (hr : simulate Q fuel s pos vel (N * dt) dt = .ok (A, s')) {wps : List (V3 × V3)} (hw : s'.wps = s.wps ++ wps)
    {k : Nat} {p q : Row} (hp : A[k]? = some p) (hq : A[k + 1]? = some q) : ∃ w, wps[k / m]? = some w ∧ Steered Q dt w (k % m) p q := by
  have := simulate_spec h (P := Steered Q dt) (steered h.net hi dt) (G := fun _ _ => False) (fun _ _ _ _ _ hg => hg.elim) hN hf pos vel s
  rw [hr] at this
  obtain ⟨_, _, wps', h1, -, -, -, hu⟩ := this
  have : wps = wps' := List.append_cancel_left (hw.symm.trans h1)
  subst this
  exact hu.step k p q hp hq

theorem input_acceleration {n : Nat} {u : ℝ × ℝ × ℝ} (h : inputs[n]? = some u) : Acceleration ⟨9.81 * Real.tan u.1, -(9.81 * Real.tan u.2.1), u.2.2 - 9.81⟩ := by
  have hm := List.mem_of_getElem? h
  simp only [inputs, List.mem_cons, List.not_mem_nil, or_false] at hm
  rcases hm with rfl | rfl | rfl | rfl | rfl | rfl | rfl | rfl <;> simp only [Acceleration, Real.tan_neg] <;> norm_num

/-- **C102, accelerations.** With an ideal integrator, the acceleration is constant in each step: 9.81 tan 0.1 to one side in each horizontal direction, and 2 up or down. -/
theorem C102_moves {Q : Craft} {dt : ℝ} {m : Nat} (h : Regular Q dt m) (hi : Ideal Q.integ) {N fuel : Nat} (hN : 1 ≤ N) (hf : N < fuel) {pos vel : V3} {s s' : Track} {A : List Row}
    (hr : simulate Q fuel s pos vel (N * dt) dt = .ok (A, s')) {k : Nat} {p q : Row} (hp : A[k]? = some p) (hq : A[k + 1]? = some q) :
    ∃ a, Acceleration a ∧ Accelerated dt a p q := by
  obtain ⟨wps, hw, -⟩ := C102_waypoints h hN hf hr
  obtain ⟨w, -, n, u, y, h1, -, -, h2⟩ := C102_flight h hi hN hf hr hw hp hq
  exact ⟨_, input_acceleration h1, h2⟩

theorem tan_pos' : 0 < Real.tan 0.1 := Real.tan_pos_of_pos_of_lt_pi_div_two (by norm_num) (by have := Real.two_le_pi; linarith)

theorem accel_bounds {a : V3} (h : Acceleration a) : |a.x| ≤ 9.81 * Real.tan 0.1 ∧ |a.y| ≤ 9.81 * Real.tan 0.1 ∧ |a.z| ≤ 2 := by
  have ht := tan_pos'
  have : (0 : ℝ) ≤ 9.81 * Real.tan 0.1 := by positivity
  obtain ⟨h1, h2, h3⟩ := h
  refine ⟨?_, ?_, ?_⟩
  · rcases h1 with h | h <;> rw [h] <;> simp [abs_of_nonneg this]
  · rcases h2 with h | h <;> rw [h] <;> simp [abs_of_nonneg this]
  · rcases h3 with h | h <;> rw [h] <;> norm_num

/-- One direction: a bounded acceleration bounds the change of the velocity and of the position. -/
theorem bounded_step {v₀ v a dt B K x₀ x : ℝ} (hdt : 0 < dt) (ha : |a| ≤ B) (hv : |v - v₀| ≤ B * (K * dt)) (hx : |x - x₀ - K * dt * v₀| ≤ B * (K * dt) ^ 2 / 2) :
    |v + dt * a - v₀| ≤ B * ((K + 1) * dt) ∧ |x + dt * v + dt ^ 2 / 2 * a - x₀ - (K + 1) * dt * v₀| ≤ B * ((K + 1) * dt) ^ 2 / 2 := by
  have e1 : v + dt * a - v₀ = (v - v₀) + dt * a := by ring
  have e2 : x + dt * v + dt ^ 2 / 2 * a - x₀ - (K + 1) * dt * v₀ = (x - x₀ - K * dt * v₀) + dt * (v - v₀) + dt ^ 2 / 2 * a := by ring
  have h1 : |dt * a| ≤ dt * B := by rw [abs_mul, abs_of_pos hdt]; exact mul_le_mul_of_nonneg_left ha hdt.le
  have h2 : |dt * (v - v₀)| ≤ dt * (B * (K * dt)) := by rw [abs_mul, abs_of_pos hdt]; exact mul_le_mul_of_nonneg_left hv hdt.le
  have h3 : |dt ^ 2 / 2 * a| ≤ dt ^ 2 / 2 * B := by
    have : 0 ≤ dt ^ 2 / 2 := by positivity
    rw [abs_mul, abs_of_nonneg this]; exact mul_le_mul_of_nonneg_left ha this
  constructor
  · rw [e1]
    refine (abs_add_le _ _).trans ?_
    linarith
  · rw [e2]
    refine (abs_add_le _ _).trans ?_
    have := abs_add_le (x - x₀ - K * dt * v₀) (dt * (v - v₀))
    have e3 : B * ((K + 1) * dt) ^ 2 / 2 = B * (K * dt) ^ 2 / 2 + dt * (B * (K * dt)) + dt ^ 2 / 2 * B := by ring
    linarith

/-- **C102, speed and place.** With an ideal integrator, at time `t = k * dt` the velocity has changed by at most `9.81 tan 0.1 * t` in each horizontal direction and by at most `2 * t` in the vertical one;
the position differs from the one that the initial velocity leads to by at most half of that times `t`. -/
theorem C102_speed {Q : Craft} {dt : ℝ} {m : Nat} (h : Regular Q dt m) (hi : Ideal Q.integ) {N fuel : Nat} (hN : 1 ≤ N) (hf : N < fuel) {pos vel : V3} {s s' : Track} {A : List Row}
    (hr : simulate Q fuel s pos vel (N * dt) dt = .ok (A, s')) {k : Nat} {p : Row} (hp : A[k]? = some p) :
    |p.vel.x - vel.x| ≤ 9.81 * Real.tan 0.1 * (k * dt) ∧ |p.vel.y - vel.y| ≤ 9.81 * Real.tan 0.1 * (k * dt) ∧ |p.vel.z - vel.z| ≤ 2 * (k * dt) ∧
    |p.pos.x - pos.x - k * dt * vel.x| ≤ 9.81 * Real.tan 0.1 * (k * dt) ^ 2 / 2 ∧ |p.pos.y - pos.y - k * dt * vel.y| ≤ 9.81 * Real.tan 0.1 * (k * dt) ^ 2 / 2 ∧
    |p.pos.z - pos.z - k * dt * vel.z| ≤ 2 * (k * dt) ^ 2 / 2 := by
  induction k generalizing p with
  | zero =>
    have h0 := (C102_trace_partial h hN hf hr).2.1
    rw [List.head?_eq_getElem?, hp, Option.some.injEq] at h0
    subst h0
    simp
  | succ k ih =>
    have hl := (List.getElem?_eq_some_iff.1 hp).1
    have hp' : A[k]? = some A[k] := List.getElem?_eq_getElem (by omega)
    obtain ⟨i1, i2, i3, i4, i5, i6⟩ := ih hp'
    obtain ⟨a, ha, hv, hx⟩ := C102_moves h hi hN hf hr hp' hp
    obtain ⟨b1, b2, b3⟩ := accel_bounds ha
    obtain ⟨x1, x2⟩ := bounded_step h.pos b1 i1 i4
    obtain ⟨y1, y2⟩ := bounded_step h.pos b2 i2 i5
    obtain ⟨z1, z2⟩ := bounded_step h.pos b3 i3 i6
    rw [hv, hx]
    push_cast
    exact ⟨x1, y1, z1, x2, y2, z2⟩

/-! ### A straight lane -/

/-- One more waypoint on a straight lane that is long enough. -/
theorem straight_next {rnd : Nat → ℝ → ℝ} (hr : Rounding rnd) {i : Nat} {a b : V3} (hab : a ≠ b) {est : ℝ} (hest : 0 ≤ est) {p : V3} {l : ℝ} (hp : Onto a b p l) (hl : l + est < dist a b) (v : V3)
    (s : Track) : ∃ w s' l', nextPoint rnd (straightLane [(i, a, b)]) (some p) v est s = some (w, s') ∧ l' ≤ l + est ∧ Onto a b w.2 l' := by
  have hx : ∀ x ∈ [(i, a, b)], x.2.1 ≠ x.2.2 := by simpa using hab
  obtain ⟨w, s', h⟩ := C77_go hr hx p v hest s ⟨(i, a, b), by simp, l, hp⟩ (by
    intro x hx' l' hl'
    simp only [List.mem_singleton] at hx'
    subst hx'
    have := foot_unique hab hl'.1 hp.1
    simp only at this ⊢
    linarith)
  have hκ : ∃ κ : ℝ, 0 ≤ κ ∧ (a.y = b.y ∨ |(b.x - a.x) * (b.z - a.z)| ≤ κ * (|b.y - a.y| * dist a b)) := by
    by_cases hy : a.y = b.y
    · exact ⟨0, le_refl _, .inl hy⟩
    · have h1 : 0 < |b.y - a.y| * dist a b := mul_pos (abs_pos.2 (sub_ne_zero.2 (Ne.symm hy))) (dist_pos hab)
      refine ⟨|(b.x - a.x) * (b.z - a.z)| / (|b.y - a.y| * dist a b), by positivity, .inr ?_⟩
      rw [div_mul_cancel₀ _ h1.ne']
  obtain ⟨κ, hκ0, hκ⟩ := hκ
  obtain ⟨g1, _, _, _, x, hx', l₁, r, h2, h3, _, _, h4⟩ := C77_step hr hx hκ0 (by simpa using hκ) hest h
  simp only [List.mem_singleton] at hx'
  subst hx'
  rw [g1 _ rfl] at h2
  have hll := foot_unique hab h2.1 hp.1
  subst hll
  rcases h4 with ⟨l', c1, c2, c3, c4, _⟩ | ⟨l', q, c1, c2, _⟩
  · exact ⟨w, s', l', h, c2, c4, by have := hp.2.1; linarith, by linarith⟩
  · simp only at c1; linarith

/-- **C102, a straight lane.** On a lane with one straight segment, with room for all waypoints between the place of the start and the end of the segment, the simulation raises no exception. -/
theorem C102_straight {Q : Craft} {dt : ℝ} {m : Nat} (h : Regular Q dt m) (hrnd : Rounding Q.rnd) {i : Nat} {a b : V3} (hab : a ≠ b) (hlane : Q.lane = straightLane [(i, a, b)])
    (hspeed : 0 ≤ Q.speed) {N fuel : Nat} (hN : 1 ≤ N) (hf : N < fuel) {pos : V3} {l : ℝ} (hp : Onto a b pos l) (hl : l + ((N + m - 1) / m + 1 : Nat) * (Q.limit * Q.speed) < dist a b)
    (vel : V3) (s : Track) : ∃ r, simulate Q fuel s pos vel (N * dt) dt = .ok r := by
  have hest : 0 ≤ Q.limit * Q.speed := by
    rw [h.limit]
    have := h.pos
    positivity
  have key := simulate_spec h (P := fun _ _ _ _ => True) (fun _ _ _ _ _ _ => trivial)
    (G := fun c w => ∃ l, Onto a b w.2 l ∧ l + c * (Q.limit * Q.speed) < dist a b) (by
      rintro c w v s hw ⟨l, h1, h2⟩
      push_cast at h2
      have hc : 0 ≤ (c : ℝ) * (Q.limit * Q.speed) := by positivity
      obtain ⟨w', s', l', g1, g2, g3⟩ := straight_next hrnd (i := i) hab hest h1 (by linarith) v s
      refine ⟨w', s', ?_, l', g3, by linarith⟩
      rw [hlane, ← g1]
      simp only [nextPoint, currPoint, hw, Option.map_some]) hN hf pos vel s
  cases hs : simulate Q fuel s pos vel (N * dt) dt with
  | ok r => exact ⟨r, rfl⟩
  | error x =>
    rw [hs] at key
    exfalso
    push_cast at hl
    have hc : 0 ≤ (((N + m - 1) / m : Nat) : ℝ) * (Q.limit * Q.speed) := by positivity
    obtain ⟨w', s', l', g1, g2, g3⟩ := straight_next hrnd (i := i) hab hest hp (by linarith) vel s
    refine key.2 w' s' (by rw [hlane]; exact g1) ⟨l', g3, ?_⟩
    linarith

/-! ### An example, and what is wrong -/

/-- A craft on a lane of length 10: a waypoint every 2 time units, the speed 1/2, a network that always prefers the last input. -/
noncomputable def glider : Craft where
  limit := 2
  speed := 1 / 2
  box := [1, 1, 1]
  net := fun _ => [0, 0, 0, 0, 0, 0, 0, 1]
  rnd4 := fun x => (round (x * 10 ^ 4) : ℝ) * (1 / 10) ^ 4
  integ := exact
  lane := straightLane [(1, ⟨0, 0, 0⟩, ⟨10, 0, 0⟩)]
  rnd := fun d x => (round (x * 10 ^ d) : ℝ) * (1 / 10) ^ d

theorem glider_half (k : ℤ) : glider.rnd4 (k / 2) = k / 2 := by
  have e : ((k : ℝ) / 2 * 10 ^ 4) = ((k * 5000 : ℤ) : ℝ) := by push_cast; ring
  simp only [glider]
  rw [e, round_intCast]
  push_cast
  ring

theorem glider_regular : Regular glider 1 2 where
  net := fun _ => rfl
  box := by simp [glider]
  grid k := by
    have := glider_half (2 * k)
    push_cast at this
    rw [mul_one]
    simpa using this
  limit := by norm_num [glider]
  some := by norm_num
  pos := one_pos

theorem glider_start : Onto ⟨0, 0, 0⟩ ⟨10, 0, 0⟩ ⟨1, 0, 0⟩ 1 := (onto_x (by norm_num) (by norm_num) (by norm_num) _ _).2 (by norm_num)

/-- The hypotheses of the theorems hold for a flight of 5 steps with three waypoints and one more. -/
theorem glider_flies (s : Track) : ∃ r, simulate glider 6 s ⟨1, 0, 0⟩ ⟨0, 0, 0⟩ (5 : Nat) 1 = .ok r := by
  have := C102_straight glider_regular rounding_round (i := 1) (a := ⟨0, 0, 0⟩) (b := ⟨10, 0, 0⟩) (by simp) rfl (by norm_num [glider]) (N := 5) (fuel := 6) (by norm_num) (by norm_num)
    glider_start (by rw [dist_ten (by norm_num)]; norm_num [glider]) ⟨0, 0, 0⟩ s
  simpa using this

example (s : Track) : ∃ A s', simulate glider 6 s ⟨1, 0, 0⟩ ⟨0, 0, 0⟩ (5 : Nat) 1 = .ok (A, s') ∧ A.length = 6 ∧ (∃ wps, s'.wps = s.wps ++ wps ∧ wps.length = 4) ∧
    ∃ p, A[5]? = some p ∧ |p.vel.z| ≤ 10 ∧ p.time = 5 := by
  obtain ⟨⟨A, s'⟩, hr⟩ := glider_flies s
  have hr' : simulate glider 6 s ⟨1, 0, 0⟩ ⟨0, 0, 0⟩ ((5 : Nat) * 1) 1 = .ok (A, s') := by rw [mul_one]; exact hr
  obtain ⟨h1, h2, h3⟩ := C102_trace_partial glider_regular (by norm_num) (by norm_num) hr'
  obtain ⟨wps, g1, g2, -⟩ := C102_waypoints glider_regular (by norm_num) (by norm_num) hr'
  refine ⟨A, s', hr, h1, ⟨wps, g1, g2⟩, A[5], List.getElem?_eq_getElem (by omega), ?_, ?_⟩
  · have := (C102_speed glider_regular ideal_exact (by norm_num) (by norm_num) hr' (List.getElem?_eq_getElem (by omega : 5 < A.length))).2.2.1
    norm_num at this
    exact this
  · have := h3 5 _ (List.getElem?_eq_getElem (by omega))
    rw [this]; norm_num

/-- **Violation.** Without `1 ≤ N`: for the horizon 0 there is no row at all, not even the initial one. -/
theorem C102_empty_violated (Q : Craft) {fuel : Nat} (hf : 0 < fuel) {dt : ℝ} {pos vel : V3} {s s' : Track} {A : List Row} (hr : simulate Q fuel s pos vel 0 dt = .ok (A, s')) : A = [] := by
  obtain ⟨n, rfl⟩ : ∃ n, fuel = n + 1 := ⟨fuel - 1, by omega⟩
  unfold simulate at hr
  split at hr
  · cases hr
  · rw [flyLoop, if_neg (lt_irrefl _)] at hr
    cases hr
    rfl

/-- The inner loop of the glider, for the horizon 3/2 and the time step 1. -/
theorem glider_run {s : Track} {w : V3 × V3} (hw : s.wp = some w) (b : V3) (c : S9) :
    runModel glider s 6 c (3 / 2) 1 b 0 = .ok [(0, c), (1, stepOf glider 1 b c), (2, stepOf glider 1 b (stepOf glider 1 b c))] := by
  have step : ∀ (n : Nat) (t : ℝ) (cur init : S9) (df : Bool) (acc : List (ℝ × S9)), ∃ df', runLoop glider s (3 / 2) 1 b 0 (n + 1) t cur init df acc =
      if t < 3 / 2 ∨ df = false then
        if 0 ≤ glider.rnd4 (t + 1 - 3 / 2 - 1) then .ok acc else runLoop glider s (3 / 2) 1 b 0 n (t + 1) (stepOf glider 1 b cur) cur df' (acc ++ [(t + 1, stepOf glider 1 b cur)])
      else .ok acc := by
    intro n t cur init df acc
    obtain ⟨i, u, y, hc, -⟩ := control_ok glider_regular.net b cur
    obtain ⟨df', hh⟩ := handler_ok glider_regular.box hw init
    refine ⟨df', ?_⟩
    have es : glider.integ ⟨u.1, u.2.1, u.2.2, b, 0⟩ 1 cur = stepOf glider 1 b cur := by simp only [stepOf, hc]
    rw [runLoop]
    simp only [hc, hh, bind, Except.bind, es, pure, Except.pure]
  have r1 : glider.rnd4 (0 + 1 - 3 / 2 - 1) = -3 / 2 := by
    have := glider_half (-3); norm_num at this ⊢; exact this
  have r2 : glider.rnd4 (1 + 1 - 3 / 2 - 1) = -1 / 2 := by
    have := glider_half (-1); norm_num at this ⊢; exact this
  have r3 : glider.rnd4 (2 + 1 - 3 / 2 - 1) = 1 / 2 := by
    have := glider_half 1; norm_num at this ⊢; exact this
  unfold runModel
  obtain ⟨d1, h1⟩ := step 5 0 c c false [(0, c)]
  rw [h1, if_pos (.inl (by norm_num)), r1, if_neg (by norm_num), zero_add]
  obtain ⟨d2, h2⟩ := step 4 1 (stepOf glider 1 b c) c d1 ([(0, c)] ++ [(1, stepOf glider 1 b c)])
  rw [h2, if_pos (.inl (by norm_num)), r2, if_neg (by norm_num), one_add_one_eq_two]
  obtain ⟨d3, h3⟩ := step 3 2 (stepOf glider 1 b (stepOf glider 1 b c)) (stepOf glider 1 b c) d2
    ([(0, c)] ++ [(1, stepOf glider 1 b c)] ++ [(2, stepOf glider 1 b (stepOf glider 1 b c))])
  rw [h3, r3, if_pos (by norm_num : (0 : ℝ) ≤ 1 / 2), ite_self]
  rfl

/-- **Violation.** If the horizon is not a multiple of the time step, the rows go beyond it: the horizon 3/2, the time step 1 and a row for time 2. -/
theorem C102_beyond_violated (s : Track) : ∃ A s' r, simulate glider 6 s ⟨1, 0, 0⟩ ⟨0, 0, 0⟩ (3 / 2) 1 = .ok (A, s') ∧ r ∈ A ∧ 3 / 2 < r.time := by
  have hab : (⟨0, 0, 0⟩ : V3) ≠ ⟨10, 0, 0⟩ := by simp
  have h10 : Verif.Spec.Lane3d.dist ⟨0, 0, 0⟩ ⟨10, 0, 0⟩ = 10 := dist_ten (by norm_num)
  have hest : glider.limit * glider.speed = 1 := by norm_num [glider]
  obtain ⟨w, s₁, l₁, h1, h2, h3⟩ := straight_next (rnd := glider.rnd) rounding_round (i := 1) hab (est := 1) zero_le_one glider_start (by rw [h10]; norm_num) ⟨0, 0, 0⟩ s
  obtain ⟨hw, -, -⟩ := nextPoint_wp h1
  unfold simulate
  rw [hest, show glider.lane = straightLane [(1, ⟨0, 0, 0⟩, ⟨10, 0, 0⟩)] from rfl, h1]
  simp only
  have hmin : min glider.limit ((3 : ℝ) / 2 - 0) = 3 / 2 := by norm_num [glider]
  rw [flyLoop, if_pos (by norm_num), hmin, glider_run hw]
  simp only [bind, Except.bind, List.map_cons, List.map_nil, List.getLast?_cons_cons, List.getLast?_singleton, List.head?_cons, shift, add_zero]
  have r2 : glider.rnd4 2 = 2 := by
    have := glider_half 4; norm_num at this ⊢; exact this
  obtain ⟨w', s₂, l₂, g1, -, -⟩ := straight_next (rnd := glider.rnd) rounding_round (i := 1) hab (est := 1) zero_le_one h3 (by rw [h10]; linarith)
    (stepOf glider 1 (refVelocity glider.limit w) (stepOf glider 1 (refVelocity glider.limit w) ⟨w.1, ⟨1, 0, 0⟩, ⟨0, 0, 0⟩⟩)).vel s₁
  have g1' : nextPoint glider.rnd glider.lane none
      (stepOf glider 1 (refVelocity glider.limit w) (stepOf glider 1 (refVelocity glider.limit w) ⟨w.1, ⟨1, 0, 0⟩, ⟨0, 0, 0⟩⟩)).vel
      (glider.limit * glider.speed) s₁ = some (w', s₂) := by
    rw [hest, show glider.lane = straightLane [(1, ⟨0, 0, 0⟩, ⟨10, 0, 0⟩)] from rfl, ← g1]
    simp only [nextPoint, currPoint, hw, Option.map_some]
  rw [g1']
  simp only [r2]
  rw [flyLoop, if_neg (by norm_num)]
  refine ⟨_, _, ⟨2, (stepOf glider 1 (refVelocity glider.limit w) (stepOf glider 1 (refVelocity glider.limit w) ⟨w.1, ⟨1, 0, 0⟩, ⟨0, 0, 0⟩⟩)).pos,
    (stepOf glider 1 (refVelocity glider.limit w) (stepOf glider 1 (refVelocity glider.limit w) ⟨w.1, ⟨1, 0, 0⟩, ⟨0, 0, 0⟩⟩)).vel⟩, rfl, ?_, by norm_num⟩
  split <;> simp

end Verif.Props
