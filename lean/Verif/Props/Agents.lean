import Verif.Proofs.AgentsEx

/-!
C85: traces of the example agents are samples of their dynamics at the multiples of the time step, up to the time horizon.
-/

set_option autoImplicit false

namespace Verif.Props
open Verif.Agents Set

variable {integ : Integ} {init : List ℝ} {bound step : ℝ} {rows : List Row}

/-! ### C85 -/

theorem carNext_step {action : List ℝ → Except String (ℝ × ℝ)} {n : Nat} (hn : 4 ≤ n) (hs : 0 < step) (hI : ∀ u, Exact integ n (carDyn u) step)
    (s s' : List ℝ) (hl : s.length = n) (h : carNext integ action step s = .ok s') : CarStep action step s s' ∧ s'.length = n := by
  obtain ⟨u, h1, rfl⟩ := (map_ok_iff _ _ _).1 h
  have hf := hI u s hl
  have hl' := (flows_speed hs.le (by omega) hf).1
  rw [noReverse_eq _ (by omega)]
  exact ⟨⟨u, _, h1, hf, rfl⟩, by rw [List.length_set]; omega⟩

/-- **C85** for cars of all classes, with an exact integrator: the trace has a row for each multiple of the time step up to the horizon; it starts with the initial
state; and each row comes from the row before by driving for one step with the control of that row. It exists if the control is defined in all states. -/
theorem C85_cars_partial (c : CarClass) (m : LaneMap) (mode : List String) (n : Nat) (hn : n = 4 ∨ n = 5) (hs : 0 < step)
    (hI : ∀ u, Exact integ n (carDyn u) step) (hl : init.length = n) :
    (∀ rows, carTrace integ (c.action m mode) init bound step = .ok rows → Samples (CarStep (c.action m mode) step) init bound step rows ∧
      ∀ (k : Nat) (row : Row), rows[k]? = some row → row.2.length = n) ∧
    ((∀ s, s.length = n → ∃ u, c.action m mode s = .ok u) → ∃ rows, carTrace integ (c.action m mode) init bound step = .ok rows) := by
  constructor
  · intro rows h
    have h1 := stepped_samples hs (fun i => by push_cast; ring) h
    exact h1.imp (fun s => s.length = n) hl (fun s s' hl h => carNext_step (by omega) hs hI s s' hl h)
  · intro hd
    obtain ⟨r, hr⟩ := loop_total (time := fun i : Nat => step * (i + 1)) (next := carNext integ (c.action m mode) step) (fun s => s.length = n) (by
      intro s hl
      obtain ⟨u, hu⟩ := hd s hl
      have h1 : carNext integ (c.action m mode) step s = .ok (noReverse (integ (carDyn u) s step)) := by unfold carNext; rw [hu]; rfl
      exact ⟨_, h1, (carNext_step (by omega) hs hI s _ hl h1).2⟩) (numPoints bound step) 0 init hl
    exact ⟨_, by unfold carTrace stepped; rw [hr]; rfl⟩

/-- **C85**: simulating on from a row of a trace, for the rest of the time, gives the rest of the trace. (For all agents that step by themselves.) -/
theorem C85_rest_partial (c : CarClass) (m : LaneMap) (mode : List String) (hs : 0 < step) (h : carTrace integ (c.action m mode) init bound step = .ok rows)
    (k : Nat) (row : Row) (hk : rows[k]? = some row) :
    carTrace integ (c.action m mode) row.2 (bound - k * step) step = .ok ((rows.drop k).map fun r => (r.1 - k * step, r.2)) := by
  have hS := stepped_samples hs (fun i => by push_cast; ring) h
  obtain ⟨r, h1, rfl⟩ := (map_ok_iff _ _ _).1 h
  obtain ⟨rest, h2, h3⟩ := loop_rest (time' := fun i : Nat => step * (i + 1)) (i' := 0) h1 0 k row hk
  have hlen := loop_length h1
  have hnum : numPoints (bound - k * step) step = numPoints bound step - k := by
    unfold numPoints
    rw [sub_div, mul_div_cancel_right₀ _ hs.ne', Nat.ceil_sub_natCast]
  have htr : carTrace integ (c.action m mode) row.2 (bound - k * step) step = .ok ((0, row.2) :: rest) := by
    unfold carTrace stepped
    rw [hnum, h2]
    rfl
  rw [htr]
  congr 1
  have hS' := stepped_samples hs (fun i => by push_cast; ring) htr
  obtain ⟨hlt, _⟩ := List.getElem?_eq_some_iff.1 hk
  simp only [List.length_cons, hlen] at hlt
  have hl2 := loop_length h2
  refine List.ext_getElem? (fun j => ?_)
  rw [List.getElem?_map, List.getElem?_drop]
  have hsnd : ∀ j, (((0, row.2) :: rest : List Row)[j]?).map Prod.snd = (((0, init) :: r : List Row)[k + j]?).map Prod.snd := by
    intro j
    cases j with
    | zero => rw [Nat.add_zero, hk]; rfl
    | succ j =>
      rw [List.getElem?_cons_succ, ← Nat.add_assoc, List.getElem?_cons_succ]
      have := congrArg (fun l => l[j]?) h3
      simp only [List.getElem?_map, List.getElem?_drop] at this
      exact this
  have hj := hsnd j
  cases h4 : ((0, row.2) :: rest : List Row)[j]? with
  | none =>
    rw [h4] at hj
    cases h5 : ((0, init) :: r : List Row)[k + j]? with
    | none => rfl
    | some x => rw [h5] at hj; cases hj
  | some x =>
    rw [h4] at hj
    cases h5 : ((0, init) :: r : List Row)[k + j]? with
    | none => rw [h5] at hj; cases hj
    | some x' =>
      rw [h5] at hj
      have e1 := hS'.times j x h4
      have e2 := hS.times (k + j) x' h5
      have e3 : x.2 = x'.2 := Option.some.inj hj
      show some x = some (x'.1 - k * step, x'.2)
      rw [← e3, e2]
      congr 1
      refine Prod.ext ?_ rfl
      rw [e1]
      push_cast
      ring

theorem otherTime_eq {rnd : ℝ → ℝ} (hr : ∀ k : Nat, rnd (k * step) = k * step) (i : Nat) : otherTime rnd step i = (i + 1 : ℕ) * step := by
  unfold otherTime
  rw [hr]
  push_cast
  ring

/-- **C85** for the other agents that step by themselves, if rounding does not change the multiples of the time step (the van der Pol agent; the spacecraft with any
dynamics for its modes): each row is what the integrator makes of the row before; and the flow of it, if the integrator is exact at the rows. -/
theorem C85_others_partial (rnd : ℝ → ℝ) (hr : ∀ k : Nat, rnd (k * step) = k * step) (hs : 0 < step) :
    (∃ rows, vanderpolTrace integ rnd init bound step = .ok rows ∧ Samples (fun s s' => s' = integ vanderpolDyn s step) init bound step rows ∧
      ((∀ row ∈ rows, Flows vanderpolDyn step row.2 (integ vanderpolDyn row.2 step)) → Samples (Flows vanderpolDyn step) init bound step rows)) ∧
    (∀ dyn md f mode, dyn md = some f → ∃ rows, craftTrace integ rnd dyn (md :: mode) init bound step = .ok rows ∧
      Samples (fun s s' => s' = integ f s step) init bound step rows ∧
      ((∀ row ∈ rows, Flows f step row.2 (integ f row.2 step)) → Samples (Flows f step) init bound step rows)) := by
  have key : ∀ (next : List ℝ → Except String (List ℝ)) (f : ℝ → List ℝ → List ℝ), (∀ s, next s = .ok (integ f s step)) →
      ∃ rows, stepped next (otherTime rnd step) init bound step = .ok rows ∧ Samples (fun s s' => s' = integ f s step) init bound step rows ∧
      ((∀ row ∈ rows, Flows f step row.2 (integ f row.2 step)) → Samples (Flows f step) init bound step rows) := by
    intro next f hnext
    obtain ⟨r, hr'⟩ := loop_total (time := otherTime rnd step) (next := next) (fun _ => True) (by
      intro s _
      exact ⟨_, hnext s, trivial⟩) (numPoints bound step) 0 init trivial
    have h1 : stepped next (otherTime rnd step) init bound step = .ok ((0, init) :: r) := by unfold stepped; rw [hr']; rfl
    have h2 : Samples (fun s s' => s' = integ f s step) init bound step ((0, init) :: r) :=
      ((stepped_samples hs (otherTime_eq hr) h1).imp (fun _ => True) trivial (by
        intro s s' _ h
        rw [hnext] at h
        cases h
        exact ⟨rfl, trivial⟩)).1
    refine ⟨_, h1, h2, fun hf => ⟨h2.first, h2.times, fun k row row' hk hk' => ?_, h2.reaches⟩⟩
    rw [h2.next k row row' hk hk']
    exact hf row (List.mem_of_getElem? hk)
  constructor
  · exact key _ vanderpolDyn (fun s => rfl)
  · intro dyn md f mode hd
    refine key _ f ?_
    intro s
    dsimp only
    rw [hd]

theorem rows_closed {next : List ℝ → Except String (List ℝ)} {rnd : ℝ → ℝ} (hr : ∀ k : Nat, rnd (k * step) = k * step) (hs : 0 < step) (state : ℝ → List ℝ)
    (hnext : ∀ t, 0 ≤ t → next (state t) = .ok (state (t + step))) :
    ∃ rows, stepped next (otherTime rnd step) (state 0) bound step = .ok rows ∧
      rows = (List.range (numPoints bound step + 1)).map (fun (k : Nat) => ((k : ℝ) * step, state (k * step))) := by
  have hstep : ∀ s, (∃ t, 0 ≤ t ∧ s = state t) → ∃ s', next s = .ok s' ∧ ∃ t, 0 ≤ t ∧ s' = state t := by
    rintro s ⟨t, ht, rfl⟩
    exact ⟨_, hnext t ht, t + step, by linarith, rfl⟩
  obtain ⟨r, h1⟩ := loop_total (time := otherTime rnd step) (next := next) _ hstep (numPoints bound step) 0 (state 0) ⟨0, le_refl _, rfl⟩
  have h2 : stepped next (otherTime rnd step) (state 0) bound step = .ok ((0, state 0) :: r) := by unfold stepped; rw [h1]; rfl
  refine ⟨_, h2, ?_⟩
  have hS := stepped_samples hs (otherTime_eq hr) h2
  have hlen := loop_length h1
  have hst : ∀ (k : Nat) (row : Row), ((0, state 0) :: r : List Row)[k]? = some row → row.2 = state (k * step) := by
    intro k
    induction k with
    | zero => intro row hk; rw [hS.first] at hk; cases hk; simp
    | succ k ih =>
      intro row hk
      obtain ⟨hlt, _⟩ := List.getElem?_eq_some_iff.1 hk
      have hk' : ((0, state 0) :: r : List Row)[k]? = some ((0, state 0) :: r : List Row)[k] := List.getElem?_eq_getElem (by omega)
      have h3 := hS.next k _ row hk' hk
      rw [ih _ hk', hnext _ (by positivity)] at h3
      rw [← Except.ok.inj h3]
      congr 1
      push_cast
      ring
  refine List.ext_getElem? (fun k => ?_)
  rw [List.getElem?_map]
  cases hk : ((0, state 0) :: r : List Row)[k]? with
  | none =>
    rw [List.getElem?_eq_none_iff] at hk
    simp only [List.length_cons, hlen] at hk
    rw [List.getElem?_eq_none (by simpa using hk)]
    rfl
  | some row =>
    obtain ⟨hlt, _⟩ := List.getElem?_eq_some_iff.1 hk
    simp only [List.length_cons, hlen] at hlt
    rw [List.getElem?_range hlt]
    show some row = some _
    congr 1
    exact Prod.ext (hS.times k row hk) (hst k row hk)

/-- **C85** for the robot: it moves with speed 1. -/
theorem C85_robot_partial (rnd : ℝ → ℝ) (hr : ∀ k : Nat, rnd (k * step) = k * step) (hs : 0 < step) (hI : Exact integ 1 (fun _ _ => [1]) step) (x : ℝ) :
    robotTrace integ rnd [x] bound step = .ok ((List.range (numPoints bound step + 1)).map fun (k : Nat) => ((k : ℝ) * step, [x + k * step])) := by
  obtain ⟨rows, h1, rfl⟩ := rows_closed (bound := bound) hr hs (fun t => [x + t]) (next := fun s => .ok (integ (fun _ _ => [1]) s step)) (by
    intro t _
    obtain ⟨y, h1, h2, h3⟩ := hI [x + t] rfl
    have hT : step ∈ Icc 0 step := ⟨hs.le, le_refl _⟩
    have hl := h1.length _ hT
    have hv := comp_lin h1 (i := 0) (by simp) 1 (fun _ _ => rfl) step hT
    rw [← h3]
    match y step, hl, hv with
    | [z], _, hv =>
      rw [h2] at hv
      simp only [List.getD_cons_zero] at hv
      rw [hv]
      congr 2
      ring)
  rw [show ([x] : List ℝ) = [x + 0] by simp]
  exact h1

/-- **C85** for the thermostat: the temperature grows or shrinks exponentially, the two clocks grow with rate 1. Other modes raise. -/
theorem C85_thermo_partial (rnd : ℝ → ℝ) (hr : ∀ k : Nat, rnd (k * step) = k * step) (hs : 0 < step) (hI : ∀ rate, Exact integ 3 (thermoDyn rate) step) (temp total cycle : ℝ) :
    (∀ md mode rate, (md = "ON" ∧ rate = 1 / 10 ∨ md = "OFF" ∧ rate = -(1 / 10)) → thermoTrace integ rnd (md :: mode) [temp, total, cycle] bound step =
      .ok ((List.range (numPoints bound step + 1)).map fun (k : Nat) => ((k : ℝ) * step, [temp * Real.exp (rate * (k * step)), total + k * step, cycle + k * step]))) ∧
    (∀ md mode, md ≠ "ON" → md ≠ "OFF" → 0 < bound → thermoTrace integ rnd (md :: mode) [temp, total, cycle] bound step = .error "ValueError") := by
  constructor
  · intro md mode rate hm
    have hrate : thermoRate (md :: mode) = .ok rate := by
      rcases hm with ⟨rfl, rfl⟩ | ⟨rfl, rfl⟩ <;> simp [thermoRate]
    obtain ⟨rows, h1, rfl⟩ := rows_closed (bound := bound) hr hs (fun t => [temp * Real.exp (rate * t), total + t, cycle + t])
      (next := fun s => (thermoRate (md :: mode)).map fun rate => integ (thermoDyn rate) s step) (by
      intro t _
      obtain ⟨y, h1, h2, h3⟩ := hI rate [temp * Real.exp (rate * t), total + t, cycle + t] rfl
      have hT : step ∈ Icc 0 step := ⟨hs.le, le_refl _⟩
      have hl := h1.length _ hT
      have hv1 := comp_lin h1 (i := 1) (by simp) 1 (fun _ _ => rfl) step hT
      have hv2 := comp_lin h1 (i := 2) (by simp) 1 (fun _ _ => rfl) step hT
      -- the temperature: its product with the inverse exponential does not change
      have hexp : ∀ s, HasDerivAt (fun s : ℝ => Real.exp (-(rate * s))) (-(rate * Real.exp (-(rate * s)))) s := by
        intro s
        have h4 : HasDerivAt (fun s : ℝ => -(rate * s)) (-rate) s := by simpa [neg_mul] using (hasDerivAt_id s).const_mul (-rate)
        exact h4.exp.congr_deriv (by ring)
      have hc : ∀ s ∈ Icc 0 step, (y s).getD 0 0 * Real.exp (-(rate * s)) = (y 0).getD 0 0 * Real.exp (-(rate * 0)) := by
        refine constant_of_has_deriv_right_zero ?_ ?_
        · exact (h1.continuous 0 (by simp)).mul (fun s _ => (hexp s).continuousAt.continuousWithinAt)
        · intro s hs'
          have h5 := (h1.deriv s hs' 0 (by simp)).mul (hexp s).hasDerivWithinAt
          exact h5.congr_deriv (by simp [thermoDyn]; ring)
      have hv0 := hc step hT
      rw [h2] at hv0 hv1 hv2
      rw [hrate]
      show Except.ok (integ (thermoDyn rate) _ step) = _
      rw [← h3]
      match y step, hl, hv0, hv1, hv2 with
      | [a, b, c], _, hv0, hv1, hv2 =>
        simp only [List.getD_cons_zero, List.getD_cons_succ, mul_zero, neg_zero, Real.exp_zero, mul_one, one_mul] at hv0 hv1 hv2
        rw [hv1, hv2]
        have ha : a = temp * Real.exp (rate * (t + step)) := by
          have h6 : Real.exp (rate * (t + step)) = Real.exp (rate * t) * Real.exp (rate * step) := by rw [← Real.exp_add]; congr 1; ring
          rw [h6, ← mul_assoc, ← hv0, mul_assoc, ← Real.exp_add]
          simp
        rw [ha]
        congr 2
        congr 1
        · ring
        · congr 1; ring)
    have e : ([temp, total, cycle] : List ℝ) = [temp * Real.exp (rate * 0), total + 0, cycle + 0] := by simp
    rw [e]
    exact h1
  · intro md mode h1 h2 hb
    have hn : numPoints bound step ≠ 0 := by
      exact (Nat.ceil_pos.2 (by positivity)).ne'
    obtain ⟨n, hn⟩ := Nat.exists_eq_succ_of_ne_zero hn
    unfold thermoTrace stepped
    rw [hn]
    simp [loop, thermoRate, h1, h2, Except.map, Except.bind]

/-- **C85** for signs: they do not move. -/
theorem C85_sign (hs : 0 < step) : Samples (fun s s' => s' = s) init bound step (signTrace init bound step) := by
  have h : stepped (fun s => .ok s) (fun (i : Nat) => (i : ℝ) * step + step) init bound step = .ok (signTrace init bound step) := by
    have : ∀ (n i : Nat), loop (fun s => .ok s) (fun (i : Nat) => (i : ℝ) * step + step) i n init = .ok ((List.range' i n).map fun (i : Nat) => ((i : ℝ) * step + step, init)) := by
      intro n
      induction n with
      | zero => intro i; rfl
      | succ n ih =>
        intro i
        unfold loop
        show (loop _ _ (i + 1) n init).map _ = _
        rw [ih]
        rfl
    unfold stepped
    rw [this]
    simp [signTrace, Except.map, List.range_eq_range']
  have := stepped_samples hs (fun i => by push_cast; ring) h
  exact (this.imp (fun _ => True) trivial (fun s s' _ h => ⟨(Except.ok.inj h).symm, trivial⟩)).1

/-- `odeint` is exact: the states of one solution at the times. -/
def ExactOde (odeint : OdeInt) (f : ℝ → List ℝ → List ℝ) (init : List ℝ) (horizon : ℝ) : Prop :=
  ∀ ts : List ℝ, (∀ t ∈ ts, 0 ≤ t ∧ t ≤ horizon) → ∃ y, Mix.Solves init.length horizon f y ∧ y 0 = init ∧ odeint f init ts = ts.map y

/-- **C85** for agents that only give their dynamics (`BaseAgent.TC_simulate`), if the horizon is a multiple of the time step. -/
theorem C85_base_partial (odeint : OdeInt) (rnd : ℝ → ℝ) (hr : ∀ k : Nat, rnd (k * step) = k * step) (hs : 0 < step) (f : ℝ → List ℝ → List ℝ)
    (hf : ∀ t t' s, f t s = f t' s) (N : Nat) (hO : ExactOde odeint f init (N * step)) :
    Samples (Flows f step) init (N * step) step (baseTrace odeint rnd f init (N * step) step) := by
  have hnum : ⌈((N : ℝ) * step + step / 2) / step⌉₊ = N + 1 := by
    have : ((N : ℝ) * step + step / 2) / step = N + 1 / 2 := by field_simp
    rw [this, Nat.ceil_eq_iff (by omega)]
    constructor <;> push_cast <;> norm_num
  obtain ⟨y, h1, h2, h3⟩ := hO ((List.range (N + 1)).map fun (k : Nat) => rnd (k * step)) (by
    intro t ht
    obtain ⟨k, hk, rfl⟩ := List.mem_map.1 ht
    rw [hr]
    have : (k : ℝ) ≤ N := by exact_mod_cast Nat.lt_succ_iff.1 (List.mem_range.1 hk)
    exact ⟨by positivity, mul_le_mul_of_nonneg_right this hs.le⟩)
  have hrows : baseTrace odeint rnd f init (N * step) step = (List.range (N + 1)).map fun (k : Nat) => ((k : ℝ) * step, y (k * step)) := by
    unfold baseTrace
    dsimp only
    rw [hnum, h3, List.map_map, List.zip_map', ]
    refine List.map_congr_left (fun k _ => ?_)
    simp [hr]
  rw [hrows]
  have hrow : ∀ (k : Nat) (row : Row), ((List.range (N + 1)).map fun (k : Nat) => ((k : ℝ) * step, y (k * step)))[k]? = some row → k ≤ N ∧ row = ((k : ℝ) * step, y (k * step)) := by
    intro k row hk
    rw [List.getElem?_map] at hk
    obtain ⟨j, hj, rfl⟩ := Option.map_eq_some_iff.1 hk
    obtain ⟨hlt, e⟩ := List.getElem?_eq_some_iff.1 hj
    simp only [List.length_range] at hlt
    rw [List.getElem_range] at e
    subst e
    exact ⟨by omega, rfl⟩
  refine ⟨?_, ?_, ?_, ?_⟩
  · rw [List.getElem?_map, List.getElem?_range (by omega)]
    simp [h2]
  · intro k row hk
    rw [(hrow k row hk).2]
  · intro k row row' hk hk'
    obtain ⟨hkN, rfl⟩ := hrow k row hk
    obtain ⟨hkN', rfl⟩ := hrow _ row' hk'
    have hkr : ((k + 1 : ℕ) : ℝ) ≤ N := by exact_mod_cast hkN'
    have hmul : ((k + 1 : ℕ) : ℝ) * step ≤ N * step := mul_le_mul_of_nonneg_right hkr hs.le
    push_cast at hmul
    have hk0 : (0 : ℝ) ≤ k * step := by positivity
    have hlen : (y (k * step)).length = init.length := h1.length _ ⟨hk0, by linarith⟩
    refine ⟨fun t => y (k * step + t), ⟨?_, ?_, ?_⟩, by simp, ?_⟩
    · intro t ht
      dsimp only
      rw [hlen, h1.length _ ⟨by linarith [ht.1], by linarith [ht.2]⟩]
    · intro i hi
      refine (h1.continuous i (hlen ▸ hi)).comp (f := fun t => k * step + t) (by fun_prop) ?_
      intro t ht
      exact ⟨by linarith [ht.1], by linarith [ht.2]⟩
    · intro t ht i hi
      have h4 := h1.deriv (k * step + t) ⟨by linarith [ht.1], by linarith [ht.2]⟩ i (hlen ▸ hi)
      have h5 : HasDerivWithinAt (fun t => k * step + t) 1 (Ici t) t := by simpa using ((hasDerivAt_id t).const_add (k * step)).hasDerivWithinAt
      have h6 := h4.scomp t h5 (fun s hs' => by simp only [mem_Ici] at hs' ⊢; linarith)
      rw [one_smul, hf (k * step + t) t] at h6
      exact h6
    · dsimp only
      congr 1
      push_cast
      ring
  · refine ⟨((N : ℝ) * step, y (N * step)), ?_, le_refl _, ?_⟩
    · rw [List.getLast?_map, List.getLast?_range]
      simp
    · intro k row' hk hne
      obtain ⟨hkN, rfl⟩ := hrow k row' hk
      have : k < N := by
        rcases Nat.lt_or_ge k N with h | h
        · exact h
        · exact absurd (by rw [show k = N by omega]) hne
      have : (k : ℝ) < N := by exact_mod_cast this
      exact mul_lt_mul_of_pos_right this hs

/-- **C85 fails** if the horizon is no multiple of the time step: for a horizon of 2.4 steps, the trace of an agent that only gives its dynamics ends before the
horizon, and it has fewer rows than the trace of a sign. -/
theorem C85_horizon_violated (odeint : OdeInt) (hodd : ∀ f y ts, (odeint f y ts).length = ts.length) (f : ℝ → List ℝ → List ℝ) (init s : List ℝ) :
    (∀ row ∈ baseTrace odeint id f init (24 / 10) 1, row.1 ≤ 2) ∧ (baseTrace odeint id f init (24 / 10) 1).length = 3 ∧ (signTrace s (24 / 10) 1).length = 4 := by
  have h1 : ⌈((24 : ℝ) / 10 + 1 / 2) / 1⌉₊ = 3 := by rw [Nat.ceil_eq_iff (by omega)]; constructor <;> norm_num
  have h2 : ⌈(24 : ℝ) / 10⌉₊ = 3 := by rw [Nat.ceil_eq_iff (by omega)]; constructor <;> norm_num
  refine ⟨?_, ?_, ?_⟩
  · intro row hrow
    unfold baseTrace at hrow
    dsimp only at hrow
    rw [h1] at hrow
    have := (List.of_mem_zip hrow).1
    obtain ⟨k, hk, e⟩ := List.mem_map.1 this
    rw [← e]
    have : (k : ℝ) ≤ 2 := by exact_mod_cast Nat.lt_succ_iff.1 (List.mem_range.1 hk)
    simpa using this
  · unfold baseTrace
    dsimp only
    rw [List.length_zip, hodd]
    simp only [List.length_map, List.length_range, h1, min_self]
  · simp [signTrace, numPoints, h2]

/-! The hypotheses can be met; for `C85_cars_partial` see `CarEx.trace` in `Props/Cars.lean`. -/

example : robotTrace solver id [3] 1 (1 / 2) = .ok ((List.range (numPoints 1 (1 / 2) + 1)).map fun (k : Nat) => ((k : ℝ) * (1 / 2), [3 + k * (1 / 2)])) :=
  C85_robot_partial id (fun _ => rfl) (by norm_num) (solver_robot _) 3

example : thermoTrace solver id ["ON"] [70, 0, 0] 1 (1 / 2) =
    .ok ((List.range (numPoints 1 (1 / 2) + 1)).map fun (k : Nat) => ((k : ℝ) * (1 / 2), [70 * Real.exp (1 / 10 * (k * (1 / 2))), 0 + k * (1 / 2), 0 + k * (1 / 2)])) :=
  (C85_thermo_partial id (fun _ => rfl) (by norm_num) (fun rate => solver_thermo rate _) 70 0 0).1 "ON" [] (1 / 10) (.inl ⟨rfl, rfl⟩)

/-- The origin is a rest point of the van der Pol equation, where the identity is an exact integrator. -/
example : ∃ rows, vanderpolTrace (fun _ s _ => s) id [0, 0] 1 (1 / 2) = .ok rows ∧ Samples (Flows vanderpolDyn (1 / 2)) [0, 0] 1 (1 / 2) rows := by
  obtain ⟨rows, h1, h2, h3⟩ := (C85_others_partial (integ := fun _ s _ => s) (init := [0, 0]) (bound := 1) (step := 1 / 2) id (fun _ => rfl) (by norm_num)).1
  refine ⟨rows, h1, h3 ?_⟩
  have hall : ∀ (k : Nat) (row : Row), rows[k]? = some row → row.2 = [0, 0] := by
    intro k
    induction k with
    | zero => intro row hk; rw [h2.first] at hk; cases hk; rfl
    | succ k ih =>
      intro row hk
      obtain ⟨hlt, _⟩ := List.getElem?_eq_some_iff.1 hk
      have hk' : rows[k]? = some rows[k] := List.getElem?_eq_getElem (by omega)
      rw [h2.next k _ row hk' hk, ih _ hk']
  intro row hrow
  obtain ⟨k, hk⟩ := List.mem_iff_getElem?.1 hrow
  rw [hall k row hk]
  refine ⟨fun _ => [0, 0], solves_of (fun _ => rfl) (fun i hi t => ?_), rfl, rfl⟩
  have : (vanderpolDyn t [0, 0]).getD i 0 = 0 := by
    match i, hi with
    | 0, _ => simp [vanderpolDyn]
    | 1, _ => simp [vanderpolDyn]
  rw [this]
  exact hasDerivAt_const _ _

/-- The spacecraft agent with the dynamics of the thermostat. -/
example : ∃ rows, craftTrace solver id (fun _ => some (thermoDyn 1)) ["ProxA"] [1, 2, 3] 1 (1 / 2) = .ok rows ∧ Samples (fun s s' => s' = solver (thermoDyn 1) s (1 / 2)) [1, 2, 3] 1 (1 / 2) rows := by
  obtain ⟨rows, h1, h2, _⟩ := (C85_others_partial (integ := solver) (init := [1, 2, 3]) (bound := 1) (step := 1 / 2) id (fun _ => rfl) (by norm_num)).2
    (fun _ => some (thermoDyn 1)) "ProxA" (thermoDyn 1) [] rfl
  exact ⟨rows, h1, h2⟩

/-- `LineAgent` with the exact solutions of its dynamics. -/
example (x v : ℝ) : Samples (Flows lineDyn (1 / 2)) [x, v] ((2 : ℕ) * (1 / 2)) (1 / 2) (baseTrace (fun _ s ts => ts.map fun t => [s.getD 0 0 + s.getD 1 0 * t, s.getD 1 0]) id lineDyn [x, v]
    ((2 : ℕ) * (1 / 2)) (1 / 2)) := by
  refine C85_base_partial _ id (fun _ => rfl) (by norm_num) lineDyn (fun _ _ _ => rfl) 2 (fun ts _ => ⟨fun t => [x + v * t, v], ?_, by simp, rfl⟩)
  refine solves_of (fun _ => rfl) (fun i hi t => ?_)
  match i, hi with
  | 0, _ => exact hasDeriv_lin x v t
  | 1, _ => exact hasDerivAt_const _ _

/-- **C85**, what the dynamics of the simple agents are: balls and points on a line move with constant velocity; the second variable of the van der Pol agent is the
speed of the first one, `x`, and `x'' = (1 - x²) x' - x`. -/
theorem C85_motion {h : ℝ} (hh : 0 ≤ h) :
    (∀ x y vx vy s', Flows ballDyn h [x, y, vx, vy] s' ↔ s' = [x + vx * h, y + vy * h, vx, vy]) ∧
    (∀ x v s', Flows lineDyn h [x, v] s' ↔ s' = [x + v * h, v]) ∧
    (∀ x v s', Flows vanderpolDyn h [x, v] s' → ∃ p q : ℝ → ℝ, p 0 = x ∧ q 0 = v ∧ s' = [p h, q h] ∧
      ContinuousOn p (Icc 0 h) ∧ ContinuousOn q (Icc 0 h) ∧
      ∀ t ∈ Ico 0 h, HasDerivWithinAt p (q t) (Ici t) t ∧ HasDerivWithinAt q ((1 - p t ^ 2) * q t - p t) (Ici t) t) := by
  have hT : h ∈ Icc 0 h := ⟨hh, le_refl _⟩
  refine ⟨fun x y vx vy s' => ⟨?_, ?_⟩, fun x v s' => ⟨?_, ?_⟩, ?_⟩
  · rintro ⟨z, h1, h0, rfl⟩
    have hl : (z h).length = 4 := by simpa using h1.length _ hT
    have k2 : ∀ t ∈ Icc 0 h, (z t).getD 2 0 = vx := fun t ht => by
      have := comp_lin h1 (i := 2) (by simp) 0 (fun t _ => by simp [ballDyn]) t ht
      rw [this, h0]; simp
    have k3 : ∀ t ∈ Icc 0 h, (z t).getD 3 0 = vy := fun t ht => by
      have := comp_lin h1 (i := 3) (by simp) 0 (fun t _ => by simp [ballDyn]) t ht
      rw [this, h0]; simp
    have k0 := comp_lin h1 (i := 0) (by simp) vx (fun t ht => by simpa [ballDyn] using k2 t (Ico_subset_Icc_self ht)) h hT
    have k1 := comp_lin h1 (i := 1) (by simp) vy (fun t ht => by simpa [ballDyn] using k3 t (Ico_subset_Icc_self ht)) h hT
    have k2 := k2 h hT
    have k3 := k3 h hT
    rw [h0] at k0 k1
    generalize z h = w at *
    match w, hl with
    | [a, b, c, d], _ =>
      simp at k0 k1 k2 k3
      simp [k0, k1, k2, k3]
  · rintro rfl
    refine ⟨fun t => [x + vx * t, y + vy * t, vx, vy], solves_of (fun _ => rfl) (fun i hi t => ?_), by simp, rfl⟩
    match i, hi with
    | 0, _ => exact hasDeriv_lin x vx t
    | 1, _ => exact hasDeriv_lin y vy t
    | 2, _ => exact hasDerivAt_const _ _
    | 3, _ => exact hasDerivAt_const _ _
  · rintro ⟨z, h1, h0, rfl⟩
    have hl : (z h).length = 2 := by simpa using h1.length _ hT
    have k1 : ∀ t ∈ Icc 0 h, (z t).getD 1 0 = v := fun t ht => by
      have := comp_lin h1 (i := 1) (by simp) 0 (fun t _ => by simp [lineDyn]) t ht
      rw [this, h0]; simp
    have k0 := comp_lin h1 (i := 0) (by simp) v (fun t ht => by simpa [lineDyn] using k1 t (Ico_subset_Icc_self ht)) h hT
    have k1 := k1 h hT
    rw [h0] at k0
    generalize z h = w at *
    match w, hl with
    | [a, b], _ =>
      simp at k0 k1
      simp [k0, k1]
  · rintro rfl
    refine ⟨fun t => [x + v * t, v], solves_of (fun _ => rfl) (fun i hi t => ?_), by simp, rfl⟩
    match i, hi with
    | 0, _ => exact hasDeriv_lin x v t
    | 1, _ => exact hasDerivAt_const _ _
  · rintro x v s' ⟨z, h1, h0, rfl⟩
    have hl : (z h).length = 2 := by simpa using h1.length _ hT
    refine ⟨fun t => (z t).getD 0 0, fun t => (z t).getD 1 0, by simp [h0], by simp [h0], ?_, h1.continuous 0 (by simp), h1.continuous 1 (by simp), fun t ht => ⟨?_, ?_⟩⟩
    · show z h = [(z h).getD 0 0, (z h).getD 1 0]
      generalize z h = w at *
      match w, hl with
      | [a, b], _ => simp
    · simpa [vanderpolDyn] using h1.deriv t ht 0 (by simp)
    · simpa [vanderpolDyn] using h1.deriv t ht 1 (by simp)

/-- A ball after half a time unit. -/
example : Flows ballDyn (1 / 2) [0, 1, 4, 2] [2, 2, 4, 2] := ((C85_motion (by norm_num)).1 0 1 4 2 _).2 (by norm_num)

end Verif.Props
