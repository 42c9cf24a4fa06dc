import Verif.Proofs.AgentsEx

set_option autoImplicit false

namespace Verif.Agents
open Set

/-- The acceleration in each mode. -/
theorem carMode_accel {speed accel v : ℝ} {mode : String} {da : ℝ × ℝ} (h : carMode speed accel mode v = .ok da) :
    (mode = "Brake" ∧ da = (0, max (-accel) (-v))) ∨ (mode = "Accel" ∧ da = (0, min accel (speed - v))) ∨
    (mode = "Normal" ∧ da = (0, 0)) ∨ (mode = "Stop" ∧ da = (0, 0)) ∨ (mode = "SwitchLeft" ∧ da = (1, 0)) ∨ (mode = "SwitchRight" ∧ da = (-1, 0)) := by
  unfold carMode at h
  split at h
  · rename_i h'
    cases h
    rcases h' with rfl | rfl
    · exact .inr (.inr (.inl ⟨rfl, rfl⟩))
    · exact .inr (.inr (.inr (.inl ⟨rfl, rfl⟩)))
  · split at h
    · rename_i e; cases h; exact .inr (.inr (.inr (.inr (.inl ⟨e, rfl⟩))))
    · split at h
      · rename_i e; cases h; exact .inr (.inr (.inr (.inr (.inr ⟨e, rfl⟩))))
      · split at h
        · rename_i e; cases h; exact .inl ⟨e, rfl⟩
        · split at h
          · rename_i e; cases h; exact .inr (.inl ⟨e, rfl⟩)
          · cases h

theorem carMode2_accel {speed accel v : ℝ} {mode : String} {da : ℝ × ℝ} (h : carMode2 speed accel mode v = .ok da) :
    carMode speed accel mode v = .ok da ∨ (mode = "SwitchLeft2" ∧ da = (2, 0)) ∨ (mode = "SwitchRight2" ∧ da = (-2, 0)) := by
  unfold carMode2 at h
  by_cases h1 : mode = "SwitchLeft2"
  · subst h1
    simp at h
    exact .inr (.inl ⟨rfl, h.symm⟩)
  · by_cases h2 : mode = "SwitchRight2"
    · subst h2
      simp at h
      exact .inr (.inr ⟨rfl, h.symm⟩)
    · rw [if_neg h1, if_neg h2] at h
      exact .inl h

/-- What `carControl` computes. -/
theorem carControl_ok {ofMode : String → ℝ → Except String (ℝ × ℝ)} {m : LaneMap} {mode : List String} {x y θ v : ℝ} {u : ℝ × ℝ}
    (h : carControl ofMode m mode x y θ v = .ok u) : ∃ vmode lane width lat da heading, mode = [vmode, lane] ∧ m.width lane = .ok width ∧
      m.lateral lane (x, y) = .ok lat ∧ ofMode vmode v = .ok da ∧ m.heading lane (x, y) = .ok heading ∧
      u = (clip (Lane.wrapToPi (heading - θ) + Lane.arctan2 (45 / 100 * (-lat + da.1 * width)) v), da.2) := by
  unfold carControl at h
  split at h
  · rename_i vmode lane
    obtain ⟨width, h1, h⟩ := (bind_ok_iff _ _ _).1 h
    obtain ⟨lat, h2, h⟩ := (bind_ok_iff _ _ _).1 h
    obtain ⟨da, h3, h⟩ := (bind_ok_iff _ _ _).1 h
    obtain ⟨heading, h4, h⟩ := (map_ok_iff _ _ _).1 h
    exact ⟨vmode, lane, width, lat, da, heading, rfl, h1, h2, h3, h4, h.symm⟩
  · cases h

theorem npcAction_ok {m : LaneMap} {mode : List String} {s : List ℝ} {u : ℝ × ℝ} (h : npcAction m mode s = .ok u) :
    ∃ x y θ v rest vmode lane modes lat heading, s = x :: y :: θ :: v :: rest ∧ mode = vmode :: lane :: modes ∧ m.lateral lane (x, y) = .ok lat ∧
      m.heading lane (x, y) = .ok heading ∧ u = (clip (heading - θ + Lane.arctan2 (45 / 100 * -lat) v), 0) := by
  unfold npcAction at h
  split at h
  · rename_i x y θ v rest
    split at h
    · rename_i vmode lane modes
      obtain ⟨lat, h1, h⟩ := (bind_ok_iff _ _ _).1 h
      obtain ⟨heading, h2, h⟩ := (map_ok_iff _ _ _).1 h
      exact ⟨x, y, θ, v, rest, vmode, lane, modes, lat, heading, rfl, rfl, h1, h2, h.symm⟩
    · cases h
  · cases h

/-- All classes with `speed` and `accel`: the control comes from `carControl`. -/
theorem driven_ok {speed accel : ℝ} {c : CarClass} (hc : Driven speed accel c) {m : LaneMap} {mode : List String} {s : List ℝ} {u : ℝ × ℝ} (h : c.action m mode s = .ok u) :
    ∃ x y θ v rest ofMode, s = x :: y :: θ :: v :: rest ∧ carControl ofMode m mode x y θ v = .ok u ∧
      ((ofMode = carMode speed accel) ∨ (ofMode = carMode2 speed accel ∧ c = .switch2 speed accel)) := by
  rcases hc with rfl | rfl | rfl
  · change carAction speed accel m mode s = .ok u at h
    unfold carAction at h
    split at h
    · exact ⟨_, _, _, _, [], _, rfl, h, .inl rfl⟩
    · cases h
  · change carAction speed accel m mode (s.take 4) = .ok u at h
    unfold carAction at h
    split at h
    · rename_i x y θ v e
      match s, e with
      | _ :: _ :: _ :: _ :: rest, e => cases e; exact ⟨_, _, _, _, rest, _, rfl, h, .inl rfl⟩
    · cases h
  · change switch2Action speed accel m mode s = .ok u at h
    unfold switch2Action at h
    split at h
    · rename_i x y θ v r
      exact ⟨_, _, _, _, [r], _, rfl, h, .inr ⟨rfl, rfl⟩⟩
    · cases h

/-- The acceleration in a mode, all classes. -/
theorem driven_accel {speed accel : ℝ} {c : CarClass} (hc : Driven speed accel c) {m : LaneMap} {vmode lane : String} {s : List ℝ} {u : ℝ × ℝ}
    (h : c.action m [vmode, lane] s = .ok u) : u.2 = if vmode = "Brake" then max (-accel) (-(s.getD 3 0)) else if vmode = "Accel" then min accel (speed - s.getD 3 0) else 0 := by
  obtain ⟨x, y, θ, v, rest, ofMode, rfl, h1, h2⟩ := driven_ok hc h
  obtain ⟨vm, l, width, lat, da, heading, e, _, _, h3, _, rfl⟩ := carControl_ok h1
  cases e
  have key : ∀ da, carMode speed accel vmode v = .ok da → da.2 = if vmode = "Brake" then max (-accel) (-v) else if vmode = "Accel" then min accel (speed - v) else 0 := by
    intro da h
    rcases carMode_accel h with ⟨rfl, rfl⟩ | ⟨rfl, rfl⟩ | ⟨rfl, rfl⟩ | ⟨rfl, rfl⟩ | ⟨rfl, rfl⟩ | ⟨rfl, rfl⟩ <;> simp
  show da.2 = _
  simp only [List.getD_cons_succ, List.getD_cons_zero]
  rcases h2 with rfl | ⟨rfl, _⟩
  · exact key da h3
  · rcases carMode2_accel h3 with h4 | ⟨rfl, rfl⟩ | ⟨rfl, rfl⟩
    · exact key da h4
    · simp
    · simp

/-- Where a car is after driving straight for time `h`. -/
theorem flows_straight {a h x y θ v : ℝ} {rest : List ℝ} (hh : 0 ≤ h) {s' : List ℝ} (hf : Flows (carDyn (0, a)) h (x :: y :: θ :: v :: rest) s') :
    s'.getD 0 0 = x + (v * h + a / 2 * h ^ 2) * Real.cos θ ∧ s'.getD 1 0 = y + (v * h + a / 2 * h ^ 2) * Real.sin θ ∧ s'.getD 2 0 = θ ∧ s'.getD 3 0 = v + a * h ∧
      s'.length = 4 + rest.length := by
  obtain ⟨f, h1, h2, rfl⟩ := hf
  have hT : h ∈ Icc 0 h := ⟨hh, le_refl _⟩
  have hθ : ∀ t ∈ Icc 0 h, (f t).getD 2 0 = θ := by
    intro t ht
    have := comp_lin h1 (i := 2) (by simp) 0 (fun t _ => by rw [(carDyn_getD _ t _).2.2.1]; simp) t ht
    rw [this, h2]; simp
  have hv : ∀ t ∈ Icc 0 h, (f t).getD 3 0 = v + a * t := by
    intro t ht
    have := comp_lin h1 (i := 3) (by simp) a (fun t _ => (carDyn_getD _ t _).2.2.2) t ht
    rw [this, h2]; simp
  have hx : ∀ t ∈ Icc 0 h, (f t).getD 0 0 = x + (v * t + a / 2 * t ^ 2) * Real.cos θ := by
    intro t ht
    have := comp_eq h1 (i := 0) (by simp) (fun t => x + (0 + v * t + a / 2 * t ^ 2) * Real.cos θ) (fun t => (v + a * t) * Real.cos θ)
      (fun t => ((hasDeriv_quad 0 v a t).mul_const _).const_add x) (fun t ht' => by
        rw [(carDyn_getD _ t _).1, hθ t ⟨ht'.1, ht'.2.le⟩, hv t ⟨ht'.1, ht'.2.le⟩]; simp) (by rw [h2]; simp) t ht
    rw [this, zero_add]
  have hy : ∀ t ∈ Icc 0 h, (f t).getD 1 0 = y + (v * t + a / 2 * t ^ 2) * Real.sin θ := by
    intro t ht
    have := comp_eq h1 (i := 1) (by simp) (fun t => y + (0 + v * t + a / 2 * t ^ 2) * Real.sin θ) (fun t => (v + a * t) * Real.sin θ)
      (fun t => ((hasDeriv_quad 0 v a t).mul_const _).const_add y) (fun t ht' => by
        rw [(carDyn_getD _ t _).2.1, hθ t ⟨ht'.1, ht'.2.le⟩, hv t ⟨ht'.1, ht'.2.le⟩]; simp) (by rw [h2]; simp) t ht
    rw [this, zero_add]
  refine ⟨hx h hT, hy h hT, hθ h hT, hv h hT, ?_⟩
  rw [h1.length h hT]
  simp; omega

end Verif.Agents
