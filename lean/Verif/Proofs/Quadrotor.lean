import Verif.Spec.Quadrotor
import Verif.Proofs.Basic
import Verif.Proofs.Map3d
import Verif.Props.Map3d
import Mathlib.Analysis.Calculus.MeanValue
import Mathlib.Analysis.Calculus.Deriv.Pow
import Mathlib.Analysis.Calculus.Deriv.Mul

/-! Proofs for C102: the loops of the quadrotor. -/

set_option autoImplicit false

namespace Verif.Quad
open Verif.Lane3d Verif.Quad.Spec

/-! ### The chosen input -/

theorem argmaxFrom_spec (xs : List ℝ) : ∀ (best : ℝ) (a i : Nat), (argmaxFrom best a i xs = a ∧ ∀ x ∈ xs, x ≤ best) ∨
    ∃ k y, argmaxFrom best a i xs = i + k ∧ xs[k]? = some y ∧ best < y ∧ ∀ x ∈ xs, x ≤ y := by
  induction xs with
  | nil => intro best a i; exact .inl ⟨rfl, by simp⟩
  | cons x xs ih =>
    intro best a i
    simp only [argmaxFrom]
    split
    · rename_i hx
      rcases ih x i (i + 1) with ⟨h1, h2⟩ | ⟨k, y, h1, h2, h3, h4⟩
      · refine .inr ⟨0, x, h1, rfl, hx, ?_⟩
        rintro z hz
        rcases List.mem_cons.1 hz with rfl | hz
        · exact le_refl _
        · exact h2 z hz
      · refine .inr ⟨k + 1, y, by rw [h1]; omega, by simpa using h2, hx.trans h3, ?_⟩
        rintro z hz
        rcases List.mem_cons.1 hz with rfl | hz
        · exact h3.le
        · exact h4 z hz
    · rename_i hx
      rcases ih best a (i + 1) with ⟨h1, h2⟩ | ⟨k, y, h1, h2, h3, h4⟩
      · refine .inl ⟨h1, ?_⟩
        rintro z hz
        rcases List.mem_cons.1 hz with rfl | hz
        · exact not_lt.1 hx
        · exact h2 z hz
      · refine .inr ⟨k + 1, y, by rw [h1]; omega, by simpa using h2, h3, ?_⟩
        rintro z hz
        rcases List.mem_cons.1 hz with rfl | hz
        · exact (not_lt.1 hx).trans h3.le
        · exact h4 z hz

theorem argmax_spec {xs : List ℝ} {i : Nat} (h : argmax xs = some i) : ∃ y, xs[i]? = some y ∧ ∀ x ∈ xs, x ≤ y := by
  cases xs with
  | nil => cases h
  | cons x xs =>
    simp only [argmax, Option.some.injEq] at h
    subst h
    rcases argmaxFrom_spec xs x 0 1 with ⟨h1, h2⟩ | ⟨k, y, h1, h2, h3, h4⟩
    · refine ⟨x, by rw [h1]; rfl, ?_⟩
      rintro z hz
      rcases List.mem_cons.1 hz with rfl | hz
      · exact le_refl _
      · exact h2 z hz
    · refine ⟨y, by rw [h1, Nat.add_comm]; simpa using h2, ?_⟩
      rintro z hz
      rcases List.mem_cons.1 hz with rfl | hz
      · exact h3.le
      · exact h4 z hz

/-- The scaled errors at rotation zero. -/
noncomputable def errors (b : V3) (s : S9) : List ℝ :=
  [0.2 * (s.pos.x - s.ref.x), 0.2 * (s.pos.y - s.ref.y), 0.2 * (s.pos.z - s.ref.z), 0.1 * (s.vel.x - b.x), 0.1 * (s.vel.y - b.y), 0.1 * (s.vel.z - b.z)]

theorem control_ok {Q : Craft} (hnet : ∀ x, (Q.net x).length = 8) (b : V3) (s : S9) : ∃ (i : Nat) (u : ℝ × ℝ × ℝ) (y : ℝ), control Q b 0 s = .ok ⟨u.1, u.2.1, u.2.2, b, 0⟩ ∧
    inputs[i]? = some u ∧ (Q.net (errors b s))[i]? = some y ∧ ∀ x ∈ Q.net (errors b s), x ≤ y := by
  have hd : [0.2 * ((s.pos.sub s.ref).x * Real.cos 0 - (s.pos.sub s.ref).y * Real.sin 0),
      0.2 * ((s.pos.sub s.ref).x * Real.sin 0 + (s.pos.sub s.ref).y * Real.cos 0), 0.2 * (s.pos.sub s.ref).z,
      0.1 * ((s.vel.sub b).x * Real.cos 0 - (s.vel.sub b).y * Real.sin 0), 0.1 * ((s.vel.sub b).x * Real.sin 0 + (s.vel.sub b).y * Real.cos 0),
      0.1 * (s.vel.sub b).z] = errors b s := by
    simp [errors, V3.sub]
  cases ha : argmax (Q.net (errors b s)) with
  | none =>
    cases hn : Q.net (errors b s) with
    | nil => have := hnet (errors b s); rw [hn] at this; cases this
    | cons x xs => rw [hn] at ha; cases ha
  | some i =>
    obtain ⟨y, h1, h2⟩ := argmax_spec ha
    have hi : i < inputs.length := by
      have := (List.getElem?_eq_some_iff.1 h1).1
      rw [hnet] at this
      exact this
    refine ⟨i, inputs[i], y, ?_, List.getElem?_eq_getElem hi, h1, h2⟩
    simp only [control, hd, ha, Option.bind_some, List.getElem?_eq_getElem hi]

theorem handler_ok {Q : Craft} (hbox : 3 ≤ Q.box.length) {s : Track} {w : V3 × V3} (hw : s.wp = some w) (c : S9) : ∃ b, handler Q s c = .ok b := by
  match hb : Q.box with
  | [] => simp [hb] at hbox
  | [_] => simp [hb] at hbox
  | [_, _] => simp [hb] at hbox
  | b1 :: b2 :: b3 :: bs =>
    simp only [handler, hw, hb, guardBox]
    split <;> rename_i h <;> first | exact ⟨_, rfl⟩ | skip
    exfalso
    split at h <;> first | cases h | skip
    split at h <;> first | cases h | skip
    split at h <;> cases h

/-- One step of the flight. -/
noncomputable def stepOf (Q : Craft) (dt : ℝ) (b : V3) (s : S9) : S9 :=
  match control Q b 0 s with
  | .ok u => Q.integ u dt s
  | .error _ => s

/-! ### One window -/

theorem runLoop_eq {Q : Craft} {dt : ℝ} {m : Nat} (h : Regular Q dt m) {s : Track} {wp : V3 × V3} (hw : s.wp = some wp) (b : V3) (w : Nat) :
    ∀ (d fuel j : Nat) (cur init : S9) (df : Bool) (acc : List (ℝ × S9)), j + d = w → d < fuel →
      runLoop Q s (w * dt) dt b 0 fuel (j * dt) cur init df acc =
        .ok (acc ++ (List.range d).map fun i : Nat => (((j + i + 1 : Nat) : ℝ) * dt, (stepOf Q dt b)^[i + 1] cur)) := by
  intro d
  induction d with
  | zero =>
    intro fuel j cur init df acc hj hf
    obtain ⟨n, rfl⟩ : ∃ n, fuel = n + 1 := ⟨fuel - 1, by omega⟩
    obtain ⟨i, u, y, hc, -⟩ := control_ok h.net b cur
    obtain ⟨df', hh⟩ := handler_ok h.box hw init
    have e : (j : ℝ) * dt + dt - w * dt - dt = ((0 : ℤ) : ℝ) * dt := by
      rw [← hj]; push_cast; ring
    have hg := h.grid 0
    simp only [runLoop, hc, hh, bind, Except.bind, pure, Except.pure, e, hg]
    simp
  | succ d ih =>
    intro fuel j cur init df acc hj hf
    obtain ⟨n, rfl⟩ : ∃ n, fuel = n + 1 := ⟨fuel - 1, by omega⟩
    obtain ⟨i, u, y, hc, -⟩ := control_ok h.net b cur
    obtain ⟨df', hh⟩ := handler_ok h.box hw init
    have e : (j : ℝ) * dt + dt - w * dt - dt = ((-((d : ℤ) + 1) : ℤ) : ℝ) * dt := by
      rw [← hj]; push_cast; ring
    have hg := h.grid (-((d : ℤ) + 1))
    have hneg : ¬ (0 : ℝ) ≤ ((-((d : ℤ) + 1) : ℤ) : ℝ) * dt := by
      have := h.pos
      have hd : (0 : ℝ) ≤ d := Nat.cast_nonneg d
      push_cast
      nlinarith
    have hlt : (j : ℝ) * dt < w * dt := by
      have : (j : ℝ) < w := by exact_mod_cast (by omega : j < w)
      exact mul_lt_mul_of_pos_right this h.pos
    rw [runLoop, if_pos (.inl hlt)]
    simp only [hc, hh, bind, Except.bind, e, hg, if_neg hneg]
    have e2 : (j : ℝ) * dt + dt = ((j + 1 : Nat) : ℝ) * dt := by push_cast; ring
    have es : Q.integ ⟨u.1, u.2.1, u.2.2, b, 0⟩ dt cur = stepOf Q dt b cur := by simp only [stepOf, hc]
    rw [e2, es, ih n (j + 1) _ _ _ _ (by omega) (by omega), List.append_assoc, List.range_succ_eq_map, List.map_cons, List.map_map]
    congr 2
    simp only [List.singleton_append, List.cons.injEq, List.map_inj_left, Function.comp, Function.iterate_succ, Function.iterate_zero, id, and_true,
      Nat.add_zero, true_and]
    intro i _
    congr 3
    omega

theorem runModel_eq {Q : Craft} {dt : ℝ} {m : Nat} (h : Regular Q dt m) {s : Track} {wp : V3 × V3} (hw : s.wp = some wp) (b : V3) (w fuel : Nat)
    (hf : w < fuel) (c : S9) : runModel Q s fuel c (w * dt) dt b 0 =
      .ok ((List.range (w + 1)).map fun i : Nat => ((i : ℝ) * dt, (stepOf Q dt b)^[i] c)) := by
  have := runLoop_eq h hw b w w fuel 0 c c false [(0, c)] (by omega) hf
  simp only [Nat.cast_zero, zero_mul] at this
  rw [runModel, this, List.range_succ_eq_map, List.map_cons, List.map_map]
  congr 1
  simp only [List.singleton_append, List.cons.injEq, Nat.cast_zero, zero_mul, Function.iterate_zero, id, and_self, true_and]
  refine List.map_congr_left fun i _ => ?_
  simp only [Function.comp, Nat.zero_add, Nat.succ_eq_add_one]

/-! ### The whole flight -/

/-- The rows up to the step `e`, for the waypoints `ws`; `P` relates the rows before and after a step. -/
structure Upto (P : V3 × V3 → Nat → Row → Row → Prop) (m : Nat) (dt : ℝ) (pos₀ vel₀ : V3) (ws : List (V3 × V3)) (A : List Row) (e : Nat) (pos vel : V3) : Prop where
  length : A.length = e + 1
  first : A[0]? = some ⟨0, pos₀, vel₀⟩
  last : A[e]? = some ⟨e * dt, pos, vel⟩
  time : ∀ (k : Nat) (r : Row), A[k]? = some r → r.time = k * dt
  step : ∀ (k : Nat) (p q : Row), A[k]? = some p → A[k + 1]? = some q → ∃ w, ws[k / m]? = some w ∧ P w (k % m) p q

section Flight
variable {P : V3 × V3 → Nat → Row → Row → Prop} {m : Nat} {dt : ℝ} {pos₀ vel₀ : V3} {ws : List (V3 × V3)} {A : List Row} {e : Nat} {pos vel : V3}

theorem Upto.more (h : Upto P m dt pos₀ vel₀ ws A e pos vel) (w : V3 × V3) : Upto P m dt pos₀ vel₀ (ws ++ [w]) A e pos vel :=
  ⟨h.length, h.first, h.last, h.time, fun k p q hp hq => by
    obtain ⟨w', h1, h2⟩ := h.step k p q hp hq
    exact ⟨w', by rw [List.getElem?_append_left (List.getElem?_eq_some_iff.1 h1).1]; exact h1, h2⟩⟩

theorem Upto.snoc (h : Upto P m dt pos₀ vel₀ ws A e pos vel) {pos' vel' : V3} {w : V3 × V3} (hw : ws[e / m]? = some w)
    (hs : P w (e % m) ⟨e * dt, pos, vel⟩ ⟨(e + 1 : Nat) * dt, pos', vel'⟩) :
    Upto P m dt pos₀ vel₀ ws (A ++ [⟨(e + 1 : Nat) * dt, pos', vel'⟩]) (e + 1) pos' vel' where
  length := by simp [h.length]
  first := by rw [List.getElem?_append_left (by rw [h.length]; omega)]; exact h.first
  last := by rw [List.getElem?_append_right (by rw [h.length]), h.length]; simp
  time k r hk := by
    rcases Nat.lt_or_ge k A.length with hl | hl
    · rw [List.getElem?_append_left hl] at hk
      exact h.time k r hk
    · have hlen := (List.getElem?_eq_some_iff.1 hk).1
      have hk' : k = e + 1 := by
        simp [h.length] at hlen
        rw [h.length] at hl
        omega
      subst hk'
      rw [List.getElem?_append_right hl, h.length] at hk
      simp at hk
      subst hk
      simp
  step k p q hp hq := by
    have hlen := (List.getElem?_eq_some_iff.1 hq).1
    simp only [List.length_append, List.length_singleton, h.length] at hlen
    rw [List.getElem?_append_left (by rw [h.length]; omega)] at hp
    rcases Nat.lt_or_ge (k + 1) A.length with hl | hl
    · rw [List.getElem?_append_left hl] at hq
      exact h.step k p q hp hq
    · have hk' : k = e := by rw [h.length] at hl; omega
      subst hk'
      rw [h.last, Option.some.injEq] at hp
      rw [List.getElem?_append_right hl, h.length] at hq
      simp at hq
      subst hp
      subst hq
      exact ⟨w, hw, by simpa using hs⟩

theorem Upto.window {Q : Craft} {b : V3} {c : S9} {w : V3 × V3} {j : Nat} (hw : ws[j]? = some w)
    (hP : ∀ (i : Nat) (t t' : ℝ), P w i ⟨t, ((stepOf Q dt b)^[i] c).pos, ((stepOf Q dt b)^[i] c).vel⟩
      ⟨t', ((stepOf Q dt b)^[i + 1] c).pos, ((stepOf Q dt b)^[i + 1] c).vel⟩)
    (h : Upto P m dt pos₀ vel₀ ws A (j * m) c.pos c.vel) : ∀ l : Nat, l ≤ m → Upto P m dt pos₀ vel₀ ws
      (A ++ (List.range l).map fun i : Nat => (⟨((j * m + (i + 1) : Nat) : ℝ) * dt, ((stepOf Q dt b)^[i + 1] c).pos, ((stepOf Q dt b)^[i + 1] c).vel⟩ : Row))
      (j * m + l) ((stepOf Q dt b)^[l] c).pos ((stepOf Q dt b)^[l] c).vel
  | 0, _ => by simpa using h
  | l + 1, hl => by
    have ih := Upto.window hw hP h l (by omega)
    have e1 : (j * m + l) / m = j := by
      rw [Nat.mul_comm, Nat.mul_add_div (by omega), Nat.div_eq_of_lt (by omega), Nat.add_zero]
    have e2 : (j * m + l) % m = l := by
      rw [Nat.mul_comm, Nat.mul_add_mod, Nat.mod_eq_of_lt (by omega)]
    rw [List.range_succ, List.map_append, ← List.append_assoc]
    have := ih.snoc (w := w) (pos' := ((stepOf Q dt b)^[l + 1] c).pos) (vel' := ((stepOf Q dt b)^[l + 1] c).vel) (by rw [e1]; exact hw) (by
      rw [e2]
      exact hP l _ _)
    simpa [Nat.add_assoc] using this

end Flight

/-- What `get_next_point` changes. -/
theorem nextPoint_wp {rnd : Nat → ℝ → ℝ} {lane : List Obj} {p : Option V3} {v : V3} {est : ℝ} {s s' : Track} {w : V3 × V3}
    (h : nextPoint rnd lane p v est s = some (w, s')) : s'.wp = some w ∧ s'.wps = s.wps ++ [w] ∧ currPoint p s = some w.1 := by
  obtain ⟨f, seg, c, st, e1, _, _, _, _, rfl⟩ := Props.nextPoint_some h
  exact ⟨rfl, rfl, e1⟩

theorem linked_snoc {ws : List (V3 × V3)} (h : Linked ws) {a b : V3 × V3} (hl : ws.getLast? = some a) (hb : b.1 = a.2) : Linked (ws ++ [b]) := by
  intro k x y hx hy
  have hlen := (List.getElem?_eq_some_iff.1 hy).1
  simp only [List.length_append, List.length_singleton] at hlen
  rw [List.getElem?_append_left (by omega)] at hx
  rcases Nat.lt_or_ge (k + 1) ws.length with hk | hk
  · rw [List.getElem?_append_left hk] at hy
    exact h k x y hx hy
  · rw [List.getElem?_append_right hk] at hy
    have : k = ws.length - 1 := by omega
    rw [List.getLast?_eq_getElem?, ← this, hx, Option.some.injEq] at hl
    have e : k + 1 - ws.length = 0 := by omega
    rw [e] at hy
    simp at hy
    rw [← hy, hb, hl]

/-- The number of windows of `m` steps in `M` steps. -/
theorem windows_succ {M m : Nat} (hM : 1 ≤ M) (hm : 1 ≤ m) : (M + m - 1) / m = (M - min m M + m - 1) / m + 1 := by
  rcases Nat.le_total m M with h | h
  · rw [Nat.min_eq_left h, ← Nat.add_div_right _ (by omega)]
    congr 1
    omega
  · rw [Nat.min_eq_right h]
    have e1 : (M - M + m - 1) / m = 0 := Nat.div_eq_of_lt (by omega)
    have e2 : (M + m - 1) / m = 1 := by
      rw [Nat.div_eq_iff (by omega)]
      constructor <;> omega
    rw [e1, e2]

/-- What is known when the loop returns; `G c w` says that `c` more waypoints follow after `w`. -/
def Flown (G : Nat → V3 × V3 → Prop) (w : V3 × V3) (P : V3 × V3 → Nat → Row → Row → Prop) (dt : ℝ) (m N : Nat) (pos₀ vel₀ : V3) (pre wps : List (V3 × V3)) (M : Nat) : Except String (List Row × Track) → Prop
  | .error x => x = "map" ∧ ¬ G ((M + m - 1) / m) w
  | .ok (A, s') => ∃ pos vel new, s'.wps = pre ++ (wps ++ new) ∧ Linked (wps ++ new) ∧ new.length = (M + m - 1) / m ∧ Upto P m dt pos₀ vel₀ (wps ++ new) A N pos vel

theorem flyLoop_spec {Q : Craft} {dt : ℝ} {m : Nat} (h : Regular Q dt m) {P : V3 × V3 → Nat → Row → Row → Prop}
    (hP : ∀ (w : V3 × V3) (pos vel : V3) (i : Nat) (t t' : ℝ),
      P w i ⟨t, ((stepOf Q dt (refVelocity Q.limit w))^[i] ⟨w.1, pos, vel⟩).pos, ((stepOf Q dt (refVelocity Q.limit w))^[i] ⟨w.1, pos, vel⟩).vel⟩
        ⟨t', ((stepOf Q dt (refVelocity Q.limit w))^[i + 1] ⟨w.1, pos, vel⟩).pos, ((stepOf Q dt (refVelocity Q.limit w))^[i + 1] ⟨w.1, pos, vel⟩).vel⟩)
    {G : Nat → V3 × V3 → Prop}
    (hG : ∀ (c : Nat) (w : V3 × V3) (v : V3) (s : Track), s.wp = some w → G (c + 1) w →
      ∃ w' s', nextPoint Q.rnd Q.lane none v (Q.limit * Q.speed) s = some (w', s') ∧ G c w')
    (N fuel : Nat) (hf : N < fuel) (pos₀ vel₀ : V3) (pre : List (V3 × V3)) :
    ∀ (n M e j : Nat) (pos vel : V3) (w : V3 × V3) (s : Track) (wps : List (V3 × V3)) (acc : List Row), M < n → e + M = N → 1 ≤ N → (e = j * m ∨ M = 0) → s.wp = some w →
      s.wps = pre ++ wps → wps.getLast? = some w → (M ≠ 0 → wps.length = j + 1) → Linked wps →
      (if e = 0 then acc = [] ∧ pos = pos₀ ∧ vel = vel₀ else Upto P m dt pos₀ vel₀ wps acc e pos vel) →
      Flown G w P dt m N pos₀ vel₀ pre wps M (flyLoop Q fuel (N * dt) dt n (e * dt) pos vel w s acc) := by
  intro n
  induction n with
  | zero => intro M e j pos vel w s wps acc hM; omega
  | succ n ih =>
    intro M e j pos vel w s wps acc hM he hN hj hw hwps hl hlen hch hacc
    rcases Nat.eq_zero_or_pos M with rfl | hpos
    · have hnl : ¬ ((e : ℝ) * dt < N * dt) := by
        have : e = N := by omega
        rw [this]; exact lt_irrefl _
      rw [flyLoop, if_neg hnl]
      rw [if_neg (by omega)] at hacc
      have : e = N := by omega
      subst this
      exact ⟨pos, vel, [], by simpa using hwps, by simpa using hch, (Nat.div_eq_of_lt (by have := h.some; omega)).symm, by simpa using hacc⟩
    · have hej : e = j * m := hj.resolve_right (by omega)
      subst hej
      have hlen := hlen (by omega)
      have hwj : wps[j]? = some w := by
        rw [List.getLast?_eq_getElem?, hlen] at hl
        exact hl
      have hlt : ((j * m : Nat) : ℝ) * dt < N * dt := by
        have : ((j * m : Nat) : ℝ) < N := by exact_mod_cast (by omega : j * m < N)
        exact mul_lt_mul_of_pos_right this h.pos
      have hmin : min Q.limit ((N : ℝ) * dt - (j * m : Nat) * dt) = ((min m M : Nat) : ℝ) * dt := by
        have e1 : (N : ℝ) * dt - (j * m : Nat) * dt = (M : ℝ) * dt := by rw [← he]; push_cast; ring
        rw [e1, h.limit, Nat.cast_min, ← min_mul_of_nonneg _ _ h.pos.le]
      have hw1 : 1 ≤ min m M := by have := h.some; omega
      rw [flyLoop, if_pos hlt, hmin, runModel_eq h hw _ _ fuel (by omega)]
      simp only [bind, Except.bind, List.map_map]
      have hshift : ∀ b, (List.range (min m M + 1)).map (shift Q ((j * m : Nat) * dt) ∘ fun i : Nat => ((i : ℝ) * dt, (stepOf Q dt b)^[i] ⟨w.1, pos, vel⟩)) =
          (List.range (min m M + 1)).map fun i : Nat => (⟨((j * m + i : Nat) : ℝ) * dt, ((stepOf Q dt b)^[i] ⟨w.1, pos, vel⟩).pos,
            ((stepOf Q dt b)^[i] ⟨w.1, pos, vel⟩).vel⟩ : Row) := by
        intro b
        refine List.map_congr_left fun i _ => ?_
        have e2 : (i : ℝ) * dt + (j * m : Nat) * dt = (((j * m + i : Nat) : ℤ) : ℝ) * dt := by push_cast; ring
        simp only [Function.comp, shift, e2, h.grid]
        push_cast
        rfl
      rw [hshift]
      have hlast : ∀ f : Nat → Row, ((List.range (min m M + 1)).map f).getLast? = some (f (min m M)) := by
        intro f
        rw [List.range_succ, List.map_append]
        simp
      have hhead : ∀ f : Nat → Row, ((List.range (min m M + 1)).map f).head? = some (f 0) := by
        intro f
        rw [List.range_succ_eq_map]
        simp
      rw [hlast, hhead]
      simp only [Nat.add_zero]
      cases hnp : nextPoint Q.rnd Q.lane none ((stepOf Q dt (refVelocity Q.limit w))^[min m M] ⟨w.1, pos, vel⟩).vel (Q.limit * Q.speed) s with
      | none =>
        refine ⟨rfl, fun hg => ?_⟩
        rw [windows_succ hpos h.some] at hg
        obtain ⟨w', s', h1, -⟩ := hG _ _ _ _ hw hg
        rw [hnp] at h1
        cases h1
      | some r =>
        obtain ⟨w', s'⟩ := r
        obtain ⟨hw', hwps', hcp⟩ := nextPoint_wp hnp
        simp only [currPoint, hw, Option.map_some, Option.some.injEq] at hcp
        simp only
        have hdrop : ((List.range (min m M + 1)).map fun i : Nat => (⟨((j * m + i : Nat) : ℝ) * dt, ((stepOf Q dt (refVelocity Q.limit w))^[i] ⟨w.1, pos, vel⟩).pos,
              ((stepOf Q dt (refVelocity Q.limit w))^[i] ⟨w.1, pos, vel⟩).vel⟩ : Row)) =
            ⟨((j * m : Nat) : ℝ) * dt, pos, vel⟩ :: (List.range (min m M)).map fun i : Nat => (⟨((j * m + (i + 1) : Nat) : ℝ) * dt,
              ((stepOf Q dt (refVelocity Q.limit w))^[i + 1] ⟨w.1, pos, vel⟩).pos,
              ((stepOf Q dt (refVelocity Q.limit w))^[i + 1] ⟨w.1, pos, vel⟩).vel⟩ : Row) := by
          rw [List.range_succ_eq_map, List.map_cons, List.map_map]
          rfl
        have hr0 : Q.rnd4 (((j * m : Nat) : ℝ) * dt - 0) = (j * m : Nat) * dt := by
          have := h.grid ((j * m : Nat) : ℤ)
          simpa using this
        have hU : Upto P m dt pos₀ vel₀ wps
          (acc ++ if Q.rnd4 (((j * m : Nat) : ℝ) * dt - 0) ≠ 0 then List.drop 1 ((List.range (min m M + 1)).map fun i : Nat => (⟨((j * m + i : Nat) : ℝ) * dt,
              ((stepOf Q dt (refVelocity Q.limit w))^[i] ⟨w.1, pos, vel⟩).pos, ((stepOf Q dt (refVelocity Q.limit w))^[i] ⟨w.1, pos, vel⟩).vel⟩ : Row))
            else (List.range (min m M + 1)).map fun i : Nat => (⟨((j * m + i : Nat) : ℝ) * dt,
              ((stepOf Q dt (refVelocity Q.limit w))^[i] ⟨w.1, pos, vel⟩).pos, ((stepOf Q dt (refVelocity Q.limit w))^[i] ⟨w.1, pos, vel⟩).vel⟩ : Row))
          (j * m + min m M) ((stepOf Q dt (refVelocity Q.limit w))^[min m M] ⟨w.1, pos, vel⟩).pos
          ((stepOf Q dt (refVelocity Q.limit w))^[min m M] ⟨w.1, pos, vel⟩).vel := by
          rw [hr0, hdrop]
          by_cases he0 : j * m = 0
          · rw [if_pos he0] at hacc
            obtain ⟨rfl, rfl, rfl⟩ := hacc
            have h0 : Upto P m dt pos vel wps [⟨0, pos, vel⟩] (j * m) pos vel := by
              rw [he0]
              refine ⟨rfl, rfl, by simp, ?_, ?_⟩
              · intro k r hk
                match k with
                | 0 => simp at hk; subst hk; simp
                | k + 1 => simp at hk
              · intro k p q hp hq
                simp at hq
            have := Upto.window hwj (hP w pos vel) (c := ⟨w.1, pos, vel⟩) h0 (min m M) (Nat.min_le_left _ _)
            have hz : (((j * m : Nat) : ℝ) * dt) = 0 := by rw [he0]; simp
            rw [hz, if_neg (by simp)]
            exact this
          · rw [if_neg he0] at hacc
            have hne : (((j * m : Nat) : ℝ) * dt) ≠ 0 := mul_ne_zero (by exact_mod_cast he0) h.pos.ne'
            rw [if_pos hne, List.drop_one, List.tail_cons]
            exact Upto.window hwj (hP w pos vel) (c := ⟨w.1, pos, vel⟩) hacc (min m M) (Nat.min_le_left _ _)
        have hnew := ih (M - min m M) (j * m + min m M) (j + 1) ((stepOf Q dt (refVelocity Q.limit w))^[min m M] ⟨w.1, pos, vel⟩).pos
          ((stepOf Q dt (refVelocity Q.limit w))^[min m M] ⟨w.1, pos, vel⟩).vel w' s' (wps ++ [w']) _
          (by omega) (by omega) hN (by
            rcases Nat.le_total m M with hmM | hmM
            · left; rw [Nat.min_eq_left hmM, Nat.succ_mul]
            · right; omega) hw' (by rw [hwps', hwps, List.append_assoc]) (by simp) (fun _ => by simp [hlen])
          (linked_snoc hch hl hcp.symm) (by rw [if_neg (by omega)]; exact hU.more w')
        revert hnew
        generalize flyLoop Q fuel (N * dt) dt n _ _ _ w' s' _ = res
        intro hnew
        cases res with
        | error x =>
          refine ⟨hnew.1, fun hg => hnew.2 ?_⟩
          rw [windows_succ hpos h.some] at hg
          obtain ⟨w'', s'', h1, h2⟩ := hG _ _ _ _ hw hg
          rw [hnp] at h1
          cases h1
          exact h2
        | ok r =>
          obtain ⟨p, v, new, hs, hch', hlen, hu⟩ := hnew
          refine ⟨p, v, w' :: new, by rw [hs]; simp, by simpa using hch', ?_, by simpa using hu⟩
          rw [List.length_cons, hlen]
          exact (windows_succ hpos h.some).symm

theorem simulate_spec {Q : Craft} {dt : ℝ} {m : Nat} (h : Regular Q dt m) {P : V3 × V3 → Nat → Row → Row → Prop}
    (hP : ∀ (w : V3 × V3) (pos vel : V3) (i : Nat) (t t' : ℝ),
      P w i ⟨t, ((stepOf Q dt (refVelocity Q.limit w))^[i] ⟨w.1, pos, vel⟩).pos, ((stepOf Q dt (refVelocity Q.limit w))^[i] ⟨w.1, pos, vel⟩).vel⟩
        ⟨t', ((stepOf Q dt (refVelocity Q.limit w))^[i + 1] ⟨w.1, pos, vel⟩).pos, ((stepOf Q dt (refVelocity Q.limit w))^[i + 1] ⟨w.1, pos, vel⟩).vel⟩)
    {G : Nat → V3 × V3 → Prop}
    (hG : ∀ (c : Nat) (w : V3 × V3) (v : V3) (s : Track), s.wp = some w → G (c + 1) w →
      ∃ w' s', nextPoint Q.rnd Q.lane none v (Q.limit * Q.speed) s = some (w', s') ∧ G c w')
    {N fuel : Nat} (hN : 1 ≤ N) (hf : N < fuel) (pos vel : V3) (s : Track) :
    match simulate Q fuel s pos vel (N * dt) dt with
    | .error x => x = "map" ∧ ∀ w s', nextPoint Q.rnd Q.lane (some pos) vel (Q.limit * Q.speed) s = some (w, s') → ¬ G ((N + m - 1) / m) w
    | .ok (A, s') => ∃ pos' vel' wps, s'.wps = s.wps ++ wps ∧ Linked wps ∧ wps.head?.map Prod.fst = some pos ∧ wps.length = (N + m - 1) / m + 1 ∧
        Upto P m dt pos vel wps A N pos' vel' := by
  unfold simulate
  cases hnp : nextPoint Q.rnd Q.lane (some pos) vel (Q.limit * Q.speed) s with
  | none => exact ⟨rfl, fun w s' h => by cases h⟩
  | some r =>
    obtain ⟨w, s'⟩ := r
    obtain ⟨h1, h2, h3⟩ := nextPoint_wp hnp
    simp only [currPoint, Option.some.injEq] at h3
    have := flyLoop_spec h hP hG N fuel hf pos vel s.wps fuel N 0 0 pos vel w s' [w] [] hf (by omega) hN (.inl (by omega)) h1 h2 rfl (fun _ => rfl)
      (by intro k a b _ hb; simp at hb) (by simp)
    simp only [Nat.cast_zero, zero_mul] at this
    simp only
    revert this
    generalize flyLoop Q fuel (N * dt) dt fuel 0 pos vel w s' [] = res
    intro this
    cases res with
    | error x => exact ⟨this.1, fun w' s'' h => by cases h; exact this.2⟩
    | ok r =>
      obtain ⟨p, v, new, hs, hch', hlen, hu⟩ := this
      exact ⟨p, v, w :: new, hs, hch', by simp [h3], by simp [hlen], hu⟩

/-! ### The ideal integrator -/

theorem eq_of_deriv {f g h : ℝ → ℝ} (hf : ∀ t, HasDerivAt f (h t) t) (hg : ∀ t, HasDerivAt g (h t) t) (h0 : f 0 = g 0) (t : ℝ) : f t = g t := by
  have hd : ∀ t, HasDerivAt (fun t => f t - g t) 0 t := fun t => by
    exact ((hf t).sub (hg t)).congr_deriv (sub_self _)
  have := is_const_of_deriv_eq_zero (fun t => (hd t).differentiableAt) (fun t => (hd t).deriv) t 0
  simp only [h0, sub_self] at this
  linarith

theorem linear_of_deriv {f : ℝ → ℝ} {a : ℝ} (hf : ∀ t, HasDerivAt f a t) (t : ℝ) : f t = f 0 + t * a := by
  refine eq_of_deriv (g := fun t => f 0 + t * a) (h := fun _ => a) hf (fun t => ?_) (by simp) t
  have := ((hasDerivAt_id t).mul_const a).const_add (f 0)
  simpa using this

theorem square_of_deriv {f : ℝ → ℝ} {v a : ℝ} (hf : ∀ t, HasDerivAt f (v + t * a) t) (t : ℝ) : f t = f 0 + t * v + t ^ 2 / 2 * a := by
  refine eq_of_deriv (g := fun t => f 0 + t * v + t ^ 2 / 2 * a) (h := fun t => v + t * a) hf (fun t => ?_) (by simp) t
  have h1 := (hasDerivAt_id t).mul_const v
  have h2 := (((hasDerivAt_id t).pow 2).div_const 2).mul_const a
  have := (h1.const_add (f 0)).add h2
  refine this.congr_deriv ?_
  simp

/-- The acceleration of an input. -/
noncomputable def accel (u : Input) : V3 := (dynamics u ⟨⟨0, 0, 0⟩, ⟨0, 0, 0⟩, ⟨0, 0, 0⟩⟩).vel

theorem ideal_integ {integ : Input → ℝ → S9 → S9} (h : Ideal integ) (u : Input) (dt : ℝ) (s : S9) :
    integ u dt s = ⟨s.ref.add (V3.smul dt u.b), (s.pos.add (V3.smul dt s.vel)).add (V3.smul (dt ^ 2 / 2) (accel u)), s.vel.add (V3.smul dt (accel u))⟩ := by
  obtain ⟨c, h0, h1, hd⟩ := h u dt s
  have hv : ∀ t, (c t).vel = s.vel.add (V3.smul t (accel u)) := by
    intro t
    have hx := linear_of_deriv (f := fun t => (c t).vel.x) (a := (accel u).x) (fun t => (hd t).2.2.1) t
    have hy := linear_of_deriv (f := fun t => (c t).vel.y) (a := (accel u).y) (fun t => (hd t).2.2.2.1) t
    have hz := linear_of_deriv (f := fun t => (c t).vel.z) (a := (accel u).z) (fun t => (hd t).2.2.2.2) t
    simp only [h0] at hx hy hz
    rw [show (c t).vel = ⟨(c t).vel.x, (c t).vel.y, (c t).vel.z⟩ from rfl, hx, hy, hz]
    rfl
  have hr : ∀ t, (c t).ref = s.ref.add (V3.smul t u.b) := by
    intro t
    have hx := linear_of_deriv (f := fun t => (c t).ref.x) (a := u.b.x) (fun t => (hd t).1.1) t
    have hy := linear_of_deriv (f := fun t => (c t).ref.y) (a := u.b.y) (fun t => (hd t).1.2.1) t
    have hz := linear_of_deriv (f := fun t => (c t).ref.z) (a := u.b.z) (fun t => (hd t).1.2.2) t
    simp only [h0] at hx hy hz
    rw [show (c t).ref = ⟨(c t).ref.x, (c t).ref.y, (c t).ref.z⟩ from rfl, hx, hy, hz]
    rfl
  have hp : ∀ t, (c t).pos = (s.pos.add (V3.smul t s.vel)).add (V3.smul (t ^ 2 / 2) (accel u)) := by
    intro t
    have hx := square_of_deriv (f := fun t => (c t).pos.x) (v := s.vel.x) (a := (accel u).x) (fun t => by
      have := (hd t).2.1.1
      rwa [show (dynamics u (c t)).pos = (c t).vel from rfl, hv t] at this) t
    have hy := square_of_deriv (f := fun t => (c t).pos.y) (v := s.vel.y) (a := (accel u).y) (fun t => by
      have := (hd t).2.1.2.1
      rwa [show (dynamics u (c t)).pos = (c t).vel from rfl, hv t] at this) t
    have hz := square_of_deriv (f := fun t => (c t).pos.z) (v := s.vel.z) (a := (accel u).z) (fun t => by
      have := (hd t).2.1.2.2
      rwa [show (dynamics u (c t)).pos = (c t).vel from rfl, hv t] at this) t
    simp only [h0] at hx hy hz
    rw [show (c t).pos = ⟨(c t).pos.x, (c t).pos.y, (c t).pos.z⟩ from rfl, hx, hy, hz]
    rfl
  rw [← h1, show c dt = ⟨(c dt).ref, (c dt).pos, (c dt).vel⟩ from rfl, hv, hp, hr]

/-- The closed form is a solution. -/
noncomputable def exact (u : Input) (dt : ℝ) (s : S9) : S9 :=
  ⟨s.ref.add (V3.smul dt u.b), (s.pos.add (V3.smul dt s.vel)).add (V3.smul (dt ^ 2 / 2) (accel u)), s.vel.add (V3.smul dt (accel u))⟩

theorem linear_deriv (a b t : ℝ) : HasDerivAt (fun t => a + t * b) b t := by
  have := ((hasDerivAt_id t).mul_const b).const_add a
  simpa using this

theorem square_deriv (a b c t : ℝ) : HasDerivAt (fun t => a + t * b + t ^ 2 / 2 * c) (b + t * c) t := by
  have h1 := (hasDerivAt_id t).mul_const b
  have h2 := (((hasDerivAt_id t).pow 2).div_const 2).mul_const c
  refine ((h1.const_add a).add h2).congr_deriv ?_
  simp

theorem ideal_exact : Ideal exact := by
  intro u dt s
  refine ⟨fun t => exact u t s, ?_, rfl, fun t => ⟨⟨?_, ?_, ?_⟩, ⟨?_, ?_, ?_⟩, ⟨?_, ?_, ?_⟩⟩⟩
  · simp [exact, V3.add, V3.smul]
  · exact linear_deriv _ _ _
  · exact linear_deriv _ _ _
  · exact linear_deriv _ _ _
  · exact square_deriv _ _ _ _
  · exact square_deriv _ _ _ _
  · exact square_deriv _ _ _ _
  · exact linear_deriv _ _ _
  · exact linear_deriv _ _ _
  · exact linear_deriv _ _ _

theorem accel_eq (a b c : ℝ) (v : V3) : accel ⟨a, b, c, v, 0⟩ = ⟨9.81 * Real.tan a, -(9.81 * Real.tan b), c - 9.81⟩ := by
  simp only [accel, dynamics, Real.tan_eq_sin_div_cos]
  simp
  try constructor <;> ring

theorem ref_iterate {Q : Craft} (hnet : ∀ x, (Q.net x).length = 8) (hi : Ideal Q.integ) (dt : ℝ) (w : V3 × V3) (pos vel : V3) (i : Nat) :
    ((stepOf Q dt (refVelocity Q.limit w))^[i] ⟨w.1, pos, vel⟩).ref = reference Q.limit dt w i := by
  induction i with
  | zero => simp [reference, V3.add, V3.smul]
  | succ i ih =>
    rw [Function.iterate_succ_apply']
    obtain ⟨n, u, y, hc, -⟩ := control_ok hnet (refVelocity Q.limit w) ((stepOf Q dt (refVelocity Q.limit w))^[i] ⟨w.1, pos, vel⟩)
    simp only [stepOf, hc] at ih ⊢
    rw [ideal_integ hi, ih]
    simp only [reference, V3.add, V3.smul, V3.sub, refVelocity, V3.div, V3.mk.injEq]
    push_cast
    refine ⟨?_, ?_, ?_⟩ <;> ring

theorem steered {Q : Craft} (hnet : ∀ x, (Q.net x).length = 8) (hi : Ideal Q.integ) (dt : ℝ) (w : V3 × V3) (pos vel : V3) (i : Nat) (t t' : ℝ) :
    Steered Q dt w i ⟨t, ((stepOf Q dt (refVelocity Q.limit w))^[i] ⟨w.1, pos, vel⟩).pos, ((stepOf Q dt (refVelocity Q.limit w))^[i] ⟨w.1, pos, vel⟩).vel⟩
      ⟨t', ((stepOf Q dt (refVelocity Q.limit w))^[i + 1] ⟨w.1, pos, vel⟩).pos, ((stepOf Q dt (refVelocity Q.limit w))^[i + 1] ⟨w.1, pos, vel⟩).vel⟩ := by
  have hr := ref_iterate hnet hi dt w pos vel i
  rw [Function.iterate_succ_apply']
  revert hr
  generalize (stepOf Q dt (refVelocity Q.limit w))^[i] ⟨w.1, pos, vel⟩ = c
  intro hr
  obtain ⟨n, u, y, hc, h1, h2, h3⟩ := control_ok hnet (refVelocity Q.limit w) c
  have hq : errors (refVelocity Q.limit w) c = question Q.limit dt w i ⟨t, c.pos, c.vel⟩ := by
    simp only [errors, question, hr, refVelocity, V3.div, V3.sub]
    norm_num
    refine ⟨?_, ?_, ?_, ?_, ?_, ?_⟩ <;> ring
  rw [hq] at h2 h3
  refine ⟨n, u, y, h1, h2, h3, ?_⟩
  simp only [stepOf, hc, ideal_integ hi, accel_eq]
  exact ⟨rfl, rfl⟩

end Verif.Quad
