import Verif.Proofs.LaneConfig

/-!
C111: a lane can be described by plain data (`to_config`) and built again from them (`from_config`).
-/

set_option autoImplicit false

namespace Verif.Props
open Verif Verif.LaneConfig Verif.Spec.LaneConfig

/-- The configuration of a lane is plain data: it can be written to a file. -/
theorem C111_plain (l : Obj) (k : String) (v : CV) (h : (k, v) ∈ toConfig l) : Plain v := by
  obtain ⟨c, m, s⟩ := l
  intro a ha
  subst ha
  cases s <;> simp [toConfig, tailConfig, toSerializable] at h

/-- For straight lanes, circular lanes and straight lanes in space: with the name of the lane added to the configuration, `from_config` builds the lane again,
with all its attributes, not yet placed along a road; a lane of the plane gives the same answers as before. Missing: without the name added
(`C111_id_violated`), circular lanes in space (`C111_circular3_partial`, `C111_norm_violated`, `C111_ends_violated`), the place along the road
(`C111_start_violated`). -/
theorem C111_rebuild_partial (rnd rnd' : Nat → ℝ → ℝ) (l : Obj) (hl : Built rnd l) (hc : l.cls ∈ [Cls.straight, .circular, .straight3]) :
    ∃ cfg, fromConfig rnd' l.cls (Dict.set (toConfig l) "id" (.str l.common.id)) = .ok (unplaced l, cfg) ∧ (unplaced l).view = l.view := by
  obtain ⟨hs, hn⟩ := built_shape hl
  obtain ⟨c, m, s⟩ := l
  simp only [List.mem_cons, List.not_mem_nil, or_false] at hc
  rcases hc with rfl | rfl | rfl
  · obtain ⟨a, b, rfl⟩ := hs
    simp [fromConfig, toConfig, mkStraight, arrays, tailConfig, toSerializable, Dict.set, convert, Dict.get?, npArray, construct, bindKw, params, tail, Except.bind,
      Except.map, List.foldlM, bind, pure, Except.pure]
    rw [common_back hn (by rfl) (by rfl) (by rfl) (by rfl) (by rfl) (by rfl)]
    simp [initShape, get2, getV, Dict.get?, Except.bind, unplaced, mkStraight, Obj.view]
    rfl
  · obtain ⟨o, r, a, b, cw, rfl⟩ := hs
    simp [fromConfig, toConfig, mkCircular, arrays, tailConfig, toSerializable, Dict.set, convert, Dict.get?, npArray, construct, bindKw, params, tail, Except.bind,
      Except.map, List.foldlM, bind, pure, Except.pure]
    rw [common_back hn (by rfl) (by rfl) (by rfl) (by rfl) (by rfl) (by rfl)]
    simp [initShape, get2, getV, getN, getB, Dict.get?, Except.bind, unplaced, mkCircular, Obj.view]
    exact ⟨rfl, rfl⟩
  · obtain ⟨a, b, rfl⟩ := hs
    simp [fromConfig, toConfig, arrays, tailConfig, toSerializable, Dict.set, convert, Dict.get?, npArray, construct, bindKw, params, tail, Except.bind,
      Except.map, List.foldlM, bind, pure, Except.pure]
    rw [common_back hn (by rfl) (by rfl) (by rfl) (by rfl) (by rfl) (by rfl)]
    simp [initShape, get3, getV, Dict.get?, Except.bind, unplaced, Lane3d.Straight.new, Obj.view]

/-- A straight lane placed five metres along a road. -/
private noncomputable def road5 : Obj := ⟨.straight, ⟨"T1", 4, [1, 1], false, 20, 0, 5⟩, mkStraight (0, 0) (3, 4)⟩

private theorem road5_built (rnd : Nat → ℝ → ℝ) : Built rnd road5 := by
  refine ⟨[("id", .str "T1"), ("start", .list [0, 0]), ("end", .list [3, 4])], unplaced road5, 5, ?_, rfl⟩
  simp [road5, construct, bindKw, params, tail, Dict.get?, Except.bind, List.mapM_cons, bind, pure, Except.pure, initCommon, getS, getN, getL, getB, getI, initShape, get2,
    getV, unplaced]

example (rnd : Nat → ℝ → ℝ) : Built rnd road5 ∧ road5.cls ∈ [Cls.straight, .circular, .straight3] := ⟨road5_built rnd, by simp [road5]⟩

private theorem adjust_fixed {s e : ℝ} {right : Bool} (h1 : right = true → s < e) (h2 : right = false → e < s) (h3 : s ≤ 2 * Real.pi) (h4 : e ≤ 2 * Real.pi) :
    Lane3d.adjust s e right = (s, e) := by
  unfold Lane3d.adjust
  cases right with
  | true => simp [not_le.2 (h1 rfl), not_lt.2 (max_le h3 h4)]
  | false => simp [not_le.2 (h2 rfl), not_lt.2 (max_le h3 h4)]

/-- The normal vector a lane keeps has length one. -/
private theorem unit_again {v : Lane3d.V3} (h : ¬ (Lane3d.horiz (v.div v.norm) = 0 ∧ (v.div v.norm).z = 0)) :
    (v.div v.norm).div (v.div v.norm).norm = v.div v.norm := by
  have hv : v ≠ ⟨0, 0, 0⟩ := by
    rintro rfl
    exact h ⟨by simp [Lane3d.horiz, Lane3d.V3.div], by simp [Lane3d.V3.div]⟩
  have hp := Lane3d.norm_pos hv
  have hn : (v.div v.norm).norm = 1 := by
    have e : v.norm ^ 2 = v.x ^ 2 + v.y ^ 2 + v.z ^ 2 := by
      unfold Lane3d.V3.norm
      exact Real.sq_sqrt (by positivity)
    have : (v.x / v.norm) ^ 2 + (v.y / v.norm) ^ 2 + (v.z / v.norm) ^ 2 = 1 := by
      field_simp
      linarith [e]
    show Real.sqrt ((v.x / v.norm) ^ 2 + (v.y / v.norm) ^ 2 + (v.z / v.norm) ^ 2) = 1
    rw [this, Real.sqrt_one]
  rw [hn]
  ext <;> simp [Lane3d.V3.div]

/-- For circular lanes in space: with the name and the normal vector added, and when the lane goes round in its sense of rotation within one turn of zero, `from_config`
builds the lane again. Missing: without them added (`C111_norm_violated`), lanes of other phases (`C111_phases_violated`), lanes given by their end points
(`C111_ends_violated`). -/
theorem C111_circular3_partial (rnd rnd' : Nat → ℝ → ℝ) (l : Obj) (c : Lane3d.Circular) (hl : Built rnd l) (hc : l.cls = .circular3) (hs : l.shape = .circular3 c)
    (h1 : c.right = true → c.startPhase < c.endPhase) (h2 : c.right = false → c.endPhase < c.startPhase) (h3 : c.startPhase ≤ 2 * Real.pi)
    (h4 : c.endPhase ≤ 2 * Real.pi) :
    ∃ cfg, fromConfig rnd' .circular3 (Dict.set (Dict.set (toConfig l) "id" (.str l.common.id)) "norm_vec" (.list [c.n.x, c.n.y, c.n.z])) = .ok (unplaced l, cfg) := by
  obtain ⟨hsh, hn⟩ := built_shape hl
  obtain ⟨cl, m, s⟩ := l
  simp only at hc hs hn
  subst hc hs
  obtain ⟨o, r, n, a, b, rr, c', hnew, he⟩ := hsh
  injection he with he
  subst he
  have hagain : Lane3d.Circular.new c.center c.radius c.n c.startPhase c.endPhase c.right = some c := by
    unfold Lane3d.Circular.new at hnew
    simp only at hnew
    split at hnew
    · exact absurd hnew (by simp)
    · rename_i hz
      injection hnew with hnew
      have en : c.n = n.div n.norm := by rw [← hnew]
      have eu : c.n.div c.n.norm = c.n := by rw [en]; exact unit_again hz
      unfold Lane3d.Circular.new
      simp only
      rw [eu, if_neg (by rw [en]; exact hz), adjust_fixed h1 h2 h3 h4]
      rw [← hnew]
  simp [fromConfig, toConfig, arrays, tailConfig, toSerializable, Dict.set, convert, Dict.get?, npArray, construct, bindKw, params, tail, Except.bind,
    Except.map, List.foldlM, bind, pure, Except.pure]
  rw [common_back hn (by rfl) (by rfl) (by rfl) (by rfl) (by rfl) (by rfl)]
  simp [initShape, get3, getV, getN, getB, Dict.get?, Except.bind, unplaced, hagain]

/-- A quarter of a circle about the vertical axis. -/
private noncomputable def quarter (s e : ℝ) : Lane3d.Circular :=
  ⟨⟨0, 0, 0⟩, 1, ⟨0, 0, 1⟩, (Lane3d.adjust s e true).1, (Lane3d.adjust s e true).2, true, |1 * ((Lane3d.adjust s e true).2 - (Lane3d.adjust s e true).1)|⟩

private theorem quarter_new (s e : ℝ) : Lane3d.Circular.new ⟨0, 0, 0⟩ 1 ⟨0, 0, 1⟩ s e true = some (quarter s e) := by
  have : (⟨0, 0, 1⟩ : Lane3d.V3).div (⟨0, 0, 1⟩ : Lane3d.V3).norm = ⟨0, 0, 1⟩ := by simp [Lane3d.V3.div, Lane3d.V3.norm]
  unfold Lane3d.Circular.new
  simp only [this]
  simp [quarter]

private noncomputable def ring (s e : ℝ) : Obj := ⟨.circular3, ⟨"T1", 4, [1, 1], false, 20, 0, 0⟩, .circular3 (quarter s e)⟩

private theorem ring_built (rnd : Nat → ℝ → ℝ) (s e : ℝ) : Built rnd (ring s e) := by
  refine ⟨[("id", .str "T1"), ("center", .list [0, 0, 0]), ("radius", .num 1), ("norm_vec", .list [0, 0, 1]), ("start_phase", .num s), ("end_phase", .num e)], ring s e, 0,
    ?_, rfl⟩
  simp [ring, construct, bindKw, params, tail, Dict.get?, Except.bind, List.mapM_cons, bind, pure, Except.pure, initCommon, getS, getN, getL, getB, getI, initShape, get3,
    getV, quarter_new]

example (rnd : Nat → ℝ → ℝ) : Built rnd (ring 0 (Real.pi / 2)) ∧ (quarter 0 (Real.pi / 2)).startPhase < (quarter 0 (Real.pi / 2)).endPhase ∧
    (quarter 0 (Real.pi / 2)).endPhase ≤ 2 * Real.pi ∧ (quarter 0 (Real.pi / 2)).startPhase ≤ 2 * Real.pi := by
  have hp := Real.pi_pos
  have : Lane3d.adjust 0 (Real.pi / 2) true = (0, Real.pi / 2) := adjust_fixed (fun _ => by positivity) (fun h => by simp at h) (by positivity) (by linarith)
  refine ⟨ring_built rnd _ _, ?_⟩
  simp only [quarter, this]
  exact ⟨by positivity, by linarith, by positivity⟩

/-- `from_config` changes the dictionary it is given, but the changed dictionary builds the same lane and is not changed again. -/
theorem C111_again (rnd : Nat → ℝ → ℝ) (c : Cls) (cfg cfg' : Dict String CV) (l : Obj) (h : fromConfig rnd c cfg = .ok (l, cfg')) :
    fromConfig rnd c cfg' = .ok (l, cfg') := by
  unfold fromConfig at h
  obtain ⟨d, hd, h⟩ := (bind_ok_iff _ _ _).1 h
  obtain ⟨l', hl, h⟩ := (map_ok_iff _ _ _).1 h
  injection h with e1 e2
  subst e1 e2
  have one : ∀ {a b : Dict String CV} {k : String}, convert a k = .ok b → ∃ v, Dict.get? b k = some v ∧ npArray v = v ∧ ∀ k', k ≠ k' → Dict.get? b k' = Dict.get? a k' := by
    intro a b k hk
    unfold convert at hk
    split at hk
    · rename_i v hv
      injection hk with hk
      subst hk
      exact ⟨npArray v, Dict.get?_set_self _ _ _, npArray_npArray v, fun k' hk' => Dict.get?_set_ne _ _ _ _ hk'⟩
    · exact absurd hk (by simp)
  have still : ∀ {b : Dict String CV} {k : String} {v : CV}, Dict.get? b k = some v → npArray v = v → convert b k = .ok b := by
    intro b k v hb hv
    unfold convert
    rw [hb]
    show Except.ok (Dict.set b k (npArray v)) = _
    rw [hv, Dict.set_same hb]
  have hfix : (arrays c).foldlM convert d = .ok d := by
    have two : ∀ {k1 k2 : String}, k2 ≠ k1 → [k1, k2].foldlM convert cfg = .ok d → [k1, k2].foldlM convert d = .ok d := by
      intro k1 k2 hne hd
      obtain ⟨a, ha, hd⟩ := (foldlM_cons_ok _ _ _ _ _).1 hd
      obtain ⟨b, hb, hd⟩ := (foldlM_cons_ok _ _ _ _ _).1 hd
      injection hd with hd
      subst hd
      obtain ⟨v1, g1, n1, -⟩ := one ha
      obtain ⟨v2, g2, n2, keep⟩ := one hb
      refine (foldlM_cons_ok _ _ _ _ _).2 ⟨b, still ((keep k1 hne).trans g1) n1, (foldlM_cons_ok _ _ _ _ _).2 ⟨b, still g2 n2, rfl⟩⟩
    have single : ∀ {k1 : String}, [k1].foldlM convert cfg = .ok d → [k1].foldlM convert d = .ok d := by
      intro k1 hd
      obtain ⟨a, ha, hd⟩ := (foldlM_cons_ok _ _ _ _ _).1 hd
      injection hd with hd
      subst hd
      obtain ⟨v1, g1, n1, -⟩ := one ha
      exact (foldlM_cons_ok _ _ _ _ _).2 ⟨a, still g1 n1, rfl⟩
    cases c <;> first | exact two (by decide) hd | exact single hd
  unfold fromConfig
  rw [hfix]
  show (construct rnd c d).map _ = _
  rw [hl]
  rfl

example (rnd : Nat → ℝ → ℝ) : ∃ cfg, fromConfig rnd .straight (Dict.set (toConfig road5) "id" (.str "T1")) = .ok (unplaced road5, cfg) := by
  obtain ⟨cfg, h, -⟩ := C111_rebuild_partial rnd rnd road5 (road5_built rnd) (by simp [road5])
  exact ⟨cfg, h⟩

/-- The configuration a lane gives never builds a lane: the name of the lane is not in it, and every constructor asks for one. -/
theorem C111_id_violated (rnd rnd' : Nat → ℝ → ℝ) (l : Obj) (hl : Built rnd l) : fromConfig rnd' l.cls (toConfig l) = .error "TypeError" := by
  obtain ⟨hs, -⟩ := built_shape hl
  obtain ⟨c, m, s⟩ := l
  cases c
  · obtain ⟨a, b, rfl⟩ := hs
    simp [fromConfig, toConfig, mkStraight, arrays, tailConfig, toSerializable, Dict.set, convert, Dict.get?, npArray, construct, bindKw, params, tail, Except.bind,
      Except.map, List.foldlM, bind, pure, Except.pure]
  · obtain ⟨o, r, a, b, cw, rfl⟩ := hs
    simp [fromConfig, toConfig, mkCircular, arrays, tailConfig, toSerializable, Dict.set, convert, Dict.get?, npArray, construct, bindKw, params, tail, Except.bind,
      Except.map, List.foldlM, bind, pure, Except.pure]
  · obtain ⟨a, b, rfl⟩ := hs
    simp [fromConfig, toConfig, arrays, tailConfig, toSerializable, Dict.set, convert, Dict.get?, npArray, construct, bindKw, params, tail, Except.bind,
      Except.map, List.foldlM, bind, pure, Except.pure]
  · obtain ⟨o, r, n, a, b, rr, c, -, rfl⟩ := hs
    simp [fromConfig, toConfig, arrays, tailConfig, toSerializable, Dict.set, convert, Dict.get?, npArray, construct, bindKw, params, tail, Except.bind,
      Except.map, List.foldlM, bind, pure, Except.pure]
  · obtain ⟨c, rfl⟩ := hs
    simp [fromConfig, toConfig, arrays, tailConfig, toSerializable, Dict.set, convert, Dict.get?, npArray, construct, bindKw, params, tail, Except.bind,
      Except.map, List.foldlM, bind, pure, Except.pure]

/-- The configuration of a circular lane in space does not have its normal vector either: the name alone does not help. -/
theorem C111_norm_violated (rnd rnd' : Nat → ℝ → ℝ) (l : Obj) (name : CV) (hl : Built rnd l) (hc : l.cls = .circular3) :
    fromConfig rnd' .circular3 (Dict.set (toConfig l) "id" name) = .error "TypeError" := by
  obtain ⟨hs, -⟩ := built_shape hl
  obtain ⟨c, m, s⟩ := l
  simp only at hc
  subst hc
  obtain ⟨o, r, n, a, b, rr, c, -, rfl⟩ := hs
  simp [fromConfig, toConfig, arrays, tailConfig, toSerializable, Dict.set, convert, Dict.get?, npArray, construct, bindKw, params, tail, Except.bind,
    Except.map, List.foldlM, bind, pure, Except.pure]

example (rnd : Nat → ℝ → ℝ) : Built rnd (ring 0 1) ∧ (ring 0 1).cls = .circular3 := ⟨ring_built rnd 0 1, rfl⟩

/-- The configuration of a circular lane in space that was given by its end points has a centre and a radius, which its constructor does not take: nothing one
adds to it builds a lane. -/
theorem C111_ends_violated (rnd rnd' : Nat → ℝ → ℝ) (l : Obj) (extra : Dict String CV) (hl : Built rnd l) (hc : l.cls = .ends3) :
    fromConfig rnd' .ends3 (toConfig l ++ extra) = .error "TypeError" := by
  obtain ⟨hs, -⟩ := built_shape hl
  obtain ⟨c, m, s⟩ := l
  simp only at hc
  subst hc
  obtain ⟨c, rfl⟩ := hs
  simp [fromConfig, toConfig, arrays, tailConfig, toSerializable, Dict.set, convert, Dict.get?, npArray, construct, bindKw, params, tail, Except.bind,
    Except.map, List.foldlM, bind, pure, Except.pure]

/-- A circular lane in space from the phase 2π to the phase 0 has length zero. Its configuration, with the name and the normal vector added, builds a full circle. -/
theorem C111_phases_violated (rnd : Nat → ℝ → ℝ) : ∃ (l l' : Obj) (c c' : Lane3d.Circular) (cfg : Dict String CV),
    Built rnd l ∧ l.cls = .circular3 ∧ l.shape = .circular3 c ∧
    fromConfig rnd .circular3 (Dict.set (Dict.set (toConfig l) "id" (.str l.common.id)) "norm_vec" (.list [c.n.x, c.n.y, c.n.z])) = .ok (l', cfg) ∧
    l'.shape = .circular3 c' ∧ c.length = 0 ∧ c'.length = 2 * Real.pi := by
  have hp := Real.pi_pos
  have e1 : Lane3d.adjust (2 * Real.pi) 0 true = (2 * Real.pi, 2 * Real.pi) := by
    unfold Lane3d.adjust
    simp [hp.le]
  have e2 : Lane3d.adjust (2 * Real.pi) (2 * Real.pi) true = (0, 2 * Real.pi) := by
    unfold Lane3d.adjust
    simp [hp]
  have hq : quarter (2 * Real.pi) 0 = ⟨⟨0, 0, 0⟩, 1, ⟨0, 0, 1⟩, 2 * Real.pi, 2 * Real.pi, true, 0⟩ := by simp [quarter, e1]
  refine ⟨ring (2 * Real.pi) 0, ring (2 * Real.pi) (2 * Real.pi), quarter (2 * Real.pi) 0, quarter (2 * Real.pi) (2 * Real.pi), ?_, ring_built rnd _ _, rfl, rfl, ?_, rfl, ?_, ?_⟩
  rotate_left
  · simp only [ring, hq]
    simp [fromConfig, toConfig, arrays, tailConfig, toSerializable, Dict.set, convert, Dict.get?, npArray, construct, bindKw, params, tail, Except.bind,
      Except.map, List.foldlM, bind, pure, Except.pure, initCommon, getS, getN, getL, getB, getI, initShape, get3, getV, quarter_new]
    rfl
  · rw [hq]
  · simp [quarter, e2, abs_of_pos hp]

/-- The place of the lane along its road is lost. -/
theorem C111_start_violated (rnd : Nat → ℝ → ℝ) : ∃ (l l' : Obj) (cfg : Dict String CV), Built rnd l ∧ l.cls = .straight ∧
    fromConfig rnd .straight (Dict.set (toConfig l) "id" (.str l.common.id)) = .ok (l', cfg) ∧ l.common.longStart = 5 ∧ l'.common.longStart = 0 := by
  obtain ⟨cfg, h, -⟩ := C111_rebuild_partial rnd rnd road5 (road5_built rnd) (by simp [road5])
  exact ⟨road5, unplaced road5, cfg, road5_built rnd, rfl, h, rfl, rfl⟩

private theorem rsplit_none {q : List Char} (h : '.' ∉ q) : rsplitDot q = none := by
  induction q with
  | nil => rfl
  | cons c q ih =>
    rw [List.mem_cons, not_or] at h
    simp [rsplitDot, ih h.2, Ne.symm h.1]

private theorem rsplit_path {q : List Char} (h : '.' ∉ q) : ∀ m : List Char, rsplitDot (m ++ '.' :: q) = some (m, q)
  | [] => by simp [rsplitDot, rsplit_none h]
  | c :: m => by simp [rsplitDot, rsplit_path h m]

/-- The path of a class that is an attribute of its module finds the class again. Missing: classes inside other classes (`C111_nested_violated`). -/
theorem C111_class_partial {α : Type} (modules : List Char → Option (List Char → Option α)) (m q : List Char) (attr : List Char → Option α) (cls : α)
    (hm : modules m = some attr) (hq : attr q = some cls) (hdot : '.' ∉ q) : classFromPath modules (classPath m q) = .ok cls := by
  unfold classFromPath classPath
  rw [rsplit_path hdot m]
  simp [hm, hq]

example : ∃ (modules : List Char → Option (List Char → Option Nat)) (attr : List Char → Option Nat),
    modules ['a', '.', 'b'] = some attr ∧ attr ['C'] = some 7 ∧ '.' ∉ ['C'] := ⟨fun _ => some fun _ => some 7, fun _ => some 7, rfl, rfl, by simp⟩

/-- The path of a class `B` inside a class `A` of the module `m` is taken for the class `B` of a module `m.A`, which there is not. -/
theorem C111_nested_violated (attr : List Char → Option Nat) :
    classFromPath (fun m => if m = ['m'] then some attr else none) (classPath ['m'] ['A', '.', 'B']) = .error "ModuleNotFoundError" := by
  simp [classFromPath, classPath, rsplitDot]

end Verif.Props
