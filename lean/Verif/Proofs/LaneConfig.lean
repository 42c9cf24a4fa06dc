import Verif.Spec.LaneConfig
import Verif.Proofs.Basic
import Verif.Proofs.Lane3dB

set_option autoImplicit false

namespace Verif.LaneConfig
open Verif.Spec.LaneConfig

theorem Dict.set_same {K V : Type} [DecidableEq K] {d : Dict K V} {k : K} {v : V} (h : Dict.get? d k = some v) : Dict.set d k v = d := by
  induction d with
  | nil => simp at h
  | cons e d ih =>
    obtain ⟨k', v'⟩ := e
    rw [Dict.get?_cons] at h
    unfold Dict.set
    by_cases hk : k' = k
    · rw [if_pos hk] at h
      injection h with h
      subst h; subst hk
      simp
    · rw [if_neg hk] at h
      simp [hk, ih h]

theorem npArray_npArray (v : CV) : npArray (npArray v) = npArray v := by cases v <;> rfl

theorem initCommon_ok {d : Dict String CV} {m : Common} (h : initCommon d = .ok m) : m.lines ≠ [] ∧ m.longStart = 0 := by
  unfold initCommon at h
  obtain ⟨id, -, h⟩ := (bind_ok_iff _ _ _).1 h
  obtain ⟨w, -, h⟩ := (bind_ok_iff _ _ _).1 h
  obtain ⟨ls, hl, h⟩ := (bind_ok_iff _ _ _).1 h
  obtain ⟨f, -, h⟩ := (bind_ok_iff _ _ _).1 h
  obtain ⟨sp, -, h⟩ := (bind_ok_iff _ _ _).1 h
  obtain ⟨pr, -, h⟩ := (bind_ok_iff _ _ _).1 h
  injection h with h
  subst h
  refine ⟨?_, rfl⟩
  unfold getL at hl
  split at hl <;> first | (injection hl with hl; subst hl; simp) | exact absurd hl (by simp)

theorem construct_ok {rnd : Nat → ℝ → ℝ} {c : Cls} {kw : Dict String CV} {l : Obj} (h : construct rnd c kw = .ok l) :
    l.cls = c ∧ l.common.lines ≠ [] ∧ ∃ d, initShape rnd c d = .ok l.shape := by
  unfold construct at h
  obtain ⟨d, -, h⟩ := (bind_ok_iff _ _ _).1 h
  obtain ⟨m, hm, h⟩ := (bind_ok_iff _ _ _).1 h
  obtain ⟨s, hs, h⟩ := (bind_ok_iff _ _ _).1 h
  injection h with h
  subst h
  exact ⟨rfl, (initCommon_ok hm).1, d, hs⟩

/-- What is known of the shape of a lane. -/
def ShapeOf : Cls → Shape → Prop
  | .straight, s => ∃ a b, s = mkStraight a b
  | .circular, s => ∃ m r a b cw, s = mkCircular m r a b cw
  | .straight3, s => ∃ a b, s = .straight3 (Lane3d.Straight.new a b) b
  | .circular3, s => ∃ m r n a b rr c, Lane3d.Circular.new m r n a b rr = some c ∧ s = .circular3 c
  | .ends3, s => ∃ c, s = .circular3 c

theorem initShape_ok {rnd : Nat → ℝ → ℝ} {c : Cls} {d : Dict String CV} {s : Shape} (h : initShape rnd c d = .ok s) : ShapeOf c s := by
  cases c <;> unfold initShape at h
  · obtain ⟨a, -, h⟩ := (bind_ok_iff _ _ _).1 h
    obtain ⟨b, -, h⟩ := (bind_ok_iff _ _ _).1 h
    injection h with h
    exact ⟨a, b, h.symm⟩
  · obtain ⟨m, -, h⟩ := (bind_ok_iff _ _ _).1 h
    obtain ⟨r, -, h⟩ := (bind_ok_iff _ _ _).1 h
    obtain ⟨a, -, h⟩ := (bind_ok_iff _ _ _).1 h
    obtain ⟨b, -, h⟩ := (bind_ok_iff _ _ _).1 h
    obtain ⟨cw, -, h⟩ := (bind_ok_iff _ _ _).1 h
    injection h with h
    exact ⟨m, r, a, b, cw, h.symm⟩
  · obtain ⟨a, -, h⟩ := (bind_ok_iff _ _ _).1 h
    obtain ⟨b, -, h⟩ := (bind_ok_iff _ _ _).1 h
    injection h with h
    exact ⟨a, b, h.symm⟩
  · obtain ⟨m, -, h⟩ := (bind_ok_iff _ _ _).1 h
    obtain ⟨r, -, h⟩ := (bind_ok_iff _ _ _).1 h
    obtain ⟨n, -, h⟩ := (bind_ok_iff _ _ _).1 h
    obtain ⟨a, -, h⟩ := (bind_ok_iff _ _ _).1 h
    obtain ⟨b, -, h⟩ := (bind_ok_iff _ _ _).1 h
    obtain ⟨rr, -, h⟩ := (bind_ok_iff _ _ _).1 h
    cases e : Lane3d.Circular.new m r n a b rr with
    | none => rw [e] at h; exact absurd h (by simp)
    | some c => rw [e] at h; injection h with h; exact ⟨m, r, n, a, b, rr, c, e, h.symm⟩
  · obtain ⟨s', -, h⟩ := (bind_ok_iff _ _ _).1 h
    obtain ⟨e', -, h⟩ := (bind_ok_iff _ _ _).1 h
    obtain ⟨n, -, h⟩ := (bind_ok_iff _ _ _).1 h
    obtain ⟨p, -, h⟩ := (bind_ok_iff _ _ _).1 h
    obtain ⟨rr, -, h⟩ := (bind_ok_iff _ _ _).1 h
    cases e : Lane3d.Circular.fromEnds rnd s' e' n p rr with
    | none => rw [e] at h; exact absurd h (by simp)
    | some c => rw [e] at h; injection h with h; exact ⟨c, h.symm⟩

theorem built_shape {rnd : Nat → ℝ → ℝ} {l : Obj} (h : Built rnd l) : ShapeOf l.cls l.shape ∧ l.common.lines ≠ [] := by
  obtain ⟨kw, l0, x, h, rfl⟩ := h
  obtain ⟨-, h2, d, h3⟩ := construct_ok h
  exact ⟨initShape_ok h3, h2⟩

/-- Reading back the common entries. -/
theorem common_back {d : Dict String CV} {m : Common} (hl : m.lines ≠ [])
    (h1 : Dict.get? d "id" = some (.str m.id)) (h2 : Dict.get? d "width" = some (.num m.width))
    (h3 : Dict.get? d "line_types" = some (.lines (some m.lines))) (h4 : Dict.get? d "forbidden" = some (.flag m.forbidden))
    (h5 : Dict.get? d "speed_limit" = some (.num m.limit)) (h6 : Dict.get? d "priority" = some (.int m.priority)) :
    initCommon d = .ok { m with longStart := 0 } := by
  obtain ⟨id, w, ls, f, sp, pr, lo⟩ := m
  cases ls with
  | nil => exact absurd rfl hl
  | cons x ls =>
    simp only [initCommon, getS, getN, getL, getB, getI, h1, h2, h3, h4, h5, h6]
    rfl

end Verif.LaneConfig
