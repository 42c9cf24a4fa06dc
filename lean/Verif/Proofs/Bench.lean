import Verif.Spec.Bench
import Verif.Props.Tree
import Verif.Proofs.Basic

set_option autoImplicit false

namespace Verif.Bench
open Verif.Spec Verif.ATree

theorem lift_ok {α : Type} {x : Except String α} {y : α} (h : lift x = .ok y) : x = .ok y := by
  cases x with
  | ok z => simpa [lift] using h
  | error e => simp [lift] at h

theorem lift_eq {α : Type} {x : Except String α} {y : α} (h : x = .ok y) : lift x = .ok y := by rw [h]; rfl

theorem liftC_ok {α : Type} {x : Except ATree.Err α} {y : α} (h : liftC x = .ok y) : x = .ok y := by
  cases x with
  | ok z => simpa [liftC] using h
  | error e => simp [liftC] at h

theorem trunc_int (k : ℤ) : trunc (k : ℚ) = k := by
  unfold trunc
  split <;> simp

/-- what `run` returned -/
theorem run_ok {S W : Type} {w : World S W} {b : State S W} {a : List ℚ} {kw : Dict String W} {t : RTree CNode} {b' : State S W}
    (h : run w b a kw = .ok (t, b')) : ∃ a0 a1 r, a = a0 :: a1 :: r ∧ a1 ≠ 0 ∧
      ((b.conf.sim = true ∧ w.simulate b.scn a [] = .ok (t, b'.scn)) ∨ (b.conf.sim = false ∧ w.verify b.scn a kw = .ok (t, b'.scn))) ∧
      b'.conf = b.conf ∧ b'.nums = some ⟨w.agents b'.scn, (allNodes t).length, ATree.leaves t, trunc (w.fdiv a0 a1),
        if b.conf.sim then w.simHits b'.scn else ((w.tubeHits b'.scn).1 + (w.transHits b'.scn).1, (w.tubeHits b'.scn).2 + (w.transHits b'.scn).2)⟩ := by
  unfold run at h
  split at h
  · rename_i a0 a1 r
    split at h
    · cases h
    · rename_i hz
      obtain ⟨⟨t', s'⟩, h1, h2⟩ := (bind_ok_iff _ _ _).1 h
      simp only [Except.ok.injEq, Prod.mk.injEq] at h2
      obtain ⟨rfl, rfl⟩ := h2
      refine ⟨a0, a1, r, rfl, hz, ?_, rfl, rfl⟩
      unfold analyse at h1
      cases hs : b.conf.sim with
      | true => simp only [hs, if_true] at h1; exact .inl ⟨rfl, lift_ok h1⟩
      | false => simp only [hs, Bool.false_eq_true, if_false] at h1; exact .inr ⟨rfl, lift_ok h1⟩
  · cases h

/-- what `run` returns -/
theorem run_eq {S W : Type} {w : World S W} {b : State S W} {a0 a1 : ℚ} {r : List ℚ} {kw : Dict String W} {t : RTree CNode} {s' : S} (hz : a1 ≠ 0)
    (h : (b.conf.sim = true ∧ w.simulate b.scn (a0 :: a1 :: r) [] = .ok (t, s')) ∨ (b.conf.sim = false ∧ w.verify b.scn (a0 :: a1 :: r) kw = .ok (t, s'))) :
    ∃ n, run w b (a0 :: a1 :: r) kw = .ok (t, ⟨b.conf, s', some n⟩) := by
  have ha : analyse w b.conf.sim b.scn (a0 :: a1 :: r) kw = .ok (t, s') := by
    unfold analyse
    rcases h with ⟨h1, h2⟩ | ⟨h1, h2⟩
    · rw [h1, if_pos rfl, h2]; rfl
    · rw [h1, h2]; rfl
  unfold run
  simp only [hz, if_false, ha]
  exact ⟨_, rfl⟩

theorem erase_fold (os : List Char) (arg : Text) : os.foldl erase arg = arg.filter (fun c => !os.contains c) := by
  induction os generalizing arg with
  | nil => simp
  | cons o os ih =>
    rw [List.foldl_cons, ih, erase, List.filter_filter]
    congr 1
    funext c
    by_cases h : c = o <;> simp [h]

end Verif.Bench
