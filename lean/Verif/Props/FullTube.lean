import Verif.Proofs.FullTube
import Verif.Props.Rect
import Verif.Spec.Rect
import Mathlib.Algebra.Order.Ring.Rat

/-!
C59: the tube of a node whose initial set is a list of rectangles, one per step at which the transition into the node may have happened.
-/

set_option autoImplicit false
set_option linter.unusedSectionVars false

namespace Verif.Props

open Verif.Ver Verif.Proofs.Ver
open Verif.Rect (Box combineRect)
open Verif.Rect.Spec (Inside Proper)

section
variable {K : Type} [LinearOrder K]

/-- `bloat` is sound for the executions `traj` (`traj x j p`: an execution that starts in the state `x` may be in `p` during step `j`): what starts in the
rectangle is in the `j`-th rectangle of the tube during step `j`. -/
def SoundBloat (traj : List K → Nat → List K → Prop) (bloat : Box K → Tube K) : Prop :=
  ∀ (c : Box K) (x : List K) (j : Nat) (p : List K) (s : Seg K), Inside x c → traj x j p → (bloat c)[j]? = some s → Inside p s.box

theorem inside_of_boxLe {p : List K} {a b : Box K} (h : BoxLe a b) (hp : Inside p a) : Inside p b :=
  ⟨Verif.Proofs.Rect.Le.trans h.1 hp.1, Verif.Proofs.Rect.Le.trans hp.2 h.2⟩

/-- **C59**, partial, for groups of `segLen` initial rectangles. An execution that starts in the initial rectangle number `i` of the group that begins with
number `k` is, after `j` steps, in rectangle number `k + j` of the tube. The tube has the times of the tube of the first group.
Missing: such an execution starts at step `i`, so it should be in rectangle number `i + j`; see `C59_default_violated`. -/
theorem C59_groups_partial (traj : List K → Nat → List K → Prop) (bloat : Box K → Tube K) (segLen d : Nat)
    (sound : SoundBloat traj bloat) (dim : ∀ c : Box K, c.1.length = d ∧ c.2.length = d → ∀ s ∈ bloat c, s.box.1.length = d ∧ s.box.2.length = d)
    (inits : List (Box K)) (proper : ∀ r ∈ inits, Proper d r) (tube : Tube K) (run : fullTube bloat segLen inits = .ok tube) :
    (∃ c, combineRect (inits.take segLen) = .ok c ∧ tube.map (fun s => (s.t0, s.t1)) = (bloat c).map (fun s => (s.t0, s.t1))) ∧
    ∀ (k i j : Nat) (r : Box K) (x p : List K) (s : Seg K), segLen ∣ k → k ≤ i → i < k + segLen → inits[i]? = some r → Inside x r → traj x j p →
      tube[k + j]? = some s → Inside p s.box := by
  obtain ⟨⟨c, hc, he⟩, h2⟩ := fullTube_spec (d := d) dim
    (fun r hr => ⟨(proper r hr).1, (proper r hr).2.length_eq.symm.trans (proper r hr).1⟩) run
  refine ⟨⟨c, hc, ?_⟩, ?_⟩
  · refine List.ext_getElem? ?_
    intro i
    rw [List.getElem?_map, List.getElem?_map]
    cases ht : tube[i]? with
    | none =>
      have : (bloat c)[i]? = none := by
        rw [List.getElem?_eq_none_iff] at ht ⊢; rw [← he.len]; exact ht
      rw [this]
    | some s =>
      obtain ⟨-, s', hs', e1, e2, -⟩ := he.seg i s ht
      rw [hs']
      simp only [Option.map_some, e1, e2]
  · intro k i j r x p s hk hki hik hr hx hp hs
    have hil := (List.getElem?_eq_some_iff.1 hr).1
    have hmem : r ∈ (inits.drop k).take segLen := by
      rw [List.mem_iff_getElem?]
      refine ⟨i - k, ?_⟩
      rw [List.getElem?_take_of_lt (by omega), List.getElem?_drop, ← hr]
      congr 1; omega
    obtain ⟨c', hc'⟩ := (C30_combine_total _ (List.ne_nil_of_mem hmem)).1
    obtain ⟨-, hin, -⟩ := C30_combine_rect d _ c' (fun s hs => proper s (List.mem_of_mem_drop (List.mem_of_mem_take hs))) hc'
    obtain ⟨s', hs', hle⟩ := h2 k c' hk (by omega) hc' j s hs
    exact inside_of_boxLe hle (sound c' x j p s' (hin r hmem x hx) hp hs')

/-- **C59**, partial: with `init_seg_length = 1`, an execution that starts in the initial rectangle number `i` is, after `j` steps, in rectangle number `i + j`
of the tube, as long as the tube goes. -/
theorem C59_aligned_partial (traj : List K → Nat → List K → Prop) (bloat : Box K → Tube K) (d : Nat)
    (sound : SoundBloat traj bloat) (dim : ∀ c : Box K, c.1.length = d ∧ c.2.length = d → ∀ s ∈ bloat c, s.box.1.length = d ∧ s.box.2.length = d)
    (inits : List (Box K)) (proper : ∀ r ∈ inits, Proper d r) (tube : Tube K) (run : fullTube bloat 1 inits = .ok tube)
    (i j : Nat) (r : Box K) (x p : List K) (s : Seg K) (hr : inits[i]? = some r) (hx : Inside x r) (hp : traj x j p)
    (hs : tube[i + j]? = some s) : Inside p s.box :=
  (C59_groups_partial traj bloat 1 d sound dim inits proper tube run).2 i i j r x p s (one_dvd i) le_rfl (by omega) hr hx hp hs

end

namespace TubeEx

/-- A car that moves ten units per step. -/
def move (c : Box ℚ) : Tube ℚ := (List.range 3).map (fun (i : Nat) => ⟨i, i + 1, (c.1.map (· + 10 * (i : ℚ)), c.2.map (· + 10 * (i : ℚ)))⟩)

/-- Its executions. -/
def traj (x : List ℚ) (j : Nat) (p : List ℚ) : Prop := p = x.map (· + 10 * (j : ℚ))

theorem sound : SoundBloat traj move := by
  intro c x j p s hx hp hs
  unfold move at hs
  rw [List.getElem?_map] at hs
  obtain ⟨i, hi, rfl⟩ := Option.map_eq_some_iff.1 hs
  obtain ⟨hj, hij⟩ := List.getElem?_eq_some_iff.1 hi
  rw [List.getElem_range] at hij
  subst hij hp
  constructor
  · dsimp only
    rw [List.forall₂_map_left_iff, List.forall₂_map_right_iff]
    exact hx.1.imp (fun a b h => by linarith)
  · dsimp only
    rw [List.forall₂_map_left_iff, List.forall₂_map_right_iff]
    exact hx.2.imp (fun a b h => by linarith)

end TubeEx

open TubeEx in
/-- The hypotheses of `C59_aligned_partial` can be met: two initial rectangles, at steps 0 and 1. -/
example : SoundBloat traj move ∧
    (∀ c : Box ℚ, c.1.length = 1 ∧ c.2.length = 1 → ∀ s ∈ move c, s.box.1.length = 1 ∧ s.box.2.length = 1) ∧ (∀ r ∈ [(([0], [1]) : Box ℚ), ([5], [6])], Proper 1 r) ∧
    (∃ tube, fullTube move 1 [([0], [1]), ([5], [6])] = .ok tube ∧
      tube = [⟨0, 1, ([0], [1])⟩, ⟨1, 2, ([5], [11])⟩, ⟨2, 3, ([15], [21])⟩]) := by
  refine ⟨sound, ?_, ?_, ?_⟩
  · intro c hc s hs
    obtain ⟨i, -, rfl⟩ := List.mem_map.1 hs
    simpa using hc
  · intro r hr
    rcases List.mem_cons.1 hr with rfl | hr
    · exact ⟨rfl, .cons (by norm_num) .nil⟩
    · rcases List.mem_cons.1 hr with rfl | hr
      · exact ⟨rfl, .cons (by norm_num) .nil⟩
      · cases hr
  · refine ⟨_, ?_, rfl⟩
    decide +kernel

open TubeEx in
/-- **C59 is violated** with the default `init_seg_length = 1000`: the execution that starts in the second initial rectangle `[5, 6]`, at step 1, is not in
rectangle number 1 of the tube. -/
theorem C59_default_violated : ∃ tube s, fullTube move 1000 [([0], [1]), ([5], [6])] = .ok tube ∧ tube[1 + 0]? = some s ∧ s.t0 = 1 ∧
    Inside [5] (([5], [6]) : Box ℚ) ∧ traj [5] 0 [5] ∧ ¬ Inside [5] s.box := by
  refine ⟨[⟨0, 1, ([0], [6])⟩, ⟨1, 2, ([10], [16])⟩, ⟨2, 3, ([20], [26])⟩], ⟨1, 2, ([10], [16])⟩, by decide +kernel, rfl, rfl, ?_, ?_, ?_⟩
  · constructor <;> exact .cons (by norm_num) .nil
  · simp [traj]
  · rintro ⟨h, -⟩
    cases h with
    | cons h _ => exact absurd h (by norm_num)

end Verif.Props
