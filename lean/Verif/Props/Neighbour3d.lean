import Verif.Spec.Map3d

/-!
C78: neighbours of lanes in space.
-/

set_option autoImplicit false

namespace Verif.Props

open Verif.Lane3d Verif.Spec.Lane3d

/-- The calls that change the map: a lane is added, two lanes are paired. -/
inductive MapCall
  | add (id : String)
  | pair (src dest : String) (side : Side)
  deriving DecidableEq

/-- The calls in order; `false` if one of them raised. -/
def runCalls : List MapCall → Neighbours → Neighbours × Bool
  | [], m => (m, true)
  | .add id :: cs, m => runCalls cs (m.add id)
  | .pair src dest s :: cs, m =>
    match m.pair src dest s with
    | (m', true) => runCalls cs m'
    | (m', false) => (m', false)

/-- Lanes are added once, and paired after both have been added. -/
def Proper : List MapCall → List String → Prop
  | [], _ => True
  | .add id :: cs, known => id ∉ known ∧ Proper cs (known ++ [id])
  | .pair src dest _ :: cs, known => src ∈ known ∧ dest ∈ known ∧ Proper cs known

/-- The lanes that are added. -/
def added : List MapCall → List String
  | [] => []
  | .add id :: cs => id :: added cs
  | .pair .. :: cs => added cs

/-- How often the calls say that `y` is on the side `s` of `x`. -/
def told (cs : List MapCall) (s : Side) (x y : String) : Nat := cs.count (.pair x y s) + cs.count (.pair y x (opposite s))

theorem other_eq (s : Side) : s.other = opposite s := by cases s <;> rfl

theorem opposite_opposite (s : Side) : opposite (opposite s) = s := by cases s <;> rfl

theorem opposite_ne (s : Side) : opposite s ≠ s := by cases s <;> simp [opposite]

theorem pair_spec {m : Neighbours} {x y : String} {s : Side} {lx ly : List String} (h1 : m.lists s x = some lx) (h2 : m.lists (opposite s) y = some ly) :
    m.pair x y s = (⟨m.lanes, fun s' z => if s' = opposite s ∧ z = y then some (ly ++ [x]) else if s' = s ∧ z = x then some (lx ++ [y]) else m.lists s' z⟩, true) := by
  unfold Neighbours.pair Neighbours.append
  simp only [h1, Option.map_some, other_eq]
  have : ¬ (opposite s = s ∧ y = x) := fun h => opposite_ne s h.1
  simp only [this, if_false, h2, Option.map_some]

/-- **C78.** Lanes are added once each and paired afterwards, in any order and number. No call raises, and afterwards each lane has as neighbours on each side exactly the
lanes that were paired with it on that side, from its own end or from the other end, as often as they were. -/
theorem C78_neighbours (cs : List MapCall) (h : Proper cs []) : (runCalls cs .empty).2 = true ∧ (runCalls cs .empty).1.lanes = added cs ∧
    ∀ s x, x ∈ added cs → ∃ l, (runCalls cs .empty).1.lists s x = some l ∧ ∀ y, l.count y = told cs s x y := by
  have key : ∀ (cs past : List MapCall) (m : Neighbours), Proper cs m.lanes →
      (∀ s x, x ∈ m.lanes → ∃ l, m.lists s x = some l ∧ ∀ y, l.count y = told past s x y) →
      (∀ a b s, MapCall.pair a b s ∈ past → a ∈ m.lanes ∧ b ∈ m.lanes) →
      (runCalls cs m).2 = true ∧ (runCalls cs m).1.lanes = m.lanes ++ added cs ∧
        ∀ s x, x ∈ m.lanes ++ added cs → ∃ l, (runCalls cs m).1.lists s x = some l ∧ ∀ y, l.count y = told (past ++ cs) s x y := by
    intro cs
    induction cs with
    | nil =>
      intro past m _ hm _
      refine ⟨rfl, by simp [runCalls, added], ?_⟩
      intro s x hx
      simp only [added, List.append_nil] at hx ⊢
      exact hm s x hx
    | cons c cs ih =>
      intro past m hp hm hk
      cases c with
      | add id =>
        obtain ⟨hnew, hp⟩ := hp
        have hlanes : (m.add id).lanes = m.lanes ++ [id] := by simp [Neighbours.add, hnew]
        have := ih (past ++ [.add id]) (m.add id) (by rw [hlanes]; exact hp) ?_ ?_
        · rw [hlanes] at this
          simpa [runCalls, added] using this
        · intro s x hx
          rw [hlanes, List.mem_append, List.mem_singleton] at hx
          have htold : ∀ y, told (past ++ [.add id]) s x y = told past s x y := by
            intro y
            simp [told, List.count_append, List.count_singleton]
          by_cases hxi : x = id
          · subst hxi
            refine ⟨[], by simp [Neighbours.add], ?_⟩
            intro y
            rw [htold]
            unfold told
            rw [List.count_nil, List.count_eq_zero_of_not_mem fun hmem => hnew (hk _ _ _ hmem).1, List.count_eq_zero_of_not_mem fun hmem => hnew (hk _ _ _ hmem).2]
          · rcases hx with hx | hx
            · obtain ⟨l, h1, h2⟩ := hm s x hx
              refine ⟨l, by simp [Neighbours.add, hxi, h1], ?_⟩
              intro y
              rw [htold, h2]
            · exact absurd hx hxi
        · intro a b s hmem
          rw [hlanes]
          simp only [List.mem_append, List.mem_singleton, reduceCtorEq, or_false] at hmem
          have := hk a b s hmem
          exact ⟨List.mem_append_left _ this.1, List.mem_append_left _ this.2⟩
      | pair src dest s0 =>
        obtain ⟨hs, hd, hp⟩ := hp
        obtain ⟨lx, g1, g2⟩ := hm s0 src hs
        obtain ⟨ly, g3, g4⟩ := hm (opposite s0) dest hd
        have hpair := pair_spec g1 g3
        have := ih (past ++ [.pair src dest s0]) (m.pair src dest s0).1 (by rw [hpair]; exact hp) ?_ ?_
        · simp only [runCalls]
          rw [hpair] at this ⊢
          simpa [added] using this
        · intro s x hx
          rw [hpair] at hx ⊢
          simp only at hx ⊢
          have hc : ∀ (a b : String) (t : Side), (past ++ [MapCall.pair src dest s0]).count (.pair a b t) = past.count (.pair a b t) + if src = a ∧ dest = b ∧ s0 = t then 1 else 0 := by
            intro a b t
            rw [List.count_append, List.count_singleton]
            simp
          by_cases c1 : s = opposite s0 ∧ x = dest
          · obtain ⟨rfl, rfl⟩ := c1
            refine ⟨ly ++ [src], by simp, ?_⟩
            intro y
            rw [List.count_append, List.count_singleton, g4]
            unfold told
            rw [hc, hc, opposite_opposite]
            have : ¬ (src = x ∧ x = y ∧ s0 = opposite s0) := fun h => opposite_ne s0 h.2.2.symm
            rw [if_neg this]
            by_cases hy : src = y <;> simp [hy] <;> omega
          · by_cases c2 : s = s0 ∧ x = src
            · obtain ⟨rfl, rfl⟩ := c2
              rw [if_neg c1]
              refine ⟨lx ++ [dest], by simp, ?_⟩
              intro y
              rw [List.count_append, List.count_singleton, g2]
              unfold told
              rw [hc, hc]
              have : ¬ (x = y ∧ dest = x ∧ s = opposite s) := fun h => opposite_ne s h.2.2.symm
              rw [if_neg this]
              by_cases hy : dest = y <;> simp [hy] <;> omega
            · rw [if_neg c1, if_neg c2]
              obtain ⟨l, h1, h2⟩ := hm s x hx
              refine ⟨l, h1, ?_⟩
              intro y
              rw [h2]
              unfold told
              rw [hc, hc]
              have n1 : ¬ (src = x ∧ dest = y ∧ s0 = s) := fun h => c2 ⟨h.2.2.symm, h.1.symm⟩
              have n2 : ¬ (src = y ∧ dest = x ∧ s0 = opposite s) := fun h => c1 ⟨by rw [h.2.2, opposite_opposite], h.2.1.symm⟩
              rw [if_neg n1, if_neg n2]
              rfl
        · intro a b s hmem
          rw [hpair]
          simp only [List.mem_append, List.mem_singleton, MapCall.pair.injEq] at hmem
          rcases hmem with hmem | ⟨rfl, rfl, _⟩
          · exact hk a b s hmem
          · exact ⟨hs, hd⟩
  have := key cs [] .empty h (by simp [Neighbours.empty]) (by simp)
  simpa [Neighbours.empty] using this

/-- **C78, symmetry.** After such calls `y` is on a side of `x` exactly if `x` is on the opposite side of `y`; `has_…` tells whether there is one, and `…_lane` gives one if there is. -/
theorem C78_symmetric (cs : List MapCall) (h : Proper cs []) (s : Side) (x y : String) (hx : x ∈ added cs) (hy : y ∈ added cs) :
    (∃ lx ly, (runCalls cs .empty).1.lists s x = some lx ∧ (runCalls cs .empty).1.lists (opposite s) y = some ly ∧ (y ∈ lx ↔ x ∈ ly)) ∧
    (∃ b, (runCalls cs .empty).1.has s x = some b ∧ (b = true ↔ ∃ z, 0 < told cs s x z)) ∧
    ((runCalls cs .empty).1.lane s x = some y → 0 < told cs s x y) ∧
    ((runCalls cs .empty).1.lane s x = none ↔ ∀ z, told cs s x z = 0) := by
  obtain ⟨_, h2, h3⟩ := C78_neighbours cs h
  obtain ⟨lx, g1, g2⟩ := h3 s x hx
  obtain ⟨ly, g3, g4⟩ := h3 (opposite s) y hy
  have hmem : ∀ z, z ∈ lx ↔ 0 < told cs s x z := fun z => by rw [← g2, List.count_pos_iff]
  have hall : (runCalls cs .empty).1.lanes.all (fun y => ((runCalls cs .empty).1.lists s y).isSome) = true := by
    rw [List.all_eq_true]
    intro z hz
    rw [h2] at hz
    obtain ⟨l, hl, _⟩ := h3 s z hz
    rw [hl]; rfl
  have hlane : (runCalls cs .empty).1.lane s x = lx.head? := by
    unfold Neighbours.lane
    rw [if_pos hall, g1]
    rfl
  refine ⟨⟨lx, ly, g1, g3, ?_⟩, ⟨decide (0 < lx.length), ?_, ?_⟩, ?_, ?_⟩
  · rw [hmem, ← List.count_pos_iff (l := ly), g4]
    unfold told
    rw [opposite_opposite, Nat.add_comm]
  · unfold Neighbours.has
    rw [h2, if_pos hx, g1]
    rfl
  · rw [decide_eq_true_iff, List.length_pos_iff_exists_mem]
    exact exists_congr hmem
  · rw [hlane]
    intro hh
    exact (hmem y).1 (List.mem_of_head? hh)
  · rw [hlane, List.head?_eq_none_iff, List.eq_nil_iff_forall_not_mem]
    exact forall_congr' fun z => by rw [hmem]; omega

/-- Three lanes in a row and one above. -/
def rowCalls : List MapCall := [.add "T0", .add "T1", .pair "T0" "T1" .right, .add "T2", .pair "T2" "T1" .left, .add "U", .pair "T1" "U" .up]

example : Proper rowCalls [] ∧ (runCalls rowCalls .empty).1.lists .right "T1" = some ["T2"] ∧ (runCalls rowCalls .empty).1.lists .left "T1" = some ["T0"] ∧
    (runCalls rowCalls .empty).1.lane .down "U" = some "T1" ∧ (runCalls rowCalls .empty).1.has .down "T1" = some false := by
  refine ⟨by simp [rowCalls, Proper], ?_⟩
  decide +kernel

/-- **Violation.** A lane that is added again (for instance to replace it) forgets its neighbours, while they still have it as theirs; and a pair with a lane that is
not known leaves the first lane with that neighbour before it raises. -/
theorem C78_symmetric_violated : (∃ cs, (runCalls cs .empty).2 = true ∧ (runCalls cs .empty).1.lists .right "T0" = some [] ∧ (runCalls cs .empty).1.lists .left "T1" = some ["T0"]) ∧
    ∃ cs, (runCalls cs .empty).2 = false ∧ (runCalls cs .empty).1.lists .right "T0" = some ["T1"] ∧ (runCalls cs .empty).1.lists .left "T1" = none ∧ "T1" ∉ (runCalls cs .empty).1.lanes :=
  ⟨⟨[.add "T0", .add "T1", .pair "T0" "T1" .right, .add "T0"], by decide +kernel⟩, ⟨[.add "T0", .pair "T0" "T1" .right], by decide +kernel⟩⟩

/-- **Violation.** The lane to the right of the lane to the left of a lane is another one, if that has two neighbours to its right: the first is taken. -/
theorem C78_back_violated : ∃ cs, Proper cs [] ∧ ∃ x y z, (runCalls cs .empty).1.lane .left x = some y ∧ (runCalls cs .empty).1.lane .right y = some z ∧ z ≠ x := by
  refine ⟨[.add "A", .add "B", .add "C", .pair "A" "B" .right, .pair "A" "C" .right], by simp [Proper], "C", "A", "B", ?_⟩
  decide +kernel

end Verif.Props
