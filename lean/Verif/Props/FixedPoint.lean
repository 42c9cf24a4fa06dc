import Verif.Proofs.FixedPoint3
import Mathlib.Tactic.Ring
import Mathlib.Algebra.Order.Ring.Rat

/-! C47: the fixed-point test is containment of the states at the end in the union of the earlier rectangles. -/

set_option autoImplicit false
set_option linter.unusedSectionVars false

namespace Verif.Props

open Verif.Spec Verif.Fix Verif.Fix.Spec Verif.ATree Verif.Proofs.Fix

variable {K : Type} [Field K] [LinearOrder K] {agents : List String} {dim mdim : String → Nat}

/-- The solver answers `unsat` only for formulas without a solution. -/
def SolverSound (solver : Fm K → Bool) : Prop := ∀ f : Fm K, solver f = true → ¬ ∃ p : Nat → K, f.Holds p

/-- The solver answers `unsat` for all formulas without a solution. -/
def SolverComplete (solver : Fm K → Bool) : Prop := ∀ f : Fm K, (¬ ∃ p : Nat → K, f.Holds p) → solver f = true

theorem good_node {root : RTree (FNode K)} (good : Good root agents dim mdim) {n : FNode K} (hn : n ∈ nodesOf root) : NodeOk agents dim mdim n :=
  ⟨good.trace n hn, good.mode n hn, good.aligned n hn⟩

theorem mem_allNodes {root : RTree (FNode K)} {n : FNode K} : n ∈ (allNodes root).map RTree.label ↔ n ∈ nodesOf root := by
  unfold nodesOf allNodes
  have := bfs_perm [root]
  simp only [RTree.subsL, List.append_nil] at this
  exact (this.map RTree.label).mem_iff

theorem rects_ne {n : FNode K} (hn : NodeOk agents dim mdim n) {a : String} (ha : a ∈ agents) : rects n a ≠ [] := by
  obtain ⟨rows, h1, h2, -⟩ := hn.trace a ha
  unfold rects
  rw [h1]
  cases rows with
  | nil => simp at h2
  | cons x rows => cases rows with
    | nil => simp at h2
    | cons y rows => simp [pairs]

theorem enum_init (agents : List String) : EnumOk agents (agents.map (fun a => (a, [("_index", 0)]))) := by
  intro a ha
  refine ⟨[("_index", 0)], ?_, ⟨0, rfl, ?_⟩, ?_⟩
  · induction agents with
    | nil => simp at ha
    | cons b l ih =>
      unfold Dict.get?
      rw [List.map_cons, List.find?_cons]
      by_cases hb : b = a
      · simp [hb]
      · simp only [hb, decide_false]
        exact ih ((List.mem_cons.1 ha).resolve_left (fun e => hb e.symm))
  · intro m v hm hv
    simp [Dict.get?, Ne.symm hm] at hv
  · intro m m' v hm hm' hv
    simp [Dict.get?, Ne.symm hm] at hv

/-- What `reach_at_fix` returns. -/
theorem collect_eq {root : RTree (FNode K)} (good : Good root agents dim mdim) (sel : Sel K) (E : Dict String Enum)
    (hE : E = enumAll agents ((allNodes root).map RTree.label) (agents.map (fun a => (a, [("_index", 0)])))) :
    collect root sel = .ok ((((allNodes root).map RTree.label).flatMap
      (fun n => if count agents sel n = 0 then [] else [enc agents E sel n])).map flat) := by
  obtain ⟨h1, -⟩ := nodes_eq (dim := dim) (mdim := mdim) good.nonempty good.nodup sel ((allNodes root).map RTree.label) (agents.map (fun a => (a, [("_index", 0)]))) []
    (fun n hn => good_node good (mem_allNodes.1 hn)) (enum_init agents)
  unfold collect
  rw [good.agents_eq, h1, ← hE]
  show Except.ok _ = _
  congr 1
  rw [List.nil_append, List.map_flatMap]
  apply List.flatMap_congr
  intro n _
  split <;> rfl

/-- **C47**, for tubes in continuous time: with the horizon `Tend` at which the first leaf of the tree ends, `fixed_points_fix` terminates normally, and answers true iff every
combination of states at time `Tend` is covered, in the same modes, by rectangles that end at least 0.99 time steps before `T`. Missing: tubes in discrete time, and trees whose first
leaf ends before the horizon; see the violations below. -/
theorem C47_fixed_point_partial [IsStrictOrderedRing K] (solver : Fm K → Bool) (root : RTree (FNode K)) (T step Tend : K) (good : Good root agents dim mdim)
    (leaf : ∃ l r, (leafNodes root).head? = some l ∧ (rects l.label (agents.headD "")).getLast? = some r ∧ r.2.1 = Tend) :
    ∃ b, fixedPoints solver root T step = .ok b ∧ (SolverSound solver → b = true → Covered root agents Tend (T - step * (99 / 100))) ∧
      (SolverComplete solver → Covered root agents Tend (T - step * (99 / 100)) → b = true) := by
  have htm : T - step + step * (1 / 100) = T - step * (99 / 100) := by ring
  obtain ⟨l, rl, hl, hrl, hT⟩ := leaf
  have hne := good.nonempty
  obtain ⟨a0, ha0⟩ : ∃ a0, agents.head? = some a0 := by
    cases agents with
    | nil => exact absurd rfl hne
    | cons a l => exact ⟨a, rfl⟩
  have ha0' : agents.headD "" = a0 := by rw [List.headD_eq_head?_getD, ha0]; rfl
  have ha0m : a0 ∈ agents := List.mem_of_head? ha0
  rw [ha0'] at hrl
  -- the first leaf is a node
  have hlm : l.label ∈ nodesOf root := by
    have := List.mem_of_head? hl
    unfold leafNodes at this
    rw [collectLeaves_eq, List.nil_append] at this
    exact List.mem_map.2 ⟨l, (List.mem_filter.1 this).1, rfl⟩
  have hhor : horizon root root.label.agents = .ok Tend := by
    unfold horizon
    rw [good.agents_eq, hl, ha0]
    simp only
    obtain ⟨rows, h1, h2, h3, -⟩ := good.trace _ hlm a0 ha0m
    rw [h1]
    simp only
    unfold rects at hrl
    rw [h1, Option.getD_some] at hrl
    have hP : pairs rows ≠ [] := by intro e; rw [e] at hrl; simp at hrl
    have := lastRect_eq Tend (pairs rows) hP
    rw [flat_pairs rows h3] at this
    unfold lastRect at this
    unfold selL at this
    rw [hrl] at this
    obtain ⟨Q, r, hQ⟩ := List.eq_nil_or_concat (pairs rows) |>.resolve_left hP
    have hrows : rows = flat Q ++ [r.1, r.2] := by
      rw [← flat_pairs rows h3, hQ, List.concat_eq_append, flat_append]; rfl
    rw [hQ, List.concat_eq_append, List.getLast?_append] at hrl
    simp at hrl
    subst hrl
    have hidx : pyIdx rows (-1) = some r.2 := by
      unfold pyIdx
      rw [if_neg (by omega), if_pos (by omega), hrows]
      rw [show (((flat Q ++ [r.1, r.2]).length : Int) + -1).toNat = (flat Q).length + 1 from by rw [List.length_append]; simp; omega]
      simp
    rw [hidx]
    simp [hT]
  obtain ⟨E, hE⟩ : ∃ E, E = enumAll agents ((allNodes root).map RTree.label) (agents.map (fun a => (a, [("_index", 0)]))) := ⟨_, rfl⟩
  have c1 := collect_eq good (.last Tend) E hE
  have c2 := collect_eq good (.window 0 (T - step * (99 / 100))) E hE
  obtain ⟨-, e2, -, e4⟩ := nodes_eq (dim := dim) (mdim := mdim) good.nonempty good.nodup (.last Tend) ((allNodes root).map RTree.label)
    (agents.map (fun a => (a, [("_index", 0)]))) [] (fun n hn => good_node good (mem_allNodes.1 hn)) (enum_init agents)
  rw [← hE] at e2 e4
  have hlen : ∀ sel, ∀ Q ∈ ((allNodes root).map RTree.label).flatMap (fun n => if count agents sel n = 0 then [] else [enc agents E sel n]), ∀ q ∈ Q,
      q.1.length = (agents.map (fun a => dim a + mdim a)).sum ∧ q.2.length = (agents.map (fun a => dim a + mdim a)).sum := by
    intro sel Q hQ q hq
    obtain ⟨n, hn, hQ⟩ := List.mem_flatMap.1 hQ
    by_cases h0 : count agents sel n = 0
    · rw [if_pos h0] at hQ; simp at hQ
    · rw [if_neg h0, List.mem_singleton] at hQ
      subst hQ
      exact enc_length (good_node good (mem_allNodes.1 hn)) E sel hq
  obtain ⟨f1, g1, p1⟩ := unionFm_ok _ (hlen (.last Tend))
  obtain ⟨f2, g2, p2⟩ := unionFm_ok _ (hlen (.window 0 (T - step * (99 / 100))))
  -- a point is in a collected rectangle
  have hit : ∀ sel pt, (∃ Q ∈ ((allNodes root).map RTree.label).flatMap (fun n => if count agents sel n = 0 then [] else [enc agents E sel n]), ∃ q ∈ Q, Box q pt) ↔
      ∃ n ∈ nodesOf root, ∃ (i : Nat) (xs : List (List K)),
        List.Forall₂ (fun a x => ∃ r, (selP sel (rects n a))[i]? = some r ∧ In r x) agents xs ∧ pt = point agents E n xs := by
    intro sel pt
    constructor
    · rintro ⟨Q, hQ, q, hq, hb⟩
      obtain ⟨n, hn, hQ⟩ := List.mem_flatMap.1 hQ
      by_cases h0 : count agents sel n = 0
      · rw [if_pos h0] at hQ; simp at hQ
      · rw [if_neg h0, List.mem_singleton] at hQ
        subst hQ
        exact ⟨n, mem_allNodes.1 hn, (enc_hit (good_node good (mem_allNodes.1 hn)) hne E sel pt).1 ⟨q, hq, hb⟩⟩
    · rintro ⟨n, hn, h⟩
      obtain ⟨q, hq, hb⟩ := (enc_hit (good_node good hn) hne E sel pt).2 h
      refine ⟨enc agents E sel n, List.mem_flatMap.2 ⟨n, mem_allNodes.2 hn, ?_⟩, q, hq, hb⟩
      rw [if_neg]
      · simp
      · intro h0
        unfold enc at hq
        rw [h0] at hq
        simp [composed] at hq
  -- the first vector
  have hcount : count agents (.last Tend) l.label ≠ 0 := by
    rw [← count_eq (good_node good hlm) (.last Tend) ha0m]
    show (selL Tend (rects l.label a0)).length ≠ 0
    unfold selL
    rw [hrl]
    simp [hT]
  have hhead : ∃ v, (((((allNodes root).map RTree.label).flatMap (fun n => if count agents (.last Tend) n = 0 then [] else [enc agents E (.last Tend) n])).map flat).head?).bind
      List.head? = some v ∧ v.length = (agents.map (fun a => dim a + mdim a)).sum := by
    have hmem : enc agents E (.last Tend) l.label ∈ ((allNodes root).map RTree.label).flatMap
        (fun n => if count agents (.last Tend) n = 0 then [] else [enc agents E (.last Tend) n]) :=
      List.mem_flatMap.2 ⟨_, mem_allNodes.2 hlm, by rw [if_neg hcount]; simp⟩
    have hl' := hlen (.last Tend)
    have hnon : ∀ Q ∈ ((allNodes root).map RTree.label).flatMap (fun n => if count agents (.last Tend) n = 0 then [] else [enc agents E (.last Tend) n]), Q ≠ [] := by
      intro Q hQ
      obtain ⟨n, hn, hQ⟩ := List.mem_flatMap.1 hQ
      by_cases h0 : count agents (.last Tend) n = 0
      · rw [if_pos h0] at hQ; simp at hQ
      · rw [if_neg h0, List.mem_singleton] at hQ
        subst hQ
        intro e
        have := congrArg List.length e
        unfold enc at this
        rw [composed_length] at this
        exact h0 this
    generalize ((allNodes root).map RTree.label).flatMap (fun n => if count agents (.last Tend) n = 0 then [] else [enc agents E (.last Tend) n]) = Qs at *
    cases Qs with
    | nil => simp at hmem
    | cons Q Qs =>
      cases Q with
      | nil => exact absurd rfl (hnon [] (by simp))
      | cons q Q => exact ⟨q.1, rfl, (hl' (q :: Q) (by simp) q (by simp)).1⟩
  obtain ⟨v, hv, hvl⟩ := hhead
  refine ⟨solver (.and f1 (.not f2)), ?_, ?_, ?_⟩
  · unfold fixedPoints
    have r1 : reachAt root none = collect root (.last Tend) := by
      unfold reachAt; simp only; rw [hhor]; rfl
    have r2 : reachAt root (some (0, T - step + step * (1 / 100))) = collect root (.window 0 (T - step * (99 / 100))) := by
      rw [htm]; rfl
    rw [r1, r2, c1, c2]
    show containAll _ _ _ = _
    unfold containAll
    rw [hv]
    simp only
    rw [hvl, g1, g2]
    rfl
  · -- soundness
    intro hs hb n hn x hx
    have hdim : List.Forall₂ (fun a x => x.length = dim a) agents x :=
      forall₂_imp_left hx (fun a ha xa => by
        rintro ⟨r, hr, -, h1, -⟩
        rw [← h1.length_eq, ((good_node good hn).dims ha (List.mem_of_getLast? hr)).1])
    obtain ⟨pt, hpt⟩ : ∃ pt, pt = point agents E n x := ⟨_, rfl⟩
    have hptl : pt.length = (agents.map (fun a => dim a + mdim a)).sum := by
      rw [hpt]
      clear hpt hx
      have hm := good.mode n hn
      clear * - hdim hm
      unfold point
      induction hdim with
      | nil => rfl
      | cons h1 h2 ih =>
        rw [List.zipWith_cons_cons, List.flatten_cons, List.length_append, ih (fun a ha => hm a (List.mem_cons_of_mem _ ha)), List.map_cons, List.sum_cons,
          List.length_append, h1]
        obtain ⟨ms, e1, e2, -⟩ := hm _ List.mem_cons_self
        simp [nums, modes, e1, e2]
    have hrange : (List.range (agents.map (fun a => dim a + mdim a)).sum).map (fun j => (pt[j]?).getD 0) = pt := by
      rw [← hptl, map_range_get pt (fun o => o.getD 0) id (fun _ => rfl), List.map_id]
    have hin1 : f1.Holds (fun j => (pt[j]?).getD 0) := by
      rw [p1, hrange, hit]
      refine ⟨n, hn, 0, x, ?_, hpt⟩
      refine forall₂_imp_left hx (fun a ha xa => ?_)
      rintro ⟨r, hr, ht, hi⟩
      refine ⟨r, ?_, hi⟩
      show (selL Tend (rects n a))[0]? = some r
      unfold selL
      rw [hr]
      simp [ht]
    have hin2 : f2.Holds (fun j => (pt[j]?).getD 0) := by
      by_contra hc
      exact hs _ hb ⟨_, hin1, hc⟩
    rw [p2, hrange, hit] at hin2
    obtain ⟨n', hn', i, xs, hxs, he⟩ := hin2
    have hdim' : List.Forall₂ (fun a x => x.length = dim a) agents xs :=
      forall₂_imp_left hxs (fun a ha xa => by
        rintro ⟨r, hr, h1, -⟩
        rw [← h1.length_eq, ((good_node good hn').dims ha (mem_selP (List.mem_of_getElem? hr))).1])
    obtain ⟨rfl, hnums⟩ := point_inj agents x xs hdim hdim' (by
      intro a ha
      obtain ⟨ms, e1, e2, -⟩ := good.mode n hn a ha
      obtain ⟨ms', e3, e4, -⟩ := good.mode n' hn' a ha
      simp [nums, modes, e1, e2, e3, e4]) (hpt.symm.trans he)
    refine ⟨n', hn', ?_, ?_⟩
    · intro a ha
      have := nums_inj e2 ha (e4 n (mem_allNodes.2 hn) a ha) (e4 n' (mem_allNodes.2 hn') a ha) (hnums a ha)
      unfold modes at this
      obtain ⟨ms, m1, -⟩ := good.mode n hn a ha
      obtain ⟨ms', m2, -⟩ := good.mode n' hn' a ha
      rw [m1, m2] at this ⊢
      simp at this
      rw [this]
    · obtain ⟨j, hj⟩ := filter_index (fun r : Row K × Row K => (r.1.1, r.2.1)) (fun t => decide (0 ≤ t.1 ∧ t.2 ≤ T - step * (99 / 100)))
        ((rects n' a0).map (fun r => (r.1.1, r.2.1))) i
      refine ⟨j, forall₂_imp_left hxs (fun a ha xa => ?_)⟩
      rintro ⟨r, hr, hi⟩
      obtain ⟨h1, h2⟩ := hj (rects n' a) (good.aligned n' hn' a ha a0 ha0m) r hr
      simp only [decide_eq_true_eq] at h2
      exact ⟨r, h1, h2.1, h2.2, hi⟩
  · -- completeness
    intro hs hcov
    apply hs
    rintro ⟨p, h1, h2⟩
    apply h2
    rw [p1, hit] at h1
    obtain ⟨n, hn, i, xs, hxs, he⟩ := h1
    obtain ⟨n', hn', hm, j, hj⟩ := hcov n hn xs (forall₂_imp_left hxs (fun a ha xa => by
      rintro ⟨r, hr, hi⟩
      change (selL Tend (rects n a))[i]? = some r at hr
      have := List.mem_of_getElem? hr
      unfold selL at this
      rw [List.mem_filter, Option.mem_toList] at this
      exact ⟨r, this.1, by simpa using this.2, hi⟩))
    rw [p2, hit]
    obtain ⟨k, hk⟩ := index_filter (fun r : Row K × Row K => (r.1.1, r.2.1)) (fun t => decide (0 ≤ t.1 ∧ t.2 ≤ T - step * (99 / 100)))
        ((rects n' a0).map (fun r => (r.1.1, r.2.1))) j
    refine ⟨n', hn', k, xs, forall₂_imp_left hj (fun a ha xa => ?_), ?_⟩
    · rintro ⟨r, hr, t1, t2, hi⟩
      exact ⟨r, hk (rects n' a) (good.aligned n' hn' a ha a0 ha0m) r hr (by simp [t1, t2]), hi⟩
    · rw [he]
      unfold point
      congr 1
      have hl := hxs.length_eq
      clear * - hm
      induction agents generalizing xs with
      | nil => rfl
      | cons a l ih =>
        cases xs with
        | nil => rfl
        | cons x xs =>
          rw [List.zipWith_cons_cons, List.zipWith_cons_cons, ih xs (fun b hb => hm b (List.mem_cons_of_mem _ hb))]
          congr 2
          unfold nums modes
          rw [hm a (by simp)]

/-- **C47 is violated** if the first leaf of the tree ends early (for example because of a failed assert), or the argument `T` is larger than the horizon of the tree: the
states at the end are then compared with themselves, and the answer is true for every tree. -/
theorem C47_early_leaf_violated [IsStrictOrderedRing K] (solver : Fm K → Bool) (hs : SolverComplete solver) (root : RTree (FNode K)) (T step Tend : K)
    (good : Good root agents dim mdim)
    (leaf : ∃ l r, (leafNodes root).head? = some l ∧ (rects l.label (agents.headD "")).getLast? = some r ∧ r.2.1 = Tend)
    (early : Tend ≤ T - step * (99 / 100)) (pos : ∀ n ∈ nodesOf root, ∀ a ∈ agents, ∀ r ∈ rects n a, 0 ≤ r.1.1) :
    fixedPoints solver root T step = .ok true := by
  obtain ⟨b, h1, -, h3⟩ := C47_fixed_point_partial solver root T step Tend good leaf
  rw [h1, h3 hs]
  intro n hn x hx
  refine ⟨n, hn, fun _ _ => rfl, (rects n (agents.headD "")).length - 1, ?_⟩
  refine forall₂_imp_left hx (fun a ha xa => ?_)
  rintro ⟨r, hr, ht, hi⟩
  refine ⟨r, ?_, pos n hn a ha r (List.mem_of_getLast? hr), ht ▸ early, hi⟩
  have hlen : (rects n (agents.headD "")).length = (rects n a).length := by
    have hd : agents.headD "" ∈ agents := by
      cases agents with
      | nil => exact absurd rfl good.nonempty
      | cons a l => simp
    have := congrArg List.length (good.aligned n hn a ha _ hd)
    simpa using this.symm
  rw [hlen, ← List.getLast?_eq_getElem?]
  exact hr

/-! ### Concrete cases -/

namespace FixEx

/-- Two agents that stay where they are: one step per rectangle. -/
def stay : RTree (FNode ℚ) := .node ⟨["car", "bus"], [("car", ["Slow"]), ("bus", ["Fast"])],
  [("car", [(0, [0, 0]), (1, [1, 1]), (1, [0, 0]), (2, [1, 1])]), ("bus", [(0, [5]), (1, [7]), (1, [6]), (2, [7])])]⟩ []

/-- An agent that moves, with tubes in discrete time. -/
def disc : RTree (FNode ℚ) := .node ⟨["car"], [("car", ["Slow"])], [("car", [(0, [0]), (0, [1]), (1, [5]), (1, [6]), (2, [2]), (2, [3])])]⟩ []

/-- A tree whose first leaf ends at time 2, and whose second leaf moves on until the horizon 3. -/
def early : RTree (FNode ℚ) := .node ⟨["car"], [("car", ["Slow"])], [("car", [(0, [0]), (1, [1])])]⟩
  [.node ⟨["car"], [("car", ["Stop"])], [("car", [(1, [1]), (2, [1])])]⟩ [],
   .node ⟨["car"], [("car", ["Fast"])], [("car", [(1, [1]), (2, [2]), (2, [2]), (3, [3])])]⟩ []]

theorem stay_good : Good stay ["car", "bus"] (fun a => if a = "car" then 2 else 1) (fun _ => 1) where
  agents_eq := rfl
  nonempty := by simp
  nodup := by decide
  trace := by
    have e : nodesOf stay = [stay.label] := rfl
    rw [e]
    simp only [forall_eq, List.mem_cons, List.not_mem_nil, or_false, forall_eq_or_imp]
    exact ⟨⟨_, rfl, by decide +kernel, by decide +kernel, by decide +kernel, by decide +kernel, by decide +kernel⟩,
      ⟨_, rfl, by decide +kernel, by decide +kernel, by decide +kernel, by decide +kernel, by decide +kernel⟩⟩
  mode := by
    have e : nodesOf stay = [stay.label] := rfl
    rw [e]
    simp only [forall_eq, List.mem_cons, List.not_mem_nil, or_false, forall_eq_or_imp]
    exact ⟨⟨_, rfl, by decide +kernel, by decide +kernel⟩, ⟨_, rfl, by decide +kernel, by decide +kernel⟩⟩
  aligned := by
    have e : nodesOf stay = [stay.label] := rfl
    rw [e]
    decide +kernel

theorem early_good : Good early ["car"] (fun _ => 1) (fun _ => 1) where
  agents_eq := rfl
  nonempty := by simp
  nodup := by decide
  trace := by
    have e : nodesOf early = early.label :: early.kids.map RTree.label := rfl
    rw [e]
    simp only [early, RTree.label, RTree.kids, List.map_cons, List.map_nil, forall_eq, List.mem_cons, List.not_mem_nil, or_false, forall_eq_or_imp]
    exact ⟨⟨_, rfl, by decide +kernel, by decide +kernel, by decide +kernel, by decide +kernel, by decide +kernel⟩,
      ⟨_, rfl, by decide +kernel, by decide +kernel, by decide +kernel, by decide +kernel, by decide +kernel⟩,
      ⟨_, rfl, by decide +kernel, by decide +kernel, by decide +kernel, by decide +kernel, by decide +kernel⟩⟩
  mode := by
    have e : nodesOf early = early.label :: early.kids.map RTree.label := rfl
    rw [e]
    simp only [early, RTree.label, RTree.kids, List.map_cons, List.map_nil, forall_eq, List.mem_cons, List.not_mem_nil, or_false, forall_eq_or_imp]
    exact ⟨⟨_, rfl, by decide +kernel, by decide +kernel⟩, ⟨_, rfl, by decide +kernel, by decide +kernel⟩, ⟨_, rfl, by decide +kernel, by decide +kernel⟩⟩
  aligned := by
    have e : nodesOf early = early.label :: early.kids.map RTree.label := rfl
    rw [e]
    decide +kernel

end FixEx

open FixEx in
/-- A case of `C47_early_leaf_violated`: the answer is true, but the states at the horizon 3 are not covered. -/
theorem C47_early_leaf_example_violated (solver : Fm ℚ → Bool) (hs : SolverComplete solver) :
    fixedPoints solver early 3 1 = .ok true ∧ ¬ Covered early ["car"] 3 (3 - 1 * (99 / 100)) := by
  constructor
  · refine C47_early_leaf_violated solver hs early 3 1 2 early_good ⟨_, ((1, [1]), (2, [1])), rfl, rfl, rfl⟩ (by norm_num) ?_
    have e : nodesOf early = early.label :: early.kids.map RTree.label := rfl
    rw [e]
    decide +kernel
  · intro h
    obtain ⟨n', hn', -, i, hi⟩ := h ⟨["car"], [("car", ["Fast"])], [("car", [(1, [1]), (2, [2]), (2, [2]), (3, [3])])]⟩
      (by simp [nodesOf, early, RTree.subs, RTree.subsL, RTree.label]) [[3]]
      (.cons ⟨((2, [2]), (3, [3])), rfl, rfl, .cons (by norm_num) .nil, .cons (by norm_num) .nil⟩ .nil)
    have key : ∀ n ∈ nodesOf early, ∀ r ∈ rects n "car", r.2.1 ≤ 3 - 1 * (99 / 100) → ∀ y ∈ r.2.2, y < 3 := by
      have e : nodesOf early = early.label :: early.kids.map RTree.label := rfl
      rw [e]
      decide +kernel
    cases hi with
    | cons h1 _ =>
      obtain ⟨r, hr, -, ht, -, hb⟩ := h1
      obtain ⟨y, hy, hle⟩ := forall₂_mem_left hb (List.mem_singleton.2 rfl)
      exact absurd hle (not_le.2 (key n' hn' r (List.mem_of_getElem? hr) ht y hy))

open FixEx in
/-- The hypotheses of `C47_fixed_point_partial` can be met, and the property that it speaks about holds here: the agents stay where they are. -/
example : Good stay ["car", "bus"] (fun a => if a = "car" then 2 else 1) (fun _ => 1) ∧
    (∃ l r, (leafNodes stay).head? = some l ∧ (rects l.label (["car", "bus"].headD "")).getLast? = some r ∧ r.2.1 = 2) ∧
    Covered stay ["car", "bus"] 2 (2 - 1 * (99 / 100)) := by
  refine ⟨stay_good, ⟨stay, ((1, [0, 0]), (2, [1, 1])), rfl, rfl, rfl⟩, ?_⟩
  intro n hn x hx
  have hn : n = stay.label := by simpa [nodesOf, stay, RTree.subs, RTree.subsL] using hn
  subst hn
  refine ⟨stay.label, by simp [nodesOf, stay, RTree.subs, RTree.subsL], fun _ _ => rfl, 0, ?_⟩
  cases hx with
  | cons h1 h2 => cases h2 with
    | cons h2 h3 =>
      cases h3
      obtain ⟨r1, e1, -, i1, j1⟩ := h1
      obtain ⟨r2, e2, -, i2, j2⟩ := h2
      have e1 : some (((1 : ℚ), [(0 : ℚ), 0]), ((2 : ℚ), [(1 : ℚ), 1])) = some r1 := e1
      have e2 : some (((1 : ℚ), [(6 : ℚ)]), ((2 : ℚ), [(7 : ℚ)])) = some r2 := e2
      injection e1 with e1; injection e2 with e2
      subst e1 e2
      refine .cons ⟨((0, [0, 0]), (1, [1, 1])), rfl, by norm_num, by norm_num, i1, j1⟩ (.cons ⟨((0, [5]), (1, [7])), rfl, by norm_num, by norm_num, ?_, j2⟩ .nil)
      cases i2 with
      | cons h h' => cases h'; exact .cons (le_trans (by norm_num) h) .nil

/-- **C47 is violated** for tubes in discrete time (two rows with the same time per rectangle): the rows are paired with step 1, so that the upper corner at one time and the lower corner
at the next time make a rectangle `[1, 5]` that no tube contains; the answer is true although no state between 2 and 3 was reached before. -/
theorem C47_discrete_violated (solver : Fm ℚ → Bool) (hs : SolverComplete solver) :
    fixedPoints solver FixEx.disc 2 1 = .ok true ∧ ¬ Covered FixEx.disc ["car"] 2 (2 - 1 * (99 / 100)) := by
  constructor
  · have hall : allNodes FixEx.disc = [FixEx.disc] := by
      unfold allNodes
      rw [bfs_cons]
      simp [FixEx.disc, RTree.kids, bfs_nil]
    have r1 : reachAt FixEx.disc none = .ok [[[2, 0], [3, 0]]] := by
      have : horizon FixEx.disc FixEx.disc.label.agents = .ok 2 := by decide +kernel
      unfold reachAt
      simp only
      rw [this]
      show collect _ _ = _
      unfold collect
      rw [hall]
      decide +kernel
    have r2 : reachAt FixEx.disc (some (0, 2 - 1 + 1 * (1 / 100))) = .ok [[[0, 0], [1, 0], [1, 0], [5, 0], [5, 0], [6, 0]]] := by
      unfold reachAt collect
      rw [hall]
      decide +kernel
    obtain ⟨f1, g1, p1⟩ := unionFm_ok (n := 2) [[([(2 : ℚ), 0], [3, 0])]] (by simp)
    obtain ⟨f2, g2, p2⟩ := unionFm_ok (n := 2) [[([(0 : ℚ), 0], [1, 0]), ([1, 0], [5, 0]), ([5, 0], [6, 0])]] (by decide +kernel)
    unfold fixedPoints
    rw [r1, r2]
    show containAll solver [[[2, 0], [3, 0]]] [[[0, 0], [1, 0], [1, 0], [5, 0], [5, 0], [6, 0]]] = _
    unfold containAll
    have g1' : unionFm 2 [[[(2 : ℚ), 0], [3, 0]]] = .ok f1 := g1
    have g2' : unionFm 2 [[[(0 : ℚ), 0], [1, 0], [1, 0], [5, 0], [5, 0], [6, 0]]] = .ok f2 := g2
    show (Except.bind (unionFm 2 _) _) = _
    rw [g1']
    show Except.map (fun f2 => solver (f1.and f2.not)) (unionFm 2 [[[(0 : ℚ), 0], [1, 0], [1, 0], [5, 0], [5, 0], [6, 0]]]) = _
    rw [g2']
    show Except.ok (solver (f1.and f2.not)) = _
    congr 1
    apply hs
    rintro ⟨p, h1, h2⟩
    apply h2
    rw [p1] at h1
    rw [p2]
    obtain ⟨Q, hQ, q, hq, hb⟩ := h1
    simp at hQ; subst hQ
    simp at hq; subst hq
    refine ⟨_, List.mem_singleton.2 rfl, ([1, 0], [5, 0]), by simp, ?_⟩
    unfold Box at hb ⊢
    cases hb with
    | cons h h' => exact .cons ⟨le_trans (by norm_num) h.1, le_trans h.2 (by norm_num)⟩ h'
  · intro h
    obtain ⟨n', hn', -, i, hi⟩ := h FixEx.disc.label (by simp [nodesOf, FixEx.disc, RTree.subs, RTree.subsL]) [[2]]
      (.cons ⟨((2, [2]), (2, [3])), rfl, rfl, .cons le_rfl .nil, .cons (by norm_num) .nil⟩ .nil)
    have hn' : n' = FixEx.disc.label := by simpa [nodesOf, FixEx.disc, RTree.subs, RTree.subsL] using hn'
    subst hn'
    cases hi with
    | cons h1 _ =>
      obtain ⟨r, hr, -, ht, ha, hb⟩ := h1
      have hm : r ∈ rects FixEx.disc.label "car" := List.mem_of_getElem? hr
      have e : rects FixEx.disc.label "car" = [((0, [0]), (0, [1])), ((1, [5]), (1, [6])), ((2, [2]), (2, [3]))] := rfl
      rw [e] at hm
      simp only [List.mem_cons, List.not_mem_nil, or_false] at hm
      rcases hm with rfl | rfl | rfl
      · cases hb with
        | cons h _ => norm_num at h
      · cases ha with
        | cons h _ => norm_num at h
      · norm_num at ht

end Verif.Props
