import Verif.Proofs.Diams2

/-!
C99: diameters of reach tubes and of simulations.
-/

set_option autoImplicit false
set_option linter.unusedSectionVars false

namespace Verif.Props
open Verif.Spec Verif.ATree Verif.Fix Verif.Fix.Spec Verif.Diams Verif.Diams.Spec Verif.Proofs.Diams

section
variable {K : Type} [Field K] [LinearOrder K] [IsStrictOrderedRing K]

/-- **C99** (partial: within a node). `time_step_diameter_rect` has one entry for each time step at which the tubes have states. It is the largest Manhattan
distance of two combinations of states of the agents that are in the tubes of the same node from this step to the next. -/
theorem C99_rect_partial [FloorRing K] (root : RTree (FNode K)) (agents : List String) (dim mdim : String → Nat) (good : Good root agents dim mdim) (step : K) (hs : 0 < step)
    (stp : Stepped root agents step) (N : Nat) (T : K) (hT : T = N * step) :
    ∃ f : Nat → Option K, rectDiameters root T step = .ok ((List.range N).filterMap f) ∧ ∀ k < N,
      (f k = none ↔ ¬ ∃ n ∈ nodesOf root, ∃ x, InStep agents step k n x) ∧
      ∀ d, f k = some d → (∀ n ∈ nodesOf root, ∀ x y, InStep agents step k n x → InStep agents step k n y → dist x.flatten y.flatten ≤ d) ∧
        ∃ n ∈ nodesOf root, ∃ x y, InStep agents step k n x ∧ InStep agents step k n y ∧ dist x.flatten y.flatten = d := by
  choose f h1 h2 using fun k : Nat => window_diam hs good stp k
  refine ⟨f, ?_, fun k _ => h2 k⟩
  have hfl : ⌊T / step⌋.toNat = N := by
    rw [hT, mul_div_cancel_right₀ _ hs.ne', Int.floor_natCast]
    rfl
  unfold rectDiameters
  rw [hfl]
  have hg : ∀ i, i < N → ∀ j : Nat, gridTime T N j = j * step := by
    intro i hi j
    have : (N : K) ≠ 0 := by
      have : 0 < N := by omega
      exact_mod_cast this.ne'
    unfold gridTime
    rw [hT, mul_div_cancel_left₀ _ this]
  have : ∀ l : List Nat, (∀ i ∈ l, i < N) → l.mapM (fun i => windowDiam root (gridTime T N i - step * (5 / 100)) (gridTime T N (i + 1) + step * (5 / 100))) =
      .ok (l.map fun i => (f i).toList) := by
    intro l
    induction l with
    | nil => intro _; rfl
    | cons i l ih =>
      intro hl
      have hi := hl i (by simp)
      rw [List.mapM_cons, ih fun j hj => hl j (List.mem_cons_of_mem _ hj), hg i hi, hg i hi]
      have := h1 i
      push_cast
      rw [this]
      rfl
  rw [this _ fun i hi => List.mem_range.1 hi]
  show Except.ok _ = _
  congr 1
  generalize List.range N = l
  induction l with
  | nil => rfl
  | cons i l ih =>
    rw [List.map_cons, List.flatten_cons, ih, List.filterMap_cons]
    cases f i <;> rfl

theorem keyOf_history (hash : String → Int) {p p' : List (FNode K)} (h : history p = history p') : keyOf hash p = keyOf hash p' := by
  unfold keyOf
  generalize (none : Option Int) = o
  induction p generalizing p' o with
  | nil => cases p' with
    | nil => rfl
    | cons => simp [history] at h
  | cons n p ih => cases p' with
    | nil => simp [history] at h
    | cons n' p' =>
      simp only [history, List.map_cons, List.cons.injEq] at h
      rw [List.foldl_cons, List.foldl_cons]
      have : histKey hash o n = histKey hash o n' := by unfold histKey modeText; rw [h.1]
      rw [this]
      exact ih h.2 _

theorem keyOf_some (hash : String → Int) {t : RTree (FNode K)} {p : List (FNode K)} (h : Path t p) : ∃ k, keyOf hash p = some k := by
  have : ∀ (p : List (FNode K)) (o : Option Int), p ≠ [] → ∃ k, p.foldl (fun h n => some (histKey hash h n)) o = some k := by
    intro p
    induction p with
    | nil => intro _ h; exact absurd rfl h
    | cons n p ih =>
      intro o _
      cases p with
      | nil => exact ⟨_, rfl⟩
      | cons m p => exact ih _ (by simp)
  exact this p none (by rintro rfl; cases h)

/-- **C99** (partial: simulations whose states all have the same number of entries). For any two states at the same time, of the given simulations, after the
same sequence of modes, `sim_traces_to_diameters` has an entry that is at least their distance. -/
theorem C99_sim_partial (hash : String → Int) (sims : List (RTree (FNode K))) (N : Nat) (hN : ∀ sim ∈ sims, ∀ p, Path sim p → ∀ t s, StateAt p t s → s.length = N)
    (h : List (Dict String (List String))) (t : K) (s s' : List K) (hs : Group sims h t s) (hs' : Group sims h t s') : ∃ d ∈ simDiameters hash sims, dist s s' ≤ d := by
  obtain ⟨sim, h1, p, h2, h3, h4⟩ := hs
  obtain ⟨sim', h1', p', h2', h3', h4'⟩ := hs'
  obtain ⟨k, hk⟩ := keyOf_some hash h2
  have hk' : keyOf hash p' = some k := by rw [← hk]; exact keyOf_history hash (by rw [h3, h3'])
  obtain ⟨-, g⟩ := groups_spec hash sims
  have m1 := (g k t s).2 ⟨sim, h1, p, h2, hk, h4⟩
  have m2 := (g k t s').2 ⟨sim', h1', p', h2', hk', h4'⟩
  obtain ⟨lo, hi, ⟨b, -⟩, e⟩ := spread_spec (statesIn (groups hash sims) k t) N (List.ne_nil_of_mem m1) (by
    intro u hu
    obtain ⟨sim, a1, p, a2, -, a3⟩ := (g k t u).1 hu
    exact hN sim a1 p a2 t u a3)
  refine ⟨_, (mem_diameters hash sims _).2 ⟨k, t, List.ne_nil_of_mem m1, rfl⟩, ?_⟩
  rw [e]
  exact dist_le (b s m1).1 (b s m1).2 (b s' m2).1 (b s' m2).2

theorem hull_unique {S : List K → Prop} {lo hi lo' hi' : List K} (hne : ∃ s, S s) (h : Hull S lo hi) (h' : Hull S lo' hi') : lo = lo' ∧ hi = hi' := by
  obtain ⟨s, hs⟩ := hne
  have at_le : ∀ {a b : List K} (i : Nat) (x y : K), List.Forall₂ (· ≤ ·) a b → a[i]? = some x → b[i]? = some y → x ≤ y := by
    intro a b i x y hab
    induction hab generalizing i with
    | nil => simp
    | cons h _ ih => cases i with
      | zero => intro e1 e2; cases e1; cases e2; exact h
      | succ i => exact ih i
  constructor
  · refine List.ext_getElem? fun i => ?_
    have l1 := (h.1 s hs).1.length_eq
    have l2 := (h'.1 s hs).1.length_eq
    by_cases hi : i < lo.length
    · have e1 := List.getElem?_eq_getElem hi
      have e2 := List.getElem?_eq_getElem (show i < lo'.length by omega)
      obtain ⟨u, hu, eu⟩ := h.2.1 i _ e1
      obtain ⟨v, hv, ev⟩ := h'.2.1 i _ e2
      rw [e1, e2]
      congr 1
      exact le_antisymm (at_le i _ _ (h.1 v hv).1 e1 ev) (at_le i _ _ (h'.1 u hu).1 e2 eu)
    · rw [List.getElem?_eq_none (by omega), List.getElem?_eq_none (by omega)]
  · refine List.ext_getElem? fun i => ?_
    have l1 := (h.1 s hs).2.length_eq
    have l2 := (h'.1 s hs).2.length_eq
    by_cases hl : i < hi.length
    · have e1 := List.getElem?_eq_getElem hl
      have e2 := List.getElem?_eq_getElem (show i < hi'.length by omega)
      obtain ⟨u, hu, eu⟩ := h.2.2 i _ e1
      obtain ⟨v, hv, ev⟩ := h'.2.2 i _ e2
      rw [e1, e2]
      congr 1
      exact le_antisymm (at_le i _ _ (h'.1 u hu).2 eu e2) (at_le i _ _ (h.1 v hv).2 ev e1)
    · rw [List.getElem?_eq_none (by omega), List.getElem?_eq_none (by omega)]

/-- **C99** (partial: also, different sequences of modes get different keys). The entries of `sim_traces_to_diameters` are exactly the sizes of the smallest
rectangles around the states at one time after one sequence of modes. -/
theorem C99_sim_exact_partial (hash : String → Int) (sims : List (RTree (FNode K))) (N : Nat) (hN : ∀ sim ∈ sims, ∀ p, Path sim p → ∀ t s, StateAt p t s → s.length = N)
    (hinj : ∀ sim ∈ sims, ∀ sim' ∈ sims, ∀ p p', Path sim p → Path sim' p' → keyOf hash p = keyOf hash p' → history p = history p') (d : K) :
    d ∈ simDiameters hash sims ↔ ∃ h t, (∃ s, Group sims h t s) ∧ ∃ lo hi, Hull (Group sims h t) lo hi ∧ d = dist lo hi := by
  obtain ⟨-, g⟩ := groups_spec hash sims
  have same : ∀ k t h sim p, sim ∈ sims → Path sim p → keyOf hash p = some k → history p = h → ∀ s, s ∈ statesIn (groups hash sims) k t ↔ Group sims h t s := by
    intro k t h sim p a1 a2 a3 a4 s
    rw [g]
    constructor
    · rintro ⟨sim', b1, p', b2, b3, b4⟩
      exact ⟨sim', b1, p', b2, (hinj sim' b1 sim a1 p' p b2 a2 (by rw [b3, a3])).trans a4, b4⟩
    · rintro ⟨sim', b1, p', b2, b3, b4⟩
      exact ⟨sim', b1, p', b2, by rw [← a3]; exact keyOf_history hash (b3.trans a4.symm), b4⟩
  have hull : ∀ {S S' : List K → Prop} {lo hi : List K}, (∀ s, S s ↔ S' s) → Hull S lo hi → Hull S' lo hi := by
    intro S S' lo hi e
    have : S = S' := funext fun s => propext (e s)
    rw [this]
    exact id
  have spec : ∀ k t, statesIn (groups hash sims) k t ≠ [] → ∃ lo hi, Hull (· ∈ statesIn (groups hash sims) k t) lo hi ∧ spread (statesIn (groups hash sims) k t) = dist lo hi := by
    intro k t hne
    refine spread_spec _ N hne ?_
    intro u hu
    obtain ⟨sim, a1, p, a2, -, a3⟩ := (g k t u).1 hu
    exact hN sim a1 p a2 t u a3
  rw [mem_diameters]
  constructor
  · rintro ⟨k, t, hne, rfl⟩
    obtain ⟨s, hs⟩ := List.exists_mem_of_ne_nil _ hne
    obtain ⟨sim, a1, p, a2, a3, a4⟩ := (g k t s).1 hs
    obtain ⟨lo, hi, h1, h2⟩ := spec k t hne
    exact ⟨history p, t, ⟨s, sim, a1, p, a2, rfl, a4⟩, lo, hi, hull (same k t _ sim p a1 a2 a3 rfl) h1, h2⟩
  · rintro ⟨h, t, ⟨s, sim, a1, p, a2, a3, a4⟩, lo, hi, h1, rfl⟩
    obtain ⟨k, hk⟩ := keyOf_some hash a2
    have hm := (same k t h sim p a1 a2 hk a3 s).2 ⟨sim, a1, p, a2, a3, a4⟩
    refine ⟨k, t, List.ne_nil_of_mem hm, ?_⟩
    obtain ⟨lo', hi', h3, h4⟩ := spec k t (List.ne_nil_of_mem hm)
    obtain ⟨e1, e2⟩ := hull_unique ⟨s, sim, a1, p, a2, a3, a4⟩ h1 (hull (same k t h sim p a1 a2 hk a3) h3)
    rw [h4, e1, e2]

end

/-! ### Cases -/

namespace DiamsEx

def node (mode : List String) (rows : List (Row ℚ)) : FNode ℚ := ⟨["a"], [("a", mode)], [("a", rows)]⟩

/-- One step in mode `M`, then two branches. -/
def tree : RTree (FNode ℚ) := .node (node ["M"] [(0, [0]), (1, [2])]) [.node (node ["L"] [(1, [0]), (2, [0])]) [], .node (node ["R"] [(1, [10]), (2, [10])]) []]

theorem nodes_tree : nodesOf tree = [node ["M"] [(0, [0]), (1, [2])], node ["L"] [(1, [0]), (2, [0])], node ["R"] [(1, [10]), (2, [10])]] := rfl

theorem good : Good tree ["a"] (fun _ => 1) (fun _ => 1) where
  agents_eq := rfl
  nonempty := by simp
  nodup := by simp
  trace := by
    simp only [nodes_tree, List.mem_cons, List.not_mem_nil, or_false, forall_eq, forall_eq_or_imp]
    refine ⟨⟨_, rfl, ?_⟩, ⟨_, rfl, ?_⟩, ⟨_, rfl, ?_⟩⟩ <;> simp [pairs]
  mode := by
    simp only [nodes_tree, List.mem_cons, List.not_mem_nil, or_false, forall_eq, forall_eq_or_imp]
    exact ⟨⟨["M"], rfl, rfl, by decide⟩, ⟨["L"], rfl, rfl, by decide⟩, ⟨["R"], rfl, rfl, by decide⟩⟩
  aligned := by
    simp only [List.mem_cons, List.not_mem_nil, or_false]
    rintro n - a rfl b rfl
    rfl

theorem stepped : Stepped tree ["a"] 1 where
  times := by
    have e1 : rects (node ["M"] [(0, [0]), (1, [2])]) "a" = [((0, [0]), (1, [2]))] := rfl
    have e2 : rects (node ["L"] [(1, [0]), (2, [0])]) "a" = [((1, [0]), (2, [0]))] := rfl
    have e3 : rects (node ["R"] [(1, [10]), (2, [10])]) "a" = [((1, [10]), (2, [10]))] := rfl
    simp only [nodes_tree, List.mem_cons, List.not_mem_nil, or_false, forall_eq, forall_eq_or_imp, e1, e2, e3]
    exact ⟨⟨0, by norm_num⟩, ⟨1, by norm_num⟩, ⟨1, by norm_num⟩⟩
  once := by
    have e1 : rects (node ["M"] [(0, [0]), (1, [2])]) "a" = [((0, [0]), (1, [2]))] := rfl
    have e2 : rects (node ["L"] [(1, [0]), (2, [0])]) "a" = [((1, [0]), (2, [0]))] := rfl
    have e3 : rects (node ["R"] [(1, [10]), (2, [10])]) "a" = [((1, [10]), (2, [10]))] := rfl
    simp only [nodes_tree, List.mem_cons, List.not_mem_nil, or_false, forall_eq, forall_eq_or_imp, e1, e2, e3]
    simp
  proper := by
    have e1 : rects (node ["M"] [(0, [0]), (1, [2])]) "a" = [((0, [0]), (1, [2]))] := rfl
    have e2 : rects (node ["L"] [(1, [0]), (2, [0])]) "a" = [((1, [0]), (2, [0]))] := rfl
    have e3 : rects (node ["R"] [(1, [10]), (2, [10])]) "a" = [((1, [10]), (2, [10]))] := rfl
    simp only [nodes_tree, List.mem_cons, List.not_mem_nil, or_false, forall_eq, forall_eq_or_imp, e1, e2, e3]
    simp

theorem allNodes_tree : (allNodes tree).map RTree.label = [node ["M"] [(0, [0]), (1, [2])], node ["L"] [(1, [0]), (2, [0])], node ["R"] [(1, [10]), (2, [10])]] := by
  unfold allNodes tree
  simp only [Verif.ATree.bfs_cons, Verif.ATree.bfs_nil, RTree.kids, RTree.label, List.nil_append, List.append_nil, List.cons_append, List.map_cons, List.map_nil]

theorem diameters_tree : rectDiameters tree 2 1 = .ok [2, 0] := by
  have h2 : ⌊(2 : ℚ) / 1⌋.toNat = 2 := by norm_num; rfl
  unfold rectDiameters windowDiam reachAt
  simp only
  unfold collect
  rw [allNodes_tree, h2]
  decide +kernel

/-- The hypotheses of `C99_rect_partial` are met. -/
example : ∃ f : Nat → Option ℚ, rectDiameters tree 2 1 = .ok ((List.range 2).filterMap f) := by
  obtain ⟨f, h, -⟩ := C99_rect_partial tree ["a"] _ _ good 1 (by norm_num) stepped 2 2 (by norm_num)
  exact ⟨f, h⟩

/-- Two simulations in modes `M`, then `N`. -/
def sim (x : ℚ) : RTree (FNode ℚ) := .node (node ["M"] [(0, [x]), (1, [2 * x])]) [.node (node ["N"] [(1, [2 * x]), (2, [x])]) []]

theorem paths_sim (x : ℚ) (p : List (FNode ℚ)) (h : Path (sim x) p) :
    p = [node ["M"] [(0, [x]), (1, [2 * x])]] ∨ p = [node ["M"] [(0, [x]), (1, [2 * x])], node ["N"] [(1, [2 * x]), (2, [x])]] := by
  unfold sim at h
  cases h with
  | here => exact Or.inl rfl
  | step _ _ c p hc h =>
    simp only [List.mem_singleton] at hc
    subst hc
    cases h with
    | here => exact Or.inr rfl
    | step _ _ c p hc h => simp at hc

theorem dims (xs : List ℚ) : ∀ s ∈ xs.map sim, ∀ p, Path s p → ∀ (t : ℚ) (st : List ℚ), StateAt p t st → st.length = 1 := by
  intro s hs p hp t st h
  obtain ⟨x, -, rfl⟩ := List.mem_map.1 hs
  have key : ∀ (m : List String) (a b : ℚ × List ℚ), a.1 ≠ b.1 → a.2.length = 1 → b.2.length = 1 → ∀ n, n = node m [a, b] → ((∃ tr ∈ n.trace, ∃ r ∈ tr.2, r.1 = t) ∧
      st = n.trace.flatMap fun tr => (tr.2.filter fun r => decide (r.1 = t)).flatMap Prod.snd) → st.length = 1 := by
    rintro m a b hab ha hb n rfl ⟨⟨tr, htr, r, hr, e⟩, rfl⟩
    simp only [node, List.mem_singleton] at htr
    subst htr
    simp only [List.mem_cons, List.not_mem_nil, or_false] at hr
    rcases hr with rfl | rfl
    · have h2 : ¬ b.1 = t := fun h => hab (e.trans h.symm)
      simp [node, e, h2, ha]
    · have h2 : ¬ a.1 = t := fun h => hab (h.trans e.symm)
      simp [node, e, h2, hb]
  obtain ⟨n, hn, h⟩ := h
  rcases paths_sim x p hp with rfl | rfl
  · exact key ["M"] (0, [x]) (1, [2 * x]) (by norm_num) rfl rfl n (Option.some.inj hn).symm h
  · exact key ["N"] (1, [2 * x]) (2, [x]) (by norm_num) rfl rfl n (Option.some.inj hn).symm h

/-- The hypotheses of `C99_sim_partial` and `C99_sim_exact_partial` are met, by two simulations from 0 and from 3. -/
example : (∀ s ∈ [(0 : ℚ), 3].map sim, ∀ p, Path s p → ∀ (t : ℚ) (st : List ℚ), StateAt p t st → st.length = 1) ∧
    (∀ s ∈ [(0 : ℚ), 3].map sim, ∀ s' ∈ [(0 : ℚ), 3].map sim, ∀ p p', Path s p → Path s' p' →
      keyOf (fun s => (s.length : Int)) p = keyOf (fun s => (s.length : Int)) p' → history p = history p') ∧
    Group ([(0 : ℚ), 3].map sim) [[("a", ["M"])], [("a", ["N"])]] 1 [0] ∧ Group ([(0 : ℚ), 3].map sim) [[("a", ["M"])], [("a", ["N"])]] 1 [6] := by
  refine ⟨dims _, ?_, ⟨sim 0, by simp, _, .step _ _ _ _ List.mem_cons_self (.here _ _), rfl, _, rfl, ?_, ?_⟩, ⟨sim 3, by simp, _, .step _ _ _ _ List.mem_cons_self (.here _ _), rfl, _, rfl, ?_, ?_⟩⟩
  · intro s hs s' hs' p p' hp hp' hk
    obtain ⟨x, -, rfl⟩ := List.mem_map.1 hs
    obtain ⟨x', -, rfl⟩ := List.mem_map.1 hs'
    have k1 : ∀ x : ℚ, keyOf (fun s => (s.length : Int)) [node ["M"] [(0, [x]), (1, [2 * x])]] = some 5 := by
      intro x
      show some (histKey (fun s => (s.length : Int)) none _) = _
      exact congrArg some (show ((histText none ++ " | ".intercalate ["M"]).length : Int) = 5 by decide +kernel)
    have k2 : ∀ x : ℚ, keyOf (fun s => (s.length : Int)) [node ["M"] [(0, [x]), (1, [2 * x])], node ["N"] [(1, [2 * x]), (2, [x])]] = some 2 := by
      intro x
      have := k1 x
      show some (histKey (fun s => (s.length : Int)) (keyOf (fun s => (s.length : Int)) [node ["M"] [(0, [x]), (1, [2 * x])]]) _) = _
      rw [this]
      exact congrArg some (show ((histText (some 5) ++ " | ".intercalate ["N"]).length : Int) = 2 by decide +kernel)
    rcases paths_sim x p hp with rfl | rfl <;> rcases paths_sim x' p' hp' with rfl | rfl
    · rfl
    · rw [k1, k2] at hk; simp at hk
    · rw [k1, k2] at hk; simp at hk
    · rfl
  · exact ⟨_, List.mem_cons_self, _, List.mem_cons_self, rfl⟩
  · decide +kernel
  · exact ⟨_, List.mem_cons_self, _, List.mem_cons_self, rfl⟩
  · decide +kernel

end DiamsEx

open DiamsEx

/-- **C99** is violated for states in different nodes: at the second step the two branches are at distance 10, but the diameter is given as 0. -/
theorem C99_branches_violated : rectDiameters tree 2 1 = .ok [2, 0] ∧ (∃ n ∈ nodesOf tree, InStep ["a"] 1 1 n [[0]]) ∧ (∃ n ∈ nodesOf tree, InStep ["a"] 1 1 n [[10]]) ∧
    dist [(0 : ℚ)] [10] = 10 := by
  refine ⟨diameters_tree, ?_, ?_, ?_⟩
  · refine ⟨node ["L"] [(1, [0]), (2, [0])], by rw [nodes_tree]; simp, .cons ⟨((1, [0]), (2, [0])), ?_, by norm_num, by norm_num, ?_, ?_⟩ .nil⟩
    · exact List.mem_cons_self
    · simp
    · simp
  · refine ⟨node ["R"] [(1, [10]), (2, [10])], by rw [nodes_tree]; simp, .cons ⟨((1, [10]), (2, [10])), ?_, by norm_num, by norm_num, ?_, ?_⟩ .nil⟩
    · exact List.mem_cons_self
    · simp
    · simp
  · simp [dist]

theorem walk_leaf (hash : String → Int) (n : FNode ℚ) (gs : Groups ℚ) : walk hash [(.node n [], none)] gs = visit gs n (histKey hash none n) := by
  rw [walk]
  show walk hash [] _ = _
  rw [walk]
  rfl

/-- **C99** is violated for different modes: the texts of the modes are joined without a separator, so that the states in modes (`AB`, `C`) and (`A`, `BC`)
are taken together, for every hash function. -/
theorem C99_modes_violated (hash : String → Int) :
    simDiameters hash [.node (node ["AB", "C"] [(0, [0])]) [], .node (node ["A", "BC"] [(0, [10])]) []] = [10] ∧
      history [node ["AB", "C"] [(0, [0])]] ≠ history [node ["A", "BC"] [(0, [10])]] := by
  constructor
  · have e : histKey hash none (node ["AB", "C"] [(0, [0])]) = histKey hash none (node ["A", "BC"] [(0, [10])]) := by
      unfold histKey
      rw [show modeText (node ["AB", "C"] [(0, [0])]) = modeText (node ["A", "BC"] [(0, [10])]) from by decide +kernel]
    unfold simDiameters groups
    simp only [List.foldl_cons, List.foldl_nil, walk_leaf, e]
    generalize histKey hash none (node ["A", "BC"] [(0, [10])]) = k
    have c1 : composeNode (node ["AB", "C"] [(0, [0])]) = [(0, [0])] := by decide +kernel
    have c2 : composeNode (node ["A", "BC"] [(0, [10])]) = [(0, [10])] := by decide +kernel
    unfold visit
    rw [c1, c2]
    simp only [Dict.get?_nil, Option.getD_none, Dict.set, Dict.get?_cons, if_true, Option.getD_some, List.flatMap_cons, List.flatMap_nil]
    decide +kernel
  · decide +kernel

/-- **C99** is violated when the states have different numbers of entries: those with fewer entries are left out, and their distance 10 is not reported. -/
theorem C99_dims_violated (hash : String → Int) :
    simDiameters hash [.node (node ["M"] [(0, [0])]) [], .node (node ["M"] [(0, [10])]) [], .node (node ["M"] [(0, [1, 1])]) []] = [0] ∧
      dist [(0 : ℚ)] [10] = 10 := by
  constructor
  · have e1 : histKey hash none (node ["M"] [(0, [10])]) = histKey hash none (node ["M"] [(0, [0])]) := rfl
    have e2 : histKey hash none (node ["M"] [(0, [1, 1])]) = histKey hash none (node ["M"] [(0, [0])]) := rfl
    unfold simDiameters groups
    simp only [List.foldl_cons, List.foldl_nil, walk_leaf, e1, e2]
    generalize histKey hash none (node ["M"] [(0, [0])]) = k
    have c1 : composeNode (node ["M"] [(0, [0])]) = [(0, [0])] := by decide +kernel
    have c2 : composeNode (node ["M"] [(0, [10])]) = [(0, [10])] := by decide +kernel
    have c3 : composeNode (node ["M"] [(0, [1, 1])]) = [(0, [1, 1])] := by decide +kernel
    unfold visit
    rw [c1, c2, c3]
    simp only [Dict.get?_nil, Option.getD_none, Dict.set, Dict.get?_cons, if_true, Option.getD_some, List.flatMap_cons, List.flatMap_nil]
    decide +kernel
  · simp [dist]

end Verif.Props
