import Verif.Proofs.ATree2

/-! # C09, C10, C12: analysis trees -/

set_option autoImplicit false

namespace Verif.Props
open Verif.Spec Verif.ATree

variable {D : Type}

/-! ## C09 -/

/-- `nodes` contains every node of the tree exactly once (it is a permutation of the preorder list of nodes), and the
children of a node come after it. -/
theorem C09_nodes (t : RTree D) : (allNodes t).Perm (RTree.subs t) ∧
    ∀ l1 u l2 c, allNodes t = l1 ++ u :: l2 → c ∈ u.kids → c ∈ l2 := by
  refine ⟨?_, bfs_parents [t]⟩
  have := bfs_perm [t]
  simpa [RTree.subsL, allNodes] using this

/-- The preorder list is what it should be: its members are the trees below the root. -/
theorem C09_subs_are_nodes (t u : RTree D) : u ∈ RTree.subs t ↔ ∃ k, RTree.Below t u k := below_iff_mem_subs.symm

/-- `leaves` is the number of nodes without children; `get_leaf_nodes` lists them, from left to right. -/
theorem C09_leaves (t : RTree D) :
    leafNodes t = (RTree.subs t).filter (fun n => decide (n.kids = [])) ∧ leaves t = (leafNodes t).length := by
  have h : leafNodes t = (RTree.subs t).filter (fun n => decide (n.kids = [])) := by
    unfold leafNodes; rw [collectLeaves_eq]; simp
  refine ⟨h, ?_⟩
  unfold leaves
  rw [foldl_count, h, Nat.zero_add]
  exact ((C09_nodes t).1.filter _).length_eq

/-- `height` is the number of nodes on a longest path from the root to a leaf. -/
theorem C09_height (t : RTree D) :
    (∀ u k, RTree.Below t u k → k + 1 ≤ height t) ∧ ∃ u k, RTree.Below t u k ∧ u.kids = [] ∧ height t = k + 1 := by
  refine ⟨fun u k h => height_upper h, ?_⟩
  obtain ⟨u, k, h1, h2, h3⟩ := height_attained t
  exact ⟨u, k, h1, h3, h2.symm⟩

/-- a tree with three levels -/
example : (allNodes (RTree.node 0 [.node 1 [.node 3 []], .node (2 : Nat) []])).map RTree.label = [0, 1, 2, 3] ∧
    (leafNodes (RTree.node 0 [.node 1 [.node 3 []], .node (2 : Nat) []])).map RTree.label = [3, 2] ∧
    height (RTree.node 0 [.node 1 [.node 3 []], .node (2 : Nat) []]) = 3 := by
  refine ⟨?_, ?_, ?_⟩
  · simp [allNodes, bfs, RTree.kids, RTree.label]
  · rfl
  · rfl

/-! ## C10 -/

variable {J : Type}

/-- Same node, as Python compares them: equal attributes, `trace` dictionaries equal as dictionaries. -/
def SameNode (a b : Node J) : Prop :=
  { a with trace := [] } = { b with trace := [] } ∧ ∀ k, Dict.get? a.trace k = Dict.get? b.trace k

/-- The node's start time is already rounded, and a simulation node has a trace for exactly its agents. -/
structure Loadable (R : Rounding) (n : Node J) : Prop where
  rounded : R.round n.ndigits n.start = n.start
  traced  : n.ntype = .sim → ∀ a, (Dict.get? n.trace a).isSome ↔ a ∈ n.agent.map Prod.fst
  names   : (n.agent.map Prod.fst).Nodup

/-- Dumping a tree with distinct ids and root id 0 whose nodes are loadable, and loading it again, gives a tree of the same
shape, with the same order of children, whose nodes are the same. (`agent` objects are replaced by their type names.) Missing
for the full claim: simulation nodes without a complete trace (`C10_load_unexpanded_violated`) and trees with repeated ids
(`C10_simulate_simple_violated`). -/
theorem C10_roundtrip_partial (R : Rounding) (t : RTree (Node J)) (h0 : t.label.id = 0)
    (hids : (t.flatten.map Node.id).Nodup) (hl : ∀ n ∈ t.flatten, Loadable R n) :
    ∃ data, dump t = some data ∧ ∃ N, ∀ fuel, N ≤ fuel → ∃ heap f, load R data fuel = some (.ok heap) ∧
      HeapTree heap 0 (t.map f) ∧ ∀ n ∈ t.flatten, SameNode (f n) n := by
  have hfl : ∀ t : RTree (Node J), t.flatten = (RTree.subs t).map RTree.label := by
    have hfl' : ∀ n (t : RTree (Node J)), size t ≤ n → t.flatten = (RTree.subs t).map RTree.label := by
      intro n
      induction n with
      | zero => intro t ht; rw [size_eq] at ht; omega
      | succ n ih =>
        intro t ht
        cases t with
        | node d ts =>
          rw [RTree.flatten, RTree.subs, List.map_cons]
          congr 1
          have hs : sizeL ts ≤ n := by rw [size] at ht; omega
          clear ht
          induction ts with
          | nil => rfl
          | cons x xs ihx =>
            simp only [sizeL] at hs
            rw [RTree.flattenL, RTree.subsL, List.map_append, ih x (by omega), ihx (by omega)]
    exact fun t => hfl' _ t (Nat.le_refl _)
  have hids' : ((RTree.subs t).map tid).Nodup := by
    rw [hfl, List.map_map] at hids; exact hids
  obtain ⟨data, hd, hdata⟩ := dump_spec t hids'
  -- the function that `_from_dict` applies to a loadable node
  let f : Node J → Node J := fun n => match fromDict R ⟨n, none, []⟩ with
    | .ok n' => n'
    | .error _ => n
  have hind : ∀ (n : Node J) (p p' : Option Int) (c c' : List Int), fromDict R ⟨n, p, c⟩ = fromDict R ⟨n, p', c'⟩ :=
    fun n p p' c c' => rfl
  have hf : ∀ n ∈ t.flatten, fromDict R ⟨n, none, []⟩ = .ok (f n) ∧ SameNode (f n) n := by
    intro n hn
    have hln := hl n hn
    have : ∃ n', fromDict R ⟨n, none, []⟩ = .ok n' ∧ SameNode n' n := by
      unfold fromDict
      cases ht : n.ntype with
      | reach =>
        refine ⟨_, rfl, ?_, fun _ => rfl⟩
        simp only; rw [hln.rounded]
      | sim =>
        have hex : ∃ tr, (n.agent.mapM (fun (a : String × String) => match Dict.get? n.trace a.1 with
            | some v => Except.ok (a.1, v)
            | none => Except.error Err.keyError)) = .ok tr ∧ ∀ k, Dict.get? tr k = Dict.get? n.trace k := by
          have hall : ∀ a ∈ n.agent.map Prod.fst, (Dict.get? n.trace a).isSome := fun a ha => (hln.traced ht a).2 ha
          have hnone : ∀ a, a ∉ n.agent.map Prod.fst → Dict.get? n.trace a = none := by
            intro a ha
            cases hg : Dict.get? n.trace a with
            | none => rfl
            | some v => exact absurd ((hln.traced ht a).1 (by rw [hg]; rfl)) ha
          have key : ∀ (l : Dict String String), (l.map Prod.fst).Nodup → (∀ a ∈ l.map Prod.fst, (Dict.get? n.trace a).isSome) →
              ∃ tr, (l.mapM (fun (a : String × String) => match Dict.get? n.trace a.1 with
                | some v => Except.ok (a.1, v)
                | none => Except.error Err.keyError)) = .ok tr ∧
                ∀ k, Dict.get? tr k = if k ∈ l.map Prod.fst then Dict.get? n.trace k else none := by
            intro l
            induction l with
            | nil => intro _ _; exact ⟨[], rfl, by simp⟩
            | cons x l ih =>
              intro hnd hs
              simp only [List.map_cons, List.nodup_cons] at hnd
              obtain ⟨tr, h1, h2⟩ := ih hnd.2 (fun a ha => hs a (by simp [ha]))
              obtain ⟨v, hv⟩ := Option.isSome_iff_exists.1 (hs x.1 (by simp))
              refine ⟨(x.1, v) :: tr, ?_, ?_⟩
              · rw [mapM_ok_iff] at h1 ⊢
                refine .cons ?_ h1
                rw [hv]
              · intro k
                rw [Dict.get?_cons, h2]
                by_cases hk : x.1 = k
                · subst hk; simp [hv]
                · have : k ≠ x.1 := fun h => hk h.symm
                  rw [if_neg hk]
                  simp only [List.map_cons, List.mem_cons, this, false_or]
          obtain ⟨tr, h1, h2⟩ := key n.agent hln.names hall
          refine ⟨tr, h1, ?_⟩
          intro k
          rw [h2]
          split
          · rfl
          · rename_i hk; exact (hnone k hk).symm
        obtain ⟨tr, h1, h2⟩ := hex
        refine ⟨{ n with start := R.round n.ndigits n.start, trace := tr }, ?_, ?_, h2⟩
        · exact (map_ok_iff _ _ _).2 ⟨tr, h1, rfl⟩
        · simp only; rw [hln.rounded]
    obtain ⟨n', h1, h2⟩ := this
    have : f n = n' := by simp only [f, h1]
    rw [this]; exact ⟨h1, h2⟩
  refine ⟨data, hd, sizeL [t], fun fuel hfuel => ?_⟩
  have hroot : t.label ∈ t.flatten := by rw [hfl]; exact List.mem_map_of_mem (mem_subs_self t)
  obtain ⟨par0, hpar0⟩ := hdata t (mem_subs_self t)
  have htid : tid t = 0 := h0
  rw [htid] at hpar0
  obtain ⟨heap, g1, g2, _⟩ := loadLoop_spec R data f [t] [(f t.label, [])] [(⟨t.label, par0, t.kids.map tid⟩, 0)] fuel hfuel
    (by
      intro u hu
      have hu' : u ∈ RTree.subs t := by simpa [RTree.subsL] using hu
      obtain ⟨par, hpar⟩ := hdata u hu'
      refine ⟨_, hpar, rfl, rfl, ?_⟩
      rw [hind _ par none _ []]
      exact (hf u.label (by rw [hfl]; exact List.mem_map_of_mem hu')).1)
    (.cons ⟨rfl, rfl⟩ .nil) (by simp)
  refine ⟨heap, f, ?_, ?_, fun n hn => (hf n hn).2⟩
  · unfold load
    rw [hpar0]
    simp only
    rw [hind _ par0 none _ [], (hf _ hroot).1]
    exact g1
  · cases g2 with
    | cons a _ => exact a

namespace TreeWitness

/-- JSON values: strings suffice -/
def mk (id : Int) (height : Nat) (start : ℚ) (trace : Dict String String) : Node String :=
  { id := id, agent := [("A", "CarAgent"), ("B", "CarAgent")], init := "i", mode := "m", static := "s", uncertain := "u",
    hits := "{}", height := height, start := start, trace := trace, ntype := .sim, ndigits := 10 }

def exact : Rounding := ⟨fun _ x => x⟩

/-- a simulation tree whose second node was not expanded: only the trace of the agent that did not switch is there -/
def cut : RTree (Node String) := .node (mk 0 0 0 [("A", "t0"), ("B", "t1")]) [.node (mk 1 1 4 [("B", "t2")]) []]

/-- a tree as `simulate_simple` builds it: all ids but the root's are `-1` -/
def simple : RTree (Node String) :=
  .node (mk 0 0 0 [("A", "a"), ("B", "b")]) [.node (mk (-1) 1 1 [("A", "a"), ("B", "b")]) [.node (mk (-1) 2 2 [("A", "a"), ("B", "b")]) []]]

def full : RTree (Node String) :=
  .node (mk 0 0 0 [("A", "t0"), ("B", "t1")]) [.node (mk 1 1 4 [("B", "t2"), ("A", "t3")]) [], .node (mk 2 1 4 [("A", "t4"), ("B", "t5")]) []]

end TreeWitness
open TreeWitness

/-- The hypotheses of `C10_roundtrip_partial` are met by a tree with three nodes. -/
example : full.label.id = 0 ∧ (full.flatten.map Node.id).Nodup ∧ ∀ n ∈ full.flatten, Loadable exact n := by
  refine ⟨rfl, by decide, ?_⟩
  intro n hn
  simp [full, RTree.flatten, RTree.flattenL] at hn
  rcases hn with rfl | rfl | rfl
  all_goals
    refine ⟨rfl, ?_, by simp [mk]⟩
    intro _ a
    rw [Dict.isSome_get?_iff]; simp [mk, or_comm]

/-- **Violation of C10.** `simulate` leaves nodes at the height limit or at the horizon without traces for the agents that
just switched; `load` of such a dump raises `KeyError`. -/
theorem C10_load_unexpanded_violated : ∃ data, dump cut = some data ∧ ∀ fuel, 0 < fuel → load exact data fuel = some (.error .keyError) := by
  refine ⟨[(0, ⟨mk 0 0 0 [("A", "t0"), ("B", "t1")], none, [1]⟩), (1, ⟨mk 1 1 4 [("B", "t2")], some 0, []⟩)], ?_, ?_⟩
  · simp [dump, dumpLoop, dumpKids, cut, RTree.label, RTree.kids, mk, toDict, Dict.set, Dict.get?]
  · intro fuel hf
    cases fuel with
    | zero => omega
    | succ n => rfl

/-- **Violation of C10.** All nodes made by `simulate_simple` except the root have the id `-1`, so the dump of a tree with
a grandchild refers to itself and `load` never returns. -/
theorem C10_simulate_simple_violated : ∃ data, dump simple = some data ∧ ∀ fuel, load exact data fuel = none := by
  refine ⟨[(0, ⟨mk 0 0 0 [("A", "a"), ("B", "b")], none, [-1]⟩), (-1, ⟨mk (-1) 2 2 [("A", "a"), ("B", "b")], some (-1), [-1]⟩)], ?_, ?_⟩
  · simp [dump, dumpLoop, dumpKids, simple, RTree.label, RTree.kids, mk, toDict, Dict.set, Dict.get?]
  · have key : ∀ (fuel : Nat) (h : Heap String) (r : Nat), loadLoop exact
        [(0, ⟨mk 0 0 0 [("A", "a"), ("B", "b")], none, [-1]⟩), (-1, ⟨mk (-1) 2 2 [("A", "a"), ("B", "b")], some (-1), [-1]⟩)] fuel h
        [(⟨mk (-1) 2 2 [("A", "a"), ("B", "b")], some (-1), [-1]⟩, r)] = none := by
      intro fuel
      induction fuel with
      | zero => intro h r; rfl
      | succ n ih => intro h r; exact ih _ _
    intro fuel
    cases fuel with
    | zero => rfl
    | succ n => exact key n _ _

/-! ## C12 -/

variable {M : Type} [DecidableEq M]

/-- Across the edge from `u` to its child `c` the mode of agent `a` changes. -/
def ModeChange (u c : RTree (FT M)) (a : String) : Prop :=
  c ∈ u.kids ∧ a ∈ u.label.agents ∧ ∃ m m', Dict.get? u.label.mode a = some m ∧ Dict.get? c.label.mode a = some m' ∧ m ≠ m'

/-- `first_transitions` has an entry for exactly the agents whose mode changes across some edge, and the entry is the start
time of the child of such an edge at minimal depth. (That it is the earliest start time fails:
`C12_not_earliest_violated`.) -/
theorem C12_first_transitions_partial (t : RTree (FT M)) (d : Dict String ℚ) (h : firstTransitions t = some d) (a : String) :
    ((Dict.get? d a).isSome ↔ ∃ u k c, RTree.Below t u k ∧ ModeChange u c a) ∧
    ∀ τ, Dict.get? d a = some τ → ∃ u k c, RTree.Below t u k ∧ ModeChange u c a ∧ τ = c.label.start ∧
      ∀ u' k' c', RTree.Below t u' k' → ModeChange u' c' a → k ≤ k' := by
  obtain ⟨l, l1, l2, l3, _, l5⟩ := bfs_depths [t] [(t, 0)] rfl (by simp) (by simp)
  have h3 : ∀ x ∈ l, RTree.Below t x.1 x.2 := by
    intro x hx
    obtain ⟨r, hr, k, hk, he⟩ := l3 x hx
    simp only [List.mem_singleton] at hr
    subst hr
    simp only [Nat.zero_add] at he
    rw [he]; exact hk
  have h5 : ∀ u k, RTree.Below t u k → (u, k) ∈ l := by
    intro u k hk
    have := l5 (t, 0) (by simp) u k hk
    simpa using this
  -- all edges in the order in which they are visited, with depth
  let es : List (Nat × RTree (FT M) × RTree (FT M) × String) :=
    l.flatMap (fun x => x.1.kids.flatMap (fun c => x.1.label.agents.map (fun a => (x.2, x.1, c, a))))
  have hmem : ∀ k u c a, (k, u, c, a) ∈ es ↔ (u, k) ∈ l ∧ c ∈ u.kids ∧ a ∈ u.label.agents := by
    intro k u c a
    simp only [es, List.mem_flatMap, List.mem_map, Prod.mk.injEq, Prod.exists]
    constructor
    · rintro ⟨u', k', h1, c', h2, a', h3, rfl, rfl, rfl, rfl⟩; exact ⟨h1, h2, h3⟩
    · rintro ⟨h1, h2, h3⟩; exact ⟨u, k, h1, c, h2, a, h3, rfl, rfl, rfl, rfl⟩
  have hsorted : es.Pairwise (fun x y => x.1 ≤ y.1) := by
    simp only [es]
    rw [List.flatMap, List.pairwise_flatten]
    refine ⟨?_, ?_⟩
    · intro s hs
      obtain ⟨x, _, rfl⟩ := List.mem_map.1 hs
      have : ∀ y ∈ x.1.kids.flatMap (fun c => x.1.label.agents.map (fun a => (x.2, x.1, c, a))), y.1 = x.2 := by
        intro y hy
        simp only [List.mem_flatMap, List.mem_map] at hy
        obtain ⟨_, _, _, _, rfl⟩ := hy; rfl
      rw [List.pairwise_iff_forall_sublist]
      intro y z hyz
      have hy := this y (hyz.subset (by simp))
      have hz := this z (hyz.subset (by simp))
      omega
    · rw [List.pairwise_map]
      refine l2.imp ?_
      intro x y hxy p hp q hq
      simp only [List.mem_flatMap, List.mem_map] at hp hq
      obtain ⟨_, _, _, _, rfl⟩ := hp
      obtain ⟨_, _, _, _, rfl⟩ := hq
      exact hxy
  have hfold : (es.map (fun e => (e.2.1.label, e.2.2.1.label, e.2.2.2))).foldlM
      (fun d (e : Edge M) => ftAgent e.1 e.2.1 d e.2.2) [] = some d := by
    rw [← h]
    unfold firstTransitions allNodes
    rw [← l1]
    simp only [es, List.map_flatMap, List.map_map, Function.comp_def]
    rw [foldlM_flatMap', List.foldlM_map]
    congr 1
    funext d x
    rw [foldlM_flatMap']
    congr 1
    funext d c
    rw [List.foldlM_map]
  have hget := ft_fold _ _ _ hfold a
  simp only [Dict.get?_nil, Option.none_or, List.find?_map, Option.map_map] at hget
  let P : Nat × RTree (FT M) × RTree (FT M) × String → Bool := fun e => decide (e.2.2.2 = a) && ftChanges (e.2.1.label, e.2.2.1.label, e.2.2.2)
  have hP : ∀ e ∈ es, P e = true ↔ ModeChange e.2.1 e.2.2.1 a ∧ e.2.2.2 = a := by
    rintro ⟨k, u, c, a'⟩ he
    obtain ⟨h1, h2, h3⟩ := (hmem k u c a').1 he
    simp only [P, Bool.and_eq_true, decide_eq_true_eq]
    constructor
    · rintro ⟨rfl, hc⟩
      refine ⟨⟨h2, h3, ?_⟩, rfl⟩
      unfold ftChanges at hc
      simp only at hc
      split at hc
      · rename_i m m' g1 g2
        exact ⟨m, m', g1, g2, by simpa using hc⟩
      · cases hc
    · rintro ⟨⟨_, _, m, m', g1, g2, g3⟩, rfl⟩
      refine ⟨rfl, ?_⟩
      unfold ftChanges
      simp [g1, g2, g3]
  have hget' : Dict.get? d a = (es.find? P).map (fun e => e.2.2.1.label.start) := hget
  constructor
  · rw [hget']
    constructor
    · intro hs
      rw [Option.isSome_map] at hs
      obtain ⟨e, he⟩ := Option.isSome_iff_exists.1 hs
      have hm := List.mem_of_find?_eq_some he
      have hp := (hP e hm).1 (List.find?_some he)
      obtain ⟨k, u, c, a'⟩ := e
      exact ⟨u, k, c, h3 _ ((hmem _ _ _ _).1 hm).1, hp.1⟩
    · rintro ⟨u, k, c, hb, hc⟩
      rw [Option.isSome_map, List.find?_isSome]
      have hm : (k, u, c, a) ∈ es := (hmem _ _ _ _).2 ⟨h5 u k hb, hc.1, hc.2.1⟩
      exact ⟨_, hm, (hP _ hm).2 ⟨hc, rfl⟩⟩
  · intro τ hτ
    rw [hget'] at hτ
    obtain ⟨e, he, heτ⟩ := Option.map_eq_some_iff.1 hτ
    have hm := List.mem_of_find?_eq_some he
    have hp := (hP e hm).1 (List.find?_some he)
    obtain ⟨_, pre, post, hsplit, hpre⟩ := List.find?_eq_some_iff_append.1 he
    refine ⟨e.2.1, e.1, e.2.2.1, h3 _ ((hmem _ _ _ _).1 hm).1, hp.1, heτ.symm, ?_⟩
    intro u' k' c' hb' hc'
    have hm' : (k', u', c', a) ∈ es := (hmem _ _ _ _).2 ⟨h5 u' k' hb', hc'.1, hc'.2.1⟩
    have hpt := (hP _ hm').2 ⟨hc', rfl⟩
    have hs := hsorted
    rw [hsplit] at hm' hs
    rcases List.mem_append.1 hm' with hm' | hm'
    · have := hpre _ hm'
      rw [hpt] at this; simp at this
    · rcases List.mem_cons.1 hm' with hm' | hm'
      · rw [← hm']
      · exact (List.pairwise_cons.1 (List.pairwise_append.1 hs).2.1).1 _ hm'

namespace TreeWitness
/-- agents A and B; B switches at time 1, then A at time 3; on the other branch A switches at time 5 -/
def late : RTree (FT Nat) :=
  .node ⟨["A", "B"], [("A", 0), ("B", 0)], 0⟩
    [.node ⟨["A", "B"], [("A", 0), ("B", 1)], 1⟩ [.node ⟨["A", "B"], [("A", 1), ("B", 1)], 3⟩ []],
     .node ⟨["A", "B"], [("A", 1), ("B", 0)], 5⟩ []]
end TreeWitness

theorem late_eval : firstTransitions late = some [("B", 1), ("A", 5)] := by
  unfold firstTransitions allNodes
  simp [bfs, late, RTree.kids, RTree.label, ftAgent, Dict.mem, Dict.get?, Dict.set]

/-- **Violation of C12.** The reported time need not be the earliest: here agent `A` changes its mode across an edge whose
child starts at 3, `first_transitions` reports 5. -/
theorem C12_not_earliest_violated : ∃ d, firstTransitions late = some d ∧ Dict.get? d "A" = some 5 ∧
    ∃ u k c, RTree.Below late u k ∧ ModeChange u c "A" ∧ c.label.start = 3 := by
  refine ⟨_, late_eval, rfl, .node ⟨["A", "B"], [("A", 0), ("B", 1)], 1⟩ [.node ⟨["A", "B"], [("A", 1), ("B", 1)], 3⟩ []], 1,
    .node ⟨["A", "B"], [("A", 1), ("B", 1)], 3⟩ [], ?_, ?_, rfl⟩
  · exact .step (by simp) (.refl _)
  · exact ⟨by simp [RTree.kids], by simp [RTree.label], 0, 1, rfl, rfl, by decide⟩

/-- `C12_first_transitions_partial` applies to this tree. -/
example : ∃ d, firstTransitions late = some d ∧ d ≠ [] := ⟨_, late_eval, by simp⟩

end Verif.Props
