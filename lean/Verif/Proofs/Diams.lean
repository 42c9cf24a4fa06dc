import Verif.Spec.Diams
import Verif.Proofs.FixedPoint3
import Verif.Proofs.ATree
import Mathlib.Tactic.Linarith
import Mathlib.Tactic.Ring
import Mathlib.Tactic.NormNum

/-! Diameters of reach tubes. -/

set_option autoImplicit false
set_option linter.unusedSectionVars false

namespace Verif.Proofs.Diams
open Verif.Spec Verif.ATree Verif.Fix Verif.Fix.Spec Verif.Diams Verif.Diams.Spec Verif.Proofs.Fix

variable {K : Type} [Field K] [LinearOrder K] [IsStrictOrderedRing K]

theorem manhattan_eq (a b : List K) : manhattan a b = dist a b := by
  unfold manhattan dist
  rw [List.zip, List.map_zipWith]

theorem dist_nil : dist ([] : List K) [] = 0 := rfl

theorem dist_cons (x y : K) (a b : List K) : dist (x :: a) (y :: b) = |x - y| + dist a b := by
  unfold dist
  simp

theorem dist_append {a b : List K} (h : a.length = b.length) (a' b' : List K) : dist (a ++ a') (b ++ b') = dist a b + dist a' b' := by
  unfold dist
  rw [List.zip_append h, List.map_append, List.sum_append]

theorem dist_self (a : List K) : dist a a = 0 := by
  induction a with
  | nil => rfl
  | cons x a ih => rw [dist_cons, ih]; simp

theorem dist_le {lo hi x y : List K} (h1 : List.Forall₂ (· ≤ ·) lo x) (h2 : List.Forall₂ (· ≤ ·) x hi) (h3 : List.Forall₂ (· ≤ ·) lo y)
    (h4 : List.Forall₂ (· ≤ ·) y hi) : dist x y ≤ dist lo hi := by
  induction h1 generalizing hi y with
  | nil => cases h3; cases h2; exact le_refl _
  | cons h1 _ ih =>
    cases h2 with
    | cons h2 h2' =>
      cases h3 with
      | cons h3 h3' =>
        cases h4 with
        | cons h4 h4' =>
          rw [dist_cons, dist_cons]
          refine add_le_add ?_ (ih h2' h3' h4')
          rw [abs_le]
          rename_i l x _ _ _ u _ y _
          have := neg_abs_le (l - u)
          constructor <;> linarith

theorem forall₂_len {α β : Type} {R : α → β → Prop} {a : List α} {b : List β} (h : List.Forall₂ R a b) : a.length = b.length := h.length_eq

theorem dist_flatMap (f g : String → List K) (h : ∀ a, (f a).length = (g a).length) (l : List String) :
    dist (l.flatMap f) (l.flatMap g) = (l.map fun a => dist (f a) (g a)).sum := by
  induction l with
  | nil => rfl
  | cons a l ih => rw [List.flatMap_cons, List.flatMap_cons, dist_append (h a), ih]; rfl

/-! ### One window -/

theorem select_step {step : K} (hs : 0 < step) (k : Nat) : ∀ (P : List (Row K × Row K)), (∀ r ∈ P, ∃ m : Nat, r.1.1 = m * step ∧ r.2.1 = (m + 1) * step) →
    (P.Pairwise fun p q => p.1.1 < q.1.1) →
    (∃ r ∈ P, r.1.1 = k * step ∧ r.2.1 = (k + 1) * step ∧ selW (k * step - step * (5 / 100)) ((k + 1) * step + step * (5 / 100)) P = [r] ∧
      ∀ r' ∈ P, r'.1.1 = k * step → r' = r) ∨
    (selW (k * step - step * (5 / 100)) ((k + 1) * step + step * (5 / 100)) P = [] ∧ ∀ r ∈ P, r.1.1 ≠ k * step) := by
  intro P
  have key : ∀ r : Row K × Row K, (∃ m : Nat, r.1.1 = m * step ∧ r.2.1 = (m + 1) * step) →
      ((k * step - step * (5 / 100) ≤ r.1.1 ∧ r.2.1 ≤ (k + 1) * step + step * (5 / 100)) ↔ r.1.1 = k * step) := by
    rintro r ⟨m, h1, h2⟩
    rw [h1, h2]
    constructor
    · rintro ⟨a, b⟩
      have a' : k ≤ m := by
        by_contra hc
        have : ((m : K) + 1) ≤ k := by exact_mod_cast Nat.lt_of_not_le hc
        nlinarith
      have b' : m ≤ k := by
        by_contra hc
        have : ((k : K) + 1) ≤ m := by exact_mod_cast Nat.lt_of_not_le hc
        nlinarith
      rw [Nat.le_antisymm a' b']
    · intro e
      have : (m : K) = k := mul_right_cancel₀ hs.ne' e
      rw [this]
      constructor <;> nlinarith
  induction P with
  | nil => intro _ _; right; exact ⟨rfl, by simp⟩
  | cons r P ih =>
    intro ht ho
    rw [List.pairwise_cons] at ho
    unfold selW at ih ⊢
    by_cases hr : r.1.1 = k * step
    · left
      obtain ⟨m, h1, h2⟩ := ht r (by simp)
      have hm : (m : K) = k := mul_right_cancel₀ hs.ne' (h1.symm.trans hr)
      have none : ∀ r' ∈ P, r'.1.1 ≠ k * step := fun r' h' e => by
        have := ho.1 r' h'
        rw [hr, e] at this
        exact lt_irrefl _ this
      refine ⟨r, by simp, hr, by rw [h2, hm], ?_, ?_⟩
      · rw [List.filter_cons_of_pos (by rw [decide_eq_true_eq]; exact (key r (ht r (by simp))).2 hr)]
        congr 1
        rw [List.filter_eq_nil_iff]
        intro r' h'
        rw [decide_eq_true_eq, key r' (ht r' (List.mem_cons_of_mem _ h'))]
        exact none r' h'
      · intro r' h' e
        rcases List.mem_cons.1 h' with rfl | h'
        · rfl
        · exact absurd e (none r' h')
    · rw [List.filter_cons_of_neg (by rw [decide_eq_true_eq, key r (ht r (by simp))]; exact hr)]
      rcases ih (fun r' h' => ht r' (List.mem_cons_of_mem _ h')) ho.2 with ⟨q, h1, h2, h3, h4, h5⟩ | ⟨h1, h2⟩
      · left
        refine ⟨q, List.mem_cons_of_mem _ h1, h2, h3, h4, ?_⟩
        intro r' h' e
        rcases List.mem_cons.1 h' with rfl | h'
        · exact absurd e hr
        · exact h5 r' h' e
      · right
        refine ⟨h1, ?_⟩
        intro r' h'
        rcases List.mem_cons.1 h' with rfl | h'
        · exact hr
        · exact h2 r' h'

variable {agents : List String} {dim mdim : String → Nat} {root : RTree (FNode K)} {step : K}

/-- The diameter of a node at a step. -/
def IsDiam (agents : List String) (step : K) (k : Nat) (n : FNode K) (d : K) : Prop :=
  (∀ x y, InStep agents step k n x → InStep agents step k n y → dist x.flatten y.flatten ≤ d) ∧
    ∃ x y, InStep agents step k n x ∧ InStep agents step k n y ∧ dist x.flatten y.flatten = d

theorem inStep_le (f g : String → List K) (k : Nat) (n : FNode K)
    (h : ∀ a ∈ agents, ∀ r ∈ rects n a, r.1.1 = k * step → r.1.2 = f a ∧ r.2.2 = g a) (x : List (List K)) (hx : InStep agents step k n x) :
    List.Forall₂ (· ≤ ·) (agents.flatMap f) x.flatten ∧ List.Forall₂ (· ≤ ·) x.flatten (agents.flatMap g) := by
  unfold InStep at hx
  induction hx with
  | nil => exact ⟨.nil, .nil⟩
  | cons h1 h2 ih =>
    obtain ⟨r, hr, ht, -, h3, h4⟩ := h1
    obtain ⟨e1, e2⟩ := h _ (by simp) r hr ht
    obtain ⟨i1, i2⟩ := ih fun a ha => h a (List.mem_cons_of_mem _ ha)
    rw [List.flatMap_cons, List.flatMap_cons, List.flatten_cons]
    exact ⟨List.rel_append (e1 ▸ h3) i1, List.rel_append (e2 ▸ h4) i2⟩

/-- A node has a diameter at a step if and only if something is selected. -/
theorem node_diam (hs : 0 < step) (good : Good root agents dim mdim) (stp : Stepped root agents step) (k : Nat) (E : Dict String Enum) {n : FNode K} (hn : n ∈ nodesOf root) :
    (count agents (.window (k * step - step * (5 / 100)) ((k + 1) * step + step * (5 / 100))) n = 0 ∧ ¬ ∃ x, InStep agents step k n x) ∨
    (count agents (.window (k * step - step * (5 / 100)) ((k + 1) * step + step * (5 / 100))) n ≠ 0 ∧
      ∃ d, nodeDiam (flat (enc agents E (.window (k * step - step * (5 / 100)) ((k + 1) * step + step * (5 / 100))) n)) = .ok d ∧ IsDiam agents step k n d) := by
  have hok : NodeOk agents dim mdim n := ⟨good.trace n hn, good.mode n hn, good.aligned n hn⟩
  generalize hsel : (Sel.window (k * step - step * (5 / 100)) ((k + 1) * step + step * (5 / 100)) : Sel K) = sel
  have hP : ∀ a ∈ agents, _ := fun a ha => select_step hs k (rects n a) (stp.times n hn a ha) (stp.once n hn a ha)
  by_cases h0 : count agents sel n = 0
  · left
    refine ⟨h0, ?_⟩
    rintro ⟨x, hx⟩
    obtain ⟨a, l, hal⟩ := List.exists_cons_of_ne_nil good.nonempty
    unfold InStep at hx
    rw [hal] at hx
    cases hx with
    | cons h1 _ =>
      obtain ⟨r, hr, ht, -⟩ := h1
      have ha : a ∈ agents := by rw [hal]; simp
      rcases hP a ha with ⟨q, -, -, -, h4, -⟩ | ⟨-, h2⟩
      · have := count_eq hok sel ha
        rw [h0, ← hsel] at this
        rw [show selP (.window (k * step - step * (5 / 100)) ((k + 1) * step + step * (5 / 100))) (rects n a) = _ from h4] at this
        simp at this
      · exact h2 r hr ht
  · right
    refine ⟨h0, ?_⟩
    have hr : ∀ a, ∃ r, a ∈ agents → r ∈ rects n a ∧ r.1.1 = k * step ∧ r.2.1 = (k + 1) * step ∧ selP sel (rects n a) = [r] ∧ ∀ r' ∈ rects n a, r'.1.1 = k * step → r' = r := by
      intro a
      by_cases ha : a ∈ agents
      · rcases hP a ha with ⟨q, h1, h2, h3, h4, h5⟩ | ⟨h1, -⟩
        · exact ⟨q, fun _ => ⟨h1, h2, h3, hsel ▸ h4, h5⟩⟩
        · have := count_eq hok sel ha
          rw [← hsel, show selP (.window (k * step - step * (5 / 100)) ((k + 1) * step + step * (5 / 100))) (rects n a) = _ from h1, hsel] at this
          exact absurd this.symm h0
      · exact ⟨((0, []), (0, [])), fun h => absurd h ha⟩
    choose R hR using hr
    have hc : count agents sel n = 1 := by
      obtain ⟨a, l, hal⟩ := List.exists_cons_of_ne_nil good.nonempty
      have ha : a ∈ agents := by rw [hal]; simp
      rw [← count_eq hok sel ha, (hR a ha).2.2.2.1]
      rfl
    have henc : enc agents E sel n = [(agents.flatMap fun a => (R a).1.2 ++ nums E n a, agents.flatMap fun a => (R a).2.2 ++ nums E n a)] := by
      unfold enc composed
      rw [hc]
      simp only [List.range_one, List.map_cons, List.map_nil]
      congr 2 <;>
      · rw [List.flatMap_map]
        apply List.flatMap_congr
        intro a ha
        unfold verts
        rw [(hR a ha).2.2.2.1]
        rfl
    have hlen : ∀ a ∈ agents, (R a).1.2.length = (R a).2.2.length := fun a ha => forall₂_len (stp.proper n hn a ha _ (hR a ha).1)
    have hd : dist (agents.flatMap fun a => (R a).1.2 ++ nums E n a) (agents.flatMap fun a => (R a).2.2 ++ nums E n a) =
        dist (agents.flatMap fun a => (R a).1.2) (agents.flatMap fun a => (R a).2.2) := by
      have : ∀ l : List String, (∀ a ∈ l, a ∈ agents) → dist (l.flatMap fun a => (R a).1.2 ++ nums E n a) (l.flatMap fun a => (R a).2.2 ++ nums E n a) =
          dist (l.flatMap fun a => (R a).1.2) (l.flatMap fun a => (R a).2.2) := by
        intro l
        induction l with
        | nil => intro _; rfl
        | cons a l ih =>
          intro hl
          have e := hlen a (hl a (by simp))
          rw [List.flatMap_cons, List.flatMap_cons, List.flatMap_cons, List.flatMap_cons, dist_append (by rw [List.length_append, List.length_append, e]), dist_append e,
            dist_append e, dist_self, add_zero, ih fun b hb => hl b (List.mem_cons_of_mem _ hb)]
      exact this agents fun _ h => h
    refine ⟨dist (agents.flatMap fun a => (R a).1.2) (agents.flatMap fun a => (R a).2.2), ?_, ?_, ?_⟩
    · rw [henc]
      show Except.ok _ = _
      rw [manhattan_eq, hd]
    · intro x y hx hy
      have hb : ∀ a ∈ agents, ∀ r ∈ rects n a, r.1.1 = k * step → r.1.2 = (fun a => (R a).1.2) a ∧ r.2.2 = (fun a => (R a).2.2) a := fun a ha r hr ht => by
        rw [(hR a ha).2.2.2.2 r hr ht]; exact ⟨rfl, rfl⟩
      obtain ⟨x1, x2⟩ := inStep_le _ _ k n hb x hx
      obtain ⟨y1, y2⟩ := inStep_le _ _ k n hb y hy
      exact dist_le x1 x2 y1 y2
    · refine ⟨agents.map fun a => (R a).1.2, agents.map fun a => (R a).2.2, ?_, ?_, rfl⟩
      · unfold InStep
        rw [List.forall₂_map_right_iff, List.forall₂_same]
        intro a ha
        exact ⟨R a, (hR a ha).1, (hR a ha).2.1, (hR a ha).2.2.1, forall₂_refl_le _, stp.proper n hn a ha _ (hR a ha).1⟩
      · unfold InStep
        rw [List.forall₂_map_right_iff, List.forall₂_same]
        intro a ha
        exact ⟨R a, (hR a ha).1, (hR a ha).2.1, (hR a ha).2.2.1, stp.proper n hn a ha _ (hR a ha).1, forall₂_refl_le _⟩

theorem foldl_max (ds : List K) (d : K) : (∀ e ∈ d :: ds, e ≤ ds.foldl max d) ∧ ds.foldl max d ∈ d :: ds := by
  induction ds generalizing d with
  | nil => simp
  | cons e ds ih =>
    obtain ⟨h1, h2⟩ := ih (max d e)
    rw [List.foldl_cons]
    constructor
    · intro f hf
      have hm := h1 (max d e) (by simp)
      rcases List.mem_cons.1 hf with rfl | hf
      · exact le_trans (le_max_left _ _) hm
      · rcases List.mem_cons.1 hf with rfl | hf
        · exact le_trans (le_max_right _ _) hm
        · exact h1 f (List.mem_cons_of_mem _ hf)
    · rcases List.mem_cons.1 h2 with h | h
      · rw [h]
        rcases max_choice d e with h | h <;> rw [h] <;> simp
      · exact List.mem_cons_of_mem _ (List.mem_cons_of_mem _ h)

theorem window_diam (hs : 0 < step) (good : Good root agents dim mdim) (stp : Stepped root agents step) (k : Nat) :
    ∃ o : Option K, windowDiam root (k * step - step * (5 / 100)) ((k + 1) * step + step * (5 / 100)) = .ok o.toList ∧
      (o = none ↔ ¬ ∃ n ∈ nodesOf root, ∃ x, InStep agents step k n x) ∧
      ∀ d, o = some d → (∀ n ∈ nodesOf root, ∀ x y, InStep agents step k n x → InStep agents step k n y → dist x.flatten y.flatten ≤ d) ∧
        ∃ n ∈ nodesOf root, ∃ x y, InStep agents step k n x ∧ InStep agents step k n y ∧ dist x.flatten y.flatten = d := by
  have hmem : ∀ n, n ∈ (allNodes root).map RTree.label ↔ n ∈ nodesOf root := by
    intro n
    have this : ∀ {t : RTree (FNode K)}, t ∈ bfs [root] ↔ t ∈ RTree.subsL [root] := (bfs_perm [root]).mem_iff
    unfold allNodes nodesOf
    simp only [List.mem_map]
    constructor
    · rintro ⟨t, ht, rfl⟩
      exact ⟨t, by simpa [RTree.subsL] using this.1 ht, rfl⟩
    · rintro ⟨t, ht, rfl⟩
      exact ⟨t, this.2 (by simpa [RTree.subsL] using ht), rfl⟩
  obtain ⟨h1, -⟩ := nodes_eq good.nonempty good.nodup (.window (k * step - step * (5 / 100)) ((k + 1) * step + step * (5 / 100))) ((allNodes root).map RTree.label)
    (agents.map fun a => (a, [("_index", 0)])) [] (fun n hn => ⟨good.trace n ((hmem n).1 hn), good.mode n ((hmem n).1 hn), good.aligned n ((hmem n).1 hn)⟩) (by
      intro a ha
      refine ⟨[("_index", 0)], ?_, ⟨0, rfl, ?_⟩, ?_⟩
      · exact Dict.get?_of_mem (by rw [List.map_map]; exact (List.map_id agents).symm ▸ good.nodup) (List.mem_map.2 ⟨a, ha, rfl⟩)
      · intro m v hm hv
        rw [Dict.get?_cons, if_neg (Ne.symm hm)] at hv
        simp at hv
      · intro m m' v hm _ hv
        rw [Dict.get?_cons, if_neg (Ne.symm hm)] at hv
        simp at hv)
  rw [List.nil_append] at h1
  generalize hE : enumAll agents ((allNodes root).map RTree.label) (agents.map fun a => (a, [("_index", 0)])) = E at h1
  -- the diameters of the nodes
  have h2 : ∀ l : List (FNode K), (∀ n ∈ l, n ∈ nodesOf root) → ∃ ds, ((l.flatMap fun n =>
      if count agents (.window (k * step - step * (5 / 100)) ((k + 1) * step + step * (5 / 100))) n = 0 then []
      else [flat (enc agents E (.window (k * step - step * (5 / 100)) ((k + 1) * step + step * (5 / 100))) n)]).mapM nodeDiam) = .ok ds ∧
      (∀ n ∈ l, ∀ x, InStep agents step k n x → ∃ d ∈ ds, IsDiam agents step k n d) ∧ ∀ d ∈ ds, ∃ n ∈ l, IsDiam agents step k n d := by
    intro l
    induction l with
    | nil => intro _; exact ⟨[], rfl, by simp, by simp⟩
    | cons n l ih =>
      intro hl
      obtain ⟨ds, i1, i2, i3⟩ := ih fun m hm => hl m (List.mem_cons_of_mem _ hm)
      rw [List.flatMap_cons]
      rcases node_diam hs good stp k E (hl n (by simp)) with ⟨c1, c2⟩ | ⟨c1, d, c2, c3⟩
      · rw [if_pos c1, List.nil_append]
        refine ⟨ds, i1, ?_, fun d hd => ?_⟩
        · intro m hm x hx
          rcases List.mem_cons.1 hm with rfl | hm
          · exact absurd ⟨x, hx⟩ c2
          · exact i2 m hm x hx
        · obtain ⟨m, hm, h⟩ := i3 d hd
          exact ⟨m, List.mem_cons_of_mem _ hm, h⟩
      · rw [if_neg c1, List.singleton_append]
        refine ⟨d :: ds, ?_, ?_, ?_⟩
        · rw [List.mapM_cons, c2, i1]
          rfl
        · intro m hm x hx
          rcases List.mem_cons.1 hm with rfl | hm
          · exact ⟨d, by simp, c3⟩
          · obtain ⟨e, he, h⟩ := i2 m hm x hx
            exact ⟨e, List.mem_cons_of_mem _ he, h⟩
        · intro e he
          rcases List.mem_cons.1 he with rfl | he
          · exact ⟨n, by simp, c3⟩
          · obtain ⟨m, hm, h⟩ := i3 e he
            exact ⟨m, List.mem_cons_of_mem _ hm, h⟩
  obtain ⟨ds, e1, e2, e3⟩ := h2 ((allNodes root).map RTree.label) fun n hn => (hmem n).1 hn
  have e0 : windowDiam root (k * step - step * (5 / 100)) ((k + 1) * step + step * (5 / 100)) = .ok (maxIfAny ds) := by
    unfold windowDiam reachAt
    simp only
    unfold collect
    rw [good.agents_eq, h1]
    show Except.map _ (List.mapM nodeDiam _) = _
    rw [e1]
    rfl
  cases ds with
  | nil =>
    refine ⟨none, e0, ⟨fun _ => ?_, fun _ => rfl⟩, by simp⟩
    rintro ⟨n, hn, x, hx⟩
    obtain ⟨d, hd, -⟩ := e2 n ((hmem n).2 hn) x hx
    simp at hd
  | cons d ds =>
    obtain ⟨m1, m2⟩ := foldl_max ds d
    refine ⟨some (ds.foldl max d), e0, ⟨by simp, fun h => ?_⟩, ?_⟩
    · obtain ⟨n, hn, -, x, -, hx, -⟩ := e3 d (by simp)
      exact absurd ⟨n, (hmem n).1 hn, x, hx⟩ h
    · intro D hD
      have hD := Option.some.inj hD
      subst hD
      constructor
      · intro n hn x y hx hy
        obtain ⟨e, he, h3, -⟩ := e2 n ((hmem n).2 hn) x hx
        exact le_trans (h3 x y hx hy) (m1 e he)
      · obtain ⟨n, hn, -, x, y, hx, hy, h⟩ := e3 _ m2
        exact ⟨n, (hmem n).1 hn, x, y, hx, hy, h⟩

end Verif.Proofs.Diams
