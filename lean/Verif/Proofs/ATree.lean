import Verif.Model.Tree
import Verif.Spec.ATree
import Verif.Proofs.Basic

/-! Helper lemmas for C09, C10, C12. -/

set_option autoImplicit false

namespace Verif.ATree
open Verif.Spec

variable {D : Type}

theorem subsL_append (a b : List (RTree D)) : RTree.subsL (a ++ b) = RTree.subsL a ++ RTree.subsL b := by
  induction a with
  | nil => rfl
  | cons t a ih => simp [RTree.subsL, ih]

theorem subs_eq (t : RTree D) : RTree.subs t = t :: RTree.subsL t.kids := by
  cases t; simp [RTree.subs, RTree.kids]

theorem mem_subs_self (t : RTree D) : t ∈ RTree.subs t := by rw [subs_eq]; simp

theorem mem_subsL {t : RTree D} {ts : List (RTree D)} : t ∈ RTree.subsL ts ↔ ∃ u ∈ ts, t ∈ RTree.subs u := by
  induction ts with
  | nil => simp [RTree.subsL]
  | cons x ts ih => simp [RTree.subsL, ih]

theorem bfs_cons (t : RTree D) (q : List (RTree D)) : bfs (t :: q) = t :: bfs (q ++ t.kids) := by
  rw [bfs]

theorem bfs_nil : bfs ([] : List (RTree D)) = [] := by rw [bfs]

/-- Induction principle of the breadth-first loop. -/
theorem bfs_ind {P : List (RTree D) → Prop} (h0 : P []) (h1 : ∀ t q, P (q ++ t.kids) → P (t :: q)) (q : List (RTree D)) : P q := by
  have key : ∀ n (q : List (RTree D)), sizeL q ≤ n → P q := by
    intro n
    induction n with
    | zero =>
      intro q hq
      cases q with
      | nil => exact h0
      | cons t q => simp only [sizeL] at hq; rw [size_eq] at hq; omega
    | succ n ih =>
      intro q hq
      cases q with
      | nil => exact h0
      | cons t q =>
        apply h1
        apply ih
        rw [sizeL_append]; simp only [sizeL] at hq; rw [size_eq] at hq; omega
  exact key _ q (Nat.le_refl _)

theorem bfs_perm (q : List (RTree D)) : (bfs q).Perm (RTree.subsL q) := by
  induction q using bfs_ind with
  | h0 => rw [bfs_nil]; exact .nil
  | h1 t q ih =>
    rw [bfs_cons]
    simp only [RTree.subsL]
    rw [subs_eq, List.cons_append]
    refine List.Perm.cons _ (ih.trans ?_)
    rw [subsL_append]
    exact List.perm_append_comm

theorem mem_bfs_of_mem {t : RTree D} {q : List (RTree D)} (h : t ∈ q) : t ∈ bfs q :=
  (bfs_perm q).mem_iff.2 (mem_subsL.2 ⟨t, h, mem_subs_self t⟩)

theorem bfs_parents (q : List (RTree D)) : ∀ (l1 : List (RTree D)) (u : RTree D) (l2 : List (RTree D)) (c : RTree D),
    bfs q = l1 ++ u :: l2 → c ∈ u.kids → c ∈ l2 := by
  induction q using bfs_ind with
  | h0 => intro l1 u l2 c h; rw [bfs_nil] at h; simp at h
  | h1 t q ih =>
    intro l1 u l2 c h hc
    rw [bfs_cons] at h
    cases l1 with
    | nil =>
      simp only [List.nil_append, List.cons.injEq] at h
      obtain ⟨rfl, h⟩ := h
      rw [← h]
      exact mem_bfs_of_mem (by simp [hc])
    | cons x l1 =>
      simp only [List.cons_append, List.cons.injEq] at h
      exact ih l1 u l2 c h.2 hc

theorem below_iff_mem_subs {t u : RTree D} : (∃ k, RTree.Below t u k) ↔ u ∈ RTree.subs t := by
  constructor
  · rintro ⟨k, h⟩
    induction h with
    | refl t => exact mem_subs_self t
    | step hm _ ih =>
      rw [subs_eq]
      exact List.mem_cons_of_mem _ (mem_subsL.2 ⟨_, hm, ih⟩)
  · have key : ∀ n (t : RTree D), size t ≤ n → u ∈ RTree.subs t → ∃ k, RTree.Below t u k := by
      intro n
      induction n with
      | zero => intro t ht; rw [size_eq] at ht; omega
      | succ n ih =>
        intro t ht hu
        rw [subs_eq] at hu
        rcases List.mem_cons.1 hu with rfl | hu
        · exact ⟨0, .refl _⟩
        · obtain ⟨c, hc, hu⟩ := mem_subsL.1 hu
          have hs : size c ≤ sizeL t.kids := by
            generalize t.kids = ks at hc ⊢
            induction ks with
            | nil => simp at hc
            | cons x ks ih => 
              simp only [sizeL]
              rcases List.mem_cons.1 hc with rfl | hc
              · omega
              · have := ih hc; omega
          obtain ⟨k, hk⟩ := ih c (by rw [size_eq] at ht; omega) hu
          cases t with
          | node d ts => exact ⟨k + 1, .step hc hk⟩
    exact key _ t (Nat.le_refl _)

theorem foldl_count (l : List (RTree D)) (n : Nat) :
    l.foldl (fun count (n : RTree D) => if n.kids.length = 0 then count + 1 else count) n =
      n + (l.filter (fun n => decide (n.kids = []))).length := by
  induction l generalizing n with
  | nil => simp
  | cons t l ih =>
    rw [List.foldl_cons, ih]
    by_cases h : t.kids = []
    · simp [h]; omega
    · simp [h]

mutual
theorem collectLeaves_eq (t : RTree D) (acc : List (RTree D)) :
    collectLeaves t acc = acc ++ (RTree.subs t).filter (fun n => decide (n.kids = [])) := by
  cases t with
  | node d ts =>
    rw [collectLeaves, collectLeavesL_eq ts, RTree.subs]
    cases ts with
    | nil => simp [RTree.subsL, RTree.kids]
    | cons x xs => simp [RTree.kids]
theorem collectLeavesL_eq (ts : List (RTree D)) (acc : List (RTree D)) :
    collectLeavesL ts acc = acc ++ (RTree.subsL ts).filter (fun n => decide (n.kids = [])) := by
  cases ts with
  | nil => simp [collectLeavesL, RTree.subsL]
  | cons t ts =>
    rw [collectLeavesL, collectLeavesL_eq ts, collectLeaves_eq t, RTree.subsL, List.filter_append, List.append_assoc]
end

theorem foldl_max_spec (l : List Nat) (a : Nat) : (∀ x ∈ a :: l, x ≤ l.foldl max a) ∧ l.foldl max a ∈ a :: l := by
  induction l generalizing a with
  | nil => simp
  | cons b l ih =>
    obtain ⟨h1, h2⟩ := ih (max a b)
    rw [List.foldl_cons]
    refine ⟨?_, ?_⟩
    · intro x hx
      have hm := h1 (max a b) (by simp)
      simp only [List.mem_cons] at hx
      rcases hx with rfl | rfl | hx
      · omega
      · omega
      · exact h1 x (by simp [hx])
    · rcases List.mem_cons.1 h2 with h | h
      · rw [h]
        rcases Nat.le_total a b with hab | hab
        · rw [Nat.max_eq_right hab]; simp
        · rw [Nat.max_eq_left hab]; simp
      · simp [h]

theorem heights_eq (ts : List (RTree D)) : heights ts = ts.map height := by
  induction ts with
  | nil => rfl
  | cons t ts ih => simp [heights, ih]

theorem height_node (d : D) (t : RTree D) (ts : List (RTree D)) :
    height (.node d (t :: ts)) = 1 + (ts.map height).foldl max (height t) := by
  rw [height]; simp only [heights_eq, List.map_cons]

theorem height_upper {t u : RTree D} {k : Nat} (h : RTree.Below t u k) : k + 1 ≤ height t := by
  induction h with
  | refl t =>
    cases t with
    | node d ts => cases ts with
      | nil => simp [height, heights]
      | cons t ts => rw [height_node]; omega
  | @step d ts t u k hm _ ih =>
    cases ts with
    | nil => simp at hm
    | cons x xs =>
      rw [height_node]
      have := (foldl_max_spec (xs.map height) (height x)).1 (height t) (by
        rcases List.mem_cons.1 hm with rfl | hm
        · simp
        · exact List.mem_cons_of_mem _ (List.mem_map_of_mem hm))
      omega

theorem height_attained (t : RTree D) : ∃ u k, RTree.Below t u k ∧ k + 1 = height t ∧ u.kids = [] := by
  have key : ∀ n (t : RTree D), size t ≤ n → ∃ u k, RTree.Below t u k ∧ k + 1 = height t ∧ u.kids = [] := by
    intro n
    induction n with
    | zero => intro t ht; rw [size_eq] at ht; omega
    | succ n ih =>
      intro t ht
      cases t with
      | node d ts => cases ts with
        | nil => exact ⟨_, 0, .refl _, by simp [height, heights], rfl⟩
        | cons x xs =>
          have hm := (foldl_max_spec (xs.map height) (height x)).2
          have : ∃ y ∈ x :: xs, (xs.map height).foldl max (height x) = height y := by
            rcases List.mem_cons.1 hm with h | h
            · exact ⟨x, by simp, h⟩
            · obtain ⟨y, hy, he⟩ := List.mem_map.1 h
              exact ⟨y, by simp [hy], he.symm⟩
          obtain ⟨y, hy, he⟩ := this
          have hs : size y ≤ sizeL (x :: xs) := by
            clear ht he hm
            generalize x :: xs = ks at hy ⊢
            induction ks with
            | nil => simp at hy
            | cons z ks ih => 
              simp only [sizeL]
              rcases List.mem_cons.1 hy with rfl | hc
              · omega
              · have := ih hc; omega
          obtain ⟨u, k, h1, h2, h3⟩ := ih y (by rw [size] at ht; omega)
          exact ⟨u, k + 1, .step hy h1, by rw [height_node, he, ← h2]; omega, h3⟩
  exact key _ t (Nat.le_refl _)

/-! ### order by depth -/

/-- breadth-first traversal of trees paired with their depth -/
theorem bfs_depths (q : List (RTree D)) : ∀ (q' : List (RTree D × Nat)), q'.map Prod.fst = q →
    q'.Pairwise (fun a b => a.2 ≤ b.2) → (∀ a ∈ q', ∀ b ∈ q', b.2 ≤ a.2 + 1) →
    ∃ l : List (RTree D × Nat), l.map Prod.fst = bfs q ∧ l.Pairwise (fun a b => a.2 ≤ b.2) ∧
      (∀ x ∈ l, ∃ r ∈ q', ∃ k, RTree.Below r.1 x.1 k ∧ x.2 = r.2 + k) ∧ (∀ x ∈ l, ∃ r ∈ q', r.2 ≤ x.2) ∧
      (∀ r ∈ q', ∀ u k, RTree.Below r.1 u k → (u, r.2 + k) ∈ l) := by
  induction q using bfs_ind with
  | h0 =>
    intro q' hq _ _
    simp at hq; subst hq
    exact ⟨[], by rw [bfs_nil]; rfl, .nil, by simp, by simp, by simp⟩
  | h1 t q ih =>
    intro q' hq hp hb
    cases q' with
    | nil => simp at hq
    | cons r q' =>
      obtain ⟨t', d⟩ := r
      simp only [List.map_cons, List.cons.injEq] at hq
      obtain ⟨rfl, hq⟩ := hq
      obtain ⟨hhead, hp'⟩ := List.pairwise_cons.1 hp
      obtain ⟨l, l1, l2, l3, l4, l5⟩ := ih (q' ++ t'.kids.map (fun c => (c, d + 1)))
        (by rw [List.map_append, hq, List.map_map]; simp [Function.comp_def])
        (by
          rw [List.pairwise_append]
          refine ⟨hp', ?_, ?_⟩
          · rw [List.pairwise_map]; exact List.pairwise_of_forall (fun _ _ => Nat.le_refl _)
          · intro a ha b hb'
            obtain ⟨c, _, rfl⟩ := List.mem_map.1 hb'
            exact hb (t', d) (by simp) a (by simp [ha]))
        (by
          have hle : ∀ a ∈ q', d ≤ a.2 := fun a ha => hhead a ha
          intro a ha b hb'
          rcases List.mem_append.1 ha with ha | ha <;> rcases List.mem_append.1 hb' with hb' | hb'
          · exact hb a (by simp [ha]) b (by simp [hb'])
          · obtain ⟨c, _, rfl⟩ := List.mem_map.1 hb'
            have := hle a ha; dsimp only; omega
          · obtain ⟨c, _, rfl⟩ := List.mem_map.1 ha
            have := hb (t', d) (by simp) b (by simp [hb']); dsimp only at this ⊢; omega
          · obtain ⟨c, _, rfl⟩ := List.mem_map.1 ha
            obtain ⟨c', _, rfl⟩ := List.mem_map.1 hb'
            dsimp only; omega)
      have hge : ∀ x ∈ l, d ≤ x.2 := by
        intro x hx
        obtain ⟨r, hr, hrx⟩ := l4 x hx
        rcases List.mem_append.1 hr with hr | hr
        · have := hhead r hr; dsimp only at this; omega
        · obtain ⟨c, _, rfl⟩ := List.mem_map.1 hr; dsimp only at hrx; omega
      refine ⟨(t', d) :: l, by rw [bfs_cons, List.map_cons, l1], List.pairwise_cons.2 ⟨hge, l2⟩, ?_, ?_, ?_⟩
      · intro x hx
        rcases List.mem_cons.1 hx with rfl | hx
        · exact ⟨(t', d), by simp, 0, .refl _, rfl⟩
        · obtain ⟨r, hr, k, hk, he⟩ := l3 x hx
          rcases List.mem_append.1 hr with hr | hr
          · exact ⟨r, by simp [hr], k, hk, he⟩
          · obtain ⟨c, hc, rfl⟩ := List.mem_map.1 hr
            refine ⟨(t', d), by simp, k + 1, ?_, by dsimp only at he ⊢; omega⟩
            cases t' with
            | node e ts => exact .step hc hk
      · intro x hx
        rcases List.mem_cons.1 hx with rfl | hx
        · exact ⟨(t', d), by simp, Nat.le_refl _⟩
        · exact ⟨(t', d), by simp, hge x hx⟩
      · intro r hr u k hk
        rcases List.mem_cons.1 hr with rfl | hr
        · cases hk with
          | refl => simp
          | @step e ts c u k hc hk =>
            apply List.mem_cons_of_mem
            have := l5 (c, d + 1) (by simp [RTree.kids, hc]) u k hk
            dsimp only at this ⊢
            have e : d + (k + 1) = d + 1 + k := by omega
            rw [e]; exact this
        · exact List.mem_cons_of_mem _ (l5 r (by simp [hr]) u k hk)

end Verif.ATree
