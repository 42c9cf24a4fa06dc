import Verif.Proofs.Contains2
import Mathlib.Algebra.Order.Field.Basic
import Mathlib.Data.List.Dedup

/-! Helper lemmas for C11: interval inclusion is decided exactly; evaluation of `contains` on grid trees. -/

set_option autoImplicit false

namespace Verif.Proofs.Cont
open Verif Verif.ATree Verif.Spec

/-- sorted, with gaps between consecutive parts -/
def Gap (c : Cell) : Prop := c.Pairwise (fun x y => x.2 < y.1)

theorem addI_lb (b : ℚ) (p : ℚ × ℚ) (c : Cell) (hp : b < p.1) (hc : ∀ q ∈ c, b < q.1) : ∀ q ∈ addI p c, b < q.1 := by
  induction c generalizing p with
  | nil => intro q hq; simp [addI] at hq; subst hq; exact hp
  | cons y l ih =>
    unfold addI
    split
    · intro q hq; rcases List.mem_cons.1 hq with h | h
      · subst h; exact hp
      · exact hc q h
    · split
      · intro q hq; rcases List.mem_cons.1 hq with h | h
        · subst h; exact hc _ (by simp)
        · exact ih p hp (fun r hr => hc r (by simp [hr])) q h
      · exact ih _ (by dsimp only; exact lt_min hp (hc y (by simp))) (fun r hr => hc r (by simp [hr]))

theorem addI_gap (p : ℚ × ℚ) (c : Cell) (hc : ∀ q ∈ c, q.1 ≤ q.2) (hg : Gap c) : Gap (addI p c) := by
  induction c generalizing p with
  | nil => simp [addI, Gap]
  | cons y l ih =>
    unfold Gap at hg
    rw [List.pairwise_cons] at hg
    unfold addI
    split
    · unfold Gap
      rw [List.pairwise_cons]
      refine ⟨?_, List.pairwise_cons.2 hg⟩
      intro q hq
      rcases List.mem_cons.1 hq with h | h
      · subst h; assumption
      · have := hg.1 q h
        have := hc y (by simp)
        linarith
    · split
      · unfold Gap
        rw [List.pairwise_cons]
        exact ⟨addI_lb _ p l ‹_› hg.1, ih p (fun r hr => hc r (by simp [hr])) hg.2⟩
      · exact ih _ (fun r hr => hc r (by simp [hr])) hg.2

theorem foldl_addI_gap (l c : Cell) (hl : ∀ p ∈ l, p.1 ≤ p.2) (hc : ∀ q ∈ c, q.1 ≤ q.2) (hg : Gap c) :
    Gap (l.foldl (fun c x => addI x c) c) := by
  induction l generalizing c with
  | nil => exact hg
  | cons y l ih =>
    exact ih _ (fun p hp => hl p (by simp [hp])) (addI_wf y c (hl y (by simp)) hc) (addI_gap y c hc hg)

/-- an interval covered by a gapped union lies in one part (rationals are dense) -/
theorem gap_connected (c : Cell) (hg : Gap c) (p : ℚ × ℚ) (hp : p.1 ≤ p.2)
    (hcov : ∀ x, p.1 ≤ x → x ≤ p.2 → Mem x c) : ∃ q ∈ c, q.1 ≤ p.1 ∧ p.2 ≤ q.2 := by
  induction c with
  | nil => obtain ⟨q, hq, _⟩ := hcov p.1 (le_refl _) hp; simp at hq
  | cons y l ih =>
    unfold Gap at hg
    rw [List.pairwise_cons] at hg
    by_cases hy : y.2 < p.1
    · obtain ⟨q, h1, h2⟩ := ih hg.2 (fun x h1 h2 => by
        obtain ⟨q, hq, h3, h4⟩ := hcov x h1 h2
        rcases List.mem_cons.1 hq with h | h
        · subst h; linarith
        · exact ⟨q, h, h3, h4⟩)
      exact ⟨q, by simp [h1], h2⟩
    · push Not at hy
      have hy1 : y.1 ≤ p.1 := by
        obtain ⟨q, hq, h3, h4⟩ := hcov p.1 (le_refl _) hp
        rcases List.mem_cons.1 hq with h | h
        · subst h; exact h3
        · have := hg.1 q h; linarith
      refine ⟨y, by simp, hy1, ?_⟩
      by_contra hlt
      push Not at hlt
      -- a point in the gap after `y`
      have : ∃ z, y.2 < z ∧ z ≤ p.2 ∧ ∀ q ∈ l, z < q.1 := by
        have key : ∀ l' : Cell, (∀ q ∈ l', y.2 < q.1) → ∃ z, y.2 < z ∧ z ≤ p.2 ∧ ∀ q ∈ l', z < q.1 := by
          intro l'
          induction l' with
          | nil => intro _; exact ⟨p.2, hlt, le_refl _, by simp⟩
          | cons a l' ih' =>
            intro h
            obtain ⟨z, h1, h2, h3⟩ := ih' (fun q hq => h q (by simp [hq]))
            have ha := h a (by simp)
            refine ⟨min z ((y.2 + a.1) / 2), lt_min h1 (by linarith), (min_le_left _ _).trans h2, ?_⟩
            intro q hq
            rcases List.mem_cons.1 hq with h' | h'
            · subst h'; exact (min_le_right _ _).trans_lt (by linarith)
            · exact (min_le_left _ _).trans_lt (h3 q h')
        exact key l hg.1
      obtain ⟨z, h1, h2, h3⟩ := this
      obtain ⟨q, hq, h4, h5⟩ := hcov z (hy.trans h1.le) h2
      rcases List.mem_cons.1 hq with h | h
      · subst h; linarith
      · have := h3 q h; linarith

theorem mem_bloat {tol : ℚ} (ht : 0 ≤ tol) {c : Cell} (hc : ∀ p ∈ c, p.1 ≤ p.2) (x : ℚ) :
    Mem x (bloat tol c) ↔ ∃ y, Mem y c ∧ |x - y| ≤ tol := by
  rw [bloat, mem_foldl_addI]
  constructor
  · rintro (⟨r, h4, _⟩ | ⟨r, h4, h5, h6⟩)
    · simp at h4
    · rw [List.mem_filter, List.mem_map] at h4
      obtain ⟨⟨s, hs, rfl⟩, _⟩ := h4
      obtain ⟨y, y1, y2, y3⟩ := near_interval (hc s hs) ht h5 h6
      exact ⟨y, ⟨s, hs, y1, y2⟩, y3⟩
  · rintro ⟨y, ⟨s, hs, h1, h2⟩, h3⟩
    right
    rw [abs_le] at h3
    refine ⟨(s.1 - tol, s.2 + tol), ?_, ?_, ?_⟩
    · rw [List.mem_filter, List.mem_map]
      refine ⟨⟨s, hs, rfl⟩, ?_⟩
      have := hc s hs
      simp only [decide_eq_true_eq]; linarith
    · dsimp only; linarith
    · dsimp only; linarith

theorem inCell_iff {tol : ℚ} (ht : 0 ≤ tol) {a b : Cell} (ha : ∀ p ∈ a, p.1 ≤ p.2) (hb : ∀ p ∈ b, p.1 ≤ p.2) :
    inCell a (bloat tol b) = true ↔ ∀ x, Mem x a → ∃ y, Mem y b ∧ |x - y| ≤ tol := by
  constructor
  · rintro h x ⟨p, hp, h1, h2⟩
    rw [← mem_bloat ht hb]
    rw [inCell, List.all_eq_true] at h
    obtain ⟨q, hq, h3⟩ := List.any_eq_true.1 (h p hp)
    simp only [Bool.and_eq_true, decide_eq_true_eq] at h3
    exact ⟨q, hq, h3.1.trans h1, h2.trans h3.2⟩
  · intro h
    rw [inCell, List.all_eq_true]
    intro p hp
    have hg : Gap (bloat tol b) := by
      apply foldl_addI_gap
      · intro q hq; simpa using (List.mem_filter.1 hq).2
      · simp
      · simp [Gap]
    obtain ⟨q, h1, h2, h3⟩ := gap_connected _ hg p (ha p hp) (fun x h1 h2 => (mem_bloat ht hb x).2 (h x ⟨p, hp, h1, h2⟩))
    rw [List.any_eq_true]
    exact ⟨q, h1, by simp [h2, h3]⟩

theorem rectAt_lt {h T : ℚ} (hh : 0 < h) {m : List String} {cont : Nat} {t : RTree CNode} (ht : OnGrid h T m cont t) {a : String}
    (ha : a ∈ m) : ∀ {i : Nat} {lo hi : List ℚ}, RectAt h a t i lo hi → t.label.start + ((i : ℚ) + 1) * h ≤ T := by
  induction ht with
  | @mk n ts L hL hrows hts hstart hleaf hle ih =>
    intro i lo hi hr
    cases hr with
    | own q1 q2 q3 =>
      obtain ⟨rows, w1, w2, _⟩ := hrows a ha
      rw [q1] at w1; cases w1
      have := (List.getElem?_eq_some_iff.1 q3).1
      have h3 : i + 1 ≤ L := by omega
      have h4 : ((i : ℚ) + 1) ≤ L := by exact_mod_cast h3
      have h5 := mul_le_mul_of_nonneg_right h4 hh.le
      simp only [RTree.label]
      linarith
    | @child _ _ t s i' _ _ hmem q1 q2 =>
      have := ih t hmem q2
      rw [q1] at this
      simp only [RTree.label]
      push_cast
      linarith

theorem covers_lt {h T : ℚ} (hh : 0 < h) {m : List String} {cont : Nat} {t : RTree CNode} (ht : OnGrid h T m cont t) {a : String}
    (ha : a ∈ m) {i j : Nat} {x : ℚ} (hx : Covers h t a i j x) : t.label.start + ((i : ℚ) + 1) * h ≤ T := by
  obtain ⟨lo, hi, p, q, hr, _⟩ := hx
  exact rectAt_lt hh ht ha hr

theorem uniform_types {this other : RTree CNode} {ty : NType} (h1 : ∀ u ∈ RTree.subs this, u.label.ntype = ty)
    (h2 : ∀ u ∈ RTree.subs other, u.label.ntype = ty) :
    ((allNodes this).map (fun n => n.label.ntype) ++ (allNodes other).map (fun n => n.label.ntype)).dedup.length = 1 := by
  have hall : ∀ x ∈ ((allNodes this).map (fun n => n.label.ntype) ++ (allNodes other).map (fun n => n.label.ntype)), x = ty := by
    intro x hx
    rcases List.mem_append.1 hx with h | h
    · obtain ⟨u, hu, rfl⟩ := List.mem_map.1 h
      refine h1 u ?_
      have := (bfs_perm [this]).mem_iff.1 hu
      simpa [RTree.subsL] using this
    · obtain ⟨u, hu, rfl⟩ := List.mem_map.1 h
      refine h2 u ?_
      have := (bfs_perm [other]).mem_iff.1 hu
      simpa [RTree.subsL] using this
  have hne : ((allNodes this).map (fun n => n.label.ntype) ++ (allNodes other).map (fun n => n.label.ntype)) ≠ [] := by
    intro h
    have := (List.append_eq_nil_iff.1 h).1
    rw [List.map_eq_nil_iff] at this
    unfold allNodes at this
    rw [bfs_cons] at this
    simp at this
  generalize ((allNodes this).map (fun n => n.label.ntype) ++ (allNodes other).map (fun n => n.label.ntype)) = l at hall hne
  have hnd := List.nodup_dedup l
  have hmem : ∀ x ∈ l.dedup, x = ty := fun x hx => hall x (List.mem_dedup.1 hx)
  have hne' : l.dedup ≠ [] := by rw [Ne, List.dedup_eq_nil]; exact hne
  generalize l.dedup = d at hnd hmem hne'
  match d with
  | [] => exact absurd rfl hne'
  | [_] => rfl
  | a :: b :: r =>
    exfalso
    have := (List.nodup_cons.1 hnd).1
    apply this
    rw [hmem a (by simp), hmem b (by simp)]
    simp

end Verif.Proofs.Cont
