import Verif.Proofs.Contains3

/-! # C11: containment of analysis trees -/

set_option autoImplicit false

namespace Verif.Props
open Verif Verif.Spec Verif.ATree Verif.Proofs.Cont

/-- For two verification trees on the same time grid that were not cut short (`OnGrid`), over the same agents and dimensions,
`contains` answers `True` exactly if every value that the other tree allows for some agent, step and dimension is within `tol`
of a value this tree allows for the same agent, step and dimension.

Partial with respect to C11: coverage is decided per dimension, not per rectangle (`C11_projections_violated`), and only trees
without prematurely ended branches are compared correctly (`C11_dropped_tail_violated`). -/
theorem C11_contains_iff_partial (R : Rnd) (strict : Bool) (tol h T T' : ℚ) (this other : RTree CNode) (cont : Nat) (ty : NType)
    (ht : 0 ≤ tol) (hh : 0 < h) (h10 : R.r10 h = h) (hint : ∀ z : ℤ, R.int z = z) (hTT : T' ≤ T)
    (hs : this.label.start = other.label.start)
    (hty1 : ∀ u ∈ RTree.subs this, u.label.ntype = ty) (hty2 : ∀ u ∈ RTree.subs other, u.label.ntype = ty)
    (hag : ∀ a, a ∈ this.label.agents ↔ a ∈ other.label.agents) (hne : other.label.agents ≠ [])
    (h1 : OnGrid h T other.label.agents cont this) (h2 : OnGrid h T' other.label.agents cont other) :
    ∃ b, contains R strict tol this other = .ok b ∧
      (b = true ↔ ∀ a ∈ other.label.agents, ∀ i j x, j < cont → Covers h other a i j x → ∃ y, Covers h this a i j y ∧ |x - y| ≤ tol) := by
  obtain ⟨m0, ms, hm⟩ : ∃ m0 ms, other.label.agents = m0 :: ms := by
    cases hh : other.label.agents with
    | nil => exact absurd hh hne
    | cons a b => exact ⟨a, b, rfl⟩
  have hm0 : m0 ∈ other.label.agents := by rw [hm]; simp
  obtain ⟨ra, ha1, Na, hNa, hNaT, hga⟩ := collect_good hh h10 hint hm0 h1
  obtain ⟨rb, hb1, Nb, hNb, hNbT, hgb⟩ := collect_good hh h10 hint hm0 h2
  have hNN : Nb ≤ Na := by
    have : (Nb : ℚ) * h ≤ Na * h := by rw [hs] at hNaT; linarith
    exact_mod_cast le_of_mul_le_mul_right this hh
  have hag2 : (if strict then (other.label.agents).all (fun a => this.label.agents.contains a) &&
      this.label.agents.all (fun a => other.label.agents.contains a) else
      (other.label.agents).all (fun a => this.label.agents.contains a)) = true := by
    have e1 : (other.label.agents).all (fun a => this.label.agents.contains a) = true := by
      rw [List.all_eq_true]; intro a ha; rw [List.contains_iff_mem]; exact (hag a).2 ha
    have e2 : (this.label.agents).all (fun a => other.label.agents.contains a) = true := by
      rw [List.all_eq_true]; intro a ha; rw [List.contains_iff_mem]; exact (hag a).1 ha
    rw [e1, e2]; simp
  obtain ⟨row0, hrow0, hr0, hr0l⟩ : ∃ rows0, Dict.get? other.label.trace m0 = some rows0 ∧ ∃ row0, rows0[0]? = some row0 ∧ row0.length = cont := by
    cases h2 with
    | mk L hL hrows _ _ _ _ =>
      obtain ⟨rows, p1, p2, p3, _⟩ := hrows m0 hm0
      refine ⟨rows, p1, rows[0], List.getElem?_eq_getElem (by omega), p3 _ (List.getElem_mem _)⟩
  obtain ⟨r0, hr0e⟩ : ∃ r0, r0 = row0 := ⟨_, rfl⟩
  obtain ⟨la, hla1, hla2, hla3⟩ := hga m0 hm0
  obtain ⟨lb, hlb1, hlb2, hlb3⟩ := hgb m0 hm0
  have hcell : ∀ a ∈ other.label.agents, ∀ i < Nb, ∀ j < cont, ∃ x y xs ys xr yr, Dict.get? rb a = some xs ∧ xs[i]? = some xr ∧
      xr[j]? = some x ∧ Dict.get? ra a = some ys ∧ ys[i]? = some yr ∧ yr[j]? = some y ∧
      (∀ z, Mem z x ↔ Covers h other a i j z) ∧ (∀ z, Mem z y ↔ Covers h this a i j z) ∧ (∀ p ∈ x, p.1 ≤ p.2) ∧ ∀ p ∈ y, p.1 ≤ p.2 := by
    intro a ha i hi j hj
    obtain ⟨xs, x1, x2, x3⟩ := hgb a ha
    obtain ⟨ys, y1, y2, y3⟩ := hga a ha
    obtain ⟨xr, x4, x5, x6⟩ := x3 i hi
    obtain ⟨yr, y4, y5, y6⟩ := y3 i (by omega)
    obtain ⟨x, x7, x8, x9⟩ := x6 j hj
    obtain ⟨y, y7, y8, y9⟩ := y6 j hj
    exact ⟨x, y, xs, ys, xr, yr, x1, x4, x7, y1, y4, y7, x8, y8, x9, y9⟩
  -- the final scan never raises
  have hev : ∀ a ∈ other.label.agents, ∀ i < Nb, ∀ j < cont, ∃ b, (do
          let x ← key rb a
          let x ← idx x i
          let x ← idx x j
          let y ← key ra a
          let y ← idx y i
          let y ← idx y j
          (Except.ok (inCell x (bloat tol y)) : Except Err Bool)) = .ok b ∧
      (b = true ↔ ∀ x, Covers h other a i j x → ∃ y, Covers h this a i j y ∧ |x - y| ≤ tol) := by
    intro a ha i hi j hj
    obtain ⟨x, y, xs, ys, xr, yr, p1, p2, p3, p4, p5, p6, p7, p8, p9, p10⟩ := hcell a ha i hi j hj
    refine ⟨inCell x (bloat tol y), ?_, ?_⟩
    · rw [key_some p1]; dsimp only [bind, Except.bind]
      rw [idx_some p2]; dsimp only
      rw [idx_some p3]; dsimp only
      rw [key_some p4]; dsimp only
      rw [idx_some p5]; dsimp only
      rw [idx_some p6]
    · rw [inCell_iff ht p9 p10]
      simp only [p7, p8]
  have hstep : ∀ {α : Type} (f : α → Except Err Bool) (l : List α), (∀ a ∈ l, ∃ b, f a = .ok b) → ∃ b, allM f l = .ok b := by
    intro α f l
    induction l with
    | nil => intro _; exact ⟨true, rfl⟩
    | cons a l ih =>
      intro h
      obtain ⟨b, hb⟩ := h a (by simp)
      obtain ⟨c, hc⟩ := ih (fun x hx => h x (by simp [hx]))
      rw [allM, hb]
      cases b
      · exact ⟨false, rfl⟩
      · exact ⟨c, hc⟩
  unfold contains
  have htypes := uniform_types hty1 hty2
  rw [if_neg (by rw [htypes]; simp)]
  dsimp only
  rw [hag2]
  rw [if_neg (by simp)]
  have hidx : idx other.label.agents 0 = .ok m0 := by rw [hm]; rfl
  rw [hidx]
  dsimp only [bind, Except.bind]
  rw [key_some hrow0]
  dsimp only
  rw [idx_some hr0l.1]
  dsimp only
  rw [hr0l.2, ha1]
  dsimp only
  rw [hb1]
  dsimp only
  rw [key_some hla1]
  dsimp only
  rw [key_some hlb1]
  dsimp only
  rw [if_neg (by omega), hlb2]
  dsimp only [bind, Except.bind] at hev
  obtain ⟨b, hb⟩ := hstep (fun aid => allM (fun i => allM (fun j => (do
          let x ← key rb aid
          let x ← idx x i
          let x ← idx x j
          let y ← key ra aid
          let y ← idx y i
          let y ← idx y j
          (Except.ok (inCell x (bloat tol y)) : Except Err Bool))) (List.range cont)) (List.range Nb)) other.label.agents (by
    intro a ha
    apply hstep
    intro i hi
    apply hstep
    intro j hj
    obtain ⟨b, hb, _⟩ := hev a ha i (List.mem_range.1 hi) j (List.mem_range.1 hj)
    exact ⟨b, hb⟩)
  dsimp only [bind, Except.bind] at hb
  refine ⟨b, hb, ?_⟩
  have hbt : b = true ↔ _ := ⟨fun h => by rw [h] at hb; exact allM_true.1 hb, fun h => by
    have := allM_true.2 h
    rw [this] at hb; cases hb; rfl⟩
  rw [hbt]
  constructor
  · intro H a ha i j x hj hx
    have hiN : i < Nb := by
      by_contra hcon
      push Not at hcon
      exact absurd (covers_lt hh h2 ha hx) (by
        intro hlt
        have h3 : ((i : ℚ) + 1) * h ≤ Nb * h := by linarith
        have h4 : ((i : ℚ) + 1) ≤ Nb := le_of_mul_le_mul_right h3 hh
        have : i + 1 ≤ Nb := by exact_mod_cast h4
        omega)
    have := allM_true.1 (allM_true.1 (H a ha) i (List.mem_range.2 hiN)) j (List.mem_range.2 hj)
    obtain ⟨b', hb', hb''⟩ := hev a ha i hiN j hj
    rw [hb'] at this
    cases this
    exact hb''.1 rfl x hx
  · intro H a ha
    apply allM_true.2
    intro i hi
    apply allM_true.2
    intro j hj
    obtain ⟨b', hb', hb''⟩ := hev a ha i (List.mem_range.1 hi) j (List.mem_range.1 hj)
    rw [hb', hb''.2 (fun x hx => H a ha i j x (List.mem_range.1 hj) hx)]

/-- A verification tree on a time grid that was not cut short contains itself and equals itself. -/
theorem C11_reflexive_partial (R : Rnd) (strict : Bool) (tol h T : ℚ) (t : RTree CNode) (cont : Nat) (ty : NType)
    (ht : 0 ≤ tol) (hh : 0 < h) (h10 : R.r10 h = h) (hint : ∀ z : ℤ, R.int z = z)
    (hty : ∀ u ∈ RTree.subs t, u.label.ntype = ty) (hne : t.label.agents ≠ [])
    (h1 : OnGrid h T t.label.agents cont t) : contains R strict tol t t = .ok true ∧ isEqual R tol t t = .ok true := by
  have key : ∀ s, contains R s tol t t = .ok true := by
    intro s
    obtain ⟨b, hb, hb'⟩ := C11_contains_iff_partial R s tol h T T t t cont ty ht hh h10 hint (le_refl _) rfl hty hty
      (fun _ => Iff.rfl) hne h1 h1
    rw [hb, hb'.2 (fun a _ i j x _ hx => ⟨x, hx, by simpa using ht⟩)]
  refine ⟨key strict, ?_⟩
  unfold isEqual
  rw [key true]
  rfl

/-- `is_equal` on verification trees of the same grid, horizon and agents: true exactly if each tree covers what the other covers. -/
theorem C11_equal_iff_partial (R : Rnd) (tol h T : ℚ) (this other : RTree CNode) (cont : Nat) (ty : NType)
    (ht : 0 ≤ tol) (hh : 0 < h) (h10 : R.r10 h = h) (hint : ∀ z : ℤ, R.int z = z)
    (hs : this.label.start = other.label.start)
    (hty1 : ∀ u ∈ RTree.subs this, u.label.ntype = ty) (hty2 : ∀ u ∈ RTree.subs other, u.label.ntype = ty)
    (hag : this.label.agents = other.label.agents) (hne : other.label.agents ≠ [])
    (h1 : OnGrid h T other.label.agents cont this) (h2 : OnGrid h T other.label.agents cont other) :
    ∃ b, isEqual R tol this other = .ok b ∧
      (b = true ↔ (∀ a ∈ other.label.agents, ∀ i j x, j < cont → Covers h other a i j x → ∃ y, Covers h this a i j y ∧ |x - y| ≤ tol) ∧
        (∀ a ∈ other.label.agents, ∀ i j x, j < cont → Covers h this a i j x → ∃ y, Covers h other a i j y ∧ |x - y| ≤ tol)) := by
  obtain ⟨b1, e1, f1⟩ := C11_contains_iff_partial R true tol h T T this other cont ty ht hh h10 hint (le_refl _) hs hty1 hty2 (fun a => by rw [hag]) hne h1 h2
  obtain ⟨b2, e2, f2⟩ := C11_contains_iff_partial R true tol h T T other this cont ty ht hh h10 hint (le_refl _) hs.symm hty2 hty1 (fun a => by rw [hag])
    (hag ▸ hne) (hag ▸ h2) (hag ▸ h1)
  unfold isEqual
  cases b1 with
  | false =>
    refine ⟨false, by rw [e1]; rfl, ?_⟩
    constructor
    · intro h; cases h
    · rintro ⟨h, _⟩; exact f1.2 h
  | true =>
    refine ⟨b2, by rw [e1]; exact e2, ?_⟩
    rw [f2, hag]
    exact ⟨fun h => ⟨f1.1 rfl, h⟩, fun h => h.2⟩

/-- A tree that lasts longer is not reported as contained: the comparison is refused. -/
theorem C11_longer_partial (R : Rnd) (strict : Bool) (tol h T T' : ℚ) (this other : RTree CNode) (cont : Nat) (ty : NType)
    (hh : 0 < h) (h10 : R.r10 h = h) (hint : ∀ z : ℤ, R.int z = z) (hTT : T < T')
    (hs : this.label.start = other.label.start)
    (hty1 : ∀ u ∈ RTree.subs this, u.label.ntype = ty) (hty2 : ∀ u ∈ RTree.subs other, u.label.ntype = ty)
    (hag : ∀ a, a ∈ this.label.agents ↔ a ∈ other.label.agents) (hne : other.label.agents ≠ [])
    (h1 : OnGrid h T other.label.agents cont this) (h2 : OnGrid h T' other.label.agents cont other) :
    contains R strict tol this other = .error .assertion := by
  obtain ⟨m0, ms, hm⟩ : ∃ m0 ms, other.label.agents = m0 :: ms := by
    cases hh : other.label.agents with
    | nil => exact absurd hh hne
    | cons a b => exact ⟨a, b, rfl⟩
  have hm0 : m0 ∈ other.label.agents := by rw [hm]; simp
  obtain ⟨ra, ha1, Na, hNa, hNaT, hga⟩ := collect_good hh h10 hint hm0 h1
  obtain ⟨rb, hb1, Nb, hNb, hNbT, hgb⟩ := collect_good hh h10 hint hm0 h2
  have hNN : Na < Nb := by
    have : (Na : ℚ) * h < Nb * h := by rw [hs] at hNaT; linarith
    exact_mod_cast lt_of_mul_lt_mul_right this hh.le
  have hag2 : (if strict then (other.label.agents).all (fun a => this.label.agents.contains a) &&
      this.label.agents.all (fun a => other.label.agents.contains a) else
      (other.label.agents).all (fun a => this.label.agents.contains a)) = true := by
    have e1 : (other.label.agents).all (fun a => this.label.agents.contains a) = true := by
      rw [List.all_eq_true]; intro a ha; rw [List.contains_iff_mem]; exact (hag a).2 ha
    have e2 : (this.label.agents).all (fun a => other.label.agents.contains a) = true := by
      rw [List.all_eq_true]; intro a ha; rw [List.contains_iff_mem]; exact (hag a).1 ha
    rw [e1, e2]; simp
  obtain ⟨row0, hrow0, hr0, hr0l⟩ : ∃ rows0, Dict.get? other.label.trace m0 = some rows0 ∧ ∃ row0, rows0[0]? = some row0 ∧ row0.length = cont := by
    cases h2 with
    | mk L hL hrows _ _ _ _ =>
      obtain ⟨rows, p1, p2, p3, _⟩ := hrows m0 hm0
      refine ⟨rows, p1, rows[0], List.getElem?_eq_getElem (by omega), p3 _ (List.getElem_mem _)⟩
  obtain ⟨la, hla1, hla2, _⟩ := hga m0 hm0
  obtain ⟨lb, hlb1, hlb2, _⟩ := hgb m0 hm0
  unfold contains
  have htypes := uniform_types hty1 hty2
  rw [if_neg (by rw [htypes]; simp)]
  dsimp only
  rw [hag2]
  rw [if_neg (by simp)]
  have hidx : idx other.label.agents 0 = .ok m0 := by rw [hm]; rfl
  rw [hidx]
  dsimp only [bind, Except.bind]
  rw [key_some hrow0]
  dsimp only
  rw [idx_some hr0l.1]
  dsimp only
  rw [hr0l.2, ha1]
  dsimp only
  rw [hb1]
  dsimp only
  rw [key_some hla1]
  dsimp only
  rw [key_some hlb1]
  dsimp only
  rw [if_pos (by omega)]

/-- A tree with an agent that this tree does not have is not contained; nor, under `strict`, one that lacks an agent of this tree. -/
theorem C11_agents (R : Rnd) (strict : Bool) (tol : ℚ) (this other : RTree CNode) (ty : NType)
    (hty1 : ∀ u ∈ RTree.subs this, u.label.ntype = ty) (hty2 : ∀ u ∈ RTree.subs other, u.label.ntype = ty)
    (hag : (∃ a ∈ other.label.agents, a ∉ this.label.agents) ∨ (strict = true ∧ ∃ a ∈ this.label.agents, a ∉ other.label.agents)) :
    contains R strict tol this other = .ok false := by
  have hag2 : (if strict then (other.label.agents).all (fun a => this.label.agents.contains a) &&
      this.label.agents.all (fun a => other.label.agents.contains a) else
      (other.label.agents).all (fun a => this.label.agents.contains a)) = false := by
    rcases hag with ⟨a, h1, h2⟩ | ⟨hst, a, h1, h2⟩
    · have e1 : (other.label.agents).all (fun a => this.label.agents.contains a) = false := by
        rw [List.all_eq_false]; exact ⟨a, h1, by simpa [List.contains_iff_mem] using h2⟩
      rw [e1]; simp
    · have e1 : (this.label.agents).all (fun a => other.label.agents.contains a) = false := by
        rw [List.all_eq_false]; exact ⟨a, h1, by simpa [List.contains_iff_mem] using h2⟩
      rw [hst, e1]; simp
  unfold contains
  have htypes := uniform_types hty1 hty2
  rw [if_neg (by rw [htypes]; simp)]
  dsimp only
  rw [hag2]
  rfl

namespace ContWitness

def R : Rnd := ⟨id, fun x => ⌊x + 1 / 2⌋⟩

theorem R_int (z : ℤ) : R.int z = z := by
  show ⌊(z : ℚ) + 1 / 2⌋ = z
  rw [Int.floor_eq_iff]
  constructor <;> linarith

/-- a node of agent `a` -/
def nd (ty : NType) (start : ℚ) (rows : List (List ℚ)) : CNode := ⟨["a"], [("a", rows)], start, ty⟩

/-- two rectangles, then two branches starting in the second one -/
def good : RTree CNode := .node (nd .reach 0 [[0, 0, 0], [1, 1, 1], [1, 0, 0], [2, 1, 1]])
  [.node (nd .reach 1 [[1, 0, 0], [2, 1, 1], [2, 0, 0], [3, 1, 1]]) [],
   .node (nd .reach 1 [[1, 2, 2], [2, 3, 3], [2, 2, 2], [3, 3, 3]]) []]

/-- as `good`, with the rectangle `[0,1]×[2,3]` in the second branch -/
def crossed : RTree CNode := .node (nd .reach 0 [[0, 0, 0], [1, 1, 1], [1, 0, 0], [2, 1, 1]])
  [.node (nd .reach 1 [[1, 0, 0], [2, 1, 1], [2, 0, 0], [3, 1, 1]]) [],
   .node (nd .reach 1 [[1, 0, 2], [2, 1, 3], [2, 0, 2], [3, 1, 3]]) []]

theorem onGrid_leaf {h T : ℚ} {cont : Nat} {ty : NType} {start : ℚ} {rows : List (List ℚ)} (L : Nat) (hL : 0 < L)
    (hl : rows.length = 2 * L) (hw : ∀ r ∈ rows, r.length = cont)
    (h1 : ∃ r, rows[2 * L - 2]? = some r ∧ r[0]? = some (start + (L - 1 : ℕ) * h))
    (h2 : ∃ r, rows[2 * L - 1]? = some r ∧ r[0]? = some (start + L * h)) (hT : start + L * h = T) :
    OnGrid h T ["a"] cont (.node (nd ty start rows) []) := by
  refine .mk L hL ?_ (by simp) (by simp) (fun _ => hT) hT.le
  intro a ha
  simp only [List.mem_singleton] at ha
  subst ha
  exact ⟨rows, rfl, hl, hw, h1, h2⟩

theorem good_onGrid : OnGrid 1 3 ["a"] 3 good := by
  refine .mk 2 (by norm_num) ?_ ?_ ?_ (by simp) (by norm_num [nd])
  · intro a ha
    simp only [List.mem_singleton] at ha
    subst ha
    exact ⟨_, rfl, rfl, by simp, ⟨_, rfl, by norm_num [nd]⟩, ⟨_, rfl, by norm_num [nd]⟩⟩
  · intro t ht
    simp only [List.mem_cons, List.not_mem_nil, or_false] at ht
    rcases ht with rfl | rfl
    · exact onGrid_leaf 2 (by norm_num) rfl (by simp) ⟨_, rfl, by norm_num⟩ ⟨_, rfl, by norm_num⟩ (by norm_num)
    · exact onGrid_leaf 2 (by norm_num) rfl (by simp) ⟨_, rfl, by norm_num⟩ ⟨_, rfl, by norm_num⟩ (by norm_num)
  · intro t ht
    simp only [List.mem_cons, List.not_mem_nil, or_false] at ht
    rcases ht with rfl | rfl <;> exact ⟨1, by norm_num, by norm_num [RTree.label, nd]⟩

/-- the hypotheses of `C11_contains_iff_partial` and `C11_reflexive_partial` are met -/
example : contains R true (1 / 1000000) good good = .ok true ∧ isEqual R (1 / 1000000) good good = .ok true :=
  C11_reflexive_partial R true (1 / 1000000) 1 3 good 3 .reach (by norm_num) (by norm_num) rfl R_int
    (by intro u hu
        simp only [good, RTree.subs, RTree.subsL, List.mem_append, List.mem_cons, List.not_mem_nil, or_false, List.append_nil] at hu
        rcases hu with rfl | rfl | rfl <;> rfl) (by simp [good, nd, RTree.label]) good_onGrid

/-- the hypotheses of `C11_equal_iff_partial` are those of `C11_reflexive_partial` for two trees; one that contains another is not equal to it -/
example : contains R true (1 / 1000000) (.node (nd .reach 0 [[0, 0], [1, 5]]) []) (.node (nd .reach 0 [[0, 0], [1, 1]]) []) = .ok true ∧
    isEqual R (1 / 1000000) (.node (nd .reach 0 [[0, 0], [1, 5]]) []) (.node (nd .reach 0 [[0, 0], [1, 1]]) []) = .ok false := by
  constructor <;> decide +kernel

/-- the hypotheses of `C11_longer_partial` are met: a tree that ends at time 1 and `good` -/
example : contains R true (1 / 1000000) (.node (nd .reach 0 [[0, 0, 0], [1, 1, 1]]) []) good = .error .assertion :=
  C11_longer_partial R true (1 / 1000000) 1 1 3 _ good 3 .reach (by norm_num) rfl R_int (by norm_num) rfl
    (by intro u hu
        simp only [RTree.subs, RTree.subsL, List.mem_cons, List.not_mem_nil, or_false] at hu
        rcases hu with rfl; rfl)
    (by intro u hu
        simp only [good, RTree.subs, RTree.subsL, List.mem_append, List.mem_cons, List.not_mem_nil, or_false, List.append_nil] at hu
        rcases hu with rfl | rfl | rfl <;> rfl) (fun _ => Iff.rfl) (by simp [good, nd, RTree.label])
    (onGrid_leaf 1 (by norm_num) rfl (by simp) ⟨_, rfl, by norm_num⟩ ⟨_, rfl, by norm_num⟩ (by norm_num)) good_onGrid

/-- the hypotheses of `C11_agents` are met -/
example : contains R false (1 / 1000000) good (.node ⟨["a", "b"], [("a", []), ("b", [])], 0, .reach⟩ []) = .ok false :=
  C11_agents R false (1 / 1000000) good _ .reach
    (by intro u hu
        simp only [good, RTree.subs, RTree.subsL, List.mem_append, List.mem_cons, List.not_mem_nil, or_false, List.append_nil] at hu
        rcases hu with rfl | rfl | rfl <;> rfl)
    (by intro u hu
        simp only [RTree.subs, RTree.subsL, List.mem_cons, List.not_mem_nil, or_false] at hu
        rcases hu with rfl; rfl)
    (.inl ⟨"b", by simp [RTree.label], by simp [good, nd, RTree.label]⟩)

/-- and the answer can be `False` -/
example : contains R true (1 / 1000000) good (.node (nd .reach 0 [[0, 0, 0], [1, 1, 2]]) []) = .ok false := by decide +kernel

end ContWitness

open ContWitness

/-- C11 fails, projections: `contains` answers `True` although the other tree has a rectangle that no rectangle of this tree
at that step meets, because every dimension is compared separately. -/
theorem C11_projections_violated : contains R true (1 / 1000000) good crossed = .ok true ∧
    RectAt 1 "a" crossed 2 [2, 0, 2] [3, 1, 3] ∧
    ∀ lo hi, RectAt 1 "a" good 2 lo hi → (lo = [2, 0, 0] ∧ hi = [3, 1, 1]) ∨ (lo = [2, 2, 2] ∧ hi = [3, 3, 3]) := by
  refine ⟨by decide +kernel, ?_, ?_⟩
  · exact .child (s := 1) (i := 1) (t := .node (nd .reach 1 [[1, 0, 2], [2, 1, 3], [2, 0, 2], [3, 1, 3]]) [])
      (by simp) (by norm_num [RTree.label, nd]) (.own rfl rfl rfl)
  · intro lo hi h
    generalize hi2 : (2 : Nat) = k at h
    unfold good at h
    cases h with
    | own h1 h2 h3 =>
      subst hi2
      rw [show Dict.get? (nd .reach 0 [[0, 0, 0], [1, 1, 1], [1, 0, 0], [2, 1, 1]]).trace "a" = some [[0, 0, 0], [1, 1, 1], [1, 0, 0], [2, 1, 1]] from rfl] at h1
      cases h1
      simp at h2
    | @child _ _ t s i _ _ hm hs hr =>
      simp only [List.mem_cons, List.not_mem_nil, or_false] at hm
      rcases hm with rfl | rfl
      · have hs1 : s = 1 := by
          simp only [RTree.label, nd, zero_add, mul_one] at hs
          exact_mod_cast hs.symm
        have hi1 : i = 1 := by omega
        subst hs1
        cases hr with
        | own h1 h2 h3 =>
          subst hi1
          cases h1
          left
          simp at h2 h3
          exact ⟨h2.symm, h3.symm⟩
        | child hm => simp at hm
      · have hs1 : s = 1 := by
          simp only [RTree.label, nd, zero_add, mul_one] at hs
          exact_mod_cast hs.symm
        have hi1 : i = 1 := by omega
        subst hs1
        cases hr with
        | own h1 h2 h3 =>
          subst hi1
          cases h1
          right
          simp at h2 h3
          exact ⟨h2.symm, h3.symm⟩
        | child hm => simp at hm

namespace ContWitness
/-- a branch that starts at step 0 and ends early, and one that starts at step 1 and ends with the rectangle `[v, v+1]` -/
def tail (v : ℚ) : RTree CNode := .node (nd .reach 0 [[0, 0], [1, 1], [1, 0], [2, 1]])
  [.node (nd .reach 0 [[0, 0], [1, 1], [1, 0], [2, 1]]) [],
   .node (nd .reach 1 [[1, 0], [2, 1], [2, 0], [3, 1], [3, v], [4, v + 1]]) []]
end ContWitness

/-- C11 fails, prematurely ended branches: the last rectangle of the longer branch is not compared. -/
theorem C11_dropped_tail_violated : contains R true (1 / 1000000) (tail 0) (tail 100) = .ok true ∧
    RectAt 1 "a" (tail 100) 3 [3, 100] [4, 101] ∧ ∀ lo hi, RectAt 1 "a" (tail 0) 3 lo hi → lo = [3, 0] ∧ hi = [4, 1] := by
  refine ⟨by decide +kernel, ?_, ?_⟩
  · exact .child (s := 1) (i := 2) (t := .node (nd .reach 1 [[1, 0], [2, 1], [2, 0], [3, 1], [3, 100], [4, 101]]) [])
      (by norm_num) (by norm_num [RTree.label, nd]) (.own rfl rfl rfl)
  · intro lo hi h
    generalize hi2 : (3 : Nat) = k at h
    unfold tail at h
    cases h with
    | own h1 h2 h3 =>
      subst hi2
      cases h1
      simp at h2
    | @child _ _ t s i _ _ hm hs hr =>
      simp only [List.mem_cons, List.not_mem_nil, or_false] at hm
      rcases hm with rfl | rfl
      · have hs1 : s = 0 := by
          simp only [RTree.label, nd, zero_add, mul_one] at hs
          exact_mod_cast hs.symm
        have hi1 : i = 3 := by omega
        subst hs1
        cases hr with
        | own h1 h2 h3 => subst hi1; cases h1; simp at h2
        | child hm => simp at hm
      · have hs1 : s = 1 := by
          simp only [RTree.label, nd, zero_add, mul_one] at hs
          exact_mod_cast hs.symm
        have hi1 : i = 2 := by omega
        subst hs1
        cases hr with
        | own h1 h2 h3 =>
          subst hi1
          cases h1
          simp at h2 h3
          exact ⟨h2.symm, h3.symm⟩
        | child hm => simp at hm

/-- C11 fails, reflexivity of verification trees: comparing a tree with itself raises `IndexError` if all branches of a node end
before the node itself does (for instance because an assertion failed). -/
theorem C11_early_end_violated : contains R true (1 / 1000000)
    (.node (nd .reach 0 [[0, 0], [1, 1], [1, 0], [2, 1]]) [.node (nd .reach 0 [[0, 0], [1, 1]]) []])
    (.node (nd .reach 0 [[0, 0], [1, 1], [1, 0], [2, 1]]) [.node (nd .reach 0 [[0, 0], [1, 1]]) []]) = .error .indexError := by
  decide +kernel

/-- C11 fails, simulation trees: the branch for simulations is unreachable. Comparing a simulation tree with an odd number of
samples with itself raises `IndexError`; trees whose values decrease are equal to any tree of the same shape and times. -/
theorem C11_simulation_violated :
    contains R true (1 / 1000000) (.node (nd .sim 0 [[0, 1], [1, 2], [2, 3]]) []) (.node (nd .sim 0 [[0, 1], [1, 2], [2, 3]]) [])
      = .error .indexError ∧
    isEqual R (1 / 1000000) (.node (nd .sim 0 [[0, 5], [1, 4]]) []) (.node (nd .sim 0 [[0, 105], [1, 104]]) []) = .ok true := by
  constructor <;> decide +kernel

end Verif.Props
