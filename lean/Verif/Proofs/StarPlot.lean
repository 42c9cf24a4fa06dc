import Verif.Model.StarPlot
import Verif.Spec.StarPlot
import Verif.Proofs.Star
import Verif.Proofs.ATree
import Verif.Proofs.Plot
import Verif.Proofs.ATree2
import Mathlib.Analysis.Complex.Basic
import Mathlib.Analysis.SpecialFunctions.Complex.Arg
import Mathlib.Analysis.SpecialFunctions.Trigonometric.Bounds
import Mathlib.Analysis.InnerProductSpace.Projection.Minimal
import Mathlib.Analysis.Convex.Topology
import Mathlib.Tactic.Linarith

/-! Helper lemmas for C110. -/

set_option autoImplicit false

namespace Verif.StarPlot
open Verif.Spec Verif.ATree Verif.Stars Finset

/-! ### directions -/

/-- Every direction is close to one of the compass. -/
theorem compass_near (u v : ℝ) (h : u ^ 2 + v ^ 2 = 1) : ∃ c ∈ compass, (u - c.1) ^ 2 + (v - c.2) ^ 2 ≤ (Real.pi / 99) ^ 2 := by
  have hpi := Real.pi_pos
  obtain ⟨φ, h0, h1, hc, hs⟩ : ∃ φ : ℝ, 0 ≤ φ ∧ φ < 2 * Real.pi ∧ u = Real.cos φ ∧ v = Real.sin φ := by
    have hz : ‖(⟨u, v⟩ : ℂ)‖ = 1 := by
      rw [Complex.norm_eq_sqrt_sq_add_sq]; simp [h]
    have hz0 : (⟨u, v⟩ : ℂ) ≠ 0 := by intro e; rw [e] at hz; simp at hz
    have hc : Real.cos (Complex.arg ⟨u, v⟩) = u := by rw [Complex.cos_arg hz0, hz]; simp
    have hs : Real.sin (Complex.arg ⟨u, v⟩) = v := by rw [Complex.sin_arg, hz]; simp
    have hl := Complex.neg_pi_lt_arg (⟨u, v⟩ : ℂ)
    have hu := Complex.arg_le_pi (⟨u, v⟩ : ℂ)
    by_cases hn : 0 ≤ Complex.arg ⟨u, v⟩
    · exact ⟨_, hn, by linarith, hc.symm, hs.symm⟩
    · refine ⟨Complex.arg ⟨u, v⟩ + 2 * Real.pi, by linarith, by linarith [not_le.1 hn], ?_, ?_⟩
      · rw [Real.cos_add_two_pi, hc]
      · rw [Real.sin_add_two_pi, hs]
  set δ : ℝ := 2 * Real.pi / 99 with hδ
  have hδ0 : 0 < δ := by positivity
  set i := ⌊φ / δ + 1 / 2⌋₊ with hi
  have hx : 0 ≤ φ / δ + 1 / 2 := by positivity
  have e1 : (i : ℝ) ≤ φ / δ + 1 / 2 := Nat.floor_le hx
  have e2 : φ / δ + 1 / 2 < i + 1 := Nat.lt_floor_add_one _
  have e3 : φ / δ < 99 := by
    rw [div_lt_iff₀ hδ0]
    have : 99 * δ = 2 * Real.pi := by rw [hδ]; field_simp
    linarith
  have hi100 : i < 100 := by
    have : (i : ℝ) < 100 := by linarith
    exact_mod_cast this
  refine ⟨(Real.cos (angle i), Real.sin (angle i)), List.mem_map.2 ⟨i, List.mem_range.2 hi100, rfl⟩, ?_⟩
  have hd : |φ - angle i| ≤ Real.pi / 99 := by
    have e4 : φ - angle i = (φ / δ - i) * δ := by
      unfold angle; rw [← hδ]; field_simp
    rw [e4, abs_mul, abs_of_pos hδ0]
    have : |φ / δ - i| ≤ 1 / 2 := abs_le.2 ⟨by linarith, by linarith⟩
    calc |φ / δ - i| * δ ≤ 1 / 2 * δ := by gcongr
      _ = Real.pi / 99 := by rw [hδ]; ring
  have e5 : (u - Real.cos (angle i)) ^ 2 + (v - Real.sin (angle i)) ^ 2 = 2 - 2 * Real.cos (φ - angle i) := by
    rw [hc, hs, Real.cos_sub]
    have a := Real.sin_sq_add_cos_sq φ
    have b := Real.sin_sq_add_cos_sq (angle i)
    nlinarith
  have e6 := Real.one_sub_sq_div_two_le_cos (x := φ - angle i)
  have e7 : (φ - angle i) ^ 2 ≤ (Real.pi / 99) ^ 2 := sq_le_sq' (by linarith [(abs_le.1 hd).1]) (abs_le.1 hd).2
  show (u - Real.cos (angle i)) ^ 2 + (v - Real.sin (angle i)) ^ 2 ≤ _
  rw [e5]; linarith

/-! ### distance from the region -/

/-- A point that is nowhere further than `ε` beyond all corners is near the region. -/
theorem near_of_support (vs : List (ℝ × ℝ)) (hne : vs ≠ []) (ε : ℝ) (hε : 0 ≤ ε) (p : ℝ × ℝ)
    (h : ∀ u v : ℝ, u ^ 2 + v ^ 2 = 1 → ∃ q ∈ vs, u * p.1 + v * p.2 ≤ u * q.1 + v * q.2 + ε) : Spec.Near vs ε p := by
  let f : ℝ × ℝ →ₗ[ℝ] ℂ := Complex.equivRealProdLm.symm.toLinearMap
  have hf : ∀ q : ℝ × ℝ, f q = ⟨q.1, q.2⟩ := fun q => rfl
  let S : Set (ℝ × ℝ) := {v | v ∈ vs}
  have himg := f.image_convexHull S
  have hfin : (f '' S).Finite := (List.finite_toSet vs).image f
  have hcomp := (hfin.isCompact_convexHull ℝ).isComplete
  obtain ⟨q0, hq0⟩ := List.exists_mem_of_ne_nil vs hne
  have hne' : (convexHull ℝ (f '' S)).Nonempty := ⟨f q0, subset_convexHull ℝ _ ⟨q0, hq0, rfl⟩⟩
  obtain ⟨w, hw, hmin⟩ := exists_norm_eq_iInf_of_complete_convex hne' hcomp (convex_convexHull ℝ _) (f p)
  have hin := (norm_eq_iInf_iff_real_inner_le_zero (convex_convexHull ℝ _) hw).1 hmin
  rw [← himg] at hw
  obtain ⟨q, hq, rfl⟩ := hw
  refine ⟨q, hq, ?_⟩
  set r : ℝ := Real.sqrt ((p.1 - q.1) ^ 2 + (p.2 - q.2) ^ 2) with hr
  have hr2 : r ^ 2 = (p.1 - q.1) ^ 2 + (p.2 - q.2) ^ 2 := Real.sq_sqrt (by positivity)
  rw [← hr2]
  by_cases hr0 : r = 0
  · rw [hr0]; simpa using sq_nonneg ε
  have hrp : 0 < r := lt_of_le_of_ne (Real.sqrt_nonneg _) (Ne.symm hr0)
  obtain ⟨c, hc, hle⟩ := h ((p.1 - q.1) / r) ((p.2 - q.2) / r) (by
    rw [div_pow, div_pow, ← add_div, ← hr2]; exact div_self (by positivity))
  have h1 := hin (f c) (subset_convexHull ℝ _ ⟨c, hc, rfl⟩)
  rw [hf, hf, hf] at h1
  have h2 : (p.1 - q.1) * (c.1 - q.1) + (p.2 - q.2) * (c.2 - q.2) ≤ 0 := by
    have := h1
    rw [Complex.inner] at this
    simp at this
    linarith
  have h3 : (p.1 - q.1) * p.1 + (p.2 - q.2) * p.2 ≤ (p.1 - q.1) * c.1 + (p.2 - q.2) * c.2 + ε * r := by
    have := mul_le_mul_of_nonneg_right hle hrp.le
    have a1 : ((p.1 - q.1) / r * p.1 + (p.2 - q.2) / r * p.2) * r = (p.1 - q.1) * p.1 + (p.2 - q.2) * p.2 := by field_simp
    have a2 : ((p.1 - q.1) / r * c.1 + (p.2 - q.2) / r * c.2 + ε) * r = (p.1 - q.1) * c.1 + (p.2 - q.2) * c.2 + ε * r := by field_simp
    rw [a1, a2] at this; exact this
  have h4 : r * r ≤ ε * r := by nlinarith
  have h5 : r ≤ ε := le_of_mul_le_mul_right h4 hrp
  gcongr

/-! ### one point -/

theorem sum_direction (n a b : Nat) (ha : a < n) (hb : b < n) (hab : a ≠ b) (x y : ℝ) (B : Nat → ℝ) :
    ∑ k ∈ range n, (-1 * (if k = b then y else if k = a then x else 0)) * B k = -(x * B a + y * B b) := by
  have : ∀ k ∈ range n, (-1 * (if k = b then y else if k = a then x else 0)) * B k = (if k = b then -(y * B k) else 0) + (if k = a then -(x * B k) else 0) := by
    intro k _
    by_cases h1 : k = b
    · subst h1; rw [if_pos rfl, if_pos rfl, if_neg (Ne.symm hab)]; ring
    · rw [if_neg h1, if_neg h1]
      split <;> ring
  rw [sum_congr rfl this, sum_add_distrib, sum_ite_eq', sum_ite_eq', if_pos (mem_range.2 hb), if_pos (mem_range.2 ha)]
  ring

/-- One point of the outline. -/
theorem vert_spec (lp : Bool → Vec ℝ → Mat ℝ → Vec ℝ → LPRes ℝ) (hlp : LPCorrect lp) (s : StarSet ℝ) (hs : Built s) (dims : Option (Nat × Nat)) (a b : Nat)
    (hd : dims.getD (0, 1) = (a, b)) (hab : a ≠ b) (c q : ℝ × ℝ) (h : vert lp s dims c = .ok q) :
    a < s.center.len ∧ b < s.center.len ∧ s.basis.rows = s.center.len ∧ ∃ α : Nat → ℝ, Sat s.C.rows s.basis.rows s.C.at_ s.g.at_ α ∧
      q = (s.center.at_ a + ∑ j ∈ range s.basis.rows, α j * s.basis.at_ j a, s.center.at_ b + ∑ j ∈ range s.basis.rows, α j * s.basis.at_ j b) ∧
      ∀ β : Nat → ℝ, Sat s.C.rows s.basis.rows s.C.at_ s.g.at_ β → ∑ j ∈ range s.basis.rows, (c.1 * s.basis.at_ a j + c.2 * s.basis.at_ b j) * β j ≤
        ∑ j ∈ range s.basis.rows, (c.1 * s.basis.at_ a j + c.2 * s.basis.at_ b j) * α j := by
  obtain ⟨h1, h2, h3⟩ := (built_iff s).1 hs
  obtain ⟨d, hdir, h⟩ := (bind_ok_iff _ _ _).1 h
  obtain ⟨p, hmax, h⟩ := (bind_ok_iff _ _ _).1 h
  unfold pick at h
  rw [hd] at h
  dsimp only at h
  split at h
  swap
  · cases h
  next hp =>
  cases h
  unfold maximize at hmax
  split at hmax
  swap
  · cases hmax
  next hdl =>
  obtain ⟨r, hr, hmax⟩ := (bind_ok_iff _ _ _).1 hmax
  unfold callLP at hr
  split at hr
  swap
  · cases hr
  next hsh =>
  cases hr
  split at hmax
  · cases hmax
  next z hz =>
  split at hmax
  swap
  · cases hmax
  next hzl =>
  unfold vadd at hmax
  split at hmax
  swap
  · cases hmax
  next hcl =>
  cases hmax
  dsimp only at hp hcl hsh
  obtain ⟨l1, ⟨f1, -⟩, o1⟩ := hlp.sol _ _ _ _ _ hsh.1 hsh.2 hz
  dsimp only at l1 o1
  rw [h2] at f1
  have hdn : d.len = s.center.len ∧ ∀ k < d.len, d.at_ k = if k = b then c.2 else if k = a then c.1 else 0 := by
    unfold direction at hdir
    cases dims with
    | none =>
      cases hd; cases hdir
      refine ⟨by show 2 + _ = _; omega, fun k _ => ?_⟩
      show (if k = 0 then c.1 else if k = 1 then c.2 else 0) = _
      by_cases e : k = 0
      · subst e; simp
      · simp [e]
    | some e =>
      cases hd
      dsimp only at hdir
      rw [if_pos hp] at hdir
      injection hdir with hdir
      subst hdir
      exact ⟨rfl, fun _ _ => rfl⟩
  obtain ⟨hdlen, hdat⟩ := hdn
  refine ⟨hp.1, hp.2, by omega, z.at_, f1, ?_, ?_⟩
  · rw [← hzl]
  · intro β hβ
    have o := o1 β ⟨by rw [h2]; exact hβ, by simp⟩
    have e : ∀ j, ∑ k ∈ range d.len, (-1 * d.at_ k) * s.basis.at_ k j = -(c.1 * s.basis.at_ a j + c.2 * s.basis.at_ b j) := by
      intro j
      rw [← sum_direction d.len a b (by omega) (by omega) hab c.1 c.2 (fun k => s.basis.at_ k j)]
      exact sum_congr rfl (fun k hk => by rw [hdat k (mem_range.1 hk)])
    simp only [e] at o
    simp only [neg_mul, sum_neg_distrib] at o
    rw [show s.basis.rows = s.basis.cols by omega]
    exact neg_le_neg_iff.1 o

theorem vertsOf_ok {lp : Bool → Vec ℝ → Mat ℝ → Vec ℝ → LPRes ℝ} {s : StarSet ℝ} {dims : Option (Nat × Nat)} {cs l : List (ℝ × ℝ)} (h : vertsOf lp s dims cs = .ok l) :
    ∃ q l', cs.mapM (vert lp s dims) = .ok (q :: l') ∧ l = q :: l' ++ [q] := by
  obtain ⟨l1, h1, h2⟩ := (bind_ok_iff _ _ _).1 h
  cases l1 with
  | nil => cases h2
  | cons q l' => cases h2; exact ⟨q, l', h1, rfl⟩

theorem vertsOf_mem {lp : Bool → Vec ℝ → Mat ℝ → Vec ℝ → LPRes ℝ} {s : StarSet ℝ} {dims : Option (Nat × Nat)} {cs l : List (ℝ × ℝ)} (h : vertsOf lp s dims cs = .ok l) :
    (∀ q ∈ l, ∃ c ∈ cs, vert lp s dims c = .ok q) ∧ ∀ c ∈ cs, ∃ q ∈ l, vert lp s dims c = .ok q := by
  obtain ⟨q0, l', h1, rfl⟩ := vertsOf_ok h
  have hf := (mapM_ok_iff _ _ _).1 h1
  constructor
  · intro q hq
    have hq : q ∈ q0 :: l' := by
      rcases List.mem_append.1 hq with hq | hq
      · exact hq
      · rw [List.mem_singleton.1 hq]; exact List.mem_cons_self
    exact forall₂_mem_right hf hq
  · intro c hc
    obtain ⟨q, hq, e⟩ := forall₂_mem_left hf hc
    exact ⟨q, List.mem_append_left _ hq, e⟩

/-! ### the tree -/

theorem drawAgent_cons (lp : Bool → Vec ℝ → Mat ℝ → Vec ℝ → LPRes ℝ) (aid : String) (x y color : Nat) (t : RTree SNode) (q : List (RTree SNode)) :
    drawAgent lp aid x y color (t :: q) = match Dict.get? t.label.trace aid with
    | some tr => (drawTrace lp color tr).bind fun s => (drawAgent lp aid x y color (q ++ t.kids)).map fun r => s ++ r
    | none => drawAgent lp aid x y color q := by
  rw [drawAgent]
  cases Dict.get? t.label.trace aid <;> rfl

theorem drawTrace_mem {lp : Bool → Vec ℝ → Mat ℝ → Vec ℝ → LPRes ℝ} {color : Nat} {tr : List (ℝ × StarSet ℝ)} {s : List (Nat × List (ℝ × ℝ))}
    (h : drawTrace lp color tr = .ok s) (c : Nat × List (ℝ × ℝ)) : c ∈ s ↔ ∃ e ∈ tr, c.1 = color ∧ getVerts lp e.2 none = .ok c.2 := by
  have hf := (mapM_ok_iff _ _ _).1 h
  constructor
  · intro hc
    obtain ⟨e, he, hv⟩ := forall₂_mem_right hf hc
    obtain ⟨l, hl, rfl⟩ := (map_ok_iff _ _ _).1 hv
    exact ⟨e, he, rfl, hl⟩
  · rintro ⟨e, he, h1, h2⟩
    obtain ⟨c', hc', hv⟩ := forall₂_mem_left hf he
    rw [h2] at hv
    cases hv
    rw [show c = (color, c.2) from by rw [← h1]]; exact hc'

theorem drawAgent_mem (lp : Bool → Vec ℝ → Mat ℝ → Vec ℝ → LPRes ℝ) (aid : String) (x y color : Nat) (q : List (RTree SNode)) :
    ∀ r, drawAgent lp aid x y color q = .ok r → (∀ u ∈ bfs q, ∃ tr, Dict.get? u.label.trace aid = some tr) → ∀ c, c ∈ r ↔
      ∃ u ∈ bfs q, ∃ tr, Dict.get? u.label.trace aid = some tr ∧ ∃ e ∈ tr, c.1 = color ∧ getVerts lp e.2 none = .ok c.2 := by
  induction q using bfs_ind with
  | h0 =>
    intro r h _ c
    rw [drawAgent] at h; cases h
    rw [bfs_nil]; simp
  | h1 t q ih =>
    intro r h hall c
    rw [bfs_cons] at hall ⊢
    obtain ⟨tr, htr⟩ := hall t List.mem_cons_self
    rw [drawAgent_cons, htr] at h
    obtain ⟨s, hs, h⟩ := (bind_ok_iff _ _ _).1 h
    obtain ⟨r', hr', rfl⟩ := (map_ok_iff _ _ _).1 h
    have i := ih r' hr' (fun u hu => hall u (List.mem_cons_of_mem _ hu)) c
    rw [List.mem_append, drawTrace_mem hs, i]
    constructor
    · rintro (h1 | ⟨u, hu, h2⟩)
      · exact ⟨t, List.mem_cons_self, tr, htr, h1⟩
      · exact ⟨u, List.mem_cons_of_mem _ hu, h2⟩
    · rintro ⟨u, hu, h2⟩
      rcases List.mem_cons.1 hu with rfl | hu
      · obtain ⟨tr', h3, h4⟩ := h2
        rw [htr] at h3; cases h3
        exact Or.inl h4
      · exact Or.inr ⟨u, hu, h2⟩

theorem mem_every {α : Type} (rate : Nat) (tr : List α) (e : α) : e ∈ every rate tr ↔ ∃ i, i % rate = 0 ∧ tr[i]? = some e := by
  unfold every
  simp only [List.mem_filterMap, List.mem_filter, List.mem_range, decide_eq_true_eq]
  constructor
  · rintro ⟨i, ⟨_, h1⟩, h2⟩; exact ⟨i, h1, h2⟩
  · rintro ⟨i, h1, h2⟩
    exact ⟨i, ⟨(List.getElem?_eq_some_iff.1 h2).1, h1⟩, h2⟩

theorem thinNode_get (rate : Nat) (n : SNode) (a : String) : Dict.get? (thinNode rate n).trace a = (Dict.get? n.trace a).map (every rate) := by
  unfold thinNode Dict.get?
  dsimp only
  generalize n.trace = d
  rw [List.find?_map]
  have : (fun p : String × List (ℝ × StarSet ℝ) => decide (p.1 = a)) ∘ (fun e : String × List (ℝ × StarSet ℝ) => (e.1, every rate e.2)) =
      fun p : String × List (ℝ × StarSet ℝ) => decide (p.1 = a) := rfl
  rw [this]
  generalize List.find? (fun p : String × List (ℝ × StarSet ℝ) => decide (p.1 = a)) d = o
  cases o <;> rfl

theorem mapL_eq {D E : Type} (f : D → E) (ts : List (RTree D)) : RTree.mapL f ts = ts.map (RTree.map f) := by
  induction ts with
  | nil => rfl
  | cons t ts ih => rw [RTree.mapL, ih]; rfl

theorem label_map {D E : Type} (f : D → E) (t : RTree D) : (RTree.map f t).label = f t.label := by
  cases t; rfl

theorem below_map {D E : Type} (f : D → E) (t : RTree D) (v : RTree D) (k : Nat) (h : RTree.Below t v k) : RTree.Below (RTree.map f t) (RTree.map f v) k := by
  induction h with
  | refl t => exact .refl _
  | step hm _ ih =>
    rw [RTree.map, mapL_eq]
    exact .step (List.mem_map_of_mem hm) ih

theorem below_of_map {D E : Type} (f : D → E) (t' u : RTree E) (k : Nat) (h : RTree.Below t' u k) : ∀ t, t' = RTree.map f t → ∃ v, RTree.Below t v k ∧ u = RTree.map f v := by
  induction h with
  | refl t' => intro t e; exact ⟨t, .refl _, e⟩
  | step hm _ ih =>
    intro t e
    cases t with
    | node d0 ts0 =>
      rw [RTree.map, mapL_eq] at e
      cases e
      obtain ⟨t1, ht1, rfl⟩ := List.mem_map.1 hm
      obtain ⟨v, hv, e⟩ := ih t1 rfl
      exact ⟨v, .step ht1 hv, e⟩

theorem mem_bfs_one {D : Type} {t u : RTree D} : u ∈ bfs [t] ↔ ∃ k, RTree.Below t u k := by
  rw [(bfs_perm [t]).mem_iff, below_iff_mem_subs]
  simp [RTree.subsL]

theorem every_one {α : Type} (tr : List α) : every 1 tr = tr := by
  unfold every
  have : (List.range tr.length).filter (fun i => decide (i % 1 = 0)) = List.range tr.length := by
    apply List.filter_eq_self.2; intro i _; simp [Nat.mod_one]
  rw [this]
  induction tr using List.reverseRecOn with
  | nil => simp
  | append_singleton l a ih =>
    have ih := ih (by apply List.filter_eq_self.2; intro i _; simp [Nat.mod_one])
    rw [List.length_append, List.length_singleton, List.range_succ, List.filterMap_append]
    have h1 : List.filterMap (fun i => (l ++ [a])[i]?) (List.range l.length) = List.filterMap (fun i => l[i]?) (List.range l.length) := by
      apply List.filterMap_congr
      intro i hi
      exact List.getElem?_append_left (List.mem_range.1 hi)
    rw [h1, ih]
    simp

theorem thin_one (t : RTree SNode) : thin 1 t = .ok t := by
  unfold thin
  rw [if_neg (by decide)]
  congr 1
  apply Plot.map_same
  intro u _
  unfold thinNode
  cases hu : u.label with
  | mk tr =>
    have : (fun e : String × List (ℝ × StarSet ℝ) => (e.1, every 1 e.2)) = id := by
      funext e; rw [every_one]; rfl
    rw [this, List.map_id]

/-- A loop succeeds if all its rounds do. -/
theorem mapM_ok_ex {α β : Type} (f : α → Except String β) (l : List α) (h : ∀ a ∈ l, ∃ b, f a = .ok b) : ∃ r, l.mapM f = .ok r := by
  induction l with
  | nil => exact ⟨[], rfl⟩
  | cons a l ih =>
    obtain ⟨b, hb⟩ := h a List.mem_cons_self
    obtain ⟨r, hr⟩ := ih (fun a ha => h a (List.mem_cons_of_mem _ ha))
    exact ⟨b :: r, by rw [List.mapM_cons, hb, hr]; rfl⟩

end Verif.StarPlot
