import Verif.Model.DryvrGlobal
import Verif.Spec.DryvrGlobal
import Verif.Proofs.Dryvr
import Verif.Proofs.Basic
import Mathlib.Tactic.Linarith
import Mathlib.Tactic.Ring
import Mathlib.Tactic.FieldSimp

/-! The discrepancy of the method `GLOBAL` is at least the one of the method `PW`. -/

set_option autoImplicit false

namespace Verif.Proofs.DryG

open Verif.Dry

theorem minOf_le : ∀ {l : List ℝ} {x : ℝ}, x ∈ l → minOf l ≤ x
  | [], _, h => by cases h
  | [y], x, h => by simp at h; simp [minOf, h]
  | y :: z :: l, x, h => by
    rw [minOf]
    rcases List.mem_cons.1 h with rfl | h
    · exact min_le_left _ _
    · exact (min_le_right _ _).trans (minOf_le h)

variable {small : ℝ → Bool} {eps : ℝ} {a : Arr ℝ} {r : List ℝ} {d : Nat}

theorem newMin_lt {k : Nat} (hk : k < a.len) (hr : k = 0 → r[d]?.getD 0 ≠ 0) : newMin small eps a r d < (point small eps a r d k).2 := by
  rcases Nat.eq_zero_or_pos k with rfl | h0
  · have : (point small eps a r d 0).2 = 0 := by
      simp only [point, if_true, if_neg (hr rfl)]
      rw [max_eq_left (by norm_num), Real.log_one]
    rw [this]
    exact (min_le_right _ _).trans_lt (by norm_num)
  · have h1 : minOf ((List.range (a.len - 1)).map (fun k => (point small eps a r d (k + 1)).2)) ≤ (point small eps a r d k).2 := by
      apply minOf_le
      rw [List.mem_map]
      refine ⟨k - 1, List.mem_range.2 (by omega), ?_⟩
      rw [Nat.sub_add_cancel h0]
    have := min_le_left (minOf ((List.range (a.len - 1)).map (fun k => (point small eps a r d (k + 1)).2)) + -10) (-10)
    unfold newMin
    linarith

/-- The first time with a point. -/
noncomputable def first (r : List ℝ) (d : Nat) : Nat := if r[d]?.getD 0 = 0 then 1 else 0

/-- The points, by index. -/
theorem dimPoints_get (i : Nat) (p : ℝ × ℝ) (h : (dimPoints small eps a r d)[i]? = some p) :
    (i < a.len - 1 ∧ p = point small eps a r d (i + 1)) ∨ (first r d = 0 ∧ r[d]?.getD 0 ≠ 0 ∧ i = a.len - 1 ∧ p = point small eps a r d 0) ∨
      (p.2 = newMin small eps a r d ∧ (p.1 = (point small eps a r d (first r d)).1 ∨ p.1 = (point small eps a r d (a.len - 1)).1)) := by
  rcases Nat.lt_or_ge i (a.len - 1) with hi | hi
  · left
    rw [dimPoints, List.getElem?_append_left (by simpa using hi)] at h
    simp only [List.getElem?_map, List.getElem?_range hi, Option.map_some, Option.some.injEq] at h
    exact ⟨hi, h.symm⟩
  · right
    rw [dimPoints, List.getElem?_append_right (by simpa using hi)] at h
    simp only [List.length_map, List.length_range] at h
    obtain ⟨j, hj⟩ := Nat.exists_eq_add_of_le hi
    subst hj
    rw [Nat.add_sub_cancel_left] at h
    by_cases h0 : r[d]?.getD 0 = 0
    · rw [if_pos h0] at h
      right
      match j, h with
      | 0, h => simp at h; subst h; simp [first, h0]
      | 1, h => simp at h; subst h; simp
      | j + 2, h => simp at h
    · rw [if_neg h0] at h
      match j, h with
      | 0, h => simp at h; subst h; left; simp [first, h0]
      | 1, h => simp at h; subst h; right; simp [first, h0]
      | 2, h => simp at h; subst h; right; simp
      | j + 3, h => simp at h

theorem point_mem {k : Nat} (hk : k < a.len) (hf : first r d ≤ k) : point small eps a r d k ∈ dimPoints small eps a r d := by
  rcases Nat.eq_zero_or_pos k with rfl | h0
  · have h0 : r[d]?.getD 0 ≠ 0 := by
      intro h
      simp [first, h] at hf
    rw [dimPoints, if_neg h0]
    simp
  · rw [dimPoints, List.mem_append]
    left
    rw [List.mem_map]
    exact ⟨k - 1, List.mem_range.2 (by omega), by rw [Nat.sub_add_cancel h0]⟩

theorem low_first : ((point small eps a r d (first r d)).1, newMin small eps a r d) ∈ dimPoints small eps a r d := by
  rw [dimPoints, List.mem_append]
  right
  by_cases h : r[d]?.getD 0 = 0 <;> simp [first, h]

/-- All edges of the upper part of the hull are above all points. -/
theorem sep_above {vs : List Nat} (hh : IsHull (dimPoints small eps a r d) vs) {e s : Nat} (hf : Follows vs e s) {σ : Sep}
    (h : sepOf (dimPoints small eps a r d) (newMin small eps a r d) (e, s) = .ok (some σ)) {k : Nat} (hk : k < a.len) (hfk : first r d ≤ k) :
    (point small eps a r d k).2 ≤ σ.y + σ.slope * (point small eps a r d k).1 := by
  unfold sepOf at h
  split at h
  · rename_i pe ps he hs
    dsimp only at he hs
    split at h
    · split at h
      · rename_i hlt
        injection h with h
        injection h with h
        subst h
        have := (hh.left e s pe ps hf he hs).2 _ (point_mem (eps := eps) hk hfk)
        simp only [turn] at this
        dsimp only
        have hpos : 0 < pe.1 - ps.1 := by linarith
        have e1 : ps.2 - ps.1 * ((pe.2 - ps.2) / (pe.1 - ps.1)) + (pe.2 - ps.2) / (pe.1 - ps.1) * (point small eps a r d k).1 =
            ps.2 + (pe.2 - ps.2) * ((point small eps a r d k).1 - ps.1) / (pe.1 - ps.1) := by ring
        rw [e1, ← sub_le_iff_le_add', le_div_iff₀ hpos]
        nlinarith
      · cases h
    · cases h
  · cases h

theorem follows_of_mem {vs : List Nat} {x : Nat} (h : x ∈ vs) : ∃ y, Follows vs x y := by
  obtain ⟨i, hi, rfl⟩ := List.getElem_of_mem h
  rcases Nat.lt_or_ge (i + 1) vs.length with h1 | h1
  · exact ⟨vs[i + 1], .inl ⟨i, List.getElem?_eq_getElem hi, List.getElem?_eq_getElem h1⟩⟩
  · have hne : vs ≠ [] := by rintro rfl; simp at hi
    refine ⟨vs.head hne, .inr ⟨?_, List.head?_eq_some_head hne⟩⟩
    rw [List.getLast?_eq_getElem?, show vs.length - 1 = i by omega, List.getElem?_eq_getElem hi]

theorem cyclePairs_iff {vs : List Nat} {ps : List (Nat × Nat)} (h : cyclePairs vs = .ok ps) (x y : Nat) : (x, y) ∈ ps ↔ Follows vs x y := by
  unfold cyclePairs at h
  split at h
  · rename_i l f hl hf
    injection h with h
    subst h
    rw [List.mem_append, List.mem_singleton]
    refine or_congr ?_ ?_
    · rw [List.mem_iff_getElem?]
      constructor
      · rintro ⟨i, hi⟩
        rw [List.getElem?_zip_eq_some] at hi
        refine ⟨i, hi.1, ?_⟩
        rw [List.getElem?_drop, Nat.add_comm] at hi
        exact hi.2
      · rintro ⟨i, h1, h2⟩
        refine ⟨i, ?_⟩
        rw [List.getElem?_zip_eq_some]
        refine ⟨h1, ?_⟩
        rw [List.getElem?_drop, Nat.add_comm]
        exact h2
    · rw [hl, hf]
      simp [eq_comm]
  · cases h

/-- Points that are further left, or on the same vertical line and lower. -/
theorem convex_lex (p : ℝ × ℝ) : Convex ℝ {q : ℝ × ℝ | q.1 < p.1 ∨ (q.1 = p.1 ∧ q.2 < p.2)} := by
  intro x hx y hy s t hs ht hst
  simp only [Set.mem_setOf_eq] at hx hy ⊢
  simp only [Prod.fst_add, Prod.smul_fst, smul_eq_mul, Prod.snd_add, Prod.smul_snd]
  have hs1 : s = 1 - t := by linarith
  subst hs1
  rcases hs.eq_or_lt with h0 | h0
  · have : t = 1 := by linarith
    subst this
    simpa using hy
  · rcases ht.eq_or_lt with h1 | h1
    · subst h1
      simpa using hx
    · rcases hx with hx | ⟨hx, hx'⟩
      · left
        rcases hy with hy | ⟨hy, hy'⟩
        · nlinarith
        · nlinarith
      · rcases hy with hy | ⟨hy, hy'⟩
        · left
          nlinarith
        · right
          exact ⟨by rw [hx, hy]; ring, by nlinarith⟩

/-- There is a separator that ends at the last time. -/
theorem last_sep {vs : List Nat} (hh : IsHull (dimPoints small eps a r d) vs) (hlen : 2 ≤ a.len)
    (htime : ∀ j k, j < k → k < a.len → a.at_ 0 j 0 < a.at_ 0 k 0) :
    ∃ s, Follows vs (a.len - 2) s ∧ ∀ o, sepOf (dimPoints small eps a r d) (newMin small eps a r d) (a.len - 2, s) = .ok o → ∃ σ, o = some σ ∧ σ.e = a.len - 1 := by
  have hfle : first r d ≤ a.len - 1 := by unfold first; split <;> omega
  set P := point small eps a r d (a.len - 1) with hP
  have hx : ∀ k < a.len - 1, (point small eps a r d k).1 < P.1 := by
    intro k hk
    have := htime k (a.len - 1) hk (by omega)
    simp only [hP, point]
    linarith
  have hPn : newMin small eps a r d < P.2 := newMin_lt (by omega) (fun h => by omega)
  -- the first time with a point is earlier than the last
  have hflt : first r d < a.len - 1 := by
    rcases hfle.lt_or_eq with h | h
    · exact h
    · exfalso
      obtain ⟨p, q, x, hp, hq, hx', hne⟩ := hh.flat
      have hall : ∀ p ∈ dimPoints small eps a r d, p.1 = P.1 := by
        intro p hp
        obtain ⟨i, hi⟩ := List.mem_iff_getElem?.1 hp
        rcases dimPoints_get i p hi with ⟨h1, rfl⟩ | ⟨h1, h2, h3, rfl⟩ | ⟨-, h1 | h1⟩
        · have h1f : first r d = 1 := by
            unfold first at h ⊢
            split <;> rename_i h0
            · rfl
            · rw [if_neg h0] at h; omega
          rw [hP, show i + 1 = a.len - 1 by omega]
        · omega
        · rw [h1, hP, h]
        · exact h1
      refine hne ?_
      simp only [turn, hall p hp, hall q hq, hall x hx']
      ring
  have hPm : P ∈ dimPoints small eps a r d := point_mem (by omega) hfle
  have hPi : (dimPoints small eps a r d)[a.len - 2]? = some P := by
    rw [dimPoints, List.getElem?_append_left (by simp; omega)]
    simp only [List.getElem?_map, List.getElem?_range (show a.len - 2 < a.len - 1 by omega), Option.map_some, Option.some.injEq]
    rw [hP, show a.len - 2 + 1 = a.len - 1 by omega]
  have hidx : ∀ i, (dimPoints small eps a r d)[i]? = some P → i = a.len - 2 := by
    intro i hi
    rcases dimPoints_get i P hi with ⟨h1, h2⟩ | ⟨h1, h2, h3, h4⟩ | ⟨h1, -⟩
    · by_contra hne
      have := hx (i + 1) (by omega)
      rw [← h2] at this
      exact absurd this (lt_irrefl _)
    · have := hx 0 (by omega)
      rw [← h4] at this
      exact absurd this (lt_irrefl _)
    · exact absurd h1 hPn.ne'
  have hmem : a.len - 2 ∈ vs := by
    by_contra hnot
    have hsub : {q | ∃ i ∈ vs, (dimPoints small eps a r d)[i]? = some q} ⊆ {q : ℝ × ℝ | q.1 < P.1 ∨ (q.1 = P.1 ∧ q.2 < P.2)} := by
      rintro q ⟨i, hi, hq⟩
      rcases dimPoints_get i q hq with ⟨h1, h2⟩ | ⟨h1, h2, h3, h4⟩ | ⟨h1, h2 | h2⟩
      · left
        have hne : i + 1 < a.len - 1 := by
          rcases Nat.lt_or_ge (i + 1) (a.len - 1) with h | h
          · exact h
          · exact absurd (show i = a.len - 2 by omega) (fun h => hnot (h ▸ hi))
        rw [h2]
        exact hx _ hne
      · left
        rw [h4]
        exact hx 0 (by omega)
      · left
        rw [h2]
        exact hx _ hflt
      · right
        exact ⟨h2, by rw [h1]; exact hPn⟩
    have := convexHull_min hsub (convex_lex P) (hh.spans P hPm)
    rcases this with h | ⟨-, h⟩
    · exact lt_irrefl _ h
    · exact lt_irrefl _ h
  obtain ⟨s, hs⟩ := follows_of_mem hmem
  refine ⟨s, hs, fun o ho => ?_⟩
  have hsm : s ∈ vs := by
    rcases hs with ⟨i, -, h⟩ | ⟨-, h⟩
    · exact List.mem_of_getElem? h
    · exact List.mem_of_head? h
  obtain ⟨q, hq⟩ : ∃ q, (dimPoints small eps a r d)[s]? = some q := ⟨_, List.getElem?_eq_getElem (hh.index s hsm)⟩
  obtain ⟨hne, hleft⟩ := hh.left _ _ P q hs hPi hq
  have hFn : newMin small eps a r d < (point small eps a r d (first r d)).2 := newMin_lt (by omega) (fun h h0 => by simp [first, h0] at h)
  have hF := hleft _ (point_mem (eps := eps) (show first r d < a.len by omega) (le_refl _))
  have hL := hleft _ low_first
  have hxF := hx _ hflt
  simp only [turn] at hF hL
  have hqn : q.2 ≠ newMin small eps a r d := by
    intro hqn
    rcases dimPoints_get s q hq with ⟨h1, h2⟩ | ⟨h1, h2, h3, h4⟩ | ⟨-, h2 | h2⟩
    · have := newMin_lt (small := small) (eps := eps) (a := a) (r := r) (d := d) (k := s + 1) (by omega) (fun h => by omega)
      rw [← h2] at this
      linarith
    · have := newMin_lt (small := small) (eps := eps) (a := a) (r := r) (d := d) (k := 0) (by omega) (fun _ => h2)
      rw [← h4] at this
      linarith
    · rw [h2, hqn] at hF
      nlinarith
    · rw [h2, hqn] at hL
      nlinarith
  unfold sepOf at ho
  rw [hPi, hq] at ho
  dsimp only at ho
  rw [if_pos ⟨hqn, hPn.ne'⟩] at ho
  split at ho
  · injection ho with ho
    exact ⟨_, ho.symm, by dsimp only; omega⟩
  · cases ho

/-- The loop over the separators. -/
theorem loop_above (tgt : Nat → ℝ) (f0 : Nat) : ∀ (l : List Sep) (st st' : ℝ × Nat × (Nat → ℝ)),
    (∀ σ ∈ l, f0 ≤ σ.s → ∀ prev k, σ.s ≤ k → k ≤ σ.e → k < a.len → tgt k ≤ segAt a r d prev σ k) → f0 ≤ st.2.1 →
    (∀ k < a.len, (k < f0 ∨ (f0 < st.2.1 ∧ k ≤ st.2.1)) → tgt k ≤ st.2.2 k) → l.foldlM (sepStep a r d) st = .ok st' →
    st.2.1 ≤ st'.2.1 ∧ (∀ σ ∈ l, f0 < st'.2.1 ∧ σ.e ≤ st'.2.1) ∧ ∀ k < a.len, (k < f0 ∨ (f0 < st'.2.1 ∧ k ≤ st'.2.1)) → tgt k ≤ st'.2.2 k
  | [], st, st', _, _, hinv, h => by
    simp only [List.foldlM_nil] at h
    cases h
    exact ⟨le_refl _, by simp, hinv⟩
  | σ :: l, st, st', hσ, hf, hinv, h => by
    obtain ⟨st1, h1, h2⟩ := (foldlM_cons_ok _ _ _ _ _).1 h
    unfold sepStep at h1
    split at h1
    · rename_i hc
      injection h1 with h1
      subst h1
      obtain ⟨g1, g2, g3⟩ := loop_above tgt f0 l _ st' (fun τ hτ => hσ τ (List.mem_cons_of_mem _ hτ)) (by dsimp only; omega) (by
        intro k hk hcase
        dsimp only at hcase ⊢
        split
        · rename_i hin
          exact hσ σ (List.mem_cons_self) (by omega) _ k hin.1 hin.2 hk
        · rename_i hout
          refine hinv k hk ?_
          rcases hcase with h | ⟨h, h'⟩
          · exact .inl h
          · by_cases hkf : k < f0
            · exact .inl hkf
            · right
              omega) h2
      dsimp only at g1
      refine ⟨by omega, ?_, g3⟩
      intro τ hτ
      rcases List.mem_cons.1 hτ with rfl | hτ
      · exact ⟨by omega, g1⟩
      · exact g2 τ hτ
    · cases h1

/-- The discrepancy of the method `GLOBAL` is at least the one of the method `PW`. -/
theorem dimDf_ge {hull : List (ℝ × ℝ) → Except String (List Nat)} {f : Nat → ℝ} (h : dimDf hull small eps a r d = .ok f)
    (hh : ∀ vs, hull (dimPoints small eps a r d) = .ok vs → IsHull (dimPoints small eps a r d) vs) (hlen : 2 ≤ a.len)
    (htime : ∀ j k, j < k → k < a.len → a.at_ 0 j 0 < a.at_ 0 k 0) (h0 : a.at_ 0 0 0 = 0) (hr : 0 ≤ r[d]?.getD 0) :
    ∀ k < a.len, df eps small a r k (d + 1) ≤ f k := by
  obtain ⟨vs, hvs, h⟩ := (bind_ok_iff _ _ _).1 h
  obtain ⟨ps, hps, h⟩ := (bind_ok_iff _ _ _).1 h
  obtain ⟨os, hos, h⟩ := (bind_ok_iff _ _ _).1 h
  obtain ⟨st, hst, rfl⟩ := (map_ok_iff _ _ _).1 h
  have hH := hh vs hvs
  have hnr : 0 < normRadius isZero r d := by
    unfold normRadius isZero
    split
    · exact one_pos
    · rename_i h
      exact lt_of_le_of_ne hr (fun e => h (by simp [← e]))
  have hfor := (mapM_ok_iff _ _ _).1 hos
  have hmemsep : ∀ σ ∈ (os.filterMap id).insertionSort (fun σ τ => σ.key ≤ τ.key), ∃ e s, Follows vs e s ∧ sepOf (dimPoints small eps a r d) (newMin small eps a r d) (e, s) = .ok (some σ) := by
    intro σ hσ
    rw [List.mem_insertionSort, List.mem_filterMap] at hσ
    obtain ⟨o, ho, rfl⟩ := hσ
    obtain ⟨p, hp, hpo⟩ := forall₂_mem_right hfor ho
    exact ⟨p.1, p.2, (cyclePairs_iff hps _ _).1 hp, hpo⟩
  have hval : ∀ σ ∈ (os.filterMap id).insertionSort (fun σ τ => σ.key ≤ τ.key), first r d ≤ σ.s → ∀ prev k, σ.s ≤ k → k ≤ σ.e → k < a.len →
      df eps small a r k (d + 1) ≤ segAt a r d prev σ k := by
    intro σ hσ hfs prev k hk1 _ hk3
    obtain ⟨e, s, hfol, hsep⟩ := hmemsep σ hσ
    have hab := sep_above hH hfol hsep hk3 (hfs.trans hk1)
    have hx : (point small eps a r d k).1 = a.at_ 0 k 0 := by simp [point, h0]
    rw [hx] at hab
    have hdf : df eps small a r k (d + 1) ≤ normRadius isZero r d * Real.exp (point small eps a r d k).2 := by
      have hy : Real.exp (point small eps a r d k).2 = max (if k = 0 then (if r[d]?.getD 0 = 0 then 0 else 1) else sens eps small a r d k) (1 / 10 ^ 6) := by
        rw [point]
        exact Real.exp_log (lt_of_lt_of_le (by norm_num) (le_max_right _ _))
      rw [hy]
      have := le_max_left (if k = 0 then (if r[d]?.getD 0 = 0 then (0 : ℝ) else 1) else sens eps small a r d k) (1 / 10 ^ 6)
      unfold df
      rw [if_neg (Nat.succ_ne_zero d), Nat.add_sub_cancel]
      split <;> rename_i h <;> rw [mul_comm]
      · rw [if_pos h] at this
        exact mul_le_mul_of_nonneg_left (by simpa [h] using this) hnr.le
      · rw [if_neg h] at this
        exact mul_le_mul_of_nonneg_left (by simpa [h] using this) hnr.le
    refine hdf.trans ?_
    have hexp : normRadius isZero r d * Real.exp (point small eps a r d k).2 ≤ normRadius isZero r d * Real.exp σ.y * Real.exp (σ.slope * a.at_ 0 k 0) := by
      rw [mul_assoc, ← Real.exp_add]
      exact mul_le_mul_of_nonneg_left (Real.exp_le_exp.2 hab) hnr.le
    unfold segAt
    dsimp only
    split
    · exact hexp.trans (le_max_left _ _)
    · exact hexp
  obtain ⟨g1, g2, g3⟩ := loop_above (fun k => df eps small a r k (d + 1)) (first r d) _ _ _ hval (by
      unfold first
      exact le_refl _) (by
      intro k hk hcase
      dsimp only at hcase ⊢
      rcases hcase with h | ⟨h, h'⟩
      · have h1 : r[d]?.getD 0 = 0 := by
          by_contra hne
          simp [first, hne] at h
        have h2 : k = 0 := by
          simp [first, h1] at h
          exact h
        subst h2
        rw [df_zero]
        simp
      · unfold first at h
        exact absurd h (lt_irrefl _)) hst
  obtain ⟨s, hs, hlast⟩ := last_sep hH hlen htime
  obtain ⟨o, ho, hso⟩ := forall₂_mem_left hfor ((cyclePairs_iff hps _ _).2 hs)
  obtain ⟨σ, rfl, hσe⟩ := hlast o hso
  obtain ⟨q1, q2⟩ := g2 σ (by
    rw [List.mem_insertionSort, List.mem_filterMap]
    exact ⟨some σ, ho, rfl⟩)
  intro k hk
  exact g3 k hk (.inr ⟨q1, by omega⟩)

end Verif.Proofs.DryG
