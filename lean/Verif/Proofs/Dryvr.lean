import Verif.Model.Dryvr
import Verif.Spec.Dryvr
import Verif.Proofs.Basic
import Mathlib.Tactic.Linarith
import Mathlib.Tactic.Ring
import Mathlib.Tactic.FieldSimp

/-! Helper lemmas on tubes built from simulations. -/

set_option autoImplicit false
set_option linter.unusedSectionVars false

namespace Verif.Dry

variable {K : Type} [Field K] [LinearOrder K] [IsStrictOrderedRing K]

theorem le_maxOf : ∀ {l : List K} {x : K}, x ∈ l → x ≤ maxOf l
  | [y], x, h => by
    rw [List.mem_singleton] at h
    simp [maxOf, h]
  | y :: z :: l, x, h => by
    rcases List.mem_cons.1 h with rfl | h
    · exact le_max_left _ _
    · exact le_trans (le_maxOf h) (le_max_right _ _)

theorem maxOf_le {s : K} (hs : 0 ≤ s) : ∀ {l : List K}, (∀ x ∈ l, x ≤ s) → maxOf l ≤ s
  | [], _ => hs
  | [y], h => h y List.mem_cons_self
  | y :: z :: l, h => max_le (h y List.mem_cons_self) (maxOf_le hs (fun x hx => h x (List.mem_cons_of_mem _ hx)))

theorem maxOf_nonneg : ∀ {l : List K}, (∀ x ∈ l, 0 ≤ x) → 0 ≤ maxOf l
  | [], _ => le_refl _
  | [y], h => h y List.mem_cons_self
  | y :: _ :: _, h => le_trans (h y List.mem_cons_self) (le_max_left _ _)

theorem mem_pairs {n i j : Nat} (hij : i < j) (hj : j < n) : (i, j) ∈ pairs n := by
  unfold pairs
  rw [List.mem_flatMap]
  refine ⟨i, List.mem_range.2 (hij.trans hj), List.mem_map.2 ⟨j, List.mem_filter.2 ⟨List.mem_range.2 hj, by simpa using hij⟩, rfl⟩⟩

structure Checked (eps : K) (small : K → Bool) (a : Arr K) (r : List K) : Prop where
  time : ∀ i < a.n, ∀ k < a.len, a.at_ 0 k 0 = a.at_ i k 0
  size : r.length + 1 = a.dims
  two  : 2 ≤ a.n
  pos  : ∀ k < a.len, ∀ c < a.dims, 0 ≤ df eps small a r k c

theorem checks_iff (eps : K) (small : K → Bool) (a : Arr K) (r : List K) : checks eps small a r = true ↔ Checked eps small a r := by
  unfold checks
  simp only [Bool.and_eq_true, List.all_eq_true, List.mem_range, decide_eq_true_eq]
  exact ⟨fun h => ⟨h.1.1.1, h.1.1.2, h.1.2, h.2⟩, fun h => ⟨⟨⟨h.time, h.size⟩, h.two⟩, h.pos⟩⟩

theorem radius_nonneg {eps : K} {small : K → Bool} {a : Arr K} {r : List K} (h : Checked eps small a r) (hl : 0 < a.len) {d : Nat} (hd : d < r.length) :
    0 ≤ r[d]?.getD 0 := by
  have := h.pos 0 hl (d + 1) (by have := h.size; omega)
  simp only [df, Nat.add_eq_zero_iff, one_ne_zero, and_false, if_false, Nat.add_sub_cancel, if_true] at this
  by_cases h0 : r[d]?.getD 0 = 0
  · rw [h0]
  · rw [if_neg h0, one_mul] at this
    simpa [normRadius, isZero, h0] using this

theorem normRadius_pos {eps : K} {small : K → Bool} {a : Arr K} {r : List K} (h : Checked eps small a r) (hl : 0 < a.len) {d : Nat} (hd : d < r.length) :
    0 < normRadius isZero r d := by
  have h1 := radius_nonneg h hl hd
  unfold normRadius isZero
  by_cases h0 : r[d]?.getD 0 = 0
  · simp [h0]
  · simp only [h0, decide_false, Bool.false_eq_true, if_false]
    exact lt_of_le_of_ne h1 (Ne.symm h0)

theorem df_zero (eps : K) (small : K → Bool) (a : Arr K) (r : List K) (d : Nat) : df eps small a r 0 (d + 1) = r[d]?.getD 0 := by
  simp only [df, Nat.add_eq_zero_iff, one_ne_zero, and_false, if_false, Nat.add_sub_cancel, if_true]
  by_cases h0 : r[d]?.getD 0 = 0
  · simp [h0]
  · simp [h0, normRadius, isZero]

/-- The bound on the distance of a trace to the first one. -/
theorem dist_le {eps : K} (heps : 0 < eps) {small : K → Bool} {a : Arr K} {r : List K} (h : Checked eps small a r)
    (hsm : ∀ d < r.length, normRadius small r d = normRadius isZero r d) {s : K} (hs : 0 ≤ s) {j : Nat} (hj : j < a.n) (hj0 : 0 < j)
    (hinit : ∀ d < r.length, |a.at_ 0 0 (d + 1) - a.at_ j 0 (d + 1)| ≤ s * (r[d]?.getD 0))
    {k : Nat} (hk : k < a.len) {c : Nat} (hc : c < a.dims) :
    |a.at_ 0 k c - a.at_ j k c| ≤ (s + eps) * df eps small a r k c := by
  have hl : 0 < a.len := by omega
  cases c with
  | zero =>
    rw [h.time j hj k hk]
    simp [df]
  | succ d =>
    have hd : d < r.length := by have := h.size; omega
    have hn := normRadius_pos h hl hd
    cases k with
    | zero =>
      rw [df_zero]
      refine le_trans (hinit d hd) ?_
      have := radius_nonneg h hl hd
      nlinarith
    | succ k =>
      have hID : initDist eps small a r (0, j) ≤ s + eps := by
        unfold initDist
        refine add_le_add_left (maxOf_le hs ?_) _
        intro x hx
        obtain ⟨d', hd', rfl⟩ := List.mem_map.1 hx
        have hd' : d' < r.length := by have := h.size; rw [List.mem_range] at hd'; omega
        have hn' := normRadius_pos h hl hd'
        rw [hsm d' hd', ← sub_div, abs_div, abs_of_pos hn', div_le_iff₀ hn']
        refine le_trans (hinit d' hd') ?_
        unfold normRadius isZero
        by_cases h0 : r[d']?.getD 0 = 0
        · simpa [h0] using hs
        · simp [h0]
      have hIDpos : 0 < initDist eps small a r (0, j) := by
        unfold initDist
        have : 0 ≤ maxOf ((List.range (a.dims - 1)).map (fun d => |a.at_ 0 0 (d + 1) / normRadius small r d - a.at_ j 0 (d + 1) / normRadius small r d|)) := by
          refine maxOf_nonneg ?_
          intro x hx
          obtain ⟨d', _, rfl⟩ := List.mem_map.1 hx
          exact abs_nonneg _
        linarith
      have hsens : |a.at_ 0 (k + 1) (d + 1) - a.at_ j (k + 1) (d + 1)| / normRadius small r d / initDist eps small a r (0, j) ≤ sens eps small a r d (k + 1) :=
        le_maxOf (List.mem_map.2 ⟨(0, j), mem_pairs hj0 hj, rfl⟩)
      rw [hsm d hd, div_le_iff₀ hIDpos, div_le_iff₀ hn] at hsens
      have hdf : df eps small a r (k + 1) (d + 1) = sens eps small a r d (k + 1) * normRadius isZero r d := by
        simp [df]
      have hpos := h.pos (k + 1) hk (d + 1) hc
      rw [hdf] at hpos ⊢
      calc |a.at_ 0 (k + 1) (d + 1) - a.at_ j (k + 1) (d + 1)| ≤ sens eps small a r d (k + 1) * initDist eps small a r (0, j) * normRadius isZero r d := hsens
        _ = initDist eps small a r (0, j) * (sens eps small a r d (k + 1) * normRadius isZero r d) := by ring
        _ ≤ (s + eps) * (sens eps small a r d (k + 1) * normRadius isZero r d) := mul_le_mul_of_nonneg_right hID hpos

theorem interleave_get : ∀ (segs : List (List K × List K)) (k : Nat), (interleave segs)[2 * k]? = segs[k]?.map Prod.fst ∧ (interleave segs)[2 * k + 1]? = segs[k]?.map Prod.snd
  | [], k => by simp [interleave]
  | s :: segs, 0 => by simp [interleave]
  | s :: segs, k + 1 => by
    have := interleave_get segs k
    have e : interleave (s :: segs) = s.1 :: s.2 :: interleave segs := rfl
    rw [e, show 2 * (k + 1) = 2 * k + 1 + 1 by ring]
    simpa using this

/-- The shape of an array made from a list of traces. -/
theorem toArr_spec {ts : List (List (List K))} {a : Arr K} (h : toArr ts = .ok a) :
    a.n = ts.length ∧ 0 < a.len ∧ (∀ t ∈ ts, t.length = a.len ∧ ∀ r ∈ t, r.length = a.dims) ∧
    ∀ (i k d : Nat) (t : List (List K)) (r : List K), ts[i]? = some t → t[k]? = some r → d < a.dims → r[d]? = some (a.at_ i k d) := by
  unfold toArr at h
  split at h
  · cases h
  · split at h
    · cases h
    · rename_i t ts' r rs
      split at h
      · rename_i hall
        injection h with h
        subst h
        simp only [List.all_eq_true, Bool.and_eq_true, decide_eq_true_eq] at hall
        refine ⟨rfl, by simp, fun t ht => ⟨(hall t ht).1, (hall t ht).2⟩, ?_⟩
        intro i k d t' r' hi hk hd
        have hr := (hall t' (List.mem_of_getElem? hi)).2 r' (List.mem_of_getElem? hk)
        dsimp only at hd ⊢
        rw [hi, Option.getD_some, hk, Option.getD_some, List.getElem?_eq_getElem (by rw [hr]; exact hd)]
        rfl
      · cases h

/-- A row within a rectangle, column by column. -/
theorem within_range {n : Nat} {f g : Nat → K} {row : List K} (hlen : row.length = n) (h : ∀ (c : Nat) (x : K), row[c]? = some x → f c ≤ x ∧ x ≤ g c) :
    Within ((List.range n).map f) ((List.range n).map g) row := by
  constructor
  · rw [List.forall₂_iff_get]
    refine ⟨by simp [hlen], fun i h1 h2 => ?_⟩
    simp only [List.get_eq_getElem, List.getElem_map, List.getElem_range]
    exact (h i _ (List.getElem?_eq_getElem h2)).1
  · rw [List.forall₂_iff_get]
    refine ⟨by simp [hlen], fun i h1 h2 => ?_⟩
    simp only [List.get_eq_getElem, List.getElem_map, List.getElem_range]
    exact (h i _ (List.getElem?_eq_getElem h1)).2

end Verif.Dry

namespace Verif.Dry

variable {K : Type} [Field K] [LinearOrder K] [IsStrictOrderedRing K]

theorem trim_get {ts : List (List (List K))} {i : Nat} {t : List (List K)} (h : (trimTraces ts)[i]? = some t) :
    ∃ (n : Nat) (t0 : List (List K)), ts[i]? = some t0 ∧ t = t0.take n := by
  unfold trimTraces at h
  split at h
  · simp at h
  · rw [List.getElem?_map] at h
    obtain ⟨t0, h0, h1⟩ := Option.map_eq_some_iff.1 h
    exact ⟨_, t0, h0, h1.symm⟩

/-- What is known of a successful run, for both variants. -/
structure Run (small : K → Bool) (eps : K) (sim : List K → List (List K)) (lo hi : List K) (rnd : List (List K)) (a : Arr K) : Prop where
  len : lo.length = hi.length
  checked : Checked eps small a (delta lo hi)
  pos : 0 < a.len
  n : a.n = rnd.length + 1
  rows : ∀ (i k : Nat) (t : List (List K)), (sim (center lo hi) :: rnd.map (fun x => sim (randomPoint lo hi x)))[i]? = some t → k < a.len →
    ∃ r, t[k]? = some r ∧ r.length = a.dims ∧ ∀ d < a.dims, r[d]? = some (a.at_ i k d)

theorem trim_length (ts : List (List (List K))) : (trimTraces ts).length = ts.length := by
  unfold trimTraces
  split <;> simp

theorem run_of {small : K → Bool} {eps : K} {sim : List K → List (List K)} {lo hi : List K} {rnd : List (List K)} {a : Arr K} (hl : lo.length = hi.length)
    (ha : toArr (traces sim lo hi rnd) = .ok a) (hc : checks eps small a (delta lo hi) = true) : Run small eps sim lo hi rnd a := by
  obtain ⟨h1, h2, h3, h4⟩ := toArr_spec ha
  refine ⟨hl, (checks_iff _ _ _ _).1 hc, h2, ?_, ?_⟩
  · rw [h1, traces, trim_length]; simp
  · intro i k t hit hk
    have hlt : i < (traces sim lo hi rnd).length := by
      rw [traces, trim_length]
      exact (List.getElem?_eq_some_iff.1 hit).1
    have ht' := List.getElem?_eq_getElem hlt
    obtain ⟨n, t0, h0, e⟩ := trim_get ht'
    rw [hit] at h0
    injection h0 with h0
    subst h0
    have hm := h3 _ (List.mem_of_getElem? ht')
    have hk' : k < ((traces sim lo hi rnd)[i]).length := by rw [hm.1]; exact hk
    have hr := List.getElem?_eq_getElem hk'
    refine ⟨((traces sim lo hi rnd)[i])[k], ?_, hm.2 _ (List.getElem_mem hk'), fun d hd => h4 i k d _ _ ht' hr hd⟩
    rw [← hr, e]
    rw [e] at hk'
    rw [List.getElem?_take_of_lt (by simp at hk'; omega)]

end Verif.Dry
