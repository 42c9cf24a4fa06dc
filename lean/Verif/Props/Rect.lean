import Verif.Proofs.Rect
import Verif.Proofs.Contains

/-!
Properties of operations on rectangles and tubes: C29, C30.
-/

set_option autoImplicit false
set_option linter.unusedSectionVars false

namespace Verif.Props

open Verif.Rect Verif.Rect.Spec Verif.Proofs.Rect

section
variable {K : Type} [LinearOrder K]

/-- **C30**, rectangles. The combination of rectangles contains each of them, and every rectangle that contains all of them contains the
combination. -/
theorem C30_combine_rect (d : Nat) (rs : List (Box K)) (c : Box K) (h : ∀ s ∈ rs, Proper d s) (hc : combineRect rs = .ok c) :
    Proper d c ∧ (∀ s ∈ rs, ∀ p, Inside p s → Inside p c) ∧
    (∀ b : Box K, (∀ s ∈ rs, ∀ p, Inside p s → Inside p b) → ∀ p, Inside p c → Inside p b) := by
  cases rs with
  | nil => simp [combineRect] at hc
  | cons r rs =>
    simp only [combineRect, Except.ok.injEq] at hc
    subst hc
    exact combine_spec d r rs h

/-- **C30**, the initial rectangles of an agent: `combine_all`. -/
theorem C30_combine_all (d : Nat) (rs : List (Box K)) (c : Box K) (h : ∀ s ∈ rs, Proper d s) (hc : combineAll rs = .ok c) :
    Proper d c ∧ (∀ s ∈ rs, ∀ p, Inside p s → Inside p c) ∧
    (∀ b : Box K, (∀ s ∈ rs, ∀ p, Inside p s → Inside p b) → ∀ p, Inside p c → Inside p b) := by
  cases rs with
  | nil => simp [combineAll] at hc
  | cons r rs =>
    simp only [combineAll, Except.ok.injEq] at hc
    subst hc
    exact combine_spec d r rs h

/-- There is always a combination, unless the list is empty. -/
theorem C30_combine_total (rs : List (Box K)) (h : rs ≠ []) : (∃ c, combineRect rs = .ok c) ∧ ∃ c, combineAll rs = .ok c := by
  cases rs with
  | nil => exact absurd rfl h
  | cons r rs => exact ⟨⟨_, rfl⟩, ⟨_, rfl⟩⟩

/-- **C30**, tubes of the same length. The union has the same length; its rectangle number `i` contains the rectangle number `i` of every
tube, and is the smallest rectangle with this property. -/
theorem C30_union_traces (d n : Nat) (ts : List (List (Box K))) (hts : ts ≠ []) (h : ∀ t ∈ ts, t.length = n ∧ ∀ s ∈ t, Proper d s) :
    ∃ u, unionTraces ts = .ok u ∧ u.length = n ∧ ∀ i, i < n → ∃ c, u[i]? = some c ∧ Proper d c ∧
      (∀ t ∈ ts, ∀ s, t[i]? = some s → ∀ p, Inside p s → Inside p c) ∧
      (∀ b : Box K, (∀ t ∈ ts, ∀ s, t[i]? = some s → ∀ p, Inside p s → Inside p b) → ∀ p, Inside p c → Inside p b) := by
  have hcol : ∀ i, i < n → ∃ col, column ts i = .ok col ∧ col ≠ [] ∧
      (∀ s, s ∈ col ↔ ∃ t ∈ ts, t[i]? = some s) := by
    intro i hi
    refine ⟨ts.map (fun t => t.getD i ([], [])), ?_, by simpa using hts, fun s => ?_⟩
    · unfold column
      rw [Proofs.Cont.mapM_map_ok]
      intro t ht
      have : i < t.length := by rw [(h t ht).1]; exact hi
      simp [List.getElem?_eq_getElem this]
    · simp only [List.mem_map]
      constructor
      · rintro ⟨t, ht, rfl⟩
        have : i < t.length := by rw [(h t ht).1]; exact hi
        exact ⟨t, ht, by simp [List.getElem?_eq_getElem this]⟩
      · rintro ⟨t, ht, hs⟩
        exact ⟨t, ht, by simp [hs]⟩
  have hone : ∀ i, i < n → ∃ c, (column ts i).bind combineRect = .ok c ∧ Proper d c ∧
      (∀ t ∈ ts, ∀ s, t[i]? = some s → ∀ p, Inside p s → Inside p c) ∧
      (∀ b : Box K, (∀ t ∈ ts, ∀ s, t[i]? = some s → ∀ p, Inside p s → Inside p b) → ∀ p, Inside p c → Inside p b) := by
    intro i hi
    obtain ⟨col, h1, h2, h3⟩ := hcol i hi
    obtain ⟨c, hc⟩ := (C30_combine_total col h2).1
    obtain ⟨g1, g2, g3⟩ := C30_combine_rect d col c (fun s hs => by
      obtain ⟨t, ht, hts⟩ := (h3 s).1 hs
      exact (h t ht).2 s (List.mem_of_getElem? hts)) hc
    refine ⟨c, by rw [h1]; exact hc, g1, fun t ht s hs => g2 s ((h3 s).2 ⟨t, ht, hs⟩), fun b hb => g3 b (fun s hs => ?_)⟩
    obtain ⟨t, ht, hts⟩ := (h3 s).1 hs
    exact hb t ht s hts
  cases ts with
  | nil => exact absurd rfl hts
  | cons t0 ts =>
    have hl : t0.length = n := (h t0 (by simp)).1
    choose f hf using hone
    refine ⟨(List.range n).pmap (fun i hi => f i hi) (fun i hi => List.mem_range.1 hi), ?_, by simp, fun i hi => ?_⟩
    · simp only [unionTraces]
      rw [hl, mapM_ok_iff, List.forall₂_iff_get]
      refine ⟨by simp, fun i h1 h2 => ?_⟩
      simp only [List.get_eq_getElem, List.getElem_range, List.getElem_pmap]
      exact (hf i (by simpa using h1)).1
    · refine ⟨f i hi, ?_, (hf i hi).2⟩
      rw [List.getElem?_eq_getElem (by simpa using hi)]
      simp

/-- Two rectangles that overlap. -/
example : (∀ s ∈ [(([0, 0], [2, 1]) : Box ℚ), ([1, -1], [3, 0])], Proper 2 s) ∧
    combineRect [(([0, 0], [2, 1]) : Box ℚ), ([1, -1], [3, 0])] = .ok ([0, -1], [3, 1]) ∧
    unionTraces [[(([0, 0], [2, 1]) : Box ℚ), ([1, 1], [1, 1])], [([1, -1], [3, 0]), ([0, 2], [0, 2])]] =
      .ok [([0, -1], [3, 1]), ([0, 1], [1, 2])] := by
  refine ⟨?_, by decide +kernel, by decide +kernel⟩
  intro s hs
  simp only [List.mem_cons, List.not_mem_nil, or_false] at hs
  rcases hs with rfl | rfl
  · exact ⟨rfl, .cons (by norm_num) (.cons (by norm_num) .nil)⟩
  · exact ⟨rfl, .cons (by norm_num) (.cons (by norm_num) .nil)⟩

end

section
variable {K : Type} [Field K] [LinearOrder K] [IsStrictOrderedRing K]

theorem forall₂_le_iff (a b : List K) : List.Forall₂ (fun (x y : K) => x ≤ y) a b ↔
    a.length = b.length ∧ ∀ (i : Nat) (x y : K), a[i]? = some x → b[i]? = some y → x ≤ y := by
  rw [List.forall₂_iff_get]
  constructor
  · rintro ⟨h, g⟩
    refine ⟨h, fun i x y hx hy => ?_⟩
    obtain ⟨h1, rfl⟩ := List.getElem?_eq_some_iff.1 hx
    obtain ⟨h2, rfl⟩ := List.getElem?_eq_some_iff.1 hy
    exact g i h1 h2
  · rintro ⟨h, g⟩
    exact ⟨h, fun i h1 h2 => g i _ _ (by simp [List.getElem?_eq_getElem h1]) (by simp [List.getElem?_eq_getElem h2])⟩

theorem cut_strict (a b : K) (h : a < b) (n j : Nat) (hn : 0 < n) : cut a b n j < cut a b n (j + 1) := by
  have hn' : (0 : K) < n := by exact_mod_cast hn
  have : 0 < (b - a) / (n : K) := div_pos (by linarith) hn'
  unfold cut
  push_cast
  linarith

/-- **C29**. A rectangle (first coordinate: time) is cut into `n` parts in every requested dimension: for a positive `n` and distinct
requested dimensions that exist, the pieces cover the rectangle, lie inside it, and any two of them meet at most in a face; there
are `n` of them for every requested dimension other than time in which the rectangle is not flat, and their side there is the `n`-th part. -/
theorem C29_partition (d n : Nat) (r : Box K) (hr : Proper d r) (hn : 0 < n) (req : Option (List Nat))
    (dims : List Nat) (hdims : dims = (req.getD ((List.range d).drop 1)).filter (fun i => decide (i ≠ 0)))
    (hnd : dims.Nodup) (hlt : ∀ i ∈ dims, i < d) :
    ∃ ps, partitionRect r n req = .ok ps ∧
      (∀ p, Inside p r → ∃ s ∈ ps, Inside p s) ∧
      (∀ s ∈ ps, Proper d s ∧ ∀ p, Inside p s → Inside p r) ∧
      ps.Pairwise Touch ∧
      ps.length = n ^ (dims.filter (fun i => decide (r.1[i]? ≠ r.2[i]?))).length ∧
      (∀ s ∈ ps, ∀ i ∈ dims, ∀ a b x y, r.1[i]? = some a → r.2[i]? = some b → s.1[i]? = some x → s.2[i]? = some y →
        (n : K) * (y - x) = b - a) := by
  obtain ⟨hl1, hl2⟩ := proper_lengths hr
  have hle := (forall₂_le_iff _ _).1 hr.2
  have hvd : ∀ dims : List Nat, (∀ i ∈ dims, i < d) →
      varyingDims r dims = .ok (dims.filter (fun i => decide (r.1[i]? ≠ r.2[i]?))) := by
    intro dims hlt
    induction dims with
    | nil => rfl
    | cons i is ih =>
      have h1 : i < r.1.length := by rw [hl1]; exact hlt i (by simp)
      have h2 : i < r.2.length := by rw [hl2]; exact hlt i (by simp)
      simp only [varyingDims, List.getElem?_eq_getElem h1, List.getElem?_eq_getElem h2, ih (fun j hj => hlt j (by simp [hj])), Except.map,
        List.filter_cons, Option.some.injEq, ne_eq, decide_not, Bool.not_eq_eq_eq_not, Bool.not_true, decide_eq_false_iff_not]
  generalize hV : dims.filter (fun i => decide (r.1[i]? ≠ r.2[i]?)) = vd at *
  have hVm : ∀ i, i ∈ vd → i < d ∧ r.1[i]? ≠ r.2[i]? := by
    intro i hi
    rw [← hV, List.mem_filter] at hi
    exact ⟨hlt i hi.1, by simpa using hi.2⟩
  have hVn : vd.Nodup := by rw [← hV]; exact hnd.filter _
  have hPR : partitionRect r n req = .ok (if vd = [] then [r] else
      (product (List.replicate vd.length (List.range n))).map (fun idx => piece r n (vd.zip idx))) := by
    unfold partitionRect
    simp only []
    rw [hl1, ← hdims, hvd dims hlt, hV]
    rfl
  by_cases hnil : vd = []
  · rw [if_pos hnil] at hPR
    refine ⟨[r], hPR, fun p hp => ⟨r, by simp, hp⟩, fun s hs => ?_, by simp, by simp [hnil], ?_⟩
    · simp only [List.mem_singleton] at hs; subst hs; exact ⟨hr, fun p hp => hp⟩
    · intro s hs i hi a b x y ha hb hx hy
      simp only [List.mem_singleton] at hs; subst hs
      rw [ha] at hx; rw [hb] at hy; cases hx; cases hy
      by_cases hab : a = b
      · subst hab; simp
      · have : i ∈ vd := by rw [← hV, List.mem_filter]; exact ⟨hi, by simp [ha, hb, hab]⟩
        rw [hnil] at this; cases this
  · rw [if_neg hnil] at hPR
    have hidx : ∀ idx, idx ∈ product (List.replicate vd.length (List.range n)) ↔ idx.length = vd.length ∧ ∀ k ∈ idx, k < n := by
      intro idx
      rw [mem_product]
      generalize vd.length = m
      induction m generalizing idx with
      | zero => cases idx <;> simp
      | succ m ih =>
        cases idx with
        | nil => simp [List.replicate_succ]
        | cons k idx =>
          simp only [List.replicate_succ, List.forall₂_cons, ih, List.mem_range, List.length_cons, Nat.add_right_cancel_iff,
            List.mem_cons, forall_eq_or_imp]
          tauto
    have hzip : ∀ idx : List Nat, idx.length = vd.length → (vd.zip idx).map Prod.fst = vd := by
      intro idx h
      exact List.map_fst_zip (by omega)
    -- coordinates of a piece
    have hat : ∀ idx : List Nat, idx.length = vd.length → ∀ (i k : Nat), (i, k) ∈ vd.zip idx →
        ∃ a b, r.1[i]? = some a ∧ r.2[i]? = some b ∧ a < b ∧
          (piece r n (vd.zip idx)).1[i]? = some (cut a b n k) ∧ (piece r n (vd.zip idx)).2[i]? = some (cut a b n (k + 1)) := by
      intro idx hidl i k hik
      have hi : i ∈ vd := (List.of_mem_zip hik).1
      obtain ⟨hid, hne⟩ := hVm i hi
      have h1 : i < r.1.length := by omega
      have h2 : i < r.2.length := by omega
      have := pfold_at r n (vd.zip idx) r i k (by rw [hzip idx hidl]; exact hVn) hik h1 h2
      simp only [List.getD_eq_getElem?_getD, List.getElem?_eq_getElem h1, List.getElem?_eq_getElem h2, Option.getD_some] at this
      refine ⟨r.1[i], r.2[i], List.getElem?_eq_getElem h1, List.getElem?_eq_getElem h2, lt_of_le_of_ne ?_ ?_, this.1, this.2⟩
      · exact hle.2 i _ _ (List.getElem?_eq_getElem h1) (List.getElem?_eq_getElem h2)
      · intro e
        apply hne
        rw [List.getElem?_eq_getElem h1, List.getElem?_eq_getElem h2, e]
    have hoth : ∀ idx : List Nat, idx.length = vd.length → ∀ i, i ∉ vd →
        (piece r n (vd.zip idx)).1[i]? = r.1[i]? ∧ (piece r n (vd.zip idx)).2[i]? = r.2[i]? := by
      intro idx hidl i hi
      exact pfold_other r n (vd.zip idx) r i (by rw [hzip idx hidl]; exact hi)
    have hlen : ∀ idx : List Nat, (piece r n (vd.zip idx)).1.length = d ∧ (piece r n (vd.zip idx)).2.length = d := by
      intro idx
      have := pfold_length r n (vd.zip idx) r
      exact ⟨this.1.trans hl1, this.2.trans hl2⟩
    have hzipm : ∀ idx : List Nat, idx.length = vd.length → ∀ i ∈ vd, ∃ k, (i, k) ∈ vd.zip idx := by
      intro idx hidl i hi
      obtain ⟨j, hj, rfl⟩ := List.getElem_of_mem hi
      refine ⟨idx[j]'(by omega), ?_⟩
      rw [List.mem_iff_getElem]
      exact ⟨j, by simp; omega, by simp⟩
    refine ⟨_, hPR, ?_, ?_, ?_, ?_, ?_⟩
    · -- cover
      intro p hp
      obtain ⟨p1, p2⟩ := (forall₂_le_iff _ _).1 hp.1
      obtain ⟨q1, q2⟩ := (forall₂_le_iff _ _).1 hp.2
      have hex : ∀ i : Nat, ∃ k, k < n ∧ (i ∈ vd → ∀ a b x, r.1[i]? = some a → r.2[i]? = some b → p[i]? = some x →
          cut a b n k ≤ x ∧ x ≤ cut a b n (k + 1)) := by
        intro i
        by_cases hi : i ∈ vd
        · have hid := (hVm i hi).1
          have h1 : i < r.1.length := by omega
          have h2 : i < r.2.length := by omega
          have h3 : i < p.length := by omega
          obtain ⟨k, hk, c1, c2⟩ := exists_piece r.1[i] r.2[i] p[i] n hn
            (p2 i _ _ (List.getElem?_eq_getElem h1) (List.getElem?_eq_getElem h3))
            (q2 i _ _ (List.getElem?_eq_getElem h3) (List.getElem?_eq_getElem h2))
          refine ⟨k, hk, fun _ a b x ha hb hx => ?_⟩
          rw [List.getElem?_eq_getElem h1] at ha
          rw [List.getElem?_eq_getElem h2] at hb
          rw [List.getElem?_eq_getElem h3] at hx
          cases ha; cases hb; cases hx
          exact ⟨c1, c2⟩
        · exact ⟨0, hn, fun h => absurd h hi⟩
      choose k hk1 hk2 using hex
      have hkl : (vd.map k).length = vd.length := by simp
      refine ⟨_, List.mem_map.2 ⟨vd.map k, (hidx _).2 ⟨hkl, ?_⟩, rfl⟩, ?_, ?_⟩
      · intro x hx
        obtain ⟨i, _, rfl⟩ := List.mem_map.1 hx
        exact hk1 i
      · rw [forall₂_le_iff]
        refine ⟨by rw [(hlen _).1]; omega, fun i x y hx hy => ?_⟩
        by_cases hi : i ∈ vd
        · have hmem : (i, k i) ∈ vd.zip (vd.map k) := by
            obtain ⟨j, hj, rfl⟩ := List.getElem_of_mem hi
            exact List.mem_iff_getElem.2 ⟨j, by simpa using hj, by simp⟩
          obtain ⟨a, b, ha, hb, _, c1, _⟩ := hat _ hkl i (k i) hmem
          rw [c1] at hx; cases hx
          exact (hk2 i hi a b y ha hb hy).1
        · rw [(hoth _ hkl i hi).1] at hx
          exact p2 i x y hx hy
      · rw [forall₂_le_iff]
        refine ⟨by rw [(hlen _).2]; omega, fun i x y hx hy => ?_⟩
        by_cases hi : i ∈ vd
        · have hmem : (i, k i) ∈ vd.zip (vd.map k) := by
            obtain ⟨j, hj, rfl⟩ := List.getElem_of_mem hi
            exact List.mem_iff_getElem.2 ⟨j, by simpa using hj, by simp⟩
          obtain ⟨a, b, ha, hb, _, _, c2⟩ := hat _ hkl i (k i) hmem
          rw [c2] at hy; cases hy
          exact (hk2 i hi a b x ha hb hx).2
        · rw [(hoth _ hkl i hi).2] at hy
          exact q2 i x y hx hy
    · -- inside
      intro s hs
      obtain ⟨idx, hidm, rfl⟩ := List.mem_map.1 hs
      obtain ⟨hidl, hidn⟩ := (hidx idx).1 hidm
      have hb1 : ∀ i k, (i, k) ∈ vd.zip idx → k < n := fun i k h => hidn k (List.of_mem_zip h).2
      have hLo : Le r.1 (piece r n (vd.zip idx)).1 := by
        refine (forall₂_le_iff _ _).2 ⟨by rw [(hlen _).1, hl1], fun i x y hx hy => ?_⟩
        by_cases hi : i ∈ vd
        · obtain ⟨k, hk⟩ := hzipm idx hidl i hi
          obtain ⟨a, b, ha, hb, hab, c1, _⟩ := hat idx hidl i k hk
          rw [ha] at hx; rw [c1] at hy; cases hx; cases hy
          have := cut_mono _ _ hab.le n 0 k (Nat.zero_le _)
          rwa [cut_zero] at this
        · rw [(hoth _ hidl i hi).1, hx] at hy
          cases hy; exact le_refl _
      have hHi : Le (piece r n (vd.zip idx)).2 r.2 := by
        refine (forall₂_le_iff _ _).2 ⟨by rw [(hlen _).2, hl2], fun i x y hx hy => ?_⟩
        by_cases hi : i ∈ vd
        · obtain ⟨k, hk⟩ := hzipm idx hidl i hi
          obtain ⟨a, b, ha, hb, hab, _, c2⟩ := hat idx hidl i k hk
          rw [c2] at hx; rw [hb] at hy; cases hx; cases hy
          have := cut_mono _ _ hab.le n (k + 1) n (hb1 i k hk)
          rwa [cut_last _ _ n hn] at this
        · rw [(hoth _ hidl i hi).2, hy] at hx
          cases hx; exact le_refl _
      have hMid : Le (piece r n (vd.zip idx)).1 (piece r n (vd.zip idx)).2 := by
        refine (forall₂_le_iff _ _).2 ⟨by rw [(hlen _).1, (hlen _).2], fun i x y hx hy => ?_⟩
        by_cases hi : i ∈ vd
        · obtain ⟨k, hk⟩ := hzipm idx hidl i hi
          obtain ⟨a, b, ha, hb, hab, c1, c2⟩ := hat idx hidl i k hk
          rw [c1] at hx; rw [c2] at hy; cases hx; cases hy
          exact (cut_strict a b hab n k hn).le
        · rw [(hoth _ hidl i hi).1] at hx
          rw [(hoth _ hidl i hi).2] at hy
          exact hle.2 i x y hx hy
      exact ⟨⟨(hlen _).1, hMid⟩, fun p hp => inside_mono hp hLo hHi⟩
    · -- touch
      rw [List.pairwise_map]
      have hne : (product (List.replicate vd.length (List.range n))).Nodup := by
        have : ∀ m, (product (List.replicate m (List.range n))).Nodup := by
          intro m
          induction m with
          | zero => simp [product]
          | succ m ih =>
            rw [List.replicate_succ]
            simp only [product]
            rw [List.nodup_flatMap]
            refine ⟨fun a _ => ih.map (fun x y h => by simpa using h), ?_⟩
            refine List.nodup_range.imp_of_mem ?_
            intro a b _ _ hab
            simp only [Function.onFun, List.disjoint_left, List.mem_map, not_exists, not_and]
            rintro x ⟨y, _, rfl⟩ z _ h
            exact hab (by simpa using (congrArg List.head? h).symm)
        exact this _
      refine (hne.imp_of_mem ?_)
      intro idx jdx hi hj hij p hp hq
      obtain ⟨hil, hin⟩ := (hidx idx).1 hi
      obtain ⟨hjl, hjn⟩ := (hidx jdx).1 hj
      have : ∃ m, ∃ (h1 : m < idx.length) (h2 : m < jdx.length), idx[m] ≠ jdx[m] := by
        by_contra hcon
        push Not at hcon
        exact hij (List.ext_getElem (by omega) (fun m h1 h2 => hcon m h1 h2))
      obtain ⟨m, m1, m2, hm⟩ := this
      have mv : m < vd.length := by omega
      have mem1 : (vd[m], idx[m]) ∈ vd.zip idx := List.mem_iff_getElem.2 ⟨m, by simp; omega, by simp⟩
      have mem2 : (vd[m], jdx[m]) ∈ vd.zip jdx := List.mem_iff_getElem.2 ⟨m, by simp; omega, by simp⟩
      obtain ⟨a, b, ha, hb, hab, c1, c2⟩ := hat idx hil _ _ mem1
      obtain ⟨a', b', ha', hb', _, e1, e2⟩ := hat jdx hjl _ _ mem2
      rw [ha] at ha'; rw [hb] at hb'; cases ha'; cases hb'
      obtain ⟨pl, pp⟩ := (forall₂_le_iff _ _).1 hp.1
      obtain ⟨ql, qq⟩ := (forall₂_le_iff _ _).1 hp.2
      obtain ⟨_, pp'⟩ := (forall₂_le_iff _ _).1 hq.1
      obtain ⟨_, qq'⟩ := (forall₂_le_iff _ _).1 hq.2
      have hpl : vd[m] < p.length := by
        rw [← pl, (hlen _).1]
        exact (hVm _ (List.getElem_mem mv)).1
      have hx : p[vd[m]]? = some p[vd[m]] := List.getElem?_eq_getElem hpl
      have f1 := pp _ _ _ c1 hx
      have f2 := qq _ _ _ hx c2
      have f3 := pp' _ _ _ e1 hx
      have f4 := qq' _ _ _ hx e2
      have hflat : (piece r n (vd.zip idx)).1[vd[m]]? ≠ (piece r n (vd.zip idx)).2[vd[m]]? := by
        rw [c1, c2]
        intro e
        exact absurd (Option.some.inj e) (cut_strict a b hab n _ hn).ne
      rcases Nat.lt_or_gt_of_ne hm with hlt' | hgt
      · have g := cut_mono a b hab.le n (idx[m] + 1) jdx[m] hlt'
        have hxe : p[vd[m]] = cut a b n (idx[m] + 1) := le_antisymm f2 (le_trans g f3)
        have hxe' : p[vd[m]] = cut a b n jdx[m] := le_antisymm (le_trans f2 g) f3
        exact ⟨vd[m], p[vd[m]], hx, .inl ⟨by rw [c2, hxe], by rw [e1, hxe']⟩, hflat⟩
      · have g := cut_mono a b hab.le n (jdx[m] + 1) idx[m] hgt
        have hxe : p[vd[m]] = cut a b n (jdx[m] + 1) := le_antisymm f4 (le_trans g f1)
        have hxe' : p[vd[m]] = cut a b n idx[m] := le_antisymm (le_trans f4 g) f1
        exact ⟨vd[m], p[vd[m]], hx, .inr ⟨by rw [e2, hxe], by rw [c1, hxe']⟩, hflat⟩
    · -- count
      rw [List.length_map]
      have : ∀ m, (product (List.replicate m (List.range n))).length = n ^ m := by
        intro m
        induction m with
        | zero => simp [product]
        | succ m ih =>
          rw [List.replicate_succ]
          simp only [product, List.length_flatMap, List.length_map, ih]
          simp [pow_succ, mul_comm]
      exact this _
    · -- sides
      intro s hs i hi a b x y ha hb hx hy
      obtain ⟨idx, hidm, rfl⟩ := List.mem_map.1 hs
      obtain ⟨hidl, _⟩ := (hidx idx).1 hidm
      have hn' : (n : K) ≠ 0 := by exact_mod_cast hn.ne'
      by_cases hiv : i ∈ vd
      · obtain ⟨k, hk⟩ := hzipm idx hidl i hiv
        obtain ⟨a', b', ha', hb', _, c1, c2⟩ := hat idx hidl i k hk
        rw [ha] at ha'; rw [hb] at hb'; cases ha'; cases hb'
        rw [c1] at hx; rw [c2] at hy; cases hx; cases hy
        unfold cut
        push_cast
        field_simp
        ring
      · rw [(hoth _ hidl i hiv).1, ha] at hx
        rw [(hoth _ hidl i hiv).2, hb] at hy
        cases hx; cases hy
        by_cases hab : a = b
        · subst hab; simp
        · refine absurd ?_ hiv
          rw [← hV, List.mem_filter]
          exact ⟨hi, by simp [ha, hb, hab]⟩

/-- A rectangle with time, a flat dimension and two that are cut into halves: four pieces. -/
example : Proper 4 (([0, 0, 5, -1], [1, 2, 5, 1]) : Box ℚ) ∧ (((none : Option (List Nat)).getD ((List.range 4).drop 1)).filter
      (fun i => decide (i ≠ 0))) = [1, 2, 3] ∧
    partitionRect (([0, 0, 5, -1], [1, 2, 5, 1]) : Box ℚ) 2 none =
      .ok [([0, 0, 5, -1], [1, 1, 5, 0]), ([0, 0, 5, 0], [1, 1, 5, 1]), ([0, 1, 5, -1], [1, 2, 5, 0]), ([0, 1, 5, 0], [1, 2, 5, 1])] := by
  refine ⟨⟨rfl, .cons (by norm_num) (.cons (by norm_num) (.cons (by norm_num) (.cons (by norm_num) .nil)))⟩, by decide, by decide +kernel⟩

end

end Verif.Props
