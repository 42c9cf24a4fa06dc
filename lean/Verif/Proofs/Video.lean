import Verif.Spec.Video
import Verif.Proofs.Plot2

/-! Lemmas on the frames of videos. -/

set_option autoImplicit false
set_option linter.unusedSectionVars false

namespace Verif.Plot
open Verif.Spec Verif.ATree

section
variable {K : Type} [Field K] [LinearOrder K] [IsStrictOrderedRing K]

/-- An item is kept under a time. -/
def KeptAt (d : Dict K (List (Item K))) (time : K) (it : Item K) : Prop := ∃ l, Dict.get? d time = some l ∧ it ∈ l

/-- No list is empty. -/
def Full (d : Dict K (List (Item K))) : Prop := ∀ time l, Dict.get? d time = some l → l ≠ []

theorem addTimed_spec (d : Dict K (List (Item K))) (time : K) (it : Item K) (t' : K) (it' : Item K) :
    KeptAt (addTimed d time it) t' it' ↔ KeptAt d t' it' ∨ (t' = time ∧ it' = it) := by
  unfold KeptAt addTimed
  rw [Dict.get?_set]
  by_cases h : time = t'
  · subst h
    rw [if_pos rfl]
    cases hd : Dict.get? d time with
    | none => simp
    | some l => simp
  · rw [if_neg h]
    simp [Ne.symm h]

theorem addTimed_full (d : Dict K (List (Item K))) (time : K) (it : Item K) (h : Full d) : Full (addTimed d time it) := by
  intro t' l hl
  unfold addTimed at hl
  rw [Dict.get?_set] at hl
  split at hl
  · cases hl; simp
  · exact h t' l hl

/-- What is known of the rectangles that have been scanned: the items kept, and that their corners are in the ranges. -/
structure Scanned (x y : Nat) (st : Timed K) : Prop where
  full : Full st.timed
  range : ∀ time a lo hi, KeptAt st.timed time (a, (lo, hi)) → ∃ p q : K × K, Spec.At x y lo p ∧ Spec.At x y hi q ∧
    Spec.Visible st.xr p.1 ∧ Spec.Visible st.xr q.1 ∧ Spec.Visible st.yr p.2 ∧ Spec.Visible st.yr q.2

theorem videoRects_spec (rnd : K → K) (x y : Nat) (aid : String) : ∀ (l : List (Row K)) (st st' : Timed K), videoRects rnd x y aid l st = .ok st' →
    (∀ (time : K) (a : String) (r : Row K × Row K), KeptAt st'.timed time (a, r) ↔ KeptAt st.timed time (a, r) ∨
      (a = aid ∧ ∃ j t, Spec.Rect l j r.1 r.2 ∧ r.1[0]? = some t ∧ time = rnd t)) ∧ (Scanned x y st → Scanned x y st')
  | [], st, st', h => by
    simp only [videoRects] at h; cases h
    simp [Spec.Rect]
  | [b], st, st', h => by
    simp only [videoRects] at h; cases h
    simp [Spec.Rect]
  | b :: c :: l, st, st', h => by
    rw [videoRects] at h
    split at h
    · rename_i t ax ay bx by' ht hax hay hbx hby
      obtain ⟨i1, i2⟩ := videoRects_spec rnd x y aid l _ st' h
      refine ⟨fun time a r => ?_, fun hs => i2 ?_⟩
      · rw [i1, addTimed_spec]
        constructor
        · rintro ((h | ⟨h1, h2⟩) | ⟨h1, j, t', ⟨h2, h3⟩, h4⟩)
          · exact Or.inl h
          · cases h2
            exact Or.inr ⟨rfl, 0, t, ⟨rfl, rfl⟩, ht, h1⟩
          · refine Or.inr ⟨h1, j + 1, t', ⟨?_, ?_⟩, h4⟩
            · rw [show 2 * (j + 1) = 2 * j + 1 + 1 from by omega]; simpa using h2
            · rw [show 2 * (j + 1) + 1 = 2 * j + 1 + 1 + 1 from by omega]; simpa using h3
        · rintro (h | ⟨h1, j, t', ⟨h2, h3⟩, h4, h5⟩)
          · exact Or.inl (Or.inl h)
          · cases j with
            | zero =>
              simp at h2 h3
              left; right
              refine ⟨?_, Prod.ext h1 (Prod.ext h2.symm h3.symm)⟩
              rw [← h2, ht] at h4; cases h4; exact h5
            | succ j =>
              rw [show 2 * (j + 1) = 2 * j + 1 + 1 from by omega] at h2
              rw [show 2 * (j + 1) + 1 = 2 * j + 1 + 1 + 1 from by omega] at h3
              simp only [List.getElem?_cons_succ] at h2 h3
              exact Or.inr ⟨h1, j, t', ⟨h2, h3⟩, h4, h5⟩
      · refine ⟨addTimed_full _ _ _ hs.full, fun time a lo hi hk => ?_⟩
        rcases (addTimed_spec _ _ _ _ _).1 hk with hk | ⟨_, hk⟩
        · obtain ⟨p, q, g1, g2, g3, g4, g5, g6⟩ := hs.range time a lo hi hk
          exact ⟨p, q, g1, g2, widen_mono _ _ _ g3, widen_mono _ _ _ g4, widen_mono _ _ _ g5, widen_mono _ _ _ g6⟩
        · cases hk
          exact ⟨(ax, ay), (bx, by'), ⟨hax, hay⟩, ⟨hbx, hby⟩, widen_mem _ _ _ (by simp), widen_mem _ _ _ (by simp), widen_mem _ _ _ (by simp), widen_mem _ _ _ (by simp)⟩
    · cases h

theorem videoAgents_spec (rnd : K → K) (x y : Nat) : ∀ (es : List (String × List (Row K))) (st st' : Timed K),
    es.foldlM (fun st e => videoRects rnd x y e.1 e.2 st) st = .ok st' →
    (∀ (time : K) (a : String) (r : Row K × Row K), KeptAt st'.timed time (a, r) ↔ KeptAt st.timed time (a, r) ∨
      ∃ tr j t, (a, tr) ∈ es ∧ Spec.Rect tr j r.1 r.2 ∧ r.1[0]? = some t ∧ time = rnd t) ∧ (Scanned x y st → Scanned x y st') := by
  intro es
  induction es with
  | nil => intro st st' h; cases h; simp
  | cons e es ih =>
    intro st st' h
    obtain ⟨s1, h1, h2⟩ := (foldlM_cons_ok _ _ _ _ _).1 h
    obtain ⟨i1, i2⟩ := ih s1 st' h2
    obtain ⟨j1, j2⟩ := videoRects_spec rnd x y e.1 e.2 st s1 h1
    refine ⟨fun time a r => ?_, fun hs => i2 (j2 hs)⟩
    rw [i1, j1]
    constructor
    · rintro ((h | ⟨rfl, j, t, h⟩) | ⟨tr, j, t, h, hk⟩)
      · exact Or.inl h
      · exact Or.inr ⟨e.2, j, t, List.mem_cons_self, h⟩
      · exact Or.inr ⟨tr, j, t, List.mem_cons_of_mem _ h, hk⟩
    · rintro (h | ⟨tr, j, t, h, hk⟩)
      · exact Or.inl (Or.inl h)
      · rcases List.mem_cons.1 h with h | h
        · subst h; exact Or.inl (Or.inr ⟨rfl, j, t, hk⟩)
        · exact Or.inr ⟨tr, j, t, h, hk⟩

theorem videoNodes_spec (rnd : K → K) (x y : Nat) : ∀ (us : List (RTree (PNode K))) (st st' : Timed K),
    us.foldlM (videoNode rnd x y) st = .ok st' →
    (∀ (time : K) (a : String) (r : Row K × Row K), KeptAt st'.timed time (a, r) ↔ KeptAt st.timed time (a, r) ∨
      ∃ u ∈ us, ∃ tr j t, (a, tr) ∈ u.label.trace ∧ Spec.Rect tr j r.1 r.2 ∧ r.1[0]? = some t ∧ time = rnd t) ∧ (Scanned x y st → Scanned x y st') := by
  intro us
  induction us with
  | nil => intro st st' h; cases h; simp
  | cons u us ih =>
    intro st st' h
    obtain ⟨s1, h1, h2⟩ := (foldlM_cons_ok _ _ _ _ _).1 h
    obtain ⟨i1, i2⟩ := ih s1 st' h2
    obtain ⟨j1, j2⟩ := videoAgents_spec rnd x y u.label.trace st s1 h1
    refine ⟨fun time a r => ?_, fun hs => i2 (j2 hs)⟩
    rw [i1, j1]
    simp only [List.mem_cons, exists_eq_or_imp, or_assoc]

/-! ### The frames -/

theorem number_ge : ∀ (l : List (K × List (Item K))) (k : Nat), ∀ s ∈ number k l, ∀ i ∈ s.2, k ≤ i
  | [], _, s, hs, _, _ => by cases hs
  | (t, its) :: l, k, s, hs, i, hi => by
    rcases List.mem_cons.1 hs with rfl | hs
    · exact (List.mem_range'_1.1 hi).1
    · exact (Nat.le_add_right _ _).trans (number_ge l _ s hs i hi)

theorem number_spec (P : K → Prop) (it : Item K) : ∀ (l : List (K × List (Item K))) (k : Nat),
    (∃ i : Nat, (l.flatMap Prod.snd)[i]? = some it ∧ ∃ s ∈ number k l, P s.1 ∧ k + i ∈ s.2) ↔ ∃ s ∈ l, P s.1 ∧ it ∈ s.2
  | [], k => by simp [number]
  | (t, its) :: l, k => by
    have ih := number_spec P it l (k + its.length)
    rw [List.flatMap_cons]
    simp only [number, List.mem_cons, exists_eq_or_imp]
    rw [← ih]
    constructor
    · rintro ⟨i, h1, h2⟩
      by_cases hi : i < its.length
      · rw [List.getElem?_append_left hi] at h1
        rcases h2 with ⟨h2, _⟩ | ⟨s, hs, _, h3⟩
        · exact Or.inl ⟨h2, List.mem_of_getElem? h1⟩
        · have := number_ge l _ s hs _ h3
          omega
      · rw [List.getElem?_append_right (by omega)] at h1
        rcases h2 with ⟨_, h2⟩ | ⟨s, hs, h3, h4⟩
        · have := (List.mem_range'_1.1 h2).2
          omega
        · exact Or.inr ⟨i - its.length, h1, s, hs, h3, by rwa [show k + its.length + (i - its.length) = k + i from by omega]⟩
    · rintro (⟨h1, h2⟩ | ⟨i, h1, s, hs, h2, h3⟩)
      · obtain ⟨i, hi⟩ := List.mem_iff_getElem?.1 h2
        have hlt := (List.getElem?_eq_some_iff.1 hi).1
        refine ⟨i, by rw [List.getElem?_append_left hlt]; exact hi, Or.inl ⟨h1, List.mem_range'_1.2 ⟨by omega, by omega⟩⟩⟩
      · refine ⟨its.length + i, ?_, Or.inr ⟨s, hs, h2, by rwa [← Nat.add_assoc]⟩⟩
        rw [List.getElem?_append_right (by omega), Nat.add_sub_cancel_left]
        exact h1

theorem number_fst : ∀ (l : List (K × List (Item K))) (k : Nat), (number k l).map Prod.fst = l.map Prod.fst
  | [], _ => rfl
  | (t, its) :: l, k => by simp [number, number_fst l]

theorem advance_spec (t : K) : ∀ (l : List (K × List Nat)), (l.map Prod.fst).Pairwise (· ≤ ·) →
    (∀ i, i ∈ (advance t l).1 ↔ ∃ s ∈ l, s.1 ≤ t ∧ i ∈ s.2) ∧ (advance t l).2 = l.filter (fun s => decide (t < s.1))
  | [], _ => by simp [advance]
  | s :: l, hp => by
    rw [List.map_cons, List.pairwise_cons] at hp
    obtain ⟨i1, i2⟩ := advance_spec t l hp.2
    rw [advance]
    by_cases h : s.1 ≤ t
    · rw [if_pos h]
      refine ⟨fun i => ?_, ?_⟩
      · simp only [List.mem_append, i1, List.mem_cons, exists_eq_or_imp, h, true_and]
      · rw [List.filter_cons_of_neg (by simpa using h)]
        exact i2
    · rw [if_neg h]
      have hl : ∀ s' ∈ s :: l, t < s'.1 := by
        intro s' hs'
        rcases List.mem_cons.1 hs' with rfl | hs'
        · exact not_le.1 h
        · exact (not_le.1 h).trans_le (hp.1 _ (List.mem_map_of_mem hs'))
      refine ⟨fun i => ?_, ?_⟩
      · constructor
        · intro h; cases h
        · rintro ⟨s', hs', h1, _⟩
          exact absurd h1 (not_le.2 (hl s' hs'))
      · rw [List.filter_eq_self.2]
        intro s' hs'
        exact decide_eq_true (hl s' hs')

theorem newIndices_spec : ∀ (ts : List K) (l : List (K × List Nat)), ts.Pairwise (· ≤ ·) → (l.map Prod.fst).Pairwise (· ≤ ·) →
    ∀ (k : Nat) (t : K), ts[k]? = some t → ∀ i : Nat, (∃ (j : Nat) (new : List Nat), j ≤ k ∧ (newIndices ts l)[j]? = some new ∧ i ∈ new) ↔ ∃ s ∈ l, s.1 ≤ t ∧ i ∈ s.2
  | [], _, _, _, k, t, hk, _ => by simp at hk
  | u :: ts, l, hts, hl, k, t, hk, i => by
    obtain ⟨a1, a2⟩ := advance_spec u l hl
    rw [List.pairwise_cons] at hts
    rw [newIndices]
    cases k with
    | zero =>
      rw [List.getElem?_cons_zero] at hk; cases hk
      rw [← a1]
      constructor
      · rintro ⟨j, new, hj, h1, h2⟩
        obtain rfl := Nat.le_zero.1 hj
        rw [List.getElem?_cons_zero] at h1; cases h1
        exact h2
      · intro h
        exact ⟨0, _, le_refl _, rfl, h⟩
    | succ k =>
      rw [List.getElem?_cons_succ] at hk
      have hut : u ≤ t := hts.1 t (List.mem_of_getElem? hk)
      have hl' : (((advance u l).2).map Prod.fst).Pairwise (· ≤ ·) := by
        rw [a2]
        exact hl.sublist (List.filter_sublist.map _)
      have ih := newIndices_spec ts _ hts.2 hl' k t hk i
      constructor
      · rintro ⟨j, new, hj, h1, h2⟩
        cases j with
        | zero =>
          rw [List.getElem?_cons_zero] at h1; cases h1
          obtain ⟨s, hs, h3, h4⟩ := (a1 i).1 h2
          exact ⟨s, hs, h3.trans hut, h4⟩
        | succ j =>
          rw [List.getElem?_cons_succ] at h1
          obtain ⟨s, hs, h3⟩ := ih.1 ⟨j, new, by omega, h1, h2⟩
          rw [a2] at hs
          exact ⟨s, (List.mem_filter.1 hs).1, h3⟩
      · rintro ⟨s, hs, h1, h2⟩
        by_cases hsu : s.1 ≤ u
        · exact ⟨0, _, by omega, rfl, (a1 i).2 ⟨s, hs, hsu, h2⟩⟩
        · obtain ⟨j, new, hj, h3, h4⟩ := ih.2 ⟨s, by rw [a2]; exact List.mem_filter.2 ⟨hs, decide_eq_true (not_le.1 hsu)⟩, h1, h2⟩
          exact ⟨j + 1, new, by omega, by rw [List.getElem?_cons_succ]; exact h3, h4⟩

theorem setAll_spec : ∀ (is : List Nat) (v : List Bool) (i : Nat),
    ((is.foldl (fun (v : List Bool) i => v.set i true) v)[i]? = some true ↔ v[i]? = some true ∨ (i ∈ is ∧ i < v.length)) ∧
    (is.foldl (fun (v : List Bool) i => v.set i true) v).length = v.length
  | [], v, i => by simp
  | j :: is, v, i => by
    obtain ⟨i1, i2⟩ := setAll_spec is (v.set j true) i
    rw [List.foldl_cons]
    refine ⟨?_, by rw [i2, List.length_set]⟩
    rw [i1, List.length_set, List.mem_cons, List.getElem?_set]
    by_cases h : j = i
    · subst h
      rw [if_pos rfl]
      by_cases hl : j < v.length
      · simp [hl]
      · simp [hl]
    · rw [if_neg h]
      simp [Ne.symm h]

theorem htmlFrames_spec : ∀ (ts : List K) (l : List (K × List Nat)) (vis : List Bool) (k : Nat) (f : List Bool), (htmlFrames vis ts l)[k]? = some f →
    ∀ i : Nat, f[i]? = some true ↔ vis[i]? = some true ∨ (i < vis.length ∧ ∃ (j : Nat) (new : List Nat), j ≤ k ∧ (newIndices ts l)[j]? = some new ∧ i ∈ new)
  | [], _, _, k, f, hf, _ => by simp [htmlFrames] at hf
  | u :: ts, l, vis, k, f, hf, i => by
    rw [htmlFrames] at hf
    rw [newIndices]
    obtain ⟨s1, s2⟩ := setAll_spec (advance u l).1 vis i
    cases k with
    | zero =>
      rw [List.getElem?_cons_zero] at hf
      have hf := Option.some.inj hf
      rw [← hf, s1]
      apply or_congr_right
      constructor
      · rintro ⟨h1, h2⟩
        exact ⟨h2, 0, _, le_refl _, rfl, h1⟩
      · rintro ⟨h1, j, new, hj, h2, h3⟩
        obtain rfl := Nat.le_zero.1 hj
        rw [List.getElem?_cons_zero] at h2; cases h2
        exact ⟨h3, h1⟩
    | succ k =>
      rw [List.getElem?_cons_succ] at hf
      rw [htmlFrames_spec ts _ _ k f hf i, s1, s2, or_assoc]
      apply or_congr_right
      constructor
      · rintro (⟨h1, h2⟩ | ⟨h1, j, new, hj, h2, h3⟩)
        · exact ⟨h2, 0, _, by omega, rfl, h1⟩
        · exact ⟨h1, j + 1, new, by omega, by rw [List.getElem?_cons_succ]; exact h2, h3⟩
      · rintro ⟨h1, j, new, hj, h2, h3⟩
        cases j with
        | zero =>
          rw [List.getElem?_cons_zero] at h2; cases h2
          exact Or.inl ⟨h3, h1⟩
        | succ j =>
          rw [List.getElem?_cons_succ] at h2
          exact Or.inr ⟨h1, j, new, by omega, h2, h3⟩

theorem htmlFrames_length : ∀ (ts : List K) (l : List (K × List Nat)) (vis : List Bool), (htmlFrames vis ts l).length = ts.length
  | [], _, _ => rfl
  | u :: ts, l, vis => by simp [htmlFrames, htmlFrames_length ts]

/-! ### The times of the frames -/

theorem linspaceIdx_mono (n m : Nat) : (linspaceIdx n m).Pairwise (· ≤ ·) := by
  unfold linspaceIdx
  split
  · simp
  · rw [List.pairwise_map]
    exact List.pairwise_lt_range.imp (fun h => Nat.div_le_div_right (Nat.mul_le_mul_right _ (le_of_lt h)))

theorem linspaceIdx_length (n m : Nat) : (linspaceIdx n m).length = m := by
  unfold linspaceIdx
  split
  · simp [*]
  · simp

theorem thin_subset {α : Type} (cap : Option Nat) (l : List α) : ∀ a ∈ thin cap l, a ∈ l := by
  intro a ha
  unfold thin at ha
  split at ha
  · exact ha
  · split at ha
    · obtain ⟨i, _, hi⟩ := List.mem_filterMap.1 ha
      exact List.mem_of_getElem? hi
    · exact ha

theorem thin_length {α : Type} (m : Nat) (l : List α) : (thin (some m) l).length ≤ m := by
  simp only [thin]
  split
  · exact (List.length_filterMap_le _ _).trans (le_of_eq (linspaceIdx_length _ _))
  · omega

theorem thin_sorted (cap : Option Nat) (l : List K) (h : l.Pairwise (· ≤ ·)) : (thin cap l).Pairwise (· ≤ ·) := by
  unfold thin
  split
  · exact h
  · split
    · rw [List.pairwise_filterMap]
      refine (linspaceIdx_mono _ _).imp ?_
      intro i j hij a ha b hb
      obtain ⟨h1, rfl⟩ := List.getElem?_eq_some_iff.1 ha
      obtain ⟨h2, rfl⟩ := List.getElem?_eq_some_iff.1 hb
      rcases Nat.eq_or_lt_of_le hij with rfl | hij
      · exact le_refl _
      · exact List.pairwise_iff_getElem.1 h i j h1 h2 hij
    · exact h

/-- With at least two frames the last time is the time of a frame. -/
theorem thin_last (cap : Option Nat) (l : List K) (hcap : ∀ m, cap = some m → 2 ≤ m ∨ l.length ≤ m) : ∀ a, l.getLast? = some a → a ∈ thin cap l := by
  intro a ha
  unfold thin
  split
  · exact List.mem_of_getLast? ha
  · rename_i m
    split
    · rename_i hlt
      have hm : 2 ≤ m := (hcap m rfl).resolve_right (by omega)
      refine List.mem_filterMap.2 ⟨l.length - 1, ?_, ?_⟩
      · unfold linspaceIdx
        rw [if_neg (by omega)]
        refine List.mem_map.2 ⟨m - 1, List.mem_range.2 (by omega), ?_⟩
        exact Nat.mul_div_cancel_left _ (by omega)
      · rw [← List.getLast?_eq_getElem?]
        exact ha
    · exact List.mem_of_getLast? ha

theorem sorted_keys (l : List K) : (l.insertionSort (· ≤ ·)).Pairwise (· ≤ ·) := List.pairwise_insertionSort _ l

end

end Verif.Plot
