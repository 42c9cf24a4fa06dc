import Verif.Props.Diameter

/-!
C92: the diameters of the steps of an analysis.
-/

set_option autoImplicit false
set_option linter.unusedSectionVars false

namespace Verif.Props
open Verif.Diam Verif.Stars

variable {K : Type} [Field K] [LinearOrder K] [IsStrictOrderedRing K]

/-- `s` is a star of an agent of the first node, in some node, at a time between `lo` and `hi`. -/
def StarIn (nodes : List (SNode K)) (lo hi : K) (s : StarSet K) : Prop :=
  ∃ n0 nd a rows t, nodes.head? = some n0 ∧ nd ∈ nodes ∧ a ∈ Dict.keys n0 ∧ Dict.get? nd a = some rows ∧ (t, s) ∈ rows ∧ lo ≤ t ∧ t ≤ hi

/-- `d` is the greatest of the diameters of the stars of a window. -/
def Greatest (diam : StarSet K → Except String K) (S : StarSet K → Prop) (d : K) : Prop :=
  (∃ s, S s ∧ diam s = .ok d) ∧ ∀ s, S s → ∃ e, diam s = .ok e ∧ e ≤ d

/-- The beginning of step `i`: the horizon is divided into `n` equal parts, and one step `dt` is added at the end. -/
def stepTime (T dt : K) (n i : Nat) : K := if i ≤ n then (if n = 0 then 0 else i * (T / n)) else (if n = 0 then 0 else T) + dt

theorem rowsIn_mem (tl tu : K) (rows : List (K × StarSet K)) (hs : (rows.map Prod.fst).Pairwise (· ≤ ·)) (s : StarSet K) :
    s ∈ rowsIn tl tu rows ↔ ∃ t, (t, s) ∈ rows ∧ tl ≤ t ∧ t ≤ tu := by
  induction rows with
  | nil => simp [rowsIn]
  | cons r rs ih =>
    simp only [List.map_cons, List.pairwise_cons] at hs
    unfold rowsIn
    split_ifs with h1 h2
    · rw [ih hs.2]
      constructor
      · rintro ⟨t, hm, h⟩; exact ⟨t, List.mem_cons_of_mem _ hm, h⟩
      · rintro ⟨t, hm, h⟩
        rcases List.mem_cons.1 hm with rfl | hm
        · exact absurd h.1 (not_le.2 h1)
        · exact ⟨t, hm, h⟩
    · simp only [List.not_mem_nil, false_iff]
      rintro ⟨t, hm, h⟩
      have : r.1 ≤ t := by
        rcases List.mem_cons.1 hm with rfl | hm
        · exact le_refl _
        · exact hs.1 t (List.mem_map_of_mem (f := Prod.fst) hm)
      exact absurd (lt_of_lt_of_le h2 this) (not_lt.2 h.2)
    · rw [List.mem_cons, ih hs.2]
      constructor
      · rintro (rfl | ⟨t, hm, h⟩)
        · exact ⟨r.1, List.mem_cons_self, not_lt.1 h1, not_lt.1 h2⟩
        · exact ⟨t, List.mem_cons_of_mem _ hm, h⟩
      · rintro ⟨t, hm, h⟩
        rcases List.mem_cons.1 hm with rfl | hm
        · exact .inl rfl
        · exact .inr ⟨t, hm, h⟩

/-- What has been collected. -/
def Holds (r : Dict String (List (StarSet K))) (s : StarSet K) : Prop := ∃ a l, Dict.get? r a = some l ∧ s ∈ l

theorem flatten_holds (r : Dict String (List (StarSet K))) (hn : (r.map Prod.fst).Nodup) (s : StarSet K) :
    s ∈ (r.map Prod.snd).flatten ↔ Holds r s := by
  rw [List.mem_flatten]
  constructor
  · rintro ⟨l, hl, hs⟩
    obtain ⟨⟨a, l'⟩, hm, rfl⟩ := List.mem_map.1 hl
    exact ⟨a, l', Dict.get?_of_mem hn hm, hs⟩
  · rintro ⟨a, l, h, hs⟩
    exact ⟨l, List.mem_map.2 ⟨_, Dict.mem_of_get? h, rfl⟩, hs⟩

theorem reachAgent_spec (tl tu : K) (nd : SNode K) (acc acc' : Dict String (List (StarSet K))) (a : String)
    (h : reachAgent tl tu nd acc a = .ok acc') (hn : (acc.map Prod.fst).Nodup) :
    (acc'.map Prod.fst).Nodup ∧ ∃ rows, Dict.get? nd a = some rows ∧ ∀ s, Holds acc' s ↔ Holds acc s ∨ s ∈ rowsIn tl tu rows := by
  unfold reachAgent at h
  cases hg : Dict.get? nd a with
  | none => rw [hg] at h; cases h
  | some rows =>
    rw [hg] at h
    simp only at h
    split_ifs at h with he
    · cases h
      exact ⟨hn, rows, rfl, fun s => by rw [he]; simp⟩
    · cases h
      refine ⟨Dict.nodup_set hn _ _, rows, rfl, fun s => ?_⟩
      constructor
      · rintro ⟨b, l, hb, hs⟩
        rw [Dict.get?_set] at hb
        split_ifs at hb with hab
        · injection hb with hb
          subst hb
          rcases List.mem_append.1 hs with hs | hs
          · cases hc : Dict.get? acc a with
            | none => rw [hc] at hs; simp at hs
            | some l => rw [hc] at hs; exact .inl ⟨a, l, hc, hs⟩
          · exact .inr hs
        · exact .inl ⟨b, l, hb, hs⟩
      · rintro (⟨b, l, hb, hs⟩ | hs)
        · by_cases hab : a = b
          · subst hab
            exact ⟨a, _, Dict.get?_set_self _ _ _, List.mem_append_left _ (by rw [hb]; exact hs)⟩
          · exact ⟨b, l, by rw [Dict.get?_set_ne _ _ _ _ hab]; exact hb, hs⟩
        · exact ⟨a, _, Dict.get?_set_self _ _ _, List.mem_append_right _ hs⟩

theorem reachNode_spec (tl tu : K) (nd : SNode K) (as : List String) (acc acc' : Dict String (List (StarSet K)))
    (h : as.foldlM (reachAgent tl tu nd) acc = .ok acc') (hn : (acc.map Prod.fst).Nodup) :
    (acc'.map Prod.fst).Nodup ∧ ∀ s, Holds acc' s ↔ Holds acc s ∨ ∃ a ∈ as, ∃ rows, Dict.get? nd a = some rows ∧ s ∈ rowsIn tl tu rows := by
  induction as generalizing acc with
  | nil => cases h; exact ⟨hn, fun s => by simp⟩
  | cons a as ih =>
    obtain ⟨acc1, h1, h2⟩ := (foldlM_cons_ok _ _ _ _ _).1 h
    obtain ⟨hn1, rows, hr, hs1⟩ := reachAgent_spec tl tu nd acc acc1 a h1 hn
    obtain ⟨hn2, hs2⟩ := ih acc1 h2 hn1
    refine ⟨hn2, fun s => ?_⟩
    rw [hs2, hs1]
    constructor
    · rintro ((h | h) | ⟨b, hb, h⟩)
      · exact .inl h
      · exact .inr ⟨a, List.mem_cons_self, rows, hr, h⟩
      · exact .inr ⟨b, List.mem_cons_of_mem _ hb, h⟩
    · rintro (h | ⟨b, hb, rows', hr', h⟩)
      · exact .inl (.inl h)
      · rcases List.mem_cons.1 hb with rfl | hb
        · rw [hr] at hr'
          injection hr' with hr'
          subst hr'
          exact .inl (.inr h)
        · exact .inr ⟨b, hb, rows', hr', h⟩

theorem reachNodes_spec (tl tu : K) (as : List String) (nodes : List (SNode K)) (acc acc' : Dict String (List (StarSet K)))
    (h : nodes.foldlM (fun acc nd => as.foldlM (reachAgent tl tu nd) acc) acc = .ok acc') (hn : (acc.map Prod.fst).Nodup) :
    (acc'.map Prod.fst).Nodup ∧
    ∀ s, Holds acc' s ↔ Holds acc s ∨ ∃ nd ∈ nodes, ∃ a ∈ as, ∃ rows, Dict.get? nd a = some rows ∧ s ∈ rowsIn tl tu rows := by
  induction nodes generalizing acc with
  | nil => cases h; exact ⟨hn, fun s => by simp⟩
  | cons nd nodes ih =>
    obtain ⟨acc1, h1, h2⟩ := (foldlM_cons_ok _ _ _ _ _).1 h
    obtain ⟨hn1, hs1⟩ := reachNode_spec tl tu nd as acc acc1 h1 hn
    obtain ⟨hn2, hs2⟩ := ih acc1 h2 hn1
    refine ⟨hn2, fun s => ?_⟩
    rw [hs2, hs1]
    simp only [List.mem_cons, exists_eq_or_imp, or_assoc]

/-- The times of all traces ascend. -/
def SortedTimes (nodes : List (SNode K)) : Prop := ∀ nd ∈ nodes, ∀ a rows, Dict.get? nd a = some rows → (rows.map Prod.fst).Pairwise (· ≤ ·)

theorem reachStar_spec (nodes : List (SNode K)) (hs : SortedTimes nodes) (tl tu : K) (r : Dict String (List (StarSet K)))
    (h : reachStar nodes tl tu = .ok r) (s : StarSet K) : s ∈ (r.map Prod.snd).flatten ↔ StarIn nodes tl tu s := by
  cases nodes with
  | nil => cases h
  | cons n0 nodes =>
    unfold reachStar at h
    obtain ⟨hn, hr⟩ := reachNodes_spec tl tu (Dict.keys n0) (n0 :: nodes) [] r h (by simp)
    rw [flatten_holds r hn, hr]
    constructor
    · rintro (⟨a, l, h, _⟩ | ⟨nd, hnd, a, ha, rows, hrows, hm⟩)
      · cases h
      · obtain ⟨t, ht, h1, h2⟩ := (rowsIn_mem tl tu rows (hs nd hnd a rows hrows) s).1 hm
        exact ⟨n0, nd, a, rows, t, rfl, hnd, ha, hrows, ht, h1, h2⟩
    · rintro ⟨n0', nd, a, rows, t, h0, hnd, ha, hrows, ht, h1, h2⟩
      cases h0
      exact .inr ⟨nd, hnd, a, ha, rows, hrows, (rowsIn_mem tl tu rows (hs nd hnd a rows hrows) s).2 ⟨t, ht, h1, h2⟩⟩

theorem foldl_max (d : K) (ds : List K) : ds.foldl max d ∈ d :: ds ∧ ∀ e ∈ d :: ds, e ≤ ds.foldl max d := by
  induction ds generalizing d with
  | nil => simp
  | cons c ds ih =>
    obtain ⟨h1, h2⟩ := ih (max d c)
    rw [List.foldl_cons]
    refine ⟨?_, ?_⟩
    · rcases List.mem_cons.1 h1 with h | h
      · rw [h]
        rcases max_choice d c with e | e <;> rw [e] <;> simp
      · simp [h]
    · intro e he
      simp only [List.mem_cons] at he
      rcases he with rfl | rfl | he
      · exact le_trans (le_max_left _ _) (h2 _ List.mem_cons_self)
      · exact le_trans (le_max_right _ _) (h2 _ List.mem_cons_self)
      · exact h2 e (List.mem_cons_of_mem _ he)

theorem windowDiam_spec (diam : StarSet K → Except String K) (nodes : List (SNode K)) (hs : SortedTimes nodes) (w : K × K) (o : Option K)
    (h : windowDiam diam nodes w = .ok o) :
    match o with
    | none => ∀ s, ¬ StarIn nodes w.1 w.2 s
    | some d => Greatest diam (StarIn nodes w.1 w.2) d := by
  unfold windowDiam at h
  obtain ⟨r, hr, h⟩ := (bind_ok_iff _ _ _).1 h
  obtain ⟨ds, hds, h⟩ := (map_ok_iff _ _ _).1 h
  have hf := (mapM_ok_iff _ _ _).1 hds
  have hmem := reachStar_spec nodes hs w.1 w.2 r hr
  cases ds with
  | nil =>
    subst h
    intro s hsn
    obtain ⟨y, hy, _⟩ := forall₂_mem_left hf ((hmem s).2 hsn)
    cases hy
  | cons d ds =>
    subst h
    obtain ⟨h1, h2⟩ := foldl_max d ds
    constructor
    · obtain ⟨s, hsm, hsd⟩ := forall₂_mem_right hf h1
      exact ⟨s, (hmem s).1 hsm, hsd⟩
    · intro s hsn
      obtain ⟨e, he, hse⟩ := forall₂_mem_left hf ((hmem s).2 hsn)
      exact ⟨e, hse, h2 e he⟩

theorem timeSteps_get (T dt : K) (n i : Nat) (hi : i ≤ n + 1) : (timeSteps T dt n)[i]? = some (stepTime T dt n i) := by
  unfold timeSteps stepTime
  by_cases h : i ≤ n
  · rw [List.getElem?_append_left (by simp; omega), if_pos h, List.getElem?_map, List.getElem?_range (by omega)]
    rfl
  · obtain rfl : i = n + 1 := by omega
    rw [if_neg (by omega : ¬ n + 1 ≤ n), List.getElem?_append_right (by simp)]
    simp

theorem windows_get (T dt : K) (n i : Nat) (hi : i ≤ n) :
    (windows T dt n)[i]? = some (stepTime T dt n i - dt / 10, stepTime T dt n (i + 1) - dt / 10) := by
  unfold windows
  rw [List.getElem?_map]
  have h1 := timeSteps_get T dt n i (by omega)
  have h2 : ((timeSteps T dt n).drop 1)[i]? = some (stepTime T dt n (i + 1)) := by
    rw [List.getElem?_drop, Nat.add_comm]
    exact timeSteps_get T dt n (i + 1) (by omega)
  have h3 : ((timeSteps T dt n).zip ((timeSteps T dt n).drop 1))[i]? = some (stepTime T dt n i, stepTime T dt n (i + 1)) :=
    List.getElem?_zip_eq_some.2 ⟨h1, h2⟩
  rw [h3]
  simp only [Option.map_some, one_div, ← div_eq_mul_inv]

theorem windows_length (T dt : K) (n : Nat) : (windows T dt n).length = n + 1 := by
  simp [windows, timeSteps]

/-- **C92.** The list has an entry for every step with a star in its window, in the order of the steps: the greatest of the diameters of
the stars of all agents and nodes in that window. The window of a step goes from a tenth of a time step before its beginning to a tenth
of a time step before the next one. -/
theorem C92_steps_partial (diam : StarSet K → Except String K) (nodes : List (SNode K)) (hs : SortedTimes nodes) (T dt : K) (n : Nat)
    (ds : List K) (h : timeStepDiameter diam nodes T dt n = .ok ds) :
    ∃ rs : List (Option K), rs.length = n + 1 ∧ ds = rs.filterMap id ∧ ∀ i ≤ n,
      (rs[i]? = some none ∧ ∀ s, ¬ StarIn nodes (stepTime T dt n i - dt / 10) (stepTime T dt n (i + 1) - dt / 10) s) ∨
      ∃ d, rs[i]? = some (some d) ∧ Greatest diam (StarIn nodes (stepTime T dt n i - dt / 10) (stepTime T dt n (i + 1) - dt / 10)) d := by
  unfold timeStepDiameter at h
  obtain ⟨rs, hrs, rfl⟩ := (map_ok_iff _ _ _).1 h
  have hf := (mapM_ok_iff _ _ _).1 hrs
  have hl : rs.length = n + 1 := by rw [← hf.length_eq, windows_length]
  refine ⟨rs, hl, rfl, fun i hi => ?_⟩
  have hw := windows_get T dt n i hi
  obtain ⟨o, ho⟩ : ∃ o, rs[i]? = some o := ⟨_, List.getElem?_eq_getElem (by omega)⟩
  have hrel := (List.forall₂_iff_get.1 hf).2 i (by rw [windows_length]; omega) (by omega)
  simp only [List.get_eq_getElem] at hrel
  rw [(List.getElem?_eq_some_iff.1 hw).2, (List.getElem?_eq_some_iff.1 ho).2] at hrel
  have := windowDiam_spec diam nodes hs _ o hrel
  cases o with
  | none => exact .inl ⟨ho, this⟩
  | some d => exact .inr ⟨d, ho, this⟩

/-- If every window has a star, entry `i` is for step `i`. -/
theorem C92_all_steps_partial (diam : StarSet K → Except String K) (nodes : List (SNode K)) (hs : SortedTimes nodes) (T dt : K) (n : Nat)
    (ds : List K) (h : timeStepDiameter diam nodes T dt n = .ok ds)
    (hall : ∀ i ≤ n, ∃ s, StarIn nodes (stepTime T dt n i - dt / 10) (stepTime T dt n (i + 1) - dt / 10) s) :
    ds.length = n + 1 ∧ ∀ i d, ds[i]? = some d →
      Greatest diam (StarIn nodes (stepTime T dt n i - dt / 10) (stepTime T dt n (i + 1) - dt / 10)) d := by
  obtain ⟨rs, hl, rfl, hr⟩ := C92_steps_partial diam nodes hs T dt n ds h
  have hsome : ∀ i ≤ n, ∃ d, rs[i]? = some (some d) ∧
      Greatest diam (StarIn nodes (stepTime T dt n i - dt / 10) (stepTime T dt n (i + 1) - dt / 10)) d := by
    intro i hi
    rcases hr i hi with ⟨_, hno⟩ | h
    · obtain ⟨s, hs⟩ := hall i hi
      exact absurd hs (hno s)
    · exact h
  have hmap : ∀ l : List (Option K), (∀ o ∈ l, ∃ d, o = some d) → (l.filterMap id).map some = l := by
    intro l
    induction l with
    | nil => intro _; rfl
    | cons o l ih =>
      intro h
      obtain ⟨d, rfl⟩ := h o List.mem_cons_self
      show some d :: (l.filterMap id).map some = _
      rw [ih fun o ho => h o (List.mem_cons_of_mem _ ho)]
  have hm : (rs.filterMap id).map some = rs := hmap rs fun o ho => by
    obtain ⟨i, hi, rfl⟩ := List.getElem_of_mem ho
    obtain ⟨d, hd, _⟩ := hsome i (by omega)
    exact ⟨d, (List.getElem?_eq_some_iff.1 hd).2⟩
  refine ⟨by rw [← hl, ← congrArg List.length hm, List.length_map], fun i d hd => ?_⟩
  have hi : rs[i]? = some (some d) := by rw [← hm, List.getElem?_map, hd]; rfl
  have : i < rs.length := (List.getElem?_eq_some_iff.1 hi).1
  obtain ⟨d', hd', hg⟩ := hsome i (by omega)
  rw [hi] at hd'
  cases hd'
  exact hg

/-- A measure of stars for the examples: the sum of the bounds of the coefficients. -/
def gDiam (s : StarSet ℚ) : Except String ℚ := .ok (((List.range s.g.len).map s.g.at_).sum)

/-- Two nodes with one agent: intervals of length 1 and 2 at times 0 and 1/2, then of length 3 and 4 at times 1 and 2. -/
def exTree : List (SNode ℚ) := [[("car", [(0, interval 1), (1 / 2, interval 2)])], [("car", [(1, interval 3), (2, interval 4)])]]

/-- The hypotheses of `C92_all_steps_partial` hold for this tree and steps of length 1. -/
example : SortedTimes exTree ∧ timeStepDiameter gDiam exTree 2 1 2 = .ok [2, 3, 4] ∧
    ∀ i ≤ 2, ∃ s, StarIn exTree (stepTime 2 1 2 i - 1 / 10) (stepTime 2 1 2 (i + 1) - 1 / 10) s := by
  refine ⟨?_, by decide +kernel, ?_⟩
  · intro nd hnd a rows hr
    simp only [exTree, List.mem_cons, List.not_mem_nil, or_false] at hnd
    rcases hnd with rfl | rfl
    · rw [Dict.get?_cons] at hr
      split_ifs at hr
      · cases hr; norm_num
      · cases hr
    · rw [Dict.get?_cons] at hr
      split_ifs at hr
      · cases hr; norm_num
      · cases hr
  · intro i hi
    rcases (show i = 0 ∨ i = 1 ∨ i = 2 by omega) with rfl | rfl | rfl
    · exact ⟨interval 1, _, _, "car", _, 0, rfl, List.mem_cons_self, by simp [Dict.keys], rfl, by simp, by norm_num [stepTime], by norm_num [stepTime]⟩
    · exact ⟨interval 3, _, _, "car", _, 1, rfl, List.mem_cons_of_mem _ List.mem_cons_self, by simp [Dict.keys], rfl, by simp, by norm_num [stepTime], by norm_num [stepTime]⟩
    · exact ⟨interval 4, _, _, "car", _, 2, rfl, List.mem_cons_of_mem _ List.mem_cons_self, by simp [Dict.keys], rfl, by simp, by norm_num [stepTime], by norm_num [stepTime]⟩

/-- **Steps are not told apart if a window has no star.** With the same tree and steps of length 1/2 nothing is at time 3/2: there are four
entries for five steps, and entry 3 is for step 4. -/
theorem C92_gap_violated : timeStepDiameter gDiam exTree 2 (1 / 2) 4 = .ok [1, 2, 3, 4] ∧
    (∀ s, ¬ StarIn exTree (stepTime 2 (1 / 2) 4 3 - (1 / 2) / 10) (stepTime 2 (1 / 2) 4 4 - (1 / 2) / 10) s) := by
  refine ⟨by decide +kernel, ?_⟩
  rintro s ⟨n0, nd, a, rows, t, h0, hnd, ha, hr, ht, h1, h2⟩
  norm_num [stepTime] at h1 h2
  simp only [exTree, List.mem_cons, List.not_mem_nil, or_false] at hnd
  rcases hnd with rfl | rfl
  · rw [Dict.get?_cons] at hr
    split_ifs at hr
    · cases hr
      simp only [List.mem_cons, Prod.mk.injEq, List.not_mem_nil, or_false] at ht
      rcases ht with ⟨rfl, _⟩ | ⟨rfl, _⟩ <;> norm_num at h1
    · cases hr
  · rw [Dict.get?_cons] at hr
    split_ifs at hr
    · cases hr
      simp only [List.mem_cons, Prod.mk.injEq, List.not_mem_nil, or_false] at ht
      rcases ht with ⟨rfl, _⟩ | ⟨rfl, _⟩
      · norm_num at h1
      · norm_num at h2
    · cases hr

/-- The diameter of a star that is used: if a distance is found it is the distance, otherwise the sum of the widths of the rectangle
around the star. -/
theorem C92_fallback_partial (milp : Milp K → Option K) (rect : StarSet K → Except String (List (K × K))) (s : StarSet K) (d : K)
    (hm : MilpSound milp) (h : diamOf milp rect s = .ok d)
    (hrect : ∀ r, rect s = .ok r → r.length = s.center.len ∧ ∀ x, Pt s x → ∀ i b, r[i]? = some b → b.1 ≤ x i ∧ x i ≤ b.2)
    (hw : ∀ x y, Pt s x → Pt s y → ∀ i < s.center.len, 2 * |x i - y i| ≤ 1048575) :
    ∀ x y, Pt s x → Pt s y → manhattan s.center.len x y ≤ d := by
  intro x y hx hy
  unfold diamOf at h
  rcases hsm : starManhattan milp s with ⟨d', b⟩
  rw [hsm] at h
  cases b with
  | true =>
    cases h
    exact (C92_distance_partial milp hm s _ hsm).2 x y hx hy (hw x y hx hy)
  | false =>
    obtain ⟨r, hr, rfl⟩ := (map_ok_iff _ _ _).1 h
    obtain ⟨hl, hb⟩ := hrect r hr
    unfold manhattan rectDiam
    rw [← hl]
    have key : ∀ (r : List (K × K)) (x y : Nat → K), (∀ i b, r[i]? = some b → b.1 ≤ x i ∧ x i ≤ b.2) → (∀ i b, r[i]? = some b → b.1 ≤ y i ∧ y i ≤ b.2) →
        ∑ i ∈ Finset.range r.length, |x i - y i| ≤ (r.map (fun b => |b.1 - b.2|)).sum := by
      intro r
      induction r with
      | nil => intro x y _ _; simp
      | cons b r ih =>
        intro x y h1 h2
        rw [List.length_cons, Finset.sum_range_succ', List.map_cons, List.sum_cons, add_comm]
        refine add_le_add ?_ (ih (fun i => x (i + 1)) (fun i => y (i + 1)) (fun i b h => h1 (i + 1) b h) (fun i b h => h2 (i + 1) b h))
        obtain ⟨a1, a2⟩ := h1 0 b rfl
        obtain ⟨c1, c2⟩ := h2 0 b rfl
        rw [abs_sub_comm b.1 b.2, abs_of_nonneg (by linarith : 0 ≤ b.2 - b.1), abs_le]
        constructor <;> linarith
    exact key r x y (hb x hx) (hb y hy)

end Verif.Props
