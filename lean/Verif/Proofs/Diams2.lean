import Verif.Proofs.Diams

/-! Diameters of simulations. -/

set_option autoImplicit false
set_option linter.unusedSectionVars false

namespace Verif.Proofs.Diams
open Verif.Spec Verif.ATree Verif.Fix Verif.Fix.Spec Verif.Diams Verif.Diams.Spec

/-! ### Dictionaries of lists -/

section
variable {κ α : Type} [DecidableEq κ]

/-- Append to the lists of a dictionary. -/
def app (l : List (κ × List α)) (d : Dict κ (List α)) : Dict κ (List α) :=
  l.foldl (fun d p => Dict.set d p.1 ((Dict.get? d p.1).getD [] ++ p.2)) d

theorem app_get (l : List (κ × List α)) (d : Dict κ (List α)) (k : κ) :
    Dict.get? (app l d) k = if (Dict.get? d k).isSome = true ∨ ∃ p ∈ l, p.1 = k then
      some ((Dict.get? d k).getD [] ++ (l.filter fun p => decide (p.1 = k)).flatMap Prod.snd) else none := by
  induction l generalizing d with
  | nil =>
    show Dict.get? d k = _
    cases Dict.get? d k <;> simp
  | cons p l ih =>
    show Dict.get? (app l (Dict.set d p.1 ((Dict.get? d p.1).getD [] ++ p.2))) k = _
    rw [ih, Dict.get?_set]
    by_cases h : p.1 = k
    · subst h
      simp
    · have e : (∃ q ∈ p :: l, q.1 = k) ↔ ∃ q ∈ l, q.1 = k := by
        constructor
        · rintro ⟨q, hq, e⟩
          rcases List.mem_cons.1 hq with rfl | hq
          · exact absurd e h
          · exact ⟨q, hq, e⟩
        · rintro ⟨q, hq, e⟩
          exact ⟨q, List.mem_cons_of_mem _ hq, e⟩
      rw [List.filter_cons_of_neg (by simpa using h)]
      simp only [if_neg h, e]

theorem app_nodup (l : List (κ × List α)) (d : Dict κ (List α)) (h : (d.map Prod.fst).Nodup) : ((app l d).map Prod.fst).Nodup := by
  induction l generalizing d with
  | nil => exact h
  | cons p l ih => exact ih _ (Dict.nodup_set h _ _)

end

variable {K : Type} [Field K] [LinearOrder K] [IsStrictOrderedRing K]

theorem composeNode_eq (n : FNode K) : composeNode n = app (n.trace.flatMap Prod.snd) [] := by
  unfold composeNode app
  rw [List.foldl_flatMap]

theorem record_eq (g : Dict K (List (List K))) (d : Dict K (List K)) : record g d = app (d.map fun p => (p.1, [p.2])) g := by
  unfold record app
  rw [List.foldl_map]

/-- The state of a node at a time. -/
def NodeState (n : FNode K) (t : K) (s : List K) : Prop := (∃ tr ∈ n.trace, ∃ r ∈ tr.2, r.1 = t) ∧
    s = n.trace.flatMap fun tr => (tr.2.filter fun r => decide (r.1 = t)).flatMap Prod.snd

theorem composeNode_get (n : FNode K) (t : K) (s : List K) : Dict.get? (composeNode n) t = some s ↔ NodeState n t s := by
  rw [composeNode_eq, app_get]
  unfold NodeState
  have e : (List.filter (fun p => decide (p.1 = t)) (n.trace.flatMap Prod.snd)).flatMap Prod.snd =
      n.trace.flatMap fun tr => (tr.2.filter fun r => decide (r.1 = t)).flatMap Prod.snd := by
    rw [List.filter_flatMap, List.flatMap_assoc]
  rw [e]
  by_cases h : ∃ tr ∈ n.trace, ∃ r ∈ tr.2, r.1 = t
  · have h' : ∃ p ∈ n.trace.flatMap Prod.snd, p.1 = t := by
      obtain ⟨tr, h1, r, h2, h3⟩ := h
      exact ⟨r, List.mem_flatMap.2 ⟨tr, h1, h2⟩, h3⟩
    rw [if_pos (Or.inr h')]
    simp only [Dict.get?_nil, Option.getD_none, List.nil_append, Option.some.injEq]
    exact ⟨fun e => ⟨h, e.symm⟩, fun e => e.2.symm⟩
  · have h' : ¬ ∃ p ∈ n.trace.flatMap Prod.snd, p.1 = t := by
      rintro ⟨r, h1, h2⟩
      obtain ⟨tr, h3, h4⟩ := List.mem_flatMap.1 h1
      exact h ⟨tr, h3, r, h4, h2⟩
    rw [if_neg (by rintro (h1 | h1); · simp at h1
                   · exact h' h1)]
    constructor
    · intro e
      cases e
    · intro e
      exact absurd e.1 h

/-! ### Groups -/

/-- The states recorded for a key at a time. -/
def statesIn (gs : Groups K) (k : Int) (t : K) : List (List K) := (Dict.get? ((Dict.get? gs k).getD []) t).getD []

structure GroupsOk (gs : Groups K) : Prop where
  keys : (gs.map Prod.fst).Nodup
  times : ∀ g ∈ gs, (g.2.map Prod.fst).Nodup
  some : ∀ g ∈ gs, ∀ p ∈ g.2, p.2 ≠ []

theorem filter_key {κ α : Type} [DecidableEq κ] (d : Dict κ α) (hd : (d.map Prod.fst).Nodup) (k : κ) :
    ((d.map fun p => (p.1, [p.2])).filter fun p => decide (p.1 = k)).flatMap Prod.snd = (Dict.get? d k).toList := by
  induction d with
  | nil => rfl
  | cons p d ih =>
    rw [List.map_cons, List.nodup_cons] at hd
    obtain ⟨x, y⟩ := p
    rw [Dict.get?_cons]
    by_cases h : x = k
    · subst h
      rw [if_pos rfl, List.map_cons, List.filter_cons_of_pos (by simp), List.flatMap_cons, ih hd.2, (Dict.get?_none_iff _ _).2 hd.1]
      rfl
    · rw [if_neg h, List.map_cons, List.filter_cons_of_neg (by simpa using h), ih hd.2]

theorem record_get (g : Dict K (List (List K))) (d : Dict K (List K)) (hd : (d.map Prod.fst).Nodup) (t : K) :
    (Dict.get? (record g d) t).getD [] = (Dict.get? g t).getD [] ++ (Dict.get? d t).toList := by
  rw [record_eq, app_get, filter_key d hd]
  by_cases h : (Dict.get? g t).isSome = true ∨ ∃ p ∈ d.map fun p => (p.1, [p.2]), p.1 = t
  · rw [if_pos h]; rfl
  · rw [if_neg h]
    rw [not_or] at h
    have h1 : Dict.get? g t = none := by simpa using h.1
    have h2 : Dict.get? d t = none := by
      rw [Dict.get?_none_iff]
      intro hm
      obtain ⟨p, hp, e⟩ := List.mem_map.1 hm
      exact h.2 ⟨(p.1, [p.2]), List.mem_map.2 ⟨p, hp, rfl⟩, e⟩
    rw [h1, h2]
    rfl

theorem record_some (g : Dict K (List (List K))) (d : Dict K (List K)) (hg : ∀ p ∈ g, p.2 ≠ []) (hn : (g.map Prod.fst).Nodup) (hd : (d.map Prod.fst).Nodup) :
    ∀ p ∈ record g d, p.2 ≠ [] := by
  intro p hp
  have hr : ((record g d).map Prod.fst).Nodup := by rw [record_eq]; exact app_nodup _ _ hn
  have h := Dict.get?_of_mem hr (k := p.1) (v := p.2) hp
  rw [record_eq, app_get, filter_key d hd] at h
  split at h
  · rename_i hc
    have e := Option.some.inj h
    rw [← e]
    rcases hc with hc | ⟨q, hq, hqe⟩
    · obtain ⟨v, hv⟩ := Option.isSome_iff_exists.1 hc
      rw [hv]
      have := hg _ (Dict.mem_of_get? hv)
      simp [this]
    · obtain ⟨q', hq', rfl⟩ := List.mem_map.1 hq
      have := Dict.get?_of_mem hd (k := q'.1) (v := q'.2) hq'
      rw [← hqe]
      simp only at this ⊢
      rw [this]
      simp
  · cases h

theorem composeNode_nodup (n : FNode K) : ((composeNode n).map Prod.fst).Nodup := by
  rw [composeNode_eq]; exact app_nodup _ _ List.nodup_nil

theorem mem_set {κ β : Type} [DecidableEq κ] {d : Dict κ β} {k : κ} {v : β} {p : κ × β} (h : p ∈ Dict.set d k v) : p = (k, v) ∨ p ∈ d := by
  induction d with
  | nil => simpa [Dict.set] using h
  | cons q d ih =>
    obtain ⟨a, b⟩ := q
    unfold Dict.set at h
    split at h
    · rcases List.mem_cons.1 h with h | h
      · exact Or.inl h
      · exact Or.inr (List.mem_cons_of_mem _ h)
    · rcases List.mem_cons.1 h with h | h
      · exact Or.inr (h ▸ List.mem_cons_self)
      · rcases ih h with h | h
        · exact Or.inl h
        · exact Or.inr (List.mem_cons_of_mem _ h)

theorem visit_ok {gs : Groups K} (h : GroupsOk gs) (n : FNode K) (k : Int) : GroupsOk (visit gs n k) := by
  have hg : ((((Dict.get? gs k).getD []).map Prod.fst).Nodup) ∧ ∀ p ∈ (Dict.get? gs k).getD [], p.2 ≠ [] := by
    cases hk : Dict.get? gs k with
    | none => simp
    | some g => exact ⟨h.times _ (Dict.mem_of_get? hk), h.some _ (Dict.mem_of_get? hk)⟩
  refine ⟨Dict.nodup_set h.keys _ _, ?_, ?_⟩
  · intro g hgm
    rcases mem_set hgm with rfl | hgm
    · rw [record_eq]; exact app_nodup _ _ hg.1
    · exact h.times g hgm
  · intro g hgm
    rcases mem_set hgm with rfl | hgm
    · exact record_some _ _ hg.2 hg.1 (composeNode_nodup n)
    · exact h.some g hgm

theorem visit_states (gs : Groups K) (n : FNode K) (k k' : Int) (t : K) (s : List K) :
    s ∈ statesIn (visit gs n k) k' t ↔ s ∈ statesIn gs k' t ∨ (k = k' ∧ NodeState n t s) := by
  unfold statesIn visit
  rw [Dict.get?_set]
  by_cases h : k = k'
  · subst h
    rw [if_pos rfl, Option.getD_some, record_get _ _ (composeNode_nodup n), List.mem_append, Option.mem_toList, composeNode_get]
    simp
  · rw [if_neg h]
    simp [h]

/-! ### The walk -/

/-- The key of a path below a node with the given history. -/
def keyFrom (hash : String → Int) (h : Option Int) (p : List (FNode K)) : Option Int := p.foldl (fun h n => some (histKey hash h n)) h

theorem walk_spec (hash : String → Int) (N : Nat) : ∀ (q : List (RTree (FNode K) × Option Int)) (gs : Groups K), sizeL (q.map Prod.fst) ≤ N → GroupsOk gs →
    GroupsOk (walk hash q gs) ∧ ∀ k t s, s ∈ statesIn (walk hash q gs) k t ↔ s ∈ statesIn gs k t ∨
      ∃ x ∈ q, ∃ p, Path x.1 p ∧ keyFrom hash x.2 p = some k ∧ StateAt p t s := by
  induction N with
  | zero =>
    intro q gs hq hgs
    cases q with
    | nil => rw [walk]; exact ⟨hgs, fun k t s => by simp⟩
    | cons x q =>
      rw [List.map_cons, sizeL, size_eq] at hq
      omega
  | succ N ih =>
    intro q gs hq hgs
    cases q with
    | nil => rw [walk]; exact ⟨hgs, fun k t s => by simp⟩
    | cons x q =>
      obtain ⟨tr, h⟩ := x
      rw [walk]
      obtain ⟨i1, i2⟩ := ih (q ++ tr.kids.map fun c => (c, some (histKey hash h tr.label))) (visit gs tr.label (histKey hash h tr.label)) (by
        rw [sizeL_queue]
        rw [List.map_cons, sizeL, size_eq] at hq
        simp only at hq
        omega) (visit_ok hgs _ _)
      refine ⟨i1, fun k t s => ?_⟩
      rw [i2, visit_states]
      obtain ⟨d, ts⟩ := tr
      constructor
      · rintro ((h1 | ⟨h1, h2⟩) | ⟨x, hx, p, h1, h2, h3⟩)
        · exact Or.inl h1
        · exact Or.inr ⟨_, List.mem_cons_self, [d], .here d ts, congrArg some h1, d, rfl, h2⟩
        · rcases List.mem_append.1 hx with hx | hx
          · exact Or.inr ⟨x, List.mem_cons_of_mem _ hx, p, h1, h2, h3⟩
          · obtain ⟨c, hc, rfl⟩ := List.mem_map.1 hx
            refine Or.inr ⟨_, List.mem_cons_self, d :: p, .step d ts c p hc h1, h2, ?_⟩
            obtain ⟨n, hn, h4⟩ := h3
            exact ⟨n, by rw [List.getLast?_cons, hn]; rfl, h4⟩
      · rintro (h1 | ⟨x, hx, p, h1, h2, h3⟩)
        · exact Or.inl (Or.inl h1)
        · rcases List.mem_cons.1 hx with rfl | hx
          · cases h1 with
            | here =>
              obtain ⟨n, hn, h4⟩ := h3
              have : d = n := Option.some.inj hn
              subst this
              exact Or.inl (Or.inr ⟨Option.some.inj h2, h4⟩)
            | step _ _ c p hc h1 =>
              refine Or.inr ⟨(c, some (histKey hash h d)), List.mem_append_right _ (List.mem_map.2 ⟨c, hc, rfl⟩), p, h1, h2, ?_⟩
              obtain ⟨n, hn, h4⟩ := h3
              refine ⟨n, ?_, h4⟩
              have hne : p ≠ [] := by rintro rfl; cases h1
              rw [List.getLast?_cons, List.getLast?_eq_some_getLast hne] at hn
              rw [List.getLast?_eq_some_getLast hne]
              exact hn
          · exact Or.inr ⟨x, List.mem_append_left _ hx, p, h1, h2, h3⟩

theorem groups_spec (hash : String → Int) (sims : List (RTree (FNode K))) : GroupsOk (groups hash sims) ∧
    ∀ k t s, s ∈ statesIn (groups hash sims) k t ↔ ∃ sim ∈ sims, ∃ p, Path sim p ∧ keyOf hash p = some k ∧ StateAt p t s := by
  have : ∀ (l : List (RTree (FNode K))) (gs : Groups K), GroupsOk gs → GroupsOk (l.foldl (fun gs t => walk hash [(t, none)] gs) gs) ∧
      ∀ k t s, s ∈ statesIn (l.foldl (fun gs t => walk hash [(t, none)] gs) gs) k t ↔ s ∈ statesIn gs k t ∨
        ∃ sim ∈ l, ∃ p, Path sim p ∧ keyOf hash p = some k ∧ StateAt p t s := by
    intro l
    induction l with
    | nil => intro gs h; exact ⟨h, by simp⟩
    | cons a l ih =>
      intro gs h
      obtain ⟨w1, w2⟩ := walk_spec hash _ [(a, none)] gs (le_refl _) h
      obtain ⟨i1, i2⟩ := ih _ w1
      refine ⟨i1, fun k t s => ?_⟩
      rw [List.foldl_cons, i2, w2]
      simp only [List.mem_singleton, exists_eq_left, List.mem_cons, exists_eq_or_imp, or_assoc, List.not_mem_nil, false_and, exists_false, false_or]
      rfl
  obtain ⟨h1, h2⟩ := this sims [] ⟨List.nodup_nil, by simp, by simp⟩
  refine ⟨h1, fun k t s => ?_⟩
  unfold groups
  rw [h2]
  simp [statesIn]

/-! ### Smallest rectangles -/

theorem fold_len (f : K → K → K) (ss : List (List K)) (s : List K) (h : ∀ u ∈ ss, u.length = s.length) : (ss.foldl (List.zipWith f) s).length = s.length := by
  induction ss generalizing s with
  | nil => rfl
  | cons u ss ih =>
    rw [List.foldl_cons, ih] <;> simp only [List.length_zipWith, h u (by simp), min_self]
    intro v hv
    exact h v (List.mem_cons_of_mem _ hv)

theorem fold_min (ss : List (List K)) (s : List K) (h : ∀ u ∈ ss, u.length = s.length) :
    (∀ u ∈ s :: ss, List.Forall₂ (· ≤ ·) (ss.foldl (List.zipWith min) s) u) ∧
      ∀ (i : Nat) (c : K), (ss.foldl (List.zipWith min) s)[i]? = some c → ∃ u ∈ s :: ss, u[i]? = some c := by
  induction ss generalizing s with
  | nil => exact ⟨fun u hu => by rw [List.mem_singleton.1 hu]; exact List.forall₂_same.2 fun _ _ => le_refl _, fun i c hc => ⟨s, by simp, hc⟩⟩
  | cons v ss ih =>
    have hv := h v (by simp)
    obtain ⟨i1, i2⟩ := ih (List.zipWith min s v) (by
      intro u hu
      rw [List.length_zipWith, hv, min_self]
      exact h u (List.mem_cons_of_mem _ hu))
    have z : List.Forall₂ (· ≤ ·) (List.zipWith min s v) s ∧ List.Forall₂ (· ≤ ·) (List.zipWith min s v) v := by
      clear i1 i2 ih h
      induction s generalizing v with
      | nil => cases v with
        | nil => exact ⟨.nil, .nil⟩
        | cons => simp at hv
      | cons a s ih => cases v with
        | nil => simp at hv
        | cons b v =>
          obtain ⟨j1, j2⟩ := ih v (by simpa using hv)
          exact ⟨.cons (min_le_left _ _) j1, .cons (min_le_right _ _) j2⟩
    have tr : ∀ {a b c : List K}, List.Forall₂ (· ≤ ·) a b → List.Forall₂ (· ≤ ·) b c → List.Forall₂ (· ≤ ·) a c := by
      intro a b c h1 h2
      induction h1 generalizing c with
      | nil => exact h2
      | cons h _ ih => cases h2 with
        | cons h' h2 => exact .cons (le_trans h h') (ih h2)
    rw [List.foldl_cons]
    constructor
    · intro u hu
      rcases List.mem_cons.1 hu with rfl | hu
      · exact tr (i1 _ (by simp)) z.1
      · rcases List.mem_cons.1 hu with rfl | hu
        · exact tr (i1 _ (by simp)) z.2
        · exact i1 u (List.mem_cons_of_mem _ hu)
    · intro i c hc
      obtain ⟨u, hu, e⟩ := i2 i c hc
      rcases List.mem_cons.1 hu with rfl | hu
      · rw [List.getElem?_zipWith] at e
        cases ha : s[i]? with
        | none => rw [ha] at e; simp at e
        | some a => cases hb : v[i]? with
          | none => rw [ha, hb] at e; simp at e
          | some b =>
            rw [ha, hb] at e
            simp only [Option.some.injEq] at e
            rcases min_choice a b with h' | h'
            · exact ⟨s, by simp, by rw [ha, ← e, h']⟩
            · exact ⟨v, by simp, by rw [hb, ← e, h']⟩
      · exact ⟨u, List.mem_cons_of_mem _ (List.mem_cons_of_mem _ hu), e⟩

theorem fold_max (ss : List (List K)) (s : List K) (h : ∀ u ∈ ss, u.length = s.length) :
    (∀ u ∈ s :: ss, List.Forall₂ (· ≤ ·) u (ss.foldl (List.zipWith max) s)) ∧
      ∀ (i : Nat) (c : K), (ss.foldl (List.zipWith max) s)[i]? = some c → ∃ u ∈ s :: ss, u[i]? = some c := by
  induction ss generalizing s with
  | nil => exact ⟨fun u hu => by rw [List.mem_singleton.1 hu]; exact List.forall₂_same.2 fun _ _ => le_refl _, fun i c hc => ⟨s, by simp, hc⟩⟩
  | cons v ss ih =>
    have hv := h v (by simp)
    obtain ⟨i1, i2⟩ := ih (List.zipWith max s v) (by
      intro u hu
      rw [List.length_zipWith, hv, min_self]
      exact h u (List.mem_cons_of_mem _ hu))
    have z : List.Forall₂ (· ≤ ·) s (List.zipWith max s v) ∧ List.Forall₂ (· ≤ ·) v (List.zipWith max s v) := by
      clear i1 i2 ih h
      induction s generalizing v with
      | nil => cases v with
        | nil => exact ⟨.nil, .nil⟩
        | cons => simp at hv
      | cons a s ih => cases v with
        | nil => simp at hv
        | cons b v =>
          obtain ⟨j1, j2⟩ := ih v (by simpa using hv)
          exact ⟨.cons (le_max_left _ _) j1, .cons (le_max_right _ _) j2⟩
    have tr : ∀ {a b c : List K}, List.Forall₂ (· ≤ ·) a b → List.Forall₂ (· ≤ ·) b c → List.Forall₂ (· ≤ ·) a c := by
      intro a b c h1 h2
      induction h1 generalizing c with
      | nil => exact h2
      | cons h _ ih => cases h2 with
        | cons h' h2 => exact .cons (le_trans h h') (ih h2)
    rw [List.foldl_cons]
    constructor
    · intro u hu
      rcases List.mem_cons.1 hu with rfl | hu
      · exact tr z.1 (i1 _ (by simp))
      · rcases List.mem_cons.1 hu with rfl | hu
        · exact tr z.2 (i1 _ (by simp))
        · exact i1 u (List.mem_cons_of_mem _ hu)
    · intro i c hc
      obtain ⟨u, hu, e⟩ := i2 i c hc
      rcases List.mem_cons.1 hu with rfl | hu
      · rw [List.getElem?_zipWith] at e
        cases ha : s[i]? with
        | none => rw [ha] at e; simp at e
        | some a => cases hb : v[i]? with
          | none => rw [ha, hb] at e; simp at e
          | some b =>
            rw [ha, hb] at e
            simp only [Option.some.injEq] at e
            rcases max_choice a b with h' | h'
            · exact ⟨s, by simp, by rw [ha, ← e, h']⟩
            · exact ⟨v, by simp, by rw [hb, ← e, h']⟩
      · exact ⟨u, List.mem_cons_of_mem _ (List.mem_cons_of_mem _ hu), e⟩

theorem spread_spec (ss : List (List K)) (N : Nat) (hne : ss ≠ []) (h : ∀ s ∈ ss, s.length = N) : ∃ lo hi, Hull (· ∈ ss) lo hi ∧ spread ss = dist lo hi := by
  have hmax : (ss.map List.length).foldl max 0 = N := by
    have : ∀ (l : List Nat) (a : Nat), (∀ x ∈ l, x = N) → a ≤ N → l ≠ [] → l.foldl max a = N := by
      intro l
      induction l with
      | nil => intro a _ _ h; exact absurd rfl h
      | cons x l ih =>
        intro a hx ha _
        rw [List.foldl_cons, hx x (by simp), max_eq_right ha]
        cases l with
        | nil => rfl
        | cons y l => exact ih N (fun z hz => hx z (List.mem_cons_of_mem _ hz)) (le_refl _) (by simp)
    exact this _ 0 (by intro x hx; obtain ⟨s, hs, rfl⟩ := List.mem_map.1 hx; exact h s hs) (Nat.zero_le _) (by simpa using hne)
  have hf : ss.filter (fun s => s.length = (ss.map List.length).foldl max 0) = ss := by
    rw [List.filter_eq_self]
    intro s hs
    rw [hmax, h s hs]
    simp
  cases ss with
  | nil => exact absurd rfl hne
  | cons s ss =>
    have hl : ∀ u ∈ ss, u.length = s.length := fun u hu => by rw [h u (List.mem_cons_of_mem _ hu), h s (by simp)]
    obtain ⟨m1, m2⟩ := fold_min ss s hl
    obtain ⟨x1, x2⟩ := fold_max ss s hl
    refine ⟨_, _, ⟨fun u hu => ⟨m1 u hu, x1 u hu⟩, m2, x2⟩, ?_⟩
    unfold spread
    rw [hf]
    exact manhattan_eq _ _

theorem mem_diameters (hash : String → Int) (sims : List (RTree (FNode K))) (d : K) :
    d ∈ simDiameters hash sims ↔ ∃ k t, statesIn (groups hash sims) k t ≠ [] ∧ d = spread (statesIn (groups hash sims) k t) := by
  obtain ⟨⟨g1, g2, g3⟩, -⟩ := groups_spec hash sims
  unfold simDiameters
  rw [List.mem_flatMap]
  constructor
  · rintro ⟨g, hg, hd⟩
    obtain ⟨p, hp, rfl⟩ := List.mem_map.1 hd
    have e : statesIn (groups hash sims) g.1 p.1 = p.2 := by
      unfold statesIn
      rw [Dict.get?_of_mem g1 (k := g.1) (v := g.2) hg, Option.getD_some, Dict.get?_of_mem (g2 g hg) (k := p.1) (v := p.2) hp]
      rfl
    exact ⟨g.1, p.1, by rw [e]; exact g3 g hg p hp, by rw [e]⟩
  · rintro ⟨k, t, h1, rfl⟩
    unfold statesIn at h1 ⊢
    cases hk : Dict.get? (groups hash sims) k with
    | none => rw [hk] at h1; simp at h1
    | some g =>
      rw [hk, Option.getD_some] at h1
      cases ht : Dict.get? g t with
      | none => rw [ht] at h1; simp at h1
      | some ss => exact ⟨(k, g), Dict.mem_of_get? hk, List.mem_map.2 ⟨(t, ss), Dict.mem_of_get? ht, by rw [Option.getD_some, ht]; rfl⟩⟩

end Verif.Proofs.Diams
