import Verif.Proofs.Plot

/-! Helper lemmas for C90. -/

set_option autoImplicit false
set_option linter.unusedSectionVars false

namespace Verif.Plot
open Verif.Spec Verif.ATree Verif.Plot.Spec

variable {K : Type} [Field K] [LinearOrder K] [IsStrictOrderedRing K]

/-! ### slices -/

theorem times_spec (tr : List (Row K)) (ts : List K) (h : times tr = .ok ts) : List.Forall₂ (fun (r : Row K) (t : K) => r[0]? = some t) tr ts := by
  have h' := (mapM_ok_iff _ _ _).1 h
  refine h'.imp ?_
  intro r t h1
  split at h1
  · rename_i a ha
    cases h1; exact ha
  · cases h1

theorem sliceBoxes_spec (tl : K) (tu : Option K) : ∀ (l : List (K × (K × K))) (ss : List (Shape K)), sliceBoxes tl tu l = .ok ss →
    (∀ s ∈ ss, ∃ j a b, l[2 * j]? = some a ∧ l[2 * j + 1]? = some b ∧ tl ≤ a.1 ∧ Before tu b.1 ∧ s = .filled (Spec.outline a.2 b.2)) ∧
    ((l.map Prod.fst).Pairwise (· ≤ ·) → ∀ j a b, l[2 * j]? = some a → l[2 * j + 1]? = some b → tl ≤ a.1 → Before tu b.1 → .filled (Spec.outline a.2 b.2) ∈ ss)
  | [], ss, h => by
    simp only [sliceBoxes] at h; cases h
    exact ⟨by simp, by simp⟩
  | [a], ss, h => by
    simp only [sliceBoxes] at h
    split at h
    · cases h
      refine ⟨by simp, ?_⟩
      intro _ j a' b _ hb
      simp at hb
    · cases h
  | a :: b :: l, ss, h => by
    have up : ∀ (ss' : List (Shape K)), (∀ s ∈ ss', ∃ j a b, l[2 * j]? = some a ∧ l[2 * j + 1]? = some b ∧ tl ≤ a.1 ∧ Before tu b.1 ∧ s = .filled (Spec.outline a.2 b.2)) →
        ∀ s ∈ ss', ∃ j a' b', (a :: b :: l)[2 * j]? = some a' ∧ (a :: b :: l)[2 * j + 1]? = some b' ∧ tl ≤ a'.1 ∧ Before tu b'.1 ∧ s = .filled (Spec.outline a'.2 b'.2) := by
      intro ss' h s hs
      obtain ⟨j, a', b', h1, h2, h3⟩ := h s hs
      refine ⟨j + 1, a', b', ?_, ?_, h3⟩
      · rw [show 2 * (j + 1) = 2 * j + 1 + 1 from by omega]; simpa using h1
      · rw [show 2 * (j + 1) + 1 = 2 * j + 1 + 1 + 1 from by omega]; simpa using h2
    have drawn : ∀ ss', sliceBoxes tl tu l = .ok ss' → tl ≤ a.1 → Before tu b.1 → ss = .filled (box a.2 b.2) :: ss' →
        (∀ s ∈ ss, ∃ j a' b', (a :: b :: l)[2 * j]? = some a' ∧ (a :: b :: l)[2 * j + 1]? = some b' ∧ tl ≤ a'.1 ∧ Before tu b'.1 ∧ s = .filled (Spec.outline a'.2 b'.2)) ∧
        (((a :: b :: l).map Prod.fst).Pairwise (· ≤ ·) → ∀ j a' b', (a :: b :: l)[2 * j]? = some a' → (a :: b :: l)[2 * j + 1]? = some b' → tl ≤ a'.1 → Before tu b'.1 →
          .filled (Spec.outline a'.2 b'.2) ∈ ss) := by
      intro ss' h1 h2 h3 h4
      subst h4
      obtain ⟨i1, i2⟩ := sliceBoxes_spec tl tu l ss' h1
      constructor
      · intro s hs
        rcases List.mem_cons.1 hs with rfl | hs
        · exact ⟨0, a, b, rfl, rfl, h2, h3, rfl⟩
        · exact up ss' i1 s hs
      · intro hp j a' b' ha hb h5 h6
        cases j with
        | zero => simp at ha hb; subst ha hb; exact List.mem_cons_self
        | succ j =>
          rw [show 2 * (j + 1) = 2 * j + 1 + 1 from by omega] at ha
          rw [show 2 * (j + 1) + 1 = 2 * j + 1 + 1 + 1 from by omega] at hb
          simp only [List.getElem?_cons_succ] at ha hb
          simp only [List.map_cons, List.pairwise_cons] at hp
          exact List.mem_cons_of_mem _ (i2 hp.2.2 j a' b' ha hb h5 h6)
    rw [sliceBoxes.eq_def] at h
    simp only at h
    split at h
    · rename_i hlt
      obtain ⟨i1, i2⟩ := sliceBoxes_spec tl tu l ss h
      refine ⟨up ss i1, ?_⟩
      intro hp j a' b' ha hb h5 h6
      cases j with
      | zero => simp at ha hb; subst ha; exact absurd h5 (not_le.2 hlt)
      | succ j =>
        rw [show 2 * (j + 1) = 2 * j + 1 + 1 from by omega] at ha
        rw [show 2 * (j + 1) + 1 = 2 * j + 1 + 1 + 1 from by omega] at hb
        simp only [List.getElem?_cons_succ] at ha hb
        simp only [List.map_cons, List.pairwise_cons] at hp
        exact i2 hp.2.2 j a' b' ha hb h5 h6
    · rename_i hge
      cases htu : tu with
      | none =>
        rw [htu] at h
        obtain ⟨ss', h1, rfl⟩ := (map_ok_iff _ _ _).1 h
        rw [htu] at drawn
        exact drawn ss' h1 (not_lt.1 hge) (fun u hu => by cases hu) rfl
      | some u =>
        rw [htu] at h
        simp only at h
        split at h
        · rename_i hu
          cases h
          refine ⟨by simp, ?_⟩
          intro hp j a' b' ha hb h5 h6
          exfalso
          have h7 := h6 u rfl
          have h8 : b.1 ≤ b'.1 := by
            cases j with
            | zero => simp at hb; subst hb; exact le_refl _
            | succ j =>
              rw [show 2 * (j + 1) + 1 = 2 * j + 1 + 1 + 1 from by omega] at hb
              simp only [List.getElem?_cons_succ] at hb
              simp only [List.map_cons, List.pairwise_cons] at hp
              exact hp.2.1 b'.1 (List.mem_map_of_mem (List.mem_of_getElem? hb))
          exact absurd (h8.trans h7) (not_le.2 hu)
        · rename_i hu
          obtain ⟨ss', h1, rfl⟩ := (map_ok_iff _ _ _).1 h
          rw [htu] at drawn
          exact drawn ss' h1 (not_lt.1 hge) (fun u' hu' => by cases hu'; exact not_lt.1 hu) rfl

/-- What a node adds to a slice. -/
def SliceAdds (aid : String) (x y : Nat) (tl : K) (tu : Option K) (u : RTree (PNode K)) (ss : List (Shape K)) : Prop :=
  ∃ tr ps ts, Dict.get? u.label.trace aid = some tr ∧ project x y tr = .ok ps ∧ times tr = .ok ts ∧
    (if single ps then .ok (ps.head?.toList.map .marker) else sliceBoxes tl tu (ts.zip ps)) = .ok ss

theorem sliceLoop_cons (aid : String) (x y : Nat) (tl : K) (tu : Option K) (t : RTree (PNode K)) (q : List (RTree (PNode K))) :
    sliceLoop aid x y tl tu (t :: q) = match Dict.get? t.label.trace aid with
    | none => .error "KeyError"
    | some tr => (project x y tr).bind fun ps => (times tr).bind fun ts =>
        (if single ps then .ok (ps.head?.toList.map .marker) else sliceBoxes tl tu (ts.zip ps)).bind fun s =>
        (sliceLoop aid x y tl tu (q ++ t.kids)).map fun r => s.map (fun s => (aid, s)) ++ r := by
  rw [sliceLoop]; cases Dict.get? t.label.trace aid <;> rfl

theorem sliceLoop_spec (aid : String) (x y : Nat) (tl : K) (tu : Option K) (q : List (RTree (PNode K))) :
    ∀ r, sliceLoop aid x y tl tu q = .ok r →
      (∀ u ∈ bfs q, ∃ ss, SliceAdds aid x y tl tu u ss ∧ ∀ s ∈ ss, (aid, s) ∈ r) ∧
      (∀ s ∈ r, s.1 = aid ∧ ∃ u ∈ bfs q, ∃ ss, SliceAdds aid x y tl tu u ss ∧ s.2 ∈ ss) := by
  induction q using bfs_ind with
  | h0 =>
    intro r h
    rw [sliceLoop] at h; cases h
    rw [bfs_nil]; simp
  | h1 t q ih =>
    intro r h
    rw [bfs_cons]
    rw [sliceLoop_cons] at h
    cases htr : Dict.get? t.label.trace aid with
    | none => rw [htr] at h; cases h
    | some tr =>
      rw [htr] at h
      obtain ⟨ps, hps, h⟩ := (bind_ok_iff _ _ _).1 h
      obtain ⟨ts, hts, h⟩ := (bind_ok_iff _ _ _).1 h
      obtain ⟨ss, hss, h⟩ := (bind_ok_iff _ _ _).1 h
      obtain ⟨r', hr', rfl⟩ := (map_ok_iff _ _ _).1 h
      obtain ⟨i1, i2⟩ := ih r' hr'
      constructor
      · intro u hu
        rcases List.mem_cons.1 hu with rfl | hu
        · exact ⟨ss, ⟨tr, ps, ts, htr, hps, hts, hss⟩, fun s hs => List.mem_append_left _ (List.mem_map.2 ⟨s, hs, rfl⟩)⟩
        · obtain ⟨ss', h1, h2⟩ := i1 u hu
          exact ⟨ss', h1, fun s hs => List.mem_append_right _ (h2 s hs)⟩
      · intro s hs
        rcases List.mem_append.1 hs with hs | hs
        · obtain ⟨s', hs', rfl⟩ := List.mem_map.1 hs
          exact ⟨rfl, t, List.mem_cons_self, ss, ⟨tr, ps, ts, htr, hps, hts, hss⟩, hs'⟩
        · obtain ⟨h1, u, hu, ss', h2, h3⟩ := i2 s hs
          exact ⟨h1, u, List.mem_cons_of_mem _ hu, ss', h2, h3⟩

/-- `sliceLoop` over a list of nodes, for examples. -/
def sliceList (aid : String) (x y : Nat) (tl : K) (tu : Option K) : List (PNode K) → Except String (List (String × Shape K))
  | [] => .ok []
  | n :: q => match Dict.get? n.trace aid with
    | none => .error "KeyError"
    | some tr => (project x y tr).bind fun ps => (times tr).bind fun ts =>
        (if single ps then .ok (ps.head?.toList.map .marker) else sliceBoxes tl tu (ts.zip ps)).bind fun s =>
        (sliceList aid x y tl tu q).map fun r => s.map (fun s => (aid, s)) ++ r

theorem sliceLoop_list (aid : String) (x y : Nat) (tl : K) (tu : Option K) (q : List (RTree (PNode K))) :
    sliceLoop aid x y tl tu q = sliceList aid x y tl tu ((bfs q).map RTree.label) := by
  induction q using bfs_ind with
  | h0 => rw [sliceLoop, bfs_nil]; rfl
  | h1 t q ih => rw [sliceLoop_cons, bfs_cons, ih]; rfl

/-! ### frames -/

theorem shown_set {A : Type} (fr : Frames K A) (time : K) (d : Dict String (List A)) (t' : K) (aid : String) (a : A) :
    Shown (Dict.set fr time d) t' aid a ↔ (t' = time ∧ ∃ l, Dict.get? d aid = some l ∧ a ∈ l) ∨ (t' ≠ time ∧ Shown fr t' aid a) := by
  unfold Shown
  by_cases h : t' = time
  · subst h
    rw [Dict.get?_set_self]
    constructor
    · rintro ⟨d', l, h1, h2⟩
      cases h1
      exact Or.inl ⟨rfl, l, h2⟩
    · rintro (⟨_, l, h⟩ | ⟨h, _⟩)
      · exact ⟨d, l, rfl, h⟩
      · exact absurd rfl h
  · rw [Dict.get?_set_ne _ _ _ _ (Ne.symm h)]
    simp [h]

theorem addFrame_spec {A : Type} (fr : Frames K A) (time : K) (aid : String) (a : A) (t' : K) (aid' : String) (a' : A) :
    Shown (addFrame fr time aid a) t' aid' a' ↔ Shown fr t' aid' a' ∨ (t' = time ∧ aid' = aid ∧ a' = a) := by
  unfold addFrame
  cases hd : Dict.get? fr time with
  | none =>
    simp only
    rw [shown_set]
    by_cases ht : t' = time
    · subst ht
      simp only [true_and, ne_eq, not_true_eq_false, false_and, or_false]
      have hno : ¬ Shown fr t' aid' a' := by
        rintro ⟨d, l, h1, _⟩; rw [hd] at h1; cases h1
      simp only [hno, false_or]
      rw [Dict.get?_cons]
      by_cases haid : aid = aid'
      · subst haid; simp
      · rw [if_neg haid]
        simp [Dict.get?, Ne.symm haid]
    · simp [ht]
  | some d =>
    simp only
    have key : ∀ (v : List A), (∀ x, x ∈ v ↔ (∃ l, Dict.get? d aid = some l ∧ x ∈ l) ∨ x = a) →
        (Shown (Dict.set fr time (Dict.set d aid v)) t' aid' a' ↔ Shown fr t' aid' a' ∨ (t' = time ∧ aid' = aid ∧ a' = a)) := by
      intro v hv
      rw [shown_set]
      by_cases ht : t' = time
      · subst ht
        simp only [true_and, ne_eq, not_true_eq_false, false_and, or_false]
        have hsh : Shown fr t' aid' a' ↔ ∃ l, Dict.get? d aid' = some l ∧ a' ∈ l := by
          unfold Shown; rw [hd]; simp
        rw [hsh]
        by_cases haid : aid' = aid
        · subst haid
          rw [Dict.get?_set_self]
          simp [hv]
        · rw [Dict.get?_set_ne _ _ _ _ (Ne.symm haid)]
          simp [haid]
      · simp [ht]
    cases hl : Dict.get? d aid with
    | none =>
      apply key
      intro x; simp [hl]
    | some l =>
      apply key
      intro x; simp [hl]

theorem addRow_spec (fr : Frames K (Row K)) (time : K) (aid : String) (a : Row K) (t' : K) (aid' : String) (a' : Row K) :
    Shown (addRow fr time aid a) t' aid' a' ↔ Shown fr t' aid' a' ∨ (t' = time ∧ aid' = aid ∧ a' = a) := by
  by_cases h : Shown fr time aid a
  · obtain ⟨d, l, h1, h2, h3⟩ := h
    have : addRow fr time aid a = fr := by
      unfold addRow; rw [h1]; simp only [h2, h3, if_true]
    rw [this]
    constructor
    · exact Or.inl
    · rintro (h | ⟨rfl, rfl, rfl⟩)
      · exact h
      · exact ⟨d, l, h1, h2, h3⟩
  · have : addRow fr time aid a = addFrame fr time aid a := by
      unfold addRow addFrame
      cases hd : Dict.get? fr time with
      | none => rfl
      | some d =>
        simp only
        cases hl : Dict.get? d aid with
        | none => rfl
        | some l =>
          have : a ∉ l := fun hm => h ⟨d, l, hd, hl, hm⟩
          simp only [this, if_false]
    rw [this]
    exact addFrame_spec fr time aid a t' aid' a'

theorem frameRects_spec (rnd : K → K) (aid : String) : ∀ (l : List (Row K)) (fr fr' : Frames K (Row K × Row K)), frameRects rnd aid l fr = .ok fr' →
    ∀ (time : K) (a : String) (r : Row K × Row K), Shown fr' time a r ↔ Shown fr time a r ∨
      (a = aid ∧ ∃ j t, Spec.Rect l j r.1 r.2 ∧ r.1[0]? = some t ∧ time = rnd t)
  | [], fr, fr', h, time, a, r => by
    simp only [frameRects] at h; cases h
    simp [Spec.Rect]
  | [b], fr, fr', h, time, a, r => by
    simp only [frameRects] at h; cases h
    simp [Spec.Rect]
  | b :: c :: l, fr, fr', h, time, a, r => by
    rw [frameRects] at h
    cases ht : b[0]? with
    | none => rw [ht] at h; cases h
    | some t =>
      rw [ht] at h
      rw [frameRects_spec rnd aid l _ fr' h time a r, addFrame_spec]
      constructor
      · rintro ((h | ⟨h1, h2, rfl⟩) | ⟨h1, j, t', ⟨h2, h3⟩, h4⟩)
        · exact Or.inl h
        · exact Or.inr ⟨h2, 0, t, ⟨rfl, rfl⟩, ht, h1⟩
        · refine Or.inr ⟨h1, j + 1, t', ⟨?_, ?_⟩, h4⟩
          · rw [show 2 * (j + 1) = 2 * j + 1 + 1 from by omega]; simpa using h2
          · rw [show 2 * (j + 1) + 1 = 2 * j + 1 + 1 + 1 from by omega]; simpa using h3
      · rintro (h | ⟨h1, j, t', ⟨h2, h3⟩, h4, h5⟩)
        · exact Or.inl (Or.inl h)
        · cases j with
          | zero =>
            simp at h2 h3
            left; right
            refine ⟨?_, h1, Prod.ext h2.symm h3.symm⟩
            rw [← h2, ht] at h4; cases h4; exact h5
          | succ j =>
            rw [show 2 * (j + 1) = 2 * j + 1 + 1 from by omega] at h2
            rw [show 2 * (j + 1) + 1 = 2 * j + 1 + 1 + 1 from by omega] at h3
            simp only [List.getElem?_cons_succ] at h2 h3
            exact Or.inr ⟨h1, j, t', ⟨h2, h3⟩, h4, h5⟩

/-- A rectangle of a trace that is kept for the frames: traces that start after time 0 lose their first four rectangles. -/
def Kept (rnd : K → K) (tr : List (Row K)) (time : K) (r : Row K × Row K) : Prop :=
  ∃ j t r0 t0, tr.head? = some r0 ∧ r0[0]? = some t0 ∧ Spec.Rect tr j r.1 r.2 ∧ r.1[0]? = some t ∧ time = rnd t ∧ (t0 ≤ 0 ∨ 4 ≤ j)

theorem frameAgent_spec (rnd : K → K) (fr fr' : Frames K (Row K × Row K)) (e : String × List (Row K)) (h : frameAgent rnd fr e = .ok fr')
    (time : K) (a : String) (r : Row K × Row K) : Shown fr' time a r ↔ Shown fr time a r ∨ (a = e.1 ∧ Kept rnd e.2 time r) := by
  unfold frameAgent at h
  cases he : e.2 with
  | nil => rw [he] at h; cases h
  | cons r0 tr =>
    rw [he] at h
    simp only at h
    cases ht : r0[0]? with
    | none => rw [ht] at h; cases h
    | some t0 =>
      rw [ht] at h
      simp only at h
      by_cases h0 : 0 < t0
      · rw [if_pos h0] at h
        rw [frameRects_spec rnd e.1 _ fr fr' h]
        apply or_congr_right
        apply and_congr_right
        intro _
        constructor
        · rintro ⟨j, t, ⟨h1, h2⟩, h3, h4⟩
          rw [List.getElem?_drop] at h1 h2
          refine ⟨j + 4, t, r0, t0, rfl, ht, ⟨?_, ?_⟩, h3, h4, Or.inr (by omega)⟩
          · rw [← h1]; congr 1; omega
          · rw [← h2]; congr 1; omega
        · rintro ⟨j, t, r1, t1, h1, h2, ⟨h3, h4⟩, h5, h6, h7⟩
          cases h1
          rw [ht] at h2; cases h2
          have hj : 4 ≤ j := h7.resolve_left (not_le.2 h0)
          refine ⟨j - 4, t, ⟨?_, ?_⟩, h5, h6⟩
          · rw [List.getElem?_drop, ← h3]; congr 1; omega
          · rw [List.getElem?_drop, ← h4]; congr 1; omega
      · rw [if_neg h0] at h
        rw [frameRects_spec rnd e.1 _ fr fr' h]
        apply or_congr_right
        apply and_congr_right
        intro _
        constructor
        · rintro ⟨j, t, h1, h3, h4⟩
          exact ⟨j, t, r0, t0, rfl, ht, h1, h3, h4, Or.inl (not_lt.1 h0)⟩
        · rintro ⟨j, t, r1, t1, _, _, h3, h5, h6, _⟩
          exact ⟨j, t, h3, h5, h6⟩

theorem frameAgents_spec (rnd : K → K) : ∀ (es : List (String × List (Row K))) (fr fr' : Frames K (Row K × Row K)), es.foldlM (frameAgent rnd) fr = .ok fr' →
    ∀ (time : K) (a : String) (r : Row K × Row K), Shown fr' time a r ↔ Shown fr time a r ∨ ∃ tr, (a, tr) ∈ es ∧ Kept rnd tr time r := by
  intro es
  induction es with
  | nil => intro fr fr' h; cases h; simp
  | cons e es ih =>
    intro fr fr' h time a r
    obtain ⟨f1, h1, h2⟩ := (foldlM_cons_ok _ _ _ _ _).1 h
    rw [ih f1 fr' h2, frameAgent_spec rnd fr f1 e h1]
    constructor
    · rintro ((h | ⟨rfl, h⟩) | ⟨tr, h, hk⟩)
      · exact Or.inl h
      · exact Or.inr ⟨e.2, List.mem_cons_self, h⟩
      · exact Or.inr ⟨tr, List.mem_cons_of_mem _ h, hk⟩
    · rintro (h | ⟨tr, h, hk⟩)
      · exact Or.inl (Or.inl h)
      · rcases List.mem_cons.1 h with h | h
        · subst h; exact Or.inl (Or.inr ⟨rfl, hk⟩)
        · exact Or.inr ⟨tr, h, hk⟩

theorem sizeL_reverse {D : Type} (l : List (RTree D)) : sizeL l.reverse = sizeL l := by
  induction l with
  | nil => rfl
  | cons a l ih => rw [List.reverse_cons, sizeL_append, ih]; simp [sizeL, Nat.add_comm]

/-- Induction over the loop that takes nodes from the end of the queue. -/
theorem dfs_ind {D : Type} {P : List (RTree D) → Prop} (h0 : P []) (h1 : ∀ t s, P (t.kids.reverse ++ s) → P (t :: s)) (q : List (RTree D)) : P q := by
  generalize hn : sizeL q = n
  induction n using Nat.strong_induction_on generalizing q with
  | _ n ih =>
    cases q with
    | nil => exact h0
    | cons t s =>
      apply h1
      refine ih _ ?_ _ rfl
      rw [← hn, sizeL_append, sizeL_reverse]
      simp only [sizeL]
      rw [size_eq t]
      omega

theorem mem_subsL_step {D : Type} (t : RTree D) (s : List (RTree D)) (u : RTree D) : u ∈ RTree.subsL (t :: s) ↔ u = t ∨ u ∈ RTree.subsL (t.kids.reverse ++ s) := by
  rw [mem_subsL, mem_subsL]
  simp only [List.mem_cons, List.mem_append, List.mem_reverse]
  constructor
  · rintro ⟨w, rfl | hw, hu⟩
    · rw [subs_eq] at hu
      rcases List.mem_cons.1 hu with rfl | hu
      · exact Or.inl rfl
      · obtain ⟨k, hk, hu⟩ := mem_subsL.1 hu
        exact Or.inr ⟨k, Or.inl hk, hu⟩
    · exact Or.inr ⟨w, Or.inr hw, hu⟩
  · rintro (rfl | ⟨w, hw | hw, hu⟩)
    · exact ⟨u, Or.inl rfl, mem_subs_self u⟩
    · exact ⟨t, Or.inl rfl, by rw [subs_eq]; exact List.mem_cons_of_mem _ (mem_subsL.2 ⟨w, hw, hu⟩)⟩
    · exact ⟨w, Or.inr hw, hu⟩

theorem frameLoop_spec (rnd : K → K) (q : List (RTree (PNode K))) : ∀ (fr fr' : Frames K (Row K × Row K)), frameLoop rnd q fr = .ok fr' →
    ∀ (time : K) (a : String) (r : Row K × Row K), Shown fr' time a r ↔ Shown fr time a r ∨
      ∃ u ∈ RTree.subsL q, ∃ tr, (a, tr) ∈ u.label.trace ∧ Kept rnd tr time r := by
  induction q using dfs_ind with
  | h0 => intro fr fr' h; rw [frameLoop] at h; cases h; simp [RTree.subsL]
  | h1 t s ih =>
    intro fr fr' h time a r
    rw [frameLoop] at h
    obtain ⟨f1, h1, h2⟩ := (bind_ok_iff _ _ _).1 h
    rw [ih f1 fr' h2, frameAgents_spec rnd _ fr f1 h1]
    simp only [mem_subsL_step t s]
    constructor
    · rintro ((h | ⟨tr, h⟩) | ⟨u, hu, h⟩)
      · exact Or.inl h
      · exact Or.inr ⟨t, Or.inl rfl, tr, h⟩
      · exact Or.inr ⟨u, Or.inr hu, h⟩
    · rintro (h' | ⟨u, rfl | hu, h'⟩)
      · exact Or.inl (Or.inl h')
      · exact Or.inl (Or.inr h')
      · exact Or.inr ⟨u, hu, h'⟩

theorem rowAgent_spec (rnd : K → K) (aid : String) : ∀ (l : List (Row K)) (fr fr' : Frames K (Row K)), l.foldlM (frameRow rnd aid) fr = .ok fr' →
    ∀ (time : K) (a : String) (r : Row K), Shown fr' time a r ↔ Shown fr time a r ∨ (a = aid ∧ r ∈ l ∧ ∃ t, r[0]? = some t ∧ time = rnd t) := by
  intro l
  induction l with
  | nil => intro fr fr' h; cases h; simp
  | cons b l ih =>
    intro fr fr' h time a r
    obtain ⟨f1, h1, h2⟩ := (foldlM_cons_ok _ _ _ _ _).1 h
    unfold frameRow at h1
    cases ht : b[0]? with
    | none => rw [ht] at h1; cases h1
    | some t =>
      rw [ht] at h1; cases h1
      rw [ih _ fr' h2, addRow_spec]
      constructor
      · rintro ((h | ⟨e1, e2, rfl⟩) | ⟨h1, h2, h3⟩)
        · exact Or.inl h
        · exact Or.inr ⟨e2, List.mem_cons_self, t, ht, e1⟩
        · exact Or.inr ⟨h1, List.mem_cons_of_mem _ h2, h3⟩
      · rintro (h | ⟨h1, h2, t', h3, h4⟩)
        · exact Or.inl (Or.inl h)
        · rcases List.mem_cons.1 h2 with rfl | h2
          · rw [ht] at h3; cases h3
            exact Or.inl (Or.inr ⟨h4, h1, rfl⟩)
          · exact Or.inr ⟨h1, h2, t', h3, h4⟩

theorem rowAgents_spec (rnd : K → K) : ∀ (es : List (String × List (Row K))) (fr fr' : Frames K (Row K)), es.foldlM (rowAgent rnd) fr = .ok fr' →
    ∀ (time : K) (a : String) (r : Row K), Shown fr' time a r ↔ Shown fr time a r ∨ ∃ tr, (a, tr) ∈ es ∧ r ∈ tr ∧ ∃ t, r[0]? = some t ∧ time = rnd t := by
  intro es
  induction es with
  | nil => intro fr fr' h; cases h; simp
  | cons e es ih =>
    intro fr fr' h time a r
    obtain ⟨f1, h1, h2⟩ := (foldlM_cons_ok _ _ _ _ _).1 h
    rw [ih f1 fr' h2, rowAgent_spec rnd e.1 e.2 fr f1 h1]
    constructor
    · rintro ((h | ⟨rfl, h⟩) | ⟨tr, h, hk⟩)
      · exact Or.inl h
      · exact Or.inr ⟨e.2, List.mem_cons_self, h⟩
      · exact Or.inr ⟨tr, List.mem_cons_of_mem _ h, hk⟩
    · rintro (h | ⟨tr, h, hk⟩)
      · exact Or.inl (Or.inl h)
      · rcases List.mem_cons.1 h with h | h
        · subst h; exact Or.inl (Or.inr ⟨rfl, hk⟩)
        · exact Or.inr ⟨tr, h, hk⟩

theorem rowLoop_spec (rnd : K → K) (q : List (RTree (PNode K))) : ∀ (fr fr' : Frames K (Row K)), rowLoop rnd q fr = .ok fr' →
    ∀ (time : K) (a : String) (r : Row K), Shown fr' time a r ↔ Shown fr time a r ∨
      ∃ u ∈ RTree.subsL q, ∃ tr, (a, tr) ∈ u.label.trace ∧ r ∈ tr ∧ ∃ t, r[0]? = some t ∧ time = rnd t := by
  induction q using dfs_ind with
  | h0 => intro fr fr' h; rw [rowLoop] at h; cases h; simp [RTree.subsL]
  | h1 t s ih =>
    intro fr fr' h time a r
    rw [rowLoop] at h
    obtain ⟨f1, h1, h2⟩ := (bind_ok_iff _ _ _).1 h
    rw [ih f1 fr' h2, rowAgents_spec rnd _ fr f1 h1]
    simp only [mem_subsL_step t s]
    constructor
    · rintro ((h | ⟨tr, h⟩) | ⟨u, hu, h⟩)
      · exact Or.inl h
      · exact Or.inr ⟨t, Or.inl rfl, tr, h⟩
      · exact Or.inr ⟨u, Or.inr hu, h⟩
    · rintro (h' | ⟨u, rfl | hu, h'⟩)
      · exact Or.inl (Or.inl h')
      · exact Or.inl (Or.inr h')
      · exact Or.inr ⟨u, hu, h'⟩

end Verif.Plot
