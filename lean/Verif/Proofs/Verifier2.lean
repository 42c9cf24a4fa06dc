import Verif.Proofs.Verifier1
import Verif.Proofs.Reset
import Verif.Proofs.TrackMode

/-! `get_transition_verify_opt` and `compute_full_reachtube_step` against the specification. -/

set_option autoImplicit false
set_option linter.unusedSectionVars false

namespace Verif.Proofs.Ver

open Verif.Ver Verif.Ver.Spec

variable {S G K V D : Type}

theorem traceLength_spec (tr : Trace K) (n : Nat) (h : traceLength tr = .ok n) (i : Nat) : i < n ↔ HasStep tr i := by
  unfold traceLength at h
  have key : ∀ (ns : List Nat) (m : Nat), i < ns.foldl min m ↔ i < m ∧ ∀ x ∈ ns, i < x := by
    intro ns
    induction ns with
    | nil => simp
    | cons a ns ih =>
      intro m
      simp only [List.foldl_cons, ih, lt_min_iff, List.mem_cons, forall_eq_or_imp]
      tauto
  cases tr with
  | nil => cases h
  | cons kv tr =>
    simp only [List.map_cons, Except.ok.injEq] at h
    subst h
    rw [key]
    constructor
    · rintro ⟨h1, h2⟩ x hx
      rcases List.mem_cons.1 hx with rfl | hx
      · exact h1
      · exact h2 _ (List.mem_map.2 ⟨x, hx, rfl⟩)
    · intro h
      refine ⟨h kv (by simp), fun x hx => ?_⟩
      obtain ⟨y, hy, rfl⟩ := List.mem_map.1 hx
      exact h y (by simp [hy])

theorem asserts_nil {w : World S K V} {b : Body S G K V D} {tr : Trace K} {i : Nat} {pre : List (String × Logic S G K V D)}
    {s : Sample S G K V D} (h : SampleSpec w b tr i pre s) (hs : s.asserts ≠ []) : ∃ a dl x, (a, dl) ∈ pre ∧ FailsAt w b tr i a x := by
  obtain ⟨⟨a, ls⟩, hm⟩ := List.exists_mem_of_ne_nil _ hs
  have hsome : (Dict.get? s.asserts a).isSome = true := (Dict.isSome_get?_iff _ _).2 (List.mem_map.2 ⟨_, hm, rfl⟩)
  obtain ⟨ls', hls⟩ := Option.isSome_iff_exists.1 hsome
  obtain ⟨x, hx⟩ := List.exists_mem_of_ne_nil _ (h.nonempty a ls' hls)
  obtain ⟨dl, y, y1, _, _, y4⟩ := (h.fails a x).1 ⟨ls', hls, hx⟩
  exact ⟨a, dl, y, y1, y4⟩

theorem mem_controlled {b : Body S G K V D} {a : String} {dl : Logic S G K V D} :
    (a, dl) ∈ b.agents.filter (fun a => decide (a.2.nargs ≠ 0)) ↔ Controlled b a dl := by
  rw [List.mem_filter]; simp [Controlled]

/-- The hits found so far are kept, and the new ones have larger indices. -/
theorem scan_hits {w : World S K V} {b : Body S G K V D} {prep : Dict String (List (Prepared S G K V D))} {tr : Trace K}
    (left i : Nat) (acc l : List (Sample S G K V D × Nat)) (h : scan w b prep tr left i acc = .ok (.hits l)) :
    ∃ t, l = acc ++ t ∧ (t.map Prod.snd).Pairwise (· < ·) ∧ ∀ x ∈ t, i ≤ x.2 ∧ x.2 < i + left ∧ checkSample w b prep tr x.2 = .ok x.1 ∧
      x.1.asserts = [] ∧ x.1.hits ≠ [] := by
  induction left generalizing i acc with
  | zero => cases h; exact ⟨[], by simp⟩
  | succ left ih =>
    unfold scan at h
    obtain ⟨s, hs, h⟩ := (bind_ok_iff _ _ _).1 h
    by_cases ha : s.asserts ≠ []
    · rw [if_pos ha] at h; cases h
    · rw [if_neg ha] at h
      push Not at ha
      by_cases he : s.hits.isEmpty = true
      · rw [if_pos he] at h
        by_cases hb : (!acc.isEmpty || s.contained) = true
        · rw [if_pos hb] at h; cases h; exact ⟨[], by simp⟩
        · rw [if_neg hb] at h
          obtain ⟨t, t1, t2, t3⟩ := ih _ _ h
          exact ⟨t, t1, t2, fun x hx => ⟨by have := (t3 x hx).1; omega, by have := (t3 x hx).2.1; omega, (t3 x hx).2.2⟩⟩
      · rw [if_neg he] at h
        have hne : s.hits ≠ [] := by intro e; rw [e] at he; exact he rfl
        by_cases hb : s.contained = true
        · rw [if_pos hb] at h; cases h
          exact ⟨[(s, i)], rfl, by simp, by intro x hx; simp only [List.mem_singleton] at hx; subst hx; exact ⟨le_refl _, by simp, hs, ha, hne⟩⟩
        · rw [if_neg hb] at h
          obtain ⟨t, t1, t2, t3⟩ := ih _ _ h
          refine ⟨(s, i) :: t, by simp [t1], ?_, ?_⟩
          · simp only [List.map_cons, List.pairwise_cons]
            refine ⟨fun y hy => ?_, t2⟩
            obtain ⟨x, hx, rfl⟩ := List.mem_map.1 hy
            have := (t3 x hx).1
            omega
          · intro x hx
            rcases List.mem_cons.1 hx with rfl | hx
            · exact ⟨le_refl _, by simp, hs, ha, hne⟩
            · exact ⟨by have := (t3 x hx).1; omega, by have := (t3 x hx).2.1; omega, (t3 x hx).2.2⟩

theorem scan_asserts {w : World S K V} {b : Body S G K V D} {prep : Dict String (List (Prepared S G K V D))} {tr : Trace K}
    (left i : Nat) (acc : List (Sample S G K V D × Nat)) (d : Dict String (List String)) (j : Nat)
    (h : scan w b prep tr left i acc = .ok (.asserts d j)) :
    ∃ s, checkSample w b prep tr j = .ok s ∧ s.asserts ≠ [] ∧ d = s.asserts := by
  induction left generalizing i acc with
  | zero => cases h
  | succ left ih =>
    unfold scan at h
    obtain ⟨s, hs, h⟩ := (bind_ok_iff _ _ _).1 h
    by_cases ha : s.asserts ≠ []
    · rw [if_pos ha] at h; cases h; exact ⟨s, hs, ha, rfl⟩
    · rw [if_neg ha] at h
      by_cases he : s.hits.isEmpty = true
      · rw [if_pos he] at h
        by_cases hb : (!acc.isEmpty || s.contained) = true
        · rw [if_pos hb] at h; cases h
        · rw [if_neg hb] at h; exact ih _ _ h
      · rw [if_neg he] at h
        by_cases hb : s.contained = true
        · rw [if_pos hb] at h; cases h
        · rw [if_neg hb] at h; exact ih _ _ h

/-- A step is scanned unless an earlier one ends the scan. -/
theorem scan_reaches {w : World S K V} {b : Body S G K V D} (hn : (b.agents.map Prod.fst).Nodup)
    {prep : Dict String (List (Prepared S G K V D))} {tr : Trace K} (hp : prepare w b tr = .ok prep)
    (left i : Nat) (acc : List (Sample S G K V D × Nat)) (r : Scan S G K V D) (h : scan w b prep tr left i acc = .ok r)
    (idx : Nat) (h1 : i ≤ idx) (h2 : idx < i + left) (hc : ∀ j a p, i ≤ j → j < idx → ¬ ContainedAt w b tr j a p)
    (hg : ∀ k, i ≤ k → k < idx → (acc ≠ [] ∨ ∃ j a p, i ≤ j ∧ j < k ∧ HitAt w b tr j a p) → ∃ a p, HitAt w b tr k a p) :
    (∃ j s, i ≤ j ∧ j ≤ idx ∧ checkSample w b prep tr j = .ok s ∧ s.asserts ≠ [] ∧ r = .asserts s.asserts j) ∨
    ∃ s, checkSample w b prep tr idx = .ok s ∧ s.asserts = [] ∧ (s.hits ≠ [] → ∀ l, r = .hits l → (s, idx) ∈ l) := by
  induction left generalizing i acc with
  | zero => omega
  | succ left ih =>
    have h' := h
    unfold scan at h
    obtain ⟨s, hs, h⟩ := (bind_ok_iff _ _ _).1 h
    have hspec := checkSample_spec hn hp hs
    by_cases ha : s.asserts ≠ []
    · rw [if_pos ha] at h; cases h
      exact .inl ⟨i, s, le_refl _, h1, hs, ha, rfl⟩
    · rw [if_neg ha] at h
      push Not at ha
      by_cases hidx : i = idx
      · subst hidx
        refine .inr ⟨s, hs, ha, fun hne l hl => ?_⟩
        have he : ¬ s.hits.isEmpty = true := by
          intro e; exact hne (List.isEmpty_iff.1 e)
        rw [if_neg he] at h
        by_cases hb : s.contained = true
        · rw [if_pos hb] at h
          rw [hl] at h; cases h; simp
        · rw [if_neg hb] at h
          rw [hl] at h
          obtain ⟨t, ht, _⟩ := scan_hits _ _ _ _ h
          rw [ht]; simp
      · have hlt : i < idx := by omega
        have hnc : ¬ s.contained = true := by
          intro e
          obtain ⟨a, dl, p, c1, c2⟩ := (hspec.contained ha).1 e
          exact hc i a p (le_refl _) hlt c2
        have hhit : s.hits ≠ [] ↔ ∃ a p, HitAt w b tr i a p := by
          rw [hspec.noHit ha]
          constructor
          · rintro ⟨a, dl, p, _, c⟩; exact ⟨a, p, c⟩
          · rintro ⟨a, p, c⟩
            have c' := c
            obtain ⟨_, dl, _, _, _, d, _⟩ := c'
            exact ⟨a, dl, p, mem_controlled.2 d, c⟩
        have next : ∀ acc', (acc' ≠ [] ↔ acc ≠ [] ∨ ∃ a p, HitAt w b tr i a p) → scan w b prep tr left (i + 1) acc' = .ok r → _ :=
          fun acc' hacc hsc => ih (i + 1) acc' hsc (by omega) (by omega) (fun j a p j1 j2 => hc j a p (by omega) j2) (by
            intro k k1 k2 hk
            refine hg k (by omega) k2 ?_
            rcases hk with hk | ⟨j, a, p, j1, j2, j3⟩
            · rcases hacc.1 hk with hk | ⟨a, p, hk⟩
              · exact .inl hk
              · exact .inr ⟨i, a, p, le_refl _, by omega, hk⟩
            · exact .inr ⟨j, a, p, by omega, j2, j3⟩)
        have fin : (∃ j s, i + 1 ≤ j ∧ j ≤ idx ∧ checkSample w b prep tr j = .ok s ∧ s.asserts ≠ [] ∧ r = .asserts s.asserts j) ∨
            (∃ s, checkSample w b prep tr idx = .ok s ∧ s.asserts = [] ∧ (s.hits ≠ [] → ∀ l, r = .hits l → (s, idx) ∈ l)) := by
          by_cases he : s.hits.isEmpty = true
          · rw [if_pos he] at h
            have he' : ¬ ∃ a p, HitAt w b tr i a p := fun e => (hhit.2 e) (List.isEmpty_iff.1 he)
            have hacc : acc = [] := by
              by_contra hne
              exact he' (hg i (le_refl _) hlt (.inl hne))
            rw [if_neg (by simp [hacc, hnc])] at h
            exact next acc (by simp [hacc, he']) h
          · rw [if_neg he, if_neg hnc] at h
            have he' : ∃ a p, HitAt w b tr i a p := hhit.1 (fun e => he (by rw [e]; rfl))
            exact next _ (by simp [he']) h
        rcases fin with ⟨j, s, j1, j2⟩ | fin
        · exact .inl ⟨j, s, by omega, j2⟩
        · exact .inr fin

section
variable [Field K] [LinearOrder K]

theorem mem_events {w : World S K V} {b : Body S G K V D} {tr : Trace K} {l : List (Sample S G K V D × Nat)} {evs : List (Event S G K V D)}
    (h : events w b tr l = .ok evs) (s : Sample S G K V D) (idx : Nat) (hs : (s, idx) ∈ l) (x : String × List (Hit S G K V D))
    (hx : x ∈ s.hits) : ∃ es, eventsOf w b tr idx x = .ok es ∧ ∀ e ∈ es, e ∈ evs := by
  obtain ⟨ess, h1, rfl⟩ := (map_ok_iff _ _ _).1 h
  rw [mapM_ok_iff] at h1
  obtain ⟨y, hy, hy2⟩ := forall₂_mem_left h1 hs
  obtain ⟨zs, h3, rfl⟩ := (map_ok_iff _ _ _).1 hy2
  rw [mapM_ok_iff] at h3
  obtain ⟨es, hes, h4⟩ := forall₂_mem_left h3 hx
  refine ⟨es, h4, fun e he => ?_⟩
  exact List.mem_flatten.2 ⟨_, hy, List.mem_flatten.2 ⟨es, hes, he⟩⟩

theorem eventsOf_idx {w : World S K V} {b : Body S G K V D} {tr : Trace K} {idx : Nat} {x : String × List (Hit S G K V D)}
    {es : List (Event S G K V D)} (h : eventsOf w b tr idx x = .ok es) : ∀ e ∈ es, e.idx = idx := by
  unfold eventsOf at h
  split at h
  · split at h
    · obtain ⟨r, _, rfl⟩ := (map_ok_iff _ _ _).1 h
      intro e he
      obtain ⟨d, _, rfl⟩ := List.mem_map.1 he
      rfl
    · cases h
  · cases h

theorem events_sorted {w : World S K V} {b : Body S G K V D} {tr : Trace K} {l : List (Sample S G K V D × Nat)}
    {evs : List (Event S G K V D)} (h : events w b tr l = .ok evs) (hl : (l.map Prod.snd).Pairwise (· < ·)) :
    evs.Pairwise (fun x y => x.idx ≤ y.idx) ∧ ∀ e ∈ evs, ∃ s, (s, e.idx) ∈ l := by
  obtain ⟨ess, h1, rfl⟩ := (map_ok_iff _ _ _).1 h
  rw [mapM_ok_iff] at h1
  clear h
  induction h1 with
  | nil => simp
  | @cons s es l ess hr _ ih =>
    simp only [List.map_cons, List.pairwise_cons] at hl
    obtain ⟨i1, i2⟩ := ih hl.2
    obtain ⟨zs, h3, rfl⟩ := (map_ok_iff _ _ _).1 hr
    rw [mapM_ok_iff] at h3
    have hidx : ∀ e ∈ zs.flatten, e.idx = s.2 := by
      intro e he
      obtain ⟨z, hz, he⟩ := List.mem_flatten.1 he
      obtain ⟨x, _, hx⟩ := forall₂_mem_right h3 hz
      exact eventsOf_idx hx e he
    rw [List.flatten_cons]
    refine ⟨?_, ?_⟩
    · rw [List.pairwise_append]
      refine ⟨?_, i1, ?_⟩
      · rw [List.pairwise_iff_forall_sublist]
        intro x y hxy
        have hx := hidx x (hxy.subset (by simp))
        have hy := hidx y (hxy.subset (by simp))
        omega
      · intro x hx y hy
        obtain ⟨s', hs'⟩ := i2 y hy
        have := hl.1 _ (List.mem_map.2 ⟨_, hs', rfl⟩)
        rw [hidx x hx]
        simp only at this
        omega
    · intro e he
      rcases List.mem_append.1 he with he | he
      · exact ⟨s.1, by rw [hidx e he]; simp⟩
      · obtain ⟨s', hs'⟩ := i2 e he
        exact ⟨s', by simp [hs']⟩

end

theorem mem_grouped [DecidableEq V] (evs : List (Event S G K V D)) (hs : evs.Pairwise (fun x y => x.idx ≤ y.idx)) (e : Event S G K V D)
    (he : e ∈ evs) : ∃ t ∈ grouped evs, t.agent = e.agent ∧ t.dest = e.dest ∧ e.rect ∈ t.inits ∧ e.idx ∈ t.idxs ∧
      ∃ j, t.idxs.head? = some j ∧ j ≤ e.idx := by
  unfold grouped
  let A := evs.filter (fun x => decide (x.agent = e.agent))
  have hA : e ∈ A := List.mem_filter.2 ⟨he, by simp⟩
  let B := A.filter (fun x => decide (x.combo.length = e.combo.length))
  have hB : e ∈ B := List.mem_filter.2 ⟨hA, by simp⟩
  let C := B.filter (fun x => decide (x.dest = e.dest))
  have hC : e ∈ C := List.mem_filter.2 ⟨hB, by simp⟩
  have m1 : (e.agent, A) ∈ group Event.agent evs := (mem_group _ _ _ _).2 ⟨rfl, List.ne_nil_of_mem hA⟩
  have m2 : (e.combo.length, B) ∈ group (fun (e : Event S G K V D) => e.combo.length) A := (mem_group _ _ _ _).2 ⟨rfl, List.ne_nil_of_mem hB⟩
  have m3 : (e.dest, C) ∈ group Event.dest B := (mem_group _ _ _ _).2 ⟨rfl, List.ne_nil_of_mem hC⟩
  refine ⟨_, List.mem_flatMap.2 ⟨_, m1, List.mem_flatMap.2 ⟨_, m2, List.mem_map.2 ⟨_, m3, rfl⟩⟩⟩, rfl, rfl,
    List.mem_map_of_mem hC, List.mem_map_of_mem hC, ?_⟩
  have hsC : C.Pairwise (fun x y => x.idx ≤ y.idx) := ((hs.filter _).filter _).filter _
  simp only
  generalize C = C at hC hsC
  cases C with
  | nil => cases hC
  | cons c C =>
    refine ⟨c.idx, rfl, ?_⟩
    rcases List.mem_cons.1 hC with rfl | hC
    · exact le_refl _
    · exact (List.pairwise_cons.1 hsC).1 e hC

theorem liftErr_ok {α : Type} (x : Except Sim.Err α) (a : α) : liftErr x = .ok a ↔ x = .ok a := by
  cases x <;> simp [liftErr]

theorem mapAllows_iff [DecidableEq V] (w : World S K V) (dl : Logic S G K V D) (src dest : List V) :
    mapAllows w dl.discType src (some dest) = .ok true ↔ MapPermits w dl src dest := by
  unfold mapAllows MapPermits
  dsimp only
  have hm : ∀ m o : List V, Verif.Spec.ModeOf dl.discType m o ↔ Sim.getMode (asSim dl.discType) m = .ok o := fun m o => (Verif.Spec.getMode_iff (asSim dl.discType) m o).symm
  have ht : ∀ (m : List V) (o : Option V), Verif.Spec.TrackOf dl.discType m o ↔ Sim.getTrack (asSim dl.discType) m = .ok o := fun m o => (Verif.Spec.getTrack_iff (asSim dl.discType) m o).symm
  simp only [hm, ht]
  generalize Sim.getMode (asSim dl.discType) src = x1
  generalize Sim.getTrack (asSim dl.discType) src = x2
  generalize Sim.getMode (asSim dl.discType) dest = x3
  generalize Sim.getTrack (asSim dl.discType) dest = x4
  cases x1 with
  | error e => simp [liftErr, Except.bind]
  | ok sm =>
    cases x2 with
    | error e => simp [liftErr, Except.bind]
    | ok st =>
      cases x3 with
      | error e => simp [liftErr, Except.bind]
      | ok dm =>
        cases x4 with
        | error e => simp [liftErr, Except.bind, Except.map]
        | ok dt =>
          simp only [liftErr, Except.map, Except.bind, Except.ok.injEq, Bool.not_eq_true', Bool.and_eq_false_iff, Bool.or_eq_false_iff,
            decide_eq_false_iff_not, ne_eq, not_not, exists_and_left, exists_eq_left']

theorem mem_permitted [DecidableEq V] {w : World S K V} {b : Body S G K V D} (ts l : List (Trans S G K V D)) (h : permitted w b ts = .ok l)
    (t : Trans S G K V D) : t ∈ l ↔ t ∈ ts ∧ ∃ dl src, Dict.get? b.agents t.agent = some dl ∧ Dict.get? b.mode t.agent = some src ∧
      mapAllows w dl.discType src t.dest = .ok true := by
  induction ts generalizing l with
  | nil => cases h; simp
  | cons u ts ih =>
    unfold permitted at h
    split at h
    · rename_i dl src e1 e2
      obtain ⟨keep, h1, h⟩ := (bind_ok_iff _ _ _).1 h
      obtain ⟨l', h2, rfl⟩ := (map_ok_iff _ _ _).1 h
      have := ih l' h2
      by_cases hk : keep = true
      · subst hk
        simp only [if_true, List.mem_cons, this]
        constructor
        · rintro (rfl | h)
          · exact ⟨.inl rfl, dl, src, e1, e2, h1⟩
          · exact ⟨.inr h.1, h.2⟩
        · rintro ⟨rfl | h, h'⟩
          · exact .inl rfl
          · exact .inr ⟨h, h'⟩
      · rw [if_neg hk, this]
        simp only [List.mem_cons]
        constructor
        · rintro ⟨h, h'⟩; exact ⟨.inr h, h'⟩
        · rintro ⟨rfl | h, h'⟩
          · obtain ⟨dl', src', e1', e2', h1'⟩ := h'
            rw [e1] at e1'; rw [e2] at e2'
            cases e1'; cases e2'
            rw [h1] at h1'
            cases h1'
            exact absurd rfl hk
          · exact ⟨h, h'⟩
    · cases h

/-- Cutting all tubes. -/
theorem mapTubes_spec {b : Body S G K V D} (hn : (b.agents.map Prod.fst).Nodup) {f : Tube K → Tube K} {full cut : Trace K}
    (h : mapTubes b f full = .ok cut) :
    (∀ a ∈ b.agents, ∃ segs, Dict.get? full a.1 = some segs ∧ Dict.get? cut a.1 = some (f segs)) ∧ cut.map Prod.fst = b.agents.map Prod.fst := by
  unfold mapTubes at h
  rw [mapM_ok_iff] at h
  have h' : List.Forall₂ (fun (a : String × Logic S G K V D) (x : String × Tube K) =>
      x.1 = a.1 ∧ ∃ rows, Dict.get? full a.1 = some rows ∧ x.2 = f rows) b.agents cut := by
    refine h.imp ?_
    intro a x hx
    cases hg : Dict.get? full a.1 with
    | none => simp only [hg] at hx; cases hx
    | some rows => simp only [hg] at hx; cases hx; exact ⟨rfl, rows, rfl, rfl⟩
  have hk : cut.map Prod.fst = b.agents.map Prod.fst := by
    clear h hn
    generalize b.agents = l at h'
    induction h' with
    | nil => rfl
    | cons h1 _ ih => simp [h1.1, ih]
  refine ⟨?_, hk⟩
  intro a ha
  obtain ⟨x, hx, h1, rows, h2, h3⟩ := forall₂_mem_left h' ha
  refine ⟨rows, h2, ?_⟩
  rw [← h3, ← h1]
  exact Dict.get?_of_mem (by rw [hk]; exact hn) hx

section
variable [Field K] [LinearOrder K]

theorem fillTubes_spec {w : World S K V} {b : Body S G K V D} (hn : (b.agents.map Prod.fst).Nodup) {start remain : ℚ} {given full : Trace K}
    (h : fillTubes w b start remain given = .ok full) :
    Tubes b (fun a m i t => ∃ t0, fullTube (fun r => w.bloat a m r remain) w.segLen i = .ok t0 ∧
      t = t0.map (fun s => { s with t0 := s.t0 + start, t1 := s.t1 + start })) given full := by
  unfold fillTubes at h
  have key := foldlM_inv_pre
    (P := fun pre (tr : Trace K) => (pre.map Prod.fst).Nodup →
      (∀ k segs, Dict.get? given k = some segs → Dict.get? tr k = some segs) ∧
      (∀ k, k ∉ pre.map Prod.fst → Dict.get? tr k = Dict.get? given k) ∧
      ∀ a ∈ pre, Dict.get? given a.1 = none → ∃ m i t, Dict.get? b.mode a.1 = some m ∧ Dict.get? b.init a.1 = some i ∧
        (∃ t0, fullTube (fun r => w.bloat a.1 m r remain) w.segLen i = .ok t0 ∧
          t = t0.map (fun s => { s with t0 := s.t0 + start, t1 := s.t1 + start })) ∧ Dict.get? tr a.1 = some t) h (by simp) ?_
  · exact ⟨(key hn).1, (key hn).2.2⟩
  · rintro pre ⟨a, dl⟩ tr tr' hmem ih hstep hnd
    rw [List.map_append, List.nodup_append] at hnd
    obtain ⟨hnd1, -, hnd2⟩ := hnd
    have hfresh : a ∉ pre.map Prod.fst := fun hx => hnd2 a hx a (by simp) rfl
    obtain ⟨i0, i1, i2⟩ := ih hnd1
    have hold := i1 a hfresh
    dsimp only at hstep
    by_cases hm : Dict.mem tr a
    · rw [if_pos hm] at hstep
      cases hstep
      refine ⟨i0, fun k hk => i1 k (by simp at hk ⊢; tauto), ?_⟩
      intro x hx hnone
      rcases List.mem_append.1 hx with hx | hx
      · exact i2 x hx hnone
      · simp only [List.mem_singleton] at hx
        subst hx
        have hm' := (Dict.mem_iff tr a).1 hm
        rw [hold, hnone] at hm'
        cases hm'
    · rw [if_neg hm] at hstep
      have hm' : Dict.get? given a = none := by
        rw [← hold]
        cases hg : Dict.get? tr a with
        | none => rfl
        | some r => exact absurd ((Dict.mem_iff tr a).2 (by rw [hg]; rfl)) hm
      cases hmo : Dict.get? b.mode a with
      | none => simp only [hmo] at hstep; cases hstep
      | some m =>
        cases hin : Dict.get? b.init a with
        | none => simp only [hmo, hin] at hstep; cases hstep
        | some i =>
          simp only [hmo, hin] at hstep
          obtain ⟨t0, ht0, rfl⟩ := (map_ok_iff _ _ _).1 hstep
          refine ⟨?_, ?_, ?_⟩
          · intro k segs hk
            rw [Dict.get?_set_ne _ _ _ _ (by rintro rfl; rw [hm'] at hk; cases hk)]
            exact i0 k segs hk
          · intro k hk
            rw [Dict.get?_set_ne _ _ _ _ (by rintro rfl; simp at hk)]
            exact i1 k (by simp at hk ⊢; tauto)
          · intro x hx hnone
            rcases List.mem_append.1 hx with hx | hx
            · have hne : a ≠ x.1 := by
                intro e; rw [e] at hfresh; exact hfresh (List.mem_map_of_mem (f := Prod.fst) hx)
              have := i2 x hx hnone
              rw [Dict.get?_set_ne _ _ _ _ hne]
              exact this
            · simp only [List.mem_singleton] at hx
              subst hx
              exact ⟨m, i, _, hmo, hin, ⟨t0, ht0, rfl⟩, Dict.get?_set_self _ _ _⟩

theorem childAgents_spec (t : Trans S G K V D) (trunc : Trace K) (as : List (String × Logic S G K V D))
    (r : Dict String (List (Rect.Box K)) × Trace K) (h : as.foldlM (childAgent t trunc) ([], []) = .ok r) :
    (∀ o, Dict.get? r.1 o = if o ∈ as.map Prod.fst then (if o = t.agent then some t.inits else
      ((Dict.get? trunc o).bind List.head?).map (fun s => [s.box])) else none) ∧
    (∀ o, Dict.get? r.2 o = if o ∈ as.map Prod.fst ∧ o ≠ t.agent then Dict.get? trunc o else none) ∧
    ∀ a ∈ as, a.1 ≠ t.agent → ∃ s segs, Dict.get? trunc a.1 = some (s :: segs) := by
  refine foldlM_inv_pre (fun (as : List (String × Logic S G K V D)) (r : Dict String (List (Rect.Box K)) × Trace K) =>
    (∀ o, Dict.get? r.1 o = if o ∈ as.map Prod.fst then (if o = t.agent then some t.inits else
      ((Dict.get? trunc o).bind List.head?).map (fun s => [s.box])) else none) ∧
    (∀ o, Dict.get? r.2 o = if o ∈ as.map Prod.fst ∧ o ≠ t.agent then Dict.get? trunc o else none) ∧
    ∀ a ∈ as, a.1 ≠ t.agent → ∃ s segs, Dict.get? trunc a.1 = some (s :: segs)) h ⟨by simp, by simp, by simp⟩ ?_
  rintro pre ⟨a, dl⟩ acc acc' _ ⟨i1, i2, i3⟩ hstep
  unfold childAgent at hstep
  have hmem : ∀ o, a ≠ o → (o ∈ (pre ++ [(a, dl)]).map Prod.fst ↔ o ∈ pre.map Prod.fst) := by
    intro o ho
    simp [List.map_append, Ne.symm ho]
  by_cases ha : a = t.agent
  · rw [if_pos ha] at hstep
    cases hstep
    refine ⟨fun o => ?_, fun o => ?_, fun x hx hne => ?_⟩
    · simp only [Dict.get?_set]
      by_cases ho : a = o
      · subst ho; simp [ha]
      · rw [if_neg ho, i1]
        simp only [hmem o ho]
    · simp only
      rw [i2]
      by_cases ho : a = o
      · subst ho; simp [ha]
      · simp only [hmem o ho]
    · rcases List.mem_append.1 hx with hx | hx
      · exact i3 x hx hne
      · simp only [List.mem_singleton] at hx
        subst hx
        exact absurd ha hne
  · rw [if_neg ha] at hstep
    cases hg : Dict.get? trunc a with
    | none => simp only [hg] at hstep; cases hstep
    | some segs =>
      cases segs with
      | nil => simp only [hg] at hstep; cases hstep
      | cons s segs =>
        simp only [hg] at hstep
        cases hstep
        refine ⟨fun o => ?_, fun o => ?_, fun x hx hne => ?_⟩
        · simp only [Dict.get?_set]
          by_cases ho : a = o
          · subst ho; simp [ha, hg]
          · rw [if_neg ho, i1]
            simp only [hmem o ho]
        · simp only [Dict.get?_set]
          by_cases ho : a = o
          · subst ho; simp [ha, hg]
          · rw [if_neg ho, i2]
            simp only [hmem o ho]
        · rcases List.mem_append.1 hx with hx | hx
          · exact i3 x hx hne
          · simp only [List.mem_singleton] at hx
            subst hx
            exact ⟨s, segs, hg⟩

theorem mkChild_spec {w : World S K V} {b : Body S G K V D} (hn : (b.agents.map Prod.fst).Nodup) {full : Trace K} {t : Trans S G K V D}
    {dest : List V} {start : Nat} {c : Engine.Child (Body S G K V D) (Trace K)} (h : mkChild w b full t dest start = .ok c)
    (ha : t.agent ∈ b.agents.map Prod.fst) :
    c.body.agents = b.agents ∧ c.body.static = b.static ∧ c.body.mode = Dict.set b.mode t.agent dest ∧
    Dict.get? c.body.init t.agent = some t.inits ∧ Dict.get? c.trace t.agent = none ∧
    ∀ o ∈ b.agents, o.1 ≠ t.agent → ∃ segs s rest, Dict.get? full o.1 = some segs ∧ segs.drop start = s :: rest ∧
      Dict.get? c.trace o.1 = some (segs.drop start) ∧ Dict.get? c.body.init o.1 = some [s.box] := by
  obtain ⟨trunc, h1, h⟩ := (bind_ok_iff _ _ _).1 h
  obtain ⟨t0, h2, h⟩ := (bind_ok_iff _ _ _).1 h
  obtain ⟨it, h3, rfl⟩ := (map_ok_iff _ _ _).1 h
  obtain ⟨k1, k2, k3⟩ := childAgents_spec _ _ _ _ h3
  obtain ⟨m1, m2⟩ := mapTubes_spec hn h1
  refine ⟨rfl, rfl, rfl, ?_, ?_, ?_⟩
  · simp only; rw [k1, if_pos ha, if_pos rfl]
  · simp only; rw [k2, if_neg (by simp)]
  · intro o ho hne
    obtain ⟨segs, g1, g2⟩ := m1 o ho
    obtain ⟨s, rest, g3⟩ := k3 o ho hne
    have hom : o.1 ∈ b.agents.map Prod.fst := List.mem_map.2 ⟨o, ho, rfl⟩
    rw [g2] at g3
    injection g3 with g3
    refine ⟨segs, s, rest, g1, g3, ?_, ?_⟩
    · simp only; rw [k2, if_pos ⟨hom, hne⟩, g2]
    · simp only; rw [k1, if_pos hom, if_neg hne, g2, g3]; rfl

end

end Verif.Proofs.Ver
