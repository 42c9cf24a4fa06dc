import Verif.Proofs.Verifier3
import Verif.Props.Reset
import Verif.Props.Rect
import Verif.Spec.Partitioned

/-! The event of a switch, and the partitioned step. -/

set_option autoImplicit false
set_option linter.unusedSectionVars false

namespace Verif.Proofs.Ver

open Verif.Ver Verif.Ver.Spec Verif.Rect.Spec Verif.Rst.Spec Verif.Props

variable {S G K V D : Type} [Field K] [LinearOrder K] [DecidableEq V]

theorem switch_event {w : World S K V} {b : Body S G K V D} {full : Trace K} {ts : List (Trans S G K V D)} (wf : Body.WF b)
    (hfound : getTransitions w b full = .ok (.trans ts)) (M : Meaning S G K V D) (hM : Faithful M w b full) (hR : Resettable w b full)
    (i : Nat) (snap : Snap K V) (a : String) (dl : Logic S G K V D) (dest : List V) (state : List K) (mode static : List V)
    (hstep : HasStep full i) (hreach : Reached w b full i)
    (htube : InTube b full i snap) (hctl : Controlled b a dl) (hsnap : (a, state, mode, static) ∈ snap)
    (hlen2 : mode.length = dl.disc.length) (choice : String → Option (Path S G K V D))
    (c1 : ∀ v p, choice v = some p → p ∈ dl.paths ∧ p.var = v ∧ M.holds p a snap)
    (c2 : ∀ p ∈ dl.paths, M.holds p a snap → (choice p.var).isSome) (c3 : ∃ v, (choice v).isSome) (c4 : mode.length = dest.length)
    (c6 : ∀ (i : Nat) (v : String) (y : V), dl.disc[i]? = some v → dest[i]? = some y → match choice v with
      | some p => NewMode (M.disc p a snap) p.val y
      | none => mode[i]? = some y)
    (hextra : NoExtraHit M w b full i a dl snap) :
    ∃ evs e seg segs, permitted w b (grouped evs) = .ok ts ∧ evs.Pairwise (fun x y => x.idx ≤ y.idx) ∧
      (∀ y ∈ evs, ∃ dl sel, Controlled b y.agent dl ∧ Selects w b full y.idx y.agent dl sel ∧ Combo w b full y.idx y.agent sel y.combo) ∧
      e ∈ evs ∧ e.agent = a ∧ e.dest = some dest ∧ e.idx = i ∧ Selects w b full i a dl choice ∧ Combo w b full i a choice e.combo ∧
      Dict.get? b.mode a = some mode ∧ Dict.get? full a = some segs ∧ segs[i]? = some seg ∧ Inside state seg.box := by
  unfold getTransitions at hfound
  obtain ⟨prep, hprep, hfound⟩ := (bind_ok_iff _ _ _).1 hfound
  obtain ⟨N, hN, hfound⟩ := (bind_ok_iff _ _ _).1 hfound
  obtain ⟨sc, hsc, hfound⟩ := (bind_ok_iff _ _ _).1 hfound
  cases sc with
  | asserts d idx => cases hfound
  | hits l =>
    dsimp only at hfound
    obtain ⟨evs, hevs, hfound⟩ := (bind_ok_iff _ _ _).1 hfound
    obtain ⟨ts', hts, hts'⟩ := (map_ok_iff _ _ _).1 hfound
    cases hts'
    obtain ⟨l', hl', hsorted, hlspec⟩ := scan_hits _ _ _ _ hsc
    simp only [List.nil_append] at hl'
    subst hl'
    obtain ⟨hev1, -⟩ := events_sorted hevs hsorted
    have hall : ∀ y ∈ evs, ∃ dl sel, Controlled b y.agent dl ∧ Selects w b full y.idx y.agent dl sel ∧ Combo w b full y.idx y.agent sel y.combo := by
      intro y hy
      obtain ⟨s, _, _, _, _, _, q1, q2, _⟩ := events_sound hevs y hy
      obtain ⟨_, _, q3, _⟩ := hlspec _ q1
      exact checkSample_sound wf.names hprep q3 _ _ q2
    rcases scan_reaches wf.names hprep _ _ _ _ hsc i (Nat.zero_le _) (by rw [Nat.zero_add]; exact (traceLength_spec _ _ hN i).2 hstep)
      (fun j a p _ hj => hreach.1 j a p hj)
      (fun k _ hk hh => by
        rcases hh with hh | ⟨j, a, p, _, hj, hh⟩
        · exact absurd rfl hh
        · exact hreach.2 j k a p hj hk hh) with ⟨_, _, _, _, _, _, e⟩ | ⟨s, hs, has, hmem⟩
    · cases e
    have hsp := checkSample_spec wf.names hprep hs
    obtain ⟨sd, hsd, hin⟩ := htube
    have hsel : Selects w b full i a dl choice := by
      refine ⟨fun v p hp => ?_, fun p hp hit => ?_, c3⟩
      · obtain ⟨p1, p2, p3⟩ := c1 v p hp
        refine ⟨p1, p2, ?_⟩
        rcases hsp.asked has a dl p (mem_controlled.2 hctl) p1 with ⟨sd0, q1, q2⟩ | ⟨r, hr⟩
        · exact absurd p3 (hM.never a dl p sd0 i snap hctl p1 q1 q2 ⟨sd, hsd, hin⟩)
        · have := hM.maybe a p i r snap hr ⟨sd, hsd, hin⟩ p3
          exact ⟨r.2, by rw [← this]; exact hr⟩
      · obtain ⟨p', q1, q2, q3⟩ := hextra p hp hit
        rw [← q2]
        exact c2 p' q1 q3
    obtain ⟨combo, hc1, hcombo⟩ := hsp.hits has a dl (mem_controlled.2 hctl) choice hsel
    obtain ⟨hc2, hc3, hc4⟩ := id hcombo
    obtain ⟨es, he1, he2⟩ := mem_events hevs s i (hmem (List.ne_nil_of_mem hc1) _ rfl) _ hc1
    obtain ⟨y, hy, y1, y2, y3⟩ := forall₂_mem_left hin hsnap
    obtain ⟨x, hx, x1, ⟨segs, x2, x3⟩, x4, x5⟩ := forall₂_mem_right hsd hy
    simp only at y1 y2 y3
    have hxa : x.1 = a := by rw [← x1, ← y1]
    have hym : y.2.2.1 = mode := by rw [← y3]
    rw [hxa] at x2 x4
    rw [hym] at x4
    unfold eventsOf at he1
    rw [Dict.get?_of_mem wf.names hctl.1, x2, x4] at he1
    dsimp only at he1
    rw [x3] at he1
    dsimp only at he1
    obtain ⟨⟨dests, rect⟩, hreset, rfl⟩ := (map_ok_iff _ _ _).1 he1
    have hlwf := wf.logics _ hctl.1
    have hitem : ∀ it ∈ combo.map Hit.item, ∃ h ∈ combo, it = h.item ∧ it.var = h.path.var ∧ it.val = h.path.val ∧ choice it.var = some h.path ∧
        it.disc = M.disc h.path a snap ∧ h.path ∈ dl.paths ∧
          (it.var ∈ dl.disc → (∀ e, it.val ≠ .arith e) ∧ ∀ v, it.val ≠ .member false v) := by
      intro it hit
      obtain ⟨h, hh, rfl⟩ := List.mem_map.1 hit
      obtain ⟨q1, sd0, sd', g, C, q2, q3, q4, q5, q6⟩ := hc3 h hh
      obtain ⟨p1, p2, p3⟩ := c1 _ _ q1
      refine ⟨h, hh, rfl, by rw [q6], by rw [q6], by rw [q6]; exact q1, ?_, p1, ?_⟩
      · rw [q6]
        exact hM.disc a dl h.path sd0 i snap hctl p1 q2 ⟨sd, hsd, hin⟩
      · rw [q6]
        exact (hR a dl h.path sd0 i sd' g C hctl p1 q2 q3 q4 q5).2
    have hvars : ((combo.map Hit.item).map Rst.Item.var).Nodup := by
      have : (combo.map Hit.item).map Rst.Item.var = combo.map (fun h => h.path.var) := by
        rw [List.map_map]
        apply List.map_congr_left
        intro h hh
        obtain ⟨_, sd0, sd', g, C, _, _, _, _, q6⟩ := hc3 h hh
        simp only [Function.comp]
        rw [q6]
      rw [this]; exact hc2
    have hnone : ∀ v, (∀ it ∈ combo.map Hit.item, it.var ≠ v) → choice v = none := by
      intro v hv
      cases hcv : choice v with
      | none => rfl
      | some p =>
        obtain ⟨h, hh, rfl⟩ := hc4 v p hcv
        obtain ⟨_, sd0, sd', g, C, _, _, _, _, q6⟩ := hc3 h hh
        refine absurd ?_ (hv h.item (List.mem_map_of_mem hh))
        rw [q6]
        exact (c1 _ _ hcv).2.1
    have hdest : dest ∈ dests := by
      refine (C26_destinations_partial _ _ _ _ _ _ _ _ _ hreset hlwf.discNodup hlwf.discMode hvars ?_ hlen2 dest).2 ⟨c4, ?_⟩
      · intro it hit hv
        obtain ⟨h, _, _, _, _, _, _, _, hres⟩ := hitem it hit
        exact hres hv
      · intro j v z hv hz
        have := c6 j v z hv hz
        refine ⟨fun it hit hit2 => ?_, fun hno => ?_⟩
        · obtain ⟨h, hh, q1, q2, q3, q4, q5, _⟩ := hitem it hit
          rw [hit2] at q4
          rw [q4] at this
          rw [q5, q3]
          exact this
        · rw [hnone v hno] at this
          exact this
    have hev : (⟨a, some dest, rect, i, combo⟩ : Event S G K V D) ∈ evs := by
      apply he2
      rw [List.mem_map]
      refine ⟨some dest, ?_, rfl⟩
      rw [if_neg]
      · exact List.mem_map_of_mem hdest
      · intro e
        have e' : dests = [] := List.isEmpty_iff.1 e
        rw [e'] at hdest
        cases hdest
    exact ⟨evs, _, y.2.1, segs, hts, hev1, hall, hev, rfl, rfl, rfl, hsel, hcombo, x4, x2, x3, y2⟩

/-- The transition that a switch leads to, with its first event. -/
theorem grouped_first (evs : List (Event S G K V D)) (hs : evs.Pairwise (fun x y => x.idx ≤ y.idx)) (e : Event S G K V D)
    (he : e ∈ evs) : ∃ t ∈ grouped evs, t.agent = e.agent ∧ t.dest = e.dest ∧ ∃ e0 ∈ evs, e0.agent = e.agent ∧ e0.idx ≤ e.idx ∧
      t.idxs.head? = some e0.idx ∧ t.paths = e0.combo.map Hit.path := by
  unfold grouped
  let A := evs.filter (fun x => decide (x.agent = e.agent))
  have hA : e ∈ A := List.mem_filter.2 ⟨he, by simp⟩
  let B := A.filter (fun x => decide (x.combo.length = e.combo.length))
  have hB : e ∈ B := List.mem_filter.2 ⟨hA, by simp⟩
  let C := B.filter (fun x => decide (x.dest = e.dest))
  have hC : e ∈ C := List.mem_filter.2 ⟨hB, by simp⟩
  have m1 : (e.agent, A) ∈ group Event.agent evs := (mem_group _ _ _ _).2 ⟨rfl, List.ne_nil_of_mem hA⟩
  have m2 : (e.combo.length, B) ∈ group (fun (e : Event S G K V D) => e.combo.length) A := (mem_group _ _ _ _).2 ⟨rfl, List.ne_nil_of_mem hB⟩
  have m3 : (e.dest, C) ∈ group Event.dest B := (mem_group _ _ _ _).2 ⟨rfl, List.ne_nil_of_mem hC⟩
  have hsC : C.Pairwise (fun x y => x.idx ≤ y.idx) := ((hs.filter _).filter _).filter _
  have hCA : ∀ x ∈ C, x ∈ evs ∧ x.agent = e.agent := by
    intro x hx
    have := (List.mem_filter.1 (List.mem_filter.1 (List.mem_filter.1 hx).1).1)
    exact ⟨this.1, by simpa using this.2⟩
  refine ⟨_, List.mem_flatMap.2 ⟨_, m1, List.mem_flatMap.2 ⟨_, m2, List.mem_map.2 ⟨_, m3, rfl⟩⟩⟩, rfl, rfl, ?_⟩
  simp only
  generalize C = C at hC hsC hCA
  cases C with
  | nil => cases hC
  | cons c C =>
    refine ⟨c, (hCA c (by simp)).1, (hCA c (by simp)).2, ?_, rfl, rfl⟩
    rcases List.mem_cons.1 hC with rfl | hC
    · exact le_refl _
    · exact (List.pairwise_cons.1 hsC).1 e hC

theorem fillParts_spec {w : PWorld S K V} {b : Body S G K V D} (hn : (b.agents.map Prod.fst).Nodup) {start remain : ℚ} {given full : Trace K}
    (h : fillParts w b start remain given = .ok full) :
    Tubes b (fun a m i t => ∃ t0, partTube (fun r => w.bloat a m r remain) i = .ok t0 ∧
      t = t0.map (fun s => { s with t0 := s.t0 + start, t1 := s.t1 + start })) given full := by
  unfold fillParts at h
  have key := foldlM_inv_pre
    (P := fun pre (tr : Trace K) => (pre.map Prod.fst).Nodup →
      (∀ k segs, Dict.get? given k = some segs → Dict.get? tr k = some segs) ∧
      (∀ k, k ∉ pre.map Prod.fst → Dict.get? tr k = Dict.get? given k) ∧
      ∀ a ∈ pre, Dict.get? given a.1 = none → ∃ m i t, Dict.get? b.mode a.1 = some m ∧ Dict.get? b.init a.1 = some i ∧
        (∃ t0, partTube (fun r => w.bloat a.1 m r remain) i = .ok t0 ∧
          t = t0.map (fun s => { s with t0 := s.t0 + start, t1 := s.t1 + start })) ∧ Dict.get? tr a.1 = some t) h (by simp) ?_
  · exact ⟨(key hn).1, (key hn).2.2⟩
  · rintro pre ⟨a, dl⟩ tr tr' hmem ih hstep hnd
    rw [List.map_append, List.nodup_append] at hnd
    obtain ⟨hnd1, -, hnd2⟩ := hnd
    have hfresh : a ∉ pre.map Prod.fst := fun hx => hnd2 a hx a (by simp) rfl
    obtain ⟨i0, i1, i2⟩ := ih hnd1
    have hold := i1 a hfresh
    dsimp only at hstep
    by_cases hm : Dict.mem tr a
    · rw [if_pos hm] at hstep
      cases hstep
      refine ⟨i0, fun k hk => i1 k (by simp at hk ⊢; tauto), ?_⟩
      intro x hx hnone
      rcases List.mem_append.1 hx with hx | hx
      · exact i2 x hx hnone
      · simp only [List.mem_singleton] at hx
        subst hx
        have hm' := (Dict.mem_iff tr a).1 hm
        rw [hold, hnone] at hm'
        cases hm'
    · rw [if_neg hm] at hstep
      have hm' : Dict.get? given a = none := by
        rw [← hold]
        cases hg : Dict.get? tr a with
        | none => rfl
        | some r => exact absurd ((Dict.mem_iff tr a).2 (by rw [hg]; rfl)) hm
      cases hmo : Dict.get? b.mode a with
      | none => simp only [hmo] at hstep; cases hstep
      | some m =>
        cases hin : Dict.get? b.init a with
        | none => simp only [hmo, hin] at hstep; cases hstep
        | some i =>
          simp only [hmo, hin] at hstep
          obtain ⟨t0, ht0, rfl⟩ := (map_ok_iff _ _ _).1 hstep
          refine ⟨?_, ?_, ?_⟩
          · intro k segs hk
            rw [Dict.get?_set_ne _ _ _ _ (by rintro rfl; rw [hm'] at hk; cases hk)]
            exact i0 k segs hk
          · intro k hk
            rw [Dict.get?_set_ne _ _ _ _ (by rintro rfl; simp at hk)]
            exact i1 k (by simp at hk ⊢; tauto)
          · intro x hx hnone
            rcases List.mem_append.1 hx with hx | hx
            · have hne : a ≠ x.1 := by
                intro e; rw [e] at hfresh; exact hfresh (List.mem_map_of_mem (f := Prod.fst) hx)
              have := i2 x hx hnone
              rw [Dict.get?_set_ne _ _ _ _ hne]
              exact this
            · simp only [List.mem_singleton] at hx
              subst hx
              exact ⟨m, i, _, hmo, hin, ⟨t0, ht0, rfl⟩, Dict.get?_set_self _ _ _⟩

/-- Replacing the rectangle, and then perhaps the mode, of one agent. -/
theorem withinMoved_set (a : String) (src dest : List V) (snap : Snap K V) (sd : StateDict K V) (seg : Seg K) (h : Within snap sd)
    (hnd : (snap.map Prod.fst).Nodup) (state : List K) (static : List V) (hm : (a, state, src, static) ∈ snap) (hin : Inside state seg.box) :
    WithinMoved a dest snap (if src ≠ dest then setMode (setSeg sd a seg) a dest else setSeg sd a seg) := by
  have key : List.Forall₂ (fun (x : String × List K × List V × List V) (y : String × Seg K × List V × List V) =>
      x ∈ snap ∧ x.1 = y.1 ∧ Inside x.2.1 y.2.1.box ∧ x.2.2 = y.2.2) snap sd := by
    have := (List.forall₂_and_left _ _).2 ⟨fun x (hx : x ∈ snap) => hx, h⟩
    exact this
  have huniq : ∀ x ∈ snap, x.1 = a → x = (a, state, src, static) := by
    intro x hx e
    have := List.inj_on_of_nodup_map hnd hx hm e
    exact this
  by_cases e : src = dest
  · rw [if_neg (by simpa using e)]
    unfold WithinMoved setSeg
    rw [List.forall₂_map_right_iff]
    refine key.imp ?_
    rintro x y ⟨h0, h1, h2, h3⟩
    by_cases ha : x.1 = a
    · have hx := huniq x h0 ha
      rw [if_pos (by rw [← h1]; exact ha), if_pos ha]
      refine ⟨h1, by rw [hx]; exact hin, ?_, by rw [h3]⟩
      rw [← h3, hx]
      exact e
    · rw [if_neg (by rw [← h1]; exact ha), if_neg ha]
      exact ⟨h1, h2, by rw [h3], by rw [h3]⟩
  · rw [if_pos (by simpa using e)]
    unfold WithinMoved setSeg setMode
    rw [List.map_map, List.forall₂_map_right_iff]
    refine key.imp ?_
    rintro x y ⟨h0, h1, h2, h3⟩
    simp only [Function.comp]
    by_cases ha : x.1 = a
    · have hx := huniq x h0 ha
      have hy : y.1 = a := by rw [← h1]; exact ha
      rw [if_pos hy, if_pos ha]
      simp only [hy, if_true]
      refine ⟨ha, by rw [hx]; exact hin, trivial, by rw [h3]⟩
    · have hy : ¬ y.1 = a := by rw [← h1]; exact ha
      rw [if_neg hy, if_neg ha]
      simp only [hy, if_false]
      exact ⟨h1, h2, by rw [h3], by rw [h3]⟩

end Verif.Proofs.Ver
