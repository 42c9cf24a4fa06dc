import Verif.Proofs.Verifier2
import Verif.Props.Reset

/-!
Properties C27 and C28: one step of the reachability analysis finds every transition and every failed assert of the tubes it scans.
-/

set_option autoImplicit false
set_option linter.unusedSectionVars false

namespace Verif.Props

open Verif.Ver Verif.Ver.Spec Verif.Proofs.Ver Verif.Rect.Spec Verif.Rst.Spec

section
variable {S G K V D : Type} [Field K] [LinearOrder K] [DecidableEq V]

/-- How the tube of an agent comes from its initial rectangles, with the time shifted to the start of the node. -/
def FromInit (w : World S K V) (start remain : ℚ) (a : String) (m : List V) (i : List (Rect.Box K)) (t : Tube K) : Prop :=
  ∃ t0, fullTube (fun r => w.bloat a m r remain) w.segLen i = .ok t0 ∧ t = t0.map (fun s => { s with t0 := s.t0 + start, t1 := s.t1 + start })

/-- **C27**, in part. Let the step of a node report no failed assert. If the answers about guards are right, then for every state of the tubes
at step `i` in which an agent can switch, there is a child that covers the switch, provided that the earlier steps do not end the search and
that no guard for another variable may be satisfied elsewhere in the tube at step `i`.

Missing: steps after a gap in the hits (`C27_gap_violated`) and resets of other variables that are possible elsewhere in the tube
(`C27_joint_violated`), for which the claim is false. -/
theorem C27_switch_covered_partial (w : World S K V) (n : Engine.Work (Body S G K V D) (Trace K)) (remain : ℚ)
    (res : Engine.Result (Body S G K V D) (Trace K) (Option (Dict String (List String)))) (wf : Body.WF n.body)
    (hrun : verifyOne w n remain = .ok res) (hsafe : res.hits = none) :
    ∃ full, Tubes n.body (FromInit w n.start remain) n.trace full ∧
      ∀ (M : Meaning S G K V D), Faithful M w n.body full → Resettable w n.body full →
      ∀ i snap a dl dest post, HasStep full i → Reached w n.body full i → InTube n.body full i snap →
        CanSwitch M w n.body snap a dl dest post → NoExtraHit M w n.body full i a dl snap →
        ∃ c ∈ res.next, Covers n.body full i a dest post c := by
  obtain ⟨full, hfill, h⟩ := (bind_ok_iff _ _ _).1 hrun
  refine ⟨full, fillTubes_spec wf.names hfill, ?_⟩
  obtain ⟨found, hfound, h⟩ := (bind_ok_iff _ _ _).1 h
  unfold getTransitions at hfound
  obtain ⟨prep, hprep, hfound⟩ := (bind_ok_iff _ _ _).1 hfound
  obtain ⟨N, hN, hfound⟩ := (bind_ok_iff _ _ _).1 hfound
  obtain ⟨sc, hsc, hfound⟩ := (bind_ok_iff _ _ _).1 hfound
  intro M hM hR i snap a dl dest post hstep hreach htube hswitch hextra
  cases sc with
  | asserts d idx =>
    cases hfound
    dsimp only at h
    split at h
    · cases h
    · obtain ⟨cut, _, rfl⟩ := (map_ok_iff _ _ _).1 h
      cases hsafe
  | hits l =>
    dsimp only at hfound
    obtain ⟨evs, hevs, hfound⟩ := (bind_ok_iff _ _ _).1 hfound
    obtain ⟨ts, hts, rfl⟩ := (map_ok_iff _ _ _).1 hfound
    obtain ⟨l', hl', hsorted, -⟩ := scan_hits _ _ _ _ hsc
    simp only [List.nil_append] at hl'
    subst hl'
    obtain ⟨hev1, -⟩ := events_sorted hevs hsorted
    rcases scan_reaches wf.names hprep _ _ _ _ hsc i (Nat.zero_le _) (by rw [Nat.zero_add]; exact (traceLength_spec _ _ hN i).2 hstep)
      (fun j a p _ hj => hreach.1 j a p hj)
      (fun k _ hk hh => by
        rcases hh with hh | ⟨j, a, p, _, hj, hh⟩
        · exact absurd rfl hh
        · exact hreach.2 j k a p hj hk hh) with ⟨_, _, _, _, _, _, e⟩ | ⟨s, hs, has, hmem⟩
    · cases e
    have hsp := checkSample_spec wf.names hprep hs
    obtain ⟨sd, hsd, hin⟩ := htube
    obtain ⟨state, mode, static, hctl, hsnap, hlen1, hlen2, ⟨choice, c1, c2, c3, c4, c5, c6, c7⟩, hmap⟩ := hswitch
    -- the choice is one of the hits
    have hsel : Selects w n.body full i a dl choice := by
      refine ⟨fun v p hp => ?_, fun p hp hit => ?_, c3⟩
      · obtain ⟨p1, p2, p3⟩ := c1 v p hp
        refine ⟨p1, p2, ?_⟩
        rcases hsp.asked has a dl p (mem_controlled.2 hctl) p1 with ⟨sd0, q1, q2⟩ | ⟨r, hr⟩
        · exact absurd p3 (hM.never a dl p sd0 i snap hctl p1 q1 q2 ⟨sd, hsd, hin⟩)
        · have := hM.maybe a p i r snap hr ⟨sd, hsd, hin⟩ p3
          exact ⟨r.2, by rw [← this]; exact hr⟩
      · obtain ⟨p', q1, q2, q3⟩ := hextra p hp hit
        rw [← q2]
        exact c2 p' q1 q3
    obtain ⟨combo, hc1, hc2, hc3, hc4⟩ := hsp.hits has a dl (mem_controlled.2 hctl) choice hsel
    obtain ⟨es, he1, he2⟩ := mem_events hevs s i (hmem (List.ne_nil_of_mem hc1) _ rfl) _ hc1
    -- the rectangle and the mode of the agent
    obtain ⟨y, hy, y1, y2, y3⟩ := forall₂_mem_left hin hsnap
    obtain ⟨x, hx, x1, ⟨segs, x2, x3⟩, x4, x5⟩ := forall₂_mem_right hsd hy
    simp only at y1 y2 y3
    have hxa : x.1 = a := by rw [← x1, ← y1]
    have hym : y.2.2.1 = mode := by rw [← y3]
    rw [hxa] at x2 x4
    rw [hym] at x4
    unfold eventsOf at he1
    rw [Dict.get?_of_mem wf.names hctl.1, x2, x4] at he1
    dsimp only at he1
    rw [x3] at he1
    dsimp only at he1
    obtain ⟨⟨dests, rect⟩, hreset, rfl⟩ := (map_ok_iff _ _ _).1 he1
    have hlwf := wf.logics _ hctl.1
    have hitem : ∀ it ∈ combo.map Hit.item, ∃ h ∈ combo, it = h.item ∧ it.var = h.path.var ∧ it.val = h.path.val ∧ choice it.var = some h.path ∧
        it.disc = M.disc h.path a snap ∧ h.path ∈ dl.paths ∧ InRange it.cont (M.vars h.path a snap) ∧
        ((∀ e, it.val = .arith e → it.var ∈ dl.cont → Readable w.sh w.rd it.cont e ∧ NoVarPow it.cont e ∧ Between w.rd it.cont e) ∧
          (it.var ∈ dl.disc → (∀ e, it.val ≠ .arith e) ∧ ∀ v, it.val ≠ .member false v)) := by
      intro it hit
      obtain ⟨h, hh, rfl⟩ := List.mem_map.1 hit
      obtain ⟨q1, sd0, sd', g, C, q2, q3, q4, q5, q6⟩ := hc3 h hh
      obtain ⟨p1, p2, p3⟩ := c1 _ _ q1
      refine ⟨h, hh, rfl, by rw [q6], by rw [q6], by rw [q6]; exact q1, ?_, p1, ?_, ?_⟩
      · rw [q6]
        exact hM.disc a dl h.path sd0 i snap hctl p1 q2 ⟨sd, hsd, hin⟩
      · rw [q6]
        have e := boxes_det q3 hsd
        subst e
        exact hM.range a dl h.path sd0 i sd' g C snap hctl p1 q2 q3 q4 q5 hin
      · rw [q6]
        exact hR a dl h.path sd0 i sd' g C hctl p1 q2 q3 q4 q5
    have hvars : ((combo.map Hit.item).map Rst.Item.var).Nodup := by
      have : (combo.map Hit.item).map Rst.Item.var = combo.map (fun h => h.path.var) := by
        rw [List.map_map]
        apply List.map_congr_left
        intro h hh
        obtain ⟨_, sd0, sd', g, C, _, _, _, _, q6⟩ := hc3 h hh
        simp only [Function.comp]
        rw [q6]
      rw [this]; exact hc2
    have hnone : ∀ v, (∀ it ∈ combo.map Hit.item, it.var ≠ v) → choice v = none := by
      intro v hv
      cases hcv : choice v with
      | none => rfl
      | some p =>
        obtain ⟨h, hh, rfl⟩ := hc4 v p hcv
        obtain ⟨_, sd0, sd', g, C, _, _, _, _, q6⟩ := hc3 h hh
        refine absurd ?_ (hv h.item (List.mem_map_of_mem hh))
        rw [q6]
        exact (c1 _ _ hcv).2.1
    have hdest : dest ∈ dests := by
      refine (C26_destinations_partial _ _ _ _ _ _ _ _ _ hreset hlwf.discNodup hlwf.discMode hvars ?_ hlen2 dest).2 ⟨c4, ?_⟩
      · intro it hit hv
        obtain ⟨h, _, _, _, _, _, _, _, _, hres⟩ := hitem it hit
        exact hres.2 hv
      · intro j v z hv hz
        have := c6 j v z hv hz
        refine ⟨fun it hit hit2 => ?_, fun hno => ?_⟩
        · obtain ⟨h, hh, q1, q2, q3, q4, q5, _⟩ := hitem it hit
          rw [hit2] at q4
          rw [q4] at this
          rw [q5, q3]
          exact this
        · rw [hnone v hno] at this
          exact this
    have hpost : Inside post rect := by
      refine C26_reset_rectangle_partial _ _ _ _ _ _ _ _ _ hreset hlwf.contNodup hlwf.contMode hvars ?_ state post
        (fun it => match choice it.var with | some p => M.vars p a snap | none => fun _ => none) ?_ hlen1 y2 ⟨c5, ?_⟩
      · intro it hit e hval hv
        obtain ⟨h, _, _, _, _, _, _, _, _, hres⟩ := hitem it hit
        exact hres.1 e hval hv
      · intro it hit
        obtain ⟨h, _, _, _, _, q4, _, _, q7, _⟩ := hitem it hit
        simp only [q4]
        exact q7
      · intro j v hv
        have := c7 j v hv
        refine ⟨fun it hit hit2 => ?_, fun hno => ?_⟩
        · obtain ⟨h, hh, q1, q2, q3, q4, q5, _⟩ := hitem it hit
          simp only [q4]
          rw [hit2] at q4
          rw [q4] at this
          rw [q3]
          exact this
        · rw [hnone v hno] at this
          exact this
    -- the transition and the child
    have hev : (⟨a, some dest, rect, i, combo⟩ : Event S G K V D) ∈ evs := by
      apply he2
      rw [List.mem_map]
      refine ⟨some dest, ?_, rfl⟩
      rw [if_neg]
      · exact List.mem_map_of_mem hdest
      · intro e
        have e' : dests = [] := List.isEmpty_iff.1 e
        rw [e'] at hdest
        cases hdest
    obtain ⟨t, ht, t1, t2, t3, t4, j, t5, t6⟩ := mem_grouped evs hev1 _ hev
    simp only at t1 t2 t3 t6
    have htp : t ∈ ts := by
      rw [mem_permitted _ _ hts]
      refine ⟨ht, dl, mode, by rw [t1]; exact Dict.get?_of_mem wf.names hctl.1, by rw [t1]; exact x4, ?_⟩
      rw [t2]
      exact (mapAllows_iff w dl mode dest).2 hmap
    cases ts with
    | nil => cases htp
    | cons u us =>
      dsimp only at h
      obtain ⟨cs, hcs, h⟩ := (bind_ok_iff _ _ _).1 h
      obtain ⟨cut, _, rfl⟩ := (map_ok_iff _ _ _).1 h
      rw [mapM_ok_iff] at hcs
      obtain ⟨cc, hcc, hch⟩ := forall₂_mem_left hcs htp
      unfold childOf at hch
      rw [t5, t2] at hch
      cases hlast : t.idxs.getLast? with
      | none => rw [hlast] at hch; cases hch
      | some stop =>
        rw [hlast] at hch
        dsimp only at hch
        obtain ⟨c, hc, rfl⟩ := (map_ok_iff _ _ _).1 hch
        refine ⟨c, List.mem_flatten.2 ⟨[c], List.mem_map.2 ⟨_, hcc, rfl⟩, by simp⟩, ?_⟩
        have hag : t.agent ∈ n.body.agents.map Prod.fst := by
          rw [t1]; exact List.mem_map.2 ⟨_, hctl.1, rfl⟩
        obtain ⟨k1, k2, k3, k4, k5, k6⟩ := mkChild_spec wf.names hc hag
        rw [t1] at k3 k4 k5 k6
        refine ⟨k1, k2, fun o => ?_, ⟨t.inits, k4, rect, t3, hpost⟩, k5, j, t6, fun o ho hne => ?_⟩
        · rw [k3, Dict.get?_set]
          by_cases e : a = o
          · rw [if_pos e, if_pos e.symm]
          · rw [if_neg e, if_neg (Ne.symm e)]
        · obtain ⟨segs, _, _, g1, _, g3, _⟩ := k6 o ho hne
          exact ⟨segs, g1, g3⟩

/-- **C27**, in part, for the first step at which a guard is satisfied: it needs no assumption about the search if the checks are exact,
i.e. a guard that may be satisfied is satisfied somewhere in the tube, and one that contains the tube is satisfied everywhere. -/
theorem C27_first_switch_partial (w : World S K V) (n : Engine.Work (Body S G K V D) (Trace K)) (remain : ℚ)
    (res : Engine.Result (Body S G K V D) (Trace K) (Option (Dict String (List String)))) (wf : Body.WF n.body)
    (hrun : verifyOne w n remain = .ok res) (hsafe : res.hits = none) :
    ∃ full, Tubes n.body (FromInit w n.start remain) n.trace full ∧
      ∀ (M : Meaning S G K V D), Faithful M w n.body full → Resettable w n.body full →
      (∀ j a p, HitAt w n.body full j a p → ∃ s, InTube n.body full j s ∧ M.holds p a s) →
      (∀ j a p, ContainedAt w n.body full j a p → ∀ s, InTube n.body full j s → M.holds p a s) →
      ∀ i snap a dl dest post, HasStep full i → (∀ j, j < i → ∃ s, InTube n.body full j s) →
        (∀ j s a p, j < i → InTube n.body full j s → ¬ M.holds p a s) → InTube n.body full i snap →
        CanSwitch M w n.body snap a dl dest post → NoExtraHit M w n.body full i a dl snap →
        ∃ c ∈ res.next, Covers n.body full i a dest post c := by
  obtain ⟨full, h1, h2⟩ := C27_switch_covered_partial w n remain res wf hrun hsafe
  refine ⟨full, h1, fun M hM hR hexact hcont i snap a dl dest post hstep hne hfirst htube hsw hx => ?_⟩
  refine h2 M hM hR i snap a dl dest post hstep ⟨fun j a p hj hc => ?_, fun j k a p hj hk hit => ?_⟩ htube hsw hx
  · obtain ⟨s, hs⟩ := hne j hj
    exact hfirst j s a p hj hs (hcont j a p hc s hs)
  · obtain ⟨s, hs, hh⟩ := hexact j a p hit
    exact absurd hh (hfirst j s a p (by omega) hs)

/-- **C28**, in part. If at a step that the search reaches the precondition of an assert is certainly true, and its condition is false in some
state of the tubes, then a failed assert is recorded, at this or an earlier step `j`: exactly the labels of the asserts that fail at `j`, and
the tubes of the node end with step `j`.

Missing: preconditions that are true in part of the tube only (`C28_precondition_violated`), for which the claim is false. -/
theorem C28_failure_recorded_partial (w : World S K V) (n : Engine.Work (Body S G K V D) (Trace K)) (remain : ℚ)
    (res : Engine.Result (Body S G K V D) (Trace K) (Option (Dict String (List String)))) (wf : Body.WF n.body)
    (hrun : verifyOne w n remain = .ok res) :
    ∃ full, Tubes n.body (FromInit w n.start remain) n.trace full ∧
      ∀ (M : Meaning S G K V D), (∀ i a dl x sd, Controlled n.body a dl → x ∈ dl.asserts → Boxes n.body full i sd →
          x.cond (w.sense a sd) = .ok (true, true) → ∀ s, Within s sd → M.cond x a s) →
      ∀ i snap a dl x sd, HasStep full i → Reached w n.body full i → Controlled n.body a dl → x ∈ dl.asserts →
        Boxes n.body full i sd → x.pre (w.sense a sd) = .ok (true, true) → Within snap sd → ¬ M.cond x a snap →
        ∃ d j, j ≤ i ∧ res.hits = some d ∧ res.next = [] ∧
          (∀ a' lab, (∃ ls, Dict.get? d a' = some ls ∧ lab ∈ ls) ↔ ∃ y, y.label = lab ∧ FailsAt w n.body full j a' y) ∧
          ∀ o ∈ n.body.agents, ∃ segs, Dict.get? full o.1 = some segs ∧ Dict.get? res.trace o.1 = some (segs.take (j + 1)) := by
  obtain ⟨full, hfill, h⟩ := (bind_ok_iff _ _ _).1 hrun
  refine ⟨full, fillTubes_spec wf.names hfill, ?_⟩
  obtain ⟨found, hfound, h⟩ := (bind_ok_iff _ _ _).1 h
  unfold getTransitions at hfound
  obtain ⟨prep, hprep, hfound⟩ := (bind_ok_iff _ _ _).1 hfound
  obtain ⟨N, hN, hfound⟩ := (bind_ok_iff _ _ _).1 hfound
  obtain ⟨sc, hsc, hfound⟩ := (bind_ok_iff _ _ _).1 hfound
  intro M hM i snap a dl x sd hstep hreach hctl hx hsd hpre hin hcond
  rcases scan_reaches wf.names hprep _ _ _ _ hsc i (Nat.zero_le _) (by rw [Nat.zero_add]; exact (traceLength_spec _ _ hN i).2 hstep)
      (fun j a p _ hj => hreach.1 j a p hj)
      (fun k _ hk hh => by
        rcases hh with hh | ⟨j, a, p, _, hj, hh⟩
        · exact absurd rfl hh
        · exact hreach.2 j k a p hj hk hh) with ⟨j, s, _, hj, hs, has, rfl⟩ | ⟨s, hs, has, -⟩
  · cases hfound
    dsimp only at h
    split at h
    · cases h
    · obtain ⟨cut, hcut, rfl⟩ := (map_ok_iff _ _ _).1 h
      refine ⟨s.asserts, j, hj, rfl, rfl, fun a' lab => ?_, (mapTubes_spec wf.names hcut).1⟩
      rw [(checkSample_spec wf.names hprep hs).fails]
      constructor
      · rintro ⟨dl, y, _, y2, _, y4⟩
        exact ⟨y, y2, y4⟩
      · rintro ⟨y, y2, y4⟩
        have y4' := y4
        obtain ⟨dl, _, z1, z2, _⟩ := y4'
        exact ⟨dl, y, mem_controlled.2 z1, y2, z2, y4⟩
  · have hsp := checkSample_spec wf.names hprep hs
    obtain ⟨q, hq⟩ := (hsp.evaluated a dl x sd (mem_controlled.2 hctl) hx hsd).2 hpre
    have hne : q ≠ (true, true) := by
      rintro rfl
      exact hcond (hM i a dl x sd hctl hx hsd hq snap hin)
    obtain ⟨ls, hls, _⟩ := (hsp.fails a x.label).2 ⟨dl, x, mem_controlled.2 hctl, rfl, hx, dl, sd, hctl, hx, hsd, hpre, q, hq, hne⟩
    rw [has] at hls
    cases hls

/-- **C28**, soundness of what is recorded: the labels are those of the asserts that fail at one step, up to which the tubes are kept, and
for which the precondition is certainly true and the condition not certainly true. -/
theorem C28_recorded_fails (w : World S K V) (n : Engine.Work (Body S G K V D) (Trace K)) (remain : ℚ)
    (res : Engine.Result (Body S G K V D) (Trace K) (Option (Dict String (List String)))) (wf : Body.WF n.body)
    (hrun : verifyOne w n remain = .ok res) (d : Dict String (List String)) (hd : res.hits = some d) :
    ∃ full j, Tubes n.body (FromInit w n.start remain) n.trace full ∧ res.next = [] ∧
      (∃ a y, FailsAt w n.body full j a y) ∧
      (∀ a' lab, (∃ ls, Dict.get? d a' = some ls ∧ lab ∈ ls) ↔ ∃ y, y.label = lab ∧ FailsAt w n.body full j a' y) ∧
      ∀ o ∈ n.body.agents, ∃ segs, Dict.get? full o.1 = some segs ∧ Dict.get? res.trace o.1 = some (segs.take (j + 1)) := by
  obtain ⟨full, hfill, h⟩ := (bind_ok_iff _ _ _).1 hrun
  obtain ⟨found, hfound, h⟩ := (bind_ok_iff _ _ _).1 h
  unfold getTransitions at hfound
  obtain ⟨prep, hprep, hfound⟩ := (bind_ok_iff _ _ _).1 hfound
  obtain ⟨N, hN, hfound⟩ := (bind_ok_iff _ _ _).1 hfound
  obtain ⟨sc, hsc, hfound⟩ := (bind_ok_iff _ _ _).1 hfound
  cases sc with
  | hits l =>
    dsimp only at hfound
    obtain ⟨evs, hevs, hfound⟩ := (bind_ok_iff _ _ _).1 hfound
    obtain ⟨ts, hts, rfl⟩ := (map_ok_iff _ _ _).1 hfound
    cases ts with
    | nil => cases h; cases hd
    | cons u us =>
      dsimp only at h
      obtain ⟨cs, hcs, h⟩ := (bind_ok_iff _ _ _).1 h
      obtain ⟨cut, _, rfl⟩ := (map_ok_iff _ _ _).1 h
      cases hd
  | asserts d' j =>
    cases hfound
    dsimp only at h
    split at h
    · cases h
    · obtain ⟨cut, hcut, rfl⟩ := (map_ok_iff _ _ _).1 h
      cases hd
      obtain ⟨s, hs, has, rfl⟩ := scan_asserts _ _ _ _ _ hsc
      have hsp := checkSample_spec wf.names hprep hs
      refine ⟨full, j, fillTubes_spec wf.names hfill, rfl, ?_, fun a' lab => ?_, (mapTubes_spec wf.names hcut).1⟩
      · obtain ⟨a, dl, y, _, hy⟩ := asserts_nil hsp has
        exact ⟨a, y, hy⟩
      · rw [hsp.fails]
        constructor
        · rintro ⟨dl, y, _, y2, _, y4⟩
          exact ⟨y, y2, y4⟩
        · rintro ⟨y, y2, y4⟩
          have y4' := y4
          obtain ⟨dl, _, z1, z2, _⟩ := y4'
          exact ⟨dl, y, mem_controlled.2 z1, y2, z2, y4⟩

end

end Verif.Props
